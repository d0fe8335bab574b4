import Mathlib.Data.List.Basic

/-!
# Model of the Level 2 processing queue

`bash/force-level2.sh`. The queue file is a list of lines, a line is a list of characters. A worker is one call of
`process_this_image`; what it does before it updates the queue file only matters through its status.
-/

namespace Verif.L2queue

/-! ## The `sed` command -/

/-- force-level2.sh:266: the regular expression `PATH .*` matches at the beginning of the text. A point in the path
matches any character. Simplification: other special characters of extended regular expressions
(`\ ^ $ * ? ( ) [ ] { } |`) are taken literally. -/
def matchesAt : List Char → List Char → Bool
  | [], c :: _ => c = ' '
  | [], [] => false
  | p :: ps, c :: cs => (p = '.' || p = c) && matchesAt ps cs
  | _ :: _, [] => false

/-- force-level2.sh:266: `s+(PATH) .*+\1 STATUS+` on one line: the leftmost match is replaced, it extends to the end
of the line. The regular expression is not anchored. -/
def sedLine (path status : List Char) : List Char → List Char
  | [] => []
  | c :: cs =>
    if matchesAt path (c :: cs) then (c :: cs).take path.length ++ ' ' :: status
    else c :: sedLine path status cs

/-- force-level2.sh:266: all lines. If the path contains the delimiter `+` the command is not valid: `sed` fails and
leaves the file as it is. -/
def sedFile (path status : List Char) (file : List (List Char)) : List (List Char) :=
  if path.contains '+' then file else file.map (sedLine path status)

/-! ## The queue -/

/-- force-level2.sh:359: `grep 'QUEUED'`. -/
def hasQueued : List Char → Bool
  | 'Q' :: 'U' :: 'E' :: 'U' :: 'E' :: 'D' :: _ => true
  | _ :: l => hasQueued l
  | [] => false

/-- force-level2.sh:359: `sed 's/QUEUED//g'`. -/
def dropQueued : List Char → List Char
  | 'Q' :: 'U' :: 'E' :: 'U' :: 'E' :: 'D' :: l => dropQueued l
  | c :: l => c :: dropQueued l
  | [] => []

/-- force-level2.sh:359, 117: the images to be processed; blanks are removed. -/
def images (file : List (List Char)) : List (List Char) :=
  (file.filter hasQueued).map fun l => (dropQueued l).filter (· ≠ ' ')

/-! ## Workers -/

/-- What a worker is doing: processing the image, holding (or not) the lock before the update, `sed` has read the
file, `sed` has replaced the file, finished. -/
inductive Pc where
  | work
  | locked
  | read (snap : List (List Char))
  | written
  | done
deriving DecidableEq

/-- Steps of a worker. -/
inductive Act where
  | lock
  | giveUp
  | read
  | write
  | unlock
deriving DecidableEq

/-- Queue file, lock file (with its owner), workers. -/
structure Sys where
  file : List (List Char)
  lock : Option Nat
  pcs : List Pc

/-- force-level2.sh:265-269: worker `i` with image `path` and status `status` makes a step. `lock`: `lockfile-create`
creates the lock file, only if there is none; `giveUp`: it fails after several attempts, its exit status is not
checked; `read`, `write`: `sed -i` reads the file and replaces it; `unlock`: `lockfile-remove` removes the lock
file. `none`: the step is not possible. -/
def act (jobs : List (List Char × List Char)) (s : Sys) (i : Nat) (a : Act) : Option Sys :=
  match jobs[i]?, s.pcs[i]?, a with
  | some _, some .work, .lock =>
    if s.lock.isNone then some { s with lock := some i, pcs := s.pcs.set i .locked } else none
  | some _, some .work, .giveUp => some { s with pcs := s.pcs.set i .locked }
  | some _, some .locked, .read => some { s with pcs := s.pcs.set i (.read s.file) }
  | some j, some (.read snap), .write => some { s with file := sedFile j.1 j.2 snap, pcs := s.pcs.set i .written }
  | some _, some .written, .unlock => some { s with lock := none, pcs := s.pcs.set i .done }
  | _, _, _ => none

/-- A schedule: which worker makes which step. -/
def exec (jobs : List (List Char × List Char)) : List (Nat × Act) → Sys → Option Sys
  | [], s => some s
  | (i, a) :: l, s => (act jobs s i a).bind (exec jobs l)

/-- force-level2.sh:397-399: the workers start. -/
def start (file : List (List Char)) (n : Nat) : Sys := ⟨file, none, List.replicate n .work⟩

end Verif.L2queue

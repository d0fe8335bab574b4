import Mathlib.Analysis.SpecialFunctions.Exp
import Verif.Brick.Model

/-!
# Several processes that write into the same files

Models `write_brick` of `src/modules/cross-level/brick_io-cl.cpp` (222-507) when several processes
(the images of Level 2 processing run in parallel and share tiles) write at the same time, and
`lock_timeout` of `src/modules/cross-level/lock-cl.c`.

Each lock guards one path: the directory of the tile, the image file, the provenance file. The code
between `CPLLockFile` and `CPLUnlockFile` is a list of single steps; the processes are interleaved
between any two of these steps by an arbitrary schedule.

Simplifications: `CPLLockFile` of GDAL is taken as an atomic test-and-create that waits while the
lock file exists (it is outside of the repository); a process that gives up waiting (timeout), that
returns FAILURE or that is killed stops and does not remove its lock file, see `Event.stop`. Chunk
mode (C26) is left out. The bands of a file are indexed from 0. -/

namespace Verif.Share

/-! ## Processes, locks and schedules -/

/-- One step of a process on the path it has locked: local variables and file before and after;
`none`: `return FAILURE`. -/
abbrev Step (L F : Type) := L → F → Option (L × F)

/-- A process: the sections that it still has to complete (the first one is the current one),
the steps that are left of the current section if the process is inside of it, and the local
variables. `running = false`: stopped. -/
structure Proc (S L F : Type) where
  todo : List S
  inside : Option (List (Step L F))
  loc : L
  running : Bool

/-- The file system, the lock files, the processes. `log`: the sections completed so far, in this
order (not part of the program). -/
structure World (P S N L F : Type) where
  fs : N → F
  lk : N → Option P
  pr : P → Proc S L F
  log : List (P × S)

/-- The schedule: process `i` makes one step, or it stops for whatever reason (killed, timeout while
waiting for a lock, any of the failures between 223 and 505). -/
inductive Event (P : Type) where
  | go (i : P)
  | stop (i : P)

section
variable {P S N L F : Type} [DecidableEq P] [DecidableEq N]
  (name : S → N) (body : S → List (Step L F))

/-- One step of process `i`, where section `s` locks `name s` and consists of `body s`:
brick_io-cl.cpp:224 (254, 475) wait for the lock or take it, a step in between, or 228 (468, 504)
unlock. -/
def go (w : World P S N L F) (i : P) : World P S N L F :=
  let p := w.pr i
  if !p.running then w else
  match p.todo with
  | [] => w
  | s :: rest =>
    match p.inside with
    | none =>
      match w.lk (name s) with
      | some _ => w
      | none => { w with
          lk := Function.update w.lk (name s) (some i)
          pr := Function.update w.pr i { p with inside := some (body s) } }
    | some (f :: bs) =>
      match f p.loc (w.fs (name s)) with
      | none => { w with pr := Function.update w.pr i { p with running := false } }
      | some (l, c) => { w with
          fs := Function.update w.fs (name s) c
          pr := Function.update w.pr i { p with inside := some bs, loc := l } }
    | some [] => { w with
        lk := Function.update w.lk (name s) none
        pr := Function.update w.pr i { p with todo := rest, inside := none }
        log := w.log ++ [(i, s)] }

/-- One event. A process that stops keeps its lock files. -/
def act (w : World P S N L F) : Event P → World P S N L F
  | .go i => go name body w i
  | .stop i => { w with pr := Function.update w.pr i { w.pr i with running := false } }

/-- The whole schedule. -/
def exec (w : World P S N L F) (es : List (Event P)) : World P S N L F := es.foldl (act name body) w

end

/-- The start: nothing is locked. -/
def start {P S N L F : Type} (fs : N → F) (prog : P → List S) (loc : P → L) : World P S N L F :=
  ⟨fs, fun _ => none, fun i => ⟨prog i, none, loc i, true⟩, []⟩

/-! ## The sections of `write_brick` -/

/-- Bands and pixels of an image. -/
abbrev Img := Nat → Nat → ℤ

/-- What can be found at a path. `broken`: an image file that has been created but is not complete. -/
inductive File where
  | absent
  | dir
  | broken
  | image (v : Img)
  | text (t : List Char)

/-- fileexist: dir-cl.c:35-38. -/
def File.exist : File → Bool
  | .absent => false
  | _ => true

/-- Local variables of `write_brick`: the values of the brick, `update` (263, 324), and whether the
provenance file existed (478). -/
structure Loc where
  data : Img
  update : Bool
  exist : Bool

/-- enum-cl.h:120-125. -/
inductive Open where
  | create
  | mosaic (m : Brick.Mode)

/-- One call of `write_brick` for one file. -/
structure Job where
  dir : List Char
  prov : List Char
  file : List Char
  mode : Open
  nodata : Nat → ℤ
  data : Img
  origin : List (List Char)
  stamp : List Char

/-- The locked sections of `write_brick`: directory (223-228), file (258-468), provenance
(474-504). -/
inductive Part where
  | dir (j : Job)
  | file (j : Job)
  | prov (j : Job)

/-- brick_io-cl.cpp:227, dir-cl.c:176-188 `createdir`: `mkdir` if there is nothing. -/
def dirStep : Step Loc File := fun l f => some (l, match f with | .absent => .dir | f => f)

/-- brick_io-cl.cpp:261-325: read the existing file and mosaic; an unreadable file is a failure. -/
def readStep (j : Job) : Step Loc File := fun l f =>
  match j.mode with
  | .create => some ({ l with data := j.data, update := false }, f)
  | .mosaic m =>
    match f with
    | .absent => some ({ l with data := j.data, update := false }, f)
    | .image old => some ({ l with
        data := fun b p => Brick.mosaicPixel m (j.nodata b) (j.data b p) (old b p), update := true }, f)
    | _ => none

/-- brick_io-cl.cpp:334: `GDALCreate` makes a new file, it is not complete before it is closed. -/
def createStep : Step Loc File := fun l f =>
  match f with
  | .dir => none
  | _ => some (l, .broken)

/-- brick_io-cl.cpp:358-465: write the bands and close. -/
def writeStep : Step Loc File := fun l _ => some (l, .image l.data)

/-- brick_io-cl.cpp:491. -/
def header : List Char := "file,origin,mode,creation\n".toList

/-- brick_io-cl.cpp:81. -/
def modeName (update : Bool) : List Char := if update then "update".toList else "create".toList

/-- brick_io-cl.cpp:495-500: file, the origins separated by ";", the mode, the time. -/
def line (j : Job) (update : Bool) : List Char :=
  j.file ++ ",".toList ++ (j.origin.intersperse ";".toList).flatten ++ ",".toList ++
    modeName update ++ ",".toList ++ j.stamp ++ "\n".toList

/-- brick_io-cl.cpp:479. -/
def existStep : Step Loc File := fun l f => some ({ l with exist := f.exist }, f)

/-- brick_io-cl.cpp:479-489: open at the end, or create an empty file. -/
def openStep : Step Loc File := fun l f =>
  match l.exist, f with
  | true, .text t => some (l, .text t)
  | true, _ => none
  | false, _ => some (l, .text [])

/-- brick_io-cl.cpp:491-502: header for a new file, line, close. -/
def lineStep (j : Job) : Step Loc File := fun l f =>
  match f with
  | .text t => some (l, .text (t ++ (if l.exist then [] else header) ++ line j l.update))
  | _ => none

/-- The locked path: brick_io-cl.cpp:224, 254, 475. -/
def Part.name : Part → List Char
  | .dir j => j.dir
  | .file j => j.file
  | .prov j => j.prov

/-- The steps under the lock: brick_io-cl.cpp:227, 261-465, 479-502. -/
def Part.body : Part → List (Step Loc File)
  | .dir _ => [dirStep]
  | .file j => [readStep j, createStep, writeStep]
  | .prov j => [existStep, openStep, lineStep j]

/-- brick_io-cl.cpp:223-506; provenance only if there are origins (471; the chunk conditions of 472-473 are left out). -/
def parts (j : Job) : List Part :=
  [.dir j, .file j] ++ if j.origin.length > 0 then [.prov j] else []

/-- The processes `jobs` on the file system `fs` after the schedule `es`. -/
def run {P : Type} [DecidableEq P] (jobs : P → List Job) (fs : List Char → File) (es : List (Event P)) :
    World P Part (List Char) Loc File :=
  exec Part.name Part.body
    (start fs (fun i => (jobs i).flatMap parts) fun _ => ⟨fun _ _ => 0, false, false⟩) es

/-! ## Timeout -/

/-- lock-cl.c:69-73 `lock_timeout`, without rounding. -/
noncomputable def lockTimeout (bytes : ℝ) : ℝ :=
  540 / (1 + Real.exp (-1 * (bytes / 241120800 - 5))) + 60

end Verif.Share

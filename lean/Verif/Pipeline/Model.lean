import Verif.Float

/-!
# Model of the streaming pipeline of force-higher-level

Models the main loop of `/repo/src/main/higher-level/force-higher-level.c:187-243`, the
scheduling part of `/repo/src/modules/higher-level/progress-hl.c` and the stage functions of
`/repo/src/modules/higher-level/tasks-hl.c`.
Time measurement and printing are left out.
-/

namespace Verif.Pipeline

/-! ## Scheduling -/

/-- The processing unit counters of progress-hl.h `progress_t`. -/
structure Units where
  last : Int
  now : Int
  next : Int
  deriving DecidableEq, Repr

/-- progress-hl.c:135-137, in `init_progess`. -/
def initUnits : Units := ⟨-3, -2, -1⟩

/-- progress-hl.c:214-222 `processing_unit`: forwards all three teams by one unit
(`subset->processing_unit++`, line 177). -/
def advance (u : Units) : Units := ⟨u.last + 1, u.now + 1, u.next + 1⟩

/-- progress-hl.c:629-632 `read_this_chunk`. -/
def readThis (n : Nat) (u : Units) : Bool := decide (u.next < n)

/-- progress-hl.c:639-643 `compute_this_chunk`. -/
def computeThis (n : Nat) (u : Units) : Bool := decide (u.now ≥ 0 ∧ u.now < n)

/-- progress-hl.c:650-654 `write_this_chunk`, without the test of `nprod` (which is made by
`outputSteps`). -/
def writeThis (u : Units) : Bool := decide (u.last ≥ 0)

/-- The sequence of counter values with which the body of the loop
`while (progress(&pro))` (force-higher-level.c:216-241) is executed; `progress`
(progress-hl.c:661-697) first advances the units and ends the loop when `now > n`. -/
def loop (n : Nat) (u : Units) : List Units :=
  let u' := advance u
  if u'.now > n then [] else u' :: loop n u'
termination_by (n + 1 - u.now).toNat
decreasing_by
  have e : u' = advance u := rfl
  have h : (advance u).now = u.now + 1 := rfl
  have h' : ¬ u'.now > n := by assumption
  rw [e, h] at *
  omega

/-- What one execution of the loop body does: the unit to be read, computed, written. A stage
that returns immediately is `none`. -/
structure Work where
  read : Option Int
  compute : Option Int
  write : Option Int
  deriving DecidableEq, Repr

/-- The unit selection at the start of the stage functions: tasks-hl.c:53-55, 145-147,
263-265. -/
def workOf (n : Nat) (u : Units) : Work :=
  ⟨if readThis n u then some u.next else none,
   if computeThis n u then some u.now else none,
   if writeThis u then some u.last else none⟩

/-- All iterations of the main loop. -/
def iterations (n : Nat) : List Work := (loop n initUnits).map (workOf n)

/-! ## Data -/

/-- State of the input data of one unit: the slots `MASK[pu]`, `ARD1[pu]`, `ARD2[pu]`,
`nt1[pu]`, `nt2[pu]`, combined. `invalid` stands for an illegal access (use before
loading or after free). -/
inductive Inp (I : Type) where
  | unset | cleared | loaded (i : I) | freed | invalid

/-- State of one unit: input data, and the slots `OUTPUT[pu]`, `nprod[pu]`. -/
structure Slot (I O : Type) where
  inp : Inp I
  out : Option O
  nprod : Nat

/-- Memory and disk. `disk` is the sequence of products written so far. -/
structure St (I O : Type) where
  slots : Int → Slot I O
  disk : List (Int × O)

/-- One atomic step of a stage function. -/
abbrev Step (I O : Type) := St I O → St I O

/-- A step that only touches the slot of unit `pu`. -/
def onSlot {I O : Type} (pu : Int) (f : Slot I O → Slot I O) : Step I O :=
  fun s => { s with slots := fun i => if i = pu then f (s.slots i) else s.slots i }

/-- tasks-hl.c:49-124 `read_higher_level`: the slots of the unit are cleared (59-63), then
filled (69-117). Reading the files is the parameter `rd`. -/
def readSteps {I O : Type} (rd : Int → I) (pu : Int) : List (Step I O) :=
  [onSlot pu (fun s => { s with inp := .cleared }),
   onSlot pu (fun s => { s with inp := .loaded (rd pu) })]

/-- tasks-hl.c:141-243 `compute_higher_level`: the output slots are cleared (150-151), computed
from the unit's input data (159-233; parameter `cmp`, giving the products and their number), and
the input data are freed (236-238). -/
def computeSteps {I O : Type} (cmp : I → Option O × Nat) (pu : Int) : List (Step I O) :=
  [onSlot pu (fun s => { s with out := none, nprod := 0 }),
   onSlot pu (fun s => match s.inp with
     | .loaded i => { s with out := (cmp i).1, nprod := (cmp i).2 }
     | _ => { s with inp := .invalid }),
   onSlot pu (fun s => match s.inp with
     | .loaded _ => { s with inp := .freed }
     | _ => { s with inp := .invalid })]

/-- tasks-hl.c:254-325 `output_higher_level`: if there are products (263 with
progress-hl.c:653, and 269) they are written (278-312) and freed (316-318). The directory lock
and parallel writing of the unit's products are not modelled. -/
def outputSteps {I O : Type} (pu : Int) : List (Step I O) :=
  [fun s => match (s.slots pu).out with
     | some o => if (s.slots pu).nprod > 0 then { s with disk := s.disk ++ [(pu, o)] } else s
     | none => s,
   onSlot pu (fun s => if s.nprod > 0 then { s with out := none } else s)]

/-- The steps of the three threads in one iteration (force-higher-level.c:220-231). -/
def threads {I O : Type} (rd : Int → I) (cmp : I → Option O × Nat) (w : Work) :
    List (Step I O) × List (Step I O) × List (Step I O) :=
  ((w.read.map (readSteps rd)).getD [], (w.compute.map (computeSteps cmp)).getD [],
   (w.write.map outputSteps).getD [])

/-- `l` is an interleaving of `a` and `b`. -/
inductive Interleave {α : Type} : List α → List α → List α → Prop where
  | nil : Interleave [] [] []
  | left {a b l x} : Interleave a b l → Interleave (x :: a) b (x :: l)
  | right {a b l x} : Interleave a b l → Interleave a (x :: b) (x :: l)

/-- `l` is an interleaving of the steps of the three threads. -/
def Interleave3 {α : Type} (a b c l : List α) : Prop :=
  ∃ m, Interleave b c m ∧ Interleave a m l

/-- Executing steps. -/
def exec {I O : Type} (l : List (Step I O)) (s : St I O) : St I O := l.foldl (fun s f => f s) s

/-- An execution of the streaming loop: in each iteration the three threads run in some
interleaving, with a barrier at the end (end of the OpenMP parallel region). -/
inductive Stream {I O : Type} (rd : Int → I) (cmp : I → Option O × Nat) :
    List Work → St I O → St I O → Prop where
  | nil (s) : Stream rd cmp [] s s
  | cons {w ws s s' l} (h : Interleave3 (threads rd cmp w).1 (threads rd cmp w).2.1
        (threads rd cmp w).2.2 l) (hs : Stream rd cmp ws (exec l s) s') :
      Stream rd cmp (w :: ws) s s'

/-- The sequential loop body (force-higher-level.c:235-237): read, compute, output. -/
def sequential {I O : Type} (rd : Int → I) (cmp : I → Option O × Nat) (ws : List Work)
    (s : St I O) : St I O :=
  ws.foldl (fun s w => exec ((threads rd cmp w).1 ++ (threads rd cmp w).2.1 ++
    (threads rd cmp w).2.2) s) s

/-- force-higher-level.c:187-193: all arrays are zeroed. -/
def initSt {I O : Type} : St I O := ⟨fun _ => ⟨.unset, none, 0⟩, []⟩

/-! ## From units to tiles and chunks -/

/-- progress-hl.c:174-208 `forward_processing_unit` for a unit in range: tile number, chunk
column, chunk row. `t` is the result of `floor(pu / (float)cells)`; see `Float.DivFloor`.
The `floor(chunk_number / cols)` of line 201 is an integer division in C (truncating). -/
def unitToChunk (cols rows : Nat) (pu : Int) (t : Int) : Int × Int × Int :=
  let cells : Int := cols * rows
  let chunk := pu - t * cells
  let cy := chunk.tdiv cols
  (t, chunk - cy * cols, cy)

/-! ## Exit code -/

/-- Byte accounting of the input stage for one unit: `none` if the function returned before
`*ibytes = bytes` (tasks-hl.c:71-80, 93-98, 111-116), else the bytes read (119). -/
abbrev ByteEvent := Option Nat

/-- Streaming: the counters are OpenMP reductions; the private copy starts with 0 and is added
at the end of each iteration (force-higher-level.c:220). -/
def bytesStream (evs : List ByteEvent) : Nat := evs.foldl (fun acc e => acc + e.getD 0) 0

/-- Sequential: `*ibytes = bytes` overwrites the total (force-higher-level.c:235-237 with
tasks-hl.c:119 and 320). -/
def bytesSequential (evs : List ByteEvent) : Nat := evs.foldl (fun acc e => e.getD acc) 0

/-- tasks-hl.c:337-391 `handle_no_io`; `true` is FAILURE. `sampling`: the module is the sampling
module and its three output files exist. -/
def handleNoIo (ibytes obytes : Nat) (sampling failIfEmpty : Bool) : Bool :=
  let warnO := !sampling
  if (ibytes == 0) || (warnO && obytes == 0) then failIfEmpty else false

end Verif.Pipeline

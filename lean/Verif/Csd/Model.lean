import Mathlib.Data.List.Sort
import Mathlib.Algebra.Order.Field.Rat

/-!
# Model of force-level1-csd

`bash/force-level1-csd.sh`, for Sentinel-2 (Landsat is disabled in this version). A line of the catalogue is a record of its fields.
-/

namespace Verif.Csd

/-! ## Selection of scenes -/

/-- A line of the metadata catalogue, as far as it is used. -/
structure Scene where
  /-- field 4 -/
  tile : String
  sensor : String
  /-- field 5: day of sensing as yyyymmdd -/
  date : Nat
  /-- field 5: time of the day -/
  time : Nat
  /-- field 7 -/
  cloud : ℚ
  /-- characters 76 to 78 of field 14 -/
  baseline : Nat
  /-- field 9 -/
  generated : Nat
  deriving DecidableEq

/-- The request of the user. -/
structure Query where
  tiles : List String
  sensors : List String
  start : Nat
  stop : Nat
  cloudMin : ℚ
  cloudMax : ℚ

/-- force-level1-csd.sh:531: the patterns of tiles and sensors are taken as comparisons of the fields; `awk` cuts the time of the day and compares
dates and cloud cover. -/
def keep (q : Query) (s : Scene) : Bool :=
  decide (s.tile ∈ q.tiles) && decide (s.sensor ∈ q.sensors) && decide (q.start ≤ s.date) && decide (s.date ≤ q.stop) &&
    decide (q.cloudMin ≤ s.cloud) && decide (s.cloud ≤ q.cloudMax)

/-- force-level1-csd.sh:531 `sort -t"," -k 14.76,14.78r -k9r`: by baseline and generation time, descending (the rest of the line as a last resort is not
modelled). -/
def before (a b : Scene) : Prop := b.baseline < a.baseline ∨ a.baseline = b.baseline ∧ b.generated ≤ a.generated

instance : DecidableRel before := fun a b => by unfold before; infer_instance

/-- The key of `awk`: `a[$4,$5]`; field 5 is the day without the time. -/
def key (s : Scene) : String × Nat := (s.tile, s.date)

/-- force-level1-csd.sh:531 `!a[$4,$5]++`: the first line of each key; `seen` are the keys so far. -/
def firsts (seen : List (String × Nat)) : List Scene → List Scene
  | [] => []
  | s :: t => if key s ∈ seen then firsts seen t else s :: firsts (key s :: seen) t

/-- force-level1-csd.sh:531: filter, sort, drop duplicates, sort by date. -/
def select (q : Query) (catalogue : List Scene) : List Scene :=
  (firsts [] ((catalogue.filter (keep q)).insertionSort before)).insertionSort fun a b => a.date ≤ b.date

/-! ## Download -/

/-- Scene identifiers. -/
abbrev Id := Nat

/-- The directory of a scene in the pool, `none` if there is none: number of complete files, and whether there is an unfinished file (`.gstmp`). -/
abbrev Dir := Option (Nat × Bool)

structure World where
  dir : Id → Dir
  queue : List Id

/-- force-level1-csd.sh:634-642: the scene is skipped if its directory exists, has no unfinished file and is not empty. -/
def skip (d : Dir) : Bool :=
  match d with
  | some (k, false) => decide (0 < k)
  | _ => false

/-- Change of a directory. -/
def World.set (w : World) (s : Id) (d : Dir) : World := { w with dir := fun x => if x = s then d else w.dir x }

/-- Number of complete files. -/
def complete (d : Dir) : Nat := (d.map (·.1)).getD 0

/-- force-level1-csd.sh:654 `gsutil cp`: the states while file number `i` and the following `n` files are copied, one after the other (gsutil copies
some at a time). -/
def copyFiles (s : Id) (w : World) : Nat → Nat → List World
  | _, 0 => []
  | i, n + 1 =>
    let a := w.set s (some (max (complete (w.dir s)) i, true))
    let b := w.set s (some (max (complete (w.dir s)) (i + 1), false))
    a :: b :: copyFiles s b (i + 1) n

/-- The last of some states. -/
def lastOf (w : World) (l : List World) : World := l.getLastD w

/-- force-level1-csd.sh:632-661: all states of the world while a scene of `files s` files is processed: the script can be interrupted after each. -/
def fetch (files : Id → Nat) (w : World) (s : Id) : List World :=
  if skip (w.dir s) then []
  else
    let l := copyFiles s w 0 (files s)
    let v := lastOf w l
    l ++ [{ v with queue := v.queue ++ [s] }]

/-- force-level1-csd.sh:613-663: all states while the scenes are processed. -/
def process (files : Id → Nat) (w : World) : List Id → List World
  | [] => []
  | s :: t => let l := fetch files w s; l ++ process files (lastOf w l) t

/-- The state after all scenes. -/
def finish (files : Id → Nat) (w : World) (l : List Id) : World := lastOf w (process files w l)

/-- Worlds after any number of runs from `w`, for any scenes, each of which may have been interrupted at any point. -/
inductive After (files : Id → Nat) (w : World) : World → Prop
  | refl : After files w w
  | run {v v' : World} (l : List Id) : After files w v → v' ∈ process files v l → After files w v'

/-- No scene yet. -/
def empty : World := ⟨fun _ => none, []⟩

end Verif.Csd

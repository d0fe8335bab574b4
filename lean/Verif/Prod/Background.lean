import Verif.Prod.Boa

/-!
# Model of the background reflectance

`background_reflectance` (atmo-ll.c:401-668): the reflectance of the surroundings of a pixel, for the correction of
adjacency effects. Row and column means of the clear pixels start exponential moving averages along each row (to the right,
then to the left) and along each column (down, then up).

Simplifications: exact arithmetic. One of the three rings is modelled (they do not interact before the last step); the ring
weights are parameters, normalised by their sum as in the code.
-/

namespace Verif.Prod

/-- The three kinds of pixels that the function distinguishes. -/
inductive Kind where
  | off | cloud | clear
deriving DecidableEq

/-- atmo-ll.c:473 and 507, 526, 547, 549, …: `get_off`, `get_cloud > 0`. -/
def kindOf (q : BitVec 16) : Kind := if isOff q then .off else if Qai.get .cld q > 0 then .cloud else .clear

/-- atmo-ll.c:451-458: the parameter of the moving average for a ring of `km` kilometers. -/
def alpha (km res : ℚ) : ℚ := 2 / (km * 1000 / res + 1)

/-- atmo-ll.c:504-512, 523-531: mean of the clear pixels; 0 if there are none (the memory is zero). -/
def lineMean (cells : List (Kind × ℚ)) : ℚ :=
  let l := (cells.filter fun c => c.1 = .clear).map (·.2)
  if l.length > 0 then l.sum / l.length else 0

/-- atmo-ll.c:546-556, 559-569, 586-596, 599-609: one moving average along a line: the new values and the last average. -/
def sweep (α : ℚ) : List (Kind × ℚ) → ℚ → List ℚ × ℚ
  | [], old => ([], old)
  | (.off, a) :: t, old => let r := sweep α t old; (a :: r.1, r.2)
  | (.cloud, _) :: t, old => let r := sweep α t old; (old :: r.1, r.2)
  | (.clear, a) :: t, old =>
    let v := α * a + (1 - α) * old
    let r := sweep α t v
    (v :: r.1, r.2)

/-- atmo-ll.c:544-569, 584-609: forth and back; the average goes on where it stopped. -/
def sweepBoth (α mean : ℚ) (cells : List (Kind × ℚ)) : List ℚ :=
  let f := sweep α cells mean
  let b := sweep α (List.zip (cells.map (·.1)) f.1).reverse f.2
  b.1.reverse

/-- atmo-ll.c:504-512, 542-571: all rows. `ref` is the reflectance without correction. -/
def rowPass (α : ℚ) (nx : Nat) (kind : Nat → Nat → Kind) (ref : Nat → Nat → ℚ) (i j : Nat) : ℚ :=
  let cells := (List.range nx).map fun j => (kind i j, ref i j)
  (sweepBoth α (lineMean cells) cells).getD j 0

/-- atmo-ll.c:523-531, 582-611: all columns. The start is the mean of the reflectance in the column, the values are those of the
first pass. -/
def columnPass (α : ℚ) (ny : Nat) (kind : Nat → Nat → Kind) (ref avg : Nat → Nat → ℚ) (i j : Nat) : ℚ :=
  let mean := lineMean ((List.range ny).map fun i => (kind i j, ref i j))
  (sweepBoth α mean ((List.range ny).map fun i => (kind i j, avg i j))).getD i 0

/-- atmo-ll.c:498-613: the average of the surroundings. -/
def surroundings (α : ℚ) (nx ny : Nat) (kind : Nat → Nat → Kind) (ref : Nat → Nat → ℚ) : Nat → Nat → ℚ :=
  columnPass α ny kind ref (rowPass α nx kind ref)

/-- atmo-ll.c:642-650: the background of a pixel that is not off: the three rings with the weights `dF`, and the part `F` of the
pixel itself. -/
def background (res : ℚ) (dF : ℚ × ℚ × ℚ) (F : ℚ) (nx ny : Nat) (kind : Nat → Nat → Kind) (ref : Nat → Nat → ℚ) (i j : Nat) : ℚ :=
  let a := fun km => surroundings (alpha km res) nx ny kind ref i j
  let w := (dF.1 * a (25 / 100) + dF.2.1 * a 1 + dF.2.2 * a (45 / 10)) / (dF.1 + dF.2.1 + dF.2.2)
  ref i j * F + (1 - F) * w

end Verif.Prod

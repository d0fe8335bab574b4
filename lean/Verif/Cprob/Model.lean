import Mathlib.Data.List.Sort
import Mathlib.Data.Rat.Floor
import Mathlib.Algebra.Order.Floor.Semiring
import Verif.Buffer.Model
import Verif.Cloud.Model

/-!
# Quantiles; cloud probabilities over land and water

Models `quantile` in `src/modules/cross-level/stats-cl.c`, and `land_probability`, `water_probability`,
`cloud_probability` in `src/modules/lower-level/cloud-ll.c`. `rf` rounds to float.

Simplifications: double arithmetic is exact, only the conversions to float and the operations on floats are rounded. The
numbers of pixels that are passed are those of the masks (cloud-ll.c:358-372, C131), and the arrays have that many
elements. -/

namespace Verif.Cprob

/-- stats-cl.c:669-677 `quantile`: `gsl_sort`, then `gsl_stats_quantile_from_sorted_data` as documented by GSL: with
`f (n - 1) = lhs + delta`, the value between the elements `lhs` and `lhs + 1`; 0 if there are no data. -/
def quantile (rf : ℚ → ℚ) (f : ℚ) (x : List ℚ) : ℚ :=
  let s := x.insertionSort (· ≤ ·)
  let n := s.length
  let index := f * ((n : ℚ) - 1)
  let lhs := ⌊index⌋₊
  let delta := index - lhs
  rf (if n = 0 then 0
      else if lhs = n - 1 then s.getD lhs 0
      else (1 - delta) * s.getD lhs 0 + delta * s.getD (lhs + 1) 0)

/-- cloud-ll.c:430, 530: the floats 0.175 and 0.825. -/
def lo : ℚ := 11744051 / 67108864
/-- cloud-ll.c:430, 530. -/
def hi : ℚ := 13841203 / 16777216

/-- The image: number of cells; top of atmosphere values, quality bits and the masks of `potential_cloud`. -/
structure Scene where
  nc : Nat
  temp : Nat → Int
  sw1 : Nat → Int
  sw2 : Nat → Int
  var : Nat → Int
  off : Nat → Bool
  water : Nat → Bool
  sat : Nat → Bool
  pcp : Nat → Bool
  clr : Nat → Bool
  lnd : Nat → Bool
  brt : Nat → Bool

/-- The values of the pixels of a mask, in their order: cloud-ll.c:450-452, 461-463, 498-500, 558-560, 582-584. -/
def pick (s : Scene) (mask : Nat → Bool) (v : Nat → ℚ) : List ℚ := ((List.range s.nc).filter mask).map v

/-- Number of pixels of a mask. -/
def number (s : Scene) (mask : Nat → Bool) : Nat := ((List.range s.nc).filter mask).length

/-- cloud-ll.c:446-468: the temperatures that are used; `npix`: number of pixels that are not off. -/
def reference (s : Scene) : List ℚ :=
  if 100 * (number s s.lnd : ℚ) / (number s fun p => !s.off p) ≥ 1 / 10 then pick s s.lnd fun p => s.temp p
  else pick s s.clr fun p => s.temp p

/-- cloud-ll.c:454, 465. -/
def lowTemp (rf : ℚ → ℚ) (s : Scene) : ℚ := quantile rf lo (reference s)
/-- cloud-ll.c:455, 466. -/
def highTemp (rf : ℚ → ℚ) (s : Scene) : ℚ := quantile rf hi (reference s)

/-- cloud-ll.c:479. -/
def coefA (rf : ℚ → ℚ) (s : Scene) : ℚ := rf (highTemp rf s + 400)
/-- cloud-ll.c:480. -/
def coefB (rf : ℚ → ℚ) (s : Scene) : ℚ := rf (highTemp rf s + 400 - lowTemp rf s + 400)

/-- cloud-ll.c:484-492: one pixel. -/
def landProb (rf : ℚ → ℚ) (s : Scene) (p : Nat) : ℚ :=
  if s.off p then 0
  else
    let t := rf (rf (coefA rf s - s.temp p) / coefB rf s)
    let t := if t < 0 then 0 else t
    rf (t * ((s.var p : ℚ) / 10000))

/-- cloud-ll.c:496-502. -/
def landThreshold (rf : ℚ → ℚ) (cldprob : ℚ) (s : Scene) : ℚ :=
  rf (quantile rf hi (pick s s.lnd (landProb rf s)) + cldprob)

/-- cloud-ll.c:549-551: clear water. -/
def clearWater (s : Scene) (p : Nat) : Bool := s.water p && decide (s.sw2 p ≤ 300)

/-- cloud-ll.c:562. -/
def waterTemp (rf : ℚ → ℚ) (s : Scene) : ℚ := quantile rf hi (pick s (clearWater s) fun p => s.temp p)

/-- cloud-ll.c:568-577, 591: one pixel; zero if there is no clear water. -/
def waterProb (rf : ℚ → ℚ) (s : Scene) (p : Nat) : ℚ :=
  if number s (clearWater s) > 0 then
    if s.off p then 0
    else
      let t := rf (rf (waterTemp rf s - s.temp p) / 400)
      let b := rf ((s.sw1 p : ℚ) / 1100)
      let b := if b > 1 then 1 else b
      rf (t * b)
  else 0

/-- cloud-ll.c:579-592. -/
def waterThreshold (rf : ℚ → ℚ) (cldprob : ℚ) (s : Scene) : ℚ :=
  if number s (clearWater s) > 0 then rf (quantile rf hi (pick s (clearWater s) (waterProb rf s)) + cldprob) else 1

/-- cloud-ll.c:693-707: before filling. -/
def raw (rf : ℚ → ℚ) (cldprob : ℚ) (s : Scene) (p : Int) : Bool :=
  decide (0 ≤ p ∧ p < s.nc) && Cloud.cloudy (s.pcp p.toNat) (s.water p.toNat) (s.sat p.toNat) (s.brt p.toNat)
    (s.temp p.toNat) (landProb rf s p.toNat) (waterProb rf s p.toNat) (landThreshold rf cldprob s)
    (waterThreshold rf cldprob s) (lowTemp rf s)

/-- cloud-ll.c:693-715 `cloud_probability`: the mask; `order`: order in which the pixels are filled. -/
def clouds (rf : ℚ → ℚ) (cldprob : ℚ) (s : Scene) (nx ny : Nat) (order : List (Int × Int)) : Int → Bool :=
  Buffer.majorfill nx ny order (raw rf cldprob s)

/-- cloud-ll.c:717-726, 743: number of cloud pixels and cover in percent. -/
def cover (rf : ℚ → ℚ) (cldprob : ℚ) (s : Scene) (nx ny : Nat) (order : List (Int × Int)) : Nat × ℚ :=
  let n := number s fun p => clouds rf cldprob s nx ny order p
  (n, rf (100 * (n : ℚ) / (number s fun p => !s.off p)))

end Verif.Cprob

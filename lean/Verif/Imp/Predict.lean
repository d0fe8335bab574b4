import Verif.Imp.Texture
import Verif.Index.Lemmas
import Verif.FloatErr
import Mathlib.Data.Set.Card
import Mathlib.Algebra.Order.Archimedean.Basic
import Mathlib.Algebra.Order.BigOperators.Group.List
import Mathlib.Algebra.Order.Field.Power
import Mathlib.Tactic.Positivity

/-! # The prediction -/

namespace Verif.Imp

open Verif.Str (Out)
open Verif.Index (short truncQ truncQ_eq short_ok)
open Verif.Float (Rep Nearest rep_int rep_multiple)
open Spec (InImage Within difference cutoff)

/-! ## Rounding -/

theorem rep_neg {p : Nat} {x : ℚ} (h : Rep p x) : Rep p (-x) := by
  obtain ⟨m, e, h1, rfl⟩ := h
  exact ⟨-m, e, by rwa [abs_neg], by push_cast; ring⟩

theorem nearest_neg {p : Nat} {x r : ℚ} (h : Nearest p x r) : Nearest p (-x) (-r) := by
  refine ⟨rep_neg h.1, fun f hf => ?_⟩
  have := h.2 (-f) (rep_neg hf)
  rw [← abs_neg] at this ⊢
  rw [show -(-x - -r) = x - r by ring, ← abs_neg, show -(x - r) = -(x - r) from rfl]
  rw [show |-x - f| = |x - -f| by rw [← abs_neg]; congr 1; ring]
  simpa using this

/-- A number close to a small integer from below is not rounded further away from it than all numbers of this precision allow. -/
theorem gap {n : ℤ} {r : ℚ} (hr : Rep 24 r) (hn : |n| ≤ 32768) (hne : r < n) (h0 : n ≠ 0) :
    (|n| : ℚ) / 2 ^ 26 ≤ n - r := by
  by_contra hc
  rw [not_le] at hc
  have hn1 : (1 : ℚ) ≤ |(n : ℚ)| := by
    have : 1 ≤ |n| := Int.one_le_abs h0
    exact_mod_cast this
  have hn2 : |(n : ℚ)| ≤ 32768 := by exact_mod_cast hn
  have hrn : |(n : ℚ)| / 2 ≤ |r| := by
    have h1 := abs_sub_abs_le_abs_sub (n : ℚ) r
    rw [abs_of_pos (by linarith : (0 : ℚ) < n - r)] at h1
    have : |(n : ℚ)| / 2 ^ 26 ≤ |(n : ℚ)| / 2 := by
      apply div_le_div_of_nonneg_left (abs_nonneg _) (by norm_num) (by norm_num)
    linarith
  obtain ⟨f, hf1, hf2⟩ := exists_mem_Ico_zpow (show (0 : ℚ) < |(n : ℚ)| / 2 by linarith) (show (1 : ℚ) < 2 by norm_num)
  have he : f - 23 ≤ 0 := by
    by_contra hcon
    have h1 : (24 : ℤ) ≤ f := by omega
    have h2 : (2 : ℚ) ^ (24 : ℤ) ≤ 2 ^ f := zpow_le_zpow_right₀ (by norm_num) h1
    have h3 : (2 : ℚ) ^ (24 : ℤ) = 16777216 := by norm_num
    linarith
  obtain ⟨j, hj⟩ := rep_multiple (e := f - 23) (by norm_num) hr (by
    rw [show f - 23 + ((24 : ℕ) : ℤ) - 1 = f by push_cast; ring]
    exact hf1.trans hrn)
  obtain ⟨g, hg⟩ : ∃ g : Nat, f - 23 = -(g : ℤ) := ⟨(23 - f).toNat, by omega⟩
  have hpe : (0 : ℚ) < (2 : ℚ) ^ (f - 23) := by positivity
  have hnm : (n : ℚ) = ((n * 2 ^ g : ℤ) : ℚ) * (2 : ℚ) ^ (f - 23) := by
    rw [hg, zpow_neg, zpow_natCast]
    push_cast
    field_simp
  have hlt : j < n * 2 ^ g := by
    rw [hj, hnm] at hne
    exact_mod_cast lt_of_mul_lt_mul_right hne (le_of_lt hpe)
  have hge : (2 : ℚ) ^ (f - 23) ≤ n - r := by
    rw [hj, hnm, ← sub_mul]
    have : (1 : ℚ) ≤ ((n * 2 ^ g : ℤ) : ℚ) - j := by
      have : j + 1 ≤ n * 2 ^ g := hlt
      have : ((j + 1 : ℤ) : ℚ) ≤ ((n * 2 ^ g : ℤ) : ℚ) := by exact_mod_cast this
      push_cast at this ⊢; linarith
    nlinarith
  have hf3 : |(n : ℚ)| / 2 ^ 26 ≤ (2 : ℚ) ^ (f - 23) := by
    rw [zpow_sub₀ (by norm_num)]
    rw [zpow_add₀ (by norm_num), zpow_one] at hf2
    rw [div_le_div_iff₀ (by norm_num) (by positivity)]
    norm_num
    nlinarith
  linarith

/-- A weighted mean above an integer is not rounded below it. -/
theorem round_ge {n : ℤ} {x v r : ℚ} (hn : |n| ≤ 32768) (hx : n ≤ x) (hv : |v - x| ≤ |x| / 2 ^ 40)
    (h : Nearest 24 v r) : n ≤ r := by
  by_contra hc
  rw [not_le] at hc
  have hq := h.2 n (rep_int (by norm_num; omega))
  rcases le_or_gt (n : ℚ) v with hnv | hnv
  · rw [abs_of_nonneg (by linarith : 0 ≤ v - r), abs_of_nonneg (by linarith : 0 ≤ v - n)] at hq
    linarith
  · rw [abs_of_neg (by linarith : v - n < 0)] at hq
    rw [abs_of_neg (by linarith : v - x < 0)] at hv
    have hr := abs_le.1 hq
    -- `x` is not far from `n`
    have hxn : |x| ≤ 2 * |(n : ℚ)| := by
      rcases le_or_gt 0 x with hx0 | hx0
      · rw [abs_of_nonneg hx0] at hv ⊢
        have h1 : x / 2 ^ 40 ≤ x / 2 := div_le_div_of_nonneg_left hx0 (by norm_num) (by norm_num)
        have := le_abs_self (n : ℚ)
        linarith
      · rw [abs_of_neg hx0]
        have := neg_abs_le (n : ℚ)
        have := abs_nonneg (n : ℚ)
        linarith
    have h0 : n ≠ 0 := by
      rintro rfl
      have : |x| = 0 := le_antisymm (by simpa using hxn) (abs_nonneg _)
      rw [this] at hv
      push_cast at *
      linarith
    have hg := gap h.1 hn hc h0
    have hn1 : (1 : ℚ) ≤ |(n : ℚ)| := by
      have : 1 ≤ |n| := Int.one_le_abs h0
      exact_mod_cast this
    have h2 : |x| / 2 ^ 40 ≤ |(n : ℚ)| / 2 ^ 39 := by
      rw [div_le_div_iff₀ (by norm_num) (by norm_num)]
      norm_num
      linarith
    have h3 : 2 * (|(n : ℚ)| / 2 ^ 39) < |(n : ℚ)| / 2 ^ 26 := by
      rw [← mul_div_assoc, div_lt_div_iff₀ (by norm_num) (by norm_num)]
      norm_num
      linarith
    push_cast at hg
    linarith [hr.1, hr.2]

theorem round_le {n : ℤ} {x v r : ℚ} (hn : |n| ≤ 32768) (hx : x ≤ n) (hv : |v - x| ≤ |x| / 2 ^ 40)
    (h : Nearest 24 v r) : r ≤ n := by
  have := round_ge (n := -n) (x := -x) (v := -v) (r := -r) (by rwa [abs_neg]) (by push_cast; linarith)
    (by rw [abs_neg, ← abs_neg, show -(-v - -x) = v - x by ring]; exact hv) (nearest_neg h)
  push_cast at this
  linarith

theorem trunc_between {lo hi : ℤ} {r : ℚ} (h1 : (lo : ℚ) ≤ r) (h2 : r ≤ hi) : lo ≤ truncQ r ∧ truncQ r ≤ hi := by
  rw [truncQ_eq]
  split
  · rename_i h
    exact ⟨Int.le_floor.2 h1, by exact_mod_cast (Int.floor_le r).trans h2⟩
  · exact ⟨by exact_mod_cast h1.trans (Int.le_ceil r), Int.ceil_le.2 h2⟩

/-! ## Neighbours -/

/-- The pixel `q` can be used for the prediction of (i, j) with the cut-off `t`: it is in the image and in the circle, the fine
resolution data and all bands of the coarse data are valid, and the mean absolute difference of the fine resolution data is below
`t`. -/
def Usable (inp : Input) (i j : Int) (t : ℚ) (q : Int × Int) : Prop :=
  InImage inp.nx inp.ny q.1 q.2 ∧ Within inp.h i j q.1 q.2 ∧ inp.hr 0 q.1 q.2 ≠ inp.nodataHr ∧
    (∀ b < inp.nbMr, inp.mr b q.1 q.2 ≠ inp.nodataMr) ∧ difference inp.hr inp.nbHr i j q.1 q.2 < t

theorem foldl_add_sum (f : Nat → ℚ) (l : List Nat) (z : ℚ) : l.foldl (fun s b => s + f b) z = z + (l.map f).sum := by
  induction l generalizing z with
  | nil => simp
  | cons x t ih => rw [List.foldl_cons, ih, List.map_cons, List.sum_cons]; ring

theorem similarity_eq (inp : Input) (i j i' j' : Int) :
    similarity inp i j i' j' = difference inp.hr inp.nbHr i j i' j' := by
  unfold similarity difference
  rw [foldl_add_sum (fun b => |inp.hr b i j - inp.hr b i' j'|), zero_add]

theorem anyNodata_false (inp : Input) (i j : Int) :
    anyNodata inp i j = false ↔ ∀ b < inp.nbMr, inp.mr b i j ≠ inp.nodataMr := by
  unfold anyNodata
  rw [List.any_eq_false]
  simp

theorem classOf_le (s : ℚ) (c : Nat) (hc : c < 5) : (∃ k, classOf s = some k ∧ k ≤ c) ↔ s < cutoff c := by
  have e : classOf s = if s < 1/40 then some 0 else if s < 1/20 then some 1 else if s < 1/10 then some 2
      else if s < 1/5 then some 3 else if s < 2/5 then some 4 else none := by
    unfold classOf thresholds
    simp only [List.findIdx?_cons, List.findIdx?_nil, decide_eq_true_eq]
    norm_num
    split_ifs <;> rfl
  have hcut : cutoff 0 = 1/40 ∧ cutoff 1 = 1/20 ∧ cutoff 2 = 1/10 ∧ cutoff 3 = 1/5 ∧ cutoff 4 = 2/5 := by
    simp [cutoff]
  rw [e]
  have hc' : c = 0 ∨ c = 1 ∨ c = 2 ∨ c = 3 ∨ c = 4 := by omega
  constructor
  · rintro ⟨k, h1, h2⟩
    split_ifs at h1 <;> simp only [Option.some.injEq] at h1 <;> subst h1 <;>
      rcases hc' with rfl | rfl | rfl | rfl | rfl <;>
      first
      | omega
      | (simp only [hcut]; linarith)
  · intro h
    rcases hc' with rfl | rfl | rfl | rfl | rfl <;> simp only [hcut] at h <;> split_ifs <;>
      first
      | exact ⟨_, rfl, by omega⟩
      | (exfalso; linarith)

theorem neighbour_cls (inp : Input) (i j : Int) (o : Int × Int) (c : Nat) (hc : c < 5) :
    ((neighbour inp i j o).any fun k => decide (k.cls ≤ c)) = true ↔ Usable inp i j (cutoff c) (i + o.1, j + o.2) := by
  have hw : Within inp.h i j (i + o.1) (j + o.2) ↔ o.1 * o.1 + o.2 * o.2 ≤ (inp.h : Int) * inp.h := by
    unfold Within
    rw [show i + o.1 - i = o.1 by ring, show j + o.2 - j = o.2 by ring, sq, sq, sq]
  unfold neighbour Usable
  simp only
  rw [← classOf_le _ c hc, ← similarity_eq, hw, ← anyNodata_false, ← inside_iff]
  by_cases h1 : inside inp.nx inp.ny (i + o.1) (j + o.2) = true
  · by_cases h2 : o.1 * o.1 + o.2 * o.2 > (inp.h : Int) * inp.h
    · simp [h1, h2]
    · by_cases h3 : inp.hr 0 (i + o.1) (j + o.2) = inp.nodataHr
      · simp [h1, h2, h3]
      · by_cases h4 : anyNodata inp (i + o.1) (j + o.2) = true
        · simp [h1, h2, h3, h4]
        · cases h5 : classOf (similarity inp i j (i + o.1) (j + o.2)) with
          | none => simp [h1, h2, h3, h4, h5]
          | some k => simp [h1, h2, h3, h4, h5]; intro _; omega
  · simp [h1]

theorem neighbour_m (inp : Input) (i j : Int) (o : Int × Int) (k : Rec) (h : neighbour inp i j o = some k) (b : Nat) :
    k.m b = inp.mr b (i + o.1) (j + o.2) := by
  unfold neighbour at h
  simp only at h
  split at h
  · simp at h
  split at h
  · simp at h
  split at h
  · simp at h
  split at h
  · simp at h
  split at h
  · simp at h
  · simp only [Option.some.injEq] at h
    subst h
    rfl

theorem cls_lt (inp : Input) (i j : Int) (o : Int × Int) (k : Rec) (h : neighbour inp i j o = some k) : k.cls < 5 := by
  have : ∀ s c, classOf s = some c → c < 5 := by
    intro s c hs
    unfold classOf at hs
    rw [List.findIdx?_eq_some_iff_getElem] at hs
    obtain ⟨h1, _⟩ := hs
    exact h1
  unfold neighbour at h
  simp only at h
  split at h
  · simp at h
  split at h
  · simp at h
  split at h
  · simp at h
  split at h
  · simp at h
  split at h
  · simp at h
  · rename_i c hc
    simp only [Option.some.injEq] at h
    subst h
    exact this _ _ hc

theorem usable_mem_window (inp : Input) (i j : Int) (t : ℚ) (q : Int × Int) (h : Usable inp i j t q) :
    (q.1 - i, q.2 - j) ∈ window inp.h := by
  rw [mem_window]
  have hw := h.2.1
  unfold Within at hw
  have h1 : (q.1 - i) ^ 2 ≤ (inp.h : Int) ^ 2 := by nlinarith [sq_nonneg (q.2 - j)]
  have h2 : (q.2 - j) ^ 2 ≤ (inp.h : Int) ^ 2 := by nlinarith [sq_nonneg (q.1 - i)]
  have a1 := abs_le.1 (abs_le_of_sq_le_sq h1 (by omega))
  have a2 := abs_le.1 (abs_le_of_sq_le_sq h2 (by omega))
  exact ⟨a1.1, a1.2, a2.1, a2.2⟩

theorem filter_filterMap_length {α β : Type} (f : α → Option β) (p : β → Bool) (l : List α) :
    ((l.filterMap f).filter p).length = (l.filter fun o => (f o).any p).length := by
  induction l with
  | nil => rfl
  | cons x t ih =>
    rw [List.filterMap_cons, List.filter_cons]
    cases h : f x with
    | none => simpa using ih
    | some y =>
      simp only [Option.any_some]
      rw [List.filter_cons]
      by_cases hp : p y = true
      · simp [hp, ih]
      · simp [hp, ih]

/-- The number of neighbours in a class is the number of usable pixels. -/
theorem count_eq (inp : Input) (i j : Int) (c : Nat) (hc : c < 5) :
    count (records inp i j) c = Set.ncard {q | Usable inp i j (cutoff c) q} := by
  unfold count records
  rw [filter_filterMap_length]
  have hnd : (((window inp.h).filter fun o => (neighbour inp i j o).any fun k => decide (k.cls ≤ c)).map
      fun o => (i + o.1, j + o.2)).Nodup := by
    refine List.Nodup.map ?_ ((nodup_window inp.h).filter _)
    intro a b hab
    simp only [Prod.mk.injEq] at hab
    exact Prod.ext (by omega) (by omega)
  have e : {q | Usable inp i j (cutoff c) q} = ((((window inp.h).filter fun o => (neighbour inp i j o).any fun k =>
      decide (k.cls ≤ c)).map fun o => (i + o.1, j + o.2)).toFinset : Set (Int × Int)) := by
    ext q
    simp only [Set.mem_setOf_eq, List.coe_toFinset, List.mem_map, List.mem_filter]
    constructor
    · intro hq
      refine ⟨(q.1 - i, q.2 - j), ⟨usable_mem_window inp i j _ q hq, ?_⟩, ?_⟩
      · rw [neighbour_cls inp i j _ c hc]
        show Usable inp i j (cutoff c) (i + (q.1 - i), j + (q.2 - j))
        rw [show i + (q.1 - i) = q.1 by ring, show j + (q.2 - j) = q.2 by ring]
        exact hq
      · apply Prod.ext
        · show i + (q.1 - i) = q.1; ring
        · show j + (q.2 - j) = q.2; ring
    · rintro ⟨o, ⟨_, ho⟩, rfl⟩
      exact (neighbour_cls inp i j o c hc).1 ho
  rw [e, Set.ncard_coe_finset, List.toFinset_card_of_nodup hnd, List.length_map]

/-! ## Weights -/

theorem rescale_ge_one (ex : ℚ → ℚ) (hex : ∀ x, 0 < ex x) (w mn mx : ℚ) : 1 ≤ rescale ex w mn mx := by
  unfold rescale
  split
  · exact le_rfl
  split
  · exact le_rfl
  · have := hex (25 * ((w - mn) / (mx - mn)) - 75 / 10)
    linarith

theorem weight_pos (ex : ℚ → ℚ) (hex : ∀ x, 0 < ex x) (l : List Rec) (c b : Nat) (k : Rec) : 0 < weight ex l c b k := by
  unfold weight
  have h1 := rescale_ge_one ex hex k.s (range Rec.s c l).1 (range Rec.s c l).2
  have h2 := rescale_ge_one ex hex k.t (range Rec.t c l).1 (range Rec.t c l).2
  have h3 := rescale_ge_one ex hex (k.u b) (range (fun k => k.u b) c l).1 (range (fun k => k.u b) c l).2
  simp only
  positivity

/-- The sums: weights are positive, so the quotient is between the bounds of the data. -/
theorem sums_spec (ex : ℚ → ℚ) (hex : ∀ x, 0 < ex x) (l : List Rec) (c b : Nat) (lo hi : ℚ)
    (hb : ∀ k ∈ l, k.cls ≤ c → lo ≤ k.m b ∧ (k.m b : ℚ) ≤ hi) (hne : ∃ k ∈ l, k.cls ≤ c) :
    0 < (sums ex l c b).2 ∧ lo ≤ (sums ex l c b).1 / (sums ex l c b).2 ∧ (sums ex l c b).1 / (sums ex l c b).2 ≤ hi := by
  have key : ∀ (t : List Rec) (a : ℚ × ℚ), (∀ k ∈ t, k.cls ≤ c → lo ≤ k.m b ∧ (k.m b : ℚ) ≤ hi) →
      let r := t.foldl (fun a k => if k.cls > c then a else (a.1 + weight ex l c b k * k.m b, a.2 + weight ex l c b k)) a
      a.2 ≤ r.2 ∧ ((∃ k ∈ t, k.cls ≤ c) → a.2 < r.2) ∧ a.1 + lo * (r.2 - a.2) ≤ r.1 ∧ r.1 ≤ a.1 + hi * (r.2 - a.2) := by
    intro t
    induction t with
    | nil => intro a _; simp
    | cons k t ih =>
      intro a h
      have ht : ∀ k ∈ t, k.cls ≤ c → lo ≤ k.m b ∧ (k.m b : ℚ) ≤ hi := fun k hk => h k (List.mem_cons_of_mem _ hk)
      rw [List.foldl_cons]
      by_cases hk : k.cls > c
      · rw [if_pos hk]
        obtain ⟨h1, h2, h3⟩ := ih a ht
        refine ⟨h1, fun hx => h2 ?_, h3⟩
        obtain ⟨x, hx1, hx2⟩ := hx
        rcases List.mem_cons.1 hx1 with rfl | hx1
        · omega
        · exact ⟨x, hx1, hx2⟩
      · rw [if_neg hk]
        have hw := weight_pos ex hex l c b k
        obtain ⟨hk1, hk2⟩ := h k List.mem_cons_self (by omega)
        obtain ⟨h1, _, h3, h4⟩ := ih (a.1 + weight ex l c b k * k.m b, a.2 + weight ex l c b k) ht
        simp only at h1 h3 h4 ⊢
        refine ⟨by linarith, fun _ => by linarith, ?_, ?_⟩
        · nlinarith [mul_le_mul_of_nonneg_left hk1 (le_of_lt hw)]
        · nlinarith [mul_le_mul_of_nonneg_left hk2 (le_of_lt hw)]
  obtain ⟨_, h2, h3, h4⟩ := key l (0, 0) hb
  have hp := h2 hne
  have hp' : 0 < (sums ex l c b).2 := hp
  refine ⟨hp', ?_, ?_⟩
  · rw [le_div_iff₀ hp']
    have := h3
    simp only [zero_add, sub_zero] at this
    exact this
  · rw [div_le_iff₀ hp']
    have := h4
    simp only [zero_add, sub_zero] at this
    exact this

theorem choose_lt (mink : Nat) (l : List Rec) : choose mink l < 5 := by
  unfold choose
  cases h : (List.range 5).find? fun c => decide (count l c ≥ mink) with
  | none => simp
  | some c =>
    have := List.mem_range.1 (List.mem_of_find?_eq_some h)
    simpa using this

theorem choose_spec (mink : Nat) (l : List Rec) :
    (mink ≤ count l (choose mink l) ∨ choose mink l = 4) ∧ ∀ c < choose mink l, count l c < mink := by
  unfold choose
  cases h : (List.range 5).find? fun c => decide (count l c ≥ mink) with
  | none =>
    simp only [Option.getD_none]
    refine ⟨Or.inr trivial, fun c hc => ?_⟩
    rw [List.find?_eq_none] at h
    have := h c (List.mem_range.2 (by omega))
    simpa using this
  | some c =>
    simp only [Option.getD_some]
    rw [List.find?_range_eq_some] at h
    obtain ⟨h1, h2, h3⟩ := h
    refine ⟨Or.inl (by simpa using h1), fun c' hc' => ?_⟩
    have := h3 c' hc'
    simpa using this

/-- C98: the prediction at a pixel with valid fine and coarse resolution data is between the smallest and the largest coarse value
of the usable pixels in the circle around it, for the strictest of the five cut-offs with at least `mink` usable pixels (or the loosest).
Floating point numbers are rounded: the quotient has a relative error of at most 2^-40 before it becomes
a `float`. -/
theorem c98_between (ex dbl flt : ℚ → ℚ) (hex : ∀ x, 0 < ex x) (hdbl : ∀ x, |dbl x - x| ≤ |x| / 2 ^ 40)
    (hflt : ∀ x, Nearest 24 x (flt x)) (inp : Input) (i j : Int) (b : Nat) (hi : InImage inp.nx inp.ny i j)
    (hhr : inp.hr 0 i j ≠ inp.nodataHr) (hmr : ∀ b < inp.nbMr, inp.mr b i j ≠ inp.nodataMr)
    (hs : ∀ i j, -32768 ≤ inp.mr b i j ∧ inp.mr b i j ≤ 32767) :
    ∃ c < 5, (inp.mink ≤ Set.ncard {q | Usable inp i j (cutoff c) q} ∨ c = 4) ∧
      (∀ c' < c, Set.ncard {q | Usable inp i j (cutoff c') q} < inp.mink) ∧
      ∃ v, improphe ex dbl flt inp i j b = some (.ok v) ∧
        ∀ lo hi : Int, (∀ q, Usable inp i j (cutoff c) q → lo ≤ inp.mr b q.1 q.2 ∧ inp.mr b q.1 q.2 ≤ hi) →
          lo ≤ v ∧ v ≤ hi := by
  set l := records inp i j with hl
  have hc := choose_lt inp.mink l
  obtain ⟨s1, s2⟩ := choose_spec inp.mink l
  -- the pixel itself
  have self : Usable inp i j (cutoff 0) (i, j) := by
    refine ⟨hi, ?_, hhr, hmr, ?_⟩
    · unfold Within; simp
    · unfold difference cutoff
      simp
  have mem : ∀ c < 5, ∀ q, Usable inp i j (cutoff c) q → ∃ k ∈ l, k.cls ≤ c ∧ ∀ b, k.m b = inp.mr b q.1 q.2 := by
    intro c hc q hq
    have h1 := usable_mem_window inp i j _ q hq
    have e1 : i + (q.1 - i) = q.1 := by ring
    have e2 : j + (q.2 - j) = q.2 := by ring
    have h2 := (neighbour_cls inp i j (q.1 - i, q.2 - j) c hc).2 (by
      show Usable inp i j (cutoff c) (i + (q.1 - i), j + (q.2 - j))
      rw [e1, e2]; exact hq)
    rw [Option.any_eq_true] at h2
    obtain ⟨k, hk, hk2⟩ := h2
    refine ⟨k, List.mem_filterMap.2 ⟨_, h1, hk⟩, by simpa using hk2, fun b => ?_⟩
    rw [neighbour_m inp i j _ k hk b]
    show inp.mr b (i + (q.1 - i)) (j + (q.2 - j)) = _
    rw [e1, e2]
  have back : ∀ c < 5, ∀ k ∈ l, k.cls ≤ c → ∃ q, Usable inp i j (cutoff c) q ∧ ∀ b, k.m b = inp.mr b q.1 q.2 := by
    intro c hc k hk hkc
    obtain ⟨o, _, ho⟩ := List.mem_filterMap.1 hk
    refine ⟨(i + o.1, j + o.2), (neighbour_cls inp i j o c hc).1 ?_, neighbour_m inp i j o k ho⟩
    rw [ho]; simpa using hkc
  obtain ⟨k0, hk0, hk0c, _⟩ := mem 0 (by omega) _ self
  have hlen : l.length ≠ 0 := by
    intro h
    rw [List.length_eq_zero_iff.1 h] at hk0
    simp at hk0
  have hne : ∃ k ∈ l, k.cls ≤ choose inp.mink l := ⟨k0, hk0, by omega⟩
  -- bounds of the data
  have bound : ∀ lo hi : Int, (∀ q, Usable inp i j (cutoff (choose inp.mink l)) q → lo ≤ inp.mr b q.1 q.2 ∧ inp.mr b q.1 q.2 ≤ hi) →
      |lo| ≤ 32768 → |hi| ≤ 32768 →
      (lo : ℚ) ≤ flt (dbl ((sums ex l (choose inp.mink l) b).1 / (sums ex l (choose inp.mink l) b).2)) ∧
      flt (dbl ((sums ex l (choose inp.mink l) b).1 / (sums ex l (choose inp.mink l) b).2)) ≤ hi := by
    intro lo hi hb h1 h2
    have := sums_spec ex hex l (choose inp.mink l) b lo hi (fun k hk hkc => by
      obtain ⟨q, hq, hm⟩ := back _ hc k hk hkc
      rw [hm]
      exact_mod_cast hb q hq) hne
    exact ⟨round_ge h1 this.2.1 (hdbl _) (hflt _), round_le h2 this.2.2 (hdbl _) (hflt _)⟩
  have full := bound (-32768) 32767 (fun q _ => hs _ _) (by norm_num) (by norm_num)
  have pos := (sums_spec ex hex l (choose inp.mink l) b (-32768) 32767 (fun k hk hkc => by
      obtain ⟨q, hq, hm⟩ := back _ hc k hk hkc
      rw [hm]
      exact_mod_cast hs q.1 q.2) hne).1
  refine ⟨choose inp.mink l, hc, ?_, ?_,
    truncQ (flt (dbl ((sums ex l (choose inp.mink l) b).1 / (sums ex l (choose inp.mink l) b).2))), ?_, ?_⟩
  · rw [← count_eq inp i j _ hc]; exact s1
  · intro c' hc'
    rw [← count_eq inp i j c' (by omega)]
    exact s2 c' hc'
  · unfold improphe
    rw [if_neg (by rw [(anyNodata_false inp i j).2 hmr]; simp)]
    simp only
    rw [if_neg hlen, if_neg (ne_of_gt pos), short_ok]
    · have := full.1; push_cast at this; linarith
    · have := full.2; push_cast at this; linarith
  · intro lo hi hb
    have hm := back _ hc k0 hk0 (by omega)
    -- the bounds may be outside of the range of the data type
    have hlo := bound (max lo (-32768)) (min hi 32767) (fun q hq => by
      have := hb q hq; have := hs q.1 q.2; omega) (by
        obtain ⟨q, hq, _⟩ := hm
        have := hb q hq; have := hs q.1 q.2
        rw [abs_le]; omega) (by
        obtain ⟨q, hq, _⟩ := hm
        have := hb q hq; have := hs q.1 q.2
        rw [abs_le]; omega)
    have := trunc_between hlo.1 hlo.2
    omega

/-- C98: if no pixel is usable with the loosest cut-off, the prediction is the coarse value itself. -/
theorem c98_alone (ex dbl flt : ℚ → ℚ) (inp : Input) (i j : Int) (b : Nat)
    (hmr : ∀ b < inp.nbMr, inp.mr b i j ≠ inp.nodataMr) (hno : ∀ q, ¬ Usable inp i j (2 / 5) q) :
    improphe ex dbl flt inp i j b = some (.ok (inp.mr b i j)) := by
  have : records inp i j = [] := by
    rw [List.eq_nil_iff_forall_not_mem]
    intro k hk
    obtain ⟨o, _, ho⟩ := List.mem_filterMap.1 hk
    have := (neighbour_cls inp i j o 4 (by omega)).1 (by
      rw [ho]; have := cls_lt inp i j o k ho; simp; omega)
    exact hno _ (by simpa [cutoff] using this)
  unfold improphe
  rw [if_neg (by rw [(anyNodata_false inp i j).2 hmr]; simp)]
  simp [this]

/-- C98: nothing is predicted where a band of the coarse data is nodata. -/
theorem c98_nodata (ex dbl flt : ℚ → ℚ) (inp : Input) (i j : Int) (b b' : Nat) (hb : b' < inp.nbMr)
    (h : inp.mr b' i j = inp.nodataMr) : improphe ex dbl flt inp i j b = none := by
  unfold improphe
  rw [if_pos]
  by_contra hc
  rw [Bool.not_eq_true, anyNodata_false] at hc
  exact hc b' hb h

/-! ## A more similar neighbour has more weight -/

theorem range_spec (v : Rec → ℚ) (c : Nat) (l : List Rec) (k : Rec) (hk : k ∈ l) (hc : k.cls ≤ c) (hv : 0 < v k) :
    (range v c l).1 ≤ v k ∧ v k ≤ (range v c l).2 := by
  have mono : ∀ (t : List Rec) (r : ℚ × ℚ),
      let r' := t.foldl (fun r k =>
        if v k > 0 ∧ k.cls ≤ c then (if v k < r.1 then v k else r.1, if v k > r.2 then v k else r.2) else r) r
      r'.1 ≤ r.1 ∧ r.2 ≤ r'.2 ∧ ∀ k ∈ t, k.cls ≤ c → 0 < v k → r'.1 ≤ v k ∧ v k ≤ r'.2 := by
    intro t
    induction t with
    | nil => intro r; simp
    | cons x t ih =>
      intro r
      rw [List.foldl_cons]
      by_cases hx : v x > 0 ∧ x.cls ≤ c
      · rw [if_pos hx]
        obtain ⟨h1, h2, h3⟩ := ih (if v x < r.1 then v x else r.1, if v x > r.2 then v x else r.2)
        have e1 : (if v x < r.1 then v x else r.1) ≤ r.1 ∧ (if v x < r.1 then v x else r.1) ≤ v x := by
          split
          · exact ⟨by linarith, le_rfl⟩
          · exact ⟨le_rfl, by linarith⟩
        have e2 : r.2 ≤ (if v x > r.2 then v x else r.2) ∧ v x ≤ (if v x > r.2 then v x else r.2) := by
          split
          · exact ⟨by linarith, le_rfl⟩
          · exact ⟨le_rfl, by linarith⟩
        refine ⟨h1.trans e1.1, e2.1.trans h2, ?_⟩
        intro k hk hkc hkv
        rcases List.mem_cons.1 hk with rfl | hk
        · exact ⟨h1.trans e1.2, e2.2.trans h2⟩
        · exact h3 k hk hkc hkv
      · rw [if_neg hx]
        obtain ⟨h1, h2, h3⟩ := ih r
        refine ⟨h1, h2, ?_⟩
        intro k hk hkc hkv
        rcases List.mem_cons.1 hk with rfl | hk
        · exact absurd ⟨hkv, hkc⟩ hx
        · exact h3 k hk hkc hkv
  exact (mono l (2147483647, -2147483648)).2.2 k hk hc hv

theorem rescale_mono (ex : ℚ → ℚ) (hex : ∀ x, 0 < ex x) (hmono : ∀ x y, x ≤ y → ex x ≤ ex y) (a b mn mx : ℚ)
    (h0 : 0 ≤ a) (hab : a ≤ b) (hr : 0 < b → mn ≤ mx) : rescale ex a mn mx ≤ rescale ex b mn mx := by
  by_cases ha : a = 0
  · rw [show rescale ex a mn mx = 1 by unfold rescale; rw [if_pos ha]]
    exact rescale_ge_one ex hex b mn mx
  · have ha' : 0 < a := lt_of_le_of_ne h0 (Ne.symm ha)
    have hb : b ≠ 0 := by intro h; linarith
    unfold rescale
    rw [if_neg ha, if_neg hb]
    split
    · exact le_rfl
    · rename_i hne
      have hlt : mn < mx := lt_of_le_of_ne (hr (by linarith)) hne
      have : 25 * ((a - mn) / (mx - mn)) - 75 / 10 ≤ 25 * ((b - mn) / (mx - mn)) - 75 / 10 := by
        have := div_le_div_of_nonneg_right (show a - mn ≤ b - mn by linarith) (by linarith : (0 : ℚ) ≤ mx - mn)
        linarith
      linarith [hmono _ _ this]

/-- C98: of two usable pixels, the one that is spectrally more similar and lies in the more homogeneous area has at least
the weight of the other. -/
theorem c98_weight (ex : ℚ → ℚ) (hex : ∀ x, 0 < ex x) (hmono : ∀ x y, x ≤ y → ex x ≤ ex y) (l : List Rec) (c b : Nat)
    (k k' : Rec) (hk' : k' ∈ l) (hc : k'.cls ≤ c) (h0 : 0 ≤ k.s ∧ 0 ≤ k.t ∧ 0 ≤ k.u b)
    (h : k.s ≤ k'.s ∧ k.t ≤ k'.t ∧ k.u b ≤ k'.u b) : weight ex l c b k' ≤ weight ex l c b k := by
  unfold weight
  simp only
  have hs := rescale_mono ex hex hmono k.s k'.s (range Rec.s c l).1 (range Rec.s c l).2 h0.1 h.1
    fun hp => (range_spec Rec.s c l k' hk' hc hp).1.trans (range_spec Rec.s c l k' hk' hc hp).2
  have ht := rescale_mono ex hex hmono k.t k'.t (range Rec.t c l).1 (range Rec.t c l).2 h0.2.1 h.2.1
    fun hp => (range_spec Rec.t c l k' hk' hc hp).1.trans (range_spec Rec.t c l k' hk' hc hp).2
  have hu := rescale_mono ex hex hmono (k.u b) (k'.u b) (range (fun k => k.u b) c l).1 (range (fun k => k.u b) c l).2 h0.2.2 h.2.2
    fun hp => (range_spec (fun k => k.u b) c l k' hk' hc hp).1.trans (range_spec (fun k => k.u b) c l k' hk' hc hp).2
  have p1 := rescale_ge_one ex hex k.s (range Rec.s c l).1 (range Rec.s c l).2
  have p2 := rescale_ge_one ex hex k.t (range Rec.t c l).1 (range Rec.t c l).2
  have p3 := rescale_ge_one ex hex (k.u b) (range (fun k => k.u b) c l).1 (range (fun k => k.u b) c l).2
  apply one_div_le_one_div_of_le
  · positivity
  · apply mul_le_mul (mul_le_mul hs ht (by linarith) (by linarith)) hu (by linarith)
    have := hs.trans' p1
    have := ht.trans' p2
    positivity

end Verif.Imp

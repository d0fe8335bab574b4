import Mathlib.Data.List.GetD
import Mathlib.Algebra.Order.Floor.Ring
import Verif.Avec.Props

/-!
# The adaptive start of the phenological year (C260) -/

namespace Verif.Avec
open Real Verif.Date

/-! ## The fine-tuned start -/

theorem fineStart_eq (theta a : ℝ) (s : Int) (h1 : theta < 2 * π) (h0 : 0 ≤ theta) (ha : 0 < a) (ha' : a ≤ 2 * π)
    (hne : a ≠ π) : ∃ u, theta ≤ u ∧ u ≤ theta + 2 * π ∧ (u = a ∨ u = a + 2 * π) ∧
      fineStart theta a s = 365 * s + ⌊(u - π) * 365 / (2 * π)⌋ := by
  have hpi := pi_pos
  have key : ∀ (x : ℝ) (k : ℤ), ⌊(x + k * (2 * π)) * 365 / (2 * π)⌋ = ⌊x * 365 / (2 * π)⌋ + 365 * k := by
    intro x k
    have : (x + k * (2 * π)) * 365 / (2 * π) = x * 365 / (2 * π) + ((365 * k : ℤ) : ℝ) := by
      push_cast
      field_simp
    rw [this, Int.floor_add_intCast]
  unfold fineStart day doy2ce
  simp only
  rcases lt_or_gt_of_ne hne with hlt | hgt
  · have ho : opposite a = a + π := by unfold opposite; rw [if_pos hlt]
    rw [ho]
    by_cases hge : theta ≤ a
    · refine ⟨a, hge, by linarith, Or.inl rfl, ?_⟩
      rw [if_pos ⟨by linarith, by linarith⟩]
      have := key (a - π) 1
      rw [show a - π + ((1 : ℤ) : ℝ) * (2 * π) = a + π by push_cast; ring] at this
      rw [this]
      ring
    · refine ⟨a + 2 * π, by linarith, by linarith, Or.inr rfl, ?_⟩
      rw [if_neg (by rintro ⟨-, h⟩; linarith), if_neg (by rintro ⟨h, -⟩; linarith)]
      rw [show a + 2 * π - π = a + π by ring]
      ring
  · have ho : opposite a = a - π := by unfold opposite; rw [if_neg (by linarith)]
    rw [ho]
    by_cases hge : theta ≤ a
    · refine ⟨a, hge, by linarith, Or.inl rfl, ?_⟩
      rw [if_neg (by rintro ⟨h, -⟩; linarith), if_neg (by rintro ⟨-, h⟩; linarith)]
      ring
    · refine ⟨a + 2 * π, by linarith, by linarith, Or.inr rfl, ?_⟩
      rw [if_neg (by rintro ⟨h, -⟩; linarith), if_pos ⟨by linarith, by linarith⟩]
      have := key (a - π) 1
      rw [show a - π + ((1 : ℤ) : ℝ) * (2 * π) = a + 2 * π - π by push_cast; ring] at this
      rw [this]
      ring

/-! ## The steps of a season -/

/-- The steps of season `s`. -/
def ofSeason (s : Int) (l : List Step) : List Step := l.filter fun p => p.season = s

theorem seasonSteps_eq (s : Int) (l : List Step) (hs : l.Pairwise fun a b => a.season ≤ b.season) :
    seasonSteps s l = ofSeason s l := by
  induction l with
  | nil => rfl
  | cons p l ih =>
    rw [List.pairwise_cons] at hs
    unfold seasonSteps ofSeason
    by_cases h1 : p.season < s
    · rw [if_pos h1, List.filter_cons_of_neg (by simp; omega), ih hs.2]; rfl
    · rw [if_neg h1]
      by_cases h2 : p.season > s
      · rw [if_pos h2]
        symm
        rw [List.filter_eq_nil_iff]
        intro q hq
        rcases List.mem_cons.1 hq with rfl | hq
        · simp; omega
        · have := hs.1 q hq
          simp; omega
      · rw [if_neg h2, List.filter_cons_of_pos (by simp; omega), ih hs.2]; rfl

theorem rest_spec (s : Int) (l0 l : List Step) (hs : l.Pairwise fun a b => a.season ≤ b.season) :
    (rest s l0 l = l0 ∧ ∀ p ∈ l, p.season ≤ s) ∨
    (rest s l0 l <:+ l ∧ ∀ t, s < t → ofSeason t (rest s l0 l) = ofSeason t l) := by
  induction l with
  | nil => exact Or.inl ⟨rfl, by simp⟩
  | cons p l ih =>
    rw [List.pairwise_cons] at hs
    unfold rest
    by_cases h1 : p.season > s
    · rw [if_pos h1]
      exact Or.inr ⟨List.suffix_refl _, fun _ _ => rfl⟩
    · rw [if_neg h1]
      rcases ih hs.2 with ⟨h2, h3⟩ | ⟨h2, h3⟩
      · refine Or.inl ⟨h2, ?_⟩
        intro q hq
        rcases List.mem_cons.1 hq with rfl | hq
        · omega
        · exact h3 q hq
      · refine Or.inr ⟨h2.trans (List.suffix_cons _ _), fun t ht => ?_⟩
        rw [h3 t ht]
        unfold ofSeason
        rw [List.filter_cons_of_neg (by simp; omega)]

theorem rest_ok (s : Int) (l : List Step) (hs : l.Pairwise fun a b => a.season ≤ b.season) :
    (rest s l l).Pairwise (fun a b => a.season ≤ b.season) ∧ ∀ t, s < t → ofSeason t (rest s l l) = ofSeason t l := by
  rcases rest_spec s l l hs with ⟨h1, -⟩ | ⟨h1, h2⟩
  · rw [h1]; exact ⟨hs, fun _ _ => rfl⟩
  · exact ⟨hs.sublist h1.sublist, h2⟩

theorem fineStarts_eq (theta : ℝ) (n : Nat) : ∀ (s : Int) (l : List Step), l.Pairwise (fun a b => a.season ≤ b.season) →
    fineStarts theta n s l =
      if ∀ k : Nat, k < n → ofSeason (s + k) l ≠ [] then
        some ((List.range n).map fun k : Nat => fineStart theta (mean (ofSeason (s + k) l)) (s + k)) else none := by
  induction n with
  | zero => intro s l _; simp [fineStarts]
  | succ n ih =>
    intro s l hs
    unfold fineStarts
    simp only
    rw [seasonSteps_eq s l hs]
    obtain ⟨r1, r2⟩ := rest_ok s l hs
    rw [ih (s + 1) _ r1]
    have hsh : ∀ k : Nat, ofSeason (s + 1 + k) (rest s l l) = ofSeason (s + ((k + 1 : Nat) : Int)) l := by
      intro k
      rw [r2 _ (by omega)]
      congr 1
      push_cast; ring
    by_cases h0 : (ofSeason s l).length = 0
    · rw [if_pos h0, if_neg]
      intro h
      exact h 0 (by omega) (by simpa using h0)
    · rw [if_neg h0]
      by_cases hall : ∀ k : Nat, k < n → ofSeason (s + 1 + k) (rest s l l) ≠ []
      · rw [if_pos hall, if_pos]
        · rw [List.range_succ_eq_map]
          simp only [Option.map_some, List.map_cons, List.map_map, Nat.cast_zero, add_zero, Option.some.injEq, List.cons.injEq,
            true_and]
          apply List.map_congr_left
          intro k _
          simp only [Function.comp]
          rw [hsh k]
          congr 1
          push_cast; ring
        · intro k hk
          cases k with
          | zero => simpa using h0
          | succ k => rw [← hsh k]; exact hall k (by omega)
      · rw [if_neg hall, if_neg]
        · rfl
        · intro h
          apply hall
          intro k hk
          rw [hsh k]
          exact h (k + 1) (by omega)

/-! ## Moving the starts -/

/-- The steps that are marked at the start `i` of a season. -/
def Zone (ni i : Nat) (istep shift : Int) (j : Nat) : Prop :=
  if shift > 0 then i ≤ j ∧ j < i + steps istep shift ∧ j < ni else j < i ∧ i ≤ j + steps istep shift

/-- The mark. -/
def sign (shift : Int) : Int := if shift > 0 then -1 else 1

theorem mark_get (ni i : Nat) (istep shift : Int) (diff : Nat → Int) (j : Nat) :
    (Zone ni i istep shift j → mark ni i istep shift diff j = sign shift) ∧
    (¬ Zone ni i istep shift j → mark ni i istep shift diff j = diff j) := by
  unfold mark Zone sign
  generalize steps istep shift = k
  by_cases hs : shift > 0
  · simp only [hs, if_true]
    induction k with
    | zero => exact ⟨fun h => by omega, fun _ => rfl⟩
    | succ k ih =>
      rw [List.range_succ, List.foldl_append, List.foldl_cons, List.foldl_nil]
      by_cases hn : i + k ≥ ni
      · rw [if_pos hn]
        constructor
        · rintro ⟨h1, h2, h3⟩; exact ih.1 ⟨h1, by omega, h3⟩
        · intro h; exact ih.2 fun ⟨h1, h2, h3⟩ => h ⟨h1, by omega, h3⟩
      · rw [if_neg hn]
        by_cases hj : j = i + k
        · subst hj
          rw [Function.update_self]
          exact ⟨fun _ => rfl, fun h => absurd ⟨by omega, by omega, by omega⟩ h⟩
        · rw [Function.update_of_ne hj]
          constructor
          · rintro ⟨h1, h2, h3⟩; exact ih.1 ⟨h1, by omega, h3⟩
          · intro h; exact ih.2 fun ⟨h1, h2, h3⟩ => h ⟨h1, by omega, h3⟩
  · simp only [hs, if_false]
    induction k with
    | zero => exact ⟨fun h => by omega, fun _ => rfl⟩
    | succ k ih =>
      rw [List.range_succ, List.foldl_append, List.foldl_cons, List.foldl_nil]
      by_cases hn : i < k + 1
      · rw [if_pos hn]
        constructor
        · rintro ⟨h1, h2⟩; exact ih.1 ⟨h1, by omega⟩
        · intro h; exact ih.2 fun ⟨h1, h2⟩ => h ⟨h1, by omega⟩
      · rw [if_neg hn]
        by_cases hj : j = i - k - 1
        · subst hj
          rw [Function.update_self]
          exact ⟨fun _ => rfl, fun h => absurd ⟨by omega, by omega⟩ h⟩
        · rw [Function.update_of_ne hj]
          constructor
          · rintro ⟨h1, h2⟩; exact ih.1 ⟨h1, by omega⟩
          · intro h; exact ih.2 fun ⟨h1, h2⟩ => h ⟨h1, by omega⟩

section
variable (ni : Nat) (istep ns thetaDoy : Int) (fine : Int → Int) (Q : Nat → Int)

/-- The start of season `q` moves by so many days. -/
def moved (q : Int) : Int := fine q - doy2ce thetaDoy q

theorem walk_none (n i : Nat) (diff : Nat → Int) (j : Nat)
    (h : ∀ m, i ≤ m → m < i + n → Q m ≠ Q (m - 1) → Q m < ns → ¬ Zone ni m istep (moved thetaDoy fine (Q m)) j) (hi : 1 ≤ i) :
    walk ni istep ns thetaDoy fine i (Q (i - 1)) ((List.range' i n).map Q) diff j = diff j := by
  induction n generalizing i diff with
  | zero => rfl
  | succ n ih =>
    rw [List.range'_succ, List.map_cons, walk]
    have ih' := fun diff => ih (i + 1) diff (fun m h1 h2 => h m (by omega) (by omega)) (by omega)
    rw [Nat.add_sub_cancel] at ih'
    by_cases hq : Q i ≠ Q (i - 1)
    · rw [if_pos hq]
      by_cases hn : Q i ≥ ns
      · rw [if_pos hn]
      · rw [if_neg hn, ih']
        exact (mark_get ni i istep _ diff j).2 (h i (by omega) (by omega) hq (by omega))
    · rw [if_neg hq]
      rw [not_not] at hq
      rw [← hq]
      exact ih' diff

theorem walk_one (n i : Nat) (diff : Nat → Int) (j m : Nat) (hm : i ≤ m) (hm' : m < i + n) (hb : Q m ≠ Q (m - 1))
    (hns : Q m < ns) (hz : Zone ni m istep (moved thetaDoy fine (Q m)) j)
    (hmono : ∀ a b, a ≤ b → b < i + n → Q a ≤ Q b)
    (h : ∀ m', i ≤ m' → m' < i + n → Q m' ≠ Q (m' - 1) → Q m' < ns → m' ≠ m → ¬ Zone ni m' istep (moved thetaDoy fine (Q m')) j)
    (hi : 1 ≤ i) :
    walk ni istep ns thetaDoy fine i (Q (i - 1)) ((List.range' i n).map Q) diff j = sign (moved thetaDoy fine (Q m)) := by
  induction n generalizing i diff with
  | zero => omega
  | succ n ih =>
    rw [List.range'_succ, List.map_cons, walk]
    by_cases hmi : m = i
    · subst hmi
      rw [if_pos hb, if_neg (by omega)]
      have := walk_none ni istep ns thetaDoy fine Q n (m + 1) (mark ni m istep (fine (Q m) - doy2ce thetaDoy (Q m)) diff) j
        (fun m' h1 h2 h3 h4 => h m' (by omega) (by omega) h3 h4 (by omega)) (by omega)
      rw [Nat.add_sub_cancel] at this
      rw [this]
      exact (mark_get ni m istep _ diff j).1 hz
    · have ih' := fun diff => ih (i + 1) diff (by omega) (by omega) (fun a b h1 h2 => hmono a b h1 (by omega))
        (fun m' h1 h2 => h m' (by omega) (by omega)) (by omega)
      rw [Nat.add_sub_cancel] at ih'
      by_cases hq : Q i ≠ Q (i - 1)
      · rw [if_pos hq]
        have := hmono i m hm hm'
        rw [if_neg (by omega), ih']
      · rw [if_neg hq]
        rw [not_not] at hq
        rw [← hq]
        exact ih' diff

end

/-- Season `t` starts with step `b`. -/
def St (n : Nat) (Q : Nat → Int) (t : Int) (b : Nat) : Prop := 1 ≤ b ∧ b < n ∧ Q (b - 1) = t - 1 ∧ Q b = t

section
variable {n : Nat} {Q : Nat → Int} (hQ : ∀ i, i + 1 < n → Q i ≤ Q (i + 1) ∧ Q (i + 1) ≤ Q i + 1)
include hQ

theorem mono_of {i j : Nat} (h : i ≤ j) (hj : j < n) : Q i ≤ Q j := by
  induction j with
  | zero => have : i = 0 := by omega
            subst this; exact le_refl _
  | succ j ih =>
    rcases Nat.eq_or_lt_of_le h with rfl | h
    · exact le_refl _
    · exact (ih (by omega) (by omega)).trans (hQ j hj).1

theorem ge_iff {t : Int} {b j : Nat} (h : St n Q t b) (hj : j < n) : t ≤ Q j ↔ b ≤ j := by
  obtain ⟨h1, h2, h3, h4⟩ := h
  constructor
  · intro h
    by_contra hc
    have := mono_of hQ (i := j) (j := b - 1) (by omega) (by omega)
    omega
  · intro h
    have := mono_of hQ h hj
    omega

theorem exists_start {t : Int} {i j : Nat} (h : i ≤ j) (hj : j < n) (h1 : Q i < t) (h2 : t ≤ Q j) :
    ∃ b, i < b ∧ b ≤ j ∧ St n Q t b := by
  induction j with
  | zero => have : i = 0 := by omega
            subst this; omega
  | succ j ih =>
    by_cases hc : t ≤ Q j
    · have hij : i ≤ j := by
        by_contra hn
        have : i = j + 1 := by omega
        subst this
        omega
      obtain ⟨b, b1, b2, b3⟩ := ih hij (by omega) hc
      exact ⟨b, b1, by omega, b3⟩
    · have := hQ j hj
      have hij : i ≠ j + 1 := by rintro rfl; omega
      exact ⟨j + 1, by omega, le_refl _, by omega, hj, by rw [Nat.add_sub_cancel]; omega, by omega⟩

theorem st_unique {t : Int} {b b' : Nat} (h : St n Q t b) (h' : St n Q t b') : b = b' := by
  have h1 := (ge_iff hQ h h'.2.1).1 (by rw [h'.2.2.2])
  have h2 := (ge_iff hQ h' h.2.1).1 (by rw [h.2.2.2])
  omega

theorem boundary_st {m : Nat} (h1 : 1 ≤ m) (h2 : m < n) (hb : Q m ≠ Q (m - 1)) : St n Q (Q m) m := by
  have := hQ (m - 1) (by omega)
  rw [Nat.sub_add_cancel h1] at this
  exact ⟨h1, h2, by omega, rfl⟩

variable {N : Nat} {ns : Int} {E : Int → Int} {istep : Int}
  (hgap : ∀ t b b', St n Q t b → St n Q (t + 1) b' → b + N ≤ b')
  (hK : ∀ t, (∃ b, St n Q t b) → t < ns → steps istep (E t) ≤ N)
  (hKK : ∀ t t', (∃ b, St n Q t b) → (∃ b, St n Q t' b) → t < ns → t' < ns → E t > 0 → ¬ E t' > 0 →
    steps istep (E t) + steps istep (E t') ≤ N)
include hgap hK

theorem zone_fwd {t : Int} {b j : Nat} (hb : St n Q t b) (ht : t < ns) (he : E t > 0) (hj : j < n)
    (hz : Zone n b istep (E t) j) : Q j = t := by
  unfold Zone at hz
  rw [if_pos he] at hz
  have h1 := (ge_iff hQ hb hj).2 hz.1
  by_contra hc
  obtain ⟨b', b1, b2, b3⟩ := exists_start hQ (t := t + 1) hz.1 hj (by rw [hb.2.2.2]; omega) (by omega)
  have := hgap t b b' hb b3
  have := hK t ⟨b, hb⟩ ht
  omega

theorem zone_bwd {t : Int} {b j : Nat} (hb : St n Q t b) (ht : t < ns) (he : ¬ E t > 0) (hj : j < n)
    (hz : Zone n b istep (E t) j) : Q j = t - 1 := by
  unfold Zone at hz
  rw [if_neg he] at hz
  have h1 : ¬ t ≤ Q j := fun h => by have := (ge_iff hQ hb hj).1 h; omega
  by_contra hc
  obtain ⟨b', b1, b2, b3⟩ := exists_start hQ (t := t - 1) (i := j) (j := b - 1) (by omega) (by have := hb.2.1; omega) (by omega)
    (by rw [hb.2.2.1])
  have := hgap (t - 1) b' b b3 (by rw [Int.sub_add_cancel]; exact hb)
  have := hK t ⟨b, hb⟩ ht
  omega

include hKK

theorem zone_unique {t t' : Int} {b b' j : Nat} (hb : St n Q t b) (hb' : St n Q t' b') (ht : t < ns) (ht' : t' < ns) (hj : j < n)
    (hz : Zone n b istep (E t) j) (hz' : Zone n b' istep (E t') j) : b = b' := by
  have cross : ∀ {t t' : Int} {b b' : Nat}, St n Q t b → St n Q t' b' → t < ns → t' < ns → E t > 0 → ¬ E t' > 0 →
      Zone n b istep (E t) j → Zone n b' istep (E t') j → False := by
    intro t t' b b' hb hb' ht ht' he he' hz hz'
    have q1 := zone_fwd hQ hgap hK hb ht he hj hz
    have q2 := zone_bwd hQ hgap hK hb' ht' he' hj hz'
    have : t' = t + 1 := by omega
    subst this
    have := hgap t b b' hb hb'
    have := hKK t (t + 1) ⟨b, hb⟩ ⟨b', hb'⟩ ht ht' he he'
    unfold Zone at hz hz'
    rw [if_pos he] at hz
    rw [if_neg he'] at hz'
    omega
  by_cases he : E t > 0
  · by_cases he' : E t' > 0
    · have q1 := zone_fwd hQ hgap hK hb ht he hj hz
      have q2 := zone_fwd hQ hgap hK hb' ht' he' hj hz'
      have : t = t' := by omega
      subst this
      exact st_unique hQ hb hb'
    · exact (cross hb hb' ht ht' he he' hz hz').elim
  · by_cases he' : E t' > 0
    · exact (cross hb' hb ht' ht he' he hz' hz).elim
    · have q1 := zone_bwd hQ hgap hK hb ht he hj hz
      have q2 := zone_bwd hQ hgap hK hb' ht' he' hj hz'
      have : t = t' := by omega
      subst this
      exact st_unique hQ hb hb'

/-- The new start of a season. -/
theorem new_iff {s : Int} {b j : Nat} (hb : St n Q s b) (hs : s < ns) (hj : j < n) (diff : Int)
    (h1 : ∀ t bt, St n Q t bt → t < ns → Zone n bt istep (E t) j → diff = sign (E t))
    (h0 : (∀ t bt, St n Q t bt → t < ns → ¬ Zone n bt istep (E t) j) → diff = 0) :
    s ≤ Q j + diff ↔ (b : Int) + (if E s > 0 then (steps istep (E s) : Int) else -(steps istep (E s) : Int)) ≤ j := by
  have hKs := hK s ⟨b, hb⟩ hs
  have hge := ge_iff hQ hb hj
  -- a start of season `s + 1` that is passed
  have hup : s + 1 ≤ Q j → b + N ≤ j := by
    intro h
    obtain ⟨b', -, b2, b3⟩ := exists_start hQ (t := s + 1) (hge.1 (by omega)) hj (by rw [hb.2.2.2]; omega) h
    have := hgap s b b' hb b3
    omega
  -- a start of season `s - 1` that is not reached
  have hdn : Q j < s - 1 → j + N < b := by
    intro h
    have hjb : ¬ b ≤ j := fun hc => by have := hge.2 hc; omega
    obtain ⟨b', b1, -, b3⟩ := exists_start hQ (t := s - 1) (i := j) (j := b - 1) (by omega) (by have := hb.2.1; omega) h
      (by rw [hb.2.2.1])
    have := hgap (s - 1) b' b b3 (by rw [Int.sub_add_cancel]; exact hb)
    omega
  by_cases hex : ∃ t bt, St n Q t bt ∧ t < ns ∧ Zone n bt istep (E t) j
  · obtain ⟨t, bt, hbt, ht, hz⟩ := hex
    rw [h1 t bt hbt ht hz]
    by_cases he : E t > 0
    · have hq := zone_fwd hQ hgap hK hbt ht he hj hz
      unfold sign
      rw [if_pos he]
      unfold Zone at hz
      rw [if_pos he] at hz
      rcases lt_trichotomy s t with h | h | h
      · have := hup (by omega)
        split <;> omega
      · subst h
        have := st_unique hQ hb hbt
        subst this
        rw [if_pos he]
        omega
      · have hjb : ¬ b ≤ j := fun hc => by have := hge.2 hc; omega
        by_cases hes : E s > 0
        · rw [if_pos hes]; omega
        · rw [if_neg hes]
          by_cases hst : s = t + 1
          · subst hst
            have := hgap t bt b hbt hb
            have := hKK t (t + 1) ⟨bt, hbt⟩ ⟨b, hb⟩ ht hs he hes
            omega
          · have := hdn (by omega)
            omega
    · have hq := zone_bwd hQ hgap hK hbt ht he hj hz
      unfold sign
      rw [if_neg he]
      unfold Zone at hz
      rw [if_neg he] at hz
      rcases lt_trichotomy s t with h | h | h
      · have hjb := hge.1 (by omega)
        by_cases hes : E s > 0
        · rw [if_pos hes]
          by_cases hst : t = s + 1
          · subst hst
            have := hgap s b bt hb hbt
            have := hKK s (s + 1) ⟨b, hb⟩ ⟨bt, hbt⟩ hs ht hes he
            omega
          · have := hup (by omega)
            omega
        · rw [if_neg hes]; omega
      · subst h
        have := st_unique hQ hb hbt
        subst this
        rw [if_neg he]
        omega
      · have hjb : ¬ b ≤ j := fun hc => by have := hge.2 hc; omega
        have := hdn (by omega)
        split <;> omega
  · have hno : ∀ t bt, St n Q t bt → t < ns → ¬ Zone n bt istep (E t) j := fun t bt x y z => hex ⟨t, bt, x, y, z⟩
    rw [h0 hno, add_zero, hge]
    have hz := hno s b hb hs
    unfold Zone at hz
    split at hz
    · rw [if_pos (by assumption)]; omega
    · rw [if_neg (by assumption)]; omega

end

/-- The starts of the seasons move as far as the fine-tuned starts say. -/
theorem shifted_spec (istep ns thetaDoy : Int) (fine : Int → Int) (l : List Int) (N : Nat)
    (hstep : ∀ i a b, l[i]? = some a → l[i + 1]? = some b → a ≤ b ∧ b ≤ a + 1)
    (hgap : ∀ (t : Int) (b b' : Nat), l[b]? = some (t - 1) → l[b + 1]? = some t → l[b']? = some t → l[b' + 1]? = some (t + 1) →
      b + N ≤ b')
    (hK : ∀ t b, l[b]? = some (t - 1) → l[b + 1]? = some t → t < ns → steps istep (fine t - (365 * t + thetaDoy)) ≤ N)
    (hKK : ∀ t b t' b', l[b]? = some (t - 1) → l[b + 1]? = some t → l[b']? = some (t' - 1) → l[b' + 1]? = some t' → t < ns → t' < ns →
      fine t - (365 * t + thetaDoy) > 0 → ¬ fine t' - (365 * t' + thetaDoy) > 0 →
      steps istep (fine t - (365 * t + thetaDoy)) + steps istep (fine t' - (365 * t' + thetaDoy)) ≤ N)
    (s : Int) (b : Nat) (h1 : l[b]? = some (s - 1)) (h2 : l[b + 1]? = some s) (hs : s < ns) (j : Nat) (q : Int)
    (hq : (shifted istep ns thetaDoy fine l)[j]? = some q) :
    s ≤ q ↔ ((b + 1 : Nat) : Int) + (if fine s - (365 * s + thetaDoy) > 0 then (steps istep (fine s - (365 * s + thetaDoy)) : Int)
      else -(steps istep (fine s - (365 * s + thetaDoy)) : Int)) ≤ j := by
  cases l with
  | nil => simp at h1
  | cons q0 qs =>
    let Q : Nat → Int := fun i => (q0 :: qs).getD i 0
    let n := qs.length + 1
    have hget : ∀ i, i < n → (q0 :: qs)[i]? = some (Q i) := by
      intro i hi
      have hi' : i < (q0 :: qs).length := by simpa [n] using hi
      simp only [Q]
      rw [List.getElem?_eq_getElem hi', List.getD_eq_getElem _ _ hi']
    have hlt : ∀ i v, (q0 :: qs)[i]? = some v → i < n ∧ Q i = v := by
      intro i v h
      have := (List.getElem?_eq_some_iff.1 h).1
      refine ⟨by simpa [n] using this, ?_⟩
      have := hget i (by simpa [n] using this)
      rw [h] at this
      exact (Option.some.inj this).symm
    have hQ : ∀ i, i + 1 < n → Q i ≤ Q (i + 1) ∧ Q (i + 1) ≤ Q i + 1 := fun i hi =>
      hstep i _ _ (hget i (by omega)) (hget (i + 1) hi)
    have hSt : ∀ t b, St n Q t b → (q0 :: qs)[b - 1]? = some (t - 1) ∧ (q0 :: qs)[b - 1 + 1]? = some t := by
      rintro t b ⟨b1, b2, b3, b4⟩
      refine ⟨by rw [hget (b - 1) (by omega), b3], ?_⟩
      rw [Nat.sub_add_cancel b1, hget b b2, b4]
    let E : Int → Int := fun t => fine t - (365 * t + thetaDoy)
    have hE : ∀ t, moved thetaDoy fine t = E t := by intro t; unfold moved doy2ce; simp only [E]; ring
    have hgap' : ∀ t b b', St n Q t b → St n Q (t + 1) b' → b + N ≤ b' := by
      intro t b b' hb hb'
      obtain ⟨x1, x2⟩ := hSt t b hb
      obtain ⟨y1, y2⟩ := hSt _ b' hb'
      have := hgap t (b - 1) (b' - 1) x1 x2 (by rw [y1]; simp) y2
      have := hb.1
      have := hb'.1
      omega
    have hK' : ∀ t, (∃ b, St n Q t b) → t < ns → steps istep (E t) ≤ N := by
      rintro t ⟨b, hb⟩ ht
      obtain ⟨x1, x2⟩ := hSt t b hb
      exact hK t _ x1 x2 ht
    have hKK' : ∀ t t', (∃ b, St n Q t b) → (∃ b, St n Q t' b) → t < ns → t' < ns → E t > 0 → ¬ E t' > 0 →
        steps istep (E t) + steps istep (E t') ≤ N := by
      rintro t t' ⟨b, hb⟩ ⟨b', hb'⟩ ht ht' he he'
      obtain ⟨x1, x2⟩ := hSt t b hb
      obtain ⟨y1, y2⟩ := hSt t' b' hb'
      exact hKK t _ t' _ x1 x2 y1 y2 ht ht' he he'
    obtain ⟨-, g1⟩ := hlt b _ h1
    obtain ⟨g0, g2⟩ := hlt (b + 1) _ h2
    have hb : St n Q s (b + 1) := ⟨by omega, g0, by rw [Nat.add_sub_cancel]; exact g1, g2⟩
    unfold shifted at hq
    simp only at hq
    rw [List.getElem?_map, List.getElem?_zipIdx] at hq
    have hjn : j < n := by
      by_contra hc
      rw [List.getElem?_eq_none (by simp [n] at hc ⊢; omega)] at hq
      simp at hq
    rw [hget j hjn] at hq
    simp only [Option.map_some, Option.some.injEq, zero_add] at hq
    have hqs : qs = (List.range' 1 qs.length).map Q := by
      apply List.ext_getElem?
      intro i
      rw [List.getElem?_map]
      by_cases hi : i < qs.length
      · rw [List.getElem?_range' hi]
        have := hget (1 + i) (by simp only [n]; omega)
        rw [Nat.add_comm 1 i, List.getElem?_cons_succ] at this
        rw [this]
        simp [Nat.add_comm]
      · rw [List.getElem?_eq_none (by omega), List.getElem?_eq_none (by simp; omega)]
        rfl
    have hQ0 : Q 0 = q0 := rfl
    have hw : ∀ diff : Nat → Int, walk (qs.length + 1) istep ns thetaDoy fine 1 q0 qs diff j =
        walk n istep ns thetaDoy fine 1 (Q (1 - 1)) ((List.range' 1 qs.length).map Q) diff j := by
      intro diff
      rw [← hqs]
      rfl
    rw [hw] at hq
    rw [← hq]
    refine new_iff hQ hgap' hK' hKK' hb hs hjn _ ?_ ?_
    · intro t bt hbt ht hz
      rw [← hbt.2.2.2] at ht hz
      have hbq : Q bt ≠ Q (bt - 1) := by rw [hbt.2.2.1, hbt.2.2.2]; omega
      rw [← hE] at hz
      have := walk_one n istep ns thetaDoy fine Q qs.length 1 (fun _ => 0) j bt hbt.1 (by have := hbt.2.1; simp only [n] at this; omega)
        hbq ht hz (fun a b h1 h2 => mono_of hQ h1 (by simp only [n]; omega)) ?_ (le_refl _)
      · rw [this, hE, hbt.2.2.2]
      · intro m m1 m2 m3 m4 m5 hzm
        apply m5
        have hm := boundary_st hQ m1 (by simp only [n]; omega) m3
        rw [hE] at hz hzm
        have hbt' : St n Q (Q bt) bt := by rw [hbt.2.2.2]; exact hbt
        exact zone_unique hQ hgap' hK' hKK' hm hbt' m4 ht hjn hzm hz
    · intro hno
      apply walk_none n istep ns thetaDoy fine Q qs.length 1 (fun _ => 0) j ?_ (le_refl _)
      intro m m1 m2 m3 m4
      rw [hE]
      exact hno _ m (boundary_st hQ m1 (by simp only [n]; omega) m3) m4

/-- C260: with ADAPTIVE, the fine-tuned start of a season is half a year before the date of its averaged vector, and no
more than half a year before or after the regular start. (The angle is not exactly that of `π`, which is not a floating-point
number.) -/
theorem c260_start (theta : ℝ) (h0 : 0 ≤ theta) (h1 : theta < 2 * π) (istep : Int) (ns : Nat) (l : List Step)
    (hs : l.Pairwise fun a b => a.season ≤ b.season) (fine new : List Int)
    (h : adaptive istep ns theta l = some (fine, new)) (s : Nat) (hlt : s < ns)
    (hne : mean (l.filter fun p => p.season = s) ≠ π) :
    ∃ u, theta ≤ u ∧ u ≤ theta + 2 * π ∧
      (u = mean (l.filter fun p => p.season = s) ∨ u = mean (l.filter fun p => p.season = s) + 2 * π) ∧
      fine[s]? = some (365 * (s : Int) + ⌊(u - π) * 365 / (2 * π)⌋) ∧
      |⌊(u - π) * 365 / (2 * π)⌋ - ⌊theta * 365 / (2 * π)⌋| ≤ 183 := by
  unfold adaptive at h
  rw [fineStarts_eq theta ns 0 l hs] at h
  split at h
  · rw [Option.map_some, Option.some.injEq, Prod.mk.injEq] at h
    have hr := angle_range (meanX (ofSeason s l)) (meanY (ofSeason s l))
    obtain ⟨u, u1, u2, u3, u4⟩ := fineStart_eq theta (mean (ofSeason s l)) s h1 h0 hr.1 hr.2 hne
    refine ⟨u, u1, u2, u3, ?_, ?_⟩
    · rw [← h.1, List.getElem?_map, List.getElem?_range hlt, Option.map_some, zero_add, u4]
    · have hpi := pi_pos
      have e : (u - π) * 365 / (2 * π) = u * 365 / (2 * π) - 365 / 2 := by field_simp
      have a1 : theta * 365 / (2 * π) ≤ u * 365 / (2 * π) := by gcongr
      have a2 : u * 365 / (2 * π) ≤ theta * 365 / (2 * π) + 365 := by
        have : (theta + 2 * π) * 365 / (2 * π) = theta * 365 / (2 * π) + 365 := by field_simp
        rw [← this]
        gcongr
      rw [e]
      generalize u * 365 / (2 * π) = x at a1 a2
      generalize theta * 365 / (2 * π) = y at a1 a2
      have f1 := Int.floor_le (x - 365 / 2)
      have f2 := Int.lt_floor_add_one (x - 365 / 2)
      have f3 := Int.floor_le y
      have f4 := Int.lt_floor_add_one y
      rw [abs_le]
      constructor
      · have : (-184 : ℝ) < ((⌊x - 365 / 2⌋ - ⌊y⌋ : ℤ) : ℝ) := by push_cast; linarith
        have : (-184 : ℤ) < ⌊x - 365 / 2⌋ - ⌊y⌋ := by exact_mod_cast this
        omega
      · have : ((⌊x - 365 / 2⌋ - ⌊y⌋ : ℤ) : ℝ) < 184 := by push_cast; linarith
        have : ⌊x - 365 / 2⌋ - ⌊y⌋ < (184 : ℤ) := by exact_mod_cast this
        omega
  · cases h

/-- C260: the first step of each season moves by as many steps as fit between the regular and the fine-tuned start: step
`i` belongs to season `s` or a later one if and only if it is not before that step. For series in which the
seasons follow each other and have at least as many steps as fit into a year. -/
theorem c260_seasons (theta : ℝ) (h0 : 0 ≤ theta) (h1 : theta < 2 * π) (istep : Int) (hi : 1 ≤ istep) (ns : Nat) (l : List Step)
    (fine new : List Int) (h : adaptive istep ns theta l = some (fine, new))
    (hstep : ∀ i p q, l[i]? = some p → l[i + 1]? = some q → p.season ≤ q.season ∧ q.season ≤ p.season + 1)
    (hfirst : ∀ p, l[0]? = some p → -1 ≤ p.season)
    (hfull : ∀ (s : Int) (b b' : Nat), (l.map Step.season)[b]? = some (s - 1) → (l.map Step.season)[b + 1]? = some s →
      (l.map Step.season)[b']? = some s → (l.map Step.season)[b' + 1]? = some (s + 1) → b + (365 / istep).toNat ≤ b')
    (hne : ∀ s : Nat, s < ns → mean (l.filter fun p => p.season = s) ≠ π)
    (s b : Nat) (hs : s < ns) (hb : (l.map Step.season)[b]? = some ((s : Int) - 1)) (hb' : (l.map Step.season)[b + 1]? = some (s : Int)) :
    ∃ f e : Int, fine[s]? = some f ∧ e = f - (365 * s + ⌊theta * 365 / (2 * π)⌋) ∧ -183 ≤ e ∧ e ≤ 183 ∧
      ∀ (i : Nat) q, new[i]? = some q →
        ((s : Int) ≤ q ↔ (b : Int) + 1 + (if 0 < e then e / istep else -((-e) / istep)) ≤ i) := by
  -- the order of the seasons
  have hsorted : l.Pairwise fun a b => a.season ≤ b.season := by
    apply List.pairwise_iff_getElem.2
    intro i j hi hj hij
    have : ∀ d (hd : i + d < l.length), l[i].season ≤ l[i + d].season := by
      intro d
      induction d with
      | zero => intro _; exact le_refl _
      | succ d ih =>
        intro hd
        exact (ih (by omega)).trans (hstep (i + d) _ _ (List.getElem?_eq_getElem (by omega)) (List.getElem?_eq_getElem hd)).1
    have := this (j - i) (by omega)
    simpa [Nat.add_sub_cancel' hij.le] using this
  have hst := fun t ht => c260_start theta h0 h1 istep ns l hsorted fine new h t ht (hne t ht)
  have hdefs : new = shifted istep ns (day theta) (fun s => fine.getD s.toNat 0) (l.map Step.season) := by
    unfold adaptive at h
    cases hf : fineStarts theta ns 0 l with
    | none => rw [hf] at h; cases h
    | some r =>
      rw [hf, Option.map_some, Option.some.injEq, Prod.mk.injEq] at h
      rw [← h.2, h.1]
  have hmap : ∀ i a b, (l.map Step.season)[i]? = some a → (l.map Step.season)[i + 1]? = some b → a ≤ b ∧ b ≤ a + 1 := by
    intro i a b ha hb
    rw [List.getElem?_map, Option.map_eq_some_iff] at ha hb
    obtain ⟨p, hp, rfl⟩ := ha
    obtain ⟨q, hq, rfl⟩ := hb
    exact hstep i p q hp hq
  -- starts of seasons that are not negative
  have hnn : ∀ (t : Int) (b : Nat), (l.map Step.season)[b + 1]? = some t → (l.map Step.season)[b]? = some (t - 1) → 0 ≤ t := by
    intro t b ht ht'
    rw [List.getElem?_map, Option.map_eq_some_iff] at ht'
    obtain ⟨p, hp, hpt⟩ := ht'
    obtain ⟨hbl, rfl⟩ := List.getElem?_eq_some_iff.1 hp
    have h0' := hfirst l[0] (List.getElem?_eq_getElem (by omega))
    rcases Nat.eq_zero_or_pos b with rfl | hpos
    · omega
    · have := List.pairwise_iff_getElem.1 hsorted 0 b (by omega) hbl hpos
      omega
  -- the shift of a season
  have hfine : ∀ t : Int, 0 ≤ t → t < ns → ∃ x : ℝ, theta * 365 / (2 * π) - 365 / 2 ≤ x ∧ x ≤ theta * 365 / (2 * π) + 365 / 2 ∧
      fine.getD t.toNat 0 - (365 * t + day theta) = ⌊x⌋ - day theta ∧ |⌊x⌋ - day theta| ≤ 183 := by
    intro t ht0 ht
    obtain ⟨u, u1, u2, -, u4, u5⟩ := hst t.toNat (by omega)
    have hpi := pi_pos
    refine ⟨(u - π) * 365 / (2 * π), ?_, ?_, ?_, u5⟩
    · have : (theta - π) * 365 / (2 * π) = theta * 365 / (2 * π) - 365 / 2 := by field_simp
      rw [← this]; gcongr
    · have : (theta + 2 * π - π) * 365 / (2 * π) = theta * 365 / (2 * π) + 365 / 2 := by field_simp; ring
      rw [← this]; gcongr
    · rw [List.getD_eq_getElem?_getD, u4, Option.getD_some, Int.toNat_of_nonneg ht0]
      ring
  have hN : ∀ x : Nat, x ≤ 365 → x / istep.toNat ≤ (365 / istep).toNat := by
    intro x hx
    have : (365 / istep).toNat = 365 / istep.toNat := by
      obtain ⟨k, rfl⟩ := Int.eq_ofNat_of_zero_le (show 0 ≤ istep by omega)
      rw [Int.toNat_natCast]
      have : (365 : Int) / (k : Int) = ((365 / k : Nat) : Int) := by push_cast; rfl
      rw [this, Int.toNat_natCast]
    rw [this]
    exact Nat.div_le_div_right hx
  have hdiv : ∀ x : Int, 0 ≤ x → ((x.natAbs / istep.toNat : Nat) : Int) = x / istep := by
    intro x hx
    push_cast
    rw [Int.toNat_of_nonneg (by omega), abs_of_nonneg hx]
  have main := shifted_spec istep ns (day theta) (fun s => fine.getD s.toNat 0) (l.map Step.season) (365 / istep).toNat hmap hfull
    (by
      intro t b t1 t2 t3
      obtain ⟨x, -, -, x3, x4⟩ := hfine t (hnn t b t2 t1) t3
      rw [x3]
      rw [abs_le] at x4
      exact hN _ (by omega))
    (by
      intro t b t' b' t1 t2 t3 t4 t5 t6 t7 t8
      obtain ⟨x, x1, x2, x3, x4⟩ := hfine t (hnn t b t2 t1) t5
      obtain ⟨y, y1, y2, y3, y4⟩ := hfine t' (hnn t' b' t4 t3) t6
      rw [x3] at t7 ⊢
      rw [y3] at t8 ⊢
      have hxy : ⌊x⌋ ≤ ⌊y⌋ + 365 := by
        have : ⌊x⌋ ≤ ⌊y + ((365 : ℤ) : ℝ)⌋ := Int.floor_le_floor (by push_cast; linarith)
        rwa [Int.floor_add_intCast] at this
      unfold steps
      exact (Nat.add_div_le_add_div _ _ _).trans (hN _ (by omega)))
    s b hb hb' (by exact_mod_cast hs)
  obtain ⟨u, u1, u2, -, u4, u5⟩ := hst s hs
  obtain ⟨x, -, -, x3, x4⟩ := hfine s (by omega) (by exact_mod_cast hs)
  have hgd : fine.getD ((s : Int).toNat) 0 = 365 * (s : Int) + ⌊(u - π) * 365 / (2 * π)⌋ := by
    rw [List.getD_eq_getElem?_getD, Int.toNat_natCast, u4, Option.getD_some]
  refine ⟨_, _, u4, rfl, ?_, ?_, ?_⟩
  · rw [abs_le] at u5; omega
  · rw [abs_le] at u5; omega
  · intro i q hq
    rw [hdefs] at hq
    have m := main i q hq
    rw [hgd] at m
    rw [m]
    have hday : day theta = ⌊theta * 365 / (2 * π)⌋ := rfl
    rw [hday]
    generalize 365 * (s : Int) + ⌊(u - π) * 365 / (2 * π)⌋ - (365 * (s : Int) + ⌊theta * 365 / (2 * π)⌋) = e
    unfold steps
    by_cases he : e > 0
    · rw [if_pos he, if_pos he, hdiv e he.le]
      push_cast
      rfl
    · rw [if_neg he, if_neg he, ← hdiv (-e) (by omega), Int.natAbs_neg]
      push_cast
      rfl

/-- The new start is less than one step before and less than two steps after the fine-tuned start. -/
theorem close (istep ce t e : Int) (hi : 1 ≤ istep) (h0 : t ≤ ce) (h1 : ce < t + istep) :
    -istep < ce + (if 0 < e then e / istep else -((-e) / istep)) * istep - (t + e) ∧
      ce + (if 0 < e then e / istep else -((-e) / istep)) * istep - (t + e) < 2 * istep := by
  split
  · have a := Int.mul_ediv_add_emod e istep
    have b := Int.emod_nonneg e (show istep ≠ 0 by omega)
    have c := Int.emod_lt_of_pos e (show 0 < istep by omega)
    rw [mul_comm] at a
    constructor <;> linarith
  · have a := Int.mul_ediv_add_emod (-e) istep
    have b := Int.emod_nonneg (-e) (show istep ≠ 0 by omega)
    have c := Int.emod_lt_of_pos (-e) (show 0 < istep by omega)
    rw [mul_comm] at a
    constructor <;> linarith

/-- C260: for steps at regular distance, a season begins with the fine-tuned start, up to one step: the steps of season `s` and
later ones are less than a step before it or after it, the steps of earlier seasons before it or less than a step after
it. -/
theorem c260_dates (theta : ℝ) (h0 : 0 ≤ theta) (h1 : theta < 2 * π) (istep : Int) (hi : 1 ≤ istep) (ns : Nat) (l : List Step)
    (fine new : List Int) (h : adaptive istep ns theta l = some (fine, new))
    (hstep : ∀ i p q, l[i]? = some p → l[i + 1]? = some q → p.season ≤ q.season ∧ q.season ≤ p.season + 1)
    (hfirst : ∀ p, l[0]? = some p → -1 ≤ p.season)
    (hfull : ∀ (s : Int) (b b' : Nat), (l.map Step.season)[b]? = some (s - 1) → (l.map Step.season)[b + 1]? = some s →
      (l.map Step.season)[b']? = some s → (l.map Step.season)[b' + 1]? = some (s + 1) → b + (365 / istep).toNat ≤ b')
    (hne : ∀ s : Nat, s < ns → mean (l.filter fun p => p.season = s) ≠ π) (ce0 : Int)
    (hce : ∀ (i : Nat) p, l[i]? = some p → 365 * p.year + p.doy = ce0 + i * istep)
    (s b : Nat) (hs : s < ns) (hb : (l.map Step.season)[b]? = some ((s : Int) - 1)) (hb' : (l.map Step.season)[b + 1]? = some (s : Int))
    (hreg : 365 * s + ⌊theta * 365 / (2 * π)⌋ ≤ ce0 + (b + 1) * istep ∧
      ce0 + (b + 1) * istep < 365 * s + ⌊theta * 365 / (2 * π)⌋ + istep) :
    ∃ f, fine[s]? = some f ∧ ∀ (i : Nat) q p, new[i]? = some q → l[i]? = some p →
      ((s : Int) ≤ q → f - istep < 365 * p.year + p.doy) ∧ (q < s → 365 * p.year + p.doy < f + istep) := by
  obtain ⟨f, e, f1, rfl, -, -, f5⟩ := c260_seasons theta h0 h1 istep hi ns l fine new h hstep hfirst hfull hne s b hs hb hb'
  have c := close istep (ce0 + (b + 1) * istep) (365 * s + ⌊theta * 365 / (2 * π)⌋)
    (f - (365 * s + ⌊theta * 365 / (2 * π)⌋)) hi hreg.1 hreg.2
  refine ⟨f, f1, fun i q p hq hp => ?_⟩
  have g := f5 i q hq
  rw [hce i p hp]
  generalize (if 0 < f - (365 * s + ⌊theta * 365 / (2 * π)⌋) then (f - (365 * s + ⌊theta * 365 / (2 * π)⌋)) / istep
    else -(-(f - (365 * s + ⌊theta * 365 / (2 * π)⌋)) / istep)) = d at c g
  constructor
  · intro hle
    have := g.1 hle
    have h2 : (0 : Int) ≤ (i - (b + 1 + d)) * istep := mul_nonneg (by omega) (by omega)
    nlinarith [c.1]
  · intro hlt
    have : ¬ (b : Int) + 1 + d ≤ i := fun hc => by have := g.2 hc; omega
    have h2 : (0 : Int) ≤ ((b + 1 + d) - i - 1) * istep := mul_nonneg (by omega) (by omega)
    nlinarith [c.2]

/-- C260, violated: if one of the seasons has no step (the series begins too late for the regular seasons, C65), the average
is 0/0 and the starts of the seasons are undefined. -/
theorem c260_empty_violated (theta : ℝ) (istep : Int) (ns : Nat) (l : List Step) (hs : l.Pairwise fun a b => a.season ≤ b.season)
    (s : Nat) (hlt : s < ns) (hno : ∀ p ∈ l, p.season ≠ s) : adaptive istep ns theta l = none := by
  unfold adaptive
  rw [fineStarts_eq theta ns 0 l hs, if_neg]
  · rfl
  · intro h
    apply h s hlt
    unfold ofSeason
    rw [List.filter_eq_nil_iff]
    intro p hp
    simpa using hno p hp

/-- One step per year. -/
def exYears : List Step := [⟨100, 0, 1, -1, 0⟩, ⟨100, 1, 1, 0, 0⟩, ⟨100, 2, 1, 1, 0⟩]

/-- The hypotheses can be met. -/
example : (∃ fine new, adaptive 365 1 π exYears = some (fine, new)) ∧
    (∀ i p q, exYears[i]? = some p → exYears[i + 1]? = some q → p.season ≤ q.season ∧ q.season ≤ p.season + 1) ∧
    (∀ s : Nat, s < 1 → mean (exYears.filter fun p => p.season = s) ≠ π) ∧
    (exYears.map Step.season)[0]? = some (((0 : Nat) : Int) - 1) ∧ (exYears.map Step.season)[0 + 1]? = some ((0 : Nat) : Int) := by
  have hsort : exYears.Pairwise fun a b => a.season ≤ b.season := by simp [exYears]
  refine ⟨?_, ?_, ?_, by simp [exYears], by simp [exYears]⟩
  · unfold adaptive
    rw [fineStarts_eq π 1 0 exYears hsort, if_pos]
    · exact ⟨_, _, rfl⟩
    · intro k hk
      have : k = 0 := by omega
      subst this
      simp [ofSeason, exYears]
  · intro i p q h1 h2
    match i with
    | 0 => simp [exYears] at h1 h2; subst h1 h2; decide
    | 1 => simp [exYears] at h1 h2; subst h1 h2; decide
    | n + 2 => simp [exYears] at h2
  · intro s hs
    have : s = 0 := by omega
    subst this
    have e : (exYears.filter fun p => p.season = ((0 : Nat) : Int)) = [⟨100, 1, 1, 0, 0⟩] := by simp [exYears]
    rw [e]
    intro h
    have h1 := angle_sin (meanX [⟨100, 1, 1, 0, 0⟩]) (meanY [⟨100, 1, 1, 0, 0⟩])
    change _ * sin (mean _) = _ at h1
    rw [h, sin_pi, mul_zero] at h1
    have h2 : meanY [⟨100, 1, 1, 0, 0⟩] = sin (((100 : Int) : ℝ) / 365 * 2 * π) := by
      simp [meanY, Step.pcy, Step.rad]
    rw [h2] at h1
    have hpi := pi_pos
    have := sin_pos_of_pos_of_lt_pi (x := ((100 : Int) : ℝ) / 365 * 2 * π) (by push_cast; positivity) (by push_cast; nlinarith)
    linarith

end Verif.Avec

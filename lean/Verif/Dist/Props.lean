import Mathlib.Tactic.Linarith
import Mathlib.Tactic.Ring
import Mathlib.Tactic.NormNum
import Mathlib.Tactic.Positivity
import Verif.Dist.Spec

/-!
# Theorems about the distance transform: C13
-/

namespace Verif.Dist

open Spec
open Verif.Str (Out)

/-! ## First phase -/

theorem ushort_id {x : Int} (h1 : 0 ≤ x) (h2 : x < 65536) : ushort x = x := Int.emod_eq_of_lt h1 h2

theorem scan1_spec (nx ny : Nat) (h : nx + 2 * ny < 65536) (col : Nat → Bool) (y : Nat) (hy : y < ny) :
    0 ≤ scan1 nx ny col y ∧ scan1 nx ny col y ≤ nx + ny + y ∧
    (∀ b, b ≤ y → col b = true → scan1 nx ny col y ≤ y - b) ∧
    ((∃ b, b ≤ y ∧ col b = true ∧ scan1 nx ny col y = y - b) ∨
      ((∀ b, b ≤ y → col b = false) ∧ scan1 nx ny col y = nx + ny + y)) := by
  induction y with
  | zero =>
    by_cases hc : col 0 = true
    · simp only [scan1, hc, if_true]
      refine ⟨le_rfl, by positivity, ?_, Or.inl ⟨0, le_rfl, hc, by simp⟩⟩
      intro b hb _
      have : b = 0 := by omega
      subst this; simp
    · simp only [scan1, hc, Bool.false_eq_true, if_false]
      rw [ushort_id (by positivity) (by omega)]
      refine ⟨by positivity, by simp, ?_, Or.inr ⟨?_, by simp⟩⟩
      · intro b hb hcb
        have : b = 0 := by omega
        subst this; exact absurd hcb hc
      · intro b hb
        have : b = 0 := by omega
        subst this; simpa using hc
  | succ y ih =>
    obtain ⟨i1, i2, i3, i4⟩ := ih (by omega)
    by_cases hc : col (y + 1) = true
    · simp only [scan1, hc, if_true]
      refine ⟨le_rfl, by positivity, ?_, Or.inl ⟨y + 1, le_rfl, hc, by simp⟩⟩
      intro b hb _
      push_cast
      omega
    · simp only [scan1, hc, Bool.false_eq_true, if_false]
      rw [ushort_id (by omega) (by omega)]
      have hb' : ∀ b, b ≤ y + 1 → col b = true → b ≤ y := by
        intro b hb hcb
        by_contra hn
        have : b = y + 1 := by omega
        subst this
        exact hc hcb
      refine ⟨by omega, by push_cast; omega, ?_, ?_⟩
      · intro b hb hcb
        have := i3 b (hb' b hb hcb) hcb
        push_cast; omega
      · rcases i4 with ⟨b, h1, h2, h3⟩ | ⟨h1, h2⟩
        · left; exact ⟨b, by omega, h2, by push_cast; omega⟩
        · right
          refine ⟨?_, by push_cast; omega⟩
          intro b hb
          by_cases hbt : col b = true
          · exact h1 b (hb' b hb hbt)
          · simpa using hbt

theorem scan2_spec (nx ny : Nat) (h : nx + 2 * ny < 65536) (col : Nat → Bool) (k y : Nat) (hy : y + k + 1 = ny) :
    0 ≤ scan2 nx ny col k ∧ scan2 nx ny col k ≤ nx + ny + y ∧
    (∀ b, b < ny → col b = true → scan2 nx ny col k ≤ |(y : Int) - b|) ∧
    ((∃ b, b < ny ∧ col b = true ∧ scan2 nx ny col k = |(y : Int) - b|) ∨
      ((∀ b, b < ny → col b = false) ∧ (nx : Int) + ny ≤ scan2 nx ny col k)) := by
  induction k generalizing y with
  | zero =>
    obtain ⟨i1, i2, i3, i4⟩ := scan1_spec nx ny h col y (by omega)
    have e : ny - 1 = y := by omega
    simp only [scan2, e]
    refine ⟨i1, i2, ?_, ?_⟩
    · intro b hb hc
      rw [abs_of_nonneg (by omega)]
      exact i3 b (by omega) hc
    · rcases i4 with ⟨b, h1, h2, h3⟩ | ⟨h1, h2⟩
      · left; exact ⟨b, by omega, h2, by rw [abs_of_nonneg (by omega)]; exact h3⟩
      · right; exact ⟨fun b hb => h1 b (by omega), by omega⟩
  | succ k ih =>
    obtain ⟨j1, j2, j3, j4⟩ := ih (y + 1) (by omega)
    obtain ⟨i1, i2, i3, i4⟩ := scan1_spec nx ny h col y (by omega)
    have e : ny - 1 - (k + 1) = y := by omega
    simp only [scan2, e]
    push_cast at j2 j3 j4
    by_cases hlt : scan2 nx ny col k < scan1 nx ny col y
    · rw [if_pos hlt, ushort_id (by omega) (by omega)]
      refine ⟨by omega, by omega, ?_, ?_⟩
      · intro b hb hc
        by_cases hby : b ≤ y
        · have := i3 b hby hc
          rw [abs_of_nonneg (by omega)]; omega
        · have := j3 b hb hc
          rw [abs_of_nonpos (by omega)] at this ⊢; omega
      · rcases j4 with ⟨b, h1, h2, h3⟩ | ⟨h1, h2⟩
        · left
          refine ⟨b, h1, h2, ?_⟩
          by_cases hby : b ≤ y
          · have := i3 b hby h2
            rw [abs_of_nonneg (by omega)] at h3; omega
          · rw [abs_of_nonpos (by omega)] at h3 ⊢; omega
        · right; exact ⟨h1, by omega⟩
    · rw [if_neg hlt]
      refine ⟨i1, i2, ?_, ?_⟩
      · intro b hb hc
        by_cases hby : b ≤ y
        · have := i3 b hby hc
          rw [abs_of_nonneg (by omega)]; omega
        · have := j3 b hb hc
          rw [abs_of_nonpos (by omega)] at this ⊢; omega
      · rcases i4 with ⟨b, h1, h2, h3⟩ | ⟨h1, h2⟩
        · left; exact ⟨b, by omega, h2, by rw [abs_of_nonneg (by omega)]; exact h3⟩
        · right
          refine ⟨?_, by omega⟩
          intro b hb
          by_contra hbt
          have hbt' : col b = true := by simpa using hbt
          have hby : ¬ b ≤ y := fun hle => by rw [h1 b hle] at hbt'; cases hbt'
          have := j3 b hb hbt'
          rw [abs_of_nonpos (by omega)] at this
          omega

/-! ## Second phase -/

/-- Squared distance of column `x` to the best pixel of column `i`. -/
def f (g : Int → Int) (x i : Int) : Int := (x - i) ^ 2 + g i ^ 2

/-- The numbers are small enough for 32-bit integers. -/
structure Small (nx : Nat) (g : Int → Int) : Prop where
  pos : ∀ i : Int, 0 ≤ i → i < nx → 0 ≤ g i
  bnd : ∃ B : Int, (∀ i : Int, 0 ≤ i → i < nx → g i ≤ B) ∧ B ^ 2 + (nx : Int) ^ 2 ≤ 2147483647

theorem Small.sq {nx : Nat} {g : Int → Int} (h : Small nx g) {i : Int} (h0 : 0 ≤ i) (h1 : i < nx) :
    0 ≤ g i ^ 2 ∧ g i ^ 2 + (nx : Int) ^ 2 ≤ 2147483647 := by
  obtain ⟨B, hB, hn⟩ := h.bnd
  have a := h.pos i h0 h1
  have b := hB i h0 h1
  constructor
  · positivity
  · nlinarith

theorem sq_le {nx : Nat} {x i : Int} (h0 : 0 ≤ x) (h1 : x < nx) (h2 : 0 ≤ i) (h3 : i < nx) :
    (x - i) ^ 2 ≤ (nx : Int) ^ 2 := by
  apply sq_le_sq'  <;> omega

theorem dfun_ok {nx : Nat} {g : Int → Int} (h : Small nx g) {x i : Int} (h0 : 0 ≤ x) (h1 : x < nx)
    (h2 : 0 ≤ i) (h3 : i < nx) : dfun nx g x i = .ok (f g x i) := by
  obtain ⟨a1, a2⟩ := h.sq h2 h3
  have b := sq_le h0 h1 h2 h3
  have b0 : 0 ≤ (x - i) ^ 2 := sq_nonneg _
  simp only [dfun, readG, if_pos (And.intro h2 h3), Out.bind, ← pow_two, int]
  rw [if_pos (by constructor <;> omega)]
  simp only
  have n0 : 0 ≤ (nx : Int) ^ 2 := sq_nonneg _
  rw [if_pos (by constructor <;> omega)]
  simp only
  rw [if_pos (by constructor <;> omega)]
  rfl

/-- Numerator of the separation. -/
def num (g : Int → Int) (i u : Int) : Int := u ^ 2 - i ^ 2 + g u ^ 2 - g i ^ 2

theorem f_sub (g : Int → Int) (x i u : Int) : f g x u - f g x i = num g i u - x * (2 * (u - i)) := by
  simp only [f, num]; ring

theorem sep_ok {nx : Nat} {g : Int → Int} (h : Small nx g) {i u : Int} (h0 : 0 ≤ i) (h1 : i < u) (h2 : u < nx)
    (hn : 0 ≤ num g i u) : sep nx g i u = .ok (num g i u / (2 * (u - i))) := by
  obtain ⟨a1, a2⟩ := h.sq (i := u) (by omega) h2
  obtain ⟨b1, b2⟩ := h.sq (i := i) h0 (by omega)
  have c : u ^ 2 ≤ (nx : Int) ^ 2 := by apply pow_le_pow_left₀ <;> omega
  have d : i ^ 2 ≤ u ^ 2 := by apply pow_le_pow_left₀ <;> omega
  have n0 : 0 ≤ i ^ 2 := sq_nonneg _
  have hnx : (nx : Int) ≤ 46340 := by nlinarith
  unfold num at hn ⊢
  simp only [sep, readG, if_pos (show 0 ≤ u ∧ u < nx by omega), if_pos (show 0 ≤ i ∧ i < nx by omega), Out.bind,
    ← pow_two, int]
  rw [if_pos (by constructor <;> omega)]; simp only
  rw [if_pos (by constructor <;> omega)]; simp only
  rw [if_pos (by constructor <;> omega)]; simp only
  rw [if_pos (by constructor <;> omega)]; simp only
  rw [if_pos (by constructor <;> omega)]; simp only
  rw [if_pos (by constructor <;> omega)]; simp only
  rw [if_pos (by constructor <;> omega)]; simp only
  rw [if_pos (by constructor <;> omega)]; simp only
  rw [if_neg (by omega), Int.tdiv_eq_ediv_of_nonneg hn]

/-- Invariant of scan 3 when the columns `0, …, u-1` have been considered: `t` splits the row into
segments, and `s k` is the best of these columns for all of segment `k`. -/
structure Env (nx : Nat) (g : Int → Int) (u : Int) (st : St) : Prop where
  q0 : 0 ≤ st.q
  qu : st.q < u
  t0 : st.t 0 = 0
  tmono : ∀ k, 0 ≤ k → k < st.q → st.t k < st.t (k + 1)
  tpos : ∀ k, 0 ≤ k → k ≤ st.q → 0 ≤ st.t k ∧ st.t k < nx
  srng : ∀ k, 0 ≤ k → k ≤ st.q → 0 ≤ st.s k ∧ st.s k < u
  best : ∀ k, 0 ≤ k → k ≤ st.q → ∀ x, st.t k ≤ x → (k < st.q → x < st.t (k + 1)) → x < nx →
    ∀ i, 0 ≤ i → i < u → f g x (st.s k) ≤ f g x i

theorem segment {t : Int → Int} {q x a : Int} (h : t a ≤ x) (haq : a ≤ q) :
    ∃ k, a ≤ k ∧ k ≤ q ∧ t k ≤ x ∧ (k < q → x < t (k + 1)) := by
  obtain ⟨n, hn⟩ : ∃ n : Nat, q = a + n := ⟨(q - a).toNat, by omega⟩
  induction n generalizing a with
  | zero => exact ⟨a, le_rfl, haq, h, by omega⟩
  | succ n ih =>
    by_cases hx : x < t (a + 1)
    · exact ⟨a, le_rfl, haq, h, fun _ => hx⟩
    · obtain ⟨k, h1, h2, h3, h4⟩ := ih (a := a + 1) (by omega) (by push_cast at hn; omega)
        (by push_cast at hn; omega)
      exact ⟨k, by omega, h2, h3, h4⟩

theorem pop_spec {nx : Nat} {g : Int → Int} (h : Small nx g) {u : Int} (hu : u < nx) (hu0 : 0 ≤ u)
    {s t : Int → Int} (n : Nat)
    (ht : ∀ k : Int, 0 ≤ k → k < n → 0 ≤ t k ∧ t k < nx) (hs : ∀ k : Int, 0 ≤ k → k < n → 0 ≤ s k ∧ s k < u) :
    ∃ q, pop nx g s t u n = .ok q ∧ -1 ≤ q ∧ q < n ∧
      (∀ k, q < k → k < n → f g (t k) (s k) > f g (t k) u) ∧
      (0 ≤ q → f g (t q) (s q) ≤ f g (t q) u) := by
  induction n with
  | zero => exact ⟨-1, rfl, le_rfl, by simp, by intros; omega, by intros; omega⟩
  | succ n ih =>
    obtain ⟨q, h1, h2, h3, h4, h5⟩ := ih (fun k a b => ht k a (by push_cast; omega))
      (fun k a b => hs k a (by push_cast; omega))
    have a := ht n (by omega) (by push_cast; omega)
    have b := hs n (by omega) (by push_cast; omega)
    have e : pop nx g s t u (n + 1) = if f g (t n) (s n) > f g (t n) u then pop nx g s t u n else .ok n := by
      simp only [pop, dfun_ok h a.1 a.2 b.1 (by omega), dfun_ok h a.1 a.2 hu0 hu, Out.bind]
    rw [e]
    by_cases hc : f g (t n) (s n) > f g (t n) u
    · rw [if_pos hc]
      refine ⟨q, h1, h2, by push_cast; omega, ?_, h5⟩
      intro k hk1 hk2
      by_cases hkn : k < n
      · exact h4 k hk1 hkn
      · have : k = n := by push_cast at hk2; omega
        subst this; exact hc
    · rw [if_neg hc]
      refine ⟨n, rfl, by omega, by push_cast; omega, ?_, fun _ => not_lt.1 hc⟩
      intro k hk1 hk2
      push_cast at hk2; omega

/-- A column that loses against a later one loses from then on. -/
theorem lose {g : Int → Int} {i u x y : Int} (hiu : i < u) (hxy : x ≤ y) (h : f g x u < f g x i) :
    f g y u < f g y i := by
  have a := f_sub g x i u
  have b := f_sub g y i u
  have : x * (2 * (u - i)) ≤ y * (2 * (u - i)) := by apply Int.mul_le_mul_of_nonneg_right hxy; omega
  linarith

theorem step_spec {nx : Nat} {g : Int → Int} (h : Small nx g) {u : Int} (hu : u < nx) (hu0 : 1 ≤ u) {st : St}
    (he : Env nx g u st) : ∃ st', scan3Step nx g st u = .ok st' ∧ Env nx g (u + 1) st' := by
  have hq := he.q0
  have hqu := he.qu
  have hcast : (((st.q + 1).toNat : Nat) : Int) = st.q + 1 := by omega
  obtain ⟨q, h1, h2, h3, h4, h5⟩ := pop_spec h hu (by omega) (s := st.s) (t := st.t) (st.q + 1).toNat
    (fun k a b => he.tpos k a (by omega)) (fun k a b => he.srng k a (by omega))
  rw [hcast] at h3 h4
  -- where columns were removed, the new column is best
  have hpop : ∀ x, st.t (q + 1) ≤ x → q < st.q → x < nx → ∀ i, 0 ≤ i → i < u → f g x u < f g x i := by
    intro x hx hqq hxn i hi0 hiu
    obtain ⟨k, k1, k2, k3, k4⟩ := segment (t := st.t) (q := st.q) hx (by omega)
    have := he.best k (by omega) k2 x k3 k4 hxn i hi0 hiu
    have := lose (he.srng k (by omega) k2).2 k3 (h4 k (by omega) (by omega))
    omega
  unfold scan3Step
  rw [h1]
  simp only [Out.bind]
  by_cases hneg : q < 0
  · rw [if_pos hneg]
    refine ⟨_, rfl, ?_⟩
    have hq1 : q = -1 := by omega
    subst hq1
    refine ⟨le_rfl, by simp only; omega, he.t0, ?_, ?_, ?_, ?_⟩
    · intro k a b; simp only at b; omega
    · intro k a b
      have : k = 0 := by simp only at b; omega
      subst this
      simp only [he.t0]; omega
    · intro k a b
      have : k = 0 := by simp only at b; omega
      subst this
      simp only [upd, if_true]; omega
    · intro k a b x hx _ hxn i hi0 hiu
      have : k = 0 := by simp only at b; omega
      subst this
      simp only [upd, if_true] at hx ⊢
      by_cases hi : i = u
      · rw [hi]
      · exact (hpop x (by simpa using hx) (by omega) hxn i hi0 (by omega)).le
  · rw [if_neg hneg]
    obtain ⟨s1, s2⟩ := he.srng q (by omega) (by omega)
    obtain ⟨t1, t2⟩ := he.tpos q (by omega) (by omega)
    have hfq := h5 (by omega)
    have hd := f_sub g (st.t q) (st.s q) u
    have hpos : 0 < 2 * (u - st.s q) := by omega
    have hmul : st.t q * (2 * (u - st.s q)) ≤ num g (st.s q) u := by linarith
    have hn0 : 0 ≤ num g (st.s q) u := le_trans (Int.mul_nonneg t1 hpos.le) hmul
    rw [sep_ok h s1 s2 hu hn0]
    simp only
    obtain ⟨z, hz⟩ : ∃ z, z = num g (st.s q) u / (2 * (u - st.s q)) := ⟨_, rfl⟩
    rw [← hz]
    have hz1 : ∀ x, x ≤ z ↔ f g x (st.s q) ≤ f g x u := by
      intro x
      have := f_sub g x (st.s q) u
      rw [hz, Int.le_ediv_iff_mul_le hpos]
      constructor <;> intro <;> linarith
    have htz : st.t q ≤ z := (hz1 _).2 hfq
    -- the new column is best from z + 1 on
    have hnew : ∀ x, 1 + z ≤ x → x < nx → ∀ i, 0 ≤ i → i < u + 1 → f g x u ≤ f g x i := by
      intro x hx hxn i hi0 hiu
      by_cases hi : i = u
      · rw [hi]
      · by_cases hin : q < st.q ∧ st.t (q + 1) ≤ x
        · exact (hpop x hin.2 hin.1 hxn i hi0 (by omega)).le
        · have a := he.best q (by omega) (by omega) x (by omega) (by intro hlt; by_contra hc; exact hin ⟨hlt, by omega⟩)
            hxn i hi0 (by omega)
          have b : ¬ f g x (st.s q) ≤ f g x u := fun hc => by have := (hz1 x).2 hc; omega
          omega
    -- the last remaining column is best up to z
    have hold : ∀ x, st.t q ≤ x → x ≤ z → x < nx → ∀ i, 0 ≤ i → i < u + 1 → f g x (st.s q) ≤ f g x i := by
      intro x hx hxz hxn i hi0 hiu
      by_cases hi : i = u
      · rw [hi]; exact (hz1 x).1 hxz
      · refine he.best q (by omega) (by omega) x hx ?_ hxn i hi0 (by omega)
        intro hlt
        by_contra hc
        have := hpop x (by omega) hlt hxn (st.s q) s1 s2
        have := (hz1 x).1 hxz
        omega
    by_cases hw : 1 + z < nx
    · rw [if_pos hw, if_pos (by omega)]
      refine ⟨_, rfl, ?_⟩
      refine ⟨by simp only; omega, by simp only; omega, ?_, ?_, ?_, ?_, ?_⟩
      · simp only [upd]; rw [if_neg (by omega)]; exact he.t0
      · intro k a b
        simp only [upd] at b ⊢
        rw [if_neg (by omega)]
        by_cases hk : k = q
        · subst hk; simp only [if_true]; omega
        · rw [if_neg (by omega)]
          exact he.tmono k a (by omega)
      · intro k a b
        simp only [upd] at b ⊢
        split
        · omega
        · exact he.tpos k a (by omega)
      · intro k a b
        simp only [upd] at b ⊢
        split
        · omega
        · have := he.srng k a (by omega); omega
      · intro k a b x hx hx2 hxn i hi0 hiu
        simp only [upd] at b hx hx2 ⊢
        by_cases hk : k = q + 1
        · rw [if_pos hk] at hx ⊢
          exact hnew x hx hxn i hi0 hiu
        · rw [if_neg hk] at hx ⊢
          have hx2 := hx2 (by omega)
          by_cases hkq : k = q
          · subst hkq
            rw [if_pos rfl] at hx2
            exact hold x hx (by omega) hxn i hi0 hiu
          · rw [if_neg (by omega)] at hx2
            by_cases hi : i = u
            · -- a column below q: compare at the end of the old segment
              have hk2 : k < q := by omega
              have a1 := he.best k a (by omega) x hx (fun _ => hx2) hxn (st.s q) s1 s2
              have : x ≤ z := by
                have : x ≤ st.t q := by
                  have key : ∀ n : Nat, ∀ j : Int, j + n = q → 0 ≤ j → st.t j ≤ st.t q := by
                    intro n
                    induction n with
                    | zero => intro j hj _; have : j = q := by omega
                              rw [this]
                    | succ n ihn =>
                      intro j hj h0
                      have := ihn (j + 1) (by push_cast at hj; omega) (by omega)
                      have := he.tmono j h0 (by push_cast at hj; omega)
                      omega
                  have := key (q - (k + 1)).toNat (k + 1) (by omega) (by omega)
                  omega
                omega
              have a2 := (hz1 x).1 this
              rw [hi]; omega
            · exact he.best k a (by omega) x hx (fun _ => hx2) hxn i hi0 (by omega)
    · rw [if_neg hw]
      refine ⟨_, rfl, ?_⟩
      refine ⟨by simp only; omega, by simp only; omega, he.t0, ?_, ?_, ?_, ?_⟩
      · intro k a b; exact he.tmono k a (by simp only at b; omega)
      · intro k a b; exact he.tpos k a (by simp only at b; omega)
      · intro k a b; have := he.srng k a (by simp only at b; omega); simp only; omega
      · intro k a b x hx hx2 hxn i hi0 hiu
        simp only at b hx hx2 ⊢
        by_cases hkq : k = q
        · subst hkq
          exact hold x hx (by omega) hxn i hi0 hiu
        · have hx2 := hx2 (by omega)
          by_cases hi : i = u
          · have a1 := he.best k a (by omega) x hx (fun _ => hx2) hxn (st.s q) s1 s2
            have a2 := (hz1 x).1 (by omega)
            rw [hi]; omega
          · exact he.best k a (by omega) x hx (fun _ => hx2) hxn i hi0 (by omega)

theorem scan3_spec {nx : Nat} {g : Int → Int} (h : Small nx g) (hnx : 1 ≤ nx) (n : Nat) (hn : n + 1 ≤ nx) :
    ∃ st, scan3 nx g n = .ok st ∧ Env nx g (n + 1) st := by
  induction n with
  | zero =>
    refine ⟨_, rfl, ?_⟩
    refine ⟨le_rfl, by simp, rfl, ?_, ?_, ?_, ?_⟩
    · intro k a b; simp only at b; omega
    · intro k a b; simp only; omega
    · intro k a b; simp
    · intro k a b x _ _ _ i hi0 hi1
      have : i = 0 := by simp at hi1; omega
      subst this; exact le_rfl
  | succ n ih =>
    obtain ⟨st, h1, h2⟩ := ih (by omega)
    obtain ⟨st', g1, g2⟩ := step_spec h (u := ((n + 1 : Nat) : Int)) (by omega) (by push_cast; omega)
      (by push_cast; exact h2)
    exact ⟨st', by simp only [scan3, h1, Out.bind, g1], g2⟩

theorem scan4_spec {nx : Nat} {g : Int → Int} (h : Small nx g) {st : St} (he : Env nx g nx st) (u : Nat) (hu : u ≤ nx)
    (q : Int) (hq : u = 0 ∨ (0 ≤ q ∧ q ≤ st.q ∧ st.t q ≤ (u : Int) - 1 ∧ (q < st.q → (u : Int) - 1 < st.t (q + 1)))) :
    ∃ r, scan4 nx g st.s st.t u q = .ok r ∧ r.length = u ∧
      ∀ x (hx : x < u), ∃ i : Int, 0 ≤ i ∧ i < nx ∧ r[x]? = some (Nat.sqrt (f g x i).toNat) ∧
        ∀ j : Int, 0 ≤ j → j < nx → f g x i ≤ f g x j := by
  induction u generalizing q with
  | zero => exact ⟨[], rfl, rfl, by intro x hx; omega⟩
  | succ u ih =>
    obtain ⟨q0, q1, q2, q3⟩ := hq.resolve_left (by omega)
    have hqu := he.qu
    obtain ⟨s1, s2⟩ := he.srng q q0 q1
    push_cast at q2 q3
    obtain ⟨r, r1, r2, r3⟩ := ih (by omega) (if (u : Int) = st.t q then q - 1 else q) (by
      by_cases hu0 : u = 0
      · exact Or.inl hu0
      · right
        split
        · next heq =>
          have hq1 : q ≠ 0 := by
            intro hq0
            rw [hq0, he.t0] at heq
            omega
          have := he.tmono (q - 1) (by omega) (by omega)
          rw [sub_add_cancel] at this ⊢
          exact ⟨by omega, by omega, by omega, fun _ => by omega⟩
        · exact ⟨q0, q1, by omega, fun hlt => by have := q3 hlt; omega⟩)
    refine ⟨r ++ [Nat.sqrt (f g u (st.s q)).toNat], ?_, by simp [r2], ?_⟩
    · simp only [scan4]
      rw [if_pos (by omega), dfun_ok h (by omega) (by omega) s1 s2]
      simp only [Out.bind]
      rw [r1]
    · intro x hx
      by_cases hxu : x < u
      · obtain ⟨i, i1, i2, i3, i4⟩ := r3 x hxu
        exact ⟨i, i1, i2, by rw [List.getElem?_append_left (by omega)]; exact i3, i4⟩
      · have : x = u := by omega
        subst this
        refine ⟨st.s q, s1, s2, ?_, ?_⟩
        · rw [List.getElem?_append_right (by omega), r2]; simp
        · intro j j0 j1
          exact he.best q q0 q1 x (by omega) (fun hlt => by have := q3 hlt; omega) (by omega) j j0 j1

theorem row_spec {nx : Nat} {g : Int → Int} (h : Small nx g) (hnx : 1 ≤ nx) :
    ∃ r, row nx g = .ok r ∧ r.length = nx ∧
      ∀ x (hx : x < nx), ∃ i : Int, 0 ≤ i ∧ i < nx ∧ r[x]? = some (Nat.sqrt (f g x i).toNat) ∧
        ∀ j : Int, 0 ≤ j → j < nx → f g x i ≤ f g x j := by
  obtain ⟨st, h1, h2⟩ := scan3_spec h hnx (nx - 1) (by omega)
  have h2 : Env nx g nx st := by
    have : ((nx - 1 : Nat) : Int) + 1 = nx := by omega
    rw [this] at h2; exact h2
  obtain ⟨r, r1, r2, r3⟩ := scan4_spec h h2 nx le_rfl st.q
    (Or.inr ⟨h2.q0, le_rfl, by have := h2.tpos st.q h2.q0 le_rfl; omega, fun hlt => by omega⟩)
  exact ⟨r, by simp only [row, h1, Out.bind, r1], r2, r3⟩

/-! ## C13 -/

/-- C13: in every image with a TRUE pixel (of a size that keeps all squares in 32 bits), each pixel of the
distance transform is the integer part of the Euclidean distance to the nearest TRUE pixel; no access is
outside of the image or of the work arrays, and nothing overflows. -/
theorem c13_distance (nx ny : Nat) (img : Bin) (hnx : 1 ≤ nx)
    (hsize : (nx + 2 * ny) ^ 2 + nx ^ 2 ≤ 2147483647)
    (htrue : ∃ b a, b < ny ∧ a < nx ∧ img b a = true) (y : Nat) (hy : y < ny) :
    ∃ r, distTransform nx ny img y = .ok r ∧ r.length = nx ∧
      ∀ x, x < nx → ∃ d, r[x]? = some d ∧ IsDistance nx ny img y x d := by
  have h16 : nx + 2 * ny < 65536 := by nlinarith
  have hcol : ∀ x : Nat, _ := fun x => scan2_spec nx ny h16 (fun y => img y x) (ny - 1 - y) y (by omega)
  obtain ⟨g, hg⟩ : ∃ g : Int → Int, g = fun x => phase1 nx ny img y x.toNat := ⟨_, rfl⟩
  have hgx : ∀ x : Nat, g x = scan2 nx ny (fun y => img y x) (ny - 1 - y) := by
    intro x; rw [hg]; simp [phase1]
  have hgi : ∀ i : Int, 0 ≤ i → g i = scan2 nx ny (fun y => img y i.toNat) (ny - 1 - y) := by
    intro i hi; rw [hg]; simp [phase1]
  have hsm : Small nx g := by
    refine ⟨?_, ((nx + 2 * ny : Nat) : Int), ?_, by exact_mod_cast hsize⟩
    · intro i h0 h1
      rw [hgi i h0]
      exact (hcol i.toNat).1
    · intro i h0 h1
      rw [hgi i h0]
      have := (hcol i.toNat).2.1
      push_cast
      omega
  obtain ⟨r, h1, h2, h3⟩ := row_spec hsm hnx
  refine ⟨r, by simp only [distTransform, ← hg, h1], h2, ?_⟩
  intro x hx
  obtain ⟨i, i0, i1, i2, i3⟩ := h3 x hx
  refine ⟨_, i2, ?_⟩
  have hf0 : 0 ≤ f g x i := by unfold f; positivity
  -- no TRUE pixel is closer
  have hlow : ∀ b a, b < ny → a < nx → img b a = true → f g x i ≤ dist2 y x b a := by
    intro b a hb ha hba
    have e1 := i3 a (by omega) (by omega)
    have e2 := (hcol a).2.2.1 b hb hba
    have e0 := (hcol a).1
    rw [← hgx] at e2 e0
    have e3 : g a ^ 2 ≤ ((y : Int) - b) ^ 2 := by
      rw [← sq_abs ((y : Int) - b)]
      exact pow_le_pow_left₀ e0 e2 2
    unfold f at e1 ⊢
    unfold dist2
    linarith
  -- the minimum is attained by a TRUE pixel
  have hatt : ∃ b a, b < ny ∧ a < nx ∧ img b a = true ∧ dist2 y x b a = f g x i := by
    have hii : ((i.toNat : Nat) : Int) = i := by omega
    rcases (hcol i.toNat).2.2.2 with ⟨b, b1, b2, b3⟩ | ⟨b1, b2⟩
    · refine ⟨b, i.toNat, b1, by omega, b2, ?_⟩
      rw [← hgi i i0] at b3
      unfold dist2 f
      rw [b3, sq_abs, hii]
    · exfalso
      obtain ⟨b, a, hb, ha, hba⟩ := htrue
      have e := hlow b a hb ha hba
      rw [← hgi i i0] at b2
      have e1 : (((nx : Int) + ny)) ^ 2 ≤ g i ^ 2 := pow_le_pow_left₀ (by positivity) b2 2
      have e2 : ((x : Int) - a) ^ 2 ≤ (nx : Int) ^ 2 := by apply sq_le_sq' <;> omega
      have e3 : ((y : Int) - b) ^ 2 ≤ ((ny : Int)) ^ 2 := by apply sq_le_sq' <;> omega
      have e4 : 0 ≤ ((x : Int) - i) ^ 2 := sq_nonneg _
      have n1 : (1 : Int) ≤ nx := by omega
      have n2 : (1 : Int) ≤ ny := by omega
      unfold f dist2 at e
      nlinarith
  refine ⟨?_, ?_⟩
  · intro b a hb ha hba
    have e := hlow b a hb ha hba
    have e2 : ((Nat.sqrt (f g x i).toNat : Nat) : Int) ^ 2 ≤ f g x i := by
      have := Nat.sqrt_le' (f g x i).toNat
      have : ((Nat.sqrt (f g x i).toNat ^ 2 : Nat) : Int) ≤ ((f g x i).toNat : Int) := by exact_mod_cast this
      rw [Int.toNat_of_nonneg hf0] at this
      exact_mod_cast this
    exact e2.trans e
  · obtain ⟨b, a, hb, ha, hba, he⟩ := hatt
    refine ⟨b, a, hb, ha, hba, ?_⟩
    rw [he]
    have := Nat.lt_succ_sqrt' (f g x i).toNat
    have : ((f g x i).toNat : Int) < (((Nat.sqrt (f g x i).toNat + 1) ^ 2 : Nat) : Int) := by exact_mod_cast this
    rw [Int.toNat_of_nonneg hf0] at this
    push_cast at this
    exact this

/-- The largest image of a Landsat or Sentinel-2 scene meets the size condition of `c13_distance`. -/
example : (12000 + 2 * 12000) ^ 2 + 12000 ^ 2 ≤ 2147483647 := by norm_num

example : distTransform 4 3 (fun y x => y == 2 && x == 0) 0 = .ok [2, 2, 2, 3] := by decide +kernel

/-- C13: in an image without a TRUE pixel, all distances are larger than any distance in an image of that
size. -/
theorem c13_empty (nx ny : Nat) (img : Bin) (hnx : 1 ≤ nx)
    (hsize : (nx + 2 * ny) ^ 2 + nx ^ 2 ≤ 2147483647)
    (hfalse : ∀ b a, b < ny → a < nx → img b a = false) (y : Nat) (hy : y < ny) :
    ∃ r, distTransform nx ny img y = .ok r ∧ r.length = nx ∧
      ∀ x, x < nx → ∃ d, r[x]? = some d ∧ nx + ny ≤ d := by
  have h16 : nx + 2 * ny < 65536 := by nlinarith
  have hcol : ∀ x : Nat, _ := fun x => scan2_spec nx ny h16 (fun y => img y x) (ny - 1 - y) y (by omega)
  obtain ⟨g, hg⟩ : ∃ g : Int → Int, g = fun x => phase1 nx ny img y x.toNat := ⟨_, rfl⟩
  have hgi : ∀ i : Int, 0 ≤ i → g i = scan2 nx ny (fun y => img y i.toNat) (ny - 1 - y) := by
    intro i hi; rw [hg]; simp [phase1]
  have hsm : Small nx g := by
    refine ⟨?_, ((nx + 2 * ny : Nat) : Int), ?_, by exact_mod_cast hsize⟩
    · intro i h0 h1
      rw [hgi i h0]
      exact (hcol i.toNat).1
    · intro i h0 h1
      rw [hgi i h0]
      have := (hcol i.toNat).2.1
      push_cast
      omega
  obtain ⟨r, h1, h2, h3⟩ := row_spec hsm hnx
  refine ⟨r, by simp only [distTransform, ← hg, h1], h2, ?_⟩
  intro x hx
  obtain ⟨i, i0, i1, i2, _⟩ := h3 x hx
  refine ⟨_, i2, ?_⟩
  rw [Nat.le_sqrt']
  have hgb : (nx : Int) + ny ≤ g i := by
    rw [hgi i i0]
    rcases (hcol i.toNat).2.2.2 with ⟨b, b1, b2, _⟩ | ⟨_, b2⟩
    · rw [hfalse b i.toNat b1 (by omega)] at b2; cases b2
    · exact b2
  have e1 : (((nx : Int) + ny)) ^ 2 ≤ g i ^ 2 := pow_le_pow_left₀ (by positivity) hgb 2
  have e4 : 0 ≤ ((x : Int) - i) ^ 2 := sq_nonneg _
  have : (((nx + ny) ^ 2 : Nat) : Int) ≤ ((f g x i).toNat : Int) := by
    rw [Int.toNat_of_nonneg (by unfold f; positivity)]
    unfold f
    push_cast
    linarith
  exact_mod_cast this

/-- C13: the integer part of the square root in `double` arithmetic is the integer square root, for all
32-bit integers. -/
theorem c13_sqrt (d : Nat) (hd : d < 2147483648) (r : ℚ) (hr : SqrtDouble d r) : ⌊r⌋ = Nat.sqrt d := by
  obtain ⟨_, hn⟩ := hr
  obtain ⟨k, hk⟩ : ∃ k, k = Nat.sqrt d := ⟨_, rfl⟩
  have h1 : k ^ 2 ≤ d := by rw [hk]; exact Nat.sqrt_le' d
  have h2 : d < (k + 1) ^ 2 := by rw [hk]; exact Nat.lt_succ_sqrt' d
  have hk16 : k < 46341 := by nlinarith
  have x1 : (k : ℝ) ≤ Real.sqrt d := by
    apply Real.le_sqrt_of_sq_le
    exact_mod_cast h1
  have x2 : Real.sqrt d ≤ (k : ℝ) + 1 - 1 / 2 ^ 17 := by
    have hkr : (k : ℝ) ≤ 46340 := by exact_mod_cast (by omega : k ≤ 46340)
    have hk0 : (0 : ℝ) ≤ k := by positivity
    rw [Real.sqrt_le_left (by norm_num; linarith)]
    have : (d : ℝ) + 1 ≤ (k + 1) ^ 2 := by exact_mod_cast h2
    norm_num at this ⊢
    nlinarith
  have rk : Verif.Float.Rep 53 ((k : ℤ) : ℚ) := Verif.Float.rep_int (by
    rw [abs_of_nonneg (by omega)]
    norm_num
    omega)
  have rk2 : Verif.Float.Rep 53 ((((k : ℤ) + 1) * 2 ^ 18 - 1 : ℤ) * (2 : ℚ) ^ (-18 : ℤ)) :=
    ⟨((k : ℤ) + 1) * 2 ^ 18 - 1, -18, by
      rw [abs_of_nonneg (by omega)]
      norm_num
      omega, rfl⟩
  have c1 := hn _ rk
  have c2 := hn _ rk2
  rw [← hk, Int.floor_eq_iff]
  have e2 : (((((k : ℤ) + 1) * 2 ^ 18 - 1 : ℤ) * (2 : ℚ) ^ (-18 : ℤ) : ℚ) : ℝ) = (k : ℝ) + 1 - 1 / 2 ^ 18 := by
    push_cast
    norm_num [zpow_neg]
    ring
  rw [e2] at c2
  have e1 : (((k : ℤ) : ℚ) : ℝ) = k := by push_cast; rfl
  rw [e1] at c1
  constructor
  · by_contra hc
    have hc' : (r : ℝ) < k := by
      have : r < ((k : ℤ) : ℚ) := not_le.1 hc
      have : (r : ℝ) < (((k : ℤ) : ℚ) : ℝ) := by exact_mod_cast this
      rwa [e1] at this
    rw [abs_of_nonneg (by linarith), abs_of_nonneg (by linarith)] at c1
    linarith
  · by_contra hc
    have hc' : (k : ℝ) + 1 ≤ r := by
      have : ((k : ℤ) : ℚ) + 1 ≤ r := not_lt.1 hc
      have : ((((k : ℤ) : ℚ) + 1 : ℚ) : ℝ) ≤ r := by exact_mod_cast this
      push_cast at this
      exact this
    norm_num at x2 c2
    rw [abs_of_nonpos (by linarith), abs_of_nonpos (by linarith)] at c2
    linarith

example : ∃ r, SqrtDouble 9 r :=
  ⟨3, ⟨3, 0, by norm_num, by norm_num⟩, fun f _ => by
    have : Real.sqrt (9 : Nat) = 3 := by
      rw [show ((9 : Nat) : ℝ) = 3 ^ 2 by norm_num]
      exact Real.sqrt_sq (by norm_num)
    rw [this]; simp⟩

end Verif.Dist

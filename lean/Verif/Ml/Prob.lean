import Verif.Ml.Props

/-! # Theorems on the class probabilities of random forests -/

namespace Verif.Ml

open Verif.Str (Out)
open Verif.Index (truncQ short)
open Verif.Float (Nearest Rep)
open Spec

/-- The rounded quotient. -/
theorem quotient_close {rd : ℚ → ℚ} (hrd : ∀ x, Nearest 53 x (rd x)) {V N : Int} (hV : 0 ≤ V) (hVN : V ≤ N)
    (hN : 1 ≤ N) (hN2 : N ≤ 2147483647) :
    0 ≤ rd (V / rd (N * tenThousandth)) ∧ rd (V / rd (N * tenThousandth)) < 10001 ∧
    rd (V / rd (N * tenThousandth)) * N < 10000 * V + 1 ∧ 10000 * (V : ℚ) - 1 < rd (V / rd (N * tenThousandth)) * N := by
  have e1 := Verif.Float.nearest_err (p := 53) (by norm_num) (hrd (N * tenThousandth))
  generalize rd (N * tenThousandth) = t at *
  have e2 := Verif.Float.nearest_err (p := 53) (by norm_num) (hrd (V / t))
  generalize rd ((V : ℚ) / t) = q at *
  have hVq : (0 : ℚ) ≤ V := by exact_mod_cast hV
  have hVNq : (V : ℚ) ≤ N := by exact_mod_cast hVN
  have hNq : (1 : ℚ) ≤ N := by exact_mod_cast hN
  have hN2q : (N : ℚ) ≤ 2147483647 := by exact_mod_cast hN2
  have hd : tenThousandth = 7378697629483821 / 73786976294838206464 := rfl
  rw [hd] at e1
  rw [abs_of_nonneg (a := (N : ℚ) * (7378697629483821 / 73786976294838206464)) (by positivity), abs_le] at e1
  norm_num at e1
  obtain ⟨e1a, e1b⟩ := e1
  have ht : 0 < t := by nlinarith
  have hA1 : 10000 * t ≤ N * (1 + 2 / 10 ^ 16) := by norm_num; nlinarith
  have hA2 : (N : ℚ) * (1 - 2 / 10 ^ 16) ≤ 10000 * t := by norm_num; nlinarith
  have hq0 : 0 ≤ (V : ℚ) / t := by positivity
  rw [abs_of_nonneg hq0, abs_le] at e2
  obtain ⟨e2a, e2b⟩ := e2
  have hqt : q * t ≤ V * (1 + 1 / 2 ^ 53) := by
    have : q ≤ (V : ℚ) / t * (1 + 1 / 2 ^ 53) := by linarith
    calc q * t ≤ (V : ℚ) / t * (1 + 1 / 2 ^ 53) * t := by nlinarith
      _ = V * (1 + 1 / 2 ^ 53) := by field_simp
  have hqt2 : V * (1 - 1 / 2 ^ 53) ≤ q * t := by
    have : (V : ℚ) / t * (1 - 1 / 2 ^ 53) ≤ q := by linarith
    calc (V : ℚ) * (1 - 1 / 2 ^ 53) = (V : ℚ) / t * (1 - 1 / 2 ^ 53) * t := by field_simp
      _ ≤ q * t := by nlinarith
  have hq : 0 ≤ q := by
    have : 0 ≤ (V : ℚ) / t * (1 - 1 / 2 ^ 53) := mul_nonneg hq0 (by norm_num)
    linarith
  have hqN1 : q * (N * (1 - 2 / 10 ^ 16)) ≤ 10000 * (V * (1 + 1 / 2 ^ 53)) := by
    have := mul_le_mul_of_nonneg_left hA2 hq
    linarith
  have hqN2 : 10000 * (V * (1 - 1 / 2 ^ 53)) ≤ q * (N * (1 + 2 / 10 ^ 16)) := by
    have := mul_le_mul_of_nonneg_left hA1 hq
    linarith
  have hqub : q < 10001 := by
    by_contra hn
    have hn : 10001 ≤ q := not_lt.1 hn
    have h1 : 10001 * (N * (1 - 2 / 10 ^ 16)) ≤ q * (N * (1 - 2 / 10 ^ 16)) :=
      mul_le_mul_of_nonneg_right hn (by norm_num; linarith)
    norm_num at h1 hqN1
    linarith
  have hqN : q * N ≤ 10001 * N := mul_le_mul_of_nonneg_right hqub.le (by linarith)
  refine ⟨hq, hqub, ?_, ?_⟩
  · norm_num at hqN1
    linarith
  · norm_num at hqN2
    linarith

theorem truncQ_nonneg {x : ℚ} (h : 0 ≤ x) : truncQ x = ⌊x⌋ := by
  rw [Verif.Index.truncQ_eq, if_pos h]

theorem quotient_trunc {rd : ℚ → ℚ} (hrd : ∀ x, Nearest 53 x (rd x)) {V N : Int} (hV : 0 ≤ V) (hVN : V ≤ N)
    (hN : 1 ≤ N) (hN2 : N ≤ 2147483647) (p : Int) (hp : p = truncQ (rd (V / rd (N * tenThousandth)))) :
    p * N ≤ 10000 * V ∧ 10000 * V ≤ (p + 1) * N ∧ 0 ≤ p ∧ p ≤ 10000 := by
  obtain ⟨h0, h1, h2, h3⟩ := quotient_close hrd hV hVN hN hN2
  generalize rd ((V : ℚ) / rd (N * tenThousandth)) = q at *
  rw [truncQ_nonneg h0] at hp
  have hNq : (1 : ℚ) ≤ N := by exact_mod_cast hN
  have f1 := Int.floor_le q
  have f2 := Int.lt_floor_add_one q
  rw [← hp] at f1 f2
  refine ⟨?_, ?_, ?_, ?_⟩
  · have : (p : ℚ) * N < 10000 * V + 1 := lt_of_le_of_lt (by nlinarith) h2
    have : p * N < 10000 * V + 1 := by exact_mod_cast this
    omega
  · have : 10000 * (V : ℚ) - 1 < (p + 1) * N := lt_of_lt_of_le h3 (by nlinarith)
    have : 10000 * V - 1 < (p + 1) * N := by exact_mod_cast this
    omega
  · rw [hp]; exact Int.floor_nonneg.2 h0
  · have : (p : ℚ) < 10001 := by linarith
    have : p < 10001 := by exact_mod_cast this
    omega

/-- The probabilities of the columns before they are stored. -/
theorem probabilities_some (rd : ℚ → ℚ) (s : St) (h : s.ntree ≠ 0) : probabilities rd s =
    (s.prob.map fun (v : Int) => rd (v / rd (s.ntree * tenThousandth))).map some := by
  unfold probabilities
  rw [List.map_map]
  apply List.map_congr_left
  intro v _
  rw [if_neg h]
  rfl

theorem maxProb_spec (l : List ℚ) (hl : ∀ x ∈ l, 0 ≤ x) : ∀ mx : Int, 0 ≤ mx →
    let r := (l.map some).foldl (fun mx x => match x with
      | none => mx
      | some x => if x > mx then truncQ x else mx) mx
    mx ≤ r ∧ (∀ x ∈ l, truncQ x ≤ r) ∧ (r = mx ∨ ∃ x ∈ l, truncQ x = r) := by
  induction l with
  | nil => intro mx _; simp
  | cons a l ih =>
    intro mx hmx
    have ha : 0 ≤ a := hl a (by simp)
    simp only [List.map_cons, List.foldl_cons]
    by_cases h : a > mx
    · rw [if_pos h]
      have h1 : mx ≤ truncQ a := by
        rw [truncQ_nonneg ha]
        exact Int.le_floor.2 h.le
      obtain ⟨i1, i2, i3⟩ := ih (fun x hx => hl x (by simp [hx])) (truncQ a) (by omega)
      refine ⟨by omega, ?_, ?_⟩
      · intro x hx
        rcases List.mem_cons.1 hx with rfl | hx
        · exact i1
        · exact i2 x hx
      · rcases i3 with i3 | ⟨x, hx, i3⟩
        · exact Or.inr ⟨a, by simp, i3.symm⟩
        · exact Or.inr ⟨x, by simp [hx], i3⟩
    · rw [if_neg h]
      have h1 : truncQ a ≤ mx := by
        rw [truncQ_nonneg ha]
        have h2 : (⌊a⌋ : ℚ) ≤ mx := le_trans (Int.floor_le a) (not_lt.1 h)
        exact_mod_cast h2
      obtain ⟨i1, i2, i3⟩ := ih (fun x hx => hl x (by simp [hx])) mx hmx
      refine ⟨i1, ?_, ?_⟩
      · intro x hx
        rcases List.mem_cons.1 hx with rfl | hx
        · omega
        · exact i2 x hx
      · rcases i3 with i3 | ⟨x, hx, i3⟩
        · exact Or.inl i3
        · exact Or.inr ⟨x, by simp [hx], i3⟩

theorem max2Prob_spec (mx : Int) (l : List ℚ) (hl : ∀ x ∈ l, 0 ≤ x) : ∀ m2 : Int, 0 ≤ m2 →
    let r := (l.map some).foldl (fun m2 x => match x with
      | none => m2
      | some x => if x > m2 ∧ x < mx then truncQ x else m2) m2
    m2 ≤ r ∧ (∀ x ∈ l, truncQ x < mx → truncQ x ≤ r) ∧ (r = m2 ∨ ∃ x ∈ l, truncQ x = r ∧ truncQ x < mx) := by
  induction l with
  | nil => intro m2 _; simp
  | cons a l ih =>
    intro m2 hm2
    have ha : 0 ≤ a := hl a (by simp)
    have hlt : a < mx ↔ truncQ a < mx := by
      rw [truncQ_nonneg ha]
      exact Int.floor_lt.symm
    simp only [List.map_cons, List.foldl_cons]
    by_cases h : a > m2 ∧ a < mx
    · rw [if_pos h]
      have h1 : m2 ≤ truncQ a := by
        rw [truncQ_nonneg ha]
        exact Int.le_floor.2 h.1.le
      obtain ⟨i1, i2, i3⟩ := ih (fun x hx => hl x (by simp [hx])) (truncQ a) (by omega)
      refine ⟨by omega, ?_, ?_⟩
      · intro x hx
        rcases List.mem_cons.1 hx with rfl | hx
        · exact fun _ => i1
        · exact i2 x hx
      · rcases i3 with i3 | ⟨x, hx, i3⟩
        · exact Or.inr ⟨a, by simp, i3.symm, hlt.1 h.2⟩
        · exact Or.inr ⟨x, by simp [hx], i3⟩
    · rw [if_neg h]
      obtain ⟨i1, i2, i3⟩ := ih (fun x hx => hl x (by simp [hx])) m2 hm2
      refine ⟨i1, ?_, ?_⟩
      · intro x hx
        rcases List.mem_cons.1 hx with rfl | hx
        · intro hx
          have h3 : ¬ (x > m2) := fun h4 => h ⟨h4, hlt.2 hx⟩
          have h1 : truncQ x ≤ m2 := by
            rw [truncQ_nonneg ha]
            have h2 : (⌊x⌋ : ℚ) ≤ m2 := le_trans (Int.floor_le x) (not_lt.1 h3)
            exact_mod_cast h2
          omega
        · exact i2 x hx
      · rcases i3 with i3 | ⟨x, hx, i3⟩
        · exact Or.inl i3
        · exact Or.inr ⟨x, by simp [hx], i3⟩

/-- What is stored for a set: `p c` is the probability of column `c`, the margin is the difference between the
largest probability and the largest one below it (or zero). -/
theorem prob_sets {par : Par} {M : Models} {rd : ℚ → ℚ} (sq : ℚ → ℚ) (hrd : ∀ x, Nearest 53 x (rd x))
    (h : Classifiers par M) (hb : par.rfprob = true) {i nm nc : Nat} (hi : par.sets[i]? = some (nm, nc))
    (hpos : ∀ k c, 0 ≤ votesFor (M.votes k) c) (hN : allVotes M (first par.sets i) nm nc ≤ 2147483647) :
    ∃ R r, sets par M rd sq par.sets 0 = .ok R ∧ R[i]? = some r ∧ ∃ p : Nat → Int,
      r.rfp.length = nc ∧
      (∀ c < nc, r.rfp[c]? = some (.ok (p c)) ∧
        p c * allVotes M (first par.sets i) nm nc ≤ 10000 * votesOf M (first par.sets i) nm c ∧
        10000 * votesOf M (first par.sets i) nm c ≤ (p c + 1) * allVotes M (first par.sets i) nm nc ∧
        0 ≤ p c ∧ p c ≤ 10000) ∧ 1 ≤ allVotes M (first par.sets i) nm nc ∧
      ∃ a b, r.rfm = .ok (a - b) ∧ 0 ≤ b ∧ b ≤ a ∧ a ≤ 10000 ∧ (∀ c < nc, p c ≤ a) ∧
        (a = 0 ∨ ∃ c < nc, p c = a) ∧ (∀ c < nc, p c < a → p c ≤ b) ∧ (b = 0 ∨ ∃ c < nc, p c = b ∧ p c < a) := by
  obtain ⟨R, h1, h2, h3⟩ := class_sets rd sq h
  obtain ⟨s, hs, _, _, hq⟩ := h3 i nm nc hi
  obtain ⟨q1, q2, q3⟩ := hq hb
  obtain ⟨hn1, hj⟩ := h.2 i nm nc hi
  generalize hk : first par.sets i = k at *
  have vpos : ∀ c, 0 ≤ votesOf M k nm c := fun c => Finset.sum_nonneg fun j _ => hpos _ _
  have hN1 : 1 ≤ allVotes M k nm nc := by
    obtain ⟨hlen, x, hx, hx0⟩ := (hj 0 (by omega)).2.1 hb
    obtain ⟨c, hc, rfl⟩ := List.mem_iff_getElem.1 hx
    have hvc : votesFor (M.votes (k + 0)) c = (M.votes (k + 0))[c].2 := votesFor_of (List.getElem?_eq_getElem hc)
    have : 1 ≤ votesOf M k nm c := by
      have := Finset.single_le_sum (f := fun j => votesFor (M.votes (k + j)) c) (s := Finset.range nm)
        (fun j _ => hpos _ _) (Finset.mem_range.2 (show 0 < nm by omega))
      unfold votesOf
      omega
    have h4 := Finset.single_le_sum (f := fun c => votesOf M k nm c) (s := Finset.range nc)
        (fun j _ => vpos _) (Finset.mem_range.2 (show c < nc by omega))
    unfold allVotes
    omega
  have hVN : ∀ c < nc, votesOf M k nm c ≤ allVotes M k nm nc := fun c hc =>
    Finset.single_le_sum (f := fun c => votesOf M k nm c) (fun j _ => vpos _) (Finset.mem_range.2 hc)
  let q : Nat → ℚ := fun c => rd (votesOf M k nm c / rd (allVotes M k nm nc * tenThousandth))
  have hprob : probabilities rd s = ((List.range nc).map q).map some := by
    rw [probabilities_some rd s (by omega), q3]
    congr 1
    apply List.ext_getElem?
    intro c
    rw [List.getElem?_map, List.getElem?_map]
    by_cases hc : c < nc
    · rw [q2 c hc, List.getElem?_range hc]
      rfl
    · rw [List.getElem?_eq_none (by omega), List.getElem?_eq_none (by rw [List.length_range]; omega)]
      rfl
  have hqt : ∀ c < nc, _ := fun c hc => quotient_trunc hrd (vpos c) (hVN c hc) hN1 hN (truncQ (q c)) rfl
  have hq0 : ∀ x ∈ (List.range nc).map q, 0 ≤ x := by
    intro x hx
    obtain ⟨c, hc, rfl⟩ := List.mem_map.1 hx
    exact (quotient_close hrd (vpos c) (hVN c (List.mem_range.1 hc)) hN1 hN).1
  have hmem : ∀ c < nc, q c ∈ (List.range nc).map q := fun c hc => List.mem_map_of_mem (List.mem_range.2 hc)
  refine ⟨R, _, h1, hs, fun c => truncQ (q c), ?_, ?_, hN1, ?_⟩
  · show ((probabilities rd s).map stored).length = nc
    rw [hprob]
    simp
  · intro c hc
    refine ⟨?_, hqt c hc⟩
    show ((probabilities rd s).map stored)[c]? = _
    rw [hprob, List.getElem?_map, List.getElem?_map, List.getElem?_map, List.getElem?_range hc]
    simp only [Option.map_some, stored, Option.some.injEq]
    obtain ⟨b0, b1, _, _⟩ := quotient_close hrd (vpos c) (hVN c hc) hN1 hN
    exact Verif.Index.short_ok (lt_of_lt_of_le (by norm_num) b0) (lt_trans b1 (by norm_num))
  · obtain ⟨m1, m2, m3⟩ := maxProb_spec ((List.range nc).map q) hq0 0 (le_refl 0)
    have ea : maxProb (probabilities rd s) = (((List.range nc).map q).map some).foldl (fun mx x => match x with
      | none => mx
      | some x => if x > mx then truncQ x else mx) (0 : Int) := by rw [hprob]; rfl
    rw [← ea] at m1 m2 m3
    obtain ⟨n1, n2, n3⟩ := max2Prob_spec (maxProb (probabilities rd s)) ((List.range nc).map q) hq0 0 (le_refl 0)
    have eb : max2Prob (maxProb (probabilities rd s)) (probabilities rd s) =
      (((List.range nc).map q).map some).foldl (fun m2 x => match x with
      | none => m2
      | some x => if x > m2 ∧ x < (maxProb (probabilities rd s) : Int) then truncQ x else m2) (0 : Int) := by
      conv_lhs => rw [show probabilities rd s = ((List.range nc).map q).map some from hprob]
      rw [hprob]
      rfl
    rw [← eb] at n1 n2 n3
    have hr : (result par rd sq s).rfm = .ok (wrap (maxProb (probabilities rd s) -
      max2Prob (maxProb (probabilities rd s)) (probabilities rd s))) := rfl
    generalize maxProb (probabilities rd s) = a at *
    generalize max2Prob a (probabilities rd s) = b at *
    have ha : a ≤ 10000 := by
      rcases m3 with m3 | ⟨x, hx, m3⟩
      · omega
      · obtain ⟨c, hc, rfl⟩ := List.mem_map.1 hx
        have := (hqt c (List.mem_range.1 hc)).2.2.2
        omega
    have hba : b ≤ a := by
      rcases n3 with n3 | ⟨x, hx, n3, n4⟩
      · omega
      · omega
    refine ⟨a, b, ?_, n1, hba, ha, ?_, ?_, ?_, ?_⟩
    · rw [hr, wrap_short (by omega)]
    · intro c hc
      exact m2 _ (hmem c hc)
    · rcases m3 with m3 | ⟨x, hx, m3⟩
      · exact Or.inl m3
      · obtain ⟨c, hc, rfl⟩ := List.mem_map.1 hx
        exact Or.inr ⟨c, List.mem_range.1 hc, m3⟩
    · intro c hc hlt
      exact n2 _ (hmem c hc) hlt
    · rcases n3 with n3 | ⟨x, hx, n3⟩
      · exact Or.inl n3
      · obtain ⟨c, hc, rfl⟩ := List.mem_map.1 hx
        exact Or.inr ⟨c, List.mem_range.1 hc, n3⟩

/-- C93 (partial): with the votes of all models of the set, the probability of a class is the integer part of 10000 times
its share of the votes, or one less where the share is a whole number; the probabilities add up to 10000 up
to the number of classes. If one class is the most probable, the margin is its distance to the next. Missing: the
exact integer part, see `c93_unanimous_violated`; ties, see `c93_tie_violated`; models with different
classes in a set, see `c93_classes_violated`. -/
theorem c93_probability_partial (par : Par) (ex : Bool) (M : List ℚ → Models) (rd sq : ℚ → ℚ)
    (hrd : ∀ x, Nearest 53 x (rd x)) (mask : Option Bool) (feat : List (Int × Bool)) (hp : Predicted ex mask feat)
    (h : Classifiers par (M (sample feat))) (hb : par.rfprob = true) {i nm nc : Nat}
    (hi : par.sets[i]? = some (nm, nc)) (hpos : ∀ k c, 0 ≤ votesFor ((M (sample feat)).votes k) c) (N : Int)
    (hN : N = allVotes (M (sample feat)) (first par.sets i) nm nc) (hN2 : N ≤ 2147483647)
    (V : Nat → Int) (hV : V = votesOf (M (sample feat)) (first par.sets i) nm) :
    ∃ R r, pixel par ex M rd sq mask feat = .ok (some R) ∧ R[i]? = some r ∧ 1 ≤ N ∧
      ∃ p : Nat → Int, r.rfp.length = nc ∧
        (∀ c < nc, r.rfp[c]? = some (.ok (p c)) ∧ p c * N ≤ 10000 * V c ∧ 10000 * V c ≤ (p c + 1) * N) ∧
        ∑ c ∈ Finset.range nc, p c ≤ 10000 ∧ 10000 - nc ≤ ∑ c ∈ Finset.range nc, p c ∧
        ∃ margin, r.rfm = .ok margin ∧
          ∀ t < nc, (∀ c < nc, c ≠ t → p c < p t) →
            (∀ c < nc, c ≠ t → margin ≤ p t - p c) ∧ (2 ≤ nc → ∃ c < nc, c ≠ t ∧ margin = p t - p c) := by
  obtain ⟨R, r, h1, h2, p, h3, h4, h5, a, b, g1, g2, g3, g4, g5, g6, g7, g8⟩ :=
    prob_sets sq hrd h hb hi hpos (by rw [← hN]; exact hN2)
  rw [pixel_of_predicted hp]
  rw [← hN] at h4 h5
  rw [← hV] at h4
  have hsum : N = ∑ c ∈ Finset.range nc, V c := by rw [hN, hV]; rfl
  refine ⟨R, r, by rw [h1]; rfl, h2, h5, p, h3, fun c hc => ⟨(h4 c hc).1, (h4 c hc).2.1, (h4 c hc).2.2.1⟩, ?_, ?_,
    a - b, g1, ?_⟩
  · have : (∑ c ∈ Finset.range nc, p c) * N ≤ 10000 * N := by
      rw [Finset.sum_mul]
      conv_rhs => rw [hsum]
      rw [Finset.mul_sum]
      exact Finset.sum_le_sum fun c hc => (h4 c (Finset.mem_range.1 hc)).2.1
    exact le_of_mul_le_mul_right this (by omega)
  · have : 10000 * N ≤ (∑ c ∈ Finset.range nc, p c + nc) * N := by
      have e : ∑ c ∈ Finset.range nc, p c + (nc : Int) = ∑ c ∈ Finset.range nc, (p c + 1) := by
        rw [Finset.sum_add_distrib]; simp
      rw [e, Finset.sum_mul]
      conv_lhs => rw [hsum]
      rw [Finset.mul_sum]
      exact Finset.sum_le_sum fun c hc => (h4 c (Finset.mem_range.1 hc)).2.2.1
    have := le_of_mul_le_mul_right this (by omega)
    omega
  · intro t ht hmax
    have ha : a = p t := by
      rcases g6 with g6 | ⟨c, hc, g6⟩
      · have := g5 t ht
        have := (h4 t ht).2.2.2.1
        omega
      · by_cases hct : c = t
        · rw [← g6, hct]
        · have := hmax c hc hct
          have := g5 t ht
          omega
    constructor
    · intro c hc hct
      have h6 := hmax c hc hct
      have := g7 c hc (by omega)
      omega
    · intro hnc
      rcases g8 with g8 | ⟨c, hc, g8, g9⟩
      · obtain ⟨c, hc, hct⟩ : ∃ c < nc, c ≠ t := by
          by_cases h0 : t = 0
          · exact ⟨1, by omega, by omega⟩
          · exact ⟨0, by omega, by omega⟩
        have h6 := hmax c hc hct
        have h7 := g7 c hc (by omega)
        have h8 := (h4 c hc).2.2.2.1
        exact ⟨c, hc, hct, by omega⟩
      · refine ⟨c, hc, ?_, by omega⟩
        intro hct
        rw [hct] at g9
        omega

/-- C93, violated: if two classes share the largest probability, the margin is not 0 but the distance to the next
smaller probability: it is positive. -/
theorem c93_tie_violated (par : Par) (ex : Bool) (M : List ℚ → Models) (rd sq : ℚ → ℚ)
    (hrd : ∀ x, Nearest 53 x (rd x)) (mask : Option Bool) (feat : List (Int × Bool)) (hp : Predicted ex mask feat)
    (h : Classifiers par (M (sample feat))) (hb : par.rfprob = true) {i nm nc : Nat}
    (hi : par.sets[i]? = some (nm, nc)) (hpos : ∀ k c, 0 ≤ votesFor ((M (sample feat)).votes k) c)
    (hN2 : allVotes (M (sample feat)) (first par.sets i) nm nc ≤ 2147483647) (hnc : nc ≤ 9999) :
    ∃ R r, pixel par ex M rd sq mask feat = .ok (some R) ∧ R[i]? = some r ∧ ∃ p : Nat → Int,
      (∀ c < nc, r.rfp[c]? = some (.ok (p c))) ∧
      ∀ t u, t < nc → u < nc → t ≠ u → p t = p u → (∀ c < nc, p c ≤ p t) → ∃ margin, r.rfm = .ok margin ∧ 0 < margin := by
  obtain ⟨R, r, h1, h2, p, h3, h4, h5, a, b, g1, g2, g3, g4, g5, g6, g7, g8⟩ :=
    prob_sets sq hrd h hb hi hpos hN2
  rw [pixel_of_predicted hp]
  refine ⟨R, r, by rw [h1]; rfl, h2, p, fun c hc => (h4 c hc).1, ?_⟩
  intro t u ht hu _ _ hmax
  refine ⟨a - b, g1, ?_⟩
  have ha : 0 < a := by
    by_contra hn
    have h0 : ∀ c < nc, p c = 0 := fun c hc => by
      have := g5 c hc
      have := (h4 c hc).2.2.2.1
      omega
    generalize hNN : allVotes (M (sample feat)) (first par.sets i) nm nc = N at *
    have : 10000 * N ≤ nc * N := by
      have e : N = ∑ c ∈ Finset.range nc, votesOf (M (sample feat)) (first par.sets i) nm c := by rw [← hNN]; rfl
      conv_lhs => rw [e]
      rw [Finset.mul_sum]
      have h6 : ∑ c ∈ Finset.range nc, 10000 * votesOf (M (sample feat)) (first par.sets i) nm c ≤
          ∑ _c ∈ Finset.range nc, N := Finset.sum_le_sum fun c hc => by
        have := (h4 c (Finset.mem_range.1 hc)).2.2.1
        rw [h0 c (Finset.mem_range.1 hc)] at this
        linarith
      simpa using h6
    have := le_of_mul_le_mul_right this (by omega)
    omega
  rcases g8 with g8 | ⟨c, hc, g8, g9⟩
  · omega
  · omega

/-- C93, violated: if all votes (3 trees) are for one class, its probability is 9999 instead of 10000. -/
theorem c93_unanimous_violated (par : Par) (M : Models) (rd sq : ℚ → ℚ) (hrd : ∀ x, Nearest 53 x (rd x)) (x : Int)
    (hb : par.rfprob = true) (hreg : par.regression = false) (h0 : M.votes 0 = [(x, 3)]) :
    ∃ r, sets par M rd sq [(1, 1)] 0 = .ok [r] ∧ r.rfp = [.ok 9999] := by
  unfold sets models vote start
  rw [if_pos hb]
  simp only [h0, List.length_singleton, Nat.lt_irrefl, if_false, Out.bind, hreg, Bool.false_eq_true]
  unfold models
  refine ⟨_, rfl, ?_⟩
  show (probabilities rd _).map stored = _
  rw [probabilities_some rd _ (by simp)]
  simp only [List.take_succ_cons, List.take_nil, List.map_cons, List.map_nil, List.replicate_succ, List.replicate_zero,
    List.zipWith_cons_cons, List.zipWith_nil_left, List.sum_cons, List.sum_nil, Int.zero_add, Int.add_zero]
  have e1 : rd (((3 : Int) : ℚ) * tenThousandth) = 5534023222112866 / 2 ^ 64 := by
    have := Verif.Float.nearest_unique (p := 53) (by norm_num) (hrd (((3 : Int) : ℚ) * tenThousandth))
      5534023222112866 (-64) (by norm_num) (by
        unfold tenThousandth
        rw [abs_of_nonneg (by positivity)]
        norm_num) (by
        unfold tenThousandth
        rw [abs_lt]
        norm_num)
    rw [this]
    norm_num
  have e2 : rd (((3 : Int) : ℚ) / (5534023222112866 / 2 ^ 64)) = 5497558138879999 * (2 : ℚ) ^ (-39 : Int) := by
    have := Verif.Float.nearest_unique (p := 53) (by norm_num) (hrd (((3 : Int) : ℚ) / (5534023222112866 / 2 ^ 64)))
      5497558138879999 (-39) (by norm_num) (by
        rw [abs_of_nonneg (by positivity)]
        norm_num) (by
        rw [abs_lt]
        norm_num)
    exact_mod_cast this
  show [stored (some (rd (((3 : Int) : ℚ) / rd (((3 : Int) : ℚ) * tenThousandth))))] = _
  rw [e1, e2]
  have : truncQ (5497558138879999 * (2 : ℚ) ^ (-39 : Int)) = 9999 := by
    rw [truncQ_nonneg (by positivity), Int.floor_eq_iff]
    norm_num
  show [short _] = _
  rw [Verif.Index.short_ok (by norm_num) (by norm_num), this]

/-- C93, violated: if a model of a set knows fewer classes than the last model of the set, votes are read outside of
its matrix. -/
theorem c93_classes_violated (par : Par) (M : Models) (rd sq : ℚ → ℚ) (nm nc : Nat) (L : List (Nat × Nat))
    (hb : par.rfprob = true) (hreg : par.regression = false) (j : Nat) (hj : j < nm)
    (hfew : (M.votes j).length < nc) (hbefore : ∀ i < j, (M.votes i).length = nc) :
    sets par M rd sq ((nm, nc) :: L) 0 = .ub := by
  have key : ∀ (n : Nat) (s : St), s.k ≤ j → j < s.k + n → models par M nc nm n s = .ub := by
    intro n
    induction n with
    | zero => intro s h1 h2; omega
    | succ n ih =>
      intro s h1 h2
      unfold models vote
      rw [if_pos hb]
      dsimp only
      by_cases he : s.k = j
      · rw [he, if_pos hfew]
        rfl
      · rw [if_neg (by rw [hbefore s.k (by omega)]; omega)]
        simp only [Out.bind, hreg, Bool.false_eq_true, if_false]
        exact ih _ (by show s.k + 1 ≤ j; omega) (by show j < s.k + 1 + n; omega)
  unfold sets
  rw [key nm (start nc 0) (by simp [start]) (by simp [start]; exact hj)]
  rfl

/-- C93, violated: the votes are added by position, also if the models of a set have different classes there. If one model
only knows class `x` and the other only class `y`, the only probability that is written is (up to
rounding) 100%, although `x` has `a` of `a + b` votes and `y` has `b`. -/
theorem c93_columns_violated (par : Par) (M : Models) (rd sq : ℚ → ℚ) (hrd : ∀ x, Nearest 53 x (rd x)) (x y : Int)
    (a b : Int) (hb : par.rfprob = true) (hreg : par.regression = false) (ha : 0 < a) (hb' : 0 < b)
    (hN : a + b ≤ 2147483647) (h0 : M.votes 0 = [(x, a)]) (h1 : M.votes 1 = [(y, b)]) :
    ∃ r p, sets par M rd sq [(2, 1)] 0 = .ok [r] ∧ r.rfp = [.ok p] ∧ 9999 ≤ p ∧ p ≤ 10000 := by
  unfold sets models vote start
  rw [if_pos hb]
  simp only [h0, List.length_singleton, Nat.lt_irrefl, if_false, Out.bind, hreg, Bool.false_eq_true]
  unfold models vote
  rw [if_pos hb]
  simp only [Nat.zero_add, h1, List.length_singleton, Nat.lt_irrefl, if_false, Out.bind, hreg, Bool.false_eq_true]
  unfold models
  refine ⟨_, truncQ (rd (((a + b : Int) : ℚ) / rd (((a + b : Int) : ℚ) * tenThousandth))), rfl, ?_, ?_⟩
  · show (probabilities rd _).map stored = _
    rw [probabilities_some rd _ (by simp; omega)]
    simp only [List.take_succ_cons, List.take_nil, List.map_cons, List.map_nil, List.replicate_succ, List.replicate_zero,
      List.zipWith_cons_cons, List.zipWith_nil_left, List.sum_cons, List.sum_nil, Int.zero_add, Int.add_zero]
    obtain ⟨c0, c1, _, _⟩ := quotient_close hrd (V := a + b) (N := a + b) (by omega) (le_refl _) (by omega) hN
    show [short _] = _
    rw [Verif.Index.short_ok (lt_of_lt_of_le (by norm_num) c0) (lt_trans c1 (by norm_num))]
  · obtain ⟨_, q2, _, q4⟩ := quotient_trunc hrd (V := a + b) (N := a + b) (by omega) (le_refl _) (by omega) hN _ rfl
    refine ⟨?_, q4⟩
    have := le_of_mul_le_mul_right q2 (by omega)
    omega

end Verif.Ml

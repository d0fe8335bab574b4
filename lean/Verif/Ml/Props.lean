import Verif.Ml.Lemmas
import Verif.FloatErr
import Mathlib.Algebra.Order.BigOperators.Group.Finset
import Mathlib.Tactic.Linarith
import Mathlib.Tactic.FieldSimp

/-! # Theorems on the machine learning predictions -/

namespace Verif.Ml

open Verif.Str (Out)
open Verif.Index (truncQ short)
open Verif.Index.Spec (IntegerPart)
open Verif.Float (Nearest Rep)
open Spec

theorem pixel_of_predicted {par : Par} {ex : Bool} {M : List ℚ → Models} {rd sq : ℚ → ℚ} {mask : Option Bool}
    {feat : List (Int × Bool)} (hp : Predicted ex mask feat) :
    pixel par ex M rd sq mask feat =
      (sets par (M (sample feat)) rd sq par.sets 0).bind fun r => .ok (some r) := by
  unfold pixel
  rw [if_neg hp.1, if_neg]
  · rfl
  · intro h
    rw [List.any_eq_true] at h
    obtain ⟨f, hf, hb⟩ := h
    simp only [Bool.and_eq_true, Bool.not_eq_true'] at hb
    have := hp.2 hb.2 f hf
    rw [this] at hb
    cases hb.1

/-- C91: a pixel that is masked or excluded has no prediction. -/
theorem c91_skipped (par : Par) (ex : Bool) (M : List ℚ → Models) (rd sq : ℚ → ℚ) (mask : Option Bool)
    (feat : List (Int × Bool)) (h : ¬ Predicted ex mask feat) : pixel par ex M rd sq mask feat = .ok none := by
  unfold pixel
  by_cases hm : mask = some false
  · rw [if_pos hm]
  · rw [if_neg hm, if_pos]
    by_contra hn
    apply h
    refine ⟨hm, fun he f hf => ?_⟩
    by_contra hf2
    apply hn
    rw [List.any_eq_true]
    exact ⟨f, hf, by simp [he, hf2]⟩

theorem wrap_short {c : Int} (h : -32768 ≤ c ∧ c ≤ 32767) : wrap c = c := by
  unfold wrap
  omega

/-- What the loop over the models leaves for every set of a classification. -/
theorem class_sets {par : Par} {M : Models} (rd sq : ℚ → ℚ) (h : Classifiers par M) :
    ∃ R, sets par M rd sq par.sets 0 = .ok R ∧ R.length = par.sets.length ∧
      ∀ (i nm nc : Nat), par.sets[i]? = some (nm, nc) → ∃ s, R[i]? = some (result par rd sq s) ∧
        s.m = nm ∧ (s.ipred.length = nm ∧ ∀ j cls, s.ipred[j]? = some cls → Assigns par M (first par.sets i + j) cls) ∧
        (par.rfprob = true → s.prob.length = nc ∧
          (∀ c < nc, s.prob[c]? = some (votesOf M (first par.sets i) nm c)) ∧
          s.ntree = allVotes M (first par.sets i) nm nc) := by
  obtain ⟨hreg, h⟩ := h
  obtain ⟨R, h1, h2, h3⟩ := sets_ok (par := par) (M := M) (rd := rd) (sq := sq) par.sets 0
    (fun i s => ∀ nm nc, par.sets[i]? = some (nm, nc) →
      s.m = nm ∧ (s.ipred.length = nm ∧ ∀ j cls, s.ipred[j]? = some cls → Assigns par M (first par.sets i + j) cls) ∧
        (par.rfprob = true → s.prob.length = nc ∧
          (∀ c < nc, s.prob[c]? = some (votesOf M (first par.sets i) nm c)) ∧
          s.ntree = allVotes M (first par.sets i) nm nc)) (by
    intro i nm nc hi
    obtain ⟨_, hj⟩ := h i nm nc hi
    rw [Nat.zero_add]
    obtain ⟨t, t1, t2, t3, ⟨labs, t4, t5, t6⟩, t7⟩ := models_class (par := par) (M := M) (nc := nc) (nm := nm) hreg nm
      (start nc (first par.sets i)) (fun hb j hjn => (hj j hjn).2.1 hb) (fun hb j hjn => (hj j hjn).1 hb)
      (fun j hjn => (hj j hjn).2.2)
    refine ⟨t, t1, t3, ?_⟩
    intro nm' nc' hi'
    rw [hi] at hi'
    simp only [Option.some.injEq, Prod.mk.injEq] at hi'
    obtain ⟨rfl, rfl⟩ := hi'
    refine ⟨by rw [t2]; simp [start], ?_, ?_⟩
    · have : t.ipred = labs := by rw [t4]; simp [start]
      rw [this]
      exact ⟨t5, t6⟩
    · intro hb
      obtain ⟨u1, u2, u3⟩ := t7 hb (by simp [start])
      refine ⟨u1, fun c hc => ?_, by rw [u3]; simp [start]⟩
      obtain ⟨x, y, hx, hy, he⟩ := u2 c hc
      have : x = 0 := by
        simp only [start, List.getElem?_replicate, hc, if_true, Option.some.injEq] at hx
        exact hx.symm
      rw [hy, he, this, Int.zero_add]
      rfl)
  refine ⟨R, h1, h2, fun i nm nc hi => ?_⟩
  have hlt : i < par.sets.length := by
    by_contra hn
    rw [List.getElem?_eq_none (by omega)] at hi
    cases hi
  obtain ⟨s, hs, hq⟩ := h3 i hlt
  exact ⟨s, hs, hq nm nc hi⟩

/-- C91: the class of a pixel is one that the most models of the set assign; the number of iterations is the
number of models. -/
theorem c91_majority (par : Par) (ex : Bool) (M : List ℚ → Models) (rd sq : ℚ → ℚ) (mask : Option Bool)
    (feat : List (Int × Bool)) (hp : Predicted ex mask feat) (h : Classifiers par (M (sample feat))) :
    ∃ R, pixel par ex M rd sq mask feat = .ok (some R) ∧ R.length = par.sets.length ∧
      ∀ (i nm nc : Nat), par.sets[i]? = some (nm, nc) → ∃ r, R[i]? = some r ∧
        (nm ≤ 32767 → r.mli = nm) ∧
        ∃ labs : List Int, labs.length = nm ∧
          (∀ j cls, labs[j]? = some cls → Assigns par (M (sample feat)) (first par.sets i + j) cls) ∧
          ∃ cls, r.mlp = .ok cls ∧ cls ∈ labs ∧ ∀ v, labs.count v ≤ labs.count cls := by
  rw [pixel_of_predicted hp]
  obtain ⟨R, h1, h2, h3⟩ := class_sets rd sq h
  refine ⟨R, by rw [h1]; rfl, h2, fun i nm nc hi => ?_⟩
  obtain ⟨s, hs, hm, ⟨hl, ha⟩, _⟩ := h3 i nm nc hi
  obtain ⟨hn, hj⟩ := h.2 i nm nc hi
  refine ⟨_, hs, ?_, s.ipred, hl, ha, ?_⟩
  · intro hle
    show wrap (s.m : Int) = _
    rw [hm]
    exact wrap_short (by omega)
  · have hrange : ∀ c ∈ s.ipred, -32768 ≤ c ∧ c ≤ 32767 := by
      intro c hc
      obtain ⟨j, hjl, rfl⟩ := List.mem_iff_getElem.1 hc
      exact (hj j (by omega)).2.2 _ (ha j _ (List.getElem?_eq_getElem hjl))
    obtain ⟨c, hc, hmem, hcount⟩ := Verif.Stats.c37_mode_partial s.ipred (by
      intro hnil
      rw [hnil] at hl
      simp at hl
      omega) (by
      intro a ha b hb
      have := hrange a ha
      have := hrange b hb
      omega)
    refine ⟨c, ?_, hmem, hcount⟩
    show prediction par s = _
    unfold prediction
    rw [if_neg (by rw [h.1]; simp), hc]
    show Out.ok (wrap c) = _
    rw [wrap_short (hrange c hmem)]

/-- C92 (partial): a regression uses the models of its own set, up to the first (from the third on) that changes
the mean by less than the convergence threshold, or all. The prediction is the integer part of the mean times the
scaling factor, clipped to 16 bits; the iterations are the number of used models; the uncertainty is the
integer part of 10000 times the standard deviation of the used predictions, clipped. Missing: the
uncertainty of a single model, see `c92_single_violated`. -/
theorem c92_mean_partial (par : Par) (ex : Bool) (M : List ℚ → Models) (rd sq : ℚ → ℚ) (mask : Option Bool)
    (feat : List (Int × Bool)) (hp : Predicted ex mask feat) (h : Regressors par (M (sample feat)))
    (hsq : ∀ x, 0 ≤ sq x) :
    ∃ R, pixel par ex M rd sq mask feat = .ok (some R) ∧ R.length = par.sets.length ∧
      ∀ (i nm nc : Nat), par.sets[i]? = some (nm, nc) → ∃ (r : Result) (m : Nat), R[i]? = some r ∧
        Used par.converge (M (sample feat)) (first par.sets i) nm m ∧ r.mli = m ∧
        (∃ v, r.mlp = .ok v ∧
          IntegerPart v (max (-32768) (min 32767 (meanOf (M (sample feat)) (first par.sets i) m * par.scale)) : ℚ)) ∧
        (2 ≤ m → ∃ v, r.mlu = .ok v ∧
          IntegerPart v (min 32767 (sq ((∑ j ∈ Finset.range m, ((M (sample feat)).predict (first par.sets i + j) -
            meanOf (M (sample feat)) (first par.sets i) m) ^ 2) / (m - 1)) * 10000) : ℚ)) := by
  rw [pixel_of_predicted hp]
  generalize M (sample feat) = M at *
  obtain ⟨hreg, hrf, h⟩ := h
  obtain ⟨R, h1, h2, h3⟩ := sets_ok (par := par) (M := M) (rd := rd) (sq := sq) par.sets 0
    (fun i s => ∀ nm nc, par.sets[i]? = some (nm, nc) → Used par.converge M (first par.sets i) nm s.m ∧
      (s.m, s.mean, s.var) = Verif.Stats.varLoop (preds M (first par.sets i) s.m) (0, 0, 0)) (by
    intro i nm nc hi
    obtain ⟨_, _, hj⟩ := h i nm nc hi
    rw [Nat.zero_add]
    obtain ⟨t, t1, t2, t3, t4⟩ := models_reg (par := par) (M := M) (nc := nc) (nm := nm) (k := first par.sets i) hreg hrf
      (fun j hjn => by have := hj j hjn; constructor <;> linarith) nm
      (start nc (first par.sets i)) (by simp [start]) rfl rfl rfl (by
        intro j hj hs
        have : j ≤ 0 := hj
        have := hs.1
        omega)
    refine ⟨t, t1, t2, ?_⟩
    intro nm' nc' hi'
    rw [hi] at hi'
    simp only [Option.some.injEq, Prod.mk.injEq] at hi'
    obtain ⟨rfl, rfl⟩ := hi'
    exact ⟨t3, t4⟩)
  refine ⟨R, by rw [h1]; rfl, h2, fun i nm nc hi => ?_⟩
  have hlt : i < par.sets.length := by
    by_contra hn
    rw [List.getElem?_eq_none (by omega)] at hi
    cases hi
  obtain ⟨s, hs, hq⟩ := h3 i hlt
  obtain ⟨hu, hv⟩ := hq nm nc hi
  obtain ⟨hn1, hn2, _⟩ := h i nm nc hi
  refine ⟨_, s.m, hs, hu, ?_, ?_, ?_⟩
  · show wrap (s.m : Int) = _
    have := hu.1
    exact wrap_short (by omega)
  · have hm1 : 1 ≤ s.m := by
      rcases hu.2.2 with hx | hx
      · have := hx.1; omega
      · omega
    obtain ⟨i', hi'⟩ : ∃ i', s.m = i' + 1 := ⟨s.m - 1, by omega⟩
    have hv' := hv
    rw [hi', varLoop_preds, ← hi'] at hv'
    simp only [Prod.mk.injEq] at hv'
    show ∃ v, prediction par s = .ok v ∧ _
    unfold prediction
    rw [if_pos hreg, hv'.2.1]
    dsimp only
    generalize meanOf M (first par.sets i) s.m * par.scale = x
    have e : (if (if x > 32767 then (32767 : ℚ) else x) < -32768 then (-32768 : ℚ) else if x > 32767 then 32767 else x)
        = max (-32768) (min 32767 x) := by
      by_cases h1 : x > 32767
      · rw [if_pos h1, if_neg (by norm_num), min_eq_left h1.le, max_eq_right (by norm_num)]
      · rw [if_neg h1, min_eq_right (not_lt.1 h1)]
        by_cases h2 : x < -32768
        · rw [if_pos h2, max_eq_left h2.le]
        · rw [if_neg h2, max_eq_right (not_lt.1 h2)]
    rw [e]
    refine ⟨_, Verif.Index.short_ok ?_ ?_, Verif.Index.integerPart _⟩
    · exact lt_of_lt_of_le (by norm_num) (le_max_left _ _)
    · exact lt_of_le_of_lt (max_le (by norm_num) (min_le_left _ _)) (by norm_num : (32767 : ℚ) < 32768)
  · intro hm2
    obtain ⟨i', hi'⟩ : ∃ i', s.m = i' + 1 := ⟨s.m - 1, by omega⟩
    have hv' := hv
    rw [hi', varLoop_preds, ← hi'] at hv'
    simp only [Prod.mk.injEq] at hv'
    have hmom : s.var = ∑ j ∈ Finset.range s.m, (M.predict (first par.sets i + j) - meanOf M (first par.sets i) s.m) ^ 2 := by
      rw [hv'.2.2]
      unfold Verif.Stats.Spec.moment
      rw [mean_preds]
      unfold preds
      rw [List.map_map]
      rfl
    show ∃ v, uncertainty sq s = .ok v ∧ _
    unfold uncertainty
    rw [if_neg (by omega), if_neg (by omega), hmom]
    unfold Verif.Stats.variance
    dsimp only
    have h0 := hsq ((∑ j ∈ Finset.range s.m, (M.predict (first par.sets i + j) - meanOf M (first par.sets i) s.m) ^ 2) /
      ((s.m : ℚ) - 1))
    generalize sq _ = y at h0 ⊢
    have e : (if y * 10000 > 32767 then (32767 : ℚ) else y * 10000) = min 32767 (y * 10000) := by
      by_cases h1 : y * 10000 > 32767
      · rw [if_pos h1, min_eq_left h1.le]
      · rw [if_neg h1, min_eq_right (not_lt.1 h1)]
    rw [e]
    refine ⟨_, Verif.Index.short_ok ?_ ?_, Verif.Index.integerPart _⟩
    · exact lt_of_lt_of_le (by norm_num : (-32769 : ℚ) < 0) (le_min (by norm_num) (by linarith))
    · exact lt_of_le_of_lt (min_le_left _ _) (by norm_num : (32767 : ℚ) < 32768)

/-- C92, violated: with a single model in a set, its uncertainty is the conversion of 0/0 to an integer, which is
undefined. -/
theorem c92_single_violated (par : Par) (M : Models) (rd sq : ℚ → ℚ) (nc k : Nat)
    (hreg : par.regression = true) (hrf : par.rfprob = false)
    (hint : -2147483648 ≤ M.predict k ∧ M.predict k ≤ 2147483647) :
    ∃ r, sets par M rd sq [(1, nc)] k = .ok [r] ∧ r.mlu = .ub := by
  obtain ⟨t, t1, t2, t3, t4⟩ := models_reg (par := par) (M := M) (nc := nc) (nm := 1) (k := k) hreg hrf
      (fun j hjn => by
        have : j = 0 := by omega
        subst this
        rw [Nat.add_zero]
        constructor <;> linarith [hint.1, hint.2]) 1
      (start nc k) (by simp [start]) rfl rfl rfl (by
        intro j hj hs
        have : j ≤ 0 := hj
        have := hs.1
        omega)
  have hm : t.m = 1 := by
    rcases t3.2.2 with hx | hx
    · have := hx.1
      have := t3.1
      omega
    · exact hx
  refine ⟨result par rd sq t, ?_, ?_⟩
  · unfold sets
    rw [t1]
    rfl
  · show uncertainty sq t = _
    unfold uncertainty
    rw [if_neg (by omega), if_pos hm]

end Verif.Ml

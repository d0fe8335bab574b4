import Verif.Train.Count

/-!
# Theorems about class weights, settings and reports
-/

namespace Verif.Train

open Verif.Str (Out)
open Verif.Float
open Verif.Stats Verif.Stats.Spec

/-! ## Weights from the number of samples -/

theorem no_overflow {cls : List Int} (h : ∀ c ∈ cls, |c| ≤ 1000000000) : NoOverflow cls := by
  intro a ha b hb
  have h1 := abs_le.1 (h a ha)
  have h2 := abs_le.1 (h b hb)
  omega

/-- C236: with PROPORTIONAL weights, there is one weight for each class of the response file, in ascending order: the
share of the samples, rounded to a float. -/
theorem c236_proportional (rf : ℚ → ℚ) (hrf : ∀ x, Nearest 24 x (rf x)) (atof : String → ℚ) (par : Par)
    (cls : List Int) (hm : par.method = .svc ∨ par.method = .rfc) (hw : par.weights = ["PROPORTIONAL"])
    (hne : cls ≠ []) (hr : ∀ c ∈ cls, |c| ≤ 1000000000) (hn : cls.length ≤ 2 ^ 24) :
    ∃ ws, priors rf atof par cls = .ok (some ws) ∧
      ForClasses cls ws (fun k w => Nearest 24 ((k : ℚ) / cls.length) w) := by
  obtain ⟨vals, counts, hh, hp, hmem, rfl⟩ := c37_histogram_partial cls hne (no_overflow hr)
  refine ⟨proportional rf cls.length (vals.map fun v => cls.count v), ?_, vals, hp, hmem, by simp [proportional], ?_⟩
  · unfold priors
    rw [if_neg (by rcases hm with h | h <;> rw [h] <;> decide), if_neg (by rw [hw]; decide), if_pos hw, hh]
    rfl
  · intro i v w hv hwi
    unfold proportional at hwi
    rw [List.getElem?_map, List.getElem?_map, hv] at hwi
    simp only [Option.map_some, Option.some.injEq] at hwi
    subst hwi
    rw [rf_nat rf hrf _ ((List.count_le_length).trans hn), rf_nat rf hrf _ hn]
    exact hrf _

theorem anti_order (rf : ℚ → ℚ) (hmono : ∀ x y, x ≤ y → rf x ≤ rf y) (sum a b : ℚ) (hs : 0 ≤ sum) (h : a ≤ b) :
    rf (a / sum) ≤ rf (b / sum) := hmono _ _ (div_le_div_of_nonneg_right h hs)

theorem fold_nonneg (rf : ℚ → ℚ) (h0 : ∀ x, 0 ≤ x → 0 ≤ rf x) (l : List ℚ) (s : ℚ) (hs : 0 ≤ s) (hl : ∀ x ∈ l, 0 ≤ x) :
    0 ≤ l.foldl (fun s x => rf (s + x)) s := by
  induction l generalizing s with
  | nil => exact hs
  | cons a t ih =>
    rw [List.foldl_cons]
    exact ih _ (h0 _ (add_nonneg hs (hl a List.mem_cons_self))) (fun x hx => hl x (List.mem_cons_of_mem _ hx))

theorem fold_exact (l : List ℚ) (s : ℚ) : l.foldl (fun s x => id (s + x)) s = s + l.sum := by
  induction l generalizing s with
  | nil => simp
  | cons a t ih => rw [List.foldl_cons, ih, List.sum_cons]; simp only [id]; ring

theorem sum_div (l : List ℚ) (c : ℚ) : (l.map fun x => x / c).sum = l.sum / c := by
  induction l with
  | nil => simp
  | cons a t ih => simp only [List.map_cons, List.sum_cons, ih]; ring

/-- C236: with ANTIPROPORTIONAL weights, the weights of the classes sum to one, and weight times number of samples is the
same for all classes (in exact arithmetic). -/
theorem c236_antiproportional (atof : String → ℚ) (par : Par) (cls : List Int)
    (hm : par.method = .svc ∨ par.method = .rfc) (hw : par.weights = ["ANTIPROPORTIONAL"]) (hne : cls ≠ [])
    (hr : ∀ c ∈ cls, |c| ≤ 1000000000) :
    ∃ ws t, priors id atof par cls = .ok (some ws) ∧ 0 < t ∧ ForClasses cls ws (fun k w => w * k = t) ∧ ws.sum = 1 := by
  obtain ⟨vals, counts, hh, hp, hmem, rfl⟩ := c37_histogram_partial cls hne (no_overflow hr)
  have hn : 0 < (cls.length : ℚ) := by exact_mod_cast List.length_pos_iff.2 hne
  have hcp : ∀ v ∈ vals, 0 < (cls.count v : ℚ) := fun v hv => by
    exact_mod_cast List.count_pos_iff.2 ((hmem v).1 hv)
  have hpos : ∀ x ∈ inverse id cls.length (vals.map fun v => cls.count v), 0 < x := by
    intro x hx
    unfold inverse at hx
    obtain ⟨c, hc, rfl⟩ := List.mem_map.1 hx
    obtain ⟨v, hv, rfl⟩ := List.mem_map.1 hc
    exact div_pos hn (hcp v hv)
  have hq : inverse id cls.length (vals.map fun v => cls.count v) ≠ [] := by
    unfold inverse
    intro h
    rw [List.map_eq_nil_iff, List.map_eq_nil_iff] at h
    obtain ⟨c, hc⟩ := List.exists_mem_of_ne_nil _ hne
    have := (hmem c).2 hc
    rw [h] at this
    cases this
  have hs : 0 < (inverse id cls.length (vals.map fun v => cls.count v)).sum :=
    List.sum_pos _ hpos hq
  have e : antiproportional id cls.length (vals.map fun v => cls.count v) =
      (inverse id cls.length (vals.map fun v => cls.count v)).map
        fun x => x / (inverse id cls.length (vals.map fun v => cls.count v)).sum := by
    unfold antiproportional
    dsimp only
    rw [fold_exact, zero_add]
    rfl
  refine ⟨antiproportional id cls.length (vals.map fun v => cls.count v),
    cls.length / (inverse id cls.length (vals.map fun v => cls.count v)).sum, ?_, div_pos hn hs,
    ⟨vals, hp, hmem, by simp [e, inverse], ?_⟩, ?_⟩
  · unfold priors
    rw [if_neg (by rcases hm with h | h <;> rw [h] <;> decide), if_neg (by rw [hw]; decide), if_neg (by rw [hw]; decide),
      if_pos hw, hh]
    rfl
  · intro i v w hv hwi
    rw [e] at hwi
    have hc := (hcp v (List.mem_of_getElem? hv)).ne'
    unfold inverse at hwi
    rw [List.getElem?_map, List.getElem?_map, List.getElem?_map, hv] at hwi
    simp only [Option.map_some, Option.some.injEq, id] at hwi
    rw [← hwi]
    unfold inverse
    simp only [id]
    field_simp
  · rw [e, sum_div, div_self hs.ne']

/-- C236: with the roundings of the program too, a class with more samples never has a larger weight. -/
theorem c236_order (rf : ℚ → ℚ) (hrf : ∀ x, Nearest 24 x (rf x)) (hmono : ∀ x y, x ≤ y → rf x ≤ rf y)
    (atof : String → ℚ) (par : Par) (cls : List Int)
    (hm : par.method = .svc ∨ par.method = .rfc) (hw : par.weights = ["ANTIPROPORTIONAL"]) (hne : cls ≠ [])
    (hr : ∀ c ∈ cls, |c| ≤ 1000000000) (hlen : cls.length ≤ 2 ^ 24) :
    ∃ (ws : List ℚ) (f : Nat → ℚ), priors rf atof par cls = .ok (some ws) ∧ ForClasses cls ws (fun k w => w = f k) ∧
      ∀ k l, 0 < k → k ≤ l → l ≤ 2 ^ 24 → f l ≤ f k := by
  obtain ⟨vals, counts, hh, hp, hmem, rfl⟩ := c37_histogram_partial cls hne (no_overflow hr)
  have h0 : ∀ x, 0 ≤ x → 0 ≤ rf x := fun x hx => nearest_ge (hrf x) ⟨0, 0, by norm_num, by simp⟩ hx
  refine ⟨antiproportional rf cls.length (vals.map fun v => cls.count v), fun k =>
    rf (rf (rf cls.length / rf k) / ((inverse rf cls.length (vals.map fun v => cls.count v)).foldl
      (fun s x => rf (s + x)) 0)), ?_, ⟨vals, hp, hmem, by simp [antiproportional, inverse], ?_⟩, ?_⟩
  · unfold priors
    rw [if_neg (by rcases hm with h | h <;> rw [h] <;> decide), if_neg (by rw [hw]; decide), if_neg (by rw [hw]; decide),
      if_pos hw, hh]
    rfl
  · intro i v w hv hwi
    unfold antiproportional inverse at hwi
    dsimp only at hwi
    rw [List.getElem?_map, List.getElem?_map, List.getElem?_map, hv] at hwi
    simp only [Option.map_some, Option.some.injEq] at hwi
    exact hwi.symm
  · intro k l hk hkl hl
    apply anti_order rf hmono _ _ _ _ _
    · apply fold_nonneg rf h0 _ _ (le_refl _)
      intro x hx
      unfold inverse at hx
      obtain ⟨c, hc, rfl⟩ := List.mem_map.1 hx
      exact h0 _ (div_nonneg (h0 _ (by positivity)) (h0 _ (by positivity)))
    · apply hmono
      rw [rf_nat rf hrf k (hkl.trans hl), rf_nat rf hrf l hl]
      have hkq : (0 : ℚ) < k := by exact_mod_cast hk
      apply div_le_div_of_nonneg_left (h0 _ (by positivity)) hkq
      exact_mod_cast hkl

/-- C236: own weights are used in the given order if there is one for each class of the response file; otherwise the
program ends with a message. -/
theorem c236_custom (rf : ℚ → ℚ) (atof : String → ℚ) (par : Par) (cls : List Int)
    (hm : par.method = .svc ∨ par.method = .rfc) (hw : 1 < par.weights.length) (hne : cls ≠ [])
    (hr : ∀ c ∈ cls, |c| ≤ 1000000000) :
    priors rf atof par cls = if cls.dedup.length = par.weights.length then
      .ok (some (par.weights.map fun w => rf (atof w))) else .exit := by
  have hx : ∀ s : String, par.weights ≠ [s] := by
    intro s h; rw [h] at hw; simp at hw
  unfold priors
  rw [if_neg (by rcases hm with h | h <;> rw [h] <;> decide), if_neg (hx _), if_neg (hx _), if_neg (hx _), if_pos hw,
    c37_unique_partial cls hne (no_overflow hr)]
  simp only [Out.bind]
  by_cases h : cls.dedup.length = par.weights.length
  · rw [if_neg (by simpa using h), if_pos h]
  · rw [if_pos h, if_neg h]

/-- C236: for regression, and with EQUALIZED weights, no weights are used. -/
theorem c236_none (rf : ℚ → ℚ) (atof : String → ℚ) (par : Par) (cls : List Int)
    (h : par.method = .svr ∨ par.method = .rfr ∨ par.weights = ["EQUALIZED"]) :
    priors rf atof par cls = .ok none := by
  unfold priors
  rcases h with h | h | h
  · rw [if_pos (Or.inr h)]
  · rw [if_pos (Or.inl h)]
  · rw [if_pos h]; split <;> rfl

/-- C236, violated: the weights are those of all samples, not of the training samples. If the samples are sorted by class
and the first half of them is used for training, the model gets two weights for one class. -/
theorem c236_training_violated (rf rd : ℚ → ℚ) (hrf : ∀ x, Nearest 24 x (rf x))
    (atof : String → ℚ) (rand : Nat → Nat) (fuel : Nat) (par : Par) (m : Nat) (a b : Int) (hab : a < b)
    (ha : |a| ≤ 1000000000) (hb : |b| ≤ 1000000000) (h1 : 1 ≤ m) (hm : m ≤ 80000)
    (hmeth : par.method = .svc ∨ par.method = .rfc) (hw : par.weights = ["PROPORTIONAL"]) (hp : par.percent = 50)
    (hr : par.random = false) (hv : par.var = 1) (feats : List (List ℚ)) (hf : feats.length = 2 * m) :
    ∃ S ws, run rf rd atof rand fuel par 1 (List.replicate m [(a : ℚ)] ++ List.replicate m [(b : ℚ)]) feats = .ok (some S) ∧
      S.priors = some ws ∧ ws.length = 2 ∧ ∀ s ∈ S.train, s.cls = a := by
  have hlen : (List.replicate m [(a : ℚ)] ++ List.replicate m [(b : ℚ)]).length = 2 * m := by simp; omega
  have hrow : ∀ row ∈ List.replicate m [(a : ℚ)] ++ List.replicate m [(b : ℚ)], row = [(a : ℚ)] ∨ row = [(b : ℚ)] := by
    intro row h
    rw [List.mem_append, List.mem_replicate, List.mem_replicate] at h
    rcases h with h | h
    · exact Or.inl h.2
    · exact Or.inr h.2
  have hvalid : Valid par 1 (List.replicate m [(a : ℚ)] ++ List.replicate m [(b : ℚ)]) feats := by
    refine ⟨by omega, ?_, by rw [hv]; omega, by omega, ?_⟩
    · intro row h
      rcases hrow row h with rfl | rfl <;> rfl
    · intro row h x hx
      rcases hrow row h with rfl | rfl
      · rw [List.mem_singleton] at hx
        subst hx; exact_mod_cast ha
      · rw [List.mem_singleton] at hx
        subst hx; exact_mod_cast hb
  have hnt : nTrain rf (2 * m) par.percent = m := by
    have := nTrain_exact rf hrf (2 * m) 50 (by omega) (by norm_num)
    rw [hp]
    rw [show 2 * m * 50 / 100 = m by omega] at this
    exact_mod_cast this
  obtain ⟨vals, cls, l1, l2, hc, hcol, hcls, hrun⟩ := run_valid hvalid rf rd atof rand m (by rw [hlen]; exact hnt) (by omega)
  obtain ⟨_, hvg⟩ := column_get _ _ _ hcol
  obtain ⟨_, hcg⟩ := classes_get _ _ hcls
  rw [hlen] at l1
  have tr : ∀ k : Int, Verif.Index.truncQ (k : ℚ) = k := by
    intro k; simp [Verif.Index.truncQ]
  have first : ∀ i, i < m → cls[i]? = some a := by
    intro i hi
    obtain ⟨x, h3, h4⟩ := hvg i [(a : ℚ)] (by
      rw [List.getElem?_append_left (by simpa using hi), List.getElem?_replicate, if_pos hi])
    rw [hv] at h3
    simp at h3
    subst h3
    obtain ⟨c, h5, rfl⟩ := hcg i _ h4
    rw [h5, tr]
  have second : ∀ i, m ≤ i → i < 2 * m → cls[i]? = some b := by
    intro i hi hi2
    obtain ⟨x, h3, h4⟩ := hvg i [(b : ℚ)] (by
      rw [List.getElem?_append_right (by simpa using hi), List.length_replicate, List.getElem?_replicate,
        if_pos (by omega)])
    rw [hv] at h3
    simp at h3
    subst h3
    obtain ⟨c, h5, rfl⟩ := hcg i _ h4
    rw [h5, tr]
  have hmem : ∀ c, c ∈ cls ↔ c = a ∨ c = b := by
    intro c
    constructor
    · intro h
      obtain ⟨i, hi⟩ := List.mem_iff_getElem?.1 h
      have hil := (List.getElem?_eq_some_iff.1 hi).1
      by_cases him : i < m
      · rw [first i him] at hi; left; exact (Option.some.inj hi).symm
      · rw [second i (by omega) (by omega)] at hi; right; exact (Option.some.inj hi).symm
    · rintro (rfl | rfl)
      · exact List.mem_of_getElem? (first 0 (by omega))
      · exact List.mem_of_getElem? (second m (le_refl _) (by omega))
  have hne : cls ≠ [] := List.ne_nil_of_mem ((hmem a).2 (Or.inl rfl))
  obtain ⟨ws, hws, ids, hpw, hids, hlw, _⟩ := c236_proportional rf hrf atof par cls hmeth hw hne hc (by omega)
  have hids2 : ids.length = 2 := by
    have hnd : ids.Nodup := hpw.imp (fun h => ne_of_lt h)
    have hperm : ids.Perm [a, b] := by
      rw [List.perm_ext_iff_of_nodup hnd (by simp; omega)]
      intro c
      rw [hids, hmem]
      simp
    exact hperm.length_eq
  have hmarks := marks_first rand fuel m (2 * m) 0 0 (by omega)
  rw [← List.range_eq_range'] at hmarks
  simp only [List.replicate_zero, List.nil_append, Nat.sub_zero, Nat.zero_add] at hmarks
  obtain ⟨S, hS, hSp⟩ := split_ok rf rd atof rand fuel par feats vals cls m (by omega) h1 (by omega) l2
    _ (by rw [hr, l1]; exact hmarks) _ hws
  refine ⟨S, ws, by rw [hrun]; exact hS, hSp, by omega, ?_⟩
  have hrun' := hrun fuel
  rw [hS] at hrun'
  obtain ⟨vals', cls', nt', mm, e1, e2, _, _, e3, _, _, e4, e5, _⟩ := run_cases hrun'
  rw [hcol] at e1; cases e1
  rw [hcls] at e2; cases e2
  rw [hlen, hnt] at e3
  have e3 : m = nt' := by exact_mod_cast e3
  subst e3
  obtain ⟨e6, _⟩ := distribute_eq _ _ _ _ _ _ e5
  dsimp only at e6
  rw [hr, l1, hmarks] at e4
  cases e4
  have hsl := samples_length rf rd feats vals cls (by omega) l2
  have e7 := filter_first m (samples rf rd feats vals cls) (by omega)
  rw [hsl, l1] at e7
  rw [List.nil_append, e7] at e6
  intro s hs
  rw [e6] at hs
  obtain ⟨i, hi⟩ := List.mem_iff_getElem?.1 hs
  rw [List.getElem?_take] at hi
  split at hi
  · rename_i him
    unfold samples at hi
    rw [List.getElem?_zipWith] at hi
    have hz : (vals.zip cls)[i]? = some ((vals[i]'(by omega)), a) := by
      rw [List.zip, List.getElem?_zipWith, first i him, List.getElem?_eq_getElem (by omega)]
    rw [hz] at hi
    rw [List.getElem?_eq_getElem (by omega)] at hi
    cases hi
    rfl
  · cases hi

/-! ## Check of the weights -/

theorem weightSum_err (rf rd : ℚ → ℚ) (hrf : ∀ x, Nearest 24 x (rf x)) (hrd : ∀ x, Nearest 53 x (rd x)) (vals : List ℚ)
    (k : Nat) (s t : ℚ) (hk : k + vals.length ≤ 100) (hv : ∀ v ∈ vals, |v| ≤ 1) (ht : |t| ≤ k)
    (hs : |s - t| ≤ k / 50000) :
    |vals.foldl (fun s v => rf (rd (s + v))) s - (t + vals.sum)| ≤ ((k + vals.length : Nat) : ℚ) / 50000 := by
  induction vals generalizing k s t with
  | nil => simpa using hs
  | cons a u ih =>
    rw [List.length_cons] at hk
    have ha := hv a List.mem_cons_self
    rw [List.foldl_cons, List.sum_cons, ← add_assoc, List.length_cons, show k + (u.length + 1) = (k + 1) + u.length by omega]
    have kq : (k : ℚ) ≤ 99 := by exact_mod_cast (by omega : k ≤ 99)
    apply ih (k + 1) _ (t + a) (by omega) (fun v hv' => hv v (List.mem_cons_of_mem _ hv'))
    · have := abs_add_le t a
      push_cast; linarith
    · have h1 := nearest_err (by norm_num) (hrd (s + a))
      have h2 := nearest_err (by norm_num) (hrf (rd (s + a)))
      generalize rd (s + a) = y at *
      generalize rf y = z at *
      have hsa : |s + a| ≤ 101 := by
        have e1 := abs_add_le s a
        have e2 := abs_add_le (s - t) t
        rw [sub_add_cancel] at e2
        linarith
      have hy : |y| ≤ 102 := by
        have e1 := abs_sub_abs_le_abs_sub y (s + a)
        rw [abs_sub_comm] at e1
        have : |s + a| / 2 ^ 53 ≤ 1 := by norm_num; linarith
        linarith
      have e3 : |s + a - y| ≤ 1 / 120000 := by
        refine h1.trans ?_
        norm_num; linarith
      have e4 : |y - z| ≤ 1 / 120000 := by
        refine h2.trans ?_
        norm_num; linarith
      rw [show z - (t + a) = (s - t) - ((s + a - y) + (y - z)) by ring]
      have e5 := abs_sub (s - t) ((s + a - y) + (y - z))
      have e6 := abs_add_le (s + a - y) (y - z)
      push_cast
      linarith

/-- C236 (partial): up to 100 own weights between -1 and 1 are accepted if their sum is one up to 0.007, and refused if
it differs from one by 0.013 or more. Missing: the weights must be between 0 and 1, see
`c236_negative_violated`. -/
theorem c236_sum_partial (rf rd : ℚ → ℚ) (hrf : ∀ x, Nearest 24 x (rf x)) (hrd : ∀ x, Nearest 53 x (rd x))
    (atof : String → ℚ) (ws : List String) (h2 : ws.length ≠ 1) (hl : ws.length ≤ 100) (hv : ∀ w ∈ ws, |atof w| ≤ 1) :
    (|(ws.map atof).sum - 1| ≤ 7 / 1000 → weightsOk rf rd atof ws = true) ∧
      (13 / 1000 ≤ |(ws.map atof).sum - 1| → weightsOk rf rd atof ws = false) := by
  have e : weightsOk rf rd atof ws = !decide (|rd (1 - weightSum rf rd (ws.map atof))| > rf (1 / 100)) := by
    unfold weightsOk
    split
    · simp at h2
    · rfl
  have hs := weightSum_err rf rd hrf hrd (ws.map atof) 0 0 0 (by simpa using hl)
    (by intro v hv'; obtain ⟨w, hw, rfl⟩ := List.mem_map.1 hv'; exact hv w hw) (by simp) (by simp)
  have ht := nearest_err (by norm_num) (hrf (1 / 100))
  have hd := nearest_err (by norm_num) (hrd (1 - weightSum rf rd (ws.map atof)))
  rw [e]
  unfold weightSum at *
  generalize (ws.map atof).foldl (fun s v => rf (rd (s + v))) 0 = z at *
  generalize rf (1 / 100) = tol at *
  generalize rd (1 - z) = y at *
  rw [zero_add, Nat.zero_add, List.length_map] at hs
  have hlq : (ws.length : ℚ) ≤ 100 := by exact_mod_cast hl
  have hs' : |z - (ws.map atof).sum| ≤ 2 / 1000 := hs.trans (by linarith)
  generalize (ws.map atof).sum = S at *
  obtain ⟨t1, t2⟩ := abs_le.1 ht
  norm_num at t1 t2
  have f1 : |1 - z| ≤ |S - 1| + 2 / 1000 := by
    rw [show 1 - z = -((S - 1) + (z - S)) by ring, abs_neg]
    exact (abs_add_le _ _).trans (by linarith)
  have f2 : |S - 1| ≤ |1 - z| + 2 / 1000 := by
    rw [show S - 1 = -((1 - z) + (z - S)) by ring, abs_neg]
    exact (abs_add_le _ _).trans (by linarith)
  have f3 : |y| ≤ |1 - z| + |1 - z| / 2 ^ 53 := by
    have := abs_sub_abs_le_abs_sub y (1 - z)
    rw [abs_sub_comm y] at this
    linarith
  have f4 : |1 - z| ≤ |y| + |1 - z| / 2 ^ 53 := by
    have := abs_sub_abs_le_abs_sub (1 - z) y
    linarith
  norm_num at f3 f4
  have g1 : 0 ≤ |1 - z| := abs_nonneg _
  constructor
  · intro h
    rw [Bool.not_eq_true', decide_eq_false_iff_not]
    exact not_lt.2 (by linarith)
  · intro h
    rw [Bool.not_eq_false', decide_eq_true_iff]
    linarith

/-- C236, violated: weights outside of the range from zero to one are accepted; any word that is not a number counts as
zero. -/
theorem c236_negative_violated (rf rd : ℚ → ℚ) (hrf : ∀ x, Nearest 24 x (rf x)) (hrd : ∀ x, Nearest 53 x (rd x))
    (atof : String → ℚ) (u v w : String) (hu : atof u = -1) (hv : atof v = 1) (hw : atof w = 0) :
    weightsOk rf rd atof [u, v, v] = true ∧ weightsOk rf rd atof [w, v] = true := by
  constructor
  · apply (c236_sum_partial rf rd hrf hrd atof [u, v, v] (by simp) (by simp) _).1
    · norm_num [hu, hv]
    · intro x hx
      simp at hx
      rcases hx with rfl | rfl <;> simp [hu, hv]
  · apply (c236_sum_partial rf rd hrf hrd atof [w, v] (by simp) (by simp) _).1
    · norm_num [hw, hv]
    · intro x hx
      simp at hx
      rcases hx with rfl | rfl <;> simp [hw, hv]

/-- C236: a single word is accepted exactly if it is one of the three keywords. -/
theorem c236_keyword (rf rd : ℚ → ℚ) (atof : String → ℚ) (w : String) :
    weightsOk rf rd atof [w] = true ↔ w ∈ ["EQUALIZED", "PROPORTIONAL", "ANTIPROPORTIONAL"] := by
  simp [weightsOk, or_assoc]

example : ([1, 1, 5, 1, 2] : List Int) ≠ [] ∧ (∀ c ∈ ([1, 1, 5, 1, 2] : List Int), |c| ≤ 1000000000) ∧
    ([1, 1, 5, 1, 2] : List Int).dedup.length = 3 := by decide

/-! ## Settings -/

/-- C237: both criteria that are given are used, a zero means that the criterion is not used, and the program ends with a
message if both are zero. -/
theorem c237_criteria (n : Nat) (acc : ℚ) (h : 0 ≤ acc) :
    (criteria n acc = .exit ↔ n = 0 ∧ acc = 0) ∧
      ∀ c, criteria n acc = .ok c ↔ (n ≠ 0 ∨ acc ≠ 0) ∧ c.iterations = (if n = 0 then none else some n) ∧
        c.accuracy = (if acc = 0 then none else some acc) := by
  have h0 : acc = 0 ∨ 0 < acc := by
    rcases h.lt_or_eq with h | h
    · exact Or.inr h
    · exact Or.inl h.symm
  constructor
  · unfold criteria
    rcases Nat.eq_zero_or_pos n with rfl | hn
    · rcases h0 with rfl | ha
      · simp
      · simp [ha, ha.ne']
    · rcases h0 with rfl | ha
      · simp [hn, hn.ne']
      · simp [hn, hn.ne', ha]
  · rintro ⟨ci, ca⟩
    unfold criteria
    rcases Nat.eq_zero_or_pos n with rfl | hn
    · rcases h0 with rfl | ha
      · simp
      · simp [ha, ha.ne', eq_comm]
    · rcases h0 with rfl | ha
      · simp [hn, hn.ne', eq_comm]
      · simp [hn, hn.ne', ha, ha.ne', eq_comm]

example : criteria 500 0 = .ok ⟨some 500, none⟩ := by decide +kernel

/-- C237: the number of features at a split is the given one; by default, it is the largest number whose square is at most
the number of features for classification, and the largest one whose triple is for regression. -/
theorem c237_features (given n : Nat) (regression : Bool) :
    let k := splitFeatures regression given n
    (given ≠ 0 → k = given) ∧ (given = 0 → regression = false → k * k ≤ n ∧ n < (k + 1) * (k + 1)) ∧
      (given = 0 → regression = true → 3 * k ≤ n ∧ n < 3 * (k + 1)) := by
  unfold splitFeatures
  refine ⟨?_, ?_, ?_⟩
  · intro h; rw [if_pos (by omega)]
  · rintro rfl rfl
    simp only [gt_iff_lt, lt_irrefl, if_false, Bool.false_eq_true]
    exact ⟨Nat.sqrt_le n, Nat.lt_succ_sqrt n⟩
  · rintro rfl rfl
    simp only [gt_iff_lt, lt_irrefl, if_false, if_true]
    omega

/-- C237: nodes are split down to the given number of samples; by default, 5 for regression and 1 for classification. -/
theorem c237_samples (given : Nat) : (given ≠ 0 → ∀ r, minSamples r given = given) ∧ minSamples true 0 = 5 ∧
    minSamples false 0 = 1 := by
  refine ⟨?_, rfl, rfl⟩
  intro h r
  unfold minSamples
  rw [if_pos (by omega)]

/-- C237: a grid is accepted exactly if it has three numbers, of which the first is not larger than the second. -/
theorem c237_grid (g : List ℚ) : gridOk g = true ↔ ∃ a b s, g = [a, b, s] ∧ a ≤ b := by
  unfold gridOk
  split
  · rename_i a b s
    rw [Bool.not_eq_true', decide_eq_false_iff_not, not_lt]
    constructor
    · intro h; exact ⟨a, b, s, rfl, h⟩
    · rintro ⟨a', b', s', h, hle⟩
      cases h; exact hle
  · rename_i hne
    constructor
    · intro h; cases h
    · rintro ⟨a, b, s, h, _⟩
      exact absurd h (hne a b s)

/-! ## Reports -/

theorem correct_eq (pairs : List (Int × Int)) (c : Nat) :
    pairs.foldl (fun (c : Nat) (p : Int × Int) => c + (if p.2 = p.1 then 1 else 0)) c =
      c + pairs.countP (fun p => decide (p.1 = p.2)) := by
  induction pairs generalizing c with
  | nil => rfl
  | cons p t ih =>
    rw [List.foldl_cons, ih, List.countP_cons]
    by_cases h : p.1 = p.2
    · rw [if_pos h.symm]; simp [h]; omega
    · rw [if_neg (fun e => h e.symm)]; simp [h]

/-- C238: the reported accuracy is the percentage of the samples whose class is predicted. -/
theorem c238_accuracy (pairs : List (Int × Int)) :
    accuracy pairs * pairs.length = (pairs.countP fun p => decide (p.1 = p.2)) * 100 := by
  unfold accuracy
  rw [correct_eq, Nat.zero_add]
  rcases pairs.eq_nil_or_concat with rfl | ⟨_, _, rfl⟩
  · simp
  · rename_i l a
    have : ((l ++ [a]).length : ℚ) ≠ 0 := by simp; positivity
    dsimp only
    field_simp

example : accuracy [(1, 1), (2, 2), (2, 1), (3, 3)] = 75 := by decide +kernel

theorem square_eq {K : Type} [Field K] (pairs : List (K × K)) (s : K) :
    pairs.foldl (fun s p => s + (p.2 - p.1) * (p.2 - p.1)) s = s + (pairs.map fun p => (p.2 - p.1) ^ 2).sum := by
  induction pairs generalizing s with
  | nil => simp
  | cons p t ih => rw [List.foldl_cons, ih, List.map_cons, List.sum_cons]; ring

/-- C238: the square of the reported error is the mean squared difference between predictions and responses. -/
theorem c238_rmse (pairs : List (ℚ × ℚ)) (h : pairs ≠ []) :
    meanSquare pairs * pairs.length = (pairs.map fun p => (p.2 - p.1) ^ 2).sum ∧
      (meanSquare pairs = 0 ↔ ∀ p ∈ pairs, p.2 = p.1) := by
  have hn : (pairs.length : ℚ) ≠ 0 := by
    have := List.length_pos_iff.2 h
    positivity
  have e : meanSquare pairs = (pairs.map fun p => (p.2 - p.1) ^ 2).sum / pairs.length := by
    unfold meanSquare
    rw [square_eq, zero_add]
  rw [e]
  refine ⟨by field_simp, ?_⟩
  rw [div_eq_zero_iff, or_iff_left hn]
  have key : ∀ l : List (ℚ × ℚ), (l.map fun p => (p.2 - p.1) ^ 2).sum = 0 ↔ ∀ p ∈ l, p.2 = p.1 := by
    intro l
    induction l with
    | nil => simp
    | cons a t ih =>
      rw [List.map_cons, List.sum_cons]
      have h1 : 0 ≤ (t.map fun p => (p.2 - p.1) ^ 2).sum := by
        apply List.sum_nonneg
        intro x hx
        obtain ⟨y, _, rfl⟩ := List.mem_map.1 hx
        positivity
      have h2 : 0 ≤ (a.2 - a.1) ^ 2 := sq_nonneg _
      constructor
      · intro hs p hp
        have h3 : (a.2 - a.1) ^ 2 = 0 := by linarith
        rcases List.mem_cons.1 hp with rfl | hp
        · exact sub_eq_zero.1 (pow_eq_zero_iff (two_ne_zero) |>.1 h3)
        · exact ih.1 (by linarith) p hp
      · intro hs
        rw [ih.2 (fun p hp => hs p (List.mem_cons_of_mem _ hp)), hs a List.mem_cons_self]
        simp
  exact key pairs

/-- C238: the reported line minimises the sum of squared differences to the predictions over all lines, and the reported
R² lies between zero and one and is one exactly if all predictions are on the line. -/
theorem c238_line (pairs : List (ℚ × ℚ)) (h2 : 2 ≤ pairs.length) (hx : moment 2 (pairs.map Prod.fst) ≠ 0)
    (hy : moment 2 (pairs.map Prod.snd) ≠ 0) (a b : ℚ) :
    (pairs.map fun p => (p.2 - ((line pairs).1.2 + (line pairs).1.1 * p.1)) ^ 2).sum ≤
        (pairs.map fun p => (p.2 - (a + b * p.1)) ^ 2).sum ∧
      0 ≤ (line pairs).2 ∧ (line pairs).2 ≤ 1 ∧
      ((line pairs).2 = 1 ↔ (pairs.map fun p => (p.2 - ((line pairs).1.2 + (line pairs).1.1 * p.1)) ^ 2).sum = 0) := by
  have l := c51_least_squares pairs h2 hx a b
  have r := c51_rsquared pairs h2 hx hy
  unfold line
  dsimp only at l r ⊢
  refine ⟨by simpa [sse] using l, r.2.1, r.2.2, ?_⟩
  rw [r.1]
  have hs : ∀ u v : ℚ, sse pairs u v = (pairs.map fun p => (p.2 - (u + v * p.1)) ^ 2).sum := fun u v => rfl
  rw [← hs]
  constructor
  · intro h
    rw [sub_eq_self, div_eq_zero_iff] at h
    rcases h with h | h
    · exact h
    · exact absurd h hy
  · intro h
    rw [h]; simp

example : 2 ≤ ([(1, 1), (2, 3), (4, 4)] : List (ℚ × ℚ)).length ∧
    moment 2 (([(1, 1), (2, 3), (4, 4)] : List (ℚ × ℚ)).map Prod.fst) ≠ 0 ∧
    moment 2 (([(1, 1), (2, 3), (4, 4)] : List (ℚ × ℚ)).map Prod.snd) ≠ 0 := by
  norm_num [moment, mean]

end Verif.Train

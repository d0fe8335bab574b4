import Verif.Mix.Props

/-!
# C156, C157: response and class likelihoods of synthetic mixtures
-/

namespace Verif.Mix

open Verif.Str (Out)
open Verif.Float Verif.Mix.Spec

/-! ## C156 -/

theorem mixture_ok {fl : ℚ → ℚ} {target : ℚ} {drawn us : List ℚ} {m : Mixture} (h : mixture fl target drawn us = .ok m) :
    m.classIds = target :: drawn ∧ fractions fl us = .ok m.fractions := by
  unfold mixture at h
  cases hf : fractions fl us with
  | ok f =>
    rw [hf] at h
    have h : Out.ok (⟨target :: drawn, f⟩ : Mixture) = .ok m := h
    injection h with h
    subst h
    exact ⟨rfl, rfl⟩
  | exit => rw [hf] at h; cases h
  | ub => rw [hf] at h; cases h

theorem fractions_cons {fl : ℚ → ℚ} {us l : List ℚ} (h : fractions fl us = .ok l) : ∃ a t, l = a :: t := by
  unfold fractions at h
  simp only at h
  split at h
  · injection h with h
    cases hd : drawFractions fl us with
    | nil => rw [hd] at h; exact ⟨_, _, h.symm⟩
    | cons a b => rw [hd] at h; exact ⟨_, _, h.symm⟩
  · cases h

theorem share_cons (target a : ℚ) (ids fs : List ℚ) : share target (target :: ids) (a :: fs) = a + share target ids fs := by
  unfold share
  simp

theorem share_zero (target : ℚ) (ids fs : List ℚ) (h : ∀ c ∈ ids, c ≠ target) : share target ids fs = 0 := by
  unfold share
  have : (ids.zip fs).filter (fun p => p.1 = target) = [] := by
    rw [List.filter_eq_nil_iff]
    intro p hp
    simpa using h p.1 (List.of_mem_zip hp).1
  rw [this]
  rfl

/-- C156: without WITHIN_CLASS_MIXING, whatever classes and numbers are drawn, the response of a mixture is the share of the target class in
the mixture. Missing: WITHIN_CLASS_MIXING (the default), see `c156_within_violated`. -/
theorem c156_response_partial (fl : ℚ → ℚ) (target : ℚ) (classes drawn us : List ℚ) (m : Mixture)
    (hd : ∀ c ∈ drawn, c ∈ drawable false target classes) (h : mixture fl target drawn us = .ok m) :
    label m = share target m.classIds m.fractions := by
  obtain ⟨h1, h2⟩ := mixture_ok h
  obtain ⟨a, t, e⟩ := fractions_cons h2
  rw [h1, e, share_cons, share_zero]
  · unfold label; rw [e]; simp
  · intro c hc
    have := hd c hc
    unfold drawable at this
    simp only [Bool.false_eq_true, if_false, List.mem_filter, decide_eq_true_eq] at this
    exact this.2

theorem share_pos (target : ℚ) (ids fs : List ℚ) (i : Nat) (hi : ids[i]? = some target) (f : ℚ) (hf : fs[i]? = some f) (hp : 0 < f)
    (h0 : ∀ x ∈ fs, 0 ≤ x) : 0 < share target ids fs := by
  unfold share
  have hm : f ∈ ((ids.zip fs).filter fun p => p.1 = target).map (·.2) := by
    refine List.mem_map.2 ⟨(target, f), List.mem_filter.2 ⟨?_, by simp⟩, rfl⟩
    rw [List.mem_iff_getElem?]
    exact ⟨i, by rw [List.getElem?_zip_eq_some]; exact ⟨hi, hf⟩⟩
  have hall : ∀ x ∈ ((ids.zip fs).filter fun p => p.1 = target).map (·.2), 0 ≤ x := by
    intro x hx
    obtain ⟨p, hp, rfl⟩ := List.mem_map.1 hx
    exact h0 _ (List.of_mem_zip (List.mem_filter.1 hp).1).2
  exact lt_of_lt_of_le hp (List.single_le_sum hall f hm)

/-- C156, violated: with WITHIN_CLASS_MIXING, as soon as the target class is drawn again (with a fraction above 0), the response is smaller
than the share of the target class: mixtures of samples of the target class only are labelled as mixed. -/
theorem c156_within_violated {fl : ℚ → ℚ} (hfl : ∀ x, Nearest 53 x (fl x)) (target : ℚ) (drawn us : List ℚ)
    (hu : ∀ u ∈ us, Rep 53 u ∧ 0 ≤ u ∧ u < 1) (htie : fl (1 - 1 / 2 ^ 54) = 1) (m : Mixture)
    (h : mixture fl target drawn us = .ok m) (i : Nat) (hi : drawn[i]? = some target) (f : ℚ) (hf : m.fractions[i + 1]? = some f) (hp : 0 < f) :
    label m < share target m.classIds m.fractions := by
  obtain ⟨h1, h2⟩ := mixture_ok h
  obtain ⟨l, e1, -, e3, -⟩ := c155_fractions hfl htie us hu
  rw [h2] at e1
  injection e1 with e1
  obtain ⟨a, t, e⟩ := fractions_cons h2
  rw [e, List.getElem?_cons_succ] at hf
  rw [h1, e, share_cons]
  have := share_pos target drawn t i hi f hf hp fun x hx => (e3 x (by rw [← e1, e]; exact List.mem_cons_of_mem _ hx)).1
  unfold label
  rw [e]
  simpa using this

/-- C156: an original sample has the response 1 if it is of the target class and 0 otherwise: the share of the target class in a mixture of
this sample alone. -/
theorem c156_original (target c : ℚ) : labelOriginal target c = share target [c] [1] := by
  unfold labelOriginal share
  by_cases h : c = target <;> simp [h]

theorem write_spec (n : Nat) (ms : List Mixture) : ∀ i, i ≤ n → n < i + ms.length → writeMixtures n i ms = (ms.take (n + 1 - i)).map label := by
  induction ms with
  | nil => intro i h1 h2; simp at h2; omega
  | cons m t ih =>
    intro i h1 h2
    unfold writeMixtures
    by_cases h : i = n
    · subst h
      simp
    · rw [if_neg h, ih (i + 1) (by omega) (by simp at h2; omega), show n + 1 - i = (n + 1 - (i + 1)) + 1 by omega, List.take_succ_cons,
        List.map_cons]

/-- C156: the response file has a line for each of the first SYNTHETIC_MIXTURES mixtures, followed by a line for each original sample, if
requested. -/
theorem c156_lines (n : Nat) (hn : 1 ≤ n) (stream : List Mixture) (hs : n ≤ stream.length) (original : Bool) (target : ℚ) (response : List ℚ) :
    (responses n stream original target response).length = n + (if original then response.length else 0) ∧
      ∀ i < n, (responses n stream original target response)[i]? = stream[i]?.map label := by
  unfold responses
  rw [write_spec n stream 1 hn (by omega), show n + 1 - 1 = n by omega]
  constructor
  · cases original <;> simp [hs]
  · intro i hi
    rw [List.getElem?_append_left (by simp; omega), List.getElem?_map, List.getElem?_take_of_lt hi]

/-! ## C157 -/

theorem mem_classesOf {response : List ℚ} {c : ℚ} : c ∈ classesOf response ↔ c ∈ response := by
  unfold classesOf
  rw [List.mem_insertionSort, List.mem_dedup]

theorem nodup_classesOf (response : List ℚ) : (classesOf response).Nodup := by
  unfold classesOf
  exact (List.perm_insertionSort _ _).nodup_iff.2 (List.nodup_dedup _)

/-- C157: the classes of a response file are its values, each once, in ascending order. -/
theorem c157_classes (response : List ℚ) :
    (classesOf response).Pairwise (· < ·) ∧ ∀ c, c ∈ classesOf response ↔ c ∈ response := by
  refine ⟨?_, fun c => mem_classesOf⟩
  have hs : (classesOf response).Pairwise (· ≤ ·) := List.pairwise_insertionSort _ _
  have hn := nodup_classesOf response
  exact hs.imp₂ (fun a b h1 h2 => lt_of_le_of_ne h1 h2) hn

theorem zip_map_div (ids : List ℚ) (g : ℚ → ℚ) (s : ℚ) (x : ℚ × ℚ) (h : x ∈ ids.zip ((ids.map g).map fun v => v / s)) :
    x.1 ∈ ids ∧ x.2 = g x.1 / s := by
  rw [List.map_map] at h
  have : ids.zip (ids.map ((fun v => v / s) ∘ g)) = ids.map fun c => (c, g c / s) := by
    clear h
    induction ids with
    | nil => rfl
    | cons a t ih => simpa using ih
  rw [this] at h
  obtain ⟨c, hc, rfl⟩ := List.mem_map.1 h
  exact ⟨hc, rfl⟩

theorem sum_map_div (ids : List ℚ) (g : ℚ → ℚ) (k : ℚ) : (ids.map fun c => g c / k).sum = (ids.map g).sum / k := by
  induction ids with
  | nil => simp
  | cons a t ih => simp only [List.map_cons, List.sum_cons, ih]; ring

/-- The probabilities are those of the dictionary, scaled to the classes that can be drawn. -/
theorem classP_spec {within : Bool} {target : ℚ} {response classes : List ℚ} {lik : Likelihood} {P : List (ℚ × ℚ)}
    (h : classP within target response classes lik = some P) :
    P.map (·.1) = drawable within target classes ∧
      ∀ x ∈ P, x.1 ∈ drawable within target classes ∧
        x.2 = (get (likelihood response classes lik) x.1).getD 0 /
          ((drawable within target classes).map fun c => (get (likelihood response classes lik) c).getD 0).sum := by
  unfold classP at h
  simp only at h
  split at h
  · cases h
  split at h
  · cases h
  rename_i hk
  generalize likelihood response classes lik = d at *
  generalize hp : (drawable within target classes).map (fun c => if within = true then (get d c).getD 0 else (get d c).getD 0 / (1 - (get d target).getD 0)) = p at h
  by_cases hs : drawable within target classes ≠ [] ∧ p.sum = 0
  · rw [if_pos hs] at h; cases h
  rw [if_neg hs] at h
  injection h with h
  subst hp
  subst h
  refine ⟨by rw [List.map_fst_zip]; simp, ?_⟩
  intro x hx
  obtain ⟨h1, h2⟩ := zip_map_div _ _ _ x hx
  refine ⟨h1, ?_⟩
  rw [h2]
  cases within with
  | true => simp
  | false =>
    simp only [Bool.false_eq_true, if_false]
    rw [sum_map_div]
    have hne : (1 - (get d target).getD 0) ≠ 0 := by
      intro h0
      have hid : classes.any (fun c => decide (c ≠ target)) = true := by
        rw [List.any_eq_true]
        have : x.1 ∈ classes.filter (fun c => decide (c ≠ target)) := by simpa [drawable] using h1
        exact ⟨x.1, (List.mem_filter.1 this).1, (List.mem_filter.1 this).2⟩
      apply hk
      rw [hid]
      have : (get d target).getD 0 = 1 := by linarith
      simp [this]
    rw [div_div_div_cancel_right₀ hne]

theorem get_map (classes : List ℚ) (f : ℚ → ℚ) {c : ℚ} (hc : c ∈ classes) : get (classes.map fun c => (c, f c)) c = some (f c) := by
  unfold get
  cases hf : (classes.map fun c => (c, f c)).reverse.find? (fun p => p.1 = c) with
  | none =>
    rw [List.find?_eq_none] at hf
    exact absurd (by simp) (hf (c, f c) (by rw [List.mem_reverse]; exact List.mem_map.2 ⟨c, hc, rfl⟩))
  | some x =>
    have h1 := List.find?_some hf
    have h2 := List.mem_of_find?_eq_some hf
    rw [List.mem_reverse] at h2
    obtain ⟨y, -, rfl⟩ := List.mem_map.1 h2
    have : y = c := by simpa using h1
    simp [this]

theorem count_cons (response : List ℚ) {a : ℚ} {t : List ℚ} (h : a ∉ t) :
    (response.filter fun r => r ∈ a :: t).length = response.count a + (response.filter fun r => r ∈ t).length := by
  induction response with
  | nil => rfl
  | cons r rs ih =>
    rw [List.count_cons]
    by_cases h1 : r = a
    · subst h1
      rw [List.filter_cons_of_pos (by simp), List.filter_cons_of_neg (by simpa using h), List.length_cons, ih]
      simp only [BEq.rfl, if_true]
      omega
    · have hb : (r == a) = false := by simpa using h1
      rw [hb]
      simp only [Bool.false_eq_true, if_false]
      by_cases h2 : r ∈ t
      · rw [List.filter_cons_of_pos (by simp [h2]), List.filter_cons_of_pos (by simpa using h2), List.length_cons, List.length_cons, ih]
        omega
      · rw [List.filter_cons_of_neg (by simp [h1, h2]), List.filter_cons_of_neg (by simpa using h2), ih]
        omega

theorem sum_count (ids response : List ℚ) (hn : ids.Nodup) :
    (ids.map fun c => response.count c).sum = (response.filter fun r => r ∈ ids).length := by
  induction ids with
  | nil => simp
  | cons a t ih =>
    rw [List.nodup_cons] at hn
    rw [List.map_cons, List.sum_cons, ih hn.2, count_cons _ hn.1]

theorem nodup_drawable (within : Bool) (target : ℚ) {classes : List ℚ} (h : classes.Nodup) : (drawable within target classes).Nodup := by
  unfold drawable
  cases within
  · exact h.filter _
  · exact h

theorem drawable_sub {within : Bool} {target c : ℚ} {classes : List ℚ} (h : c ∈ drawable within target classes) : c ∈ classes := by
  unfold drawable at h
  cases within
  · simp only [Bool.false_eq_true, if_false, List.mem_filter] at h
    exact h.1
  · simpa using h

theorem proportional_all (response : List ℚ) :
    likelihood response (classesOf response) .proportional = (classesOf response).map fun c => (c, (response.count c : ℚ) / response.length) := by
  unfold likelihood counts
  simp only
  generalize classesOf response = l
  induction l with
  | nil => rfl
  | cons a t ih => simpa using ih

/-- C157: with USE_CLASSES = ALL and CLASS_LIKELIHOOD = PROPORTIONAL, every class that can be drawn has a probability proportional to its
number of samples. Missing: a list of classes, see `c157_list_violated`. -/
theorem c157_proportional_partial (within : Bool) (target : ℚ) (response : List ℚ) (P : List (ℚ × ℚ))
    (h : classP within target response (classesOf response) .proportional = some P) :
    P.map (·.1) = drawable within target (classesOf response) ∧
      ∀ x ∈ P, Proportional response (drawable within target (classesOf response)) x.1 x.2 := by
  obtain ⟨h1, h2⟩ := classP_spec h
  refine ⟨h1, ?_⟩
  intro x hx
  obtain ⟨h3, h4⟩ := h2 x hx
  rw [proportional_all] at h4
  have hN : (response.length : ℚ) ≠ 0 := by
    have : x.1 ∈ response := mem_classesOf.1 (drawable_sub h3)
    have := List.length_pos_of_mem this
    positivity
  have e : ∀ c ∈ drawable within target (classesOf response),
      (get ((classesOf response).map fun c => (c, (response.count c : ℚ) / response.length)) c).getD 0 = (response.count c : ℚ) / response.length := by
    intro c hc
    rw [get_map _ _ (drawable_sub hc)]
    rfl
  rw [List.map_congr_left e, e _ h3, sum_map_div, div_div_div_cancel_right₀ hN] at h4
  unfold Proportional
  rw [h4]
  congr 1
  rw [← sum_count _ _ (nodup_drawable within target (nodup_classesOf response))]
  generalize drawable within target (classesOf response) = l
  induction l with
  | nil => simp
  | cons a t ih => simp only [List.map_cons, List.sum_cons, ih]; push_cast; ring

/-- C157: with CLASS_LIKELIHOOD = EQUALIZED, every class that can be drawn has the same probability. -/
theorem c157_equalized (within : Bool) (target : ℚ) (response classes : List ℚ) (P : List (ℚ × ℚ))
    (h : classP within target response classes .equalized = some P) :
    P.map (·.1) = drawable within target classes ∧ ∀ x ∈ P, x.2 = 1 / (drawable within target classes).length := by
  obtain ⟨h1, h2⟩ := classP_spec h
  refine ⟨h1, ?_⟩
  intro x hx
  obtain ⟨h3, h4⟩ := h2 x hx
  have hN : (1 / (classes.length : ℚ)) ≠ 0 := by
    have := List.length_pos_of_mem (drawable_sub h3)
    positivity
  have e : ∀ c ∈ drawable within target classes, (get (likelihood response classes .equalized) c).getD 0 = 1 / (classes.length : ℚ) := by
    intro c hc
    unfold likelihood
    rw [get_map classes (fun _ => 1 / (classes.length : ℚ)) (drawable_sub hc)]
    rfl
  rw [List.map_congr_left e, e _ h3] at h4
  rw [h4]
  generalize (1 / (classes.length : ℚ)) = k at *
  rw [List.map_const', List.sum_replicate, nsmul_eq_mul]
  field_simp

theorem get_zip {classes v : List ℚ} (hn : classes.Nodup) (hl : classes.length ≤ v.length) {i : Nat} {c x : ℚ} (hc : classes[i]? = some c)
    (hx : v[i]? = some x) : get (classes.zip v) c = some x := by
  unfold get
  have hm : (c, x) ∈ classes.zip v := by
    rw [List.mem_iff_getElem?]
    exact ⟨i, by rw [List.getElem?_zip_eq_some]; exact ⟨hc, hx⟩⟩
  cases hf : (classes.zip v).reverse.find? (fun p => p.1 = c) with
  | none =>
    rw [List.find?_eq_none] at hf
    exact absurd (by simp) (hf (c, x) (by rw [List.mem_reverse]; exact hm))
  | some y =>
    have h1 := List.find?_some hf
    have h2 := List.mem_of_find?_eq_some hf
    rw [List.mem_reverse, List.mem_iff_getElem?] at h2
    obtain ⟨j, hj⟩ := h2
    obtain ⟨a, b⟩ := List.getElem?_zip_eq_some.1 hj
    have h1 : y.1 = c := by simpa using h1
    rw [h1] at a
    have hij : i = j := by
      obtain ⟨l1, e1⟩ := List.getElem?_eq_some_iff.1 hc
      obtain ⟨l2, e2⟩ := List.getElem?_eq_some_iff.1 a
      exact (List.Nodup.getElem_inj_iff hn).1 (e1.trans e2.symm)
    subst hij
    rw [hx] at b
    injection b with b
    simp [b]

theorem get_map_zip {classes v : List ℚ} (hn : classes.Nodup) (hl : classes.length ≤ v.length) :
    (classes.map fun c => (get (classes.zip v) c).getD 0) = v.take classes.length := by
  apply List.ext_getElem
  · simp [hl]
  · intro i h1 h2
    simp only [List.getElem_map, List.getElem_take]
    rw [List.length_map] at h1
    rw [get_zip hn hl (List.getElem?_eq_getElem h1) (List.getElem?_eq_getElem (by omega))]
    rfl

/-- C157: with a list of classes and custom likelihoods, every class that can be drawn has its own likelihood, relative to all that can be
drawn (with mixtures within the class, all of them). -/
theorem c157_custom (target : ℚ) (response classes l : List ℚ) (hn : classes.Nodup) (hl : l.length = classes.length) (P : List (ℚ × ℚ))
    (h : classP true target response classes (.custom l) = some P) (x : ℚ × ℚ) (hx : x ∈ P) :
    ∃ (i : Nat) (p : ℚ), classes[i]? = some x.1 ∧ l[i]? = some p ∧ x.2 = p / l.sum := by
  obtain ⟨h1, h2⟩ := classP_spec h
  obtain ⟨h3, h4⟩ := h2 x hx
  obtain ⟨i, hi⟩ := List.mem_iff_getElem?.1 (drawable_sub h3)
  have li := (List.getElem?_eq_some_iff.1 hi).1
  refine ⟨i, l[i], hi, List.getElem?_eq_getElem (by omega), ?_⟩
  have hd : drawable true target classes = classes := rfl
  rw [hd] at h4
  unfold likelihood at h4
  simp only at h4
  rw [get_map_zip hn (by omega), get_zip hn (by omega) hi (List.getElem?_eq_getElem (by omega : i < l.length)), ← hl, List.take_length] at h4
  exact h4

/-- C157, violated: with a list of classes, the likelihoods PROPORTIONAL are those of other classes: the class at position `i` of the list
has the probability of the class at position `i` of all classes of the response in ascending order, whatever its own number of samples is. -/
theorem c157_list_violated (target : ℚ) (response classes : List ℚ) (hn : classes.Nodup) (hl : classes.length ≤ (classesOf response).length)
    (P : List (ℚ × ℚ)) (h : classP true target response classes .proportional = some P) (x : ℚ × ℚ) (hx : x ∈ P) :
    ∃ (i : Nat) (c : ℚ), classes[i]? = some x.1 ∧ (classesOf response)[i]? = some c ∧
      x.2 = (response.count c : ℚ) / ((response.filter fun r => r ∈ (classesOf response).take classes.length).length : ℚ) := by
  obtain ⟨h1, h2⟩ := classP_spec h
  obtain ⟨h3, h4⟩ := h2 x hx
  obtain ⟨i, hi⟩ := List.mem_iff_getElem?.1 (drawable_sub h3)
  have li := (List.getElem?_eq_some_iff.1 hi).1
  refine ⟨i, (classesOf response)[i], hi, List.getElem?_eq_getElem (by omega), ?_⟩
  have hd : drawable true target classes = classes := rfl
  rw [hd] at h4
  unfold likelihood counts at h4
  simp only at h4
  have hN : (response.length : ℚ) ≠ 0 := by
    have : (classesOf response)[i] ∈ response := mem_classesOf.1 (List.getElem_mem _)
    have := List.length_pos_of_mem this
    positivity
  rw [List.map_map] at h4
  rw [get_map_zip hn (by simpa using hl), get_zip (i := i) (x := (response.count (classesOf response)[i] : ℚ) / response.length) hn (by simpa using hl) hi (by
    rw [List.getElem?_map, List.getElem?_eq_getElem (by omega)]; rfl), ← List.map_take] at h4
  rw [← sum_count _ _ ((nodup_classesOf response).sublist (List.take_sublist _ _))]
  rw [h4]
  simp only [Option.getD_some]
  have e : (List.map ((fun n : Nat => (n : ℚ) / response.length) ∘ fun c => response.count c) ((classesOf response).take classes.length)).sum =
      (((classesOf response).take classes.length).map fun c => (response.count c : ℚ)).sum / response.length :=
    sum_map_div _ _ _
  rw [e, div_div_div_cancel_right₀ hN]
  congr 1
  generalize (classesOf response).take classes.length = l
  induction l with
  | nil => simp
  | cons a t ih => simp only [List.map_cons, List.sum_cons, ih]; push_cast; ring

end Verif.Mix

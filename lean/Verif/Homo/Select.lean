import Verif.Homo.Model
import Verif.Homo.Spec
import Mathlib.Tactic.Linarith
import Mathlib.Tactic.NormNum

/-!
# Selection of clusters
-/

namespace Verif.Homo

open Verif.Homo.Spec

/-- Scanning for the largest weight. -/
theorem scan (w : Nat → ℝ) (P : Nat → Prop) (f : ℝ × Nat → Nat → ℝ × Nat)
    (hf : ∀ m s, (w s > m.1 ∧ P s ∧ f m s = (w s, s)) ∨ (¬ (w s > m.1 ∧ P s) ∧ f m s = m)) :
    ∀ (l : List Nat) (m : ℝ × Nat),
      (l.foldl f m = m ∨ ((l.foldl f m).2 ∈ l ∧ P (l.foldl f m).2 ∧ (l.foldl f m).1 = w (l.foldl f m).2)) ∧
      m.1 ≤ (l.foldl f m).1 ∧ ∀ s ∈ l, P s → w s ≤ (l.foldl f m).1 := by
  intro l
  induction l with
  | nil => intro m; simp
  | cons a l ih =>
    intro m
    rw [List.foldl_cons]
    obtain ⟨i1, i2, i3⟩ := ih (f m a)
    rcases hf m a with ⟨h1, h2, h3⟩ | ⟨h1, h3⟩
    · refine ⟨Or.inr ?_, ?_, ?_⟩
      · rcases i1 with i1 | ⟨i1, j1, k1⟩
        · rw [i1, h3]
          exact ⟨by simp, h2, rfl⟩
        · exact ⟨List.mem_cons_of_mem _ i1, j1, k1⟩
      · have : (f m a).1 = w a := by rw [h3]
        linarith
      · intro s hs ps
        rcases List.mem_cons.1 hs with rfl | hs
        · have : (f m s).1 = w s := by rw [h3]
          linarith
        · exact i3 s hs ps
    · rw [h3] at i1 i2 i3 ⊢
      refine ⟨?_, i2, ?_⟩
      · rcases i1 with i1 | ⟨i1, j1, k1⟩
        · exact Or.inl i1
        · exact Or.inr ⟨List.mem_cons_of_mem _ i1, j1, k1⟩
      · intro s hs ps
        rcases List.mem_cons.1 hs with rfl | hs
        · by_contra hc
          exact h1 ⟨by linarith, ps⟩
        · exact i3 s hs ps

theorem firstMax_spec (w : Nat → ℝ) (hw : ∀ s, 0 ≤ w s) :
    (firstMax w).2 ≤ 50 ∧ (firstMax w).2 ≠ 9 ∧ (firstMax w).1 = w (firstMax w).2 ∧
      ∀ s, s ≤ 50 → s ≠ 9 → w s ≤ (firstMax w).1 := by
  obtain ⟨h1, h2, h3⟩ := scan w (fun s => s ≠ 9)
    (fun m s => if w s > m.1 ∧ s ≠ nSim - 1 then (w s, s) else m)
    (fun m s => by
      by_cases h : w s > m.1 ∧ s ≠ nSim - 1
      · exact Or.inl ⟨h.1, h.2, if_pos h⟩
      · exact Or.inr ⟨h, if_neg h⟩) (List.range nCls) (-1, 0)
  have h3' : ∀ s, s ≤ 50 → s ≠ 9 → w s ≤ (firstMax w).1 := fun s hs hn =>
    h3 s (List.mem_range.2 (by show s < 51; omega)) hn
  rcases h1 with h1 | ⟨i1, j1, k1⟩
  · have := h3' 0 (by omega) (by omega)
    have e : firstMax w = (-1, 0) := h1
    rw [e] at this
    have := hw 0
    exfalso
    simp only at *
    linarith
  · exact ⟨by have : _ < 51 := List.mem_range.1 i1; exact Nat.le_of_lt_succ this, j1, k1, h3'⟩

theorem nextMax_spec (w : Nat → ℝ) (c : Nat) (hw : ∀ s, 0 ≤ w s) :
    (nextMax w c).2 < 50 ∧ (nextMax w c).1 = w (nextMax w c).2 ∧ ∀ s, s < 50 → w s ≤ (nextMax w c).1 := by
  obtain ⟨h1, h2, h3⟩ := scan w (fun _ => True)
    (fun m s => if w s > m.1 then (w s, s) else m)
    (fun m s => by
      by_cases h : w s > m.1
      · exact Or.inl ⟨h, trivial, if_pos h⟩
      · exact Or.inr ⟨fun k => h k.1, if_neg h⟩) (List.range (nCls - 1)) (-1, c)
  have h3' : ∀ s, s < 50 → w s ≤ (nextMax w c).1 := fun s hs =>
    h3 s (List.mem_range.2 (by show s < 50; omega)) trivial
  rcases h1 with h1 | ⟨i1, -, k1⟩
  · have := h3' 0 (by omega)
    have e : nextMax w c = (-1, c) := h1
    rw [e] at this
    have := hw 0
    exfalso
    simp only at *
    linarith
  · exact ⟨by have : _ < 50 := List.mem_range.1 i1; exact this, k1, h3'⟩

theorem med_pos : 0 < medWeight := by unfold medWeight poor; norm_num
theorem min_pos : 0 < minWeight := by unfold minWeight poor; norm_num
theorem med_lt_min : medWeight < minWeight := by unfold medWeight minWeight poor; norm_num

/-- Eligible cluster, in terms of weights. -/
def Elig (w : Nat → ℝ) (x : ℝ) : Prop := x > minWeight ∨ (x > medWeight ∧ x > w 50)

theorem elig_med {w : Nat → ℝ} {x : ℝ} (h : Elig w x) : medWeight < x := by
  rcases h with h | h
  · exact lt_trans med_lt_min h
  · exact h.1

theorem elig_mono {w : Nat → ℝ} {x y : ℝ} (h : Elig w x) (hxy : x ≤ y) : Elig w y := by
  rcases h with h | h
  · exact Or.inl (lt_of_lt_of_le h hxy)
  · exact Or.inr ⟨lt_of_lt_of_le h.1 hxy, lt_of_lt_of_le h.2 hxy⟩

/-- The weights without a cluster. -/
noncomputable def without (w : Nat → ℝ) (c : Nat) : Nat → ℝ := fun s => if s = c then 0 else w s

theorem select_pos {k : Nat} {w : Nat → ℝ} {m : ℝ × Nat} (h : Elig w m.1) :
    select (k + 1) w m = (m.2, m.1) :: select k (without w m.2) (nextMax (without w m.2) m.2) := if_pos h

theorem select_neg {k : Nat} {w : Nat → ℝ} {m : ℝ × Nat} (h : ¬ Elig w m.1) :
    select (k + 1) w m = [(50, w 50)] := if_neg h

theorem without_nonneg {w : Nat → ℝ} (hw : ∀ s, 0 ≤ w s) (c s : Nat) : 0 ≤ without w c s := by
  unfold without
  split
  · exact le_refl _
  · exact hw s

theorem without_other {w : Nat → ℝ} {c s : Nat} (h : s ≠ c) : without w c s = w s := if_neg h

theorem without_self {w : Nat → ℝ} {c : Nat} : without w c c = 0 := if_pos rfl

/-- In any case: the clusters other than the global one are used at most once, with their weights,
which are above the threshold. -/
theorem select_used : ∀ (k : Nat) (w : Nat → ℝ) (m : ℝ × Nat), (∀ s, 0 ≤ w s) → m.2 ≤ 50 → m.1 = w m.2 →
    (∀ e ∈ select k w m, e.1 ≤ 50 ∧ 0 ≤ e.2 ∧ (e.1 < 50 → e.2 = w e.1 ∧ medWeight < e.2)) ∧
    (∀ s, s < 50 → ((select k w m).map Prod.fst).count s ≤ 1) := by
  intro k
  induction k with
  | zero => intro w m _ _ _; exact ⟨fun e he => by simp [select] at he, fun s _ => by simp [select]⟩
  | succ k ih =>
    intro w m hw hm he
    by_cases h : Elig w m.1
    · rw [select_pos h]
      obtain ⟨n1, n2, n3⟩ := nextMax_spec (without w m.2) m.2 (without_nonneg hw m.2)
      obtain ⟨i1, i2⟩ := ih (without w m.2) _ (without_nonneg hw m.2) (le_of_lt n1) n2
      have notin : ∀ e ∈ select k (without w m.2) (nextMax (without w m.2) m.2), e.1 < 50 → e.1 ≠ m.2 := by
        intro e he' hl hc
        obtain ⟨-, -, j⟩ := i1 e he'
        obtain ⟨j1, j2⟩ := j hl
        rw [hc, without_self] at j1
        linarith [med_pos]
      refine ⟨?_, ?_⟩
      · intro e he'
        rcases List.mem_cons.1 he' with rfl | he'
        · exact ⟨hm, by simp only; linarith [elig_med h, med_pos], fun _ => ⟨he, elig_med h⟩⟩
        · obtain ⟨j0, j1, j2⟩ := i1 e he'
          refine ⟨j0, j1, fun hl => ?_⟩
          obtain ⟨j3, j4⟩ := j2 hl
          exact ⟨by rw [j3, without_other (notin e he' hl)], j4⟩
      · intro s hs
        rw [List.map_cons, List.count_cons]
        by_cases e : m.2 = s
        · have : ((select k (without w m.2) (nextMax (without w m.2) m.2)).map Prod.fst).count s = 0 := by
            apply List.count_eq_zero.2
            intro hmem
            obtain ⟨e', he', hes⟩ := List.mem_map.1 hmem
            exact notin e' he' (by rw [hes]; exact hs) (by rw [hes, e])
          rw [this]
          split <;> omega
        · have := i2 s hs
          simp only [beq_iff_eq, e, if_false]
          omega
    · rw [select_neg h]
      refine ⟨?_, ?_⟩
      · intro e he'
        rw [List.mem_singleton] at he'
        subst he'
        exact ⟨le_refl _, hw 50, fun hc => absurd hc (by simp)⟩
      · intro s hs
        rw [List.map_cons, List.count_cons, List.map_nil, List.count_nil]
        split <;> omega

/-- From a largest weight that is right, the nearest clusters are selected. -/
theorem select_nearest : ∀ (k : Nat) (w : Nat → ℝ) (m : ℝ × Nat), (∀ s, 0 ≤ w s) → m.2 < 50 → m.1 = w m.2 →
    (∀ s, s < 50 → w s ≤ m.1) →
    (∀ e ∈ select k w m, e.2 = w e.1 ∧ (e.1 = 50 ∨ (e.1 < 50 ∧ Elig w (w e.1)))) ∧
    ((select k w m).map Prod.fst).Nodup ∧ (select k w m).length ≤ k ∧
    (∀ s, s < 50 → Elig w (w s) → s ∉ (select k w m).map Prod.fst →
      50 ∉ (select k w m).map Prod.fst ∧ (select k w m).length = k ∧ ∀ e ∈ select k w m, w s ≤ e.2) ∧
    ((select k w m).length < k → 50 ∈ (select k w m).map Prod.fst) := by
  intro k
  induction k with
  | zero => intro w m _ _ _ _; simp [select]
  | succ k ih =>
    intro w m hw hm he hmax
    by_cases h : Elig w m.1
    · rw [select_pos h]
      obtain ⟨n1, n2, n3⟩ := nextMax_spec (without w m.2) m.2 (without_nonneg hw m.2)
      obtain ⟨i1, i2, i3, i4, i5⟩ := ih (without w m.2) _ (without_nonneg hw m.2) n1 n2 n3
      have w50 : without w m.2 50 = w 50 := without_other (by omega)
      have el : ∀ x, Elig (without w m.2) x ↔ Elig w x := fun x => by unfold Elig; rw [w50]
      have notin : ∀ e ∈ select k (without w m.2) (nextMax (without w m.2) m.2), e.1 ≠ m.2 := by
        intro e he' hc
        obtain ⟨j1, j2⟩ := i1 e he'
        rcases j2 with j2 | ⟨j2, j3⟩
        · omega
        · rw [hc, without_self] at j3
          linarith [elig_med j3, med_pos]
      refine ⟨?_, ?_, ?_, ?_, ?_⟩
      · intro e he'
        rcases List.mem_cons.1 he' with rfl | he'
        · exact ⟨he, Or.inr ⟨hm, by simp only; rw [← he]; exact h⟩⟩
        · obtain ⟨j1, j2⟩ := i1 e he'
          rw [without_other (notin e he')] at j1 j2
          refine ⟨j1, ?_⟩
          rcases j2 with j2 | ⟨j2, j3⟩
          · exact Or.inl j2
          · exact Or.inr ⟨j2, (el _).1 j3⟩
      · rw [List.map_cons, List.nodup_cons]
        refine ⟨?_, i2⟩
        intro hc
        obtain ⟨e, he', hes⟩ := List.mem_map.1 hc
        exact notin e he' hes
      · simp only [List.length_cons]; omega
      · intro s hs hel hn
        rw [List.map_cons, List.mem_cons, not_or] at hn
        have hsw : without w m.2 s = w s := without_other hn.1
        obtain ⟨j1, j2, j3⟩ := i4 s hs (by rw [hsw]; exact (el _).2 hel) hn.2
        refine ⟨?_, ?_, ?_⟩
        · rw [List.map_cons, List.mem_cons, not_or]
          exact ⟨by simp only; omega, j1⟩
        · simp only [List.length_cons, j2]
        · intro e he'
          rcases List.mem_cons.1 he' with rfl | he'
          · exact hmax s hs
          · rw [← hsw]; exact j3 e he'
      · intro hl
        simp only [List.length_cons] at hl
        rw [List.map_cons]
        exact List.mem_cons_of_mem _ (i5 (by omega))
    · rw [select_neg h]
      refine ⟨?_, by simp, by simp, ?_, by simp⟩
      · intro e he'
        rw [List.mem_singleton] at he'
        subst he'
        exact ⟨rfl, Or.inl rfl⟩
      · intro s hs hel _
        exact absurd (elig_mono hel (hmax s hs)) h

theorem weight_nonneg (a : ℝ) : 0 ≤ weight a := by
  unfold weight poor
  split
  · norm_num
  · rename_i h
    rw [sub_nonneg, div_le_one (by norm_num)]
    linarith

theorem weight_min {a : ℝ} : weight a > minWeight ↔ a < 0.0698132 := by
  unfold weight minWeight
  have p : (0 : ℝ) < poor := by unfold poor; norm_num
  split
  · rename_i h
    have h' : a > 0.2617995 := h
    constructor
    · intro k
      unfold poor at k
      norm_num at k
    · intro k; linarith
  · constructor
    · intro k
      have : a / poor < 0.0698132 / poor := by linarith
      exact (div_lt_div_iff_of_pos_right p).1 this
    · intro k
      have := (div_lt_div_iff_of_pos_right p).2 k
      linarith

theorem weight_med {a : ℝ} : weight a > medWeight ↔ a < 0.2094395 := by
  unfold weight medWeight
  have p : (0 : ℝ) < poor := by unfold poor; norm_num
  split
  · rename_i h
    have h' : a > 0.2617995 := h
    constructor
    · intro k
      unfold poor at k
      norm_num at k
    · intro k; linarith
  · constructor
    · intro k
      have : a / poor < 0.2094395 / poor := by linarith
      exact (div_lt_div_iff_of_pos_right p).1 this
    · intro k
      have := (div_lt_div_iff_of_pos_right p).2 k
      linarith

/-- Order of weights, above the threshold. -/
theorem weight_lt {a b : ℝ} (h : a < 0.2094395) : weight b < weight a ↔ a < b := by
  have p : (0 : ℝ) < poor := by unfold poor; norm_num
  have ha : weight a = 1 - a / poor := if_neg (by unfold poor; linarith)
  by_cases hb : b > poor
  · have hb' : b > 0.2617995 := hb
    have hm : weight a > medWeight := weight_med.2 h
    have e : weight b = 0.00001 := if_pos hb
    have : medWeight > 0.00001 := by unfold medWeight poor; norm_num
    exact ⟨fun _ => by linarith, fun _ => by linarith⟩
  · have e : weight b = 1 - b / poor := if_neg hb
    rw [e, ha]
    constructor
    · intro k
      have : a / poor < b / poor := by linarith
      exact (div_lt_div_iff_of_pos_right p).1 this
    · intro k
      have := (div_lt_div_iff_of_pos_right p).2 k
      linarith

theorem elig_similar (θ : Nat → ℝ) (s : Nat) :
    Elig (fun s => weight (θ s)) (weight (θ s)) ↔ Similar θ s := by
  unfold Elig Similar
  rw [weight_min, weight_med]
  constructor
  · rintro (h | ⟨h1, h2⟩)
    · exact Or.inl h
    · exact Or.inr ⟨h1, (weight_lt h1).1 h2⟩
  · rintro (h | ⟨h1, h2⟩)
    · exact Or.inl h
    · exact Or.inr ⟨h1, (weight_lt h1).2 h2⟩

theorem similar_med {θ : Nat → ℝ} {s : Nat} (h : Similar θ s) : θ s < 0.2094395 := by
  rcases h with h | h
  · linarith
  · exact h.1

/-- C196, partial: the similar clusters are used, each once, the nearest ten if there are more, with
weights that decrease with the angle; the global cluster joins unless ten others are used. Missing:
the case that cluster 9 is the nearest one, and the case that the global cluster is the nearest one
and less than 4 degrees away. -/
theorem c196_nearest_partial (θ : Nat → ℝ)
    (h9 : Similar θ 9 → ∃ t, t < 50 ∧ t ≠ 9 ∧ θ t ≤ θ 9)
    (hg : 0.0698132 ≤ θ 50 ∨ ∃ t, t < 50 ∧ θ t < θ 50) :
    let sel := selected fun s => weight (θ s)
    let used := sel.map Prod.fst
    used.Nodup ∧ used.length ≤ 10 ∧
    (∀ s ∈ used, s = 50 ∨ (s < 50 ∧ Similar θ s)) ∧
    (∀ s, s < 50 → Similar θ s → s ∉ used → 50 ∉ used ∧ used.length = 10 ∧ ∀ u ∈ used, θ u ≤ θ s) ∧
    (used.length < 10 → 50 ∈ used) ∧
    (∀ e ∈ sel, e.1 < 50 → e.2 = 1 - θ e.1 / 0.2617995) ∧
    (∀ e ∈ sel, e.1 = 50 → e.2 = if θ 50 > 0.2617995 then 0.00001 else 1 - θ 50 / 0.2617995) := by
  intro sel used
  have hw : ∀ s, 0 ≤ (fun s => weight (θ s)) s := fun s => weight_nonneg _
  obtain ⟨f1, f2, f3, f4⟩ := firstMax_spec (fun s => weight (θ s)) hw
  have hsel : sel = select 10 (fun s => weight (θ s)) (firstMax fun s => weight (θ s)) := rfl
  by_cases hE : Elig (fun s => weight (θ s)) (firstMax fun s => weight (θ s)).1
  · have hmed := elig_med hE
    have hlt : (firstMax fun s => weight (θ s)).2 < 50 := by
      by_contra hc
      have e : (firstMax fun s => weight (θ s)).2 = 50 := by omega
      rw [e] at f3
      rw [f3] at hE f4
      rcases hg with hg | ⟨t, ht, htl⟩
      · rcases hE with hE | hE
        · have := weight_min.1 hE
          linarith
        · exact lt_irrefl _ hE.2
      · have h50 : θ 50 < 0.2094395 := by
          rw [f3] at hmed
          exact weight_med.1 hmed
        by_cases ht9 : t = 9
        · subst ht9
          obtain ⟨t', p1, p2, p3⟩ := h9 (Or.inr ⟨by linarith, htl⟩)
          have := f4 t' (by omega) p2
          have := (weight_lt (a := θ t') (b := θ 50) (by linarith)).2 (by linarith)
          simp only at *
          linarith
        · have := f4 t (by omega) ht9
          have := (weight_lt (a := θ t) (b := θ 50) (by linarith)).2 (by linarith)
          simp only at *
          linarith
    have hmax : ∀ s, s < 50 → (fun s => weight (θ s)) s ≤ (firstMax fun s => weight (θ s)).1 := by
      intro s hs
      by_cases h : s = 9
      · subst h
        by_contra hc
        rw [not_le] at hc
        have hs9 : Similar θ 9 := (elig_similar θ 9).1 (elig_mono hE (le_of_lt hc))
        obtain ⟨t, p1, p2, p3⟩ := h9 hs9
        have k1 := f4 t (by omega) p2
        have k2 : ¬ weight (θ t) < weight (θ 9) := fun h => by
          have := (weight_lt (similar_med hs9)).1 h
          linarith
        simp only at *
        linarith
      · exact f4 s (by omega) h
    obtain ⟨g1, g2, g3, g4, g5⟩ := select_nearest 10 _ _ hw hlt f3 hmax
    rw [← hsel] at g1 g2 g3 g4 g5
    refine ⟨g2, by rw [List.length_map]; exact g3, ?_, ?_, ?_, ?_, ?_⟩
    · intro s hs
      obtain ⟨e, he, rfl⟩ := List.mem_map.1 hs
      rcases (g1 e he).2 with h | ⟨h, h'⟩
      · exact Or.inl h
      · exact Or.inr ⟨h, (elig_similar θ e.1).1 h'⟩
    · intro s hs hsim hn
      obtain ⟨k1, k2, k3⟩ := g4 s hs ((elig_similar θ s).2 hsim) hn
      refine ⟨k1, by rw [List.length_map]; exact k2, ?_⟩
      intro u hu
      obtain ⟨e, he, rfl⟩ := List.mem_map.1 hu
      have k := k3 e he
      rw [(g1 e he).1] at k
      by_contra hc
      rw [not_le] at hc
      have := (weight_lt (similar_med hsim)).2 hc
      linarith
    · intro hl
      exact g5 (by rw [List.length_map] at hl; exact hl)
    · intro e he hl
      rw [(g1 e he).1]
      rcases (g1 e he).2 with h | ⟨-, h'⟩
      · omega
      · have := similar_med ((elig_similar θ e.1).1 h')
        exact if_neg (by unfold poor; linarith)
    · intro e he h50
      rw [(g1 e he).1, h50]
      rfl
  · have e0 : sel = [(50, weight (θ 50))] := by rw [hsel]; exact select_neg hE
    have none : ∀ s, s < 50 → ¬ Similar θ s := by
      intro s hs hsim
      by_cases h : s = 9
      · subst h
        obtain ⟨t, p1, p2, p3⟩ := h9 hsim
        have k1 := f4 t (by omega) p2
        have k2 : ¬ weight (θ t) < weight (θ 9) := fun h => by
          have := (weight_lt (similar_med hsim)).1 h
          linarith
        exact hE (elig_mono ((elig_similar θ 9).2 hsim) (by simp only at *; linarith))
      · exact hE (elig_mono ((elig_similar θ s).2 hsim) (f4 s (by omega) h))
    have e1 : used = [50] := by show sel.map _ = _; rw [e0]; rfl
    rw [e1, e0]
    refine ⟨by simp, by simp, by simp, fun s hs hsim => absurd hsim (none s hs), by simp, ?_, ?_⟩
    · intro e he hl
      rw [List.mem_singleton] at he
      subst he
      simp at hl
    · intro e he _
      rw [List.mem_singleton] at he
      subst he
      rfl

/-- C196: whatever the angles are, a cluster other than the global one is used at most once, and only
if it is closer than 12 degrees. -/
theorem c196_close (θ : Nat → ℝ) :
    let used := (selected fun s => weight (θ s)).map Prod.fst
    (∀ s ∈ used, s = 50 ∨ (s < 50 ∧ θ s < 0.2094395)) ∧ ∀ s, s < 50 → used.count s ≤ 1 := by
  intro used
  have hw : ∀ s, 0 ≤ (fun s => weight (θ s)) s := fun s => weight_nonneg _
  obtain ⟨f1, f2, f3, f4⟩ := firstMax_spec (fun s => weight (θ s)) hw
  obtain ⟨g1, g2⟩ := select_used 10 _ _ hw f1 f3
  refine ⟨?_, g2⟩
  intro s hs
  obtain ⟨e, he, rfl⟩ := List.mem_map.1 hs
  obtain ⟨k1, k2, k3⟩ := g1 e he
  by_cases h : e.1 < 50
  · obtain ⟨k4, k5⟩ := k3 h
    rw [k4] at k5
    exact Or.inr ⟨h, weight_med.1 k5⟩
  · exact Or.inl (by omega)

/-- C196, violated: the scan for the nearest cluster leaves out cluster number 9 instead of the global
one. If that is the only similar cluster, even if the pixel is its centre, it is not used: the global
regression is used alone. -/
theorem c196_nine_violated (θ : Nat → ℝ) (h9 : θ 9 < 0.0698132) (hg : 0.0698132 ≤ θ 50)
    (h : ∀ s, s < 50 → s ≠ 9 → 0.2094395 ≤ θ s) :
    Similar θ 9 ∧ (selected fun s => weight (θ s)).map Prod.fst = [50] := by
  refine ⟨Or.inl h9, ?_⟩
  have hw : ∀ s, 0 ≤ (fun s => weight (θ s)) s := fun s => weight_nonneg _
  obtain ⟨f1, f2, f3, f4⟩ := firstMax_spec (fun s => weight (θ s)) hw
  have hE : ¬ Elig (fun s => weight (θ s)) (firstMax fun s => weight (θ s)).1 := by
    intro hE
    have hm := elig_med hE
    rw [f3] at hm hE
    by_cases h50 : (firstMax fun s => weight (θ s)).2 = 50
    · rw [h50] at hE
      rcases hE with hE | hE
      · have := weight_min.1 hE
        linarith
      · exact lt_irrefl _ hE.2
    · have := weight_med.1 hm
      have := h _ (by omega) f2
      linarith
  show (select 10 _ _).map _ = _
  rw [select_neg hE]
  rfl

/-- C196, violated: if the global cluster is the nearest one and less than 4 degrees away, it is taken
as one of the clusters. A cluster that is farther away than the global one, and more than 4 degrees,
is then used too. -/
theorem c196_global_violated (θ : Nat → ℝ) (t : Nat) (ht : t < 50) (hg : θ 50 < 0.0698132)
    (h1 : 0.0698132 ≤ θ t) (h2 : θ t < 0.2094395) (h : ∀ s, s < 50 → s ≠ t → 0.2094395 ≤ θ s) :
    ¬ Similar θ t ∧ (selected fun s => weight (θ s)).map Prod.fst = [50, t, 50] := by
  refine ⟨?_, ?_⟩
  · rintro (k | ⟨-, k⟩) <;> linarith
  have hw : ∀ s, 0 ≤ (fun s => weight (θ s)) s := fun s => weight_nonneg _
  obtain ⟨f1, f2, f3, f4⟩ := firstMax_spec (fun s => weight (θ s)) hw
  have e50 : (firstMax fun s => weight (θ s)).2 = 50 := by
    by_contra hc
    have hl : (firstMax fun s => weight (θ s)).2 < 50 := by omega
    have k := f4 50 (by omega) (by omega)
    rw [f3] at k
    have hge : θ 50 < θ (firstMax fun s => weight (θ s)).2 := by
      by_cases ht' : (firstMax fun s => weight (θ s)).2 = t
      · rw [ht']; linarith
      · have := h _ hl ht'
        linarith
    have := (weight_lt (by linarith)).2 hge
    linarith
  rw [e50] at f3
  have hE : Elig (fun s => weight (θ s)) (firstMax fun s => weight (θ s)).1 := by
    rw [f3]; exact Or.inl (weight_min.2 hg)
  have step1 : selected (fun s => weight (θ s)) = (50, weight (θ 50)) ::
      select 9 (without (fun s => weight (θ s)) 50) (nextMax (without (fun s => weight (θ s)) 50) 50) := by
    show select 10 _ _ = _
    rw [select_pos hE, e50, f3]
  rw [step1]
  have hw1 := without_nonneg hw 50
  generalize hv : without (fun s => weight (θ s)) 50 = v at hw1 ⊢
  have v50 : v 50 = 0 := by rw [← hv]; exact without_self
  have vs : ∀ s, s < 50 → v s = weight (θ s) := fun s hs => by rw [← hv]; exact without_other (by omega)
  obtain ⟨n1, n2, n3⟩ := nextMax_spec v 50 hw1
  have et : (nextMax v 50).2 = t := by
    by_contra hc
    have k := n3 t ht
    rw [n2, vs _ n1, vs _ ht] at k
    have := h _ n1 hc
    have := (weight_lt (b := θ (nextMax v 50).2) h2).2 (by linarith)
    linarith
  rw [et, vs t ht] at n2
  have hE2 : Elig v (nextMax v 50).1 := by
    rw [n2]
    refine Or.inr ⟨weight_med.2 h2, ?_⟩
    rw [v50]
    have := weight_med.2 h2
    linarith [med_pos]
  rw [select_pos hE2, et, n2]
  have hw2 := without_nonneg hw1 t
  generalize hu : without v t = u at hw2 ⊢
  have us : ∀ s, s < 50 → s ≠ t → u s = weight (θ s) := fun s hs hn => by
    rw [← hu, without_other hn]; exact vs s hs
  have ut : u t = 0 := by rw [← hu]; exact without_self
  obtain ⟨m1, m2, m3⟩ := nextMax_spec u t hw2
  have hE3 : ¬ Elig u (nextMax u t).1 := by
    intro hc
    have hm := elig_med hc
    rw [m2] at hm
    by_cases e : (nextMax u t).2 = t
    · rw [e, ut] at hm
      linarith [med_pos]
    · rw [us _ m1 e] at hm
      have := weight_med.1 hm
      have := h _ m1 e
      linarith
  rw [select_neg hE3]
  rfl

end Verif.Homo

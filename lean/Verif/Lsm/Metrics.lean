import Verif.Lsm.Patches
import Verif.FloatErr
import Mathlib.Tactic.NormNum

/-! # Landscape metrics: C90 -/

namespace Verif.Lsm

open Verif.Str (Out)
open Verif.Ccl (Px Image Objects)
open Verif.Index (short truncQ short_ok short_ub integerPart)
open Verif.Index.Spec (IntegerPart)
open Spec

theorem sum_pick {par : Par} {c : Chunk} {o : Objects} (g : Good par c o) (p : Px) {M : Type} [AddCommMonoid M]
    (f : Px → M) : ∑ x ∈ ((measure par c o p).uniq.map (pick par c o p)).toFinset, f x =
      ((measure par c o p).uniq.map fun l => f (pick par c o p l)).sum := by
  rw [List.sum_toFinset _ (patches g p).1, List.map_map]
  rfl

theorem cast_list_sum (l : List Int) (f : Int → Nat) : ((l.map f).sum : ℚ) = (l.map fun x => (f x : ℚ)).sum := by
  rw [Nat.cast_list_sum, List.map_map]; rfl

theorem list_sum_mul (l : List Int) (f : Int → ℚ) (k : ℚ) : (l.map fun x => f x * k).sum = (l.map f).sum * k := by
  induction l with
  | nil => simp
  | cons x t ih => simp only [List.map_cons, List.sum_cons, ih]; ring

theorem list_sum_le (l : List Int) (f h : Int → ℚ) (hle : ∀ x ∈ l, f x ≤ h x) :
    (l.map f).sum ≤ (l.map h).sum := by
  induction l with
  | nil => simp
  | cons x t ih =>
    simp only [List.map_cons, List.sum_cons]
    exact add_le_add (hle x (by simp)) (ih fun y hy => hle y (by simp [hy]))

theorem list_sum_nonneg (l : List Int) (f : Int → ℚ) (h : ∀ x ∈ l, 0 ≤ f x) : 0 ≤ (l.map f).sum := by
  induction l with
  | nil => simp
  | cons x t ih =>
    simp only [List.map_cons, List.sum_cons]
    exact add_nonneg (h x (by simp)) (ih fun y hy => h y (by simp [hy]))

theorem list_sum_pos (l : List Int) (hl : l ≠ []) (f : Int → ℚ) (h : ∀ x ∈ l, 0 < f x) : 0 < (l.map f).sum := by
  cases l with
  | nil => exact absurd rfl hl
  | cons x t =>
    simp only [List.map_cons, List.sum_cons]
    exact add_pos_of_pos_of_nonneg (h x (by simp)) (list_sum_nonneg t f fun y hy => (h y (by simp [hy])).le)

theorem le_list_sum (l : List Int) (f : Int → Nat) (x : Int) (hx : x ∈ l) : f x ≤ (l.map f).sum := by
  induction l with
  | nil => simp at hx
  | cons y t ih =>
    simp only [List.map_cons, List.sum_cons]
    rcases List.mem_cons.1 hx with rfl | h
    · omega
    · have := ih h; omega

theorem kernelSize_pos (par : Par) : (0 : ℚ) < kernelSize par := by
  unfold kernelSize; positivity

theorem kernelSize_eq (par : Par) : kernelSize par = (2 * par.radius + 1) ^ 2 := by
  unfold kernelSize; ring

/-- The weighted mean of the areas. -/
theorem mpa_eq {par : Par} {c : Chunk} {o : Objects} (g : Good par c o) (p : Px)
    (hu : (measure par c o p).uniq ≠ []) :
    mpa par (measure par c o p) = short (10000 * (((measure par c o p).uniq.map fun l =>
      ((measure par c o p).area l : ℚ) * (measure par c o p).area l).sum /
        ((kernelSize par : ℚ) * (measure par c o p).total))) ∧
    0 ≤ 10000 * (((measure par c o p).uniq.map fun l =>
      ((measure par c o p).area l : ℚ) * (measure par c o p).area l).sum /
        ((kernelSize par : ℚ) * (measure par c o p).total)) ∧
    10000 * (((measure par c o p).uniq.map fun l =>
      ((measure par c o p).area l : ℚ) * (measure par c o p).area l).sum /
        ((kernelSize par : ℚ) * (measure par c o p).total)) ≤ 10000 := by
  obtain ⟨h1, h2, h3, h4, h5, h6, h7⟩ := patches g p
  generalize measure par c o p = a at *
  have hk := kernelSize_pos par
  unfold mpa
  dsimp only
  generalize kernelSize par = k at *
  have hk0 := hk.ne'
  have hS : (a.total : ℚ) = (a.uniq.map fun l => (a.area l : ℚ)).sum := by
    rw [← h5, cast_list_sum]
  have hpos : (0 : ℚ) < a.total := by
    rw [hS]
    exact list_sum_pos _ hu _ fun l hl => by exact_mod_cast h6 l hl
  have ht0 := hpos.ne'
  have e1 : ∀ l, ((a.area l : ℚ) / k) / (a.total / k) = a.area l * (1 / a.total) := by
    intro l; field_simp
  have e2 : ∀ l, ((a.area l : ℚ) / k) / (a.total / k) * (a.area l / k) = (a.area l * a.area l) * (1 / (k * a.total)) := by
    intro l; field_simp
  have es : (a.uniq.map fun l => ((a.area l : ℚ) / k) / (a.total / k)).sum = 1 := by
    simp only [e1]
    rw [list_sum_mul, ← hS]
    field_simp
  have ea : (a.uniq.map fun l => ((a.area l : ℚ) / k) / (a.total / k) * (a.area l / k)).sum =
      (a.uniq.map fun l => (a.area l : ℚ) * a.area l).sum / (k * a.total) := by
    simp only [e2]
    rw [list_sum_mul]
    ring
  refine ⟨?_, ?_, ?_⟩
  · rw [es, ea, if_pos one_pos]
    congr 1
    ring
  · have := list_sum_nonneg a.uniq (fun l => (a.area l : ℚ) * a.area l) fun l _ => by positivity
    positivity
  · have hle : (a.uniq.map fun l => (a.area l : ℚ) * a.area l).sum ≤ a.total * k := by
      rw [hS, ← list_sum_mul]
      refine list_sum_le _ _ _ ?_
      intro l hl
      have : a.area l ≤ k := (le_list_sum _ _ l hl).trans (h5.le.trans h7)
      have : (a.area l : ℚ) ≤ k := by exact_mod_cast this
      exact mul_le_mul_of_nonneg_left this (by positivity)
    have : (a.uniq.map fun l => (a.area l : ℚ) * a.area l).sum / (k * a.total) ≤ 1 := by
      rw [div_le_one (by positivity)]
      linarith
    linarith

theorem edges_le (par : Par) (m : Image) (q off : Px) : edges par m q off ≤ 4 := by
  unfold edges
  dsimp only
  have h : ∀ (P : Prop) [Decidable P], (if P then 1 else 0) ≤ (1 : Nat) := by intro P _; split <;> omega
  have h1 := h (off.1 ≠ (par.radius : Int) ∧ q.1 + 1 < m.ny ∧ m.px q ≠ m.px (q + (1, 0)))
  have h2 := h (off.1 ≠ -(par.radius : Int) ∧ q.1 - 1 ≥ 0 ∧ m.px q ≠ m.px (q + (-1, 0)))
  have h3 := h (off.2 ≠ (par.radius : Int) ∧ q.2 + 1 < m.nx ∧ m.px q ≠ m.px (q + (0, 1)))
  have h4 := h (off.2 ≠ -(par.radius : Int) ∧ q.2 - 1 ≥ 0 ∧ m.px q ≠ m.px (q + (0, -1)))
  omega

theorem perim_le {par : Par} {c : Chunk} {o : Objects} (g : Good par c o) (p : Px) (l : Int) :
    (measure par c o p).perim l ≤ 4 * (measure par c o p).area l := by
  have s := measure_summary g p
  rw [s.perim, s.area]
  generalize (viewAt par c o p).filter (fun v => o.obj (p + v) = l) = V
  induction V with
  | nil => simp
  | cons v t ih =>
    simp only [List.map_cons, List.sum_cons, List.length_cons]
    have := edges_le par o.image (p + v) v
    omega

theorem sum_sq_lt (l : List Int) (f : Int → Nat) (hf : ∀ x ∈ l, 1 ≤ f x) (h2 : 2 ≤ l.length) :
    (l.map fun x => f x ^ 2).sum < (l.map f).sum ^ 2 := by
  have le : ∀ l : List Int, (l.map fun x => f x ^ 2).sum ≤ (l.map f).sum ^ 2 := by
    intro l
    induction l with
    | nil => simp
    | cons x t ih =>
      simp only [List.map_cons, List.sum_cons]
      have := Nat.zero_le (f x * (t.map f).sum)
      nlinarith
  match l, h2 with
  | x :: y :: t, _ =>
    simp only [List.map_cons, List.sum_cons]
    have hx := hf x (by simp)
    have hy := hf y (by simp)
    have := le t
    have h1 := Nat.mul_le_mul hx hy
    have h2 := Nat.zero_le (f x * (t.map f).sum)
    have h3 := Nat.zero_le (f y * (t.map f).sum)
    nlinarith

theorem truncQ_range {x : ℚ} {b : Int} (h0 : 0 ≤ x) (h1 : x ≤ b) : 0 ≤ truncQ x ∧ truncQ x ≤ b := by
  rw [Verif.Index.truncQ_eq, if_pos h0]
  refine ⟨Int.floor_nonneg.2 h0, ?_⟩
  exact_mod_cast (Int.floor_le x).trans h1

/-- C90: the patch metrics. `T` has one pixel of each patch in the kernel around the pixel; sizes and edges are
counted within the kernel and in units of pixels. NBR is the number of patches. MPA is the mean patch area as share
of the kernel, weighted by area, or 0 if there is no patch. EDD is the number of edges over the number of kernel
positions; it always fits (at most 20000). FDI is the mean of the fractal dimensions of the patches with two or
more pixels, weighted by area, and between 0 and 20000, if these have four or more edges each.
Partial: the other cases of FDI, and EMS, see the theorems below. -/
theorem c90_patches_partial {par : Par} {c : Chunk} {o : Objects} {p : Int × Int} {a : Acc}
    (h : Measured par c o p a) :
    ∃ T : Finset (Int × Int), OnePerPatch par c p T ∧
      (T.card ≤ 32767 → nbr a = T.card) ∧
      (T = ∅ → mpa par a = .ok 0) ∧
      (T.Nonempty → ∃ v, mpa par a = .ok v ∧ 0 ≤ v ∧ v ≤ 10000 ∧
        IntegerPart v (10000 * ((∑ x ∈ T, (patchSize par c p x : ℝ) ^ 2) /
          ((2 * par.radius + 1) ^ 2 * ∑ x ∈ T, (patchSize par c p x : ℝ))))) ∧
      (∃ v, edd par a = .ok v ∧ 0 ≤ v ∧ v ≤ 20000 ∧
        IntegerPart v (10000 * ((allEdges par c p : ℝ) / (2 * par.radius + 1) ^ 2))) ∧
      (∀ lg : ℚ → ℚ, lg 1 = 0 → (∀ x y, 1 ≤ x → x ≤ y → lg x ≤ lg y) → (∀ x, 2 ≤ x → 0 < lg x) →
        ∀ S : Finset (Int × Int), S = T.filter (fun x => 2 ≤ patchSize par c p x) → S.Nonempty →
        (∀ x ∈ S, 4 ≤ patchEdges par c p x) →
        ∃ v, fdi lg par a = .ok v ∧ 0 ≤ v ∧ v ≤ 20000 ∧
          IntegerPart v (10000 * ((∑ x ∈ S, (patchSize par c p x : ℝ) *
            (2 * lg (patchEdges par c p x / 4) / lg (patchSize par c p x) : ℚ)) /
              ∑ x ∈ S, (patchSize par c p x : ℝ)))) ∧
      (T = ∅ → ∀ lg, fdi lg par a = .ok 0) := by
  obtain ⟨g, rfl⟩ := h.eq
  have hsum := fun {M : Type} [AddCommMonoid M] (f : Px → M) => sum_pick g p f
  have hmpa := mpa_eq g p
  have hper := perim_le g p
  obtain ⟨h1, h2, h3, h4, h5, h6, h7⟩ := patches g p
  have hk := kernelSize_pos par
  have hkr : ((kernelSize par : ℚ) : ℝ) = (2 * par.radius + 1) ^ 2 := by
    rw [kernelSize_eq]; push_cast; rfl
  generalize measure par c o p = a at *
  have hT : (a.uniq.map (pick par c o p)).toFinset.card = a.uniq.length := by
    rw [List.toFinset_card_of_nodup h1, List.length_map]
  have hTe : (a.uniq.map (pick par c o p)).toFinset = ∅ ↔ a.uniq = [] := by simp
  have hS : (a.total : ℝ) = ∑ x ∈ (a.uniq.map (pick par c o p)).toFinset, (patchSize par c p x : ℝ) := by
    rw [hsum, ← h5, Nat.cast_list_sum, List.map_map]
    congr 1
    apply List.map_congr_left
    intro l hl
    show ((a.area l : ℕ) : ℝ) = _
    rw [(h3 l hl).1]
  refine ⟨_, h2, ?_, ?_, ?_, ?_, ?_, ?_⟩
  · rw [hT]
    intro hn
    unfold nbr
    exact wrap_of_short (by omega) (by omega)
  · rw [hTe]
    intro he
    unfold mpa
    rw [he]
    rfl
  · intro hne
    have he : a.uniq ≠ [] := by
      rw [Ne, ← hTe]; exact hne.ne_empty
    obtain ⟨m1, m2, m3⟩ := hmpa he
    rw [m1]
    refine ⟨_, short_ok (by linarith) (by linarith), (truncQ_range m2 (b := 10000) (by exact_mod_cast m3)).1,
      (truncQ_range m2 (b := 10000) (by exact_mod_cast m3)).2, ?_⟩
    have hi := integerPart (10000 * ((a.uniq.map fun l => (a.area l : ℚ) * a.area l).sum /
        ((kernelSize par : ℚ) * a.total)))
    convert hi using 1
    have e1 : ∑ x ∈ (a.uniq.map (pick par c o p)).toFinset, (patchSize par c p x : ℝ) ^ 2 =
        (((a.uniq.map fun l => (a.area l : ℚ) * a.area l).sum : ℚ) : ℝ) := by
      rw [hsum, Rat.cast_list_sum, List.map_map]
      congr 1
      apply List.map_congr_left
      intro l hl
      rw [← (h3 l hl).1]
      simp only [Function.comp]
      push_cast
      ring
    rw [e1, ← hS, ← hkr]
    push_cast
    rfl
  · have hle := allEdges_le par c p
    rw [← h4, ← kernelSize_eq] at hle
    have hle' : (a.edge : ℚ) / kernelSize par ≤ 2 := by
      rw [div_le_iff₀ hk]; exact_mod_cast hle
    have h0 : (0 : ℚ) ≤ (a.edge : ℚ) / kernelSize par := by positivity
    have hr := truncQ_range (x := (a.edge : ℚ) / kernelSize par * 10000) (b := 20000) (by positivity)
      (by push_cast; linarith)
    refine ⟨_, short_ok (by linarith) (by linarith), hr.1, hr.2, ?_⟩
    have hi := integerPart ((a.edge : ℚ) / kernelSize par * 10000)
    convert hi using 1
    rw [← h4, ← hkr]
    push_cast
    ring
  · intro lg hl1 hlm hlp S hSd hSn hSe
    -- the patches with two or more pixels
    have hlarge : ∀ l ∈ a.uniq, (a.area l ≠ 1 ↔ 2 ≤ patchSize par c p (pick par c o p l)) := by
      intro l hl
      have := h6 l hl
      rw [(h3 l hl).1] at this ⊢
      omega
    have hSl : S = ((a.uniq.filter fun l => a.area l ≠ 1).map (pick par c o p)).toFinset := by
      rw [hSd]
      ext x
      simp only [Finset.mem_filter, List.mem_toFinset, List.mem_map, List.mem_filter, decide_eq_true_eq]
      constructor
      · rintro ⟨⟨l, hl, rfl⟩, hp⟩
        exact ⟨l, ⟨hl, (hlarge l hl).2 hp⟩, rfl⟩
      · rintro ⟨l, ⟨hl, hp⟩, rfl⟩
        exact ⟨⟨l, hl, rfl⟩, (hlarge l hl).1 hp⟩
    have hnd : ((a.uniq.filter fun l => a.area l ≠ 1).map (pick par c o p)).Nodup :=
      h1.sublist (List.filter_sublist.map _)
    have hsumS : ∀ f : Px → ℝ, ∑ x ∈ S, f x = ((a.uniq.filter fun l => a.area l ≠ 1).map fun l => f (pick par c o p l)).sum := by
      intro f
      rw [hSl, List.sum_toFinset _ hnd, List.map_map]
      rfl
    have hLmem : ∀ l, l ∈ (a.uniq.filter fun l => a.area l ≠ 1) → l ∈ a.uniq ∧ 2 ≤ a.area l ∧ 4 ≤ a.perim l := by
      intro l hl
      have hl' := List.mem_filter.1 hl
      have hx : pick par c o p l ∈ S := by
        rw [hSl, List.mem_toFinset]
        exact List.mem_map.2 ⟨l, hl, rfl⟩
      have := hSe _ hx
      rw [← (h3 l hl'.1).2] at this
      have h6 := h6 l hl'.1
      have := hl'.2
      simp only [ne_eq, decide_not, Bool.not_eq_true', decide_eq_false_iff_not] at this
      exact ⟨hl'.1, by omega, by omega⟩
    have hLne : (a.uniq.filter fun l => a.area l ≠ 1) ≠ [] := by
      intro he
      rw [he] at hSl
      simp only [List.map_nil, List.toFinset_nil] at hSl
      exact hSn.ne_empty hSl
    have hune : a.uniq.length ≠ 0 := by
      intro he
      rw [List.length_eq_zero_iff] at he
      rw [he] at hLne
      exact hLne rfl
    unfold fdi
    dsimp only
    generalize hL : (a.uniq.filter fun l => a.area l ≠ 1) = L at *
    rw [if_neg hune, if_neg (by rwa [List.length_eq_zero_iff]), if_neg (by
      rw [Bool.not_eq_true, List.any_eq_false]
      intro l hl
      have := (hLmem l hl).2.2
      simp only [beq_iff_eq]
      omega)]
    have hk0 := hk.ne'
    have es : (L.map fun l => (a.area l : ℚ) / kernelSize par).sum = (L.map fun l => (a.area l : ℚ)).sum * (1 / kernelSize par) := by
      rw [← list_sum_mul]
      congr 1
      apply List.map_congr_left
      intro l _
      ring
    have en : (L.map fun l => (a.area l : ℚ) / kernelSize par * (2 * lg ((1 / 4 : ℚ) * a.perim l)) / lg (a.area l)).sum =
        (L.map fun l => (a.area l : ℚ) * (2 * lg (a.perim l / 4) / lg (a.area l))).sum * (1 / kernelSize par) := by
      rw [← list_sum_mul]
      congr 1
      apply List.map_congr_left
      intro l _
      rw [show (1 / 4 : ℚ) * a.perim l = a.perim l / 4 by ring]
      ring
    have hpos : 0 < (L.map fun l => (a.area l : ℚ)).sum :=
      list_sum_pos _ hLne _ fun l hl => by
        have := (hLmem l hl).2.1
        exact_mod_cast (by omega : 0 < a.area l)
    have hq : (L.map fun l => (a.area l : ℚ) / kernelSize par * (2 * lg ((1 / 4 : ℚ) * a.perim l)) / lg (a.area l)).sum /
        (L.map fun l => (a.area l : ℚ) / kernelSize par).sum * 10000 =
        10000 * ((L.map fun l => (a.area l : ℚ) * (2 * lg (a.perim l / 4) / lg (a.area l))).sum /
          (L.map fun l => (a.area l : ℚ)).sum) := by
      rw [es, en, mul_div_mul_right _ _ (one_div_ne_zero hk0), mul_comm]
    have hb : ∀ l ∈ L, 0 ≤ (2 * lg (a.perim l / 4) / lg (a.area l)) ∧ (2 * lg (a.perim l / 4) / lg (a.area l)) ≤ 2 := by
      intro l hl
      obtain ⟨_, ha, hp⟩ := hLmem l hl
      have ha' : (2 : ℚ) ≤ a.area l := by exact_mod_cast ha
      have hp' : (1 : ℚ) ≤ a.perim l / 4 := by
        have : (4 : ℚ) ≤ a.perim l := by exact_mod_cast hp
        linarith
      have hle : (a.perim l : ℚ) / 4 ≤ a.area l := by
        have : (a.perim l : ℚ) ≤ 4 * a.area l := by exact_mod_cast hper l
        linarith
      have g0 : 0 ≤ lg (a.perim l / 4) := by rw [← hl1]; exact hlm _ _ le_rfl hp'
      have g1 := hlm _ _ hp' hle
      have g2 := hlp _ ha'
      refine ⟨by positivity, ?_⟩
      rw [div_le_iff₀ g2]
      linarith
    have hlo : 0 ≤ (L.map fun l => (a.area l : ℚ) * (2 * lg (a.perim l / 4) / lg (a.area l))).sum :=
      list_sum_nonneg _ _ fun l hl => mul_nonneg (by positivity) (hb l hl).1
    have hhi : (L.map fun l => (a.area l : ℚ) * (2 * lg (a.perim l / 4) / lg (a.area l))).sum ≤
        (L.map fun l => (a.area l : ℚ)).sum * 2 := by
      rw [← list_sum_mul]
      exact list_sum_le _ _ _ fun l hl => mul_le_mul_of_nonneg_left (hb l hl).2 (by positivity)
    have hd : (L.map fun l => (a.area l : ℚ) * (2 * lg (a.perim l / 4) / lg (a.area l))).sum /
          (L.map fun l => (a.area l : ℚ)).sum ≤ 2 := by
      rw [div_le_iff₀ hpos]; linarith
    have hd0 : 0 ≤ (L.map fun l => (a.area l : ℚ) * (2 * lg (a.perim l / 4) / lg (a.area l))).sum /
          (L.map fun l => (a.area l : ℚ)).sum := by positivity
    rw [hq]
    generalize hX : (L.map fun l => (a.area l : ℚ) * (2 * lg (a.perim l / 4) / lg (a.area l))).sum /
          (L.map fun l => (a.area l : ℚ)).sum = X at *
    have hr := truncQ_range (x := 10000 * X) (b := 20000) (by positivity) (by push_cast; linarith)
    refine ⟨_, short_ok (by linarith) (by linarith), hr.1, hr.2, ?_⟩
    have hi := integerPart (10000 * X)
    convert hi using 1
    rw [← hX, hsumS, hsumS]
    push_cast
    rw [List.map_map, List.map_map]
    congr 3
    · apply List.map_congr_left
      intro l hl
      have hl' := (hLmem l hl).1
      rw [← (h3 l hl').1, ← (h3 l hl').2]
      simp only [Function.comp]
      push_cast
      rfl
    · apply List.map_congr_left
      intro l hl
      have hl' := (hLmem l hl).1
      rw [← (h3 l hl').1]
      simp
  · rw [hTe]
    intro he lg
    unfold fdi
    rw [he]
    rfl

/-- C90, violated: EMS is the squared total area of the class in the kernel, whatever the patches are. The
effective mesh size is the sum of the squared areas of the patches, which is less as soon as there are two. -/
theorem c90_ems_violated {par : Par} {c : Chunk} {o : Objects} {p : Int × Int} {a : Acc}
    (h : Measured par c o p a) :
    ∃ T : Finset (Int × Int), OnePerPatch par c p T ∧
      (∃ v, ems par a = .ok v ∧ IntegerPart v
        (10000 * ((∑ x ∈ T, (patchSize par c p x : ℝ)) / (2 * par.radius + 1) ^ 2) ^ 2)) ∧
      (2 ≤ T.card → ∑ x ∈ T, patchSize par c p x ^ 2 < (∑ x ∈ T, patchSize par c p x) ^ 2) := by
  obtain ⟨g, rfl⟩ := h.eq
  have hsum := fun {M : Type} [AddCommMonoid M] (f : Px → M) => sum_pick g p f
  obtain ⟨h1, h2, h3, h4, h5, h6, h7⟩ := patches g p
  have hk := kernelSize_pos par
  have hkr : ((kernelSize par : ℚ) : ℝ) = (2 * par.radius + 1) ^ 2 := by
    rw [kernelSize_eq]; push_cast; rfl
  generalize measure par c o p = a at *
  have hS : ((a.total : ℚ) : ℝ) = ∑ x ∈ (a.uniq.map (pick par c o p)).toFinset, (patchSize par c p x : ℝ) := by
    rw [hsum, ← h5]
    push_cast
    rw [List.map_map, List.map_map]
    congr 1
    apply List.map_congr_left
    intro l hl
    simp only [Function.comp, Rat.cast_natCast]
    rw [(h3 l hl).1]
  refine ⟨_, h2, ?_, ?_⟩
  · have h0 : (0 : ℚ) ≤ a.total / kernelSize par := by positivity
    have h1 : (a.total : ℚ) / kernelSize par ≤ 1 := by
      rw [div_le_one hk]; exact_mod_cast h7
    have h2 : (a.total : ℚ) / kernelSize par * (a.total / kernelSize par) ≤ 1 := mul_le_one₀ h1 h0 h1
    have h2' : 0 ≤ (a.total : ℚ) / kernelSize par * (a.total / kernelSize par) := mul_nonneg h0 h0
    refine ⟨_, short_ok (by linarith) (by linarith), ?_⟩
    have hi := integerPart (a.total / kernelSize par * (a.total / kernelSize par) * 10000)
    convert hi using 1
    rw [← hS, ← hkr]
    push_cast
    ring
  · rw [List.toFinset_card_of_nodup h1, List.length_map, hsum, hsum]
    intro hn
    have := sum_sq_lt a.uniq a.area h6 hn
    have e1 : (a.uniq.map fun l => patchSize par c p (pick par c o p l) ^ 2) = a.uniq.map fun l => a.area l ^ 2 :=
      List.map_congr_left fun l hl => by rw [(h3 l hl).1]
    have e2 : (a.uniq.map fun l => patchSize par c p (pick par c o p l)) = a.uniq.map fun l => a.area l :=
      List.map_congr_left fun l hl => by rw [(h3 l hl).1]
    rw [e1, e2]
    exact this

theorem same_trans {par : Par} {c : Chunk} {o : Objects} (g : Good par c o) {p x y : Px}
    (hx : InView par c p x) (hy : InView par c p y) (h : SamePatch par c x y) :
    patchSize par c p x = patchSize par c p y ∧ patchEdges par c p x = patchEdges par c p y := by
  have ho := (g.same _ _ hx.2 hy.2).2 h
  have key : ∀ q, InView par c p q → (SamePatch par c x q ↔ SamePatch par c y q) := by
    intro q hq
    rw [← g.same _ _ hx.2 hq.2, ← g.same _ _ hy.2 hq.2, ho]
  constructor
  · unfold patchSize
    congr 1
    ext q
    simp only [Set.mem_setOf_eq]
    constructor
    · rintro ⟨h, h'⟩; exact ⟨h, (key q h).1 h'⟩
    · rintro ⟨h, h'⟩; exact ⟨h, (key q h).2 h'⟩
  · unfold patchEdges
    congr 1
    ext e
    simp only [Set.mem_setOf_eq]
    constructor
    · rintro ⟨h, h'⟩; exact ⟨h, (key _ h.1).1 h'⟩
    · rintro ⟨h, h'⟩; exact ⟨h, (key _ h.1).2 h'⟩

/-- The entry of the patch of `x`. -/
theorem entry {par : Par} {c : Chunk} {o : Objects} (g : Good par c o) {p x : Px} (hx : InView par c p x) :
    o.obj x ∈ (measure par c o p).uniq ∧ (measure par c o p).area (o.obj x) = patchSize par c p x ∧
      (measure par c o p).perim (o.obj x) = patchEdges par c p x := by
  have s := measure_summary g p
  have hex : ∃ v ∈ viewAt par c o p, o.obj (p + v) = o.obj x := by
    have := (mem_map_view g p x).2 hx
    rw [List.mem_map] at this
    obtain ⟨v, hv, he⟩ := this
    exact ⟨v, hv, by rw [he]⟩
  have hu := (s.uniq (o.obj x)).2 hex
  have hp := pick_spec g p (o.obj x) hex
  have h3 := (patches g p).2.2.1 _ hu
  have hs := (g.same _ _ hp.1.2 hx.2).1 hp.2
  have := same_trans g hp.1 hx hs
  exact ⟨hu, by rw [h3.1, this.1], by rw [h3.2, this.2]⟩

/-- C90, violated: if a patch of two or more pixels has no edge in the kernel (the class fills the kernel, for
instance), the logarithm of 0 is taken and FDI is the conversion of an infinite number, which is undefined. -/
theorem c90_fdi_filled_violated {par : Par} {c : Chunk} {o : Objects} {p : Int × Int} {a : Acc}
    (h : Measured par c o p a) (x : Int × Int) (hx : InView par c p x) (h2 : 2 ≤ patchSize par c p x)
    (h0 : patchEdges par c p x = 0) (lg : ℚ → ℚ) : fdi lg par a = .ub := by
  obtain ⟨g, rfl⟩ := h.eq
  obtain ⟨e1, e2, e3⟩ := entry g hx
  unfold fdi
  dsimp only
  have hm : o.obj x ∈ (measure par c o p).uniq.filter fun l => (measure par c o p).area l ≠ 1 := by
    rw [List.mem_filter]
    refine ⟨e1, ?_⟩
    rw [e2]
    simp only [ne_eq, decide_not, Bool.not_eq_true', decide_eq_false_iff_not]
    omega
  rw [if_neg (by
    intro he
    rw [List.length_eq_zero_iff] at he
    rw [he] at e1
    simp at e1), if_neg (by
    intro he
    rw [List.length_eq_zero_iff] at he
    rw [he] at hm
    simp at hm), if_pos]
  rw [List.any_eq_true]
  exact ⟨_, hm, by simp [e3, h0]⟩

/-- C90, violated: if all patches in the kernel have a single pixel there, and there is at least one, FDI is the
conversion of 0/0, which is undefined. -/
theorem c90_fdi_single_violated {par : Par} {c : Chunk} {o : Objects} {p : Int × Int} {a : Acc}
    (h : Measured par c o p a) (x : Int × Int) (hx : InView par c p x)
    (h1 : ∀ y, InView par c p y → patchSize par c p y = 1) (lg : ℚ → ℚ) : fdi lg par a = .ub := by
  obtain ⟨g, rfl⟩ := h.eq
  obtain ⟨e1, e2, e3⟩ := entry g hx
  have s := measure_summary g p
  unfold fdi
  dsimp only
  rw [if_neg (by
    intro he
    rw [List.length_eq_zero_iff] at he
    rw [he] at e1
    simp at e1), if_pos]
  rw [List.length_eq_zero_iff, List.filter_eq_nil_iff]
  intro l hl
  obtain ⟨v, hv, he⟩ := (s.uniq l).1 hl
  have hv' := (mem_viewAt g p v).1 hv
  have := entry g hv'
  rw [he] at this
  rw [this.2.1, h1 _ hv']
  simp

/-- C90, violated: with an 11 x 11 kernel (radius 50 m at 10 m resolution), the area of a single pixel, rounded to
single precision, times 121 is rounded to 1 - 2^-24 and not to 1. Patches with a single pixel are therefore not
left out of FDI, and the logarithm in the denominator is about -6e-8: with one to three edges in the kernel the
result is far beyond the range. -/
theorem c90_unit_violated (q area unit : ℚ) (h1 : Verif.Float.Nearest 53 (1 / 121) q)
    (h2 : Verif.Float.Nearest 24 q area) (h3 : Verif.Float.Nearest 24 (area * 121) unit) :
    unit = 1 - 1 / 2 ^ 24 := by
  have e1 := Verif.Float.nearest_unique_of_ge (by norm_num) h1 (297758653049289 * 16) (-59) (by norm_num) (by norm_num)
    (by rw [abs_lt]; constructor <;> norm_num)
  subst e1
  have e2 := Verif.Float.nearest_unique_of_ge (by norm_num) h2 8873899 (-30) (by norm_num) (by norm_num)
    (by rw [abs_lt]; constructor <;> norm_num)
  subst e2
  have e3 := Verif.Float.nearest_unique_of_ge (by norm_num) h3 16777215 (-24) (by norm_num) (by norm_num)
    (by rw [abs_lt]; constructor <;> norm_num)
  rw [e3]
  norm_num

/-! ## Identifiers -/

/-- C90: UCI is positive in patches and 0 elsewhere, and two pixels of patches have the same UCI if and only if
they belong to the same patch, as long as the chunk has at most 32767 patches. -/
theorem c90_identifier_partial {par : Par} {c : Chunk} {o : Objects} {p p' : Int × Int} {a a' : Acc}
    (h : Measured par c o p a) (_ : Measured par c o p' a') (hn : o.nobj ≤ 32767) :
    (InPatch par c p → 1 ≤ uci o p) ∧ (¬ InPatch par c p → uci o p = 0) ∧
      (InPatch par c p → InPatch par c p' → (uci o p = uci o p' ↔ SamePatch par c p p')) := by
  obtain ⟨g, _⟩ := h.eq
  have hw : ∀ q, InPatch par c q → uci o q = o.obj q := by
    intro q hq
    have := g.range q hq
    exact wrap_of_short (by omega) (by omega)
  refine ⟨?_, ?_, ?_⟩
  · intro hp
    rw [hw p hp]
    exact (g.range p hp).1
  · intro hp
    unfold uci
    rw [g.none p hp]
    rfl
  · intro hp hp'
    rw [hw p hp, hw p' hp']
    exact g.same p p' hp hp'

end Verif.Lsm

import Mathlib.Algebra.BigOperators.Group.List.Basic
import Mathlib.Algebra.Order.BigOperators.Group.List
import Mathlib.Data.List.Induction
import Mathlib.Tactic.Linarith
import Mathlib.Tactic.Ring
import Mathlib.Tactic.FieldSimp
import Verif.Polar.Spec

/-!
# Lemmas on the polarmetrics
-/

namespace Verif.Polar

open Spec Verif.Date

/-! ## Values -/

theorem find_last {nodata : Int} {l : List Step} {y : Step} (h : LastValid nodata l y) :
    l.reverse.find? (fun q => q.v ≠ nodata) = some y := by
  obtain ⟨a, g, rfl, hy, hg⟩ := h
  rw [List.reverse_append, List.reverse_cons, List.append_assoc, List.find?_append,
    List.find?_eq_none.2 (by intro q hq; simp [hg q (List.mem_reverse.1 hq)])]
  simp [hy]

theorem find_first {nodata : Int} {l : List Step} {z : Step} (h : FirstValid nodata l z) :
    l.find? (fun q => q.v ≠ nodata) = some z := by
  obtain ⟨g, b, rfl, hz, hg⟩ := h
  rw [List.find?_append, List.find?_eq_none.2 (by intro q hq; simp [hg q hq])]
  simp [hz]

theorem find_none {nodata : Int} {l : List Step} (h : ∀ q ∈ l, q.v = nodata) :
    l.find? (fun q => q.v ≠ nodata) = none :=
  List.find?_eq_none.2 (by intro q hq; simp [h q hq])

theorem last_exists {nodata : Int} {l : List Step} (h : ¬ ∀ q ∈ l, q.v = nodata) : ∃ y, LastValid nodata l y := by
  induction l using List.reverseRecOn with
  | nil => simp at h
  | append_singleton l x ih =>
    by_cases hx : x.v = nodata
    · obtain ⟨y, a, g, rfl, hy, hg⟩ := ih (by
        intro hc; apply h; intro q hq
        rcases List.mem_append.1 hq with hq | hq
        · exact hc q hq
        · rw [List.mem_singleton.1 hq]; exact hx)
      refine ⟨y, a, g ++ [x], by simp, hy, ?_⟩
      intro q hq
      rcases List.mem_append.1 hq with hq | hq
      · exact hg q hq
      · rw [List.mem_singleton.1 hq]; exact hx
    · exact ⟨x, l, [], rfl, hx, by simp⟩

theorem first_exists {nodata : Int} {l : List Step} (h : ¬ ∀ q ∈ l, q.v = nodata) : ∃ y, FirstValid nodata l y := by
  induction l with
  | nil => simp at h
  | cons x l ih =>
    by_cases hx : x.v = nodata
    · obtain ⟨y, g, b, rfl, hy, hg⟩ := ih (by
        intro hc; apply h; intro q hq
        rcases List.mem_cons.1 hq with rfl | hq
        · exact hx
        · exact hc q hq)
      refine ⟨y, x :: g, b, by simp, hy, ?_⟩
      intro q hq
      rcases List.mem_cons.1 hq with rfl | hq
      · exact hx
      · exact hg q hq
    · exact ⟨x, [], l, rfl, hx, by simp⟩

theorem last_mem {nodata : Int} {l : List Step} {y : Step} (h : LastValid nodata l y) : y ∈ l := by
  obtain ⟨a, g, rfl, -, -⟩ := h; simp

theorem first_mem {nodata : Int} {l : List Step} {y : Step} (h : FirstValid nodata l y) : y ∈ l := by
  obtain ⟨a, g, rfl, -, -⟩ := h; simp

theorem clip_eq (v : ℚ) : (if v < 0 then 0 else v) = max 0 v := by
  split
  · rw [max_eq_left (by linarith)]
  · rw [max_eq_right (by linarith)]

/-- The value of one step. -/
theorem fillValue_spec {nodata : Int} {pre post : List Step} {x : Step}
    (hce : ∀ q ∈ pre ++ x :: post, 0 < q.ce) (hs : (pre ++ x :: post).Pairwise fun a b => a.ce < b.ce) :
    ((fillValue nodata pre.reverse x post).2 = true ↔ ¬ ∀ q ∈ pre ++ x :: post, q.v = nodata) ∧
    ((fillValue nodata pre.reverse x post).2 = true →
      Filled nodata pre x post (max 0 (fillValue nodata pre.reverse x post).1)) := by
  unfold fillValue
  by_cases hx : x.v = nodata
  · rw [if_pos hx]
    have him : ¬ (intMin > 0) := by decide
    by_cases hp : ∀ q ∈ pre, q.v = nodata
    · rw [find_none (by simpa using hp)]
      by_cases hq : ∀ q ∈ post, q.v = nodata
      · rw [find_none hq]
        have : ∀ q ∈ pre ++ x :: post, q.v = nodata := by
          intro q h
          rcases List.mem_append.1 h with h | h
          · exact hp q h
          · rcases List.mem_cons.1 h with rfl | h
            · exact hx
            · exact hq q h
        simp only [him, false_and, if_false, false_implies, and_true, iff_false, not_not, reduceCtorEq, Bool.false_eq_true, false_iff]
        exact this
      · obtain ⟨z, hz⟩ := first_exists hq
        have hz0 : 0 < z.ce := hce z (by simp [first_mem hz])
        rw [find_first hz]
        have hzn : z.v ≠ nodata := by obtain ⟨_, _, -, h, -⟩ := hz; exact h
        refine ⟨?_, ?_⟩
        · simp only [him, hz0, gt_iff_lt, and_true, if_false, if_true, true_iff]
          intro hc; exact hzn (hc z (by simp [first_mem hz]))
        · intro _
          simp only [him, hz0, gt_iff_lt, and_true, if_false, if_true]
          refine ⟨fun h => absurd hx h, fun _ => ⟨?_, ?_, ?_⟩⟩
          · intro y z' hy
            obtain ⟨_, _, rfl, hy, -⟩ := hy
            exact absurd (hp y (by simp)) hy
          · intro y _ hq'; exact absurd hq' hq
          · intro z' _ hz'
            have := find_first hz'
            rw [find_first hz] at this
            rw [Option.some.inj this]
    · obtain ⟨y, hy⟩ := last_exists hp
      have hy0 : 0 < y.ce := hce y (by simp [last_mem hy])
      have hyn : y.v ≠ nodata := by obtain ⟨_, _, -, h, -⟩ := hy; exact h
      have hne : ¬ ∀ q ∈ pre ++ x :: post, q.v = nodata := fun hc => hyn (hc y (by simp [last_mem hy]))
      rw [find_last hy]
      by_cases hq : ∀ q ∈ post, q.v = nodata
      · rw [find_none hq]
        simp only [him, hy0, gt_iff_lt, and_false, if_false, if_true, true_iff, forall_true_left]
        refine ⟨hne, fun h => absurd hx h, fun _ => ⟨?_, ?_, ?_⟩⟩
        · intro y' z' _ hz
          obtain ⟨_, _, rfl, hz, -⟩ := hz
          exact absurd (hq z' (by simp)) hz
        · intro y' hy' _
          have := find_last hy'
          rw [find_last hy] at this
          rw [Option.some.inj this]
        · intro z hp'; exact absurd hp' hp
      · obtain ⟨z, hz⟩ := first_exists hq
        have hz0 : 0 < z.ce := hce z (by simp [first_mem hz])
        rw [find_first hz]
        simp only [hy0, hz0, gt_iff_lt, and_true, if_true, true_iff, forall_true_left]
        refine ⟨hne, fun h => absurd hx h, fun _ => ⟨?_, ?_, ?_⟩⟩
        · intro y' z' hy' hz'
          have e1 := find_last hy'
          rw [find_last hy] at e1
          have e2 := find_first hz'
          rw [find_first hz] at e2
          rw [← Option.some.inj e1, ← Option.some.inj e2]
          congr 1
          unfold onLine
          have hlt : y.ce < z.ce := by
            have h1 := (List.pairwise_append.1 hs).2.2 y (last_mem hy) z (by simp [first_mem hz])
            exact h1
          have : ((z.ce : ℚ) - y.ce) ≠ 0 := by
            have : (y.ce : ℚ) < z.ce := by exact_mod_cast hlt
            linarith
          field_simp
          ring
        · intro y' _ hq'; exact absurd hq' hq
        · intro z hp'; exact absurd hp' hp
  · rw [if_neg hx]
    refine ⟨?_, fun _ => ⟨fun _ => rfl, fun h => absurd h hx⟩⟩
    simp only [true_iff]
    intro hc; exact hx (hc x (by simp))

theorem fillLoop_length (nodata : Int) (pre l : List Step) : (fillLoop nodata pre l).1.length = l.length := by
  induction l generalizing pre with
  | nil => rfl
  | cons x l ih => simp [fillLoop, ih]

theorem fillLoop_valid {nodata : Int} (l : List Step) : ∀ (pre : List Step),
    (∀ q ∈ pre ++ l, 0 < q.ce) → (pre ++ l).Pairwise (fun a b => a.ce < b.ce) →
    ((fillLoop nodata pre.reverse l).2 = true ↔ l = [] ∨ ¬ ∀ q ∈ pre ++ l, q.v = nodata) := by
  induction l with
  | nil => intro pre _ _; simp [fillLoop]
  | cons x l ih =>
    intro pre hce hs
    have h1 := ih (pre ++ [x]) (by simpa using hce) (by simpa using hs)
    have h2 := (fillValue_spec (nodata := nodata) hce hs).1
    rw [List.reverse_append, List.reverse_singleton, List.singleton_append] at h1
    simp only [fillLoop, Bool.and_eq_true, h1, h2]
    simp only [List.append_assoc, List.singleton_append, reduceCtorEq, false_or]
    constructor
    · exact fun h => h.1
    · exact fun h => ⟨h, Or.inr h⟩

theorem fillLoop_get {nodata : Int} (l : List Step) : ∀ (pre : List Step),
    (∀ q ∈ pre ++ l, 0 < q.ce) → (pre ++ l).Pairwise (fun a b => a.ce < b.ce) →
    (¬ ∀ q ∈ pre ++ l, q.v = nodata) →
    ∀ a x b v, l = a ++ x :: b → (fillLoop nodata pre.reverse l).1[a.length]? = some v →
      Filled nodata (pre ++ a) x b v := by
  induction l with
  | nil => intro pre _ _ _ a x b v h; simp at h
  | cons y l ih =>
    intro pre hce hs hv a x b v h hg
    have h2 := fillValue_spec (nodata := nodata) hce hs
    cases a with
    | nil =>
      simp only [List.nil_append, List.cons.injEq] at h
      obtain ⟨rfl, rfl⟩ := h
      simp only [fillLoop, List.length_nil, List.getElem?_cons_zero, Option.some.injEq] at hg
      rw [clip_eq] at hg
      rw [← hg, List.append_nil]
      exact h2.2 (h2.1.2 hv)
    | cons z a =>
      simp only [List.cons_append, List.cons.injEq] at h
      obtain ⟨rfl, rfl⟩ := h
      have h1 := ih (pre ++ [y]) (by simpa using hce) (by simpa using hs) (by simpa using hv) a x b v rfl
      rw [List.reverse_append, List.reverse_singleton, List.singleton_append] at h1
      simp only [fillLoop, List.length_cons, List.getElem?_cons_succ] at hg
      have := h1 hg
      simpa using this

/-! ## Seasons -/

/-- The steps keep date and value. -/
theorem regular_map (θ k s y : Int) (l : List Pt) :
    (regular θ k s y l).map (fun p => (p.val, p.ce)) = l.map fun p => (p.val, p.ce) := by
  induction l generalizing s y with
  | nil => rfl
  | cons p l ih =>
    simp only [regular]
    split <;> simp [ih]

theorem regular_length (θ k s y : Int) (l : List Pt) : (regular θ k s y l).length = l.length := by
  have := congrArg List.length (regular_map θ k s y l)
  simpa using this

/-- If the series begins after the start of the first year, no season is found. -/
theorem regular_late {θ k : Int} (l : List Pt) (s y : Int) (h : ∀ p ∈ l, θ + 365 * y + k < p.ce) :
    ∀ p ∈ regular θ k s y l, p.season = s := by
  induction l with
  | nil => simp [regular]
  | cons p l ih =>
    have hp := h p (by simp)
    have : ¬ (p.ce ≥ doy2ce θ y ∧ p.ce - doy2ce θ y ≤ k) := by unfold doy2ce; omega
    simp only [regular, if_neg this]
    intro q hq
    rcases List.mem_cons.1 hq with rfl | hq
    · rfl
    · exact ih (fun p hp => h p (by simp [hp])) q hq

/-- Steps that are at most `k + 1` apart never jump over a start of the year. -/
theorem regular_spec {θ k : Int} (hk : k < 365) (l : List Pt) : ∀ (c s : Int),
    θ + 365 * s ≤ c → c < θ + 365 * (s + 1) → (∀ p ∈ l.head?, c ≤ p.ce ∧ p.ce ≤ c + (k + 1)) →
    l.IsChain (fun a b => a.ce ≤ b.ce ∧ b.ce ≤ a.ce + (k + 1)) →
    ∀ p ∈ regular θ k s (s + 1) l, θ + 365 * p.season ≤ p.ce ∧ p.ce < θ + 365 * (p.season + 1) := by
  induction l with
  | nil => intro c s _ _ _ _ p hp; simp [regular] at hp
  | cons p l ih =>
    intro c s h1 h2 h3 h4 q hq
    have h5 := h3 p (by simp)
    have hch : ∀ q ∈ l.head?, p.ce ≤ q.ce ∧ q.ce ≤ p.ce + (k + 1) := by
      intro q hq
      cases l with
      | nil => simp at hq
      | cons r l =>
        simp only [List.head?_cons, Option.mem_def, Option.some.injEq] at hq
        subst hq
        exact (List.isChain_cons_cons.1 h4).1
    have h4' : l.IsChain (fun a b => a.ce ≤ b.ce ∧ b.ce ≤ a.ce + (k + 1)) := by
      cases l with
      | nil => exact List.IsChain.nil
      | cons r l => exact (List.isChain_cons_cons.1 h4).2
    simp only [regular] at hq
    by_cases hc : p.ce ≥ doy2ce θ (s + 1) ∧ p.ce - doy2ce θ (s + 1) ≤ k
    · rw [if_pos hc] at hq
      unfold doy2ce at hc
      rcases List.mem_cons.1 hq with rfl | hq
      · simp only; omega
      · exact ih p.ce (s + 1) (by omega) (by omega) hch h4' q hq
    · rw [if_neg hc] at hq
      unfold doy2ce at hc
      rcases List.mem_cons.1 hq with rfl | hq
      · simp only; omega
      · exact ih p.ce s (by omega) (by omega) hch h4' q hq

/-! ## Shares of the seasons -/

theorem total_append (s : Int) (a b : List Pt) : total s (a ++ b) = total s a + total s b := by
  simp [total]

theorem total_nil (s : Int) : total s [] = 0 := rfl

theorem total_single (s : Int) (p : Pt) : total s [p] = if p.season = s then p.val else 0 := by
  unfold total
  by_cases h : p.season = s <;> simp [h]

theorem total_none {s : Int} {l : List Pt} (h : ∀ p ∈ l, p.season ≠ s) : total s l = 0 := by
  unfold total
  rw [List.filter_eq_nil_iff.2 (by intro p hp; simpa using h p hp)]
  rfl

theorem total_nonneg {s : Int} {l : List Pt} (h : ∀ p ∈ l, 0 ≤ p.val) : 0 ≤ total s l := by
  unfold total
  apply List.sum_nonneg
  intro x hx
  obtain ⟨p, hp, rfl⟩ := List.mem_map.1 hx
  exact h p (List.mem_filter.1 hp).1

/-- Each step of `l` (after the steps `pre`) with a value that depends on the steps before it. -/
def annot {α : Type} (g : List Pt → Pt → α) (pre : List Pt) : List Pt → List α
  | [] => []
  | p :: l => g pre p :: annot g (pre ++ [p]) l

theorem annot_append {α : Type} (g : List Pt → Pt → α) (pre a b : List Pt) :
    annot g pre (a ++ b) = annot g pre a ++ annot g (pre ++ a) b := by
  induction a generalizing pre with
  | nil => simp [annot]
  | cons p a ih => simp [annot, ih]

theorem annot_length {α : Type} (g : List Pt → Pt → α) (pre a : List Pt) : (annot g pre a).length = a.length := by
  induction a generalizing pre with
  | nil => rfl
  | cons p a ih => simp [annot, ih]

/-- Running total. -/
def runTotal (pre : List Pt) (p : Pt) : Pt × ℚ := (p, total p.season (pre ++ [p]))

/-- Share of the season in the series `l`. -/
def withShare (l pre : List Pt) (p : Pt) : Pt :=
  { p with cum := share (total p.season (pre ++ [p])) (total p.season l) }

/-- The first loop computes the running totals. -/
theorem cumsum_annot (l : List Pt) : ∀ (pre : List Pt) (s : Int) (c : ℚ), c = total s pre →
    (∀ p ∈ pre, p.season ≤ s) → (∀ p ∈ l, s ≤ p.season) → l.Pairwise (fun a b => a.season ≤ b.season) →
    cumsum s c l = annot runTotal pre l := by
  induction l with
  | nil => intros; rfl
  | cons q l ih =>
    intro pre s c hc hpre hl hs
    have hq := hl q (by simp)
    have hs' := List.pairwise_cons.1 hs
    have key : ∀ t, total t (pre ++ [q]) = total t pre + (if q.season = t then q.val else 0) := by
      intro t; rw [total_append, total_single]
    by_cases hne : q.season ≠ s
    · have h0 : total q.season pre = 0 := total_none (by intro x hx; have := hpre x hx; omega)
      simp only [cumsum, if_pos hne, annot]
      rw [ih (pre ++ [q]) q.season q.val (by rw [key, h0]; simp)
          (by
            intro x hx
            rcases List.mem_append.1 hx with hx | hx
            · exact (hpre x hx).trans hq
            · rw [List.mem_singleton.1 hx])
          hs'.1 hs'.2]
      simp [runTotal, key, h0]
    · push Not at hne
      simp only [cumsum, if_neg (not_not.2 hne), annot]
      rw [ih (pre ++ [q]) s (c + q.val) (by rw [key, hc]; simp [hne])
          (by
            intro x hx
            rcases List.mem_append.1 hx with hx | hx
            · exact hpre x hx
            · rw [List.mem_singleton.1 hx]; omega)
          (fun x hx => hl x (by simp [hx])) hs'.2]
      simp [runTotal, key, hne, hc]

/-- The second loop divides by the totals. -/
theorem toShare_annot (all : List Pt) (l : List Pt) : ∀ (post : List Pt) (s : Int) (sum : ℚ), all = l ++ post →
    sum = total s all → (∀ p ∈ l, p.season ≤ s) → (∀ p ∈ post, s ≤ p.season) →
    all.Pairwise (fun a b => a.season ≤ b.season) →
    toShare s sum (annot runTotal [] l).reverse = (annot (withShare all) [] l).reverse := by
  induction l using List.reverseRecOn with
  | nil => intros; rfl
  | append_singleton l p ih =>
    intro post s sum h1 h2 h3 h4 h5
    rw [annot_append, annot_append]
    simp only [annot, List.nil_append, List.reverse_append, List.reverse_singleton, List.singleton_append]
    have hall : all = l ++ p :: post := by rw [h1]; simp
    have hp := h3 p (by simp)
    have hpw : ∀ x ∈ l, x.season ≤ p.season := by
      rw [hall] at h5
      intro x hx
      exact (List.pairwise_append.1 h5).2.2 x hx p (by simp)
    by_cases hne : p.season ≠ s
    · have ht : total p.season (l ++ [p]) = total p.season all := by
        have : total p.season post = 0 := total_none (by
          intro x hx; have := h4 x hx; omega)
        rw [h1, total_append _ (l ++ [p]), this, add_zero]
      simp only [runTotal, toShare, if_pos hne]
      rw [ih (p :: post) p.season _ hall ht hpw (by
          intro x hx
          rcases List.mem_cons.1 hx with rfl | hx
          · exact le_refl _
          · exact hp.trans (h4 x hx)) h5]
      simp [withShare, ht, hne]
    · push Not at hne
      simp only [runTotal, toShare, if_neg (not_not.2 hne)]
      rw [ih (p :: post) s sum hall h2 (fun x hx => h3 x (by simp [hx])) (by
          intro x hx
          rcases List.mem_cons.1 hx with rfl | hx
          · omega
          · exact h4 x hx) h5]
      simp [withShare, hne, h2]

/-- Each step gets its share of its season. -/
theorem accumulate_eq (l : List Pt) (hs : l.Pairwise fun a b => a.season ≤ b.season) :
    accumulate l = annot (withShare l) [] l := by
  cases l with
  | nil => rfl
  | cons p l =>
    have hs' := List.pairwise_cons.1 hs
    have e : (p, p.val) :: cumsum p.season p.val l = annot runTotal [] (p :: l) := by
      simp only [annot, List.nil_append]
      rw [cumsum_annot l [p] p.season p.val (by simp [total_single]) (by simp) hs'.1 hs'.2]
      simp [runTotal, total_single]
    simp only [accumulate, e]
    obtain ⟨l', q, hl⟩ : ∃ l' q, p :: l = l' ++ [q] :=
      ⟨(p :: l).dropLast, (p :: l).getLast (by simp), (List.dropLast_append_getLast (by simp)).symm⟩
    have e2 : (annot runTotal [] (p :: l)).reverse =
        runTotal l' q :: (annot runTotal [] l').reverse := by
      rw [hl, annot_append]; simp [annot]
    have hle : ∀ x ∈ p :: l, x.season ≤ q.season := by
      intro x hx
      rw [hl] at hs hx
      rcases List.mem_append.1 hx with hx | hx
      · exact (List.pairwise_append.1 hs).2.2 x hx q (by simp)
      · rw [List.mem_singleton.1 hx]
    have e3 := toShare_annot (p :: l) (p :: l) [] q.season (total q.season (l' ++ [q])) (by simp)
      (by rw [hl]) hle (by simp) hs
    rw [e2] at e3 ⊢
    simp only [runTotal] at e3 ⊢
    rw [e3, List.reverse_reverse]

end Verif.Polar

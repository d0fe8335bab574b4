import Verif.Lsm.Threads

/-! # Landscape metrics: where they are computed, threads, statistics of the values -/

namespace Verif.Lsm

open Verif.Str (Out)
open Verif.Ccl (Px Image Objects)
open Verif.Index (short truncQ short_ok integerPart)
open Verif.Index.Spec (IntegerPart)
open Spec

/-- C87: the run ends, each scheduled pixel gets one result, and it has metrics if and only if it takes part,
is in a patch or all pixels are requested, and the chunk has a patch at all. Partial: the last condition
should not be there (see `c87_allpx_violated`), and the first pixel of the chunk is never in a patch (C86). -/
theorem c87_pixels_partial (par : Par) (c : Chunk) : ∃ (N : Nat), ∀ fuel, N ≤ fuel →
    ∀ sched : List (List (Int × Int)), (∀ ps ∈ sched, ∀ p ∈ ps, InGrid c p) →
    ∃ o res, landscape par c fuel sched = some (o, res) ∧ res.map Prod.fst = sched.flatten ∧
      ∀ p r, (p, r) ∈ res →
        (r.isSome = true ↔ Allowed par c p ∧ (InPatch par c p ∨ par.allpx = true) ∧ ∃ q, InPatch par c q) := by
  obtain ⟨N, o, g, h⟩ := landscape_spec par c
  refine ⟨N, ?_⟩
  intro fuel hf sched hs
  obtain ⟨res, h1, h2, h3⟩ := h fuel hf sched
  refine ⟨o, res, h1, h2, ?_⟩
  intro p r hm
  have hp : InGrid c p := by
    have : p ∈ res.map Prod.fst := List.mem_map.2 ⟨_, hm, rfl⟩
    rw [h2, List.mem_flatten] at this
    obtain ⟨ps, h, h'⟩ := this
    exact hs ps h p h'
  rw [h3 p r hm, ← usable_iff, ← g.px p hp, ← g.nobj_iff]
  split
  · rename_i hc
    simp only [Bool.and_eq_true, Bool.or_eq_true] at hc
    simp only [Option.isSome_some, true_iff]
    tauto
  · rename_i hc
    simp only [Bool.and_eq_true, Bool.or_eq_true] at hc
    simp only [Option.isSome_none, Bool.false_eq_true, false_iff]
    tauto

/-- C87, violated: if the chunk has no patch, all metrics are nodata everywhere, also when metrics are requested
for all pixels; in a chunk with a patch elsewhere, the same pixels get values (an empty kernel has 0 patches). -/
theorem c87_allpx_violated (par : Par) (c : Chunk) (_ : par.allpx = true) (hn : ∀ q, ¬ InPatch par c q) :
    ∃ (N : Nat), ∀ fuel, N ≤ fuel → ∀ sched : List (List (Int × Int)), ∃ o res,
      landscape par c fuel sched = some (o, res) ∧ ∀ p r, (p, r) ∈ res → r = none := by
  obtain ⟨N, o, g, h⟩ := landscape_spec par c
  refine ⟨N, ?_⟩
  intro fuel hf sched
  obtain ⟨res, h1, h2, h3⟩ := h fuel hf sched
  refine ⟨o, res, h1, ?_⟩
  intro p r hm
  rw [h3 p r hm, if_neg]
  rintro ⟨h, _⟩
  obtain ⟨q, hq⟩ := g.nobj_iff.1 h
  exact hn q hq

/-- C88: the result at a pixel depends neither on the distribution of the pixels over threads nor on what the
thread has done before; and the arrays of a thread are accessed within their bounds: at most as many patches as
kernel positions are listed, with identifiers from one to the number of objects. -/
theorem c88_schedule (par : Par) (c : Chunk) : ∃ (N : Nat), ∀ fuel, N ≤ fuel →
    ∀ sched sched' : List (List (Int × Int)), ∃ o res res',
      landscape par c fuel sched = some (o, res) ∧ landscape par c fuel sched' = some (o, res') ∧
      (∀ p r r', (p, r) ∈ res → (p, r') ∈ res' → r = r') ∧
      (∀ p a, (p, some a) ∈ res → a.uniq.length ≤ (2 * par.radius + 1) ^ 2 ∧
        ∀ l ∈ a.uniq, 1 ≤ l ∧ l ≤ o.nobj) := by
  obtain ⟨N, o, g, h⟩ := landscape_spec par c
  refine ⟨N, ?_⟩
  intro fuel hf sched sched'
  obtain ⟨res, h1, _, h3⟩ := h fuel hf sched
  obtain ⟨res', h1', _, h3'⟩ := h fuel hf sched'
  refine ⟨o, res, res', h1, h1', ?_, ?_⟩
  · intro p r r' hr hr'
    rw [h3 p r hr, h3' p r' hr']
  · intro p a ha
    have := h3 p _ ha
    split at this
    · cases this
      have s := measure_summary g p
      constructor
      · have hl : (measure par c o p).uniq.length ≤ (viewAt par c o p).length := by
          have hsub : (measure par c o p).uniq ⊆ (viewAt par c o p).map fun v => o.obj (p + v) := by
            intro l hl
            obtain ⟨v, hv, he⟩ := (s.uniq l).1 hl
            exact List.mem_map.2 ⟨v, hv, he⟩
          have := (List.subperm_of_subset s.nodup hsub).length_le
          simpa using this
        have : (viewAt par c o p).length ≤ (offsets par.radius).length := List.length_filter_le _ _
        rw [length_offsets] at this
        nlinarith
      · intro l hl
        obtain ⟨v, hv, he⟩ := (s.uniq l).1 hl
        rw [← he]
        exact g.range _ ((mem_viewAt g p v).1 hv).2
    · cases this

/-- `a` is what a run has for pixel `p`. -/
def Measured (par : Par) (c : Chunk) (o : Objects) (p : Int × Int) (a : Acc) : Prop :=
  ∃ N : Nat, ∀ fuel, N ≤ fuel → ∃ sched res, landscape par c fuel sched = some (o, res) ∧ (p, some a) ∈ res

theorem Measured.eq {par : Par} {c : Chunk} {o : Objects} {p : Px} {a : Acc} (h : Measured par c o p a) :
    Good par c o ∧ a = measure par c o p := by
  obtain ⟨N, h⟩ := h
  obtain ⟨N', o', g, h'⟩ := landscape_spec par c
  obtain ⟨sched, res, h1, h2⟩ := h (max N N') (le_max_left _ _)
  obtain ⟨res', h1', _, h3⟩ := h' (max N N') (le_max_right _ _) sched
  rw [h1] at h1'
  cases h1'
  refine ⟨g, ?_⟩
  have := h3 p _ h2
  split at this
  · exact Option.some.inj this
  · cases this

/-! ## Statistics of the values -/

/-- The pixels of the view with a value. -/
def valued (par : Par) (c : Chunk) (o : Objects) (p : Px) : List Px :=
  ((viewAt par c o p).map fun v => p + v).filter fun q => c.dat q ≠ c.nodata

theorem mem_map_view {par : Par} {c : Chunk} {o : Objects} (g : Good par c o) (p q : Px) :
    q ∈ ((viewAt par c o p).map fun v => p + v) ↔ InView par c p q := by
  rw [List.mem_map]
  constructor
  · rintro ⟨v, hv, rfl⟩
    exact (mem_viewAt g p v).1 hv
  · intro h
    refine ⟨q - p, ?_, by simp⟩
    rw [mem_viewAt g]
    simpa using h

theorem nodup_map_view (par : Par) (c : Chunk) (o : Objects) (p : Px) :
    ((viewAt par c o p).map fun v => p + v).Nodup :=
  (nodup_viewAt par c o p).map fun _ _ h => add_left_cancel h

theorem valuesAt_eq (par : Par) (c : Chunk) (o : Objects) (p : Px) :
    valuesAt c p (viewAt par c o p) = (valued par c o p).map c.dat := by
  unfold valuesAt valued
  rw [List.filter_map, List.filter_map, List.map_map]
  rfl

theorem foldl_max_spec (l : List Int) (z : Int) :
    z ≤ l.foldl max z ∧ (∀ x ∈ l, x ≤ l.foldl max z) ∧ (l.foldl max z = z ∨ l.foldl max z ∈ l) := by
  induction l generalizing z with
  | nil => simp
  | cons x t ih =>
    rw [List.foldl_cons]
    obtain ⟨h1, h2, h3⟩ := ih (max z x)
    refine ⟨by omega, ?_, ?_⟩
    · intro y hy
      rcases List.mem_cons.1 hy with rfl | hy
      · omega
      · exact h2 y hy
    · rcases h3 with h3 | h3
      · rw [h3]
        rcases le_total z x with h | h
        · right; simp [max_eq_right h]
        · left; exact max_eq_left h
      · right; exact List.mem_cons_of_mem _ h3

theorem wrap_of_short {x : Int} (h1 : -32768 ≤ x) (h2 : x ≤ 32767) : wrap x = x := by
  unfold wrap; omega

theorem mean_bounds (l : List ℚ) (h : l ≠ []) (lo hi : ℚ) (hb : ∀ x ∈ l, lo ≤ x ∧ x ≤ hi) :
    lo ≤ Verif.Stats.Spec.mean l ∧ Verif.Stats.Spec.mean l ≤ hi := by
  have hl : (0 : ℚ) < l.length := by exact_mod_cast List.length_pos_iff.2 h
  have key : ∀ l : List ℚ, (∀ x ∈ l, lo ≤ x ∧ x ≤ hi) → lo * l.length ≤ l.sum ∧ l.sum ≤ hi * l.length := by
    intro l
    induction l with
    | nil => simp
    | cons x t ih =>
      intro hb
      have h1 := hb x (by simp)
      have h2 := ih fun y hy => hb y (by simp [hy])
      rw [List.sum_cons, List.length_cons]
      push_cast
      constructor <;> linarith [h1.1, h1.2, h2.1, h2.2]
  have := key l hb
  unfold Verif.Stats.Spec.mean
  rw [le_div_iff₀ hl, div_le_iff₀ hl]
  exact this

/-- C89: the statistics are those of the class pixels with a value in the kernel. `W` are these pixels: ARE is
their number, limited to 32767, AVG the integer part of their mean, or 0 if there is none, STD that of the root
of the sample variance, if there are two or more, MAX the largest value, if one is not negative. GEO is computed
from the positive values; it is between the smallest and the largest of them, if the given mean is. Partial: one
value, negative values and no positive value are left out, see the theorems below. -/
theorem c89_statistics_partial {par : Par} {c : Chunk} {o : Objects} {p : Int × Int} {a : Acc}
    (h : Measured par c o p a) (hs : ∀ q, -32768 ≤ c.dat q ∧ c.dat q ≤ 32767) :
    ∃ W : Finset (Int × Int), (∀ q, q ∈ W ↔ InView par c p q ∧ c.dat q ≠ c.nodata) ∧
      are a = min 32767 W.card ∧
      (W.Nonempty → ∃ v, avg a = .ok v ∧ IntegerPart v ((∑ q ∈ W, (c.dat q : ℝ)) / W.card)) ∧
      (W = ∅ → avg a = .ok 0) ∧
      (2 ≤ W.card → ∀ (sq : ℚ → ℚ) (mean : ℚ), mean = (∑ q ∈ W, (c.dat q : ℚ)) / W.card →
        ∀ s, s = sq ((∑ q ∈ W, ((c.dat q : ℚ) - mean) ^ 2) / (W.card - 1)) → 0 ≤ s → s < 32768 →
        ∃ v, std sq a = .ok v ∧ IntegerPart v s) ∧
      ((∃ q ∈ W, 0 ≤ c.dat q) → (∀ q ∈ W, c.dat q ≤ maxv a) ∧ ∃ q ∈ W, c.dat q = maxv a) ∧
      (∃ L : List (Int × Int), L.Nodup ∧ (∀ q, q ∈ L ↔ InView par c p q ∧ 0 < c.dat q) ∧
        (L ≠ [] → ∀ (gm : List Int → ℚ) (lo hi : Int),
          (∀ q ∈ L, lo ≤ c.dat q ∧ c.dat q ≤ hi) → -32768 ≤ lo → hi ≤ 32767 →
          (lo : ℚ) ≤ gm (L.map c.dat) → gm (L.map c.dat) ≤ hi →
          ∃ v, geo gm a = .ok v ∧ IntegerPart v (gm (L.map c.dat)) ∧ lo ≤ v ∧ v ≤ hi)) := by
  obtain ⟨g, rfl⟩ := h.eq
  have s := measure_summary g p
  generalize hm : measure par c o p = a at s
  have hnd : (valued par c o p).Nodup := (nodup_map_view par c o p).filter _
  have hmem : ∀ q, q ∈ valued par c o p ↔ InView par c p q ∧ c.dat q ≠ c.nodata := by
    intro q
    unfold valued
    rw [List.mem_filter, mem_map_view g]
    simp
  generalize hL : valued par c o p = L at hnd hmem
  have hv := s.vals
  rw [valuesAt_eq, hL, List.map_map] at hv
  have hmx := s.maxVal
  rw [valuesAt_eq, hL] at hmx
  have hcard : L.toFinset.card = L.length := List.toFinset_card_of_nodup hnd
  have hn : a.n = L.length := by
    by_cases he : L = []
    · subst he
      have := congrArg Prod.fst hv
      simpa [Verif.Stats.varLoop] using this
    · rw [Verif.Stats.c36_variance _ (by simpa using he)] at hv
      have := congrArg Prod.fst hv
      simpa using this
  have hmean : L ≠ [] → a.mx = Verif.Stats.Spec.mean (L.map fun q => (c.dat q : ℚ)) ∧
      a.vx = Verif.Stats.Spec.moment 2 (L.map fun q => (c.dat q : ℚ)) := by
    intro he
    rw [Verif.Stats.c36_variance _ (by simpa using he)] at hv
    have h1 := congrArg (fun x => x.2.1) hv
    have h2 := congrArg (fun x => x.2.2) hv
    exact ⟨h1, h2⟩
  have hmq : Verif.Stats.Spec.mean (L.map fun q => (c.dat q : ℚ)) = (∑ q ∈ L.toFinset, (c.dat q : ℚ)) / L.toFinset.card := by
    unfold Verif.Stats.Spec.mean
    rw [List.sum_toFinset _ hnd, hcard, List.length_map]
  refine ⟨L.toFinset, by simpa using hmem, ?_, ?_, ?_, ?_, ?_, ?_⟩
  · unfold are
    rw [hn, hcard]
    split <;> omega
  · rintro ⟨q, hq⟩
    have he : L ≠ [] := by rintro rfl; simp at hq
    have hb := mean_bounds (L.map fun q => (c.dat q : ℚ)) (by simpa using he) (-32768) 32767 (by
      intro x hx
      rw [List.mem_map] at hx
      obtain ⟨q, _, rfl⟩ := hx
      exact ⟨by exact_mod_cast (hs q).1, by exact_mod_cast (hs q).2⟩)
    refine ⟨truncQ a.mx, ?_, ?_⟩
    · unfold avg
      rw [(hmean he).1]
      exact short_ok (by linarith [hb.1]) (by linarith [hb.2])
    · have := integerPart a.mx
      rw [(hmean he).1, hmq] at this
      rw [(hmean he).1, hmq]
      push_cast at this ⊢
      exact this
  · intro he
    have he : L = [] := by simpa using he
    subst he
    have h1 := congrArg (fun x => x.2.1) hv
    simp only [List.map_nil, Verif.Stats.varLoop] at h1
    unfold avg
    rw [h1]
    rfl
  · intro h2 sq mean hme sd hsd h0 h3
    have he : L ≠ [] := by rintro rfl; simp at h2
    rw [hcard] at h2
    have hvx : a.vx / ((a.n : ℚ) - 1) = (∑ q ∈ L.toFinset, ((c.dat q : ℚ) - mean) ^ 2) / (L.toFinset.card - 1) := by
      rw [(hmean he).2, hn, hcard, hme, ← hmq, List.sum_toFinset _ hnd]
      unfold Verif.Stats.Spec.moment
      rw [List.map_map]
      rfl
    refine ⟨truncQ sd, ?_, integerPart sd⟩
    unfold std
    rw [if_neg (by omega), if_neg (by omega)]
    unfold Verif.Stats.variance
    rw [hvx, ← hsd]
    exact short_ok (by linarith) h3
  · rintro ⟨q, hq, hq0⟩
    have hq : q ∈ L := by simpa using hq
    obtain ⟨m1, m2, m3⟩ := foldl_max_spec (L.map c.dat) 0
    rw [← hmx] at m1 m2 m3
    have hex : ∃ q ∈ L, c.dat q = a.maxVal := by
      rcases m3 with m3 | m3
      · refine ⟨q, hq, ?_⟩
        have := m2 (c.dat q) (List.mem_map.2 ⟨q, hq, rfl⟩)
        omega
      · rw [List.mem_map] at m3
        exact m3
    obtain ⟨q', hq', he'⟩ := hex
    have hw : maxv a = a.maxVal := by
      unfold maxv
      have := hs q'
      exact wrap_of_short (by omega) (by omega)
    rw [hw]
    refine ⟨?_, q', by simpa using hq', he'⟩
    intro x hx
    exact m2 _ (List.mem_map.2 ⟨x, by simpa using hx, rfl⟩)
  · refine ⟨((viewAt par c o p).map fun v => p + v).filter fun q => 0 < c.dat q,
      (nodup_map_view par c o p).filter _, ?_, ?_⟩
    · intro q
      rw [List.mem_filter, mem_map_view g]
      simp
    · have hlogs : a.logs = (((viewAt par c o p).map fun v => p + v).filter fun q => 0 < c.dat q).map c.dat := by
        rw [s.logs, List.filter_map, List.filter_map, List.map_map]
        rfl
      rw [← hlogs]
      intro hne gm lo hi hb hlo hhi h1 h2
      have hlo' : (-32768 : ℚ) ≤ lo := by exact_mod_cast hlo
      have hhi' : (hi : ℚ) ≤ 32767 := by exact_mod_cast hhi
      refine ⟨truncQ (gm a.logs), ?_, integerPart _, ?_, ?_⟩
      · unfold geo
        rw [if_neg (by rw [hlogs, List.length_map]; rwa [List.length_eq_zero_iff])]
        exact short_ok (by linarith) (by linarith)
      · rw [Verif.Index.truncQ_eq]
        split
        · exact Int.le_floor.2 h1
        · exact_mod_cast h1.trans (Int.le_ceil _)
      · rw [Verif.Index.truncQ_eq]
        split
        · exact_mod_cast (Int.floor_le _).trans h2
        · exact Int.ceil_le.2 h2

theorem measured_values {par : Par} {c : Chunk} {o : Objects} {p : Px} {a : Acc} (h : Measured par c o p a) :
    (valued par c o p).Nodup ∧ (∀ q, q ∈ valued par c o p ↔ InView par c p q ∧ c.dat q ≠ c.nodata) ∧
      a.n = (valued par c o p).length ∧ a.maxVal = ((valued par c o p).map c.dat).foldl max 0 ∧
      (∀ x, x ∈ a.logs ↔ ∃ q, InView par c p q ∧ 0 < c.dat q ∧ x = c.dat q) := by
  obtain ⟨g, rfl⟩ := h.eq
  have s := measure_summary g p
  refine ⟨(nodup_map_view par c o p).filter _, ?_, ?_, ?_, ?_⟩
  · intro q
    unfold valued
    rw [List.mem_filter, mem_map_view g]
    simp
  · have hv := s.vals
    rw [valuesAt_eq, List.map_map] at hv
    by_cases he : valued par c o p = []
    · rw [he] at hv ⊢
      have := congrArg Prod.fst hv
      simpa [Verif.Stats.varLoop] using this
    · rw [Verif.Stats.c36_variance _ (by simpa using he)] at hv
      have := congrArg Prod.fst hv
      simpa using this
  · have hmx := s.maxVal
    rwa [valuesAt_eq] at hmx
  · intro x
    rw [s.logs, List.mem_filter, List.mem_map]
    simp only [decide_eq_true_eq]
    constructor
    · rintro ⟨⟨v, hv, rfl⟩, h0⟩
      exact ⟨_, (mem_viewAt g p v).1 hv, h0, rfl⟩
    · rintro ⟨q, hq, h0, rfl⟩
      refine ⟨⟨q - p, ?_, by simp⟩, h0⟩
      rw [mem_viewAt g]
      simpa using hq

/-- C89, violated: the largest value is searched from 0. If all values in the kernel are negative (a class of
values below a negative threshold, say), MAX is 0, which no pixel of the class has. -/
theorem c89_max_violated {par : Par} {c : Chunk} {o : Objects} {p : Int × Int} {a : Acc}
    (h : Measured par c o p a) (hn : ∀ q, InView par c p q → c.dat q ≠ c.nodata → c.dat q < 0) : maxv a = 0 := by
  obtain ⟨_, h2, _, h4, _⟩ := measured_values h
  obtain ⟨m1, m2, m3⟩ := foldl_max_spec ((valued par c o p).map c.dat) 0
  rw [← h4] at m1 m2 m3
  have : a.maxVal = 0 := by
    rcases m3 with m3 | m3
    · exact m3
    · rw [List.mem_map] at m3
      obtain ⟨q, hq, he⟩ := m3
      have := hn q ((h2 q).1 hq).1 ((h2 q).1 hq).2
      omega
  unfold maxv
  rw [this]
  rfl

/-- C89, violated: if exactly one class pixel with a value is in the kernel, STD is the conversion of 0/0 to an
integer, which is undefined. -/
theorem c89_std_violated {par : Par} {c : Chunk} {o : Objects} {p : Int × Int} {a : Acc}
    (h : Measured par c o p a) (x : Int × Int) (hx : ∀ q, (InView par c p q ∧ c.dat q ≠ c.nodata) ↔ q = x)
    (sq : ℚ → ℚ) : std sq a = .ub := by
  obtain ⟨h1, h2, h3, _, _⟩ := measured_values h
  have : valued par c o p = [x] := by
    have hp : (valued par c o p).Perm [x] := by
      rw [List.perm_ext_iff_of_nodup h1 (by simp)]
      intro q
      rw [h2, hx]
      simp
    exact List.perm_singleton.1 hp
  unfold std
  rw [h3, this]
  rfl

/-- C89, violated: if no class pixel in the kernel has a positive value (with all pixels requested: if there is
no class pixel in the kernel), GEO is the conversion of `exp(0/0)` to an integer, which is undefined. -/
theorem c89_geo_violated {par : Par} {c : Chunk} {o : Objects} {p : Int × Int} {a : Acc}
    (h : Measured par c o p a) (hn : ∀ q, InView par c p q → c.dat q ≤ 0) (gm : List Int → ℚ) : geo gm a = .ub := by
  obtain ⟨_, _, _, _, h5⟩ := measured_values h
  have : a.logs = [] := by
    rw [List.eq_nil_iff_forall_not_mem]
    intro x hx
    obtain ⟨q, hq, h0, _⟩ := (h5 x).1 hx
    have := hn q hq
    omega
  unfold geo
  rw [this]
  rfl

end Verif.Lsm

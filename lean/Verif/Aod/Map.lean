import Verif.Aod.Best
import Verif.Aod.Objects

/-! # The AOD map and its dependency on elevation (C219, C220) -/

namespace Verif.Aod

open Verif.Aod.Spec
open Verif.Str (Out)

/-! ## Cells -/

theorem wmean_bounds (l : List Target) (f : Target → ℝ) (lo hi : ℝ) (h : ∀ t ∈ l, lo ≤ f t ∧ f t ≤ hi) :
    lo * (l.map fun t => t.rsq * t.rsq).sum ≤ (l.map fun t => f t * (t.rsq * t.rsq)).sum ∧
    (l.map fun t => f t * (t.rsq * t.rsq)).sum ≤ hi * (l.map fun t => t.rsq * t.rsq).sum := by
  induction l with
  | nil => simp
  | cons t l ih =>
    obtain ⟨i1, i2⟩ := ih fun x hx => h x (List.mem_cons_of_mem _ hx)
    obtain ⟨a, b⟩ := h t List.mem_cons_self
    have w := mul_self_nonneg t.rsq
    simp only [List.map_cons, List.sum_cons]
    constructor <;> nlinarith

theorem scaled_eq (hp za : ℝ) (b : Nat) (t : Target) : scaled hp za b t = t.aod b * Real.exp ((t.z - za) / hp) := by
  unfold scaled Radtran.elevScale Radtran.aodFactor
  rw [div_mul_eq_mul_div, mul_div_assoc, ← Real.exp_sub]
  congr 2; ring

theorem weight_pos (ts : List Target) (hr : ∀ t ∈ ts, 0 < t.rsq) (g : Nat) : 0 < cellWeight g ts ↔ ∃ t ∈ ts, t.g = g := by
  unfold cellWeight
  have h0 : ∀ x ∈ (ts.filter fun t => decide (t.g = g)).map fun t => t.rsq * t.rsq, 0 ≤ x := by
    simp only [List.mem_map]; rintro _ ⟨t, -, rfl⟩; exact mul_self_nonneg _
  constructor
  · intro h
    by_contra hn
    push Not at hn
    rw [List.filter_eq_nil_iff.2 (fun t ht => by simpa using hn t ht)] at h
    simp at h
  · rintro ⟨t, ht, hg⟩
    have := List.single_le_sum h0 _ (List.mem_map.2 ⟨t, List.mem_filter.2 ⟨ht, by simpa using hg⟩, rfl⟩)
    exact lt_of_lt_of_le (mul_pos (hr t ht) (hr t ht)) this

/-- C219: a cell without targets is flagged as interpolated and has no value. In every other cell the AOD is the mean of its
targets, scaled to the mean elevation of the scene and weighted with the square of their coefficients of
determination, which is between the smallest and the largest of them. -/
theorem c219_cell (hp za : ℝ) (ts : List Target) (hr : ∀ t ∈ ts, 0 < t.rsq) (b g : Nat) :
    ((∀ t ∈ ts, t.g ≠ g) → interpolated ts g = true ∧ mapCell hp za ts b g = 0) ∧
    ((∃ t ∈ ts, t.g = g) → interpolated ts g = false ∧
      mapCell hp za ts b g * ((ts.filter fun t => decide (t.g = g)).map fun t => t.rsq ^ 2).sum =
        ((ts.filter fun t => decide (t.g = g)).map fun t => t.rsq ^ 2 * (t.aod b * Real.exp ((t.z - za) / hp))).sum ∧
      ∀ lo hi, (∀ t ∈ ts, t.g = g → lo ≤ t.aod b * Real.exp ((t.z - za) / hp) ∧ t.aod b * Real.exp ((t.z - za) / hp) ≤ hi) →
        lo ≤ mapCell hp za ts b g ∧ mapCell hp za ts b g ≤ hi) := by
  constructor
  · intro h
    have hf : (ts.filter fun t => decide (t.g = g)) = [] := List.filter_eq_nil_iff.2 (fun t ht => by simpa using h t ht)
    unfold interpolated mapCell cellWeight cellSum
    rw [hf]; simp
  · intro h
    have hw := (weight_pos ts hr g).2 h
    refine ⟨by unfold interpolated; simpa using hw, ?_, fun lo hi hb => ?_⟩
    · unfold mapCell
      rw [if_pos hw]
      have : ((ts.filter fun t => decide (t.g = g)).map fun t => t.rsq ^ 2).sum = cellWeight g ts := by
        unfold cellWeight; simp only [sq]
      rw [this, div_mul_cancel₀ _ hw.ne']
      unfold cellSum
      simp only [scaled_eq, sq]
      congr 1
      apply List.map_congr_left
      intro t _; ring
    · unfold mapCell
      rw [if_pos hw]
      have := wmean_bounds (ts.filter fun t => decide (t.g = g)) (fun t => scaled hp za b t) lo hi (by
        intro t ht
        rw [List.mem_filter] at ht
        rw [scaled_eq]
        exact hb t ht.1 (by simpa using ht.2))
      rw [le_div_iff₀ hw, div_le_iff₀ hw]
      exact this

/-! ## Interpolation and filter -/

theorem around_nodup (ne nf e f : Nat) : (around ne nf e f).Nodup := by
  unfold around
  refine List.Nodup.filterMap ?_ ?_
  · intro p q a hp hq
    simp only [Option.mem_def] at hp hq
    split at hp
    · cases hp
    · split at hq
      · cases hq
      · rename_i h1 h2
        simp only [not_or, not_lt, not_le, ge_iff_le] at h1 h2
        have e1 := Option.some.inj hp
        have e2 := Option.some.inj hq
        have m1 : 0 ≤ p.1 * (nf : Int) := mul_nonneg h1.1 (by omega)
        have m2 : 0 ≤ q.1 * (nf : Int) := mul_nonneg h2.1 (by omega)
        have e3 : p.1 * (nf : Int) + p.2 = q.1 * (nf : Int) + q.2 := by omega
        have a1 : (p.2 + p.1 * (nf : Int)) / nf = p.1 := by
          rw [Int.add_mul_ediv_right _ _ (by omega), Int.ediv_eq_zero_of_lt h1.2.1 h1.2.2.2, zero_add]
        have a2 : (q.2 + q.1 * (nf : Int)) / nf = q.1 := by
          rw [Int.add_mul_ediv_right _ _ (by omega), Int.ediv_eq_zero_of_lt h2.2.1 h2.2.2.2, zero_add]
        have e4 : p.1 = q.1 := by
          rw [← a1, ← a2, add_comm, e3, add_comm]
        refine Prod.ext e4 ?_
        rw [e4] at e3; omega
  · have : ((intRange (-1) 1).flatMap fun ee => (intRange (-1) 1).map fun ff => ((e : Int) + ee, (f : Int) + ff)) =
        ((intRange (-1) 1).product (intRange (-1) 1)).map fun p : Int × Int => ((e : Int) + p.1, (f : Int) + p.2) := by
      rw [List.product, List.map_flatMap]
      simp only [List.map_map]
      rfl
    rw [this]
    refine List.Nodup.map ?_ ((nodup_intRange _ _).product (nodup_intRange _ _))
    intro p q h
    simp only [Prod.mk.injEq] at h
    exact Prod.ext (by omega) (by omega)

theorem mem_around (ne nf e f g : Nat) : g ∈ around ne nf e f ↔
    g < ne * nf ∧ (e : Int) - 1 ≤ (g / nf : Nat) ∧ ((g / nf : Nat) : Int) ≤ e + 1 ∧
      (f : Int) - 1 ≤ (g % nf : Nat) ∧ ((g % nf : Nat) : Int) ≤ f + 1 := by
  unfold around
  simp only [List.mem_filterMap, List.mem_flatMap, List.mem_map, mem_intRange]
  constructor
  · rintro ⟨p, ⟨ee, he, ff, hf, rfl⟩, h⟩
    split at h
    · cases h
    · rename_i hn
      simp only [not_or, not_lt, not_le, ge_iff_le] at hn
      obtain ⟨n1, n2, n3, n4⟩ := hn
      have e1 := Option.some.inj h
      obtain ⟨a, ha⟩ := Int.eq_ofNat_of_zero_le n1
      obtain ⟨c, hc⟩ := Int.eq_ofNat_of_zero_le n2
      rw [ha, hc] at e1
      rw [ha] at n3; rw [hc] at n4
      have e2 : g = a * nf + c := by
        have : ((a : Int) * nf + c).toNat = a * nf + c := by
          rw [← Nat.cast_mul, ← Nat.cast_add]; exact Int.toNat_natCast _
        rw [← e1, this]
      have d1 : g / nf = a := by
        rw [e2, add_comm, Nat.add_mul_div_right _ _ (by omega), Nat.div_eq_of_lt (by omega), zero_add]
      have d2 : g % nf = c := by
        rw [e2, add_comm, Nat.add_mul_mod_self_right, Nat.mod_eq_of_lt (by omega)]
      refine ⟨?_, by omega, by omega, by omega, by omega⟩
      rw [e2]
      calc a * nf + c < a * nf + nf := by omega
        _ = (a + 1) * nf := by ring
        _ ≤ ne * nf := Nat.mul_le_mul_right _ (by omega)
  · rintro ⟨h0, h1, h2, h3, h4⟩
    have hnf : 0 < nf := by
      rcases Nat.eq_zero_or_pos nf with h | h
      · rw [h] at h0; simp at h0
      · exact h
    have k1 : g / nf < ne := (Nat.div_lt_iff_lt_mul hnf).2 h0
    have k2 := Nat.mod_lt g hnf
    refine ⟨(((g / nf : Nat) : Int), ((g % nf : Nat) : Int)), ⟨((g / nf : Nat) : Int) - e, by omega, ((g % nf : Nat) : Int) - f, by omega, ?_⟩, ?_⟩
    · exact Prod.ext (by simp) (by simp)
    · have p1 : (0 : Int) ≤ (g / nf : Nat) := Int.natCast_nonneg _
      have p2 : (0 : Int) ≤ (g % nf : Nat) := Int.natCast_nonneg _
      have p3 : ((g / nf : Nat) : Int) < ne := by exact_mod_cast k1
      have p4 : ((g % nf : Nat) : Int) < nf := by exact_mod_cast k2
      rw [if_neg (by rintro (h | h | h | h) <;> simp only at h <;> omega)]
      simp only
      have : ((g / nf : Nat) : Int) * nf + (g % nf : Nat) = g := by
        have := Nat.div_add_mod g nf
        rw [mul_comm] at this
        exact_mod_cast this
      rw [this]; rfl

theorem avg_bounds (l : List ℝ) (hl : l ≠ []) (lo hi : ℝ) (h : ∀ x ∈ l, lo ≤ x ∧ x ≤ hi) : lo ≤ avg l ∧ avg l ≤ hi := by
  have hn : (0 : ℝ) < l.length := by rw [Nat.cast_pos]; exact List.length_pos_of_ne_nil hl
  unfold avg
  rw [le_div_iff₀ hn, div_le_iff₀ hn]
  clear hn hl
  induction l with
  | nil => simp
  | cons x l ih =>
    obtain ⟨i1, i2⟩ := ih fun y hy => h y (List.mem_cons_of_mem _ hy)
    obtain ⟨a, b⟩ := h x List.mem_cons_self
    simp only [List.sum_cons, List.length_cons, Nat.cast_add, Nat.cast_one]
    constructor <;> nlinarith

theorem self_around (ne nf g : Nat) (h : g < ne * nf) : g ∈ around ne nf (g / nf) (g % nf) :=
  (mem_around _ _ _ _ _).2 ⟨h, by omega, by omega, by omega, by omega⟩

theorem mem_samples (map : Nat → Nat → ℝ) (green nf ng b : Nat) (p : Nat × Nat × ℝ) :
    p ∈ samples map green nf ng b ↔ ∃ g, g < ng ∧ 0 < map green g ∧ p = (g % nf, g / nf, map b g) := by
  unfold samples
  simp only [List.mem_map, List.mem_filter, List.mem_range, decide_eq_true_eq]
  constructor
  · rintro ⟨g, ⟨a, c⟩, rfl⟩; exact ⟨g, a, c, rfl⟩
  · rintro ⟨g, a, c, rfl⟩; exact ⟨g, ⟨a, c⟩, rfl⟩

/-- C219: the map is interpolated from the cells with targets, each at its own position, and every cell with a view
angle gets the mean of the interpolated values of the cells around it that are inside of the map. All other cells keep their value.
If the interpolation stays between its smallest and largest sample, so do the map and the AOD of the scene. -/
theorem c219_map (idw : List (Nat × Nat × ℝ) → Nat → ℝ) (hp za : ℝ) (ts : List Target) (hr : ∀ t ∈ ts, 0 < t.rsq) (hne : ts ≠ [])
    (view : Nat → Bool) (green ne nf b : Nat) (hg : ∀ t ∈ ts, t.g < ne * nf ∧ 0 < t.aod green) (lo hi : ℝ) (hlo : 0 < lo)
    (hb : ∀ t ∈ ts, lo ≤ t.aod b * Real.exp ((t.z - za) / hp) ∧ t.aod b * Real.exp ((t.z - za) / hp) ≤ hi)
    (hidw : ∀ s, s ≠ [] → ∀ l u : ℝ, (∀ p ∈ s, l ≤ p.2.2 ∧ p.2.2 ≤ u) → ∀ g, l ≤ idw s g ∧ idw s g ≤ u) :
    let r := interpolate idw (mapCell hp za ts) view green ne nf b
    ∃ s : List (Nat × Nat × ℝ), (∀ p, p ∈ s ↔ ∃ g, (∃ t ∈ ts, t.g = g) ∧ p = (g % nf, g / nf, mapCell hp za ts b g)) ∧
    (∀ g, view g = false → r.1 g = none) ∧
    (∀ g, g < ne * nf → view g = true → ∃ l : List Nat, l.Nodup ∧
      (∀ x, x ∈ l ↔ x < ne * nf ∧ |((x / nf : Nat) : Int) - (g / nf : Nat)| ≤ 1 ∧ |((x % nf : Nat) : Int) - (g % nf : Nat)| ≤ 1) ∧
      r.1 g = some ((l.map (idw s)).sum / l.length) ∧
      lo ≤ (l.map (idw s)).sum / l.length ∧ (l.map (idw s)).sum / l.length ≤ hi) ∧
    ((∃ g, g < ne * nf ∧ view g = true) → lo ≤ r.2 ∧ r.2 ≤ hi ∧
      r.2 = ((List.range (ne * nf)).filterMap r.1).sum / ((List.range (ne * nf)).filterMap r.1).length) := by
  intro r
  have hpos : ∀ g, 0 < mapCell hp za ts green g ↔ ∃ t ∈ ts, t.g = g := by
    intro g
    constructor
    · intro h
      by_contra hn
      push Not at hn
      rw [((c219_cell hp za ts hr green g).1 hn).2] at h
      exact lt_irrefl _ h
    · intro h
      obtain ⟨-, heq, -⟩ := (c219_cell hp za ts hr green g).2 h
      have w := (weight_pos ts hr g).2 h
      obtain ⟨t, ht, htg⟩ := h
      unfold mapCell
      rw [if_pos w]
      refine div_pos ?_ w
      unfold cellSum
      have h0 : ∀ x ∈ (ts.filter fun t => decide (t.g = g)).map fun t => scaled hp za green t * (t.rsq * t.rsq), 0 ≤ x := by
        simp only [List.mem_map, List.mem_filter]; rintro _ ⟨x, hx, rfl⟩
        rw [scaled_eq]
        exact mul_nonneg (mul_pos (hg x hx.1).2 (Real.exp_pos _)).le (mul_self_nonneg _)
      refine lt_of_lt_of_le ?_ (List.single_le_sum h0 _ (List.mem_map.2 ⟨t, List.mem_filter.2 ⟨ht, by simpa using htg⟩, rfl⟩))
      rw [scaled_eq]
      exact mul_pos (mul_pos (hg t ht).2 (Real.exp_pos _)) (mul_pos (hr t ht) (hr t ht))
  have hs : ∀ p, p ∈ samples (mapCell hp za ts) green nf (ne * nf) b ↔
      ∃ g, (∃ t ∈ ts, t.g = g) ∧ p = (g % nf, g / nf, mapCell hp za ts b g) := by
    intro p
    rw [mem_samples]
    constructor
    · rintro ⟨g, -, h2, h3⟩; exact ⟨g, (hpos g).1 h2, h3⟩
    · rintro ⟨g, h2, h3⟩
      refine ⟨g, ?_, (hpos g).2 h2, h3⟩
      obtain ⟨t, ht, e⟩ := h2
      exact e ▸ (hg t ht).1
  have hsne : samples (mapCell hp za ts) green nf (ne * nf) b ≠ [] := by
    obtain ⟨t, ht⟩ := List.exists_mem_of_ne_nil _ hne
    exact List.ne_nil_of_mem ((hs _).2 ⟨t.g, ⟨t, ht, rfl⟩, rfl⟩)
  have hi1 := hidw _ hsne lo hi (by
    intro p hp'
    obtain ⟨g, ht, rfl⟩ := (hs p).1 hp'
    exact ((c219_cell hp za ts hr b g).2 ht).2.2 lo hi fun t h _ => hb t h)
  have hr1 : ∀ g, r.1 g = if view g then some (smooth (idw (samples (mapCell hp za ts) green nf (ne * nf) b)) ne nf (g / nf) (g % nf)) else none :=
    fun _ => rfl
  have hsm : ∀ g, g < ne * nf → lo ≤ smooth (idw (samples (mapCell hp za ts) green nf (ne * nf) b)) ne nf (g / nf) (g % nf) ∧
      smooth (idw (samples (mapCell hp za ts) green nf (ne * nf) b)) ne nf (g / nf) (g % nf) ≤ hi ∧
      smooth (idw (samples (mapCell hp za ts) green nf (ne * nf) b)) ne nf (g / nf) (g % nf) =
        avg ((around ne nf (g / nf) (g % nf)).map (idw (samples (mapCell hp za ts) green nf (ne * nf) b))) := by
    intro g hgl
    have hne' := List.ne_nil_of_mem (self_around ne nf g hgl)
    unfold smooth
    rw [if_pos (List.length_pos_of_ne_nil hne')]
    have := avg_bounds ((around ne nf (g / nf) (g % nf)).map (idw (samples (mapCell hp za ts) green nf (ne * nf) b)))
      (by simpa using hne') lo hi (by
        intro x hx
        obtain ⟨g', -, rfl⟩ := List.mem_map.1 hx
        exact hi1 g')
    exact ⟨this.1, this.2, rfl⟩
  refine ⟨samples (mapCell hp za ts) green nf (ne * nf) b, hs, ?_, ?_, ?_⟩
  · intro g hv
    rw [hr1, hv]; rfl
  · intro g hgl hv
    obtain ⟨h1, h2, h3⟩ := hsm g hgl
    refine ⟨around ne nf (g / nf) (g % nf), around_nodup _ _ _ _, fun x => ?_, ?_, ?_, ?_⟩
    · rw [mem_around, abs_le, abs_le]
      constructor
      · rintro ⟨a, b1, b2, b3, b4⟩; exact ⟨a, ⟨by omega, by omega⟩, ⟨by omega, by omega⟩⟩
      · rintro ⟨a, ⟨b1, b2⟩, ⟨b3, b4⟩⟩; exact ⟨a, by omega, by omega, by omega, by omega⟩
    · rw [hr1, hv, if_pos rfl, h3]; unfold avg; rw [List.length_map]
    · rw [h3] at h1; unfold avg at h1; rwa [List.length_map] at h1
    · rw [h3] at h2; unfold avg at h2; rwa [List.length_map] at h2
  · rintro ⟨g, hgl, hv⟩
    have all : ∀ x ∈ (List.range (ne * nf)).filterMap r.1, lo ≤ x ∧ x ≤ hi := by
      intro x hx
      rw [List.mem_filterMap] at hx
      obtain ⟨g', hg', e⟩ := hx
      rw [List.mem_range] at hg'
      rw [hr1] at e
      split at e
      · have := Option.some.inj e
        rw [← this]
        exact ⟨(hsm g' hg').1, (hsm g' hg').2.1⟩
      · cases e
    have hfil : ((List.range (ne * nf)).filterMap r.1).filter (fun a => decide (a > 0)) = (List.range (ne * nf)).filterMap r.1 :=
      List.filter_eq_self.2 fun x hx => by simpa using hlo.trans_le (all x hx).1
    have hnon : (List.range (ne * nf)).filterMap r.1 ≠ [] := by
      refine List.ne_nil_of_mem (a := smooth (idw (samples (mapCell hp za ts) green nf (ne * nf) b)) ne nf (g / nf) (g % nf)) (List.mem_filterMap.2 ⟨g, List.mem_range.2 hgl, ?_⟩)
      rw [hr1, hv, if_pos rfl]
    have h2 : r.2 = avg ((List.range (ne * nf)).filterMap r.1) := by
      have : r.2 = if (((List.range (ne * nf)).filterMap r.1).filter (fun a => decide (a > 0))).length > 0 then
          avg (((List.range (ne * nf)).filterMap r.1).filter (fun a => decide (a > 0))) else 0 := rfl
      rw [this, hfil, if_pos (List.length_pos_of_ne_nil hnon)]
    have := avg_bounds _ hnon lo hi all
    refine ⟨h2 ▸ this.1, h2 ▸ this.2, h2⟩

/-! ## Elevation -/

theorem fill_ok (n k : Nat) (ts : List Target) (h : k + ts.length ≤ n) : fill n k ts = .ok (k + ts.length) := by
  induction ts generalizing k with
  | nil => rfl
  | cons t ts ih =>
    rw [List.length_cons] at h
    rw [fill, if_pos (by omega), ih (k + 1) (by omega), List.length_cons]
    congr 1; omega

theorem fold_minR (l : List ℝ) (m : ℝ) :
    let r := l.foldl (fun m z => if z < m then z else m) m
    r ≤ m ∧ (∀ z ∈ l, r ≤ z) ∧ (r = m ∨ r ∈ l) := by
  induction l generalizing m with
  | nil => simp
  | cons z l ih =>
    simp only [List.foldl_cons]
    obtain ⟨h1, h2, h3⟩ := ih (if z < m then z else m)
    split_ifs at h1 h2 h3 ⊢ with hz
    · refine ⟨h1.trans hz.le, ?_, ?_⟩
      · rintro x (_ | ⟨_, hx⟩)
        · exact h1
        · exact h2 x ‹_›
      · rcases h3 with h | h
        · right; rw [h]; exact List.mem_cons_self
        · exact .inr (List.mem_cons_of_mem _ h)
    · refine ⟨h1, ?_, ?_⟩
      · rintro x (_ | ⟨_, hx⟩)
        · exact h1.trans (not_lt.1 hz)
        · exact h2 x ‹_›
      · rcases h3 with h | h
        · exact .inl h
        · exact .inr (List.mem_cons_of_mem _ h)

theorem fold_maxR (l : List ℝ) (m : ℝ) :
    let r := l.foldl (fun m z => if z > m then z else m) m
    m ≤ r ∧ (∀ z ∈ l, z ≤ r) ∧ (r = m ∨ r ∈ l) := by
  induction l generalizing m with
  | nil => simp
  | cons z l ih =>
    simp only [List.foldl_cons]
    obtain ⟨h1, h2, h3⟩ := ih (if z > m then z else m)
    split_ifs at h1 h2 h3 ⊢ with hz
    · refine ⟨hz.le.trans h1, ?_, ?_⟩
      · rintro x (_ | ⟨_, hx⟩)
        · exact h1
        · exact h2 x ‹_›
      · rcases h3 with h | h
        · right; rw [h]; exact List.mem_cons_self
        · exact .inr (List.mem_cons_of_mem _ h)
    · refine ⟨h1, ?_, ?_⟩
      · rintro x (_ | ⟨_, hx⟩)
        · exact (not_lt.1 hz).trans h1
        · exact h2 x ‹_›
      · rcases h3 with h | h
        · exact .inl h
        · exact .inr (List.mem_cons_of_mem _ h)

/-- C220: the scaling height is found without writing beyond the arrays. It is at least 1.2 km and at most 1000 km, and it
is 1000 km (no dependency) unless there are more than three valid targets, the elevations in the scene differ by more than
100 m, and those of two targets do. In that case it is the optimum that was found, at least 1.2 km. -/
theorem c220_height (brent : Option ℝ) (hbr : ∀ x, brent = some x → 0.1 ≤ x ∧ x ≤ 1000) (dem : ℝ) (wat veg : List Target)
    (hz : ∀ t ∈ wat ++ veg, -1 ≤ t.z ∧ t.z ≤ 10) :
    ∃ hp, height brent dem wat.length veg.length wat veg = .ok hp ∧ 1.2 ≤ hp ∧ hp ≤ 1000 ∧
      ((wat.length + veg.length ≤ 3 ∨ dem ≤ 0.1 ∨ ∀ s ∈ wat ++ veg, ∀ t ∈ wat ++ veg, t.z - s.z ≤ 0.1) → hp = 1000) ∧
      (3 < wat.length + veg.length → 0.1 < dem → (∃ s ∈ wat ++ veg, ∃ t ∈ wat ++ veg, 0.1 < t.z - s.z) →
        hp = (brent.map (max 1.2)).getD 1000) := by
  unfold height
  simp only [Nat.add_zero]
  by_cases hc : wat.length + veg.length > 3 ∧ dem > 0.1
  · rw [if_pos hc, fill_ok _ _ _ (by rw [List.length_append]; omega)]
    have hlen : 0 < (wat ++ veg).length := by rw [List.length_append]; omega
    generalize wat ++ veg = l at hz hlen ⊢
    simp only [Out.bind]
    obtain ⟨a1, a2, a3⟩ := fold_minR (l.map (·.z)) 2147483647
    obtain ⟨b1, b2, b3⟩ := fold_maxR (l.map (·.z)) (-2147483648)
    generalize (l.map (·.z)).foldl (fun m z => if z < m then z else m) 2147483647 = zmin at a1 a2 a3 ⊢
    generalize (l.map (·.z)).foldl (fun m z => if z > m then z else m) (-2147483648) = zmax at b1 b2 b3 ⊢
    obtain ⟨t0, ht0⟩ := List.exists_mem_of_length_pos hlen
    have mm : ∀ t ∈ l, zmin ≤ t.z ∧ t.z ≤ zmax := fun t ht =>
      ⟨a2 _ (List.mem_map.2 ⟨t, ht, rfl⟩), b2 _ (List.mem_map.2 ⟨t, ht, rfl⟩)⟩
    have z1 : ∃ s ∈ l, s.z = zmin := by
      rcases a3 with h | h
      · have := (mm t0 ht0).1; have := (hz t0 ht0).2; rw [h] at *; norm_num at *; linarith
      · exact List.mem_map.1 h
    have z2 : ∃ s ∈ l, s.z = zmax := by
      rcases b3 with h | h
      · have := (mm t0 ht0).2; have := (hz t0 ht0).1; rw [h] at *; norm_num at *; linarith
      · exact List.mem_map.1 h
    by_cases hd : zmax - zmin > 0.1
    · rw [if_pos hd]
      have hno : ¬(wat.length + veg.length ≤ 3 ∨ dem ≤ 0.1 ∨ ∀ s ∈ l, ∀ t ∈ l, t.z - s.z ≤ 0.1) := by
        rintro (h | h | h)
        · omega
        · exact absurd hc.2 (not_lt.2 h)
        · obtain ⟨s, hs, es⟩ := z1
          obtain ⟨t, ht, et⟩ := z2
          have := h s hs t ht
          rw [es, et] at this
          exact absurd hd (not_lt.2 this)
      cases hbrent : brent with
      | none =>
        exact ⟨1000, rfl, by norm_num, le_refl _, fun _ => rfl, fun _ _ _ => rfl⟩
      | some x =>
        obtain ⟨x1, x2⟩ := hbr x hbrent
        refine ⟨if x < 1.2 then 1.2 else x, rfl, ?_, ?_, fun h => absurd h hno, fun _ _ _ => ?_⟩
        · split_ifs with h
          · exact le_refl _
          · exact not_lt.1 h
        · split_ifs with h
          · norm_num
          · exact x2
        · rw [Option.map_some, Option.getD_some]
          split_ifs with h
          · exact (max_eq_left h.le).symm
          · exact (max_eq_right (not_lt.1 h)).symm
    · rw [if_neg hd]
      refine ⟨1000, rfl, by norm_num, le_refl _, fun _ => rfl, fun _ _ ⟨s, hs, t, ht, h⟩ => ?_⟩
      have := mm s hs; have := mm t ht
      exact absurd (show zmax - zmin > 0.1 by linarith) hd
  · rw [if_neg hc]
    refine ⟨1000, rfl, by norm_num, le_refl _, fun _ => rfl, fun h1 h2 => absurd ⟨h1, h2⟩ hc⟩

end Verif.Aod

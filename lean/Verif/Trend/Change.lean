import Verif.Trend.Props

/-!
# Properties of the change and trend analysis
-/

namespace Verif.Trend

open Verif.Str (Out)
open Verif.Fold (truncR shortOf truncR_intPart truncR_of)
open Verif.Fold.Spec (IntPart reals std)
open Verif.Stats.Spec (mean moment comoment sse)
open Verif.Stats
open Verif.Trend.Spec

/-! ## C61: change -/

theorem prevValid_some {nodata : Int} {l : List Layer} {f : Nat} {pre : Int} (h : prevValid nodata l f = some pre) :
    ∃ g, g < f ∧ ∃ x : Layer, l[g]? = some x ∧ x.v ≠ nodata ∧ x.v = pre ∧
      ∀ (k : Nat) (z : Layer), g < k → k < f → l[k]? = some z → z.v = nodata := by
  induction f with
  | zero => cases h
  | succ f ih =>
    unfold prevValid at h
    cases hf : l[f]? with
    | none => rw [hf] at h; cases h
    | some y =>
      rw [hf] at h
      simp only at h
      by_cases hy : y.v = nodata
      · rw [if_pos hy] at h
        obtain ⟨g, hg, x, h1, h2, h3, h4⟩ := ih h
        refine ⟨g, by omega, x, h1, h2, h3, ?_⟩
        intro k z h5 h6 h7
        by_cases hk : k = f
        · subst hk; rw [hf] at h7; cases h7; exact hy
        · exact h4 k z h5 (by omega) h7
      · rw [if_neg hy] at h
        cases h
        refine ⟨f, by omega, y, hf, hy, rfl, ?_⟩
        intro k z h5 h6; omega

theorem prevValid_of {nodata : Int} {l : List Layer} {f g : Nat} {x : Layer} (hg : g < f) (hx : l[g]? = some x)
    (hv : x.v ≠ nodata) (hf : f ≤ l.length)
    (hn : ∀ (k : Nat) (z : Layer), g < k → k < f → l[k]? = some z → z.v = nodata) :
    prevValid nodata l f = some x.v := by
  induction f with
  | zero => omega
  | succ f ih =>
    unfold prevValid
    by_cases he : g = f
    · subst he; rw [hx]; simp only; rw [if_neg hv]
    · have hlt : f < l.length := by omega
      have e : l[f]? = some l[f] := List.getElem?_eq_getElem hlt
      rw [e]
      simp only
      rw [if_pos (hn f _ (by omega) (by omega) e)]
      exact ih (by omega) (by omega) (fun k z h1 h2 => hn k z h1 (by omega))

/-- The step without penalty, in terms of the drops. -/
theorem changeStep_eq (nodata : Int) (l : List Layer) (st : ℚ × Nat) (f : Nat) (hf : f < l.length) :
    (∃ d, Drop nodata l f d ∧ changeStep false nodata l st f = if (d : ℚ) > st.1 then ((d : ℚ), f) else st) ∨
    ((∀ d, ¬ Drop nodata l f d) ∧ changeStep false nodata l st f = st) := by
  have e : l[f]? = some l[f] := List.getElem?_eq_getElem hf
  unfold changeStep
  rw [e]
  simp only
  by_cases hy : l[f].v = nodata
  · right
    refine ⟨?_, by rw [if_pos hy]⟩
    rintro d ⟨g, hg, x, y, h1, h2, h3, h4, -⟩
    rw [e] at h2; cases h2; exact h4 hy
  · rw [if_neg hy]
    cases hp : prevValid nodata l f with
    | none =>
      right
      refine ⟨?_, rfl⟩
      rintro d ⟨g, hg, x, y, h1, h2, h3, h4, h5, -⟩
      rw [prevValid_of hg h1 h3 (by omega) h5] at hp
      cases hp
    | some pre =>
      left
      obtain ⟨g, hg, x, h1, h2, h3, h4⟩ := prevValid_some hp
      refine ⟨pre - l[f].v, ⟨g, hg, x, l[f], h1, e, h2, hy, h4, by rw [h3]⟩, ?_⟩
      simp

theorem drop_unique {nodata : Int} {l : List Layer} {f : Nat} {d d' : Int} (h : Drop nodata l f d)
    (h' : Drop nodata l f d') : d = d' := by
  obtain ⟨g, hg, x, y, h1, h2, h3, h4, h5, h6⟩ := h
  obtain ⟨g', hg', x', y', h1', h2', h3', h4', h5', h6'⟩ := h'
  have : g = g' := by
    rcases Nat.lt_trichotomy g g' with h | h | h
    · exact absurd (h5 g' x' h hg' h1') h3'
    · exact h
    · exact absurd (h5' g x h hg h1) h3
  subst this
  rw [h1] at h1'; rw [h2] at h2'
  cases h1'; cases h2'
  rw [h6, h6']

theorem drop_lt {nodata : Int} {l : List Layer} {f : Nat} {d : Int} (h : Drop nodata l f d) :
    1 ≤ f ∧ f < l.length := by
  obtain ⟨g, hg, x, y, h1, h2, -⟩ := h
  exact ⟨by omega, (List.getElem?_eq_some_iff.1 h2).1⟩

/-- State of the search after the layers before `m`. -/
def Searched (nodata : Int) (l : List Layer) (m : Nat) (st : ℚ × Nat) : Prop :=
  ((∀ f d, f < m → ¬ Drop nodata l f d) ∧ st = (-32768, 0)) ∨
  ∃ d : Int, st.1 = d ∧ st.2 < m ∧ Drop nodata l st.2 d ∧ -32768 < d ∧
    ∀ f d', f < m → Drop nodata l f d' → d' ≤ d ∧ (f < st.2 → d' < d)

theorem searched_step {nodata : Int} {l : List Layer} {m : Nat} {st : ℚ × Nat} (h : Searched nodata l m st)
    (hm : m < l.length) (hr : ∀ f d, Drop nodata l f d → -32768 < d) :
    Searched nodata l (m + 1) (changeStep false nodata l st m) := by
  rcases changeStep_eq nodata l st m hm with ⟨d, hd, e⟩ | ⟨hn, e⟩
  · rw [e]
    rcases h with ⟨h1, rfl⟩ | ⟨d0, h1, h2, h3, h3', h4⟩
    · have hd0 : ((d : Int) : ℚ) > -32768 := by exact_mod_cast hr m d hd
      rw [if_pos hd0]
      right
      refine ⟨d, rfl, by simp, hd, hr m d hd, ?_⟩
      intro f d' hf hdf
      by_cases hfm : f = m
      · subst hfm
        exact ⟨le_of_eq (drop_unique hdf hd), by simp⟩
      · exact absurd hdf (h1 f d' (by omega))
    · by_cases hlt : (d : ℚ) > st.1
      · rw [if_pos hlt]
        right
        rw [h1] at hlt
        have hlt : d0 < d := by exact_mod_cast hlt
        refine ⟨d, rfl, by simp, hd, by omega, ?_⟩
        intro f d' hf hdf
        by_cases hfm : f = m
        · subst hfm
          exact ⟨le_of_eq (drop_unique hdf hd), by simp⟩
        · have := (h4 f d' (by omega) hdf).1
          exact ⟨by omega, fun _ => by omega⟩
      · rw [if_neg hlt]
        right
        rw [h1] at hlt
        have hlt : ¬ d0 < d := by exact_mod_cast hlt
        refine ⟨d0, h1, by omega, h3, h3', ?_⟩
        intro f d' hf hdf
        by_cases hfm : f = m
        · subst hfm
          rw [drop_unique hdf hd]
          exact ⟨by omega, by omega⟩
        · exact h4 f d' (by omega) hdf
  · rw [e]
    rcases h with ⟨h1, rfl⟩ | ⟨d0, h1, h2, h3, h3', h4⟩
    · left
      refine ⟨?_, rfl⟩
      intro f d hf
      by_cases hfm : f = m
      · subst hfm; exact hn d
      · exact h1 f d (by omega)
    · right
      refine ⟨d0, h1, by omega, h3, h3', ?_⟩
      intro f d' hf hdf
      by_cases hfm : f = m
      · subst hfm; exact absurd hdf (hn d')
      · exact h4 f d' (by omega) hdf

theorem searched (nodata : Int) (l : List Layer) (hr : ∀ f d, Drop nodata l f d → -32768 < d) :
    Searched nodata l l.length (findChange false nodata l) := by
  have key : ∀ k, k ≤ l.length - 1 →
      Searched nodata l (k + 1) ((List.range' 1 k).foldl (changeStep false nodata l) (-32768, 0)) := by
    intro k
    induction k with
    | zero =>
      intro _
      left
      refine ⟨?_, rfl⟩
      intro f d hf hd
      have := (drop_lt hd).1
      omega
    | succ k ih =>
      intro hk
      rw [List.range'_concat, List.foldl_append]
      simp only [List.foldl_cons, List.foldl_nil]
      have := searched_step (ih (by omega)) (by omega) hr
      rw [show 1 + 1 * k = k + 1 by omega]
      exact this
  unfold findChange
  cases hl : l.length with
  | zero =>
    left
    refine ⟨?_, by rfl⟩
    intro f d hf; omega
  | succ n =>
    have := key n (by omega)
    simpa using this

/-- Values that fit into 15 bits. -/
def Small (nodata : Int) (l : List Layer) : Prop := ∀ f ∈ l, f.v ≠ nodata → -16384 ≤ f.v ∧ f.v ≤ 16383

theorem small_drop {nodata : Int} {l : List Layer} (h : Small nodata l) (f : Nat) (d : Int) (hd : Drop nodata l f d) :
    -32768 < d ∧ d ≤ 32767 := by
  obtain ⟨g, hg, x, y, h1, h2, h3, h4, h5, h6⟩ := hd
  have a := h x (List.mem_of_getElem? h1) h3
  have b := h y (List.mem_of_getElem? h2) h4
  omega

/-- C61: without penalty, the reported change is the greatest decrease from a valid value to the next valid value, and
the reported time is that of the first such decrease; without two valid values everything is nodata. -/
theorem c61_change_partial (c : Conf) (l : List Layer) (hs : Small c.nodata l) (r : Cat)
    (h : cat c false true l = .ok r) :
    ((∀ f d, ¬ Drop c.nodata l f d) ∧ r = Cat.const c.nodata) ∨
    ∃ f d, Drop c.nodata l f d ∧ r.change = d ∧ (∃ y : Layer, l[f]? = some y ∧ r.year = y.t) ∧
      ∀ f' d', Drop c.nodata l f' d' → d' ≤ d ∧ (f' < f → d' < d) := by
  unfold cat at h
  simp only [Bool.not_true, Bool.false_eq_true, if_false] at h
  rcases searched c.nodata l (fun f d hd => (small_drop hs f d hd).1) with ⟨h1, h2⟩ | ⟨d, h1, h2, h3, h3', h4⟩
  · left
    rw [h2] at h
    simp only [if_true] at h
    cases h
    exact ⟨fun f d hd => h1 f d (drop_lt hd).2 hd, rfl⟩
  · right
    rw [h1] at h
    rw [if_neg (by
      intro h0
      have : d = -32768 := by exact_mod_cast h0
      omega)] at h
    obtain ⟨ch, g1, h⟩ := bind_ok h
    obtain ⟨tot, g2, h⟩ := bind_ok h
    obtain ⟨bef, g3, h⟩ := bind_ok h
    obtain ⟨aft, g4, h⟩ := bind_ok h
    obtain ⟨los, g5, h⟩ := bind_ok h
    cases h
    refine ⟨_, d, h3, ?_, ?_, fun f' d' hd' => h4 f' d' (drop_lt hd').2 hd'⟩
    · exact intPart_int (z := d) (by simpa using shortOf_ok g1)
    · refine ⟨l[(findChange false c.nodata l).2], List.getElem?_eq_getElem h2, ?_⟩
      simp only
      rw [List.getElem?_eq_getElem h2]
      rfl

example : Small (-9999) [⟨1990, 500⟩, ⟨1991, -9999⟩, ⟨1992, 200⟩, ⟨1993, 400⟩] ∧
    findChange false (-9999) [⟨1990, 500⟩, ⟨1991, -9999⟩, ⟨1992, 200⟩, ⟨1993, 400⟩] = (300, 2) := by
  constructor
  · simp [Small]
  · decide +kernel

/-- C61, violated: with penalty, the size of the previous candidate is compared with the penalised size of the present
one, so that a smaller lasting decrease (100, in 1991) wins against a greater lasting decrease (1000, in 1993). -/
theorem c61_penalty_violated :
    findChange true (-9999) [⟨1990, 5000⟩, ⟨1991, 4900⟩, ⟨1992, 4900⟩, ⟨1993, 3900⟩, ⟨1994, 3900⟩] = (100, 1) := by
  decide +kernel

/-- Number of layers and of valid layers of a part. -/
theorem part_num (c : Conf) (l : List Layer) (lo hi : Nat) (b : Bands Int) (h : part c l lo hi = .ok b)
    (h1 : 1 ≤ (observations c.nodata (start l) ((l.take hi).drop lo)).length) :
    b.num = (observations c.nodata (start l) ((l.take hi).drop lo)).length ∧ b.len = ((hi - lo : Nat) : Int) := by
  unfold part at h
  rw [observations_eq] at h
  simp only at h
  generalize observations c.nodata (start l) ((l.take hi).drop lo) = pts at h h1 ⊢
  rw [if_neg (by rw [fit_k]; omega)] at h
  by_cases hk3 : (fit pts).k < 3
  · rw [if_pos hk3] at h
    obtain ⟨my, -, h⟩ := bind_ok h
    cases h
    exact ⟨by simp [fit_k], rfl⟩
  · rw [if_neg hk3] at h
    by_cases hd : (fit pts).den = 0
    · rw [if_pos hd] at h; cases h
    · rw [if_neg hd] at h
      obtain ⟨-, -, -, -, -, -, -, -, -, -, g11, g12⟩ := store_ok h
      simp only [partRaw] at g11 g12
      constructor
      · have := intPart_int (z := ((fit pts).k : Int)) (by exact_mod_cast g11)
        rw [this, fit_k]
      · exact intPart_int (z := ((hi - lo : Nat) : Int)) (by exact_mod_cast g12)

theorem observations_all {nodata t0 : Int} {l : List Layer} (h : ∀ f ∈ l, f.v ≠ nodata) :
    (observations nodata t0 l).length = l.length := by
  unfold observations
  rw [List.length_map, List.filter_eq_self.2]
  intro f hf
  simpa using h f hf

/-- C61, violated: the parts before and after the change do not make up the time series: the layer before the change
belongs to neither (here: all layers are valid). -/
theorem c61_parts_violated (c : Conf) (penalty : Bool) (l : List Layer) (hv : ∀ f ∈ l, f.v ≠ c.nodata)
    (hf : 2 ≤ (findChange penalty c.nodata l).2) (hl : (findChange penalty c.nodata l).2 < l.length)
    (hc : (findChange penalty c.nodata l).1 ≠ -32768) (r : Cat) (h : cat c penalty true l = .ok r) :
    r.before.num + r.after.num + 1 = r.total.num ∧ r.before.len + r.after.len + 1 = r.total.len := by
  unfold cat at h
  simp only [Bool.not_true, Bool.false_eq_true, if_false] at h
  rw [if_neg hc] at h
  obtain ⟨ch, g1, h⟩ := bind_ok h
  obtain ⟨tot, g2, h⟩ := bind_ok h
  obtain ⟨bef, g3, h⟩ := bind_ok h
  obtain ⟨aft, g4, h⟩ := bind_ok h
  obtain ⟨los, g5, h⟩ := bind_ok h
  cases h
  generalize (findChange penalty c.nodata l).2 = f at *
  have hall : ∀ lo hi, ∀ g ∈ (l.take hi).drop lo, g.v ≠ c.nodata :=
    fun lo hi g hg => hv g (List.mem_of_mem_take (List.mem_of_mem_drop hg))
  have e : ∀ lo hi, (observations c.nodata (start l) ((l.take hi).drop lo)).length = min hi l.length - lo := by
    intro lo hi
    rw [observations_all (hall lo hi), List.length_drop, List.length_take]
  obtain ⟨a1, a2⟩ := part_num c l _ _ _ g2 (by rw [e]; omega)
  obtain ⟨b1, b2⟩ := part_num c l _ _ _ g3 (by rw [e]; omega)
  obtain ⟨d1, d2⟩ := part_num c l _ _ _ g4 (by rw [e]; omega)
  simp only
  rw [a1, b1, d1, a2, b2, d2, e, e, e]
  constructor <;> omega

example : (∀ f ∈ ([⟨1990, 500⟩, ⟨1991, 600⟩, ⟨1992, 200⟩, ⟨1993, 400⟩] : List Layer), f.v ≠ -9999) ∧
    findChange false (-9999) [⟨1990, 500⟩, ⟨1991, 600⟩, ⟨1992, 200⟩, ⟨1993, 400⟩] = (400, 2) := by decide +kernel

/-- C61: each part with at least three valid values is described by its regression line, with the offset at the
beginning of the part (values that are not given in continuous days, layers at consecutive times). -/
theorem c61_segment_partial (c : Conf) (hc : c.inCe = false) (l : List Layer) (lo hi : Nat) (b : Bands Int)
    (h3 : 3 ≤ (observations c.nodata (start l) ((l.take hi).drop lo)).length) (h : part c l lo hi = .ok b)
    (x : Layer) (hx : l[lo]? = some x) (ht : x.t = start l + lo) :
    ∃ a s, IsTrend c.tcrit c.tail (observations c.nodata (start l) ((l.take hi).drop lo)) (hi - lo)
      ((x.t : ℝ) - start l) a s b := by
  unfold part at h
  rw [observations_eq] at h
  simp only at h
  generalize observations c.nodata (start l) ((l.take hi).drop lo) = pts at h h3 ⊢
  rw [if_neg (by rw [fit_k]; omega), if_neg (by rw [fit_k]; omega)] at h
  by_cases hd : (fit pts).den = 0
  · rw [if_pos hd] at h; cases h
  · rw [if_neg hd] at h
    refine ⟨(fit pts).off, (fit pts).slp, ?_⟩
    have : (x.t : ℝ) - start l = (lo : ℝ) := by rw [ht]; push_cast; ring
    rw [this]
    exact segment c hc _ lo _ pts h3 hd b h

/-- C61: the part that covers the complete time series has the same bands as the trend product (values that are not
given in continuous days, at least three valid values). -/
theorem c61_total_partial (c : Conf) (hc : c.inCe = false) (l : List Layer)
    (h3 : 3 ≤ (observations c.nodata (start l) l).length) : part c l 0 l.length = trend c true l := by
  unfold part trend
  rw [List.take_length, List.drop_zero, observations_eq]
  simp only [Bool.not_true, Bool.false_eq_true, if_false]
  have hk := fit_k (observations c.nodata (start l) l)
  rw [if_neg (show ¬ (fit (observations c.nodata (start l) l)).k < 1 by omega),
    if_neg (show ¬ (fit (observations c.nodata (start l) l)).k < 3 by omega),
    if_neg (show ¬ (fit (observations c.nodata (start l) l)).k < 3 by omega)]
  rw [Nat.sub_zero, partRaw_eq_trendRaw c hc]

/-- C61, violated: for values given in continuous days the mean of the complete time series differs from that of the
trend product: the year is not removed. -/
theorem c61_days_violated (c : Conf) (hc : c.inCe = true) (l : List Layer)
    (h3 : 3 ≤ (observations c.nodata (start l) l).length) (b b' : Bands Int) (h : part c l 0 l.length = .ok b)
    (h' : trend c true l = .ok b') : b'.mean < b.mean := by
  have hl : 3 ≤ l.length := le_trans h3 (by
    unfold observations; rw [List.length_map]; exact List.length_filter_le _ _)
  unfold part at h
  unfold trend at h'
  rw [List.take_length, List.drop_zero, observations_eq] at h
  rw [observations_eq] at h'
  simp only [Bool.not_true, Bool.false_eq_true, if_false] at h h'
  rw [if_neg (by rw [fit_k]; omega), if_neg (by rw [fit_k]; omega)] at h
  rw [if_neg (by rw [fit_k]; omega)] at h'
  by_cases hd : (fit (observations c.nodata (start l) l)).den = 0
  · rw [if_pos hd] at h; cases h
  rw [if_neg hd] at h h'
  obtain ⟨g1, -⟩ := store_ok h
  obtain ⟨g1', -⟩ := store_ok h'
  simp only [partRaw] at g1
  simp only [trendRaw, hc, if_true] at g1'
  generalize (fit (observations c.nodata (start l) l)).my = m at g1 g1'
  have hk : (365 : Int) ≤ (365 * ((l.length : Int) - 1)).tdiv 2 := by
    rw [Int.tdiv_eq_ediv_of_nonneg (by omega)]
    omega
  have hk' : (365 : ℝ) ≤ (((365 * ((l.length : Int) - 1)).tdiv 2 : Int) : ℝ) := by exact_mod_cast hk
  generalize (((365 * ((l.length : Int) - 1)).tdiv 2 : Int) : ℝ) = k at g1' hk'
  have u : (b.mean : ℝ) > m - 1 := by
    unfold IntPart at g1; split at g1 <;> linarith [g1.1, g1.2]
  have u' : (b'.mean : ℝ) < m - k + 1 := by
    unfold IntPart at g1'; split at g1' <;> linarith [g1'.1, g1'.2]
  have : (b'.mean : ℝ) < b.mean := by linarith
  exact_mod_cast this

/-- C61: the loss is the change in percent of the offset of the complete time series, 0 if there is no positive
offset. -/
theorem c61_loss (c : Conf) (penalty : Bool) (l : List Layer) (r : Cat) (h : cat c penalty true l = .ok r)
    (hc : (findChange penalty c.nodata l).1 ≠ -32768) :
    if 0 < r.total.offset then IntPart ((r.change : ℝ) / r.total.offset * 100) r.loss else r.loss = 0 := by
  unfold cat at h
  simp only [Bool.not_true, Bool.false_eq_true, if_false] at h
  rw [if_neg hc] at h
  obtain ⟨ch, g1, h⟩ := bind_ok h
  obtain ⟨tot, g2, h⟩ := bind_ok h
  obtain ⟨bef, g3, h⟩ := bind_ok h
  obtain ⟨aft, g4, h⟩ := bind_ok h
  obtain ⟨los, g5, h⟩ := bind_ok h
  cases h
  unfold loss at g5
  split
  · rw [if_pos ‹_›] at g5; exact shortOf_ok g5
  · rw [if_neg (by assumption)] at g5; cases g5; rfl

/-! ## C62: standardization -/

/-- `w` is the standardized value of `v`. -/
def Standardized (nodata : Int) (avg scale : ℝ) (v w : Int) : Prop :=
  if v = nodata then w = nodata else IntPart (clamp (((v : ℝ) - avg) / scale)) w

theorem stdValue_eq (avg std : ℝ) (v : Int) (hs : std ≠ 0) :
    ∃ w, stdValue avg std v = .ok w ∧ IntPart (clamp (((v : ℝ) - avg) / std)) w := by
  unfold stdValue
  rw [if_neg hs]
  refine ⟨_, rfl, ?_⟩
  have e : ∀ x : ℝ, clamp x = if (if x > 32767 then 32767 else x) < -32768 then -32768
      else if x > 32767 then 32767 else x := by
    intro x
    unfold clamp
    rw [min_def, max_def]
    split_ifs <;> linarith
  rw [e]
  exact truncR_intPart _

theorem stdLoop_eq (nodata : Int) (avg std : ℝ) (hs : std ≠ 0) (ts : List Int) :
    ∃ out, stdLoop nodata avg std ts = .ok out ∧ List.Forall₂ (Standardized nodata avg std) ts out := by
  induction ts with
  | nil => exact ⟨[], rfl, .nil⟩
  | cons v l ih =>
    obtain ⟨out, h1, h2⟩ := ih
    unfold stdLoop
    by_cases hv : v = nodata
    · rw [if_pos hv, h1]
      exact ⟨v :: out, rfl, .cons (by unfold Standardized; rw [if_pos hv]; exact hv) h2⟩
    · rw [if_neg hv]
      obtain ⟨w, e, hw⟩ := stdValue_eq avg std v hs
      rw [e, h1]
      exact ⟨w :: out, rfl, .cons (by unfold Standardized; rw [if_neg hv]; exact hw) h2⟩

theorem varLoop_reals (nodata : Int) (ts : List Int) (h : Spec.valid nodata ts ≠ []) :
    varLoop ((ts.filter (· ≠ nodata)).map fun v : Int => (v : ℝ)) (0, 0, 0) =
      ((Spec.valid nodata ts).length, mean (reals (Spec.valid nodata ts)), moment 2 (reals (Spec.valid nodata ts))) := by
  have := c36_variance (K := ℝ) (reals (Spec.valid nodata ts)) (by unfold reals; simpa using h)
  rw [show (reals (Spec.valid nodata ts)).length = (Spec.valid nodata ts).length by unfold reals; simp] at this
  exact this

theorem varLoop_fst (nodata : Int) (ts : List Int) :
    (varLoop ((ts.filter (· ≠ nodata)).map fun v : Int => (v : ℝ)) (0, 0, 0)).1 = (Spec.valid nodata ts).length := by
  by_cases h : Spec.valid nodata ts = []
  · have : ts.filter (· ≠ nodata) = [] := h
    rw [this, h]; rfl
  · rw [varLoop_reals nodata ts h]

/-- C62: with centring, each valid value of a pixel with at least two valid values is replaced by the integer part of
its difference from the mean, limited to 16 bits; nodata values remain. -/
theorem c62_center (nodata : Int) (ts : List Int) (h2 : 2 ≤ (Spec.valid nodata ts).length) :
    ∃ out, standardize .center nodata true ts = .ok out ∧
      List.Forall₂ (Standardized nodata (mean (reals (Spec.valid nodata ts))) 1) ts out := by
  have hne : Spec.valid nodata ts ≠ [] := by intro h; rw [h] at h2; simp at h2
  unfold standardize
  simp only [reduceCtorEq, if_false, Bool.not_true, Bool.false_eq_true]
  rw [varLoop_reals nodata ts hne]
  simp only
  rw [if_neg (by omega)]
  exact stdLoop_eq _ _ _ one_ne_zero ts

example : 2 ≤ (Spec.valid (-9999) [100, -9999, 300]).length := by decide

/-- C62: with standardization, each valid value of a pixel whose valid values are not all equal is replaced by the
integer part of 10000 times its difference from the mean in standard deviations, limited to 16 bits; nodata values
remain. -/
theorem c62_normal_partial (nodata : Int) (ts : List Int)
    (hd : ∃ a ∈ Spec.valid nodata ts, ∃ b ∈ Spec.valid nodata ts, a ≠ b) :
    ∃ out, standardize .normal nodata true ts = .ok out ∧
      List.Forall₂ (Standardized nodata (mean (reals (Spec.valid nodata ts)))
        (std (reals (Spec.valid nodata ts)) / 10000)) ts out := by
  obtain ⟨a, ha, b, hb, hab⟩ := hd
  have hne : Spec.valid nodata ts ≠ [] := by intro h; rw [h] at ha; simp at ha
  have h2 : 2 ≤ (Spec.valid nodata ts).length := by
    rcases hv : Spec.valid nodata ts with _ | ⟨x, _ | ⟨y, t⟩⟩
    · exact absurd hv hne
    · rw [hv] at ha hb
      simp at ha hb
      exact absurd (ha.trans hb.symm) hab
    · simp
  have hm : moment 2 (reals (Spec.valid nodata ts)) ≠ 0 := by
    intro h
    have e1 := mem_moment h (a : ℝ) (List.mem_map.2 ⟨a, ha, rfl⟩)
    have e2 := mem_moment h (b : ℝ) (List.mem_map.2 ⟨b, hb, rfl⟩)
    apply hab
    have : (a : ℝ) = b := e1.trans e2.symm
    exact_mod_cast this
  have hpos : 0 < moment 2 (reals (Spec.valid nodata ts)) := lt_of_le_of_ne (moment_nonneg _) (Ne.symm hm)
  have e : standdev (moment 2 (reals (Spec.valid nodata ts))) ((Spec.valid nodata ts).length : ℝ) =
      std (reals (Spec.valid nodata ts)) := by
    unfold standdev std variance reals
    rw [List.length_map]
  have hs : std (reals (Spec.valid nodata ts)) / 10000 ≠ 0 := by
    have hl : (2 : ℝ) ≤ (Spec.valid nodata ts).length := by exact_mod_cast h2
    have : 0 < std (reals (Spec.valid nodata ts)) := by
      rw [← e]
      unfold standdev variance
      apply Real.sqrt_pos.2
      exact div_pos hpos (by linarith)
    positivity
  unfold standardize
  simp only [reduceCtorEq, if_false, Bool.not_true, Bool.false_eq_true, if_true]
  rw [varLoop_reals nodata ts hne]
  simp only
  rw [if_neg (by omega), e]
  exact stdLoop_eq _ _ _ hs ts

example : ∃ a ∈ Spec.valid (-9999) [100, -9999, 300], ∃ b ∈ Spec.valid (-9999) [100, -9999, 300], a ≠ b := by decide

/-- C62: without standardization, outside of the mask and with less than two valid values, the series remains. -/
theorem c62_unchanged (meth : Method) (nodata : Int) (valid : Bool) (ts : List Int)
    (h : meth = .none ∨ valid = false ∨ (Spec.valid nodata ts).length < 2) :
    standardize meth nodata valid ts = .ok ts := by
  unfold standardize
  by_cases h1 : meth = .none
  · rw [if_pos h1]
  rw [if_neg h1]
  by_cases h2 : valid = false
  · subst h2; rfl
  rw [if_neg (by simpa using h2)]
  simp only
  rw [if_pos]
  rw [varLoop_fst]
  rcases h with h | h | h
  · exact absurd h h1
  · exact absurd h h2
  · exact h

theorem stdLoop_ub (nodata : Int) (avg : ℝ) (ts : List Int) (v : Int) (hv : v ∈ ts) (hn : v ≠ nodata)
    (h : ∀ u ∈ ts, u ≠ nodata → (u : ℝ) = avg) : stdLoop nodata avg 0 ts = .ub := by
  induction ts with
  | nil => simp at hv
  | cons u l ih =>
    unfold stdLoop
    by_cases hu : u = nodata
    · rw [if_pos hu]
      have hvl : v ∈ l := by
        rcases List.mem_cons.1 hv with h | h
        · exact absurd (h.trans hu) hn
        · exact h
      rw [ih hvl (fun u hu => h u (List.mem_cons_of_mem _ hu))]
      rfl
    · rw [if_neg hu]
      have : stdValue avg 0 u = .ub := by
        unfold stdValue
        rw [if_pos rfl, if_pos]
        rw [h u (List.mem_cons_self ..) hu]; ring
      rw [this]; rfl

/-- C62, violated: standardizing a constant series divides 0 by 0. -/
theorem c62_constant_violated (nodata : Int) (ts : List Int) (v : Int) (h2 : 2 ≤ (Spec.valid nodata ts).length)
    (hv : ∀ u ∈ Spec.valid nodata ts, u = v) : standardize .normal nodata true ts = .ub := by
  have hne : Spec.valid nodata ts ≠ [] := by intro h; rw [h] at h2; simp at h2
  have hr : ∀ x ∈ reals (Spec.valid nodata ts), x = (v : ℝ) := by
    intro x hx
    obtain ⟨u, hu, rfl⟩ := List.mem_map.1 hx
    rw [hv u hu]
  have hm := moment_const hr (by unfold reals; simpa using hne)
  have hmean : ∀ x ∈ reals (Spec.valid nodata ts), x = mean (reals (Spec.valid nodata ts)) := fun x hx => mem_moment hm x hx
  unfold standardize
  simp only [reduceCtorEq, if_false, Bool.not_true, Bool.false_eq_true, if_true]
  rw [varLoop_reals nodata ts hne]
  simp only
  rw [if_neg (by omega), hm]
  have : standdev 0 ((Spec.valid nodata ts).length : ℝ) / 10000 = 0 := by simp [standdev, variance]
  rw [this]
  obtain ⟨u, hu⟩ := List.exists_mem_of_ne_nil _ hne
  have hu' := List.mem_filter.1 hu
  refine stdLoop_ub _ _ ts u hu'.1 (by simpa using hu'.2) ?_
  intro w hw hwn
  exact hmean _ (List.mem_map.2 ⟨w, List.mem_filter.2 ⟨hw, by simpa using hwn⟩, rfl⟩)

example : 2 ≤ (Spec.valid (-9999) [100, -9999, 100]).length ∧ ∀ u ∈ Spec.valid (-9999) [100, -9999, 100], u = 100 := by
  decide

/-- C62, violated: a valid value may become nodata: here the first of two values that are 19998 apart. -/
theorem c62_nodata_violated (a : Int) (ha : a ≠ -9999) (hb : a ≠ -29997) :
    standardize .center (-9999) true [a, a + 19998] = .ok [-9999, 9999] := by
  have hv : Spec.valid (-9999) [a, a + 19998] = [a, a + 19998] := by
    unfold Spec.valid
    rw [List.filter_eq_self]
    intro x hx
    simp only [List.mem_cons, List.not_mem_nil, or_false] at hx
    rcases hx with rfl | rfl
    · simpa using ha
    · simp; omega
  obtain ⟨out, h1, h2⟩ := c62_center (-9999) [a, a + 19998] (by rw [hv]; simp)
  rw [h1, hv] at *
  have em : mean (reals [a, a + 19998]) = (a : ℝ) + 9999 := by
    unfold mean reals; simp; ring
  rw [em] at h2
  cases h2 with
  | cons e1 h2 =>
    cases h2 with
    | cons e2 h2 =>
      cases h2
      unfold Standardized at e1 e2
      rw [if_neg ha] at e1
      rw [if_neg (by omega)] at e2
      have c1 : clamp (((a : ℝ) - (a + 9999)) / 1) = ((-9999 : Int) : ℝ) := by
        rw [show ((a : ℝ) - (a + 9999)) / 1 = -9999 by ring]
        unfold clamp
        rw [min_eq_right (by norm_num), max_eq_right (by norm_num)]; norm_num
      have c2 : clamp ((((a + 19998 : Int) : ℝ) - (a + 9999)) / 1) = ((9999 : Int) : ℝ) := by
        rw [show (((a + 19998 : Int) : ℝ) - (a + 9999)) / 1 = 9999 by push_cast; ring]
        unfold clamp
        rw [min_eq_right (by norm_num), max_eq_right (by norm_num)]; norm_num
      rw [c1] at e1
      rw [c2] at e2
      rw [intPart_int e1, intPart_int e2]

end Verif.Trend

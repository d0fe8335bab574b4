import Verif.Prod.Boa
import Verif.Prod.BoaSpec
import Verif.Qai.Lemmas
import Verif.Index.Lemmas

/-!
# C150: the reflectance product; C151: nodata in the Level 2 products
-/

namespace Verif.Prod

open Verif.Str (Out)
open Verif.Index (truncQ short truncQ_abs)
open Verif.Prod.Spec
open Verif.Qai.Spec (value states)

theorem isOff_iff (q : BitVec 16) : isOff q = true ↔ value .off q = 1 := by
  unfold isOff
  rw [decide_eq_true_eq, Qai.get_eq_value]
  have : value .off q < 2 := Nat.mod_lt _ (by decide)
  omega

theorem isOff_false (q : BitVec 16) : isOff q = false ↔ value .off q = 0 := by
  unfold isOff
  rw [decide_eq_false_iff_not, Qai.get_eq_value, not_not]

theorem vset (f g : Qai.Flag) (v : BitVec 16) (x : Nat) (hx : x < states f) :
    value g (Qai.set f v x) = if g = f then x else value g v := by
  rw [← Qai.get_eq_value, ← Qai.get_eq_value, Qai.get_set f g v x hx]

theorem one_lt (f : Qai.Flag) : 1 < states f := by cases f <;> decide

/-- The quality bits and the value of one pixel in one band. -/
theorem judge_spec (erase : Bool) (ref : ℚ) (q : BitVec 16) (hq : value .off q = 0) :
    let e : Prop := erase = true ∧ value .cld q = 2
    let o := judge erase ref q
    (value .off o.2 = 1 ↔ ¬ e ∧ ref < -1) ∧ (value .sub o.2 = 1 ↔ value .sub q = 1 ∨ ref < 0) ∧
    (value .sat o.2 = 1 ↔ value .sat q = 1 ∨ 1 < ref) ∧
    (∀ f, f ≠ .off → f ≠ .sub → f ≠ .sat → value f o.2 = value f q) ∧
    (e → o.1 = -9999) ∧ (¬ e → ref < -1 → o.1 = -9999) ∧ (¬ e → ¬ ref < -1 → Scaled ref o.1) := by
  simp only
  obtain ⟨q1, h1⟩ : ∃ q1, (if ref < 0 then Qai.set .sub q 1 else q) = q1 := ⟨_, rfl⟩
  obtain ⟨q2, h2⟩ : ∃ q2, (if ref > 1 then Qai.set .sat q1 1 else q1) = q2 := ⟨_, rfl⟩
  have v1 : ∀ f, f ≠ .sub → value f q1 = value f q := by
    intro f hf
    rw [← h1]
    split
    · rw [vset _ _ _ _ (one_lt _), if_neg hf]
    · rfl
  have v2 : ∀ f, f ≠ .sat → value f q2 = value f q1 := by
    intro f hf
    rw [← h2]
    split
    · rw [vset _ _ _ _ (one_lt _), if_neg hf]
    · rfl
  have s1 : value .sub q1 = 1 ↔ value .sub q = 1 ∨ ref < 0 := by
    rw [← h1]
    split
    · rename_i h; rw [vset _ _ _ _ (one_lt _)]; simp [h]
    · rename_i h; simp [h]
  have s2 : value .sat q2 = 1 ↔ value .sat q = 1 ∨ 1 < ref := by
    rw [← v1 .sat (by decide), ← h2]
    split
    · rename_i h; rw [vset _ _ _ _ (one_lt _)]; simp [h.lt]
    · rename_i h; simp [not_lt.1 h]
  have c2 : value .cld q2 = value .cld q := by rw [v2 _ (by decide), v1 _ (by decide)]
  have o2 : value .off q2 = 0 := by rw [v2 _ (by decide), v1 _ (by decide), hq]
  have b2 : value .sub q2 = value .sub q1 := v2 _ (by decide)
  have all2 : ∀ f, f ≠ .sub → f ≠ .sat → value f q2 = value f q := fun f a b => by rw [v2 f b, v1 f a]
  have ej : judge erase ref q = (if erase && Qai.get .cld q2 = 2 then (nodata, q2)
      else if ref < -1 then (nodata, Qai.set .off q2 1)
      else if ref * 10000 > 32767 then (32767, q2) else (truncQ (ref * 10000), q2)) := by
    subst h2; subst h1; rfl
  rw [ej, Qai.get_eq_value, c2]
  by_cases he : erase = true ∧ value .cld q = 2
  · have : (erase && decide (value .cld q = 2)) = true := by simp [he]
    rw [if_pos this]
    refine ⟨?_, ?_, s2, fun f _ a b => all2 f a b, fun _ => rfl, fun h => absurd he h, fun h => absurd he h⟩
    · simp [o2, he]
    · rw [b2, s1]
  · have hne : ¬ (erase && decide (value .cld q = 2)) = true := by simpa using he
    rw [if_neg hne]
    by_cases hr : ref < -1
    · rw [if_pos hr]
      refine ⟨?_, ?_, ?_, ?_, fun h => absurd h he, fun _ _ => rfl, fun _ h => absurd hr h⟩
      · simp only; rw [vset _ _ _ _ (one_lt _)]; simp [hr, he]
      · simp only; rw [vset _ _ _ _ (one_lt _), if_neg (by decide), b2, s1]
      · simp only; rw [vset _ _ _ _ (one_lt _), if_neg (by decide), s2]
      · intro f a b c
        simp only; rw [vset _ _ _ _ (one_lt _), if_neg a, all2 f b c]
    · rw [if_neg hr]
      by_cases hb : ref * 10000 > 32767
      · rw [if_pos hb]
        refine ⟨?_, ?_, s2, fun f _ a b => all2 f a b, fun h => absurd h he, fun _ h => absurd h hr, ?_⟩
        · simp [o2, hr]
        · rw [b2, s1]
        · exact fun _ _ => Or.inl ⟨by linarith, rfl⟩
      · rw [if_neg hb]
        refine ⟨?_, ?_, s2, fun f _ a b => all2 f a b, fun h => absurd h he, fun _ h => absurd h hr, ?_⟩
        · simp [o2, hr]
        · rw [b2, s1]
        · intro _ _
          have ta := truncQ_abs (ref * 10000)
          refine Or.inr ⟨by linarith, ?_⟩
          rw [mul_comm (10000 : ℚ) ref]
          exact ta

/-! ## The order of the bands -/

theorem findDomain_spec {dom : List String} {d : String} {i : Nat} (h : findDomain dom d = some i) : dom[i]? = some d := by
  unfold findDomain at h
  rw [List.findIdx?_eq_some_iff_getElem] at h
  obtain ⟨hi, hd, -⟩ := h
  rw [List.getElem?_eq_getElem hi]
  simpa using hd

theorem findDomain_mem {dom : List String} {d : String} : (findDomain dom d).isSome = true ↔ d ∈ dom := by
  unfold findDomain
  rw [List.findIdx?_isSome, List.any_eq_true]
  constructor
  · rintro ⟨x, hx, he⟩
    have : x = d := by simpa using he
    rwa [← this]
  · intro h
    exact ⟨d, h, by simp⟩

/-- C150: the bands of the product are those bands of the order of the product that the data have. -/
theorem c150_bands (dom : List String) :
    (sources dom).map (fun i => dom[i]?) = (order.filter (fun d => d ∈ dom)).map some := by
  have key : ∀ l : List String, (l.filterMap (findDomain dom)).map (fun i => dom[i]?) = (l.filter (fun d => d ∈ dom)).map some := by
    intro l
    induction l with
    | nil => rfl
    | cons d l ih =>
      cases h : findDomain dom d with
      | none =>
        have : d ∉ dom := by
          rw [← findDomain_mem, h]; simp
        rw [List.filterMap_cons_none h, ih, List.filter_cons_of_neg (by simpa using this)]
      | some i =>
        have hm : d ∈ dom := by
          rw [← findDomain_mem, h]; rfl
        rw [List.filterMap_cons_some h, List.filter_cons_of_pos (by simpa using hm), List.map_cons, List.map_cons, ih,
          findDomain_spec h]
  exact key order

theorem order_nodup : order.Nodup := by decide

theorem sources_sorted {dom : List String} (h : InOrder dom) : (sources dom).Pairwise (· < ·) := by
  have ht : targets = order := rfl
  unfold sources
  rw [ht, List.pairwise_filterMap, List.pairwise_iff_getElem]
  intro x y hx hy hxy i hi j hj
  have hi' := findDomain_spec hi
  have hj' := findDomain_spec hj
  have gx : order[x]? = some order[x] := List.getElem?_eq_getElem hx
  have gy : order[y]? = some order[y] := List.getElem?_eq_getElem hy
  rcases Nat.lt_trichotomy i j with h1 | h1 | h1
  · exact h1
  · subst h1
    rw [hi'] at hj'
    have e : order[x] = order[y] := Option.some.inj hj'
    have := (List.Nodup.getElem_inj_iff order_nodup).1 e
    omega
  · have := h j i y x _ _ h1 hj' hi' gy gx
    omega

theorem sorted_ge {l : List Nat} (h : l.Pairwise (· < ·)) : ∀ k, k < l.length → k ≤ l.getD k 0 := by
  have hg : ∀ k (hk : k < l.length), l.getD k 0 = l[k] := by
    intro k hk
    rw [List.getD_eq_getElem?_getD, List.getElem?_eq_getElem hk]; rfl
  rw [List.pairwise_iff_getElem] at h
  intro k
  induction k with
  | zero => intro _; omega
  | succ k ih =>
    intro hk
    have h1 := ih (by omega)
    have h2 := h k (k + 1) (by omega) hk (by omega)
    rw [hg _ hk]
    rw [hg k (by omega)] at h1
    omega

/-! ## All bands -/

theorem bandsDone_succ (erase : Bool) (rad : Radiometry) (src : List Nat) (s : Scene) (k : Nat) :
    bandsDone erase rad src s (k + 1) = surface erase rad (src.getD k 0) k (bandsDone erase rad src s k) := by
  simp [bandsDone, List.range_succ]

/-- No band is overwritten before it is read. -/
theorem bands_kept {src : List Nat} (erase : Bool) (rad : Radiometry) (s : Scene) (k : Nat) :
    ∀ j, k ≤ j → (bandsDone erase rad src s k).band j = s.band j := by
  induction k with
  | zero => intro j _; rfl
  | succ k ih =>
    intro j hj
    rw [bandsDone_succ]
    funext p
    simp only [surface]
    rw [if_neg (by omega), ih j (by omega)]

section Main

variable {erase : Bool} {rad : Radiometry} {dom : List String} {s : Scene} {p : Nat}

/-- The state of a pixel after `k` bands. -/
theorem bands_spec (h : InOrder dom) {k : Nat} (hk : k ≤ (sources dom).length) :
    let r := fun j => rad ((sources dom).getD j 0) (s.band ((sources dom).getD j 0)) (bandsDone erase rad (sources dom) s j).qai p
    let e : Prop := erase = true ∧ value .cld (s.qai p) = 2
    let t := bandsDone erase rad (sources dom) s k
    (value .off (t.qai p) = 1 ↔ value .off (s.qai p) = 1 ∨ (¬ e ∧ ∃ j < k, r j < -1)) ∧
    (value .off (t.qai p) = 0 → (value .sub (t.qai p) = 1 ↔ value .sub (s.qai p) = 1 ∨ ∃ j < k, r j < 0)) ∧
    (value .off (t.qai p) = 0 → (value .sat (t.qai p) = 1 ↔ value .sat (s.qai p) = 1 ∨ ∃ j < k, 1 < r j)) ∧
    (∀ f, f ≠ .off → f ≠ .sub → f ≠ .sat → value f (t.qai p) = value f (s.qai p)) ∧
    (value .off (t.qai p) = 0 → ∀ j < k, (e → t.band j p = -9999) ∧ (¬ e → Scaled (r j) (t.band j p))) := by
  induction k with
  | zero => simp [bandsDone]
  | succ k ih =>
    specialize ih (by omega)
    simp only at ih ⊢
    obtain ⟨i1, i2, i3, i4, i5⟩ := ih
    have hsrc : k ≤ (sources dom).getD k 0 := sorted_ge (sources_sorted h) k (by omega)
    obtain ⟨t, ht⟩ : ∃ t, bandsDone erase rad (sources dom) s k = t := ⟨_, rfl⟩
    obtain ⟨r, hr⟩ : ∃ r : Nat → ℚ, (fun j => rad ((sources dom).getD j 0) (s.band ((sources dom).getD j 0)) (bandsDone erase rad (sources dom) s j).qai p) = r := ⟨_, rfl⟩
    have hrj : ∀ j, rad ((sources dom).getD j 0) (s.band ((sources dom).getD j 0)) (bandsDone erase rad (sources dom) s j).qai p = r j := fun j => congrFun hr j
    have hband : t.band ((sources dom).getD k 0) = s.band ((sources dom).getD k 0) := by
      rw [← ht]; exact bands_kept erase rad s k _ hsrc
    have hrk : rad ((sources dom).getD k 0) (t.band ((sources dom).getD k 0)) t.qai p = r k := by
      rw [hband, ← ht]; exact hrj k
    simp only [hrj] at i1 i2 i3 i5 ⊢
    rw [ht] at i1 i2 i3 i4 i5
    rw [bandsDone_succ, ht]
    have lt_succ : ∀ P : Nat → Prop, (∃ j < k + 1, P j) ↔ (∃ j < k, P j) ∨ P k := by
      intro P
      constructor
      · rintro ⟨j, hj, hp⟩
        rcases Nat.lt_succ_iff_lt_or_eq.1 hj with h | rfl
        · exact Or.inl ⟨j, h, hp⟩
        · exact Or.inr hp
      · rintro (⟨j, hj, hp⟩ | hp)
        · exact ⟨j, by omega, hp⟩
        · exact ⟨k, by omega, hp⟩
    have hcld := i4 .cld (by decide) (by decide) (by decide)
    by_cases hoff : value .off (t.qai p) = 1
    · have hb : isOff (t.qai p) = true := (isOff_iff _).2 hoff
      have hq : (surface erase rad ((sources dom).getD k 0) k t).qai p = t.qai p := by
        simp only [surface, hb, if_true]
      rw [hq]
      refine ⟨?_, fun h0 => by omega, fun h0 => by omega, i4, fun h0 => by omega⟩
      rw [lt_succ, i1]
      constructor
      · rintro (h1 | ⟨h1, h2⟩)
        · exact Or.inl h1
        · exact Or.inr ⟨h1, Or.inl h2⟩
      · intro _
        exact i1.1 hoff
    · have hz : value .off (t.qai p) = 0 := by
        have : value .off (t.qai p) < 2 := Nat.mod_lt _ (by decide)
        omega
      have hb : isOff (t.qai p) = false := (isOff_false _).2 hz
      have hq : (surface erase rad ((sources dom).getD k 0) k t).qai p = (judge erase (r k) (t.qai p)).2 := by
        simp only [surface, hb, hrk]; simp
      have hv : (surface erase rad ((sources dom).getD k 0) k t).band k p = (judge erase (r k) (t.qai p)).1 := by
        simp only [surface, hb, hrk]; simp
      have hvj : ∀ j, j ≠ k → (surface erase rad ((sources dom).getD k 0) k t).band j p = t.band j p := by
        intro j hj
        simp only [surface, if_neg hj]
      obtain ⟨j1, j2, j3, j4, j5, j6, j7⟩ := judge_spec erase (r k) (t.qai p) hz
      rw [hcld] at j1 j5 j6 j7
      rw [hq]
      refine ⟨?_, ?_, ?_, ?_, ?_⟩
      · rw [lt_succ, j1]
        have := mt i1.2 hoff
        rw [not_or, not_and] at this
        constructor
        · rintro ⟨h1, h2⟩; exact Or.inr ⟨h1, Or.inr h2⟩
        · rintro (h1 | ⟨h1, h2 | h2⟩)
          · exact absurd h1 this.1
          · exact absurd h2 (this.2 h1)
          · exact ⟨h1, h2⟩
      · intro _; rw [lt_succ, j2, i2 hz, or_assoc]
      · intro _; rw [lt_succ, j3, i3 hz, or_assoc]
      · intro f a b c; rw [j4 f a b c, i4 f a b c]
      · intro h0 j hj
        by_cases hjk : j = k
        · subst hjk
          rw [hv]
          refine ⟨j5, fun he => j7 he ?_⟩
          intro hlt
          have := j1.2 ⟨he, hlt⟩
          omega
        · rw [hvj j hjk]
          exact i5 hz j (by omega)

/-- C150: for all scenes and every radiative transfer: a pixel is nodata in the product if and only if it was nodata
before or the reflectance of some band is below −1; then all bands are −9999. Otherwise each band is the reflectance times
10000, clipped at 32767, of the band with the same name (or −9999 in opaque clouds, if they are to be erased); the pixel is
flagged as subzero if and only if it was before or some reflectance is negative, as saturated if and only if it was before
or some reflectance exceeds 1, and no other flag changes. Missing: reflectances above 2 and just below −0.9999, see
`c150_bright_violated` and `c150_nodata_violated`. -/
theorem c150_reflectance_partial (erase : Bool) (rad : Radiometry) (dom : List String) (s : Scene) (p : Nat) (h : InOrder dom) :
    let n := (sources dom).length
    let src := fun j => (sources dom).getD j 0
    let r := fun j => rad (src j) (s.band (src j)) (bandsDone erase rad (sources dom) s j).qai p
    let erased : Prop := erase = true ∧ value .cld (s.qai p) = 2
    let out := compileBoa erase rad dom s
    (value .off (out.qai p) = 1 ↔ value .off (s.qai p) = 1 ∨ (¬ erased ∧ ∃ j < n, r j < -1)) ∧
    (value .off (out.qai p) = 1 → ∀ j < n, out.band j p = -9999) ∧
    (value .off (out.qai p) = 0 →
      (∀ j < n, (erased → out.band j p = -9999) ∧ (¬ erased → Scaled (r j) (out.band j p))) ∧
      (value .sub (out.qai p) = 1 ↔ value .sub (s.qai p) = 1 ∨ ∃ j < n, r j < 0) ∧
      (value .sat (out.qai p) = 1 ↔ value .sat (s.qai p) = 1 ∨ ∃ j < n, 1 < r j)) ∧
    (∀ f, f ≠ .off → f ≠ .sub → f ≠ .sat → value f (out.qai p) = value f (s.qai p)) := by
  obtain ⟨b1, b2, b3, b4, b5⟩ := bands_spec (erase := erase) (rad := rad) (s := s) (p := p) h (le_refl (sources dom).length)
  simp only at b1 b2 b3 b4 b5 ⊢
  refine ⟨b1, ?_, ?_, b4⟩
  · intro ho j hj
    have hb : isOff ((bandsDone erase rad (sources dom) s (sources dom).length).qai p) = true := (isOff_iff _).2 ho
    simp [compileBoa, hb, hj, nodata]
  · intro ho
    refine ⟨?_, b2 ho, b3 ho⟩
    intro j hj
    have hb : isOff ((bandsDone erase rad (sources dom) s (sources dom).length).qai p) = false := (isOff_false _).2 ho
    have hv : (compileBoa erase rad dom s).band j p = (bandsDone erase rad (sources dom) s (sources dom).length).band j p := by
      simp [compileBoa, hb]
    rw [hv]
    exact b5 ho j hj

/-- C150, violated: the documentation says that a reflectance estimate above 2.0 is nodata. It is not: the pixel keeps its
large values. -/
theorem c150_bright_violated (erase : Bool) (rad : Radiometry) (dom : List String) (s : Scene) (p : Nat) (h : InOrder dom)
    (hoff : value .off (s.qai p) = 0) (hc : value .cld (s.qai p) ≠ 2) (r : ℚ) (hr : 2 < r)
    (hrad : ∀ b img q, rad b img q p = r) :
    value .off ((compileBoa erase rad dom s).qai p) = 0 ∧
      ∀ j < (sources dom).length, 20000 ≤ (compileBoa erase rad dom s).band j p := by
  obtain ⟨h1, -, h3, -⟩ := c150_reflectance_partial erase rad dom s p h
  simp only [hrad] at h1 h3
  have h0 : value .off ((compileBoa erase rad dom s).qai p) = 0 := by
    have : value .off ((compileBoa erase rad dom s).qai p) < 2 := Nat.mod_lt _ (by decide)
    by_contra hne
    rcases h1.1 (by omega) with h2 | ⟨-, j, -, h2⟩
    · omega
    · linarith
  refine ⟨h0, fun j hj => ?_⟩
  rcases ((h3 h0).1 j hj).2 (fun he => hc he.2) with ⟨-, h4⟩ | ⟨-, -, h5, h6⟩
  · rw [h4]; norm_num
  · rw [abs_of_pos (by linarith : (0 : ℚ) < 10000 * r)] at h5
    have hv : (0 : ℚ) ≤ ((compileBoa erase rad dom s).band j p : ℚ) := by
      by_contra hneg
      have := mul_neg_of_neg_of_pos (not_le.1 hneg) (by linarith : (0 : ℚ) < 10000 * r)
      linarith
    rw [abs_of_nonneg hv] at h5
    have : (19999 : ℚ) < ((compileBoa erase rad dom s).band j p : ℚ) := by linarith
    have : 19999 < (compileBoa erase rad dom s).band j p := by exact_mod_cast this
    omega

/-- C150, violated: a reflectance between −1 and −0.9999 becomes the nodata value −9999, but the pixel is not flagged as
nodata. -/
theorem c150_nodata_violated (erase : Bool) (rad : Radiometry) (dom : List String) (s : Scene) (p : Nat) (h : InOrder dom)
    (hoff : value .off (s.qai p) = 0) (hc : value .cld (s.qai p) ≠ 2) (r : ℚ) (hr : -1 < r) (hr' : r ≤ -9999 / 10000)
    (hrad : ∀ b img q, rad b img q p = r) :
    value .off ((compileBoa erase rad dom s).qai p) = 0 ∧
      ∀ j < (sources dom).length, (compileBoa erase rad dom s).band j p = -9999 := by
  obtain ⟨h1, -, h3, -⟩ := c150_reflectance_partial erase rad dom s p h
  simp only [hrad] at h1 h3
  have h0 : value .off ((compileBoa erase rad dom s).qai p) = 0 := by
    have : value .off ((compileBoa erase rad dom s).qai p) < 2 := Nat.mod_lt _ (by decide)
    by_contra hne
    rcases h1.1 (by omega) with h2 | ⟨-, j, -, h2⟩
    · omega
    · linarith
  refine ⟨h0, fun j hj => ?_⟩
  rcases ((h3 h0).1 j hj).2 (fun he => hc he.2) with ⟨h4, -⟩ | ⟨-, h4, h5, h6⟩
  · linarith
  · rw [abs_of_neg (by linarith : 10000 * r < 0)] at h4 h5
    have hv : ((compileBoa erase rad dom s).band j p : ℚ) ≤ 0 := by
      by_contra hpos
      have := mul_neg_of_pos_of_neg (not_le.1 hpos) (by linarith : 10000 * r < 0)
      linarith
    rw [abs_of_nonpos hv] at h4 h5
    have a1 : (-10000 : ℚ) < ((compileBoa erase rad dom s).band j p : ℚ) := by linarith
    have a2 : ((compileBoa erase rad dom s).band j p : ℚ) < -9998 := by linarith
    have a1' : -10000 < (compileBoa erase rad dom s).band j p := by exact_mod_cast a1
    have a2' : (compileBoa erase rad dom s).band j p < -9998 := by exact_mod_cast a2
    omega

end Main

end Verif.Prod

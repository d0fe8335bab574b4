import Mathlib.Order.Lattice
import Mathlib.Tactic.Linarith
import Mathlib.Tactic.Ring
import Mathlib.Tactic.Positivity
import Verif.Texture.Model

/-!
# C193, C194: texture
-/

namespace Verif.Texture

namespace Spec

/-- A position in the image. -/
def In (g : Rect) (i j : ℤ) : Prop := g.i0 ≤ i ∧ i < g.i1 ∧ g.j0 ≤ j ∧ j < g.j1

/-- A structuring element: with the centre, and symmetric. -/
def Element (el : List (ℤ × ℤ)) : Prop := (0, 0) ∈ el ∧ ∀ o ∈ el, (-o.1, -o.2) ∈ el

/-- All offsets are at most `r` rows and columns. -/
def Reach (el : List (ℤ × ℤ)) (r : ℤ) : Prop := ∀ o ∈ el, -r ≤ o.1 ∧ o.1 ≤ r ∧ -r ≤ o.2 ∧ o.2 ≤ r

/-- 16 bit numbers. -/
def Short (f : ℤ → ℤ → ℤ) : Prop := ∀ i j, -32768 ≤ f i j ∧ f i j ≤ 32767

end Spec

open Spec

theorem foldl_min (l : List ℤ) (a x : ℤ) : x ≤ l.foldl min a ↔ x ≤ a ∧ ∀ y ∈ l, x ≤ y := by
  induction l generalizing a with
  | nil => simp
  | cons b l ih =>
    rw [List.foldl_cons, ih]
    simp only [List.mem_cons, forall_eq_or_imp, le_min_iff]
    tauto

theorem foldl_max (l : List ℤ) (a x : ℤ) : l.foldl max a ≤ x ↔ a ≤ x ∧ ∀ y ∈ l, y ≤ x := by
  induction l generalizing a with
  | nil => simp
  | cons b l ih =>
    rw [List.foldl_cons, ih]
    simp only [List.mem_cons, forall_eq_or_imp, max_le_iff]
    tauto

theorem mem_under {g : Rect} {el : List (ℤ × ℤ)} {f : ℤ → ℤ → ℤ} {i j y : ℤ} :
    y ∈ under g el f i j ↔ ∃ o ∈ el, In g (i + o.1) (j + o.2) ∧ y = f (i + o.1) (j + o.2) := by
  unfold under inside In
  simp only [List.mem_map, List.mem_filter, decide_eq_true_eq]
  constructor
  · rintro ⟨o, ⟨a, b⟩, rfl⟩
    exact ⟨o, a, b, rfl⟩
  · rintro ⟨o, a, b, rfl⟩
    exact ⟨o, ⟨a, b⟩, rfl⟩

theorem le_erode {g : Rect} {el : List (ℤ × ℤ)} {f : ℤ → ℤ → ℤ} {i j x : ℤ} :
    x ≤ erode g el f i j ↔ x ≤ 32767 ∧ ∀ o ∈ el, In g (i + o.1) (j + o.2) → x ≤ f (i + o.1) (j + o.2) := by
  unfold erode
  rw [foldl_min]
  constructor
  · rintro ⟨a, b⟩
    exact ⟨a, fun o ho hi => b _ (mem_under.2 ⟨o, ho, hi, rfl⟩)⟩
  · rintro ⟨a, b⟩
    refine ⟨a, fun y hy => ?_⟩
    obtain ⟨o, ho, hi, rfl⟩ := mem_under.1 hy
    exact b o ho hi

theorem dilate_le {g : Rect} {el : List (ℤ × ℤ)} {f : ℤ → ℤ → ℤ} {i j x : ℤ} :
    dilate g el f i j ≤ x ↔ -32768 ≤ x ∧ ∀ o ∈ el, In g (i + o.1) (j + o.2) → f (i + o.1) (j + o.2) ≤ x := by
  unfold dilate
  rw [foldl_max]
  constructor
  · rintro ⟨a, b⟩
    exact ⟨a, fun o ho hi => b _ (mem_under.2 ⟨o, ho, hi, rfl⟩)⟩
  · rintro ⟨a, b⟩
    refine ⟨a, fun y hy => ?_⟩
    obtain ⟨o, ho, hi, rfl⟩ := mem_under.1 hy
    exact b o ho hi

theorem erode_le {g : Rect} {el : List (ℤ × ℤ)} {f : ℤ → ℤ → ℤ} {i j : ℤ} (o : ℤ × ℤ) (ho : o ∈ el)
    (hi : In g (i + o.1) (j + o.2)) : erode g el f i j ≤ f (i + o.1) (j + o.2) :=
  (le_erode.1 le_rfl).2 o ho hi

theorem le_dilate {g : Rect} {el : List (ℤ × ℤ)} {f : ℤ → ℤ → ℤ} {i j : ℤ} (o : ℤ × ℤ) (ho : o ∈ el)
    (hi : In g (i + o.1) (j + o.2)) : f (i + o.1) (j + o.2) ≤ dilate g el f i j :=
  (dilate_le.1 le_rfl).2 o ho hi

/-- Smaller or equal in the image. -/
def Le (g : Rect) (f h : ℤ → ℤ → ℤ) : Prop := ∀ i j, In g i j → f i j ≤ h i j

/-- 16 bit numbers in the image. -/
def ShortIn (g : Rect) (f : ℤ → ℤ → ℤ) : Prop := ∀ i j, In g i j → -32768 ≤ f i j ∧ f i j ≤ 32767

theorem erode_mono {g : Rect} (el : List (ℤ × ℤ)) {f h : ℤ → ℤ → ℤ} (hle : Le g f h) : Le g (erode g el f) (erode g el h) := by
  intro i j _
  refine le_erode.2 ⟨(le_erode.1 le_rfl).1, fun o ho hi => ?_⟩
  exact le_trans (erode_le o ho hi) (hle _ _ hi)

theorem dilate_mono {g : Rect} (el : List (ℤ × ℤ)) {f h : ℤ → ℤ → ℤ} (hle : Le g f h) : Le g (dilate g el f) (dilate g el h) := by
  intro i j _
  refine dilate_le.2 ⟨(dilate_le.1 le_rfl).1, fun o ho hi => ?_⟩
  exact le_trans (hle _ _ hi) (le_dilate o ho hi)

theorem erode_short {g : Rect} {el : List (ℤ × ℤ)} {f : ℤ → ℤ → ℤ} (h : ShortIn g f) : ShortIn g (erode g el f) := by
  intro i j _
  exact ⟨le_erode.2 ⟨by norm_num, fun o _ hi => (h _ _ hi).1⟩, (le_erode.1 le_rfl).1⟩

theorem dilate_short {g : Rect} {el : List (ℤ × ℤ)} {f : ℤ → ℤ → ℤ} (h : ShortIn g f) : ShortIn g (dilate g el f) := by
  intro i j _
  exact ⟨(dilate_le.1 le_rfl).1, dilate_le.2 ⟨by norm_num, fun o _ hi => (h _ _ hi).2⟩⟩

theorem iter_short {g : Rect} {F : (ℤ → ℤ → ℤ) → ℤ → ℤ → ℤ} (hF : ∀ f, ShortIn g f → ShortIn g (F f)) (n : Nat)
    {f : ℤ → ℤ → ℤ} (h : ShortIn g f) : ShortIn g (F^[n] f) := by
  induction n with
  | zero => exact h
  | succ n ih => rw [Function.iterate_succ_apply']; exact hF _ ih

theorem iter_mono {g : Rect} {F : (ℤ → ℤ → ℤ) → ℤ → ℤ → ℤ} (hF : ∀ f h, Le g f h → Le g (F f) (F h)) (n : Nat)
    {f h : ℤ → ℤ → ℤ} (hle : Le g f h) : Le g (F^[n] f) (F^[n] h) := by
  induction n with
  | zero => exact hle
  | succ n ih => rw [Function.iterate_succ_apply', Function.iterate_succ_apply']; exact hF _ _ ih

theorem le_trans' {g : Rect} {a b c : ℤ → ℤ → ℤ} (h : Le g a b) (k : Le g b c) : Le g a c :=
  fun i j hi => le_trans (h i j hi) (k i j hi)

theorem erode_self {g : Rect} {el : List (ℤ × ℤ)} (he : (0, 0) ∈ el) (f : ℤ → ℤ → ℤ) : Le g (erode g el f) f := by
  intro i j hi
  have := erode_le (g := g) (f := f) (i := i) (j := j) (0, 0) he (by simpa using hi)
  simpa using this

theorem self_dilate {g : Rect} {el : List (ℤ × ℤ)} (he : (0, 0) ∈ el) (f : ℤ → ℤ → ℤ) : Le g f (dilate g el f) := by
  intro i j hi
  have := le_dilate (g := g) (f := f) (i := i) (j := j) (0, 0) he (by simpa using hi)
  simpa using this

theorem iter_le_self {g : Rect} {F : (ℤ → ℤ → ℤ) → ℤ → ℤ → ℤ} (hF : ∀ f, Le g (F f) f) (n : Nat) (f : ℤ → ℤ → ℤ) :
    Le g (F^[n] f) f := by
  induction n with
  | zero => exact fun _ _ _ => le_rfl
  | succ n ih => rw [Function.iterate_succ_apply']; exact le_trans' (hF _) ih

theorem self_le_iter {g : Rect} {F : (ℤ → ℤ → ℤ) → ℤ → ℤ → ℤ} (hF : ∀ f, Le g f (F f)) (n : Nat) (f : ℤ → ℤ → ℤ) :
    Le g f (F^[n] f) := by
  induction n with
  | zero => exact fun _ _ _ => le_rfl
  | succ n ih => rw [Function.iterate_succ_apply']; exact le_trans' ih (hF _)

theorem open_one {g : Rect} {el : List (ℤ × ℤ)} (he : Element el) {f : ℤ → ℤ → ℤ} (h : ShortIn g f) :
    Le g (dilate g el (erode g el f)) f := by
  intro i j hi
  refine dilate_le.2 ⟨(h i j hi).1, fun o ho _ => ?_⟩
  have := erode_le (g := g) (f := f) (i := i + o.1) (j := j + o.2) _ (he.2 o ho) (by simpa using hi)
  simpa using this

theorem close_one {g : Rect} {el : List (ℤ × ℤ)} (he : Element el) {f : ℤ → ℤ → ℤ} (h : ShortIn g f) :
    Le g f (erode g el (dilate g el f)) := by
  intro i j hi
  refine le_erode.2 ⟨(h i j hi).2, fun o ho _ => ?_⟩
  have := le_dilate (g := g) (f := f) (i := i + o.1) (j := j + o.2) _ (he.2 o ho) (by simpa using hi)
  simpa using this

theorem open_n {g : Rect} {el : List (ℤ × ℤ)} (he : Element el) (n : Nat) {f : ℤ → ℤ → ℤ} (h : ShortIn g f) :
    Le g ((dilate g el)^[n] ((erode g el)^[n] f)) f := by
  induction n with
  | zero => exact fun _ _ _ => le_rfl
  | succ n ih =>
    rw [Function.iterate_succ_apply, Function.iterate_succ_apply' (erode g el)]
    refine le_trans' (iter_mono (fun _ _ => dilate_mono el) n (open_one he ?_)) ih
    exact iter_short (fun _ => erode_short) n h

theorem close_n {g : Rect} {el : List (ℤ × ℤ)} (he : Element el) (n : Nat) {f : ℤ → ℤ → ℤ} (h : ShortIn g f) :
    Le g f ((erode g el)^[n] ((dilate g el)^[n] f)) := by
  induction n with
  | zero => exact fun _ _ _ => le_rfl
  | succ n ih =>
    rw [Function.iterate_succ_apply, Function.iterate_succ_apply' (dilate g el)]
    refine le_trans' ih (iter_mono (fun _ _ => erode_mono el) n (close_one he ?_))
    exact iter_short (fun _ => dilate_short) n h

theorem short_in {g : Rect} {f : ℤ → ℤ → ℤ} (h : Short f) : ShortIn g f := fun i j _ => h i j

/-- C193: erosion and opening are at most the value of the feature, dilation and closing at least;
the differences (gradient, top hat, black hat) are not negative. -/
theorem c193_order (g : Rect) (el : List (ℤ × ℤ)) (iter : Nat) (nodata : ℤ) (mask : ℤ → ℤ → Bool) (f : Feature)
    (i j : ℤ) (he : Element el) (hf : Short f.dat) (hi : In g i j) (exclude : Bool)
    (hm : exclude = true → mask i j = true ∧ f.msk i j = true) :
    let t := fun q => texture g el iter exclude nodata mask f q i j
    t .ero ≤ t .opn ∧ t .opn ≤ f.dat i j ∧ f.dat i j ≤ t .cls ∧ t .cls ≤ t .dil ∧
    0 ≤ t .grd ∧ 0 ≤ t .tht ∧ 0 ≤ t .bht := by
  have ht : ∀ q, texture g el iter exclude nodata mask f q i j = morph g el iter f.dat q i j := by
    intro q
    unfold texture screen
    rw [if_neg]
    cases exclude
    · simp
    · simp [(hm rfl).1, (hm rfl).2]
  simp only [ht]
  have h := short_in (g := g) hf
  have o := open_n he iter h i j hi
  have c := close_n he iter h i j hi
  have e1 := self_le_iter (self_dilate he.1) iter ((erode g el)^[iter] f.dat) i j hi
  have e2 := iter_le_self (erode_self he.1) iter ((dilate g el)^[iter] f.dat) i j hi
  have e3 := iter_le_self (erode_self he.1) iter f.dat i j hi
  have e4 := self_le_iter (self_dilate he.1) iter f.dat i j hi
  unfold morph sat
  refine ⟨e1, o, c, e2, ?_, ?_, ?_⟩
  all_goals
    apply le_max_of_le_right
    apply le_min
    · norm_num
    · linarith

/-- C193: opening an opened feature and closing a closed one changes nothing. -/
theorem c193_idempotent (g : Rect) (el : List (ℤ × ℤ)) (iter : Nat) (f : ℤ → ℤ → ℤ) (i j : ℤ)
    (he : Element el) (hf : Short f) (hi : In g i j) :
    morph g el iter (morph g el iter f .opn) .opn i j = morph g el iter f .opn i j ∧
    morph g el iter (morph g el iter f .cls) .cls i j = morph g el iter f .cls i j := by
  have h := short_in (g := g) hf
  have hE := iter_short (F := erode g el) (fun _ => erode_short) iter h
  have hD := iter_short (F := dilate g el) (fun _ => dilate_short) iter h
  constructor
  · apply le_antisymm
    · exact open_n he iter (iter_short (fun _ => dilate_short) iter hE) i j hi
    · exact iter_mono (fun _ _ => dilate_mono el) iter (close_n he iter hE) i j hi
  · apply le_antisymm
    · exact iter_mono (fun _ _ => erode_mono el) iter (open_n he iter hD) i j hi
    · exact close_n he iter (iter_short (fun _ => erode_short) iter hD) i j hi

/-- C193: pixels that are not usable, or outside of the processing mask, are nodata in all products
if unusable pixels are excluded. -/
theorem c193_excluded (g : Rect) (el : List (ℤ × ℤ)) (iter : Nat) (nodata : ℤ) (mask : ℤ → ℤ → Bool) (f : Feature)
    (q : Product) (i j : ℤ) (h : mask i j = false ∨ f.msk i j = false) :
    texture g el iter true nodata mask f q i j = nodata := by
  unfold texture screen
  rw [if_pos]
  rcases h with h | h <;> simp [h]

/-- C193, violated: nodata is taken for a value. A usable pixel next to a pixel without data is
nodata in the erosion, and the gradient is the difference between the dilation and the nodata value. -/
theorem c193_nodata_violated (g : Rect) (el : List (ℤ × ℤ)) (exclude : Bool) (nodata : ℤ) (mask : ℤ → ℤ → Bool)
    (f : Feature) (i j : ℤ) (o : ℤ × ℤ) (ho : o ∈ el) (hn : In g (i + o.1) (j + o.2))
    (hnd : f.dat (i + o.1) (j + o.2) = nodata) (hlow : ∀ i j, nodata ≤ f.dat i j) (hr : nodata ≤ 32767)
    (hm : mask i j = true) (hu : f.msk i j = true) :
    texture g el 1 exclude nodata mask f .ero i j = nodata ∧
    texture g el 1 exclude nodata mask f .grd i j = sat (texture g el 1 exclude nodata mask f .dil i j - nodata) := by
  have ht : ∀ q, texture g el 1 exclude nodata mask f q i j = morph g el 1 f.dat q i j := by
    intro q
    unfold texture screen
    rw [if_neg]
    simp [hm, hu]
  have e : erode g el f.dat i j = nodata := by
    apply le_antisymm
    · rw [← hnd]
      exact erode_le o ho hn
    · exact le_erode.2 ⟨hr, fun _ _ _ => hlow _ _⟩
  rw [ht, ht, ht]
  refine ⟨e, ?_⟩
  show sat (dilate g el f.dat i j - erode g el f.dat i j) = _
  rw [e]
  rfl

/-- C193, violated: without the exclusion of unusable pixels, the processing mask has no effect:
pixels outside of the mask have the same values as without a mask. -/
theorem c193_mask_violated (g : Rect) (el : List (ℤ × ℤ)) (iter : Nat) (nodata : ℤ) (mask : ℤ → ℤ → Bool) (f : Feature)
    (q : Product) (i j : ℤ) :
    texture g el iter false nodata mask f q i j = texture g el iter false nodata (fun _ _ => true) f q i j := by
  unfold texture
  simp

/-! ## Blocks -/

/-- Agreement of two rectangles around a pixel. -/
def Agree (g G : Rect) (d i j : ℤ) : Prop :=
  ∀ i' j', i - d ≤ i' → i' ≤ i + d → j - d ≤ j' → j' ≤ j + d → (In g i' j' ↔ In G i' j')

theorem under_congr {g G : Rect} {el : List (ℤ × ℤ)} {f h : ℤ → ℤ → ℤ} {i j : ℤ}
    (hg : ∀ o ∈ el, In g (i + o.1) (j + o.2) ↔ In G (i + o.1) (j + o.2))
    (hf : ∀ o ∈ el, In g (i + o.1) (j + o.2) → f (i + o.1) (j + o.2) = h (i + o.1) (j + o.2)) :
    under g el f i j = under G el h i j := by
  unfold under
  have e : (el.filter fun o => inside g (i + o.1) (j + o.2)) = el.filter fun o => inside G (i + o.1) (j + o.2) := by
    apply List.filter_congr
    intro o ho
    unfold inside
    exact decide_eq_decide.2 (hg o ho)
  rw [← e]
  apply List.map_congr_left
  intro o ho
  rw [List.mem_filter] at ho
  exact hf o ho.1 (by simpa [inside, In] using ho.2)

theorem iter_local {g G : Rect} {el : List (ℤ × ℤ)} {r : ℤ} (hr : Reach el r) (hr0 : 0 ≤ r)
    {F : Rect → (ℤ → ℤ → ℤ) → ℤ → ℤ → ℤ}
    (hF : ∀ g G f h i j, under g el f i j = under G el h i j → F g f i j = F G h i j)
    (n : Nat) (e : ℤ) (he : 0 ≤ e) (f h : ℤ → ℤ → ℤ) (i j : ℤ) (ha : Agree g G (e + n * r) i j)
    (hf : ∀ i' j', i - (e + n * r) ≤ i' → i' ≤ i + (e + n * r) → j - (e + n * r) ≤ j' → j' ≤ j + (e + n * r) →
      In g i' j' → f i' j' = h i' j') :
    ∀ i' j', i - e ≤ i' → i' ≤ i + e → j - e ≤ j' → j' ≤ j + e → In g i' j' → (F g)^[n] f i' j' = (F G)^[n] h i' j' := by
  induction n generalizing e with
  | zero =>
    intro i' j' a b c d hi
    simp only [Nat.cast_zero, zero_mul, add_zero] at hf
    exact hf i' j' a b c d hi
  | succ n ih =>
    intro i' j' a b c d hi
    have hs : e + ((n + 1 : ℕ) : ℤ) * r = (e + r) + n * r := by push_cast; ring
    rw [hs] at ha hf
    rw [Function.iterate_succ_apply', Function.iterate_succ_apply']
    apply hF
    have hnr : 0 ≤ (n : ℤ) * r := by positivity
    apply under_congr
    · intro o ho
      obtain ⟨o1, o2, o3, o4⟩ := hr o ho
      exact ha _ _ (by linarith) (by linarith) (by linarith) (by linarith)
    · intro o ho hin
      obtain ⟨o1, o2, o3, o4⟩ := hr o ho
      exact ih (e + r) (by linarith) ha hf _ _ (by linarith) (by linarith) (by linarith) (by linarith) hin

theorem erode_hF {el : List (ℤ × ℤ)} : ∀ (g G : Rect) (f h : ℤ → ℤ → ℤ) (i j : ℤ),
    under g el f i j = under G el h i j → erode g el f i j = erode G el h i j := by
  intro g G f h i j e
  unfold erode
  rw [e]

theorem dilate_hF {el : List (ℤ × ℤ)} : ∀ (g G : Rect) (f h : ℤ → ℤ → ℤ) (i j : ℤ),
    under g el f i j = under G el h i j → dilate g el f i j = dilate G el h i j := by
  intro g G f h i j e
  unfold dilate
  rw [e]

theorem read_agree {W B : Rect} {d h i j : ℤ} (hd : d ≤ h) (hB : In B i j) : Agree (readRect W B h) W d i j := by
  intro i' j' a b c e
  unfold In readRect at *
  simp only [max_le_iff, lt_min_iff]
  omega

/-- C194: with a halo of twice the radius times the iterations, no product depends on the blocks a
tile is divided into. -/
theorem c194_wide (W B : Rect) (el : List (ℤ × ℤ)) (r : ℤ) (iter : Nat) (f : ℤ → ℤ → ℤ) (q : Product) (i j h : ℤ)
    (hr : Reach el r) (hr0 : 0 ≤ r) (hW : In W i j) (hB : In B i j) (hh : 2 * (iter * r) ≤ h) :
    morph (readRect W B h) el iter f q i j = morph W el iter f q i j := by
  have hnr : 0 ≤ (iter : ℤ) * r := by positivity
  have hin : In (readRect W B h) i j := (read_agree (d := 0) (by linarith) hB i j (by linarith) (by linarith)
    (by linarith) (by linarith)).2 hW
  have A : ∀ d, d ≤ h → Agree (readRect W B h) W d i j := fun d hd => read_agree hd hB
  have one : ∀ (F : Rect → (ℤ → ℤ → ℤ) → ℤ → ℤ → ℤ)
      (_ : ∀ g G f h i j, under g el f i j = under G el h i j → F g f i j = F G h i j) (e : ℤ), 0 ≤ e → e + iter * r ≤ h →
      ∀ i' j', i - e ≤ i' → i' ≤ i + e → j - e ≤ j' → j' ≤ j + e → In (readRect W B h) i' j' →
      (F (readRect W B h))^[iter] f i' j' = (F W)^[iter] f i' j' :=
    fun F hF e he heh => iter_local hr hr0 hF iter e he f f i j (A _ heh) (fun _ _ _ _ _ _ _ => rfl)
  have two : ∀ (F H : Rect → (ℤ → ℤ → ℤ) → ℤ → ℤ → ℤ)
      (_ : ∀ g G f h i j, under g el f i j = under G el h i j → F g f i j = F G h i j)
      (_ : ∀ g G f h i j, under g el f i j = under G el h i j → H g f i j = H G h i j),
      (H (readRect W B h))^[iter] ((F (readRect W B h))^[iter] f) i j = (H W)^[iter] ((F W)^[iter] f) i j := by
    intro F H hF hH
    refine iter_local hr hr0 hH iter 0 le_rfl _ _ i j (A _ (by linarith)) ?_ i j (by linarith) (by linarith)
      (by linarith) (by linarith) hin
    intro i' j' a b c d hi
    exact one F hF (iter * r) hnr (by linarith) i' j' (by linarith) (by linarith) (by linarith) (by linarith) hi
  have e0 := one (fun g => erode g el) erode_hF 0 le_rfl (by linarith) i j (by linarith) (by linarith) (by linarith)
    (by linarith) hin
  have d0 := one (fun g => dilate g el) dilate_hF 0 le_rfl (by linarith) i j (by linarith) (by linarith) (by linarith)
    (by linarith) hin
  have ed := two (fun g => erode g el) (fun g => dilate g el) erode_hF dilate_hF
  have de := two (fun g => dilate g el) (fun g => erode g el) dilate_hF erode_hF
  cases q
  · exact e0
  · exact d0
  · exact ed
  · exact de
  · show sat (_ - _) = sat (_ - _)
    rw [e0, d0]
  · show sat (_ - _) = sat (_ - _)
    rw [ed]
  · show sat (_ - _) = sat (_ - _)
    rw [de]

/-- C194, partial: erosion, dilation and gradient do not depend on the blocks a tile is divided
into. Missing: opening, closing, top hat and black hat (below). -/
theorem c194_halo_partial (W B : Rect) (el : List (ℤ × ℤ)) (r iter : Nat) (f : ℤ → ℤ → ℤ) (q : Product) (i j : ℤ)
    (hr : Reach el r) (hW : In W i j) (hB : In B i j) (hq : q = .ero ∨ q = .dil ∨ q = .grd) :
    morph (readRect W B (halo r iter)) el iter f q i j = morph W el iter f q i j := by
  have hnr : (0 : ℤ) ≤ (iter : ℤ) * r := by positivity
  have hh : (0 : ℤ) + (iter : ℤ) * r ≤ (halo r iter : ℤ) := by unfold halo; push_cast; linarith [mul_comm (iter : ℤ) r]
  have hin : In (readRect W B (halo r iter)) i j := (read_agree (d := 0) (by linarith) hB i j (by linarith) (by linarith)
    (by linarith) (by linarith)).2 hW
  have one : ∀ (F : Rect → (ℤ → ℤ → ℤ) → ℤ → ℤ → ℤ)
      (_ : ∀ g G f h i j, under g el f i j = under G el h i j → F g f i j = F G h i j),
      (F (readRect W B (halo r iter)))^[iter] f i j = (F W)^[iter] f i j :=
    fun F hF => iter_local hr (by positivity) hF iter 0 le_rfl f f i j (read_agree hh hB) (fun _ _ _ _ _ _ _ => rfl) i j
      (by linarith) (by linarith) (by linarith) (by linarith) hin
  have e0 := one (fun g => erode g el) erode_hF
  have d0 := one (fun g => dilate g el) dilate_hF
  rcases hq with rfl | rfl | rfl
  · exact e0
  · exact d0
  · show sat (_ - _) = sat (_ - _)
    rw [e0, d0]

/-- C194, violated: opening and closing look twice as far as the halo that is read. For every
radius and every number of iterations there are data for which the opening of a pixel at the border
of a block is 10 if the tile is divided into blocks, and 0 if it is not. -/
theorem c194_halo_violated (W B : Rect) (el : List (ℤ × ℤ)) (r iter : Nat) (j : ℤ) (hr0 : 0 < r) (hit : 0 < iter)
    (he : Element el) (hr : Reach el r) (hup : ((r : ℤ), 0) ∈ el)
    (hW : W.i0 ≤ -(2 * (r * iter)) ∧ (r * iter : ℤ) < W.i1 ∧ W.j0 ≤ j ∧ j < W.j1)
    (hB : B.i0 = 0 ∧ 0 < B.i1 ∧ B.j0 ≤ j ∧ j < B.j1) :
    ∃ f : ℤ → ℤ → ℤ, Short f ∧ morph (readRect W B (halo r iter)) el iter f .opn 0 j = 10 ∧
      morph W el iter f .opn 0 j = 0 := by
  obtain ⟨w1, w2, w3, w4⟩ := hW
  obtain ⟨b1, b2, b3, b4⟩ := hB
  have hdn : (-(r : ℤ), (0 : ℤ)) ∈ el := by simpa using he.2 _ hup
  have hr1 : (1 : ℤ) ≤ r := by exact_mod_cast hr0
  have hN1 : (1 : ℤ) ≤ r * iter := by
    have : 0 < r * iter := Nat.mul_pos hr0 hit
    exact_mod_cast this
  set N : ℤ := (r : ℤ) * iter with hN
  set f : ℤ → ℤ → ℤ := fun i _ => if -N ≤ i ∧ i ≤ 0 then 10 else 0 with hf
  have f10 : ∀ i j, -N ≤ i → i ≤ 0 → f i j = 10 := fun i j a b => if_pos ⟨a, b⟩
  have f0 : ∀ i j, (i < -N ∨ 0 < i) → f i j = 0 := fun i j a => if_neg (by omega)
  have fle : ∀ i j, 0 ≤ f i j ∧ f i j ≤ 10 := by
    intro i j
    rw [hf]
    simp only
    split <;> norm_num
  have hsh : Short f := fun i j => ⟨by linarith [(fle i j).1], by linarith [(fle i j).2]⟩
  refine ⟨f, hsh, ?_, ?_⟩
  · have hg : (halo r iter : ℤ) = N := by rw [hN]; unfold halo; push_cast; rfl
    rw [hg]
    set G := readRect W B N with hG
    have gi0 : G.i0 = -N := by
      show max W.i0 (B.i0 - N) = -N
      rw [b1]
      apply le_antisymm
      · apply max_le <;> linarith
      · apply le_max_of_le_right; linarith
    have inG : ∀ i, -N ≤ i → i ≤ 0 → In G i j := by
      intro i a b
      refine ⟨by linarith, ?_, ?_, ?_⟩
      · show i < min W.i1 (B.i1 + N)
        apply lt_min <;> linarith
      · show max W.j0 (B.j0 - N) ≤ j
        apply max_le <;> linarith
      · show j < min W.j1 (B.j1 + N)
        apply lt_min <;> linarith
    have A : ∀ k : Nat, ∀ i j', -N ≤ i → i ≤ -(r * k) → 10 ≤ (erode G el)^[k] f i j' := by
      intro k
      induction k with
      | zero =>
        intro i j' a b
        simp only [Nat.cast_zero, mul_zero, neg_zero] at b
        exact (f10 i j' a b).ge
      | succ k ih =>
        intro i j' a b
        rw [Function.iterate_succ_apply']
        refine le_erode.2 ⟨by norm_num, fun o ho hi => ih _ _ ?_ ?_⟩
        · have := hi.1
          rw [gi0] at this
          exact this
        · have := (hr o ho).2.1
          push_cast at b
          nlinarith
    have D : ∀ k : Nat, k ≤ iter → 10 ≤ (dilate G el)^[k] ((erode G el)^[iter] f) (-N + r * k) j := by
      intro k
      induction k with
      | zero =>
        intro _
        simp only [Nat.cast_zero, mul_zero, add_zero]
        exact A iter (-N) j le_rfl le_rfl
      | succ k ih =>
        intro hk
        rw [Function.iterate_succ_apply']
        have hkk : ((k + 1 : ℕ) : ℤ) ≤ iter := by exact_mod_cast hk
        have hrk : (r : ℤ) * ((k + 1 : ℕ) : ℤ) ≤ N := by rw [hN]; exact mul_le_mul_of_nonneg_left hkk (by linarith)
        have hpos : (0 : ℤ) ≤ r * k := by positivity
        have e : -N + (r : ℤ) * ((k + 1 : ℕ) : ℤ) + -(r : ℤ) = -N + r * k := by push_cast; ring
        have := le_dilate (g := G) (f := (dilate G el)^[k] ((erode G el)^[iter] f)) (i := -N + r * ((k + 1 : ℕ) : ℤ))
          (j := j) (-(r : ℤ), 0) hdn (by
            simp only [add_zero]
            rw [e]
            push_cast at hrk
            exact inG _ (by linarith) (by nlinarith))
        simp only [add_zero] at this
        rw [e] at this
        exact le_trans (ih (by omega)) this
    apply le_antisymm
    · have h1 := open_n he iter (short_in (g := G) hsh) 0 j (inG 0 (by linarith) le_rfl)
      exact le_trans h1 (fle 0 j).2
    · have := D iter le_rfl
      rw [hN, neg_add_cancel] at this
      exact this
  · have inW : ∀ i j', -(2 * N) ≤ i → i ≤ N → W.j0 ≤ j' → j' < W.j1 → In W i j' :=
      fun i j' a b c d => ⟨by linarith, by linarith, c, d⟩
    have U : ∀ (s : ℤ), (s, (0 : ℤ)) ∈ el → (s = r ∨ s = -r) → ∀ k : Nat, ∀ i j', W.j0 ≤ j' → j' < W.j1 →
        -(2 * N) ≤ i → i ≤ N → -(2 * N) ≤ i + s * k → i + s * k ≤ N → (erode W el)^[k] f i j' ≤ f (i + s * k) j' := by
      intro s hs hsr k
      induction k with
      | zero => intro i j' _ _ _ _ _ _; simp
      | succ k ih =>
        intro i j' c d a b a' b'
        rw [Function.iterate_succ_apply']
        have hpos : (0 : ℤ) ≤ r * k := by positivity
        have e : i + s * ((k + 1 : ℕ) : ℤ) = i + s + s * k := by push_cast; ring
        rw [e] at a' b' ⊢
        have hrange : -(2 * N) ≤ i + s ∧ i + s ≤ N := by
          rcases hsr with rfl | rfl
          · exact ⟨by linarith, by linarith⟩
          · exact ⟨by linarith, by linarith⟩
        have h1 := erode_le (g := W) (f := (erode W el)^[k] f) (i := i) (j := j') (s, 0) hs
          (by simp only [add_zero]; exact inW _ _ hrange.1 hrange.2 c d)
        simp only [add_zero] at h1
        exact le_trans h1 (ih _ _ c d hrange.1 hrange.2 a' b')
    have E : ∀ i j', W.j0 ≤ j' → j' < W.j1 → -N ≤ i → i ≤ N → (erode W el)^[iter] f i j' ≤ 0 := by
      intro i j' c d a b
      rcases lt_or_ge 0 i with hp | hp
      · have := iter_le_self (erode_self he.1) iter f i j' (inW i j' (by linarith) b c d)
        rw [f0 i j' (Or.inr hp)] at this
        exact this
      · rcases eq_or_lt_of_le a with hq | hq
        · have := U (-r) hdn (Or.inr rfl) iter i j' c d (by linarith) b (by linarith) (by linarith)
          rw [f0 (i + -(r : ℤ) * iter) j' (Or.inl (by linarith))] at this
          exact this
        · have := U r hup (Or.inl rfl) iter i j' c d (by linarith) b (by linarith) (by linarith)
          rw [f0 (i + r * iter) j' (Or.inr (by linarith))] at this
          exact this
    have F : ∀ k : Nat, ∀ i j', W.j0 ≤ j' → j' < W.j1 → -(N - r * k) ≤ i → i ≤ N - r * k →
        (dilate W el)^[k] ((erode W el)^[iter] f) i j' ≤ 0 := by
      intro k
      induction k with
      | zero =>
        intro i j' c d a b
        simp only [Nat.cast_zero, mul_zero, sub_zero] at a b
        exact E i j' c d a b
      | succ k ih =>
        intro i j' c d a b
        rw [Function.iterate_succ_apply']
        refine dilate_le.2 ⟨by norm_num, fun o ho hi => ?_⟩
        obtain ⟨o1, o2, -, -⟩ := hr o ho
        push_cast at a b
        exact ih _ _ hi.2.2.1 hi.2.2.2 (by nlinarith) (by nlinarith)
    apply le_antisymm
    · exact F iter 0 j w3 w4 (by linarith) (by linarith)
    · have h0 : ShortIn W (fun i j => f i j) := short_in hsh
      have lowE : ∀ k : Nat, ∀ i j', 0 ≤ (erode W el)^[k] f i j' := by
        intro k
        induction k with
        | zero => intro i j'; exact (fle i j').1
        | succ k ih =>
          intro i j'
          rw [Function.iterate_succ_apply']
          exact le_erode.2 ⟨by norm_num, fun o _ _ => ih _ _⟩
      exact le_trans (lowE iter 0 j) (self_le_iter (self_dilate he.1) iter _ 0 j
        (inW 0 j (by linarith) (by linarith) w3 w4))

end Verif.Texture

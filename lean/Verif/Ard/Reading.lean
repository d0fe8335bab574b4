import Verif.Ard.Names
import Verif.Qai.Props

/-!
# Reading of Level 2 data: theorems
-/

namespace Verif.Ard

open Verif.Str (Out strstr)
open Verif.Str.Spec (FirstOccurrence)
open Verif.Ard.Spec
open Verif.Qai.Spec (value)

/-! ## Companions -/

theorem occurrence_unique {t w p s p' s' : List Char} (h : FirstOccurrence t w p s) (h' : FirstOccurrence t w p' s') : p = p' ∧ s = s' := by
  have hl : p.length = p'.length := le_antisymm (h.2 p' s' h'.1) (h'.2 p s h.1)
  have e := h.1.symm.trans h'.1
  rw [List.append_assoc, List.append_assoc] at e
  obtain ⟨e1, e2⟩ := List.append_inj e hl
  exact ⟨e1, List.append_cancel_left e2⟩

/-- What `replace_string` makes of a text, at the first occurrence. -/
theorem companion_first {t main other p s : List Char} (hn : Str.nul ∉ t) (hn' : Str.nul ∉ other) (hf : FirstOccurrence t main p s)
    (hl : t.length < 1024) (hl' : (p ++ other ++ s).length < 1024) : companion t main other = .ok (p ++ other ++ s) := by
  have hlen := congrArg List.length hf.1
  simp only [List.length_append] at hlen hl'
  have hp : ∃ pad, List.replicate (1024 - t.length) Str.nul = Str.nul :: pad ∧ pad.length = 1023 - t.length := by
    refine ⟨List.replicate (1023 - t.length) Str.nul, ?_, by simp⟩
    rw [← List.replicate_succ]
    congr 1
    omega
  obtain ⟨pad, hpad, hpl⟩ := hp
  obtain ⟨out, ho, hh⟩ := (Str.c30_replace_partial t pad main other 1024 hn (by simp only [List.length_append, List.length_cons]; omega) (by norm_num)
    (by omega) (by omega) (by omega) (by omega)).1 p s hf
  unfold companion
  rw [hpad, ho]
  simp only [Out.bind]
  congr 1
  have h2 := hh.2.1
  have : out = (p ++ other ++ s) ++ Str.nul :: out.drop ((p ++ other ++ s).length + 1) := by
    conv_lhs => rw [← List.take_append_drop ((p ++ other ++ s).length + 1) out, h2]
    simp
  rw [this]
  refine Str.cstr_append_nul ?_
  intro hm
  simp only [List.mem_append] at hm
  rcases hm with (hm | hm) | hm
  · exact hn (by rw [hf.1]; simp [hm])
  · exact hn' hm
  · exact hn (by rw [hf.1]; simp [hm])

theorem prefix_of_append {p s x y : List Char} (e : p ++ s = x ++ y) (hl : p.length ≤ x.length) : p <+: x := by
  have : p <+: x ++ y := ⟨s, e⟩
  exact List.prefix_of_prefix_length_le this (List.prefix_append x y) hl

/-- An occurrence of a word without separator does not cross a separator. -/
theorem first_after {a b w p s : List Char} {c : Char} (hc : c ∉ w) (hw : w ≠ []) (ha : ¬ w <:+: a) (h : FirstOccurrence b w p s) :
    FirstOccurrence (a ++ c :: b) w (a ++ c :: p) s := by
  refine ⟨by rw [h.1]; simp, ?_⟩
  intro p' s' e
  by_contra hlt
  push Not at hlt
  simp only [List.length_append, List.length_cons] at hlt
  rw [List.append_assoc] at e
  by_cases hl : p'.length ≤ a.length
  · -- the occurrence starts before the separator
    obtain ⟨q, hq⟩ := prefix_of_append e.symm hl
    have e2 : q ++ c :: b = w ++ s' := by
      rw [← hq, List.append_assoc] at e
      exact List.append_cancel_left e
    have : w <+: q := prefix_sep hc ⟨s', e2.symm⟩
    exact ha (this.isInfix.trans ⟨p', [], by rw [List.append_nil]; exact hq⟩)
  · push Not at hl
    have e3 : a ++ [c] ++ b = p' ++ (w ++ s') := by rw [← e]; simp
    obtain ⟨q, hq⟩ := prefix_of_append e3 (by simp; omega)
    have e4 : b = q ++ w ++ s' := by
      rw [← hq] at e3
      simp only [List.append_assoc] at e3 ⊢
      exact List.append_cancel_left (List.append_cancel_left e3)
    have := h.2 q s' e4
    have hql := congrArg List.length hq
    simp only [List.length_append, List.length_cons, List.length_nil] at hql
    omega

theorem first_self (w b : List Char) : FirstOccurrence (w ++ b) w [] b := ⟨by simp, fun _ _ _ => by simp⟩

theorem first_of_field {a w p s y : List Char} (ha : FirstOccurrence a w p s) : FirstOccurrence (a ++ y) w p (s ++ y) := by
  refine ⟨by rw [ha.1]; simp, ?_⟩
  intro p' s' e
  by_cases hl : (p' ++ w).length ≤ a.length
  · obtain ⟨q, hq⟩ := prefix_of_append (p := p' ++ w) (s := s') (x := a) (y := y) (by rw [e]) hl
    exact ha.2 p' q hq.symm
  · have hlen := congrArg List.length ha.1
    simp only [List.length_append] at hlen hl
    omega

/-- C133: the quality or auxiliary image that belongs to an image is the file with the same date, level, sensor and kind, and the other product, if the name of the
main product does not occur in date, level or sensor. -/
theorem c133_companion_partial (n : Name) (hn : n.Ok) (other : List Char) (ho : Part other)
    (h1 : ¬ n.product <:+: n.date) (h2 : ¬ n.product <:+: n.level) (h3 : ¬ n.product <:+: n.sensor)
    (hl : ({ n with product := other } : Name).text.length < 1024) :
    companion n.text n.product other = .ok ({ n with product := other } : Name).text := by
  have hu := (part_no hn.product).1
  have hw := hn.product.1
  have f := first_after (c := '_') hu hw h1 (first_after (c := '_') hu hw h2 (first_after (c := '_') hu hw h3 (first_self n.product ('.' :: n.ext))))
  have e : ({ n with product := other } : Name).text = (n.date ++ '_' :: (n.level ++ '_' :: (n.sensor ++ ['_']))) ++ other ++ ('.' :: n.ext) := by
    simp [Name.text, Name.date]
  rw [e] at hl ⊢
  refine companion_first (text_not hn).2 (fun hm => (alnum_facts (ho.2 _ hm)).2.2.2.1 rfl) ?_ hn.short hl
  exact f

/-- C133, violated: if the name of the main product occurs in the sensor field, that field is changed and not the product: the quality image of the image is not
looked for under its name. -/
theorem c133_sensor_violated (n : Name) (hn : n.Ok) (other : List Char) (ho : Part other) (hne : other ≠ n.product)
    (h1 : ¬ n.product <:+: n.date) (h2 : ¬ n.product <:+: n.level) (a b : List Char) (h3 : FirstOccurrence n.sensor n.product a b)
    (hl : ({ n with sensor := a ++ other ++ b } : Name).text.length < 1024) :
    companion n.text n.product other = .ok ({ n with sensor := a ++ other ++ b } : Name).text ∧
      ({ n with sensor := a ++ other ++ b } : Name).text ≠ ({ n with product := other } : Name).text := by
  have hu := (part_no hn.product).1
  have hw := hn.product.1
  have f := first_after (c := '_') hu hw h1 (first_after (c := '_') hu hw h2 (first_of_field (y := '_' :: (n.product ++ '.' :: n.ext)) h3))
  have e : ({ n with sensor := a ++ other ++ b } : Name).text =
      (n.date ++ '_' :: (n.level ++ '_' :: a)) ++ other ++ (b ++ '_' :: (n.product ++ '.' :: n.ext)) := by
    simp [Name.text, Name.date]
  constructor
  · rw [e] at hl ⊢
    exact companion_first (text_not hn).2 (fun hm => (alnum_facts (ho.2 _ hm)).2.2.2.1 rfl) f hn.short hl
  · intro hc
    have hs : Part (a ++ other ++ b) := by
      constructor
      · intro h0
        simp only [List.append_eq_nil_iff] at h0
        exact ho.1 h0.1.2
      · intro c hm
        simp only [List.mem_append] at hm
        rcases hm with (hm | hm) | hm
        · exact hn.sensor.2 c (by rw [h3.1]; simp [hm])
        · exact ho.2 c hm
        · exact hn.sensor.2 c (by rw [h3.1]; simp [hm])
    have hd : Part n.date := ⟨by simp [Name.date], date_alnum hn⟩
    have u : isFieldSep '_' = true := by decide
    have d : isFieldSep '.' = true := by decide
    have t1 : token 3 ({ n with sensor := a ++ other ++ b } : Name).text = some n.product := by
      show token 3 (n.date ++ '_' :: (n.level ++ '_' :: ((a ++ other ++ b) ++ '_' :: (n.product ++ '.' :: n.ext)))) = _
      simp only [token, word_part hd u, word_part hn.level u, word_part hs u, word_part hn.product d, Option.bind_some, Option.map_some]
    have t2 : token 3 ({ n with product := other } : Name).text = some other := by
      show token 3 (n.date ++ '_' :: (n.level ++ '_' :: (n.sensor ++ '_' :: (other ++ '.' :: n.ext)))) = _
      simp only [token, word_part hd u, word_part hn.level u, word_part hn.sensor u, word_part ho d, Option.bind_some, Option.map_some]
    rw [hc, t2] at t1
    exact hne (Option.some.inj t1)

/-! ## Errors -/

/-- Everything that is needed of an image can be read. -/
def Readable (p : Plan) (f : Files) : Prop :=
  (p.ref = true → f.ref = true) ∧ (p.qai = true → p.noQuality = false → f.qai = true) ∧ (p.aux = true → ∀ ok ∈ f.aux, ok = true)

theorem bad_zero {l : List Bool} : (l.filter fun ok => !ok).length = 0 ↔ ∀ ok ∈ l, ok = true := by
  rw [List.length_eq_zero_iff, List.filter_eq_nil_iff]
  constructor
  · intro h ok hm
    have := h ok hm
    simpa using this
  · intro h ok hm
    simp [h ok hm]

/-- One image, if no error occurred before. -/
theorem readOne_zero (p : Plan) (f : Files) (ha : p.aux = true → p.ref = true) (hq : p.qai = true → p.noQuality = true → p.ref = true) :
    ∃ e l, readOne p f 0 = .ok (e, l) ∧ (e = 0 ↔ Readable p f) ∧ (e = 0 → l = (p.ref, p.qai, p.aux)) := by
  obtain ⟨pr, pq, pa, pn⟩ := p
  obtain ⟨fr, fq, fa⟩ := f
  have hb := bad_zero (l := fa)
  cases pr <;> cases pq <;> cases pa <;> cases pn <;> cases fr <;> cases fq <;>
    simp_all [readOne, readOne.aux, Readable]

theorem readOne_err (p : Plan) (f : Files) (err : Nat) (h : err ≠ 0) : readOne p f err = .ok (err, false, false, false) := by
  simp [readOne, readOne.aux, h]

theorem readThread_spec (p : Plan) (ha : p.aux = true → p.ref = true) (hq : p.qai = true → p.noQuality = true → p.ref = true) (fs : List Files) :
    (∀ err, err ≠ 0 → ∃ l, readThread p fs err = .ok (err, l) ∧ l.length = fs.length) ∧
    ∃ e l, readThread p fs 0 = .ok (e, l) ∧ l.length = fs.length ∧ (e = 0 ↔ ∀ f ∈ fs, Readable p f) ∧ (e = 0 → ∀ x ∈ l, x = (p.ref, p.qai, p.aux)) := by
  induction fs with
  | nil => exact ⟨fun err _ => ⟨[], rfl, rfl⟩, 0, [], rfl, rfl, by simp, by simp⟩
  | cons f fs ih =>
    obtain ⟨i1, e2, l2, i2, i3, i4, i5⟩ := ih
    constructor
    · intro err he
      obtain ⟨l, hl, hn⟩ := i1 err he
      refine ⟨(false, false, false) :: l, ?_, by simp [hn]⟩
      rw [readThread, readOne_err p f err he]
      simp only [Out.bind, hl]
    · obtain ⟨e, x, h1, h2, h3⟩ := readOne_zero p f ha hq
      by_cases he : e = 0
      · subst he
        refine ⟨e2, x :: l2, ?_, by simp [i3], ?_, ?_⟩
        · rw [readThread, h1]
          simp only [Out.bind, i2]
        · simp only [List.mem_cons, forall_eq_or_imp]
          rw [i4]
          exact ⟨fun h => ⟨h2.1 rfl, h⟩, fun h => h.2⟩
        · intro h0 y hy
          rw [List.mem_cons] at hy
          rcases hy with rfl | hy
          · exact h3 rfl
          · exact i5 h0 y hy
      · obtain ⟨l, hl, hn⟩ := i1 e he
        refine ⟨e, x :: l, ?_, by simp [hn], ?_, fun h => absurd h he⟩
        · rw [readThread, h1]
          simp only [Out.bind, hl]
        · constructor
          · intro h; exact absurd h he
          · intro h; exact absurd (h2.2 (h f List.mem_cons_self)) he

/-- C133: however the images are distributed to the threads, reading ends without error exactly if everything that is needed of every image can be read; then every
image has its main product, its quality and its auxiliary products, as far as they were asked for. (Auxiliary products need the main product, which the parameter
file is checked for; without a quality product the main product is needed.) -/
theorem c133_errors_partial (p : Plan) (ha : p.aux = true → p.ref = true) (hq : p.qai = true → p.noQuality = true → p.ref = true) (threads : List (List Files)) :
    ∃ e l, readAll p threads = .ok (e, l) ∧ l.length = threads.flatten.length ∧ (e = 0 ↔ ∀ f ∈ threads.flatten, Readable p f) ∧
      (e = 0 → ∀ x ∈ l, x = (p.ref, p.qai, p.aux)) := by
  induction threads with
  | nil => exact ⟨0, [], rfl, rfl, by simp, by simp⟩
  | cons t ts ih =>
    obtain ⟨e, l, h1, h2, h3, h4⟩ := ih
    obtain ⟨-, e', l', g1, g2, g3, g4⟩ := readThread_spec p ha hq t
    refine ⟨e' + e, l' ++ l, ?_, by simp [h2, g2], ?_, ?_⟩
    · rw [readAll, g1]
      simp only [Out.bind, h1]
    · rw [Nat.add_eq_zero_iff, h3, g3, List.flatten_cons]
      simp only [List.mem_append]
      exact ⟨fun h f hf => hf.elim (h.1 f) (h.2 f), fun h => ⟨fun f hf => h f (Or.inl hf), fun f hf => h f (Or.inr hf)⟩⟩
    · intro h0 x hx
      rw [Nat.add_eq_zero_iff] at h0
      rw [List.mem_append] at hx
      rcases hx with hx | hx
      · exact g4 h0.1 x hx
      · exact h4 h0.2 x hx

/-- C133, violated: if quality is needed, there is no quality product (`PRODUCT_TYPE_QUALITY = NULL`), and the main product is not read (clear-sky observations), the
behaviour is undefined as soon as there is an image: a copy of an image that is not there is made. -/
theorem c133_quality_violated (p : Plan) (hq : p.qai = true) (hn : p.noQuality = true) (hr : p.ref = false) (threads : List (List Files))
    (h : threads.flatten ≠ []) : readAll p threads = .ub := by
  induction threads with
  | nil => exact absurd rfl h
  | cons t ts ih =>
    cases t with
    | nil =>
      rw [readAll, readThread]
      simp only [Out.bind]
      rw [ih (by simpa using h)]
    | cons f fs =>
      have : readOne p f 0 = .ub := by simp [readOne, hq, hn, hr]
      rw [readAll, readThread, this]
      rfl

/-! ## Masks and features -/

/-- C136: a chunk is skipped exactly if no pixel of the processing mask has the value 1; else a pixel is in the mask exactly if its value is 1. -/
theorem c136_mask (m : List Int) :
    (readMask m = none ↔ ∀ v ∈ m, v ≠ 1) ∧
    ∀ l, readMask m = some l → l.length = m.length ∧ ∀ k (h : k < m.length), l[k]? = some (if m[k] = 1 then 1 else 0) := by
  unfold readMask
  have hz : (m.filter fun v => decide (v = 1)).length = 0 ↔ ∀ v ∈ m, v ≠ 1 := by
    rw [List.length_eq_zero_iff, List.filter_eq_nil_iff]
    simp
  by_cases h : (m.filter fun v => decide (v = 1)).length = 0
  · rw [if_pos h]
    exact ⟨⟨fun _ => hz.1 h, fun _ => rfl⟩, by simp⟩
  · rw [if_neg h]
    refine ⟨⟨by simp, fun hv => absurd (hz.2 hv) h⟩, ?_⟩
    intro l hl
    rw [← Option.some.inj hl]
    refine ⟨by simp, ?_⟩
    intro k hk
    simp [hk]

theorem quality_fold (bands : List Int) (q : BitVec 16) (f : Qai.Flag) :
    value f (bands.foldl (fun q v => if v = -9999 then Qai.set .off q 1 else q) q) =
      if f = .off ∧ (-9999 : Int) ∈ bands then 1 else value f q := by
  induction bands generalizing q with
  | nil => simp
  | cons v bands ih =>
    rw [List.foldl_cons, ih]
    by_cases hv : v = -9999
    · rw [if_pos hv, Qai.c07_get_set .off f q 1 (by decide)]
      subst hv
      by_cases hf : f = .off
      · simp [hf]
      · simp [hf]
    · rw [if_neg hv]
      have : (-9999 : Int) ∈ v :: bands ↔ (-9999 : Int) ∈ bands := by
        rw [List.mem_cons]
        exact ⟨fun h => h.resolve_left (fun h => hv h.symm), Or.inr⟩
      simp only [this]

/-- C136: without a quality product, a pixel is marked as nodata exactly if one of its bands is −9999, and carries no other flag; a pixel of a feature exactly if it
has the nodata value of the feature. -/
theorem c136_quality (bands : List Int) (nodata v : Int) :
    (∀ f, value f (quality bands) = if f = .off ∧ (-9999 : Int) ∈ bands then 1 else 0) ∧
    ∀ f, value f (featureQuality nodata v) = if f = .off ∧ v = nodata then 1 else 0 := by
  have z : ∀ f, value f (0 : BitVec 16) = 0 := by intro f; cases f <;> decide
  constructor
  · intro f
    rw [quality, quality_fold, z]
  · intro f
    unfold featureQuality
    by_cases hv : v = nodata
    · rw [if_pos hv, Qai.c07_get_set .off f 0 1 (by decide), z]
      simp [hv]
    · rw [if_neg hv, z]
      simp [hv]

end Verif.Ard

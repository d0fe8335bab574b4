import Mathlib.Tactic.FieldSimp
import Mathlib.Tactic.Linarith
import Mathlib.Tactic.Ring
import Mathlib.Tactic.LinearCombination
import Mathlib.Tactic.NormNum
import Verif.Aod.Model
import Verif.Aod.Spec

/-! # AOD of a target (C216, C217, C218) -/

namespace Verif.Aod

open Verif.Aod.Spec

/-! ## Estimates -/

theorem better_fold (m : ℝ → ℝ) (l : List ℝ) (st : ℝ × ℝ) :
    let r := l.foldl (better m) st
    r.1 ≤ st.1 ∧ (∀ a ∈ l, r.1 ≤ m a) ∧ (r = st ∨ (r.2 ∈ l ∧ r.1 = m r.2)) := by
  induction l generalizing st with
  | nil => simp
  | cons q l ih =>
    obtain ⟨h1, h2, h3⟩ := ih (better m st q)
    have hb : (better m st q).1 ≤ st.1 ∧ (better m st q).1 ≤ m q ∧ (better m st q = st ∨ better m st q = (m q, q)) := by
      unfold better
      by_cases h : m q < st.1
      · rw [if_pos h]; exact ⟨h.le, le_refl _, .inr rfl⟩
      · rw [if_neg h]; exact ⟨le_refl _, not_lt.1 h, .inl rfl⟩
    rw [List.foldl_cons]
    refine ⟨h1.trans hb.1, ?_, ?_⟩
    · intro a ha
      rcases List.mem_cons.1 ha with rfl | ha
      · exact h1.trans hb.2.1
      · exact h2 a ha
    · rcases h3 with h3 | ⟨h3, h4⟩
      · rcases hb.2.2 with e | e
        · left; rw [h3, e]
        · right; rw [h3, e]; simp
      · right; exact ⟨by simp [h3], h4⟩

/-- C216: the estimate for a band and a spectrum of the library is the AOD with the best match between
computed and measured reflectance, of all values up to the first that is implausible. It does not depend on what the
memory held before. Only values with a finite mismatch are considered; there must be one. -/
theorem c216_best_match (cv : Curve) (steps : List ℝ) (w : Nat) (a : ℝ) (pre post : List ℝ)
    (hs : steps = pre ++ a :: post) (hp : ∀ x ∈ pre, cv.implausible x = false) (ha : cv.implausible a = false)
    (hm : cv.mismatch w a < 2147483647) (old : ℝ) :
    ∃ r ∈ steps, scan cv steps w old = r ∧ (∃ pre' post', steps = pre' ++ r :: post' ∧ (∀ x ∈ pre', cv.implausible x = false)) ∧
      cv.implausible r = false ∧ cv.mismatch w r ≤ cv.mismatch w a ∧
      (∀ old', scan cv steps w old' = r) := by
  have hta : a ∈ steps.takeWhile fun a => !cv.implausible a := by
    rw [hs, List.takeWhile_append_of_pos (by simpa using hp)]
    simp [ha]
  -- the two runs move together
  have two : ∀ (l : List ℝ) (m : ℝ) (x y : ℝ), (l.foldl (better (cv.mismatch w)) (m, x)).1 = (l.foldl (better (cv.mismatch w)) (m, y)).1 ∧
      ((∃ b ∈ l, cv.mismatch w b < m) → l.foldl (better (cv.mismatch w)) (m, x) = l.foldl (better (cv.mismatch w)) (m, y)) := by
    intro l
    induction l with
    | nil => intro m x y; simp
    | cons q l ih =>
      intro m x y
      simp only [List.foldl_cons]
      unfold better
      by_cases h : cv.mismatch w q < m
      · simp only [h, if_true]; exact ⟨trivial, fun _ => trivial⟩
      · simp only [h, if_false]
        refine ⟨(ih m x y).1, ?_⟩
        rintro ⟨b, hb, hlt⟩
        rcases List.mem_cons.1 hb with rfl | hb
        · exact absurd hlt h
        · exact (ih m x y).2 ⟨b, hb, hlt⟩
  obtain ⟨h1, h2, h3⟩ := better_fold (cv.mismatch w) (steps.takeWhile fun a => !cv.implausible a) (2147483647, old)
  have hne : (steps.takeWhile fun a => !cv.implausible a).foldl (better (cv.mismatch w)) (2147483647, old) ≠ (2147483647, old) := by
    intro e
    have := h2 a hta
    rw [e] at this
    exact absurd hm (not_lt.2 this)
  obtain ⟨hr, he⟩ := h3.resolve_left hne
  refine ⟨_, List.takeWhile_subset _ hr, rfl, ?_, ?_, ?_, ?_⟩
  · obtain ⟨u, v, huv⟩ := List.append_of_mem hr
    refine ⟨u, v ++ steps.dropWhile (fun a => !cv.implausible a), ?_, ?_⟩
    · conv_lhs => rw [← List.takeWhile_append_dropWhile (p := fun a => !cv.implausible a) (l := steps), huv]
      simp
    · intro x hx
      have : x ∈ steps.takeWhile fun a => !cv.implausible a := by rw [huv]; simp [hx]
      simpa using List.mem_takeWhile_imp this
  · simpa using List.mem_takeWhile_imp hr
  · have := h2 a hta
    rw [he] at this; exact this
  · intro old'
    exact congrArg Prod.snd ((two _ 2147483647 old' old).2 ⟨a, hta, hm⟩)

/-! ## Clamping -/

/-- The estimates after all bands were looked at. -/
theorem clamp_fold (c : Conf) (e : Nat → ℝ) (m : Nat) (hm : m ≤ c.nb) (x : Nat) :
    (List.range m).foldl (clampStep c) e x =
      if x < c.nb ∧ c.use x = true ∧ ∃ b, b < m ∧ b ≤ x ∧ c.use b = true ∧ e b ≤ e c.sw2 then e c.sw2 else e x := by
  induction m generalizing x with
  | zero => simp
  | succ m ih =>
    rw [List.range_succ, List.foldl_append, List.foldl_cons, List.foldl_nil]
    have ih' := ih (by omega)
    have hsw : (List.range m).foldl (clampStep c) e c.sw2 = e c.sw2 := by rw [ih']; split <;> rfl
    rw [clampStep, hsw]
    have hlow : (List.range m).foldl (clampStep c) e m ≤ e c.sw2 ↔
        (m < c.nb ∧ c.use m = true ∧ ∃ b, b < m ∧ b ≤ m ∧ c.use b = true ∧ e b ≤ e c.sw2) ∨ e m ≤ e c.sw2 := by
      rw [ih' m]
      split
      · rename_i h; exact ⟨fun _ => .inl h, fun _ => le_refl _⟩
      · rename_i h; exact ⟨fun h' => .inr h', fun h' => h'.resolve_left h⟩
    by_cases hu : c.use m = true ∧ (List.range m).foldl (clampStep c) e m ≤ e c.sw2
    · rw [if_pos hu]
      have hz := hlow.1 hu.2
      by_cases hx : m ≤ x ∧ x < c.nb ∧ c.use x = true
      · rw [if_pos hx, if_pos]
        refine ⟨hx.2.1, hx.2.2, ?_⟩
        rcases hz with ⟨-, -, b, h1, h2, h3, h4⟩ | hz
        · exact ⟨b, by omega, by omega, h3, h4⟩
        · exact ⟨m, by omega, hx.1, hu.1, hz⟩
      · rw [if_neg hx, ih' x]
        refine if_congr ⟨?_, ?_⟩ rfl rfl
        · rintro ⟨h1, h2, b, h3, h4⟩; exact ⟨h1, h2, b, by omega, h4⟩
        · rintro ⟨h1, h2, b, h3, h4, h5⟩
          refine ⟨h1, h2, b, ?_, h4, h5⟩
          rcases Nat.lt_succ_iff_lt_or_eq.1 h3 with h | rfl
          · exact h
          · exact absurd ⟨h4, h1, h2⟩ hx
    · rw [if_neg hu, ih' x]
      refine if_congr ⟨?_, ?_⟩ rfl rfl
      · rintro ⟨h1, h2, b, h3, h4⟩; exact ⟨h1, h2, b, by omega, h4⟩
      · rintro ⟨h1, h2, b, h3, h4, h5, h6⟩
        refine ⟨h1, h2, b, ?_, h4, h5, h6⟩
        rcases Nat.lt_succ_iff_lt_or_eq.1 h3 with h | rfl
        · exact h
        · exact absurd ⟨h5, hlow.2 (.inr h6)⟩ hu

/-- Same values where they matter. -/
def Agree (c : Conf) (e e' : Nat → ℝ) : Prop := ∀ b, b < c.nb → c.use b = true → b ≠ c.sw2 → e b = e' b

theorem fixSwir_agree {c : Conf} {e e' : Nat → ℝ} (h : Agree c e e') (b : Nat) (hb : (b < c.nb ∧ c.use b = true) ∨ b = c.sw2) :
    fixSwir c e b = fixSwir c e' b := by
  unfold fixSwir
  by_cases hs : b = c.sw2
  · rw [if_pos hs, if_pos hs]
  · rw [if_neg hs, if_neg hs]
    rcases hb with hb | hb
    · exact h b hb.1 hb.2 hs
    · exact absurd hb hs

theorem clamp_agree {c : Conf} {e e' : Nat → ℝ} (h : Agree c e e') (b : Nat) (hb : (b < c.nb ∧ c.use b = true) ∨ b = c.sw2) :
    (List.range c.nb).foldl (clampStep c) (fixSwir c e) b = (List.range c.nb).foldl (clampStep c) (fixSwir c e') b := by
  rw [clamp_fold c _ _ (le_refl _), clamp_fold c _ _ (le_refl _), fixSwir_agree h b hb, fixSwir_agree h c.sw2 (.inr rfl)]
  refine if_congr (and_congr_right fun _ => and_congr_right fun _ => exists_congr fun d => ?_) rfl rfl
  constructor
  · rintro ⟨h1, h2, h3, h4⟩; exact ⟨h1, h2, h3, by rw [← fixSwir_agree h d (.inl ⟨h1, h3⟩)]; exact h4⟩
  · rintro ⟨h1, h2, h3, h4⟩; exact ⟨h1, h2, h3, by rw [fixSwir_agree h d (.inl ⟨h1, h3⟩)]; exact h4⟩

/-- Bands as they are in the code: blue and red are used, they are not SWIR2. -/
structure Proper (c : Conf) : Prop where
  blue : c.blue < c.nb ∧ c.use c.blue = true ∧ c.blue ≠ c.sw2
  red : c.red < c.nb ∧ c.use c.red = true ∧ c.red ≠ c.sw2

/-- Skipping of a spectrum, as a proposition. -/
def Skip (kind : Kind) (c : Conf) (e : Nat → ℝ) : Prop :=
  (∃ b, b < c.nb ∧ c.use b = true ∧ e b < 0) ∨ (kind = .vegetation ∧ e c.red > e c.blue) ∨
  fixSwir c e c.blue ≤ fixSwir c e c.sw2 ∨ ∃ u, c.ultrablue = some u ∧ c.use u = true ∧ fixSwir c e u < fixSwir c e c.blue

theorem prepare_eq (kind : Kind) (c : Conf) (e : Nat → ℝ) : (Skip kind c e ∧ prepare kind c e = none) ∨
    (¬ Skip kind c e ∧ prepare kind c e = some ((List.range c.nb).foldl (clampStep c) (fixSwir c e))) := by
  unfold prepare Skip
  split
  · rename_i h; exact .inl ⟨.inl h, rfl⟩
  · rename_i h1
    split
    · rename_i h; exact .inl ⟨.inr (.inl h), rfl⟩
    · rename_i h2
      split
      · rename_i h; exact .inl ⟨.inr (.inr (.inl h)), rfl⟩
      · rename_i h3
        split
        · rename_i h; exact .inl ⟨.inr (.inr (.inr h)), rfl⟩
        · rename_i h4
          refine .inr ⟨?_, rfl⟩
          rintro (h | h | h | h)
          · exact h1 h
          · exact h2 h
          · exact h3 h
          · exact h4 h

theorem skip_agree {kind : Kind} {c : Conf} (hc : Proper c) (hu : ∀ u, c.ultrablue = some u → u < c.nb) {e e' : Nat → ℝ}
    (h : Agree c e e') (hs : 0 ≤ e c.sw2) (hs' : 0 ≤ e' c.sw2) : Skip kind c e → Skip kind c e' := by
  have hb := hc.blue; have hr := hc.red
  rintro (⟨b, h1, h2, h3⟩ | ⟨h1, h2⟩ | h1 | ⟨u, h1, h2, h3⟩)
  · left
    refine ⟨b, h1, h2, ?_⟩
    by_cases hbs : b = c.sw2
    · subst hbs; exact absurd hs (not_le.2 h3)
    · rw [← h b h1 h2 hbs]; exact h3
  · right; left
    rw [← h _ hr.1 hr.2.1 hr.2.2, ← h _ hb.1 hb.2.1 hb.2.2]; exact ⟨h1, h2⟩
  · right; right; left
    rw [← fixSwir_agree h _ (.inl ⟨hb.1, hb.2.1⟩), ← fixSwir_agree h _ (.inr rfl)]; exact h1
  · right; right; right
    refine ⟨u, h1, h2, ?_⟩
    rw [← fixSwir_agree h _ (.inl ⟨hb.1, hb.2.1⟩), ← fixSwir_agree h u (.inl ⟨hu u h1, h2⟩)]; exact h3

theorem Agree.symm {c : Conf} {e e' : Nat → ℝ} (h : Agree c e e') : Agree c e' e := fun b h1 h2 h3 => (h b h1 h2 h3).symm

theorem tryFit_agree {kind : Kind} {c : Conf} (hc : Proper c) (hu : ∀ u, c.ultrablue = some u → u < c.nb) (wvl : Nat → ℝ)
    (poly : List (ℝ × ℝ) → Coef) {e e' : Nat → ℝ} (h : Agree c e e') (hs : 0 ≤ e c.sw2) (hs' : 0 ≤ e' c.sw2) :
    tryFit kind c wvl poly e = tryFit kind c wvl poly e' := by
  rcases prepare_eq kind c e with ⟨s, p⟩ | ⟨s, p⟩ <;> rcases prepare_eq kind c e' with ⟨s', p'⟩ | ⟨s', p'⟩
  · unfold tryFit; rw [p, p']
  · exact absurd (skip_agree hc hu h hs hs' s) s'
  · exact absurd (skip_agree hc hu h.symm hs' hs s') s
  · unfold tryFit
    rw [p, p']
    simp only
    have hk : ∀ b ∈ usedBands c, (List.range c.nb).foldl (clampStep c) (fixSwir c e) b =
        (List.range c.nb).foldl (clampStep c) (fixSwir c e') b := by
      intro b hb
      unfold usedBands at hb
      rw [List.mem_filter, List.mem_range] at hb
      exact clamp_agree h b (.inl hb)
    generalize (List.range c.nb).foldl (clampStep c) (fixSwir c e) = f at hk ⊢
    generalize (List.range c.nb).foldl (clampStep c) (fixSwir c e') = f' at hk ⊢
    have h1 : logPoints c wvl f = logPoints c wvl f' := List.map_congr_left fun b hb => by rw [hk b hb]
    have h2 : ∀ g, rsquare c f g = rsquare c f' g := by
      intro g
      unfold rsquare
      have hm : (usedBands c).map f = (usedBands c).map f' := List.map_congr_left hk
      rw [hm]
      congr 2
      · congr 1; exact List.map_congr_left fun b hb => by rw [hk b hb]
      · congr 1; exact List.map_congr_left fun b hb => by rw [hk b hb]
    unfold fitCurve
    rw [h1]
    simp only [h2]

/-- A target is regular: in each band that is scanned, an AOD before the first implausible one has a finite
mismatch, for each spectrum of the library. -/
def Regular (c : Conf) (n : Nat) (steps : List ℝ) (cv : Nat → Curve) : Prop :=
  ∀ w, w < n → ∀ b, b < c.nb → c.use b = true → b ≠ c.sw2 → ∃ pre a post, steps = pre ++ a :: post ∧
    (∀ x ∈ pre, (cv b).implausible x = false) ∧ (cv b).implausible a = false ∧ (cv b).mismatch w a < 2147483647

theorem fromTarget_congr {kind : Kind} {c : Conf} {wvl : Nat → ℝ} {poly : List (ℝ × ℝ) → Coef} {n : Nat} {est est' : Nat → Nat → ℝ}
    (h : ∀ w, w < n → tryFit kind c wvl poly (est w) = tryFit kind c wvl poly (est' w)) :
    fromTarget kind c wvl poly n est = fromTarget kind c wvl poly n est' := by
  unfold fromTarget
  have : ∀ (m : Nat), m ≤ n → (List.range m).foldl (bestStep fun w => tryFit kind c wvl poly (est w)) none =
      (List.range m).foldl (bestStep fun w => tryFit kind c wvl poly (est' w)) none := by
    intro m
    induction m with
    | zero => intro _; rfl
    | succ m ih =>
      intro hm
      rw [List.range_succ, List.foldl_append, List.foldl_append, ih (by omega)]
      simp only [List.foldl_cons, List.foldl_nil]
      unfold bestStep
      simp only [h m (by omega)]
  rw [this n (le_refl _)]

theorem libToTarget_agree {c : Conf} {n : Nat} {steps : List ℝ} {cv : Nat → Curve} (hr : Regular c n steps cv)
    (old old' : Nat → Nat → ℝ) (w : Nat) (hw : w < n) : Agree c (libToTarget c steps cv old w) (libToTarget c steps cv old' w) := by
  intro b h1 h2 h3
  obtain ⟨pre, a, post, hs, hp, ha, hm⟩ := hr w hw b h1 h2 h3
  obtain ⟨r, -, e, -, -, -, h⟩ := c216_best_match (cv b) steps w a pre post hs hp ha hm (old w b)
  unfold libToTarget
  simp only [h1, h2, h3, decide_true, Bool.and_self, ne_eq, not_false_eq_true, if_true]
  rw [e, h]

theorem libToTarget_swir {c : Conf} {steps : List ℝ} {cv : Nat → Curve} (old : Nat → Nat → ℝ) (w : Nat) :
    libToTarget c steps cv old w c.sw2 = old w c.sw2 := by
  unfold libToTarget; simp

theorem leave_swir {kind : Kind} {c : Conf} {est : Nat → Nat → ℝ} (h : ∀ w, 0 ≤ est w c.sw2) (w : Nat) :
    0 ≤ leave kind c est w c.sw2 := by
  unfold leave
  rcases prepare_eq kind c (est w) with ⟨-, p⟩ | ⟨-, p⟩
  · rw [p]; exact h w
  · rw [p]; simp only
    rw [clamp_fold c _ _ (le_refl _)]
    have : 0 ≤ fixSwir c (est w) c.sw2 := by unfold fixSwir swirAod; rw [if_pos rfl]; norm_num
    split <;> exact this

/-- C216, for targets that are plausible without aerosol: the AOD of a target does not depend on the other targets, on the thread that works on
it, or on the order. What is missing: targets that are implausible from the first value on, see
`c216_history_violated`. -/
theorem c216_schedule_partial (kind : Kind) (c : Conf) (hc : Proper c) (hu : ∀ u, c.ultrablue = some u → u < c.nb)
    (wvl : Nat → ℝ) (poly : List (ℝ × ℝ) → Coef) (n : Nat) (steps : List ℝ) (l : List (Nat → Curve))
    (hr : ∀ cv ∈ l, Regular c n steps cv) (old : Nat → Nat → ℝ) (h0 : ∀ w, 0 ≤ old w c.sw2) :
    thread kind c wvl poly n steps old l =
      l.map fun cv => fromTarget kind c wvl poly n (libToTarget c steps cv fun _ _ => 0) := by
  induction l generalizing old with
  | nil => rfl
  | cons cv l ih =>
    rw [thread, List.map_cons]
    congr 1
    · refine fromTarget_congr fun w hw => tryFit_agree hc hu wvl poly (libToTarget_agree (hr cv (by simp)) _ _ w hw) ?_ ?_
      · rw [libToTarget_swir]; exact h0 w
      · rw [libToTarget_swir]
    · exact ih (fun cv' h => hr cv' (by simp [h])) _ (leave_swir fun w => by rw [libToTarget_swir]; exact h0 w)

/-! ## Targets that are implausible from the first value on -/

theorem scan_implausible (cv : Curve) (a : ℝ) (steps : List ℝ) (h : cv.implausible a = true) (w : Nat) (old : ℝ) :
    scan cv (a :: steps) w old = old := by
  unfold scan; simp [h]

theorem lib_implausible (c : Conf) (cv : Nat → Curve) (a : ℝ) (steps : List ℝ)
    (h : ∀ b, b < c.nb → c.use b = true → b ≠ c.sw2 → (cv b).implausible a = true) (old : Nat → Nat → ℝ) :
    libToTarget c (a :: steps) cv old = old := by
  funext w b
  unfold libToTarget
  split
  · rename_i hb
    simp only [Bool.and_eq_true, decide_eq_true_eq] at hb
    exact scan_implausible _ _ _ (h b hb.1.1 hb.1.2 hb.2) _ _
  · rfl

/-- Blue is the first band, or the second after ultra blue. -/
structure Ordered (c : Conf) : Prop extends Proper c where
  first : ∀ b, b < c.blue → c.use b = true → c.ultrablue = some b
  ultra : ∀ u, c.ultrablue = some u → u ≠ c.sw2 ∧ u ≤ c.blue

theorem prepare_twice {kind : Kind} {c : Conf} (hc : Ordered c) (e e' : Nat → ℝ) (h : prepare kind c e = some e') :
    prepare kind c e' = some e' := by
  rcases prepare_eq kind c e with ⟨s, p⟩ | ⟨s, p⟩
  · rw [p] at h; cases h
  · rw [p] at h
    have hcl := clamp_fold c (fixSwir c e) c.nb (le_refl _)
    rw [Option.some.inj h] at hcl
    clear p h
    have hsw : fixSwir c e c.sw2 = swirAod := by unfold fixSwir; rw [if_pos rfl]
    have hpos : 0 < swirAod := by unfold swirAod; norm_num
    unfold Skip at s
    simp only [not_or, not_exists, not_and, not_lt, not_le] at s
    obtain ⟨s1, s2, s3, s4⟩ := s
    rw [hsw] at s3 hcl
    have hb : fixSwir c e c.blue = e c.blue := by unfold fixSwir; rw [if_neg hc.blue.2.2]
    rw [hb] at s3
    have none_before : ∀ d, d ≤ c.blue → c.use d = true → ¬ fixSwir c e d ≤ swirAod := by
      intro d hd hd' hle
      rcases Nat.lt_or_eq_of_le hd with h | rfl
      · have hu := hc.first d h hd'
        have := s4 d hu hd'
        rw [hb] at this
        linarith
      · rw [hb] at hle; linarith
    have e1 : ∀ d, d ≤ c.blue → d ≠ c.sw2 → e' d = e d := by
      intro d hd hds
      rw [hcl, if_neg]
      · unfold fixSwir; rw [if_neg hds]
      · rintro ⟨-, -, b, -, h2, h3, h4⟩
        exact none_before b (by omega) h3 h4
    have esw : e' c.sw2 = swirAod := by
      rw [hcl]; split
      · rfl
      · exact hsw
    have eany : ∀ d, e' d = swirAod ∨ e' d = e d := by
      intro d
      rw [hcl]; split
      · exact .inl rfl
      · unfold fixSwir; split
        · exact .inl rfl
        · exact .inr rfl
    have hfix : fixSwir c e' = e' := by
      funext x; unfold fixSwir; split
      · rename_i hx; rw [hx, esw]
      · rfl
    have hbl := e1 c.blue (le_refl _) hc.blue.2.2
    have hns : ¬ Skip kind c e' := by
      unfold Skip
      rw [hfix, esw, hbl]
      simp only [not_or, not_exists, not_and, not_lt, not_le]
      refine ⟨?_, ?_, s3, ?_⟩
      · intro b h1 h2
        rcases eany b with h | h
        · rw [h]; exact hpos.le
        · rw [h]; exact s1 b h1 h2
      · intro hk
        rcases eany c.red with h | h
        · rw [h]; exact s3.le
        · rw [h]; exact s2 hk
      · intro u hu hu'
        have hu2 := hc.ultra u hu
        rw [e1 u hu2.2 hu2.1]
        have := s4 u hu hu'
        rw [hb] at this
        unfold fixSwir at this
        rw [if_neg hu2.1] at this
        exact this
    rcases prepare_eq kind c e' with ⟨s', -⟩ | ⟨-, p'⟩
    · exact absurd s' hns
    · rw [p', hfix]
      congr 1
      funext x
      rw [clamp_fold c _ _ (le_refl _), esw]
      split
      · rename_i hx
        obtain ⟨h1, h2, b, h3, h4, h5, h6⟩ := hx
        rw [hcl x, if_pos]
        rw [hcl b] at h6
        refine ⟨h1, h2, ?_⟩
        split at h6
        · rename_i hy
          obtain ⟨-, -, d, g1, g2, g3, g4⟩ := hy
          exact ⟨d, g1, by omega, g3, g4⟩
        · exact ⟨b, h3, h4, h5, h6⟩
      · rfl

theorem tryFit_leave {kind : Kind} {c : Conf} (hc : Ordered c) (wvl : Nat → ℝ) (poly : List (ℝ × ℝ) → Coef)
    (est : Nat → Nat → ℝ) (w : Nat) : tryFit kind c wvl poly (leave kind c est w) = tryFit kind c wvl poly (est w) := by
  unfold leave
  cases h : prepare kind c (est w) with
  | none => simp
  | some e =>
    simp only
    unfold tryFit
    rw [prepare_twice hc _ _ h, h]

/-- C216, violated: for a target that is implausible from the first value on, in all bands, the estimates of
the target before it in the same thread are taken. It gets the AOD of that target; if it is the first one of the thread it is
rejected. The result depends on the number of threads and on the schedule. -/
theorem c216_history_violated (kind : Kind) (c : Conf) (hc : Ordered c) (wvl : Nat → ℝ) (poly : List (ℝ × ℝ) → Coef) (n : Nat)
    (a : ℝ) (steps : List ℝ) (cv cv' : Nat → Curve)
    (h : ∀ b, b < c.nb → c.use b = true → b ≠ c.sw2 → (cv' b).implausible a = true) :
    thread kind c wvl poly n (a :: steps) (fun _ _ => 0) [cv'] = [none] ∧
    ∃ r, thread kind c wvl poly n (a :: steps) (fun _ _ => 0) [cv, cv'] = [r, r] := by
  constructor
  · rw [thread, lib_implausible c cv' a steps h, thread]
    congr 1
    have hp : ∀ w, tryFit kind c wvl poly ((fun (_ _ : Nat) => (0 : ℝ)) w) = none := by
      intro w
      unfold tryFit
      rcases prepare_eq kind c (fun _ => 0) with ⟨-, p⟩ | ⟨s, -⟩
      · rw [p]
      · exfalso; apply s
        right; right; left
        unfold fixSwir swirAod
        rw [if_neg hc.blue.2.2, if_pos rfl]; norm_num
    unfold fromTarget
    have : (List.range n).foldl (bestStep fun w => tryFit kind c wvl poly ((fun (_ _ : Nat) => (0 : ℝ)) w)) none = none := by
      generalize List.range n = l
      induction l with
      | nil => rfl
      | cons w l ih => rw [List.foldl_cons, bestStep, hp w]; exact ih
    rw [this]
  · refine ⟨fromTarget kind c wvl poly n (libToTarget c (a :: steps) cv fun _ _ => 0), ?_⟩
    rw [thread, thread, lib_implausible c cv' a steps h, thread]
    congr 2
    exact fromTarget_congr fun w _ => tryFit_leave hc wvl poly _ w

end Verif.Aod

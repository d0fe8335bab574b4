import Verif.Wvp.LutProps
import Mathlib.Data.List.Induction

/-!
# C146: water vapour of an image
-/

namespace Verif.Wvp

open Verif.Str (Out)
open Verif.Libc

/-! ## Specification -/

/-- A location of a table: the four words of its line. -/
structure Site where
  x : List Char
  y : List Char
  w : List Char
  s : List Char

/-- A word: not empty, without space, line end or comment sign. -/
def IsWord (t : List Char) : Prop := t ≠ [] ∧ ∀ c ∈ t, c ≠ ' ' ∧ c ≠ '\n' ∧ c ≠ '\r' ∧ c ≠ '#'

/-- A well-formed line of less than 1000 characters. -/
def Site.Good (a : Site) : Prop :=
  IsWord a.x ∧ IsWord a.y ∧ IsWord a.w ∧ IsWord a.s ∧ a.x.length + a.y.length + a.w.length + a.s.length < 1000

def Site.line (a : Site) : List Char := a.x ++ ' ' :: (a.y ++ ' ' :: (a.w ++ ' ' :: a.s))

/-- A file with these locations; a missing file has none. -/
def Holds (file : Option (List Char)) (sites : List Site) : Prop :=
  (∀ a ∈ sites, a.Good) ∧ (file = none ∧ sites = [] ∨ file = some (sites.flatMap fun a => a.line ++ ['\n']))

/-- Distance between the centre of the image and a location, in degrees. -/
noncomputable def dist (rd : ℚ → ℚ) (cx cy : ℚ) (a : Site) : ℝ :=
  Real.sqrt ((((cx - atof rd a.x) ^ 2 + (cy - atof rd a.y) ^ 2 : ℚ)) : ℝ)

/-- No location within 1.5 degrees. -/
def NoneNear (rd : ℚ → ℚ) (cx cy : ℚ) (sites : List Site) : Prop := ∀ a ∈ sites, 3 / 2 ≤ dist rd cx cy a

/-- The location is within 1.5 degrees, and the closest (the first of several). -/
def Closest (rd : ℚ → ℚ) (cx cy : ℚ) (sites : List Site) (i : Nat) (a : Site) : Prop :=
  sites[i]? = some a ∧ dist rd cx cy a < 3 / 2 ∧
    ∀ (j : Nat) (b : Site), sites[j]? = some b → dist rd cx cy a ≤ dist rd cx cy b ∧ (j < i → dist rd cx cy a < dist rd cx cy b)

theorem closest_unique (rd : ℚ → ℚ) (cx cy : ℚ) (sites : List Site) (i j : Nat) (a b : Site) (h1 : Closest rd cx cy sites i a) (h2 : Closest rd cx cy sites j b) : i = j ∧ a = b := by
  have hij : i = j := by
    rcases Nat.lt_trichotomy i j with h | h | h
    · have := (h2.2.2 i a h1.1).2 h
      have := (h1.2.2 j b h2.1).1
      linarith
    · exact h
    · have := (h1.2.2 j b h2.1).2 h
      have := (h2.2.2 i a h1.1).1
      linarith
  subst hij
  have := h1.1.symm.trans h2.1
  simp only [Option.some.injEq] at this
  exact ⟨rfl, this⟩

theorem closest_near (rd : ℚ → ℚ) (cx cy : ℚ) (sites : List Site) (i : Nat) (a : Site) (h : Closest rd cx cy sites i a) : ¬ NoneNear rd cx cy sites := by
  intro hn
  have := hn a (List.mem_of_getElem? h.1)
  linarith [h.2.1]

/-! ## Model facts -/

theorem word_sep (t : List Char) (h : IsWord t) : ∀ c ∈ t, sep c = false := by
  intro c hc; simp [sep, (h.2 c hc).1]

theorem word_cut (t : List Char) (h : IsWord t) : ∀ c ∈ t, cutSet c = false := by
  intro c hc
  obtain ⟨-, h1, h2, h3⟩ := h.2 c hc
  simp [cutSet, h1, h2, h3]

open Classical in
theorem bestLine_site (rd fl : ℚ → ℚ) (k : Bool) (cx cy : ℚ) (a : Site) (h : a.Good) (b : Best) :
    bestLine rd fl k cx cy (a.line ++ ['\n']) b =
      .ok (if dist rd cx cy a < b.min ∧ dist rd cx cy a < 3 / 2 then
        ⟨dist rd cx cy a, fl (atof rd a.w), if k then b.avg else fl (atof rd a.w)⟩ else b) := by
  obtain ⟨hx, hy, hw, hs, -⟩ := h
  have hcut : cutAt cutSet (a.line ++ ['\n']) = a.line := by
    have : ∀ l : List Char, (∀ c ∈ l, cutSet c = false) → cutAt cutSet (l ++ ['\n']) = l := by
      intro l
      induction l with
      | nil => intro _; rfl
      | cons c l ih =>
        intro hl
        have h1 := hl c (by simp)
        have h2 := ih (fun d hd => hl d (by simp [hd]))
        simp only [cutAt, List.cons_append] at h2 ⊢
        rw [List.takeWhile_cons]
        simp [h1]
        simpa using h2
    apply this
    intro c hc
    unfold Site.line at hc
    simp only [List.mem_append, List.mem_cons] at hc
    rcases hc with hc | rfl | hc | rfl | hc | rfl | hc
    · exact word_cut _ hx c hc
    · decide
    · exact word_cut _ hy c hc
    · decide
    · exact word_cut _ hw c hc
    · decide
    · exact word_cut _ hs c hc
  have t1 := strtok_cons sep [] a.x (a.y ++ ' ' :: (a.w ++ ' ' :: a.s)) (by simp) (word_sep _ hx) hx.1 ' ' (by decide)
  have t2 := strtok_cons sep [] a.y (a.w ++ ' ' :: a.s) (by simp) (word_sep _ hy) hy.1 ' ' (by decide)
  have t3 := strtok_cons sep [] a.w a.s (by simp) (word_sep _ hw) hw.1 ' ' (by decide)
  have t4 := strtok_end sep [] a.s (by simp) (word_sep _ hs) hs.1
  rw [List.nil_append] at t1 t2 t3 t4
  unfold bestLine
  rw [hcut]
  unfold Site.line
  rw [t1]
  simp only [num, Out.bind]
  rw [t2]
  simp only [num, Out.bind]
  have hd : distance cx cy (atof rd a.x) (atof rd a.y) = dist rd cx cy a := by
    unfold distance dist; congr 2; ring
  rw [hd, t3]
  simp only [num, Out.bind]
  rw [t4]
  by_cases hc : dist rd cx cy a < b.min ∧ dist rd cx cy a < 3 / 2
  · rw [if_pos hc, if_pos hc]
    cases k <;> rfl
  · rw [if_neg hc, if_neg hc]

theorem bestLines_append (rd fl : ℚ → ℚ) (k : Bool) (cx cy : ℚ) (l1 l2 : List (List Char)) (b : Best) :
    bestLines rd fl k cx cy (l1 ++ l2) b = (bestLines rd fl k cx cy l1 b).bind (bestLines rd fl k cx cy l2) := by
  induction l1 generalizing b with
  | nil => rfl
  | cons l l1 ih =>
    rw [List.cons_append]
    unfold bestLines
    cases bestLine rd fl k cx cy l b with
    | ok b' => exact ih b'
    | exit => rfl
    | ub => rfl

theorem bestLines_spec (rd fl : ℚ → ℚ) (k : Bool) (cx cy : ℚ) (sites : List Site) (h : ∀ a ∈ sites, a.Good) (b : Best) (hb : b.min = 2 ^ 63) :
    ∃ b', bestLines rd fl k cx cy (sites.map fun a => a.line ++ ['\n']) b = .ok b' ∧
      (NoneNear rd cx cy sites ∧ b' = b ∨
       ∃ i a, Closest rd cx cy sites i a ∧ b' = ⟨dist rd cx cy a, fl (atof rd a.w), if k then b.avg else fl (atof rd a.w)⟩) := by
  induction sites using List.reverseRecOn with
  | nil => exact ⟨b, rfl, Or.inl ⟨by intro a ha; simp at ha, rfl⟩⟩
  | append_singleton sites a ih =>
    obtain ⟨b', h1, h2⟩ := ih (fun a ha => h a (by simp [ha]))
    rw [List.map_append, bestLines_append, h1]
    simp only [Out.bind, List.map_cons, List.map_nil]
    unfold bestLines
    rw [bestLine_site rd fl k cx cy a (h a (by simp))]
    simp only [Out.bind]
    unfold bestLines
    refine ⟨_, rfl, ?_⟩
    rcases h2 with ⟨hn, rfl⟩ | ⟨i, c, hc, rfl⟩
    · by_cases hd : dist rd cx cy a < 3 / 2
      · right
        rw [if_pos ⟨by rw [hb]; exact lt_trans hd (by norm_num), hd⟩]
        refine ⟨sites.length, a, ⟨by simp, hd, ?_⟩, rfl⟩
        intro j e he
        by_cases hj : j < sites.length
        · rw [List.getElem?_append_left hj] at he
          have := hn e (List.mem_of_getElem? he)
          exact ⟨by linarith, fun _ => by linarith⟩
        · have hj' : j = sites.length := by
            have := (List.getElem?_eq_some_iff.1 he).1
            simp at this; omega
          subst hj'
          simp at he; subst he
          exact ⟨le_refl _, fun h => absurd h (by omega)⟩
      · left
        rw [if_neg (fun hh => hd hh.2)]
        refine ⟨?_, rfl⟩
        intro e he
        rw [List.mem_append] at he
        rcases he with he | he
        · exact hn e he
        · simp at he; subst he; exact not_lt.1 hd
    · right
      have hi : i < sites.length := (List.getElem?_eq_some_iff.1 hc.1).1
      by_cases hd : dist rd cx cy a < dist rd cx cy c
      · rw [if_pos ⟨hd, lt_trans hd hc.2.1⟩]
        refine ⟨sites.length, a, ⟨by simp, lt_trans hd hc.2.1, ?_⟩, by cases k <;> rfl⟩
        intro j e he
        by_cases hj : j < sites.length
        · rw [List.getElem?_append_left hj] at he
          have := (hc.2.2 j e he).1
          exact ⟨by linarith, fun _ => by linarith⟩
        · have hj' : j = sites.length := by
            have := (List.getElem?_eq_some_iff.1 he).1
            simp at this; omega
          subst hj'
          simp at he; subst he
          exact ⟨le_refl _, fun h => absurd h (by omega)⟩
      · rw [if_neg (fun hh => hd hh.1)]
        refine ⟨i, c, ⟨by rw [List.getElem?_append_left hi]; exact hc.1, hc.2.1, ?_⟩, rfl⟩
        intro j e he
        by_cases hj : j < sites.length
        · rw [List.getElem?_append_left hj] at he
          exact hc.2.2 j e he
        · have hj' : j = sites.length := by
            have := (List.getElem?_eq_some_iff.1 he).1
            simp at this; omega
          subst hj'
          simp at he; subst he
          exact ⟨not_lt.1 hd, fun h => absurd h (by omega)⟩

theorem bestTable_spec (rd fl : ℚ → ℚ) (k : Bool) (cx cy : ℚ) (file : Option (List Char)) (sites : List Site) (h : Holds file sites) (b : Best) :
    ∃ b', bestTable rd fl k cx cy file b = .ok b' ∧
      (NoneNear rd cx cy sites ∧ b'.wvp = b.wvp ∧ b'.avg = b.avg ∨
       ∃ i a, Closest rd cx cy sites i a ∧ b'.wvp = fl (atof rd a.w) ∧ b'.avg = if k then b.avg else fl (atof rd a.w)) := by
  obtain ⟨hg, hf⟩ := h
  rcases hf with ⟨rfl, rfl⟩ | rfl
  · exact ⟨b, rfl, Or.inl ⟨by intro a ha; simp at ha, rfl, rfl⟩⟩
  · have hl := fgetsAll_lines 1024 (sites.map Site.line) (by
      intro l hl
      rw [List.mem_map] at hl
      obtain ⟨a, ha, rfl⟩ := hl
      obtain ⟨hx, hy, hw, hs, hlen⟩ := hg a ha
      constructor
      · unfold Site.line
        simp only [List.mem_append, List.mem_cons, not_or]
        exact ⟨fun h => (hx.2 _ h).2.1 rfl, by decide, fun h => (hy.2 _ h).2.1 rfl, by decide, fun h => (hw.2 _ h).2.1 rfl, by decide, fun h => (hs.2 _ h).2.1 rfl⟩
      · unfold Site.line
        simp only [List.length_append, List.length_cons]
        omega)
    rw [List.flatMap_map, List.map_map] at hl
    unfold bestTable
    simp only
    rw [hl]
    obtain ⟨b', h1, h2⟩ := bestLines_spec rd fl k cx cy sites hg { b with min := 2 ^ 63 } rfl
    refine ⟨b', h1, ?_⟩
    rcases h2 with ⟨h2, rfl⟩ | ⟨i, a, h2, rfl⟩
    · exact Or.inl ⟨h2, rfl, rfl⟩
    · exact Or.inr ⟨i, a, h2, rfl, rfl⟩

/-- C146: without directory the constant of the parameter file is used. With tables, the value of the closest location within 1.5 degrees in the table of the day is used if it is between 0 and 10 cm; if there is no location, or no value (more than 10), the value of the closest location within 1.5 degrees in the climatology; if there is none there either, the image fails (the result is negative). What is missing: strict mode, and climatologies without value. -/
theorem c146_value_partial (rd fl : ℚ → ℚ) (strict : Bool) (clim daily : Option (List Char)) (cs ds : List Site) (hc : Holds clim cs) (hd : Holds daily ds) (cx cy : ℚ) :
    (∀ v, waterVapour rd fl (some v) strict clim daily cx cy = .ok v) ∧
    (∀ i a, Closest rd cx cy ds i a → 0 ≤ fl (atof rd a.w) → fl (atof rd a.w) ≤ 10 →
      waterVapour rd fl none strict clim daily cx cy = .ok (fl (atof rd a.w))) ∧
    (NoneNear rd cx cy ds ∨ (∃ i a, Closest rd cx cy ds i a ∧ 10 < fl (atof rd a.w)) →
      (∀ i a, Closest rd cx cy cs i a → 0 ≤ fl (atof rd a.w) → waterVapour rd fl none strict clim daily cx cy = .ok (fl (atof rd a.w))) ∧
      (NoneNear rd cx cy cs → waterVapour rd fl none strict clim daily cx cy = .ok (-1))) := by
  obtain ⟨b1, e1, h1⟩ := bestTable_spec rd fl false cx cy clim cs hc ⟨2 ^ 63, -1, -1⟩
  obtain ⟨b2, e2, h2⟩ := bestTable_spec rd fl true cx cy daily ds hd b1
  have e : waterVapour rd fl none strict clim daily cx cy =
      if b2.wvp < 0 ∧ strict then .ok (-1) else .ok (if b2.wvp < 0 ∨ b2.wvp > 10 then b2.avg else b2.wvp) := by
    unfold waterVapour
    simp only
    rw [e1]
    simp only [Out.bind]
    rw [e2]
  refine ⟨fun v => rfl, ?_, ?_⟩
  · intro i a ha h0 h10
    rcases h2 with ⟨h2, -⟩ | ⟨j, c, h2, hw, -⟩
    · exact absurd h2 (closest_near rd cx cy ds i a ha)
    · obtain ⟨-, rfl⟩ := closest_unique rd cx cy ds i j a c ha h2
      rw [e, hw, if_neg (fun h => absurd h.1 (not_lt.2 h0)), if_neg (by rintro (h | h); exacts [absurd h (not_lt.2 h0), absurd h (not_lt.2 h10)])]
  · intro hd'
    have avg : b2.avg = b1.avg := by
      rcases h2 with ⟨-, -, h⟩ | ⟨j, c, -, -, h⟩
      · exact h
      · simpa using h
    constructor
    · intro i a ha h0
      have w1 : b1.wvp = fl (atof rd a.w) ∧ b1.avg = fl (atof rd a.w) := by
        rcases h1 with ⟨h1, -⟩ | ⟨j, c, h1, hw, hv⟩
        · exact absurd h1 (closest_near rd cx cy cs i a ha)
        · obtain ⟨-, rfl⟩ := closest_unique rd cx cy cs i j a c ha h1
          exact ⟨hw, by simpa using hv⟩
      have h0' : 0 ≤ b2.wvp ∧ (b2.wvp = fl (atof rd a.w) ∨ 10 < b2.wvp) := by
        rcases hd' with hd' | ⟨j, c, hc1, hc2⟩
        · rcases h2 with ⟨-, h, -⟩ | ⟨j, c, h2, -⟩
          · rw [h, w1.1]; exact ⟨h0, Or.inl rfl⟩
          · exact absurd hd' (closest_near rd cx cy ds j c h2)
        · rcases h2 with ⟨h2, -⟩ | ⟨j', c', h2, hw, -⟩
          · exact absurd h2 (closest_near rd cx cy ds j c hc1)
          · obtain ⟨-, rfl⟩ := closest_unique rd cx cy ds j j' c c' hc1 h2
            rw [hw]; exact ⟨by linarith, Or.inr hc2⟩
      rw [e, if_neg (fun h => absurd h.1 (not_lt.2 h0'.1)), avg, w1.2]
      rcases h0'.2 with h | h
      · rw [h]; split_ifs <;> rfl
      · rw [if_pos (Or.inr h)]
    · intro hn
      have w1 : b1.wvp = -1 ∧ b1.avg = -1 := by
        rcases h1 with ⟨-, h⟩ | ⟨j, c, h1, -⟩
        · exact h
        · exact absurd hn (closest_near rd cx cy cs j c h1)
      rw [e, avg, w1.2]
      have : b2.wvp < 0 ∨ b2.wvp > 10 := by
        rcases hd' with hd' | ⟨j, c, hc1, hc2⟩
        · rcases h2 with ⟨-, h, -⟩ | ⟨j, c, h2, -⟩
          · left; rw [h, w1.1]; norm_num
          · exact absurd hd' (closest_near rd cx cy ds j c h2)
        · rcases h2 with ⟨h2, -⟩ | ⟨j', c', h2, hw, -⟩
          · exact absurd h2 (closest_near rd cx cy ds j c hc1)
          · obtain ⟨-, rfl⟩ := closest_unique rd cx cy ds j j' c c' hc1 h2
            right; rw [hw]; exact hc2
      rw [if_pos this]
      split_ifs <;> rfl

/-- C146, violated: strict mode does not forbid the climatology. Whenever there is no daily value (no table of the day, no location near, or no value at the closest location) and the climatology has one, the value of the climatology is used although STRICT_WATER_VAPOR is set. -/
theorem c146_strict_violated (rd fl : ℚ → ℚ) (clim daily : Option (List Char)) (cs ds : List Site) (hc : Holds clim cs) (hd : Holds daily ds) (cx cy : ℚ)
    (h : NoneNear rd cx cy ds ∨ (∃ i a, Closest rd cx cy ds i a ∧ 10 < fl (atof rd a.w))) (i : Nat) (a : Site) (ha : Closest rd cx cy cs i a)
    (h0 : 0 ≤ fl (atof rd a.w)) : waterVapour rd fl none true clim daily cx cy = .ok (fl (atof rd a.w)) :=
  ((c146_value_partial rd fl true clim daily cs ds hc hd cx cy).2.2 h).1 i a ha h0

/-- C146, violated: STRICT_WATER_VAPOR has no effect at all if no table holds a negative value: every image gets the same result with and without it. -/
theorem c146_strict_no_effect_violated (rd fl : ℚ → ℚ) (clim daily : Option (List Char)) (cs ds : List Site) (hc : Holds clim cs) (hd : Holds daily ds) (cx cy : ℚ)
    (prm : Option ℚ) (h : ∀ a, a ∈ cs ∨ a ∈ ds → 0 ≤ fl (atof rd a.w)) :
    waterVapour rd fl prm true clim daily cx cy = waterVapour rd fl prm false clim daily cx cy := by
  cases prm with
  | some v => rfl
  | none =>
    obtain ⟨b1, e1, h1⟩ := bestTable_spec rd fl false cx cy clim cs hc ⟨2 ^ 63, -1, -1⟩
    obtain ⟨b2, e2, h2⟩ := bestTable_spec rd fl true cx cy daily ds hd b1
    have e : ∀ strict, waterVapour rd fl none strict clim daily cx cy =
        if b2.wvp < 0 ∧ strict then .ok (-1) else .ok (if b2.wvp < 0 ∨ b2.wvp > 10 then b2.avg else b2.wvp) := by
      intro strict
      unfold waterVapour
      simp only
      rw [e1]
      simp only [Out.bind]
      rw [e2]
    rw [e true, e false]
    by_cases hw : b2.wvp < 0
    · have : b2.avg = -1 := by
        rcases h2 with ⟨-, hw2, ha2⟩ | ⟨i, a, ha, hw2, -⟩
        · rcases h1 with ⟨-, -, ha1⟩ | ⟨i, a, ha, hw1, -⟩
          · rw [ha2, ha1]
          · exfalso
            have := h a (Or.inl (List.mem_of_getElem? ha.1))
            rw [hw2, hw1] at hw
            linarith
        · exfalso
          have := h a (Or.inr (List.mem_of_getElem? ha.1))
          rw [hw2] at hw
          linarith
      rw [if_pos ⟨hw, rfl⟩, if_neg (fun hh => absurd hh.2 (by decide)), if_pos (Or.inl hw), this]
    · have n1 : ∀ s : Bool, ¬ (b2.wvp < 0 ∧ s = true) := fun s hh => hw hh.1
      rw [if_neg (n1 true), if_neg (n1 false)]

/-- C146, violated: if neither the day nor the climatology has a value at the closest location (9999 in both tables), the image is processed with 9999 cm of water vapour. -/
theorem c146_nodata_violated (rd fl : ℚ → ℚ) (strict : Bool) (clim daily : Option (List Char)) (cs ds : List Site) (hc : Holds clim cs) (hd : Holds daily ds) (cx cy : ℚ)
    (i j : Nat) (a b : Site) (ha : Closest rd cx cy cs i a) (hb : Closest rd cx cy ds j b) (h1 : fl (atof rd a.w) = 9999) (h2 : fl (atof rd b.w) = 9999) :
    waterVapour rd fl none strict clim daily cx cy = .ok 9999 := by
  have := ((c146_value_partial rd fl strict clim daily cs ds hc hd cx cy).2.2 (Or.inr ⟨j, b, hb, by rw [h2]; norm_num⟩)).1 i a ha (by rw [h1]; norm_num)
  rw [this, h1]

/-- C146, violated: a location on the other side of the date line is never used, however close it is. If the tables have only locations with longitudes above 178.5 degrees, every image with its centre west of 0 degrees fails, also one at 179.9 degrees west. -/
theorem c146_dateline_violated (rd fl : ℚ → ℚ) (strict : Bool) (clim daily : Option (List Char)) (cs ds : List Site) (hc : Holds clim cs) (hd : Holds daily ds) (cx cy : ℚ)
    (hx : cx < 0) (hs : ∀ a, a ∈ cs ∨ a ∈ ds → 357 / 2 < atof rd a.x) : waterVapour rd fl none strict clim daily cx cy = .ok (-1) := by
  have far : ∀ a, a ∈ cs ∨ a ∈ ds → 3 / 2 ≤ dist rd cx cy a := by
    intro a ha
    have h := hs a ha
    unfold dist
    apply Real.le_sqrt_of_sq_le
    have : (9 / 4 : ℚ) ≤ (cx - atof rd a.x) ^ 2 + (cy - atof rd a.y) ^ 2 := by nlinarith [sq_nonneg (cy - atof rd a.y)]
    have h2 : ((9 / 4 : ℚ) : ℝ) ≤ ((((cx - atof rd a.x) ^ 2 + (cy - atof rd a.y) ^ 2 : ℚ)) : ℝ) := by exact_mod_cast this
    push_cast at h2 ⊢
    linarith
  exact ((c146_value_partial rd fl strict clim daily cs ds hc hd cx cy).2.2 (Or.inl fun a ha => far a (Or.inr ha))).2 fun a ha => far a (Or.inl ha)

end Verif.Wvp

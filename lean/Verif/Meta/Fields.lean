import Verif.Meta.Calib

/-!
# C185, C186: tier, size, position and time of an image
-/

namespace Verif.Meta

open Verif.Libc Verif.Str Verif.Meta.Spec

/-- The tier after a line. -/
def tierAfter (tag s : List Char) (tier : ℤ) : ℤ :=
  match kind tag with
  | .product => if ch "L1T" <:+: s ∨ ch "L1TP" <:+: s then 1 else 2
  | .category => if ch "RT" <:+: s then 3 else if ch "T2" <:+: s then 2 else tier
  | _ => tier

theorem setCraft_ok {st x : St} {s : List Char} (h : setCraft st s = .ok x) :
    x.tier = st.tier ∧ x.ncols = st.ncols ∧ x.nrows = st.nrows ∧ x.res = st.res ∧ x.ulx = st.ulx ∧
      x.uly = st.uly ∧ x.path = st.path ∧ x.row = st.row ∧ x.ymd = st.ymd ∧ x.hms = st.hms := by
  unfold setCraft at h
  simp only at h
  split at h
  · cases h; exact ⟨rfl, rfl, rfl, rfl, rfl, rfl, rfl, rfl, rfl, rfl⟩
  · cases h

theorem lineEff_fields {num : List Char → ℚ} {d : List Char} {st x : St} {n : Nat} {t v : List Char}
    {q : Bool} (hg : Good (.entry n t v q)) (h : lineEff num d st (.entry n t v q) = .ok x) :
    x.tier = tierAfter t (seen v q) st.tier ∧
    x.ncols = (if kind t = .ncols then some (atoi (seen v q)) else st.ncols) ∧
    x.nrows = (if kind t = .nrows then some (atoi (seen v q)) else st.nrows) ∧
    x.res = (if kind t = .res then some (atoi (seen v q)) else st.res) ∧
    x.ulx = (if kind t = .ulx then some (num (seen v q) - 15) else st.ulx) ∧
    x.uly = (if kind t = .uly then some (num (seen v q) + 15) else st.uly) ∧
    x.path = (if kind t = .path then atoi (seen v q) else st.path) ∧
    x.row = (if kind t = .row then atoi (seen v q) else st.row) ∧
    x.ymd = st.ymd ∧ x.hms = st.hms := by
  obtain ⟨-, -, ht, hv, hp, hd1, hd2, ht1, ht2⟩ := hg
  have hkd : kind t ≠ .date := fun e => (kind_date e).elim hd1 hd2
  have hkt : kind t ≠ .time := fun e => (kind_time e).elim ht1 ht2
  simp only [lineEff, entryEff] at h
  obtain ⟨⟨a, b, c⟩, h1, h2⟩ := bind_ok h
  simp only [Out.ok.injEq] at h2
  subst h2
  unfold handle at h1
  unfold tierAfter
  revert h1
  generalize seen v q = s
  cases hk : kind t with
  | date => exact absurd hk hkd
  | time => exact absurd hk hkt
  | craft =>
    intro h1
    obtain ⟨z, h3, h4⟩ := bind_ok h1
    simp only [Out.ok.injEq, Prod.mk.injEq] at h4
    obtain ⟨rfl, -, -⟩ := h4
    simpa using setCraft_ok h3
  | file =>
    intro h1
    obtain ⟨z, h3, h4⟩ := bind_ok h1
    simp only [Out.ok.injEq, Prod.mk.injEq] at h4
    obtain ⟨rfl, -, -⟩ := h4
    rw [setBands_ok h3]
    simp
  | coefs u =>
    intro h1
    obtain ⟨z, h3, h4⟩ := bind_ok h1
    simp only [Out.ok.injEq, Prod.mk.injEq] at h4
    obtain ⟨rfl, -, -⟩ := h4
    rw [setBands_ok h3]
    simp
  | category =>
    intro h1
    simp only [need, Out.bind] at h1
    cases h1
    by_cases hr : ch "RT" <:+: s
    · by_cases h2 : ch "T2" <:+: s <;> simp [hr, h2]
    · by_cases h2 : ch "T2" <:+: s <;> simp [hr, h2]
  | product => intro h1; cases h1; simp
  | path => intro h1; cases h1; simp
  | row => intro h1; cases h1; simp
  | other => intro h1; cases h1; simp
  | _ =>
    intro h1
    obtain ⟨z, h3, h4⟩ := bind_ok h1
    simp only [Out.ok.injEq, Prod.mk.injEq] at h4
    obtain ⟨rfl, -, -⟩ := h4
    rw [withImage_ok h3]
    simp

/-- A property of the state that no line of a list changes. -/
theorem run_keeps {β : Type} (π : St → β) {num : List Char → ℚ} {d : List Char} {st x : St}
    (ls : List Line) (hk : ∀ l ∈ ls, ∀ a b, lineEff num d a l = .ok b → π b = π a)
    (h : run num d st ls = .ok x) : π x = π st := by
  induction ls generalizing st with
  | nil => cases h; rfl
  | cons l ls ih =>
    obtain ⟨a, h1, h2⟩ := bind_ok h
    rw [ih (fun l hl => hk l (by simp [hl])) h2, hk l (by simp) _ _ h1]

/-- The last line that sets something decides. -/
theorem run_last {β : Type} (π : St → β) {num : List Char → ℚ} {d : List Char} {st x : St}
    (a b : List Line) (l : Line)
    (hk : ∀ l ∈ b, ∀ a b, lineEff num d a l = .ok b → π b = π a)
    (h : run num d st (a ++ l :: b) = .ok x) :
    ∃ y z, run num d st a = .ok y ∧ lineEff num d y l = .ok z ∧ π x = π z := by
  rw [run_append] at h
  obtain ⟨y, h1, h2⟩ := bind_ok h
  obtain ⟨z, h3, h4⟩ := bind_ok h2
  exact ⟨y, z, h1, h3, run_keeps π b hk h4⟩

theorem parse_run {num : List Char → ℚ} {d : List Char} {maxTier : ℤ} {ls : List Line}
    {tail : Option (List Char)} {st : St} (hg : ∀ l ∈ ls, Good l)
    (h : parseLandsat num d maxTier (fileText ls tail) = .ok st) :
    ∃ x, run num d {} ls = .ok x ∧ x.craft = true ∧ x.tier ≤ maxTier ∧
      st = { x with cals := x.cals.map (fillThermal num x.lid) } ∧
      check maxTier { x with cals := x.cals.map (fillThermal num x.lid) } = .ok st := by
  unfold parseLandsat at h
  rw [readLines_file num d {} _ tail hg] at h
  obtain ⟨x, h1, h2⟩ := bind_ok h
  split at h2
  · cases h2
  · rename_i hc
    obtain ⟨c1, c2, -⟩ := check_ok h2
    exact ⟨x, h1, by simpa using hc, c2, c1, h2⟩

/-! ## C185 -/

theorem kind_product {t : List Char} (h : kind t = .product) :
    t = ch "DATA_TYPE" ∨ t = ch "PRODUCT_TYPE" := by
  unfold kind at h
  iterate 2 replace h := peel h (by decide)
  refine peel_self h ?_
  clear h
  intro h
  iterate 18 replace h := peel h (by decide)
  exact absurd h (by decide)

theorem kind_category {t : List Char} (h : kind t = .category) : t = ch "COLLECTION_CATEGORY" := by
  unfold kind at h
  iterate 3 replace h := peel h (by decide)
  refine peel_self h ?_
  clear h
  intro h
  iterate 17 replace h := peel h (by decide)
  exact absurd h (by decide)

theorem tier_keeps {num : List Char → ℚ} {d : List Char} {a b : St} {l : Line} (hg : Good l)
    (hn : ¬ hasTag ["DATA_TYPE", "PRODUCT_TYPE", "COLLECTION_CATEGORY"] l)
    (h : lineEff num d a l = .ok b) : b.tier = a.tier := by
  cases l with
  | date n t y m dd => cases h; rfl
  | clock n t p q r => cases h; rfl
  | other z => cases h; rfl
  | entry n t v q =>
    rw [(lineEff_fields hg h).1]
    unfold tierAfter
    split
    · rename_i hk
      exact absurd (kind_product hk) (fun e => hn (by
        rcases e with e | e
        · exact ⟨_, by simp, e⟩
        · exact ⟨"PRODUCT_TYPE", by simp, e⟩))
    · rename_i hk
      exact absurd (kind_category hk) (fun e => hn ⟨"COLLECTION_CATEGORY", by simp, e⟩)
    · rfl

theorem seen_infix {k v : List Char} {q : Bool} (hk : '\n' ∉ k) : k <:+: seen v q ↔ k <:+: v := by
  unfold seen
  cases q
  · simp only [Bool.false_eq_true, if_false]
    exact ⟨infix_newline hk, fun h => h.trans (List.prefix_append _ _).isInfix⟩
  · simp

/-- C185, partial: an image is accepted only if its quality, as given by the last line about
it, is at least the accepted one: a real-time image (`RT`) needs tier 3 to be accepted, a tier
2 image tier 2, and an image whose product type is not `L1T...` tier 2. Missing: lines before
the last one; see `c185_order_violated`. -/
theorem c185_tier_partial (num : List Char → ℚ) (d : List Char) (maxTier : ℤ) (a b : List Line)
    (tail : Option (List Char)) (n : ℕ) (t v : List Char) (q : Bool) (st : St)
    (hg : ∀ l ∈ a ++ .entry n t v q :: b, Good l)
    (hb : ∀ l ∈ b, ¬ hasTag ["DATA_TYPE", "PRODUCT_TYPE", "COLLECTION_CATEGORY"] l)
    (h : parseLandsat num d maxTier (fileText (a ++ .entry n t v q :: b) tail) = .ok st) :
    (t = "COLLECTION_CATEGORY".toList → "RT".toList <:+: v → 3 ≤ maxTier) ∧
    (t = "COLLECTION_CATEGORY".toList → "T2".toList <:+: v → 2 ≤ maxTier) ∧
    (t = "DATA_TYPE".toList ∨ t = "PRODUCT_TYPE".toList → ¬ "L1T".toList <:+: v → 2 ≤ maxTier) := by
  obtain ⟨x, h1, -, h3, -, -⟩ := parse_run hg h
  obtain ⟨y, z, -, h5, h6⟩ := run_last St.tier a b _ (fun l hl p r hpr =>
    tier_keeps (hg l (by simp [hl])) (hb l hl) hpr) h1
  rw [(lineEff_fields (hg _ (by simp)) h5).1] at h6
  have k1 : kind (ch "COLLECTION_CATEGORY") = .category := by decide +kernel
  have k2 : kind (ch "DATA_TYPE") = .product := by decide +kernel
  have k3 : kind (ch "PRODUCT_TYPE") = .product := by decide +kernel
  have hLL : ch "L1T" <:+: ch "L1TP" := by decide +kernel
  unfold tierAfter at h6
  refine ⟨?_, ?_, ?_⟩
  · rintro rfl hr
    rw [show kind "COLLECTION_CATEGORY".toList = _ from k1] at h6
    simp only at h6
    rw [if_pos ((seen_infix (by decide)).2 hr)] at h6
    omega
  · rintro rfl hr
    rw [show kind "COLLECTION_CATEGORY".toList = _ from k1] at h6
    simp only at h6
    rw [if_pos (show ch "T2" <:+: seen v q from (seen_infix (by decide)).2 hr)] at h6
    split_ifs at h6 <;> omega
  · intro ht hr
    have hk : kind t = .product := by
      rcases ht with rfl | rfl
      · exact k2
      · exact k3
    rw [hk] at h6
    simp only at h6
    rw [if_neg] at h6
    · omega
    · rintro (e | e)
      · exact hr ((seen_infix (by decide)).1 e)
      · exact hr (hLL.trans ((seen_infix (by decide)).1 e))

theorem check_le {m m' : ℤ} {a st : St} (h : check m a = .ok st) (ht : a.tier ≤ m') :
    check m' a = .ok st := by
  unfold check at h ⊢
  split at h
  · cases h
  · rename_i g
    rw [if_neg g]
    split at h
    · cases h
    · rw [if_neg (by omega)]
      exact h

/-- C185, violated: the category of an image is forgotten if the product type is named after
it. Whatever the category is, real-time or tier 2: a file in which a line with the product type
`L1T...` follows the line with the category is taken as tier 1, and is accepted by users who
accept tier 1 only. -/
theorem c185_order_violated (num : List Char → ℚ) (d : List Char) (maxTier : ℤ)
    (a b c : List Line) (tail : Option (List Char)) (n m : ℕ) (t v v' : List Char) (q q' : Bool) (st : St)
    (ht : t = "DATA_TYPE".toList ∨ t = "PRODUCT_TYPE".toList) (hv : "L1T".toList <:+: v')
    (hg : ∀ l ∈ a ++ .entry n "COLLECTION_CATEGORY".toList v q :: (b ++ .entry m t v' q' :: c), Good l)
    (hc : ∀ l ∈ c, ¬ hasTag ["DATA_TYPE", "PRODUCT_TYPE", "COLLECTION_CATEGORY"] l)
    (h : parseLandsat num d maxTier (fileText
      (a ++ .entry n "COLLECTION_CATEGORY".toList v q :: (b ++ .entry m t v' q' :: c)) tail) = .ok st) :
    st.tier = 1 ∧ parseLandsat num d 1 (fileText
      (a ++ .entry n "COLLECTION_CATEGORY".toList v q :: (b ++ .entry m t v' q' :: c)) tail) = .ok st := by
  obtain ⟨x, h1, h2, h3, h4, h5⟩ := parse_run hg h
  have h1' : run num d {} ((a ++ .entry n "COLLECTION_CATEGORY".toList v q :: b) ++ .entry m t v' q' :: c)
      = .ok x := by
    rw [← h1]; simp
  obtain ⟨y, z, -, h6, h7⟩ := run_last St.tier _ c _ (fun l hl p r hpr =>
    tier_keeps (hg l (by simp [hl])) (hc l hl) hpr) h1'
  rw [(lineEff_fields (hg _ (by simp)) h6).1] at h7
  have hk : kind t = .product := by
    rcases ht with rfl | rfl
    · decide +kernel
    · decide +kernel
  unfold tierAfter at h7
  rw [hk] at h7
  simp only at h7
  rw [if_pos (Or.inl ((seen_infix (by decide)).2 hv))] at h7
  refine ⟨by rw [h4]; exact h7, ?_⟩
  unfold parseLandsat
  rw [readLines_file num d {} _ tail hg, h1]
  show (if x.craft = false then Out.ub else _) = _
  rw [if_neg (by simp [h2])]
  exact check_le h5 (by show x.tier ≤ 1; omega)

/-! ## C186 -/

theorem seen_atoi {v : List Char} {q : Bool} (hv : ∀ c ∈ v, c.isDigit = true) (hne : v ≠ []) :
    atoi (seen v q) = natVal v := by
  unfold seen
  cases q
  · exact atoi_number v ['\n'] hv hne (by intro c hc; simp at hc; rw [← hc]; rfl)
  · simpa using atoi_number v [] hv hne (by simp)

theorem kind_two {t : List Char} {a b : String}
    (h : t = ch a ∨ t = ch b) : ∃ s ∈ [a, b], t = s.toList := by
  rcases h with h | h
  · exact ⟨a, by simp, h⟩
  · exact ⟨b, by simp, h⟩

theorem kind_ncols {t : List Char} (h : kind t = .ncols) :
    ∃ s ∈ ["PRODUCT_SAMPLES_REF", "REFLECTIVE_SAMPLES"], t = s.toList := by
  unfold kind at h
  iterate 4 replace h := peel h (by decide)
  refine kind_two (peel_self h ?_)
  clear h
  intro h
  iterate 16 replace h := peel h (by decide)
  exact absurd h (by decide)

theorem kind_nrows {t : List Char} (h : kind t = .nrows) :
    ∃ s ∈ ["PRODUCT_LINES_REF", "REFLECTIVE_LINES"], t = s.toList := by
  unfold kind at h
  iterate 5 replace h := peel h (by decide)
  refine kind_two (peel_self h ?_)
  clear h
  intro h
  iterate 15 replace h := peel h (by decide)
  exact absurd h (by decide)

theorem kind_res {t : List Char} (h : kind t = .res) :
    ∃ s ∈ ["GRID_CELL_SIZE_REF", "GRID_CELL_SIZE_REFLECTIVE"], t = s.toList := by
  unfold kind at h
  iterate 6 replace h := peel h (by decide)
  refine kind_two (peel_self h ?_)
  clear h
  intro h
  iterate 14 replace h := peel h (by decide)
  exact absurd h (by decide)

theorem kind_ulx {t : List Char} (h : kind t = .ulx) :
    ∃ s ∈ ["PRODUCT_UL_CORNER_MAPX", "CORNER_UL_PROJECTION_X_PRODUCT"], t = s.toList := by
  unfold kind at h
  iterate 7 replace h := peel h (by decide)
  refine kind_two (peel_self h ?_)
  clear h
  intro h
  iterate 13 replace h := peel h (by decide)
  exact absurd h (by decide)

theorem kind_uly {t : List Char} (h : kind t = .uly) :
    ∃ s ∈ ["PRODUCT_UL_CORNER_MAPY", "CORNER_UL_PROJECTION_Y_PRODUCT"], t = s.toList := by
  unfold kind at h
  iterate 8 replace h := peel h (by decide)
  refine kind_two (peel_self h ?_)
  clear h
  intro h
  iterate 12 replace h := peel h (by decide)
  exact absurd h (by decide)

/-- A field that only lines with certain tags set. -/
theorem field_last {β : Type} (π : St → β) (k : Kind) (names : List String)
    {num : List Char → ℚ} {d : List Char} {maxTier : ℤ} {a b : List Line}
    {tail : Option (List Char)} {n : ℕ} {t v : List Char} {q : Bool} {st : St} (val : β)
    (hπ : ∀ (x : St) (c : List Cal), π { x with cals := c } = π x)
    (hother : ∀ x y n t v q, Good (.entry n t v q) → lineEff num d x (.entry n t v q) = .ok y →
      kind t ≠ k → π y = π x)
    (hdate : ∀ (x : St) o, π { x with ymd := o } = π x) (hclock : ∀ (x : St) o, π { x with hms := o } = π x)
    (hk : ∀ t, kind t = k → ∃ s ∈ names, t = s.toList)
    (hval : ∀ x y, lineEff num d x (.entry n t v q) = .ok y → π y = val)
    (hg : ∀ l ∈ a ++ .entry n t v q :: b, Good l)
    (hb : ∀ l ∈ b, ¬ hasTag names l)
    (h : parseLandsat num d maxTier (fileText (a ++ .entry n t v q :: b) tail) = .ok st) :
    π st = val := by
  obtain ⟨x, h1, -, -, h4, -⟩ := parse_run hg h
  obtain ⟨y, z, -, h6, h7⟩ := run_last π a b _ (fun l hl p r hpr => by
    cases l with
    | date n t y m dd => cases hpr; exact hdate _ _
    | clock n t y m dd => cases hpr; exact hclock _ _
    | other z => cases hpr; rfl
    | entry n t v q =>
      refine hother p r n t v q (hg _ (by simp [hl])) hpr ?_
      intro e
      exact hb _ hl (hk t e)) h1
  rw [h4, hπ, h7]
  exact hval _ _ h6

/-- C186: the number of columns is the one of the last line that gives it. -/
theorem c186_columns (num : List Char → ℚ) (d : List Char) (maxTier : ℤ) (a b : List Line)
    (tail : Option (List Char)) (n : ℕ) (t v : List Char) (q : Bool) (st : St)
    (hv : v ≠ [] ∧ ∀ c ∈ v, c.isDigit = true)
    (ht : ∃ s ∈ ["PRODUCT_SAMPLES_REF", "REFLECTIVE_SAMPLES"], t = s.toList)
    (hg : ∀ l ∈ a ++ .entry n t v q :: b, Good l)
    (hb : ∀ l ∈ b, ¬ hasTag ["PRODUCT_SAMPLES_REF", "REFLECTIVE_SAMPLES"] l)
    (h : parseLandsat num d maxTier (fileText (a ++ .entry n t v q :: b) tail) = .ok st) :
    st.ncols = some (natVal v : ℤ) := by
  have hk : kind t = .ncols := by
    obtain ⟨s, hs, rfl⟩ := ht
    clear h hg
    revert s
    decide +kernel
  refine field_last St.ncols .ncols _ _ (fun _ _ => rfl) ?_ (fun _ _ => rfl) (fun _ _ => rfl)
    (fun t => kind_ncols) ?_ hg hb h
  · intro x y n t v q hg h hne
    have := (lineEff_fields hg h).2.1
    rw [this, if_neg hne]
  · intro x y h
    have := (lineEff_fields (hg _ (by simp)) h).2.1
    rw [this, if_pos hk, seen_atoi hv.2 hv.1]

/-- C186: the number of rows is the one of the last line that gives it. -/
theorem c186_rows (num : List Char → ℚ) (d : List Char) (maxTier : ℤ) (a b : List Line)
    (tail : Option (List Char)) (n : ℕ) (t v : List Char) (q : Bool) (st : St)
    (hv : v ≠ [] ∧ ∀ c ∈ v, c.isDigit = true)
    (ht : ∃ s ∈ ["PRODUCT_LINES_REF", "REFLECTIVE_LINES"], t = s.toList)
    (hg : ∀ l ∈ a ++ .entry n t v q :: b, Good l)
    (hb : ∀ l ∈ b, ¬ hasTag ["PRODUCT_LINES_REF", "REFLECTIVE_LINES"] l)
    (h : parseLandsat num d maxTier (fileText (a ++ .entry n t v q :: b) tail) = .ok st) :
    st.nrows = some (natVal v : ℤ) := by
  have hk : kind t = .nrows := by
    obtain ⟨s, hs, rfl⟩ := ht
    clear h hg
    revert s
    decide +kernel
  refine field_last St.nrows .nrows _ _ (fun _ _ => rfl) ?_ (fun _ _ => rfl) (fun _ _ => rfl)
    (fun t => kind_nrows) ?_ hg hb h
  · intro x y n t v q hg h hne
    have := (lineEff_fields hg h).2.2.1
    rw [this, if_neg hne]
  · intro x y h
    have := (lineEff_fields (hg _ (by simp)) h).2.2.1
    rw [this, if_pos hk, seen_atoi hv.2 hv.1]

/-- C186: the pixel size is the one of the last line that gives it. -/
theorem c186_resolution (num : List Char → ℚ) (d : List Char) (maxTier : ℤ) (a b : List Line)
    (tail : Option (List Char)) (n : ℕ) (t v : List Char) (q : Bool) (st : St)
    (hv : v ≠ [] ∧ ∀ c ∈ v, c.isDigit = true)
    (ht : ∃ s ∈ ["GRID_CELL_SIZE_REF", "GRID_CELL_SIZE_REFLECTIVE"], t = s.toList)
    (hg : ∀ l ∈ a ++ .entry n t v q :: b, Good l)
    (hb : ∀ l ∈ b, ¬ hasTag ["GRID_CELL_SIZE_REF", "GRID_CELL_SIZE_REFLECTIVE"] l)
    (h : parseLandsat num d maxTier (fileText (a ++ .entry n t v q :: b) tail) = .ok st) :
    st.res = some (natVal v : ℤ) := by
  have hk : kind t = .res := by
    obtain ⟨s, hs, rfl⟩ := ht
    clear h hg
    revert s
    decide +kernel
  refine field_last St.res .res _ _ (fun _ _ => rfl) ?_ (fun _ _ => rfl) (fun _ _ => rfl)
    (fun t => kind_res) ?_ hg hb h
  · intro x y n t v q hg h hne
    have := (lineEff_fields hg h).2.2.2.1
    rw [this, if_neg hne]
  · intro x y h
    have := (lineEff_fields (hg _ (by simp)) h).2.2.2.1
    rw [this, if_pos hk, seen_atoi hv.2 hv.1]

/-- C186: the left edge of the image lies half a pixel of 30 m to the west of the centre of the upper
left pixel, which the metadata give. -/
theorem c186_left (num : List Char → ℚ) (d : List Char) (maxTier : ℤ) (a b : List Line)
    (tail : Option (List Char)) (n : ℕ) (t v : List Char) (q : Bool) (st : St)
    (hnum : ∀ v, num (v ++ ['\n']) = num v)
    (ht : ∃ s ∈ ["PRODUCT_UL_CORNER_MAPX", "CORNER_UL_PROJECTION_X_PRODUCT"], t = s.toList)
    (hg : ∀ l ∈ a ++ .entry n t v q :: b, Good l)
    (hb : ∀ l ∈ b, ¬ hasTag ["PRODUCT_UL_CORNER_MAPX", "CORNER_UL_PROJECTION_X_PRODUCT"] l)
    (h : parseLandsat num d maxTier (fileText (a ++ .entry n t v q :: b) tail) = .ok st) :
    st.ulx = some (num v - 30 / 2) := by
  have hk : kind t = .ulx := by
    obtain ⟨s, hs, rfl⟩ := ht
    clear h hg
    revert s
    decide +kernel
  refine field_last St.ulx .ulx _ _ (fun _ _ => rfl) ?_ (fun _ _ => rfl) (fun _ _ => rfl)
    (fun t => kind_ulx) ?_ hg hb h
  · intro x y n t v q hg h hne
    have := (lineEff_fields hg h).2.2.2.2.1
    rw [this, if_neg hne]
  · intro x y h
    have := (lineEff_fields (hg _ (by simp)) h).2.2.2.2.1
    rw [this, if_pos hk]
    have hs : num (seen v q) = num v := by
      unfold seen
      cases q
      · exact hnum v
      · rfl
    rw [hs]
    norm_num

/-- C186: the upper edge of the image lies half a pixel of 30 m to the north of the centre of the upper
left pixel, which the metadata give. -/
theorem c186_top (num : List Char → ℚ) (d : List Char) (maxTier : ℤ) (a b : List Line)
    (tail : Option (List Char)) (n : ℕ) (t v : List Char) (q : Bool) (st : St)
    (hnum : ∀ v, num (v ++ ['\n']) = num v)
    (ht : ∃ s ∈ ["PRODUCT_UL_CORNER_MAPY", "CORNER_UL_PROJECTION_Y_PRODUCT"], t = s.toList)
    (hg : ∀ l ∈ a ++ .entry n t v q :: b, Good l)
    (hb : ∀ l ∈ b, ¬ hasTag ["PRODUCT_UL_CORNER_MAPY", "CORNER_UL_PROJECTION_Y_PRODUCT"] l)
    (h : parseLandsat num d maxTier (fileText (a ++ .entry n t v q :: b) tail) = .ok st) :
    st.uly = some (num v + 30 / 2) := by
  have hk : kind t = .uly := by
    obtain ⟨s, hs, rfl⟩ := ht
    clear h hg
    revert s
    decide +kernel
  refine field_last St.uly .uly _ _ (fun _ _ => rfl) ?_ (fun _ _ => rfl) (fun _ _ => rfl)
    (fun t => kind_uly) ?_ hg hb h
  · intro x y n t v q hg h hne
    have := (lineEff_fields hg h).2.2.2.2.2.1
    rw [this, if_neg hne]
  · intro x y h
    have := (lineEff_fields (hg _ (by simp)) h).2.2.2.2.2.1
    rw [this, if_pos hk]
    have hs : num (seen v q) = num v := by
      unfold seen
      cases q
      · exact hnum v
      · rfl
    rw [hs]
    norm_num

/-- C186: the acquisition date is the one of the last line with a date. -/
theorem c186_date (num : List Char → ℚ) (dir : List Char) (maxTier : ℤ) (a b : List Line)
    (tail : Option (List Char)) (n : ℕ) (t y m d : List Char) (st : St)
    (hg : ∀ l ∈ a ++ .date n t y m d :: b, Good l)
    (hb : ∀ l ∈ b, ∀ n t y m d, l ≠ .date n t y m d)
    (h : parseLandsat num dir maxTier (fileText (a ++ .date n t y m d :: b) tail) = .ok st) :
    st.ymd = some ((natVal y : ℤ), (natVal m : ℤ), (natVal d : ℤ)) := by
  obtain ⟨x, h1, -, -, h4, -⟩ := parse_run hg h
  obtain ⟨p, z, -, h6, h7⟩ := run_last St.ymd a b _ (fun l hl p r hpr => by
    cases l with
    | date n t y m dd => exact absurd rfl (hb _ hl n t y m dd)
    | clock n t y m dd => cases hpr; rfl
    | other z => cases hpr; rfl
    | entry n t v q => exact (lineEff_fields (hg _ (by simp [hl])) hpr).2.2.2.2.2.2.2.2.1) h1
  rw [h4]
  show x.ymd = _
  rw [h7]
  cases h6
  rfl

/-- C186: the acquisition time is the one of the last line with a time. -/
theorem c186_time (num : List Char → ℚ) (dir : List Char) (maxTier : ℤ) (a b : List Line)
    (tail : Option (List Char)) (n : ℕ) (t hh mm ss frac : List Char) (st : St)
    (hd : ∀ x ∈ [hh, mm, ss], x ≠ [] ∧ ∀ c ∈ x, c.isDigit = true)
    (hf : ∀ c, frac.head? = some c → c.isDigit = false)
    (hg : ∀ l ∈ a ++ .clock n t hh mm (ss ++ frac) :: b, Good l)
    (hb : ∀ l ∈ b, ∀ n t h m s, l ≠ .clock n t h m s)
    (h : parseLandsat num dir maxTier (fileText (a ++ .clock n t hh mm (ss ++ frac) :: b) tail) = .ok st) :
    st.hms = some ((natVal hh : ℤ), (natVal mm : ℤ), (natVal ss : ℤ)) := by
  obtain ⟨x, h1, -, -, h4, -⟩ := parse_run hg h
  obtain ⟨p, z, -, h6, h7⟩ := run_last St.hms a b _ (fun l hl p r hpr => by
    cases l with
    | date n t y m dd => cases hpr; rfl
    | clock n t y m dd => exact absurd rfl (hb _ hl n t y m dd)
    | other z => cases hpr; rfl
    | entry n t v q => exact (lineEff_fields (hg _ (by simp [hl])) hpr).2.2.2.2.2.2.2.2.2) h1
  rw [h4]
  show x.hms = _
  rw [h7]
  cases h6
  obtain ⟨e1, e2⟩ := hd hh (by simp)
  obtain ⟨e3, e4⟩ := hd mm (by simp)
  obtain ⟨e5, e6⟩ := hd ss (by simp)
  have a1 : atoi hh = natVal hh := by simpa using atoi_number hh [] e2 e1 (by simp)
  have a2 : atoi mm = natVal mm := by simpa using atoi_number mm [] e4 e3 (by simp)
  have a3 : atoi (ss ++ frac) = natVal ss := atoi_number ss frac e6 e5 hf
  simp only [a1, a2, a3]

end Verif.Meta

import Mathlib.Data.List.Perm.Basic
import Mathlib.Tactic.Linarith
import Mathlib.Tactic.FieldSimp
import Mathlib.Tactic.Ring
import Mathlib.Tactic.Positivity
import Verif.Tile.Props
import Verif.Sample.Spec

/-!
# Theorems on the sampling (C46, C58)
-/

namespace Verif.Sample

open Verif.Tile (Cube tileFind)
open Verif.Tile.Spec (left top Inside)
open Spec

/-! ## Coordinates of rows and columns -/

/-- C58: the x coordinate of a column. -/
theorem c58_column (g : Geotran) (j : ℤ) : brickX g j = colX g j := rfl

/-- C58: the y coordinate of the first row. -/
theorem c58_row_partial (g : Geotran) : brickY g 0 = rowY g 0 := by simp [brickY, rowY]

/-- C58, violated: the y coordinate of every other row is wrong: rows go up instead of down. -/
theorem c58_row_violated (g : Geotran) (hr : 0 < g.res) (i : ℤ) (hi : i ≠ 0) :
    brickY g i - rowY g i = 2 * i * g.res ∧ brickY g i ≠ rowY g i := by
  have : brickY g i - rowY g i = 2 * i * g.res := by unfold brickY rowY; ring
  refine ⟨this, fun h => ?_⟩
  rw [h, sub_self] at this
  have hi' : (i : ℚ) ≠ 0 := by exact_mod_cast hi
  have : (2 : ℚ) * i * g.res ≠ 0 := mul_ne_zero (mul_ne_zero two_ne_zero hi') hr.ne'
  exact this (by linarith)

/-- C58: columns of the active part of an image keep their x coordinate. -/
theorem c58_subset_column (g : Geotran) (l t j : ℤ) : colX (subset g l t) j = colX g (l + j) := by
  simp only [subset, colX, brickX, brickY]; push_cast; ring

/-- C58: rows of the active part of an image keep their y coordinate if the active part begins in the first row. -/
theorem c58_subset_row_partial (g : Geotran) (l i : ℤ) : rowY (subset g l 0) i = rowY g i := by
  simp only [subset, rowY, brickY]; push_cast; ring

/-- C58, violated: if the active part of a Sentinel-2 image does not begin in the first row, the image is shifted to
the north by twice the height of the rows that are left out. -/
theorem c58_subset_row_violated (g : Geotran) (l t i : ℤ) :
    rowY (subset g l t) i = rowY g (t + i) + 2 * t * g.res := by
  simp only [subset, rowY, brickY]; push_cast; ring

/-! ## The box -/

theorem run_empty (cube : Cube) (cf : Conf) (warp : ℚ → ℚ → Option (ℚ × ℚ)) (box : Key → Box) (load : Key → Chunk)
    (smps : List Smp) (hrow : ∀ k ch s, rowOf cube cf warp (box k) k ch s = some none) (ks : List Key) :
    ∃ st, run cube cf warp box load smps ks (start smps) = some st ∧
      st.features = [] ∧ st.response = [] ∧ st.coords = [] := by
  have hrows : ∀ k ch as ss, rows cube cf warp (box k) k ch as ss = some ((as.zip ss).map fun _ => none) := by
    intro k ch as
    induction as with
    | nil => intro ss; rfl
    | cons a as ih =>
      intro ss
      cases ss with
      | nil => rfl
      | cons s ss =>
        rw [rows, hrow]
        simp [ih]
  suffices h : ∀ ks (st : St), st.features = [] → st.response = [] → st.coords = [] →
      ∃ st', run cube cf warp box load smps ks st = some st' ∧
        st'.features = [] ∧ st'.response = [] ∧ st'.coords = [] from h ks (start smps) rfl rfl rfl
  intro ks
  induction ks with
  | nil => intro st h1 h2 h3; exact ⟨st, rfl, h1, h2, h3⟩
  | cons k ks ih =>
    intro st h1 h2 h3
    rw [run]
    unfold samplePoints
    split
    · exact ih st h1 h2 h3
    · rw [hrows]
      simp only [Option.map_some, List.map_map, Option.bind_some]
      rw [if_neg (by simp [isCopied])]
      exact ih _ h1 h2 h3

theorem rowOf_empty (cube : Cube) (cf : Conf) (warp : ℚ → ℚ → Option (ℚ × ℚ)) (b : Box) (k : Key) (ch : Chunk)
    (s : Smp) (h : b.maxy < b.miny) : rowOf cube cf warp b k ch s = some none := by
  unfold rowOf
  by_cases h1 : s.x < b.minx
  · rw [if_pos h1]
  by_cases h2 : s.x > b.maxx
  · rw [if_neg h1, if_pos h2]
  by_cases h3 : s.y < b.miny
  · rw [if_neg h1, if_neg h2, if_pos h3]
  · rw [if_neg h1, if_neg h2, if_neg h3, if_pos (by linarith [not_lt.1 h3])]

/-- C46, violated: with projected coordinates no sample is ever extracted: the lower limit of the box of every chunk
is above its upper limit. -/
theorem c46_projected_violated (cube : Cube) (cf : Conf) (g : Geotran) (hr : 0 < g.res) (hcy : 0 < cf.cy)
    (load : Key → Chunk) (smps : List Smp) (ks : List Key) :
    ∃ st, run cube cf (fun x y => some (x, y)) (boxProjected g cf) load smps ks (start smps) = some st ∧
      st.features = [] ∧ st.response = [] ∧ st.coords = [] := by
  apply run_empty
  intro k ch s
  apply rowOf_empty
  simp only [boxProjected, brickY]
  have : (0 : ℚ) < cf.cy * g.res := mul_pos (by exact_mod_cast hcy) hr
  push_cast
  nlinarith

/-- C46: with projected coordinates the box of a chunk contains exactly the map columns of the chunk. -/
theorem c46_box_columns (g : Geotran) (hr : 0 < g.res) (cf : Conf) (k : Key) (x : ℚ) :
    ((boxProjected g cf k).minx ≤ x ∧ x ≤ (boxProjected g cf k).maxx) ↔
      k.kx * cf.cx ≤ (x - g.ulx) / g.res ∧ (x - g.ulx) / g.res ≤ (k.kx + 1) * cf.cx := by
  simp only [boxProjected, brickX]
  push_cast
  rw [le_div_iff₀ hr, div_le_iff₀ hr]
  constructor <;> rintro ⟨h1, h2⟩ <;> constructor <;> linarith

example : (0 : ℚ) < (⟨0, 0, 10⟩ : Geotran).res := by norm_num

/-- C46, violated: with geographic coordinates no sample is ever extracted either if the latitude is a strictly
increasing function of the y coordinate. -/
theorem c46_geographic_violated (cube : Cube) (cf : Conf) (g : Geotran) (hr : 0 < g.res) (hcy : 0 < cf.cy)
    (geo : ℚ → ℚ → ℚ × ℚ) (lat : ℚ → ℚ) (hgeo : ∀ x y, (geo x y).2 = lat y) (hlat : ∀ y y', y < y' → lat y < lat y')
    (warp : ℚ → ℚ → Option (ℚ × ℚ)) (load : Key → Chunk) (smps : List Smp) (ks : List Key) :
    ∃ st, run cube cf warp (boxGeo geo g cf) load smps ks (start smps) = some st ∧
      st.features = [] ∧ st.response = [] ∧ st.coords = [] := by
  apply run_empty
  intro k ch s
  apply rowOf_empty
  simp only [boxGeo, hgeo, min_self, max_self, lt_self_iff_false, if_false, gt_iff_lt]
  apply hlat
  simp only [brickY]
  have : (0 : ℚ) < cf.cy * g.res := mul_pos (by exact_mod_cast hcy) hr
  push_cast
  nlinarith

/-! ## Extraction -/

/-- The tile search ends. -/
theorem tileFind_some (c : Cube) (hX : 0 < c.tileSizeX) (hY : 0 < c.tileSizeY) (x y : ℚ) :
    ∃ f, tileFind c x y = some f := by
  obtain ⟨f, hf, -⟩ := Tile.c16_tile_contains_point c hX hY x y
  exact ⟨f, hf⟩

/-- What `rowOf` finds. -/
def hit (cube : Cube) (cf : Conf) (warp : ℚ → ℚ → Option (ℚ × ℚ)) (box : Key → Box) (load : Key → Chunk)
    (k : Key) (s : Smp) : Option (Bool × List ℤ) := (rowOf cube cf warp (box k) k (load k) s).getD none

theorem rowOf_hit (cube : Cube) (hX : 0 < cube.tileSizeX) (hY : 0 < cube.tileSizeY) (cf : Conf)
    (warp : ℚ → ℚ → Option (ℚ × ℚ)) (box : Key → Box) (load : Key → Chunk) (k : Key) (s : Smp) :
    rowOf cube cf warp (box k) k (load k) s = some (hit cube cf warp box load k s) := by
  have : ∃ r, rowOf cube cf warp (box k) k (load k) s = some r := by
    unfold rowOf
    split
    · exact ⟨_, rfl⟩
    split
    · exact ⟨_, rfl⟩
    split
    · exact ⟨_, rfl⟩
    split
    · exact ⟨_, rfl⟩
    split
    · exact ⟨_, rfl⟩
    · rename_i m _
      obtain ⟨f, hf⟩ := tileFind_some cube hX hY m.1 m.2
      rw [hf, Option.bind_some]
      split
      · exact ⟨_, rfl⟩
      · dsimp only
        split
        · exact ⟨_, rfl⟩
        split
        · exact ⟨_, rfl⟩
        · exact ⟨_, rfl⟩
  obtain ⟨r, hr⟩ := this
  unfold hit
  rw [hr]; rfl

section
variable (cube : Cube) (hX : 0 < cube.tileSizeX) (hY : 0 < cube.tileSizeY) (cf : Conf)
    (warp : ℚ → ℚ → Option (ℚ × ℚ)) (box : Key → Box) (load : Key → Chunk)
include hX hY

theorem rows_hit (k : Key) (b : Smp → Bool) : ∀ ss : List Smp,
    rows cube cf warp (box k) k (load k) (ss.map b) ss =
      some (ss.map fun s => if b s then hit cube cf warp box load k s else none)
  | [] => rfl
  | s :: ss => by
    rw [List.map_cons, rows, rows_hit k b ss]
    by_cases h : b s
    · simp only [h, if_true, rowOf_hit cube hX hY cf warp box load, Option.bind_some, Option.map_some, List.map_cons]
    · simp [h]

omit hX hY in
/-- What has been found in the chunks `pre`. -/
def found (pre : List Key) (s : Smp) : Option (Bool × List ℤ) :=
  pre.findSome? fun k => hit cube cf warp box load k s

omit hX hY in
/-- The row of a sample after the chunks `pre`. -/
def rowAfter (pre : List Key) (s : Smp) : Option Row :=
  match found cube cf warp box load pre s with
  | some (true, f) => some (f, s.resp, [s.x, s.y])
  | _ => none

omit hX hY in
theorem append_map (b : Smp → Bool) (g : Smp → α) : ∀ ss : List Smp,
    appendTable (ss.map b) (ss.map g) = (ss.filter b).map g
  | [] => rfl
  | s :: ss => by
    have ih := append_map b g ss
    unfold appendTable at ih ⊢
    rw [List.map_cons, List.map_cons, List.zip_cons_cons]
    by_cases h : b s
    · rw [List.filterMap_cons_some (b := g s) (by simp [h]), ih, List.filter_cons_of_pos h, List.map_cons]
    · rw [List.filterMap_cons_none (by simp [h]), ih, List.filter_cons_of_neg h]

omit hX hY in
theorem perm_or {α β : Type} (f g h : α → Option β) (l : List α)
    (hh : ∀ x ∈ l, h x = (f x).or (g x)) (hd : ∀ x ∈ l, f x = none ∨ g x = none) :
    (l.filterMap f ++ l.filterMap g).Perm (l.filterMap h) := by
  induction l with
  | nil => exact List.Perm.refl _
  | cons x l ih =>
    have ih' := ih (fun y hy => hh y (List.mem_cons_of_mem _ hy)) (fun y hy => hd y (List.mem_cons_of_mem _ hy))
    have h1 := hh x List.mem_cons_self
    rcases hd x List.mem_cons_self with e | e
    · cases eg : g x with
      | none =>
        rw [List.filterMap_cons_none e, List.filterMap_cons_none eg, List.filterMap_cons_none (by rw [h1, e, eg]; rfl)]
        exact ih'
      | some y =>
        rw [List.filterMap_cons_none e, List.filterMap_cons_some eg,
          List.filterMap_cons_some (b := y) (by rw [h1, e, eg]; rfl)]
        exact List.perm_middle.trans (ih'.cons y)
    · cases ef : f x with
      | none =>
        rw [List.filterMap_cons_none ef, List.filterMap_cons_none e, List.filterMap_cons_none (by rw [h1, ef, e]; rfl)]
        exact ih'
      | some y =>
        rw [List.filterMap_cons_some ef, List.filterMap_cons_none e,
          List.filterMap_cons_some (b := y) (by rw [h1, ef, e]; rfl)]
        exact ih'.cons y

omit hX hY in
theorem count_or {α β : Type} (f g : α → Option β) : ∀ l : List α,
    ((l.map fun x => if (f x).isNone = true then g x else none).filter Option.isSome).length +
      ((l.map fun x => ((f x).or (g x)).isNone).filter id).length = ((l.map fun x => (f x).isNone).filter id).length
  | [] => rfl
  | x :: l => by
    have ih := count_or f g l
    simp only [List.map_cons, List.filter_cons, id]
    generalize ((l.map fun x => if (f x).isNone = true then g x else none).filter Option.isSome) = A at ih ⊢
    generalize ((l.map fun x => ((f x).or (g x)).isNone).filter id) = B at ih ⊢
    generalize ((l.map fun x => (f x).isNone).filter id) = C at ih ⊢
    cases f x with
    | none =>
      cases g x with
      | none => simp only [Option.isNone_none, Option.none_or, if_true, Option.isSome_none, Bool.false_eq_true, if_false, List.length_cons]; omega
      | some y => simp only [Option.isNone_none, Option.none_or, if_true, Option.isSome_some, Option.isNone_some, Bool.false_eq_true, if_false, List.length_cons]; omega
    | some y => simp only [Option.isNone_some, Option.some_or, Option.isSome_none, Bool.false_eq_true, if_false]; omega

omit hX hY in
/-- What holds after the chunks `pre`. -/
structure After (smps : List Smp) (pre : List Key) (st : St) : Prop where
  active : st.active = smps.map fun s => (found cube cf warp box load pre s).isNone
  nActive : st.nActive = ((st.active.filter id).length : ℤ)
  len1 : st.features.length = st.coords.length
  len2 : st.response.length = st.coords.length
  perm : (tableRows st).Perm (smps.filterMap (rowAfter cube cf warp box load pre))

theorem step_after (smps : List Smp) (pre : List Key) (st : St) (k : Key)
    (h : After cube cf warp box load smps pre st) :
    ∃ st', samplePoints cube cf warp (box k) smps k (load k) st = some st' ∧
      After cube cf warp box load smps (pre ++ [k]) st' := by
  have hfound : ∀ s, found cube cf warp box load (pre ++ [k]) s =
      (found cube cf warp box load pre s).or (hit cube cf warp box load k s) := by
    intro s
    unfold found
    rw [List.findSome?_append]
    simp
  unfold samplePoints
  by_cases h0 : st.nActive = 0
  · rw [if_pos h0]
    have hall : ∀ s ∈ smps, ∃ r, found cube cf warp box load pre s = some r := by
      intro s hs
      have h1 : (st.active.filter id).length = 0 := by have := h.nActive; omega
      rw [List.length_eq_zero_iff, List.filter_eq_nil_iff] at h1
      have := h1 ((found cube cf warp box load pre s).isNone) (by rw [h.active]; exact List.mem_map.2 ⟨s, hs, rfl⟩)
      cases e : found cube cf warp box load pre s with
      | none => rw [e] at this; simp at this
      | some r => exact ⟨r, rfl⟩
    have heq : ∀ s ∈ smps, found cube cf warp box load (pre ++ [k]) s = found cube cf warp box load pre s := by
      intro s hs
      obtain ⟨r, hr⟩ := hall s hs
      rw [hfound, hr]; rfl
    refine ⟨st, rfl, ?_, h.nActive, h.len1, h.len2, ?_⟩
    · rw [h.active]
      apply List.map_congr_left
      intro s hs
      rw [heq s hs]
    · have : smps.filterMap (rowAfter cube cf warp box load (pre ++ [k])) =
          smps.filterMap (rowAfter cube cf warp box load pre) := by
        apply List.filterMap_congr
        intro s hs
        unfold rowAfter
        rw [heq s hs]
      rw [this]
      exact h.perm
  · rw [if_neg h0, h.active, rows_hit cube hX hY cf warp box load k]
    generalize hN : (fun s => if (found cube cf warp box load pre s).isNone = true
      then hit cube cf warp box load k s else none) = N
    have hNs : ∀ s, N s = if (found cube cf warp box load pre s).isNone = true
      then hit cube cf warp box load k s else none := fun s => by rw [← hN]
    simp only [Option.map_some, List.map_map]
    generalize hb : isCopied ∘ N = b
    generalize hg : valuesOf (load k) ∘ N = g
    have happ : ∀ {α : Type} (G : Smp → α), (smps.map b).any id = false → (smps.filter b).map G = [] := by
      intro α G hn
      rw [List.map_eq_nil_iff, List.filter_eq_nil_iff]
      intro s hs hbs
      rw [List.any_eq_false] at hn
      exact hn (b s) (List.mem_map.2 ⟨s, hs, rfl⟩) hbs
    have hrow : ∀ s ∈ smps, rowAfter cube cf warp box load (pre ++ [k]) s =
        (rowAfter cube cf warp box load pre s).or (if b s then some (g s, s.resp, [s.x, s.y]) else none) := by
      intro s _
      unfold rowAfter
      rw [hfound]
      simp only [← hb, ← hg, Function.comp_apply, hNs]
      cases e : found cube cf warp box load pre s with
      | none =>
        simp only [Option.isNone_none, if_true, Option.none_or]
        cases hit cube cf warp box load k s with
        | none => rfl
        | some r => obtain ⟨v, f⟩ := r; cases v <;> rfl
      | some r => obtain ⟨v, f⟩ := r; cases v <;> simp [isCopied]
    have hdis : ∀ s ∈ smps, rowAfter cube cf warp box load pre s = none ∨
        (if b s then some (g s, s.resp, [s.x, s.y]) else none : Option Row) = none := by
      intro s _
      unfold rowAfter
      simp only [← hb, Function.comp_apply, hNs]
      cases e : found cube cf warp box load pre s with
      | none => left; rfl
      | some r => right; simp [isCopied]
    have hperm := perm_or _ _ _ smps hrow hdis
    have hfm : smps.filterMap (fun s => (if b s then some (g s, s.resp, [s.x, s.y]) else none : Option Row)) =
        (smps.filter b).map fun s => (g s, s.resp, [s.x, s.y]) := by
      clear hperm hdis hrow happ hN hNs hb hg h
      induction smps with
      | nil => rfl
      | cons s ss ih =>
        by_cases hbs : b s
        · rw [List.filterMap_cons_some (b := (g s, s.resp, [s.x, s.y])) (by simp [hbs]), ih,
            List.filter_cons_of_pos hbs, List.map_cons]
        · rw [List.filterMap_cons_none (by simp [hbs]), ih, List.filter_cons_of_neg hbs]
    rw [hfm] at hperm
    have hact : List.zipWith (fun a (r : Option (Bool × List ℤ)) => a && r.isNone)
        (smps.map fun s => (found cube cf warp box load pre s).isNone) (smps.map N) =
        smps.map fun s => (found cube cf warp box load (pre ++ [k]) s).isNone := by
      rw [List.zipWith_map, List.zipWith_self]
      apply List.map_congr_left
      intro s _
      rw [hfound, hNs]
      cases found cube cf warp box load pre s with
      | none => simp
      | some r => simp
    have hcount : ((smps.map N).filter Option.isSome).length +
        ((smps.map fun s => (found cube cf warp box load (pre ++ [k]) s).isNone).filter id).length =
        ((smps.map fun s => (found cube cf warp box load pre s).isNone).filter id).length := by
      have := count_or (found cube cf warp box load pre) (hit cube cf warp box load k) smps
      rw [hN] at this
      simp only [hfound]
      exact this
    refine ⟨_, rfl, ?_⟩
    have hna := h.nActive
    rw [h.active] at hna
    by_cases hany : (smps.map b).any id = true
    · rw [if_pos hany]
      refine ⟨hact, ?_, ?_, ?_, ?_⟩
      · simp only [hact]; omega
      · simp only [append_map, List.length_append, List.length_map, h.len1]
      · simp only [append_map, List.length_append, List.length_map, h.len2]
      · refine List.Perm.trans ?_ hperm
        unfold tableRows
        simp only [append_map]
        rw [List.zip_append h.len2, List.zip_append (by rw [List.length_zip, h.len2, h.len1]; simp),
          List.zip_map', List.zip_map']
        exact h.perm.append_right _
    · rw [if_neg hany]
      have hany' : (smps.map b).any id = false := by simpa using hany
      refine ⟨hact, ?_, h.len1, h.len2, ?_⟩
      · simp only [hact]; omega
      · refine List.Perm.trans ?_ hperm
        rw [happ _ hany', List.append_nil]
        exact h.perm

theorem run_after (smps : List Smp) : ∀ (ks pre : List Key) (st : St), After cube cf warp box load smps pre st →
    ∃ st', run cube cf warp box load smps ks st = some st' ∧ After cube cf warp box load smps (pre ++ ks) st'
  | [], pre, st, h => ⟨st, rfl, by simpa using h⟩
  | k :: ks, pre, st, h => by
    obtain ⟨st1, h1, i1⟩ := step_after cube hX hY cf warp box load smps pre st k h
    obtain ⟨st2, h2, i2⟩ := run_after smps ks (pre ++ [k]) st1 i1
    exact ⟨st2, by rw [run, h1]; exact h2, by simpa using i2⟩

end

theorem start_after (cube : Cube) (cf : Conf) (warp : ℚ → ℚ → Option (ℚ × ℚ)) (box : Key → Box)
    (load : Key → Chunk) (smps : List Smp) : After cube cf warp box load smps [] (start smps) := by
  refine ⟨?_, ?_, rfl, rfl, ?_⟩
  · simp [start, found]
  · simp only [start]
    congr 1
    induction smps with
    | nil => rfl
    | cons s ss ih => simp only [List.map_cons, List.filter_cons, id, if_true, List.length_cons, ih]
  · simp only [start, tableRows, List.zip_nil_left]
    have : smps.filterMap (rowAfter cube cf warp box load []) = [] := by
      rw [List.filterMap_eq_nil_iff]
      intro s _
      rfl
    rw [this]

/-! ## Location -/

theorem trunc_eq (q : ℚ) (n : ℤ) (h0 : 0 ≤ q) : trunc q = n ↔ (n : ℚ) ≤ q ∧ q < n + 1 := by
  unfold trunc
  rw [if_pos h0, Int.floor_eq_iff]

/-- Pixel column or row of a distance `d` from the edge. -/
theorem pixel_iff (d res : ℚ) (hr : 0 < res) (hd : 0 ≤ d) (n : ℤ) :
    trunc (d / res) = n ↔ n * res ≤ d ∧ d < (n + 1) * res := by
  rw [trunc_eq _ _ (div_nonneg hd hr.le), le_div_iff₀ hr, div_lt_iff₀ hr]

theorem chunk_iff (t c k : ℤ) (hc : 0 < c) (ht : 0 ≤ t) :
    t.tdiv c = k ↔ 0 ≤ t - k * c ∧ t - k * c < c := by
  rw [Int.tdiv_eq_ediv_of_nonneg ht]
  constructor
  · rintro rfl
    have h1 := Int.emod_nonneg t hc.ne'
    have h2 := Int.emod_lt_of_pos t hc
    have h3 := Int.emod_add_mul_ediv t c
    have h4 : t / c * c = c * (t / c) := Int.mul_comm _ _
    omega
  · rintro ⟨h1, h2⟩
    have : t = (t - k * c) + k * c := by omega
    rw [this, Int.add_mul_ediv_right _ _ hc.ne', Int.ediv_eq_zero_of_lt h1 h2]
    omega

/-- The values at a pixel. -/
def at_ (cf : Conf) (ch : Chunk) (p : ℤ) : Bool × List ℤ :=
  (ch.feats.all (fun f => (f p).2 || !cf.exclude), ch.feats.map fun f => (f p).1)

section
variable (cube : Cube) (hX : 0 < cube.tileSizeX) (hY : 0 < cube.tileSizeY) (cf : Conf) (hcx : 0 < cf.cx)
    (hcy : 0 < cf.cy) (hr : 0 < cf.res) (warp : ℚ → ℚ → Option (ℚ × ℚ)) (box : Key → Box) (load : Key → Chunk)
include hX hY hcx hcy hr

theorem rowOf_at (k : Key) (ch : Chunk) (b : Box) (s : Smp) (m : ℚ × ℚ) (hw : warp s.x s.y = some m) (p : ℤ)
    (hat : At cube cf k p m.1 m.2) (hb : InBox b s) :
    rowOf cube cf warp b k ch s = some (if ch.mask.any (fun mk => !mk p) then none else some (at_ cf ch p)) := by
  obtain ⟨hin, col, row, ⟨⟨hx1, hx2⟩, ⟨hy1, hy2⟩⟩, j, i, ⟨hj1, hj2⟩, ⟨hi1, hi2⟩, hcol, hrow, hp⟩ := hat
  have ht := Tile.c16_interior cube hX hY m.1 m.2 k.tx k.ty hin
  obtain ⟨⟨b1, b2⟩, ⟨b3, b4⟩⟩ := hb
  have htj : trunc ((m.1 - left cube k.tx) / cf.res) = col := by
    rw [pixel_iff _ _ hr (by linarith [hin.1.1])]
    constructor <;> linarith
  have hti : trunc ((top cube k.ty - m.2) / cf.res) = row := by
    rw [pixel_iff _ _ hr (by linarith [hin.2.2])]
    constructor <;> linarith
  have hcol0 : 0 ≤ col := by
    have : (0 : ℚ) < (col + 1) * cf.res := by linarith [hin.1.1]
    have : (0 : ℚ) < ((col + 1 : ℤ) : ℚ) := by push_cast; exact pos_of_mul_pos_left this hr.le
    have : 0 < col + 1 := by exact_mod_cast this
    omega
  have hrow0 : 0 ≤ row := by
    have : (0 : ℚ) < (row + 1) * cf.res := by linarith [hin.2.2]
    have : (0 : ℚ) < ((row + 1 : ℤ) : ℚ) := by push_cast; exact pos_of_mul_pos_left this hr.le
    have : 0 < row + 1 := by exact_mod_cast this
    omega
  have hkx : col.tdiv cf.cx = k.kx := (chunk_iff _ _ _ hcx hcol0).2 (by omega)
  have hky : row.tdiv cf.cy = k.ky := (chunk_iff _ _ _ hcy hrow0).2 (by omega)
  unfold rowOf
  rw [if_neg (not_lt.2 b1), if_neg (not_lt.2 b2), if_neg (not_lt.2 b3), if_neg (not_lt.2 b4), hw]
  simp only [ht, Option.bind_some, htj, hti, hkx, hky, ne_eq, not_true_eq_false, or_self, if_false]
  have hpp : (row - k.ky * cf.cy) * cf.cx + (col - k.kx * cf.cx) = p := by
    rw [hp, hrow, hcol]; ring
  rw [hpp]
  split <;> rfl

theorem rowOf_some (k : Key) (ch : Chunk) (b : Box) (s : Smp) (m : ℚ × ℚ) (hw : warp s.x s.y = some m)
    (hoff : OffEdges cube m.1 m.2) (r : Bool × List ℤ) (h : rowOf cube cf warp b k ch s = some (some r)) :
    InBox b s ∧ ∃ p, At cube cf k p m.1 m.2 ∧ (ch.mask.any fun mk => !mk p) = false ∧ r = at_ cf ch p := by
  unfold rowOf at h
  by_cases h1 : s.x < b.minx
  · rw [if_pos h1] at h; cases h
  by_cases h2 : s.x > b.maxx
  · rw [if_neg h1, if_pos h2] at h; cases h
  by_cases h3 : s.y < b.miny
  · rw [if_neg h1, if_neg h2, if_pos h3] at h; cases h
  by_cases h4 : s.y > b.maxy
  · rw [if_neg h1, if_neg h2, if_neg h3, if_pos h4] at h; cases h
  rw [if_neg h1, if_neg h2, if_neg h3, if_neg h4, hw] at h
  refine ⟨⟨⟨not_lt.1 h1, not_lt.1 h2⟩, ⟨not_lt.1 h3, not_lt.1 h4⟩⟩, ?_⟩
  obtain ⟨⟨tx, ty⟩, hin, -⟩ := Tile.c16_unique_tile cube hX hY m.1 m.2 hoff.1 hoff.2
  have ht := Tile.c16_interior cube hX hY m.1 m.2 tx ty hin
  simp only [ht, Option.bind_some] at h
  by_cases h5 : tx ≠ k.tx ∨ ty ≠ k.ty
  · rw [if_pos h5] at h; cases h
  rw [if_neg h5] at h
  have h5' := not_or.1 h5
  have e1 : tx = k.tx := not_not.1 h5'.1
  have e2 : ty = k.ty := not_not.1 h5'.2
  subst e1; subst e2
  generalize hcol : trunc ((m.1 - left cube k.tx) / cf.res) = col at h
  generalize hrow : trunc ((top cube k.ty - m.2) / cf.res) = row at h
  rw [pixel_iff _ _ hr (by linarith [hin.1.1])] at hcol
  rw [pixel_iff _ _ hr (by linarith [hin.2.2])] at hrow
  have hcol0 : 0 ≤ col := by
    have : (0 : ℚ) < (col + 1) * cf.res := by linarith [hin.1.1]
    have : (0 : ℚ) < ((col + 1 : ℤ) : ℚ) := by push_cast; exact pos_of_mul_pos_left this hr.le
    have : 0 < col + 1 := by exact_mod_cast this
    omega
  have hrow0 : 0 ≤ row := by
    have : (0 : ℚ) < (row + 1) * cf.res := by linarith [hin.2.2]
    have : (0 : ℚ) < ((row + 1 : ℤ) : ℚ) := by push_cast; exact pos_of_mul_pos_left this hr.le
    have : 0 < row + 1 := by exact_mod_cast this
    omega
  by_cases h6 : col.tdiv cf.cx ≠ k.kx ∨ row.tdiv cf.cy ≠ k.ky
  · rw [if_pos h6] at h; cases h
  rw [if_neg h6] at h
  have h6' := not_or.1 h6
  have hkx := (chunk_iff _ _ _ hcx hcol0).1 (not_not.1 h6'.1)
  have hky := (chunk_iff _ _ _ hcy hrow0).1 (not_not.1 h6'.2)
  by_cases h7 : (ch.mask.any fun mk => !mk ((row - k.ky * cf.cy) * cf.cx + (col - k.kx * cf.cx))) = true
  · rw [if_pos h7] at h; cases h
  rw [if_neg h7] at h
  refine ⟨(row - k.ky * cf.cy) * cf.cx + (col - k.kx * cf.cx), ⟨hin, col, row, ⟨⟨?_, ?_⟩, ⟨?_, ?_⟩⟩,
    col - k.kx * cf.cx, row - k.ky * cf.cy, hkx, hky, by omega, by omega, rfl⟩, by simpa using h7, ?_⟩
  · linarith
  · linarith
  · linarith
  · linarith
  · simp only [Option.some.injEq] at h
    rw [← h]; rfl

omit hX hY in
/-- A point is at one pixel of one chunk only. -/
theorem at_unique (hX : 0 < cube.tileSizeX) (hY : 0 < cube.tileSizeY) (k k' : Key) (p p' : ℤ) (x y : ℚ)
    (h : At cube cf k p x y) (h' : At cube cf k' p' x y) : k = k' ∧ p = p' := by
  have t1 := Tile.c16_interior cube hX hY x y k.tx k.ty h.1
  have t2 := Tile.c16_interior cube hX hY x y k'.tx k'.ty h'.1
  rw [t1] at t2
  simp only [Option.some.injEq, Tile.Found.mk.injEq] at t2
  obtain ⟨-, -, e1, e2⟩ := t2
  obtain ⟨hin, col, row, ⟨⟨hx1, hx2⟩, ⟨hy1, hy2⟩⟩, j, i, ⟨hj1, hj2⟩, ⟨hi1, hi2⟩, hcol, hrow, hp⟩ := h
  obtain ⟨hin', col', row', ⟨⟨hx1', hx2'⟩, ⟨hy1', hy2'⟩⟩, j', i', ⟨hj1', hj2'⟩, ⟨hi1', hi2'⟩, hcol', hrow', hp'⟩ := h'
  rw [← e1] at hx1' hx2' hin'
  rw [← e2] at hy1' hy2' hin'
  have ec : col = col' := by
    have a1 := (pixel_iff (x - left cube k.tx) cf.res hr (by linarith [hin.1.1]) col).2 ⟨by linarith, by linarith⟩
    have a2 := (pixel_iff (x - left cube k.tx) cf.res hr (by linarith [hin.1.1]) col').2 ⟨by linarith, by linarith⟩
    exact a1.symm.trans a2
  have er : row = row' := by
    have a1 := (pixel_iff (top cube k.ty - y) cf.res hr (by linarith [hin.2.2]) row).2 ⟨by linarith, by linarith⟩
    have a2 := (pixel_iff (top cube k.ty - y) cf.res hr (by linarith [hin.2.2]) row').2 ⟨by linarith, by linarith⟩
    exact a1.symm.trans a2
  have div_uniq : ∀ c q q' u u' : ℤ, 0 ≤ u → u < c → 0 ≤ u' → u' < c → q * c + u = q' * c + u' → q = q' ∧ u = u' := by
    intro c q q' u u' h1 h2 h3 h4 h5
    have hq : q = q' := by
      have a1 : (q * c + u) / c = q := by
        rw [add_comm, Int.add_mul_ediv_right _ _ (by omega), Int.ediv_eq_zero_of_lt h1 h2]; omega
      have a2 : (q' * c + u') / c = q' := by
        rw [add_comm, Int.add_mul_ediv_right _ _ (by omega), Int.ediv_eq_zero_of_lt h3 h4]; omega
      rw [← a1, h5, a2]
    subst hq
    exact ⟨rfl, by omega⟩
  obtain ⟨f1, f2⟩ := div_uniq cf.cx k.kx k'.kx j j' hj1 hj2 hj1' hj2' (by rw [← hcol, ← hcol', ec])
  obtain ⟨f3, f4⟩ := div_uniq cf.cy k.ky k'.ky i i' hi1 hi2 hi1' hi2' (by rw [← hrow, ← hrow', er])
  refine ⟨?_, by rw [hp, hp', f2, f4]⟩
  cases k; cases k'
  simp only at e1 e2 f1 f3
  subst e1; subst e2; subst f1; subst f3
  rfl

end

/-- C46: whatever the order of the chunks (which may also be processed several times), if the test with the box of a
chunk lets the samples of this chunk pass and no sample is on the edge of a tile, the three files have the same
number of rows and these are, in some order, exactly one row for each sample whose pixel is used and whose chunk is
processed; the row consists of the features of the pixel that contains the sample, and of the responses and
coordinates of the sample. Missing: the box that the program computes never contains the samples of the chunk
(`c46_projected_violated`, `c46_geographic_violated`), and samples on edges (`c46_edge_violated`). -/
theorem c46_once_partial (cube : Cube) (hX : 0 < cube.tileSizeX) (hY : 0 < cube.tileSizeY) (cf : Conf)
    (hcx : 0 < cf.cx) (hcy : 0 < cf.cy) (hr : 0 < cf.res) (warp : ℚ → ℚ → Option (ℚ × ℚ)) (box : Key → Box)
    (load : Key → Chunk) (ks : List Key) (smps : List Smp)
    (hbox : ∀ s ∈ smps, ∀ m, warp s.x s.y = some m → ∀ k ∈ ks, ∀ p, At cube cf k p m.1 m.2 → InBox (box k) s)
    (hoff : ∀ s ∈ smps, ∀ m, warp s.x s.y = some m → OffEdges cube m.1 m.2) :
    ∃ st, run cube cf warp box load smps ks (start smps) = some st ∧
      st.features.length = st.coords.length ∧ st.response.length = st.coords.length ∧
      ∃ row : Smp → Option Row, (tableRows st).Perm (smps.filterMap row) ∧
        ∀ s ∈ smps, ∀ r, row s = some r ↔ ∃ m, warp s.x s.y = some m ∧ RowFor cube cf load ks s m r := by
  obtain ⟨st, hrun, h⟩ := run_after cube hX hY cf warp box load smps ks [] (start smps)
    (start_after cube cf warp box load smps)
  rw [List.nil_append] at h
  refine ⟨st, hrun, h.len1, h.len2, rowAfter cube cf warp box load ks, h.perm, ?_⟩
  intro s hs r
  have hhit : ∀ k r', hit cube cf warp box load k s = some r' →
      ∃ m, warp s.x s.y = some m ∧ ∃ p, At cube cf k p m.1 m.2 ∧
        ((load k).mask.any fun mk => !mk p) = false ∧ r' = at_ cf (load k) p := by
    intro k r' hk
    have e := rowOf_hit cube hX hY cf warp box load k s
    rw [hk] at e
    cases hw : warp s.x s.y with
    | none =>
      unfold rowOf at e
      rw [hw] at e
      simp only at e
      split_ifs at e <;> cases e
    | some m =>
      obtain ⟨-, h2⟩ := rowOf_some cube hX hY cf hcx hcy hr warp k (load k) (box k) s m hw (hoff s hs m hw) r' e
      exact ⟨m, rfl, h2⟩
  have hall : ∀ p k, (load k).feats.all (fun f => (f p).2 || !cf.exclude) = true ↔
      (cf.exclude = true → ∀ f ∈ (load k).feats, (f p).2 = true) := by
    intro p k
    rw [List.all_eq_true]
    cases cf.exclude <;> simp
  have hmask : ∀ p k, ((load k).mask.any fun mk => !mk p) = false ↔ ∀ mk, (load k).mask = some mk → mk p = true := by
    intro p k
    cases (load k).mask with
    | none => simp
    | some mk => simp
  constructor
  · intro hrow
    unfold rowAfter at hrow
    cases hf : found cube cf warp box load ks s with
    | none => rw [hf] at hrow; cases hrow
    | some vf =>
      obtain ⟨v, f⟩ := vf
      rw [hf] at hrow
      cases v with
      | false => cases hrow
      | true =>
        simp only [Option.some.injEq] at hrow
        obtain ⟨k, hk, hkh⟩ := List.exists_of_findSome?_eq_some hf
        obtain ⟨m, hw, p, hat, hm, he⟩ := hhit k _ hkh
        have he' := Prod.mk.inj he
        refine ⟨m, hw, k, hk, p, hat, ⟨(hmask p k).1 hm, (hall p k).1 he'.1.symm⟩, ?_⟩
        rw [← hrow, he'.2]
  · rintro ⟨m, hw, k, hk, p, hat, ⟨hu1, hu2⟩, rfl⟩
    have e := rowOf_at cube hX hY cf hcx hcy hr warp k (load k) (box k) s m hw p hat (hbox s hs m hw k hk p hat)
    rw [(hmask p k).2 hu1, rowOf_hit cube hX hY cf warp box load] at e
    have hk1 : hit cube cf warp box load k s = some (at_ cf (load k) p) := by simpa using e
    have hf : found cube cf warp box load ks s = some (at_ cf (load k) p) := by
      cases hf : found cube cf warp box load ks s with
      | none =>
        have := List.findSome?_eq_none_iff.1 hf k hk
        rw [hk1] at this; cases this
      | some r' =>
        obtain ⟨k', hk', hkh'⟩ := List.exists_of_findSome?_eq_some hf
        obtain ⟨m', hw', p', hat', -, he'⟩ := hhit k' _ hkh'
        rw [hw] at hw'
        cases hw'
        obtain ⟨rfl, rfl⟩ := at_unique cube cf hcx hcy hr hX hY k k' p p' m.1 m.2 hat hat'
        rw [he']
    unfold rowAfter
    rw [hf]
    unfold at_
    rw [(hall p k).2 hu2]

/-- C46, violated: a sample on the left edge of a tile right of the origin is not extracted from any chunk of any
tile, whatever the box: it is assigned to the tile to the left, in a column behind its last one. `n`: number of chunk
columns of a tile. -/
theorem c46_edge_violated (cube : Cube) (hX : 0 < cube.tileSizeX) (hY : 0 < cube.tileSizeY) (cf : Conf)
    (hcx : 0 < cf.cx) (hr : 0 < cf.res) (n : ℤ) (hn : 0 < n) (hsize : cube.tileSizeX = n * cf.cx * cf.res)
    (i : ℤ) (hi : 0 < i) (y : ℚ) (resp : List ℚ) (b : Box) (k : Key) (hk : k.kx < n) (ch : Chunk) :
    rowOf cube cf (fun x y => some (x, y)) b k ch ⟨left cube i, y, resp⟩ = some none := by
  obtain ⟨f, hf, hidx⟩ := Tile.c16_edge_convention cube hX hY i y
  obtain ⟨f', hf', -, hl, -⟩ := Tile.c16_tile_contains_point cube hX hY (left cube i) y
  rw [hf] at hf'
  cases hf'
  rw [if_pos hi] at hidx
  unfold rowOf
  split
  · rfl
  split
  · rfl
  split
  · rfl
  split
  · rfl
  simp only [hf, Option.bind_some]
  split
  · rfl
  have hd : left cube i - f.tilex = n * cf.cx * cf.res := by
    rw [hl, hidx, ← hsize]; unfold Tile.Spec.left; push_cast; ring
  have htj : trunc ((left cube i - f.tilex) / cf.res) = n * cf.cx := by
    rw [hd, pixel_iff _ _ hr (by positivity)]
    push_cast
    constructor <;> nlinarith
  have hdiv : (n * cf.cx).tdiv cf.cx = n := Int.mul_tdiv_cancel _ hcx.ne'
  rw [htj, hdiv, if_pos (.inl (by omega))]

/-! ## Examples -/

/-- Chunks of 3000 x 300 pixels of 10 m. -/
def confEx : Conf := ⟨3000, 300, 10, true⟩

/-- A sample with one response. -/
def smpEx : Smp := ⟨4075005, 3390017, [3]⟩

/-- The sample is at column 1500, row 1998 of tile (2, 3), hence in chunk (0, 6), row 198. -/
theorem atEx : At Tile.demo confEx ⟨2, 3, 0, 6⟩ (198 * 3000 + 1500) 4075005 3390017 := by
  refine ⟨?_, 1500, 1998, ?_, 1500, 198, ?_, ?_, ?_, ?_, ?_⟩
  · unfold Inside left top Tile.demo; norm_num
  · constructor
    · unfold left Tile.demo confEx; norm_num
    · unfold top Tile.demo confEx; norm_num
  all_goals decide

example : 0 < Tile.demo.tileSizeX ∧ 0 < Tile.demo.tileSizeY ∧ 0 < confEx.cx ∧ 0 < confEx.cy ∧ 0 < confEx.res ∧
    Tile.demo.tileSizeX = 1 * confEx.cx * confEx.res := by
  unfold Tile.demo confEx; norm_num

/-- The hypotheses of `c46_once_partial` are met with a box that contains everything. -/
example : (∀ s ∈ [smpEx], ∀ m, some (s.x, s.y) = some m → ∀ k ∈ [(⟨2, 3, 0, 6⟩ : Key)], ∀ p,
      At Tile.demo confEx k p m.1 m.2 → InBox ⟨0, 9000000, 0, 9000000⟩ s) ∧
    (∀ s ∈ [smpEx], ∀ m, some (s.x, s.y) = some m → OffEdges Tile.demo m.1 m.2) := by
  refine ⟨?_, ?_⟩
  · intro s hs m _ k _ p _
    simp only [List.mem_singleton] at hs
    subst hs
    unfold InBox smpEx; norm_num
  · intro s hs m hm
    simp only [List.mem_singleton] at hs
    subst hs
    cases hm
    constructor
    · intro i h
      unfold smpEx left Tile.demo at h
      simp only at h
      have : (4075005 : ℤ) = 4000000 + i * 30000 := by exact_mod_cast h
      omega
    · intro j h
      unfold smpEx top Tile.demo at h
      simp only at h
      have : (3390017 : ℤ) = 3500000 - j * 30000 := by exact_mod_cast h
      omega

/-- The active part of an image of 10 m resolution begins in row 500: it is shifted by 10 km. -/
example : rowY (subset ⟨399960, 5800020, 10⟩ 0 500) 0 = rowY ⟨399960, 5800020, 10⟩ 500 + 10000 := by
  rw [c58_subset_row_violated]; norm_num

end Verif.Sample

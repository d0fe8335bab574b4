import Verif.Halo.Lemmas

/-! # C83–C84: chunks with the surrounding pixels -/

namespace Verif.Halo

open Verif.Str Verif.Str.Spec Verif.Tile.Spec Spec

theorem first_strstr {text search pre suf : List Char} (h : FirstOccurrence text search pre suf) :
    strstr text search = some pre.length := by
  cases e : strstr text search with
  | none => exact absurd h.1 (strstr_none e _ _)
  | some k =>
    obtain ⟨h2, hk⟩ := strstr_some e
    have a := h.2 _ _ h2.1
    have b := h2.2 _ _ h.1
    rw [List.length_take, min_eq_left hk] at a b
    congr 1
    omega

/-- Tiles whose names have 11 characters. -/
def Short (t : Int × Int) : Prop := (-1000 < t.1 ∧ t.1 < 10000) ∧ (-1000 < t.2 ∧ t.2 < 10000)

theorem rename_spec {pre post : List Char} (hu : Unique pre post) {t t' : Int × Int} (ht : Short t) (ht' : Short t') :
    rename (pre ++ tileName t ++ post) (tileName t) (tileName t') = some (pre ++ tileName t' ++ post) := by
  unfold rename
  rw [first_strstr (hu t)]
  have l1 := Tile.tileName_length t ht.1 ht.2
  have l2 := Tile.tileName_length t' ht'.1 ht'.2
  simp only [Option.map_some]
  have e1 : (pre ++ tileName t ++ post).take pre.length = pre := by
    rw [List.append_assoc]; exact List.take_left' rfl
  have e2 : (pre ++ tileName t ++ post).drop (pre.length + 11) = post :=
    List.drop_left' (by simp [l1])
  rw [e1, e2, List.take_of_length_le (by omega)]

section

variable (g : Grid) (disc : List Char → Option Img) (pre post : List Char) (chunk : Nat × Nat) (tile : Int × Int)
  (ard : Nat → Int)

/-- The tile of a neighbour. -/
def tileOf (p : Int × Int) : Int × Int :=
  ((neighbour chunk.1 p.1 g.kx tile.1).2, (neighbour chunk.2 p.2 g.ky tile.2).2)

/-- What is copied for a neighbour, `none` if the reading fails. -/
def source (p : Int × Int) : Option (Option (Nat → Int)) :=
  if p.2 = 0 ∧ p.1 = 0 then some (some ard)
  else match disc (pre ++ tileName (tileOf g chunk tile p) ++ post) with
    | none => some none
    | some img => (readChunk g img (neighbour chunk.1 p.1 g.kx tile.1).1 (neighbour chunk.2 p.2 g.ky tile.2).1
        (p.1 * g.h) (p.2 * g.h)).map some

theorem step_spec (hu : Unique pre post) {st : St} {p : Int × Int} {t : Int × Int} (ht : Short t)
    (hf : st.fname = pre ++ tileName t ++ post) (hc : st.tc = tileName t)
    (hs : Short (tileOf g chunk tile p)) {s : Option (Nat → Int)}
    (hsrc : source g disc pre post chunk tile ard p = some s) :
    ∃ st' t', step g disc (chunk.1, chunk.2) tile ard st p = some st' ∧ Short t' ∧
      st'.fname = pre ++ tileName t' ++ post ∧ st'.tc = tileName t' ∧
      st'.mosaic = copy g.nodata (g.W + g.h * 2) (place g.h g.W p.1) (place g.h g.H p.2) s st.mosaic := by
  unfold source at hsrc
  unfold step
  by_cases h0 : p.2 = 0 ∧ p.1 = 0
  · rw [if_pos h0] at hsrc
    simp only [Option.some.injEq] at hsrc
    subst hsrc
    simp only [if_pos h0]
    exact ⟨_, t, rfl, ht, hf, hc, rfl⟩
  · rw [if_neg h0] at hsrc
    simp only [if_neg h0]
    have hr := rename_spec hu ht hs
    rw [← hf, ← hc] at hr
    have hn : name ((neighbour (chunk.1 : Int) p.1 g.kx tile.1).2, (neighbour (chunk.2 : Int) p.2 g.ky tile.2).2) =
        tileName (tileOf g chunk tile p) := rfl
    rw [hn, hr]
    simp only
    cases hd : disc (pre ++ tileName (tileOf g chunk tile p) ++ post) with
    | none =>
      rw [hd] at hsrc
      simp only [Option.some.injEq] at hsrc
      subst hsrc
      exact ⟨_, _, rfl, hs, rfl, rfl, rfl⟩
    | some img =>
      rw [hd] at hsrc
      simp only [Option.map_eq_some_iff] at hsrc
      obtain ⟨a, ha, rfl⟩ := hsrc
      simp only [ha]
      exact ⟨_, _, rfl, hs, rfl, rfl, rfl⟩

theorem fold_spec (hu : Unique pre post) (S : Int × Int → Option (Nat → Int)) :
    ∀ (ps : List (Int × Int)) (st : St) (t : Int × Int), Short t → st.fname = pre ++ tileName t ++ post →
      st.tc = tileName t →
      (∀ p ∈ ps, (p.1 = -1 ∨ p.1 = 0 ∨ p.1 = 1) ∧ (p.2 = -1 ∨ p.2 = 0 ∨ p.2 = 1) ∧
        Short (tileOf g chunk tile p) ∧ source g disc pre post chunk tile ard p = some (S p)) →
      ps.Nodup →
      ∃ st', ps.foldlM (step g disc (chunk.1, chunk.2) tile ard) st = some st' ∧
        ∀ r c, c < g.W + g.h * 2 → r < g.H + g.h * 2 →
          st'.mosaic (r * (g.W + g.h * 2) + c) =
            if (relOf g.h g.W c, relOf g.h g.H r) ∈ ps then
              valueOf g.nodata (S (relOf g.h g.W c, relOf g.h g.H r))
                ((r - (place g.h g.H (relOf g.h g.H r)).2) * (place g.h g.W (relOf g.h g.W c)).1 +
                  (c - (place g.h g.W (relOf g.h g.W c)).2))
            else st.mosaic (r * (g.W + g.h * 2) + c) := by
  intro ps
  induction ps with
  | nil => intro st t _ _ _ _ _; exact ⟨st, rfl, by simp⟩
  | cons p ps ih =>
    intro st t ht hf hc hp hnd
    obtain ⟨p1, p2, p3, p4⟩ := hp p (by simp)
    obtain ⟨st1, t1, e1, ht1, hf1, hc1, hm1⟩ := step_spec g disc pre post chunk tile ard hu ht hf hc p3 p4
    obtain ⟨st2, e2, h2⟩ := ih st1 t1 ht1 hf1 hc1 (fun q hq => hp q (by simp [hq])) (List.nodup_cons.1 hnd).2
    refine ⟨st2, ?_, ?_⟩
    · rw [List.foldlM_cons, e1]
      exact e2
    · intro r c hcw hrh
      rw [h2 r c hcw hrh]
      have hx := place_iff hcw p1
      have hy := place_iff hrh p2
      by_cases hin : (relOf g.h g.W c, relOf g.h g.H r) ∈ ps
      · rw [if_pos hin, if_pos (by simp [hin])]
      · rw [if_neg hin, hm1, copy_spec _ _ _ _ _ _ _ _ hcw (place_le _ _ _)]
        by_cases heq : (relOf g.h g.W c, relOf g.h g.H r) = p
        · subst heq
          have a := hx.2 rfl
          have b := hy.2 rfl
          rw [if_pos ⟨a.1, a.2, b.1, b.2⟩, if_pos (List.mem_cons_self ..)]
        · rw [if_neg, if_neg (by simp [hin, heq])]
          rintro ⟨a, b, c1, d⟩
          apply heq
          rw [← hx.1 ⟨a, b⟩, ← hy.1 ⟨c1, d⟩]

end

theorem mem_relatives (a b : Int) (ha : a = -1 ∨ a = 0 ∨ a = 1) (hb : b = -1 ∨ b = 0 ∨ b = 1) :
    (a, b) ∈ relatives := by
  rcases ha with rfl | rfl | rfl <;> rcases hb with rfl | rfl | rfl <;> decide

theorem relatives_mem {p : Int × Int} (h : p ∈ relatives) :
    (p.1 = -1 ∨ p.1 = 0 ∨ p.1 = 1) ∧ (p.2 = -1 ∨ p.2 = 0 ∨ p.2 = 1) := by
  simp only [relatives, List.mem_cons, List.not_mem_nil, or_false] at h
  rcases h with rfl | rfl | rfl | rfl | rfl | rfl | rfl | rfl | rfl <;> decide

theorem place_pos {h n : Nat} (hh : 0 < h) (hn : 0 < n) (rel : Int) : 0 < (place h n rel).1 := by
  unfold place
  split
  · exact hh
  · split
    · exact hn
    · exact hh

theorem place_width {h n : Nat} (hh : 0 < h) {rel : Int} (hr : rel = -1 ∨ rel = 0 ∨ rel = 1) :
    (if rel * (h : Int) = 0 then n else (rel * (h : Int)).natAbs) = (place h n rel).1 := by
  unfold place
  rcases hr with rfl | rfl | rfl
  · rw [if_neg (by omega), if_pos (by decide)]; simp
  · simp
  · rw [if_neg (by omega), if_neg (by decide), if_neg (by decide)]; simp

theorem mul_neg_iff {h : Nat} (hh : 0 < h) {rel : Int} (hr : rel = -1 ∨ rel = 0 ∨ rel = 1) :
    rel * (h : Int) < 0 ↔ rel < 0 := by
  rcases hr with rfl | rfl | rfl <;> simp <;> omega

/-- First column that is read. -/
def offX (g : Grid) (cx : Nat) (tx rel : Int) : Int :=
  if rel < 0 then g.W - g.h else (neighbour cx rel g.kx tx).1 * g.W

/-- First row that is read. -/
def offY (g : Grid) (cy : Nat) (ty rel : Int) : Int :=
  if rel < 0 then (neighbour cy rel g.ky ty).1 * g.H + g.H - g.h else (neighbour cy rel g.ky ty).1 * g.H

/-- What is copied for a neighbour, for tiles of one image. -/
def part (g : Grid) (w : Int → Int → Int) (has : Int → Int → Bool) (chunk : Nat × Nat) (tile : Int × Int)
    (p : Int × Int) : Option (Nat → Int) :=
  if has (tileOf g chunk tile p).1 (tileOf g chunk tile p).2 then
    some fun i =>
      w ((tileOf g chunk tile p).2 * ((g.ky * g.H : Nat) : Int) +
          (offY g chunk.2 tile.2 p.2 + ((i / (place g.h g.W p.1).1 : Nat) : Int)))
        ((tileOf g chunk tile p).1 * ((g.kx * g.W : Nat) : Int) +
          (offX g chunk.1 tile.1 p.1 + ((i % (place g.h g.W p.1).1 : Nat) : Int)))
  else none

theorem offX_bounds {g : Grid} {cx : Nat} {tx rel : Int} (hh : 0 < g.h) (hw : g.h ≤ g.W) (hc : cx < g.kx)
    (hr : rel = -1 ∨ rel = 0 ∨ rel = 1) :
    0 ≤ offX g cx tx rel ∧ offX g cx tx rel + ((place g.h g.W rel).1 : Int) ≤ g.kx * g.W := by
  have hpos : (place g.h g.W rel).2 < g.W + g.h * 2 := by
    have := place_le g.h g.W rel
    have := place_pos hh (show 0 < g.W by omega) rel
    omega
  have hrel := (place_iff hpos hr).1 ⟨le_refl _, by have := place_pos hh (show 0 < g.W by omega) rel; omega⟩
  obtain ⟨a, b, -, -⟩ := dim_spec (t := tx) (show 0 < g.W by omega) hc hw hpos rel hrel _ rfl
  unfold offX
  by_cases h0 : rel < 0
  · rw [if_pos h0]
    unfold place
    rw [if_pos h0]
    constructor
    · omega
    · have : g.W ≤ g.kx * g.W := Nat.le_mul_of_pos_left _ (by omega)
      have h2 : (g.W : Int) ≤ g.kx * g.W := by exact_mod_cast this
      simp only
      omega
  · simp only [if_neg h0] at a b ⊢
    exact ⟨a, b⟩

theorem offY_bounds {g : Grid} {cy : Nat} {ty rel : Int} (hh : 0 < g.h) (hw : g.h ≤ g.H) (hc : cy < g.ky)
    (hr : rel = -1 ∨ rel = 0 ∨ rel = 1) :
    0 ≤ offY g cy ty rel ∧ offY g cy ty rel + ((place g.h g.H rel).1 : Int) ≤ g.ky * g.H := by
  have hpos : (place g.h g.H rel).2 < g.H + g.h * 2 := by
    have := place_le g.h g.H rel
    have := place_pos hh (show 0 < g.H by omega) rel
    omega
  have hrel := (place_iff hpos hr).1 ⟨le_refl _, by have := place_pos hh (show 0 < g.H by omega) rel; omega⟩
  obtain ⟨a, b, -, -⟩ := dim_spec (t := ty) (show 0 < g.H by omega) hc hw hpos rel hrel _ rfl
  exact ⟨a, b⟩

theorem read_part {g : Grid} {disc : List Char → Option Img} {pre post : List Char} {w : Int → Int → Int}
    {has : Int → Int → Bool} (hT : Tiled disc pre post (g.ky * g.H) (g.kx * g.W) w has)
    {chunk : Nat × Nat} {tile : Int × Int} (hh : 0 < g.h) (hW : g.h ≤ g.W) (hH : g.h ≤ g.H)
    (hcx : chunk.1 < g.kx) (hcy : chunk.2 < g.ky) {p : Int × Int} (hsh : Short (tileOf g chunk tile p))
    (h1 : p.1 = -1 ∨ p.1 = 0 ∨ p.1 = 1) (h2 : p.2 = -1 ∨ p.2 = 0 ∨ p.2 = 1) :
    (match disc (pre ++ tileName (tileOf g chunk tile p) ++ post) with
    | none => some none
    | some img => (readChunk g img (neighbour chunk.1 p.1 g.kx tile.1).1 (neighbour chunk.2 p.2 g.ky tile.2).1
        (p.1 * g.h) (p.2 * g.h)).map some) = some (part g w has chunk tile p) := by
  rw [show tileName (tileOf g chunk tile p) = tileName ((tileOf g chunk tile p).1, (tileOf g chunk tile p).2) from rfl, hT _ _ hsh.1 hsh.2]
  unfold part
  by_cases hhas : has (tileOf g chunk tile p).1 (tileOf g chunk tile p).2 = true
  · rw [if_pos hhas, if_pos hhas]
    obtain ⟨x0, x1⟩ := offX_bounds (tx := tile.1) hh hW hcx h1
    obtain ⟨y0, y1⟩ := offY_bounds (ty := tile.2) hh hH hcy h2
    have ew : window g (neighbour chunk.1 p.1 g.kx tile.1).1 (neighbour chunk.2 p.2 g.ky tile.2).1
        (p.1 * g.h) (p.2 * g.h) =
        (offX g chunk.1 tile.1 p.1, offY g chunk.2 tile.2 p.2, (place g.h g.W p.1).1, (place g.h g.H p.2).1) := by
      unfold window
      simp only [place_width hh h1, place_width hh h2, mul_neg_iff hh h1, mul_neg_iff hh h2]
      unfold offX offY
      rcases h1 with e | e | e <;> rcases h2 with e' | e' | e' <;> rw [e, e'] <;> simp <;> ring_nf <;> simp
    simp only [readChunk, ew, rasterIO]
    rw [if_neg (by omega)]
    simp only [Option.map_some, Option.some.injEq]
    funext i
    congr 1
    · push_cast
      rw [Int.toNat_of_nonneg y0]
    · push_cast
      rw [Int.toNat_of_nonneg x0]
  · rw [if_neg hhas, if_neg hhas]

theorem neighbour_zero {c k t : Int} (h0 : 0 ≤ c) (h1 : c < k) : neighbour c 0 k t = (c, t) := by
  unfold neighbour
  rw [if_neg (by omega), if_neg (by omega)]
  simp

theorem main_spec {g : Grid} {disc : List Char → Option Img} {pre post : List Char} {w : Int → Int → Int}
    {has : Int → Int → Bool} (hT : Tiled disc pre post (g.ky * g.H) (g.kx * g.W) w has) (hu : Unique pre post)
    {cx cy : Nat} {tx ty : Int} (hh : 0 < g.h) (hW : g.h ≤ g.W) (hH : g.h ≤ g.H)
    (hcx : cx < g.kx) (hcy : cy < g.ky) (hx : -999 < tx ∧ tx < 9999) (hy : -999 < ty ∧ ty < 9999)
    (ht : has tx ty = true) :
    ∃ m, readExtended g disc (pre ++ tileName (tx, ty) ++ post) (cx, cy) (tx, ty) = some m ∧
      ∀ r c, c < g.W + g.h * 2 → r < g.H + g.h * 2 →
        m (r * (g.W + g.h * 2) + c) =
          if has (((tx * g.kx + cx) * g.W + c - g.h) / ((g.kx * g.W : Nat) : Int))
              (((ty * g.ky + cy) * g.H + r - g.h) / ((g.ky * g.H : Nat) : Int)) then
            w ((ty * g.ky + cy) * g.H + r - g.h)
              (((tx * g.kx + cx) * g.W + c - g.h) -
                (if c < g.h then (neighbour cx (-1) g.kx tx).1 * g.W else 0))
          else g.nodata := by
  have nx0 : neighbour (cx : Int) 0 g.kx tx = (↑cx, tx) := neighbour_zero (by omega) (by exact_mod_cast hcx)
  have ny0 : neighbour (cy : Int) 0 g.ky ty = (↑cy, ty) := neighbour_zero (by omega) (by exact_mod_cast hcy)
  have hshort : ∀ p : Int × Int, (p.1 = -1 ∨ p.1 = 0 ∨ p.1 = 1) → (p.2 = -1 ∨ p.2 = 0 ∨ p.2 = 1) →
      Short (tileOf g (cx, cy) (tx, ty) p) := by
    intro p p1 p2
    have a := neighbour_spec (t := tx) (k := (g.kx : Int)) (Int.natCast_nonneg cx) (by exact_mod_cast hcx) p1
    have b := neighbour_spec (t := ty) (k := (g.ky : Int)) (Int.natCast_nonneg cy) (by exact_mod_cast hcy) p2
    unfold Short tileOf
    simp only
    omega
  have hc0 := read_part (chunk := (cx, cy)) (tile := (tx, ty)) (p := (0, 0)) hT hh hW hH hcx hcy
    (hshort _ (Or.inr (Or.inl rfl)) (Or.inr (Or.inl rfl))) (Or.inr (Or.inl rfl)) (Or.inr (Or.inl rfl))
  have et : tileOf g (cx, cy) (tx, ty) (0, 0) = (tx, ty) := by simp only [tileOf, nx0, ny0]
  rw [et, hT _ _ (by omega) (by omega), if_pos ht] at hc0
  simp only [nx0, ny0, Option.map_eq_some_iff, zero_mul] at hc0
  obtain ⟨ard, hard, hpart⟩ := hc0
  have hsrc : ∀ p ∈ relatives, source g disc pre post (cx, cy) (tx, ty) ard p =
      some (part g w has (cx, cy) (tx, ty) p) := by
    intro p hp
    obtain ⟨p1, p2⟩ := relatives_mem hp
    unfold source
    by_cases h0 : p.2 = 0 ∧ p.1 = 0
    · rw [if_pos h0]
      have : p = (0, 0) := Prod.ext h0.2 h0.1
      rw [this, ← hpart]
    · rw [if_neg h0]
      exact read_part hT hh hW hH hcx hcy (hshort p p1 p2) p1 p2
  obtain ⟨st, est, hst⟩ := fold_spec g disc pre post (cx, cy) (tx, ty) ard hu
    (part g w has (cx, cy) (tx, ty)) relatives ⟨fun _ => 0, pre ++ tileName (tx, ty) ++ post, tileName (tx, ty)⟩
    (tx, ty) ⟨⟨by omega, by omega⟩, ⟨by omega, by omega⟩⟩ rfl rfl
    (fun p hp => ⟨(relatives_mem hp).1, (relatives_mem hp).2, hshort p (relatives_mem hp).1 (relatives_mem hp).2,
      hsrc p hp⟩) (by decide)
  refine ⟨st.mosaic, ?_, ?_⟩
  · unfold readExtended
    rw [hT _ _ (by omega) (by omega), if_pos ht]
    simp only [hard]
    rw [if_pos hh]
    unfold addChunks
    have : name (tx, ty) = tileName (tx, ty) := rfl
    simp only [this]
    simp only at est
    rw [est]
    rfl
  · intro r c hc hr
    rw [hst r c hc hr, if_pos (mem_relatives _ _ (relOf_cases ..) (relOf_cases ..))]
    have rx := relOf_cases g.h g.W c
    obtain ⟨-, -, y3, y4⟩ := dim_spec (t := ty) (show 0 < g.H by omega) hcy hH hr _ rfl
      (offY g cy ty (relOf g.h g.H r)) rfl
    obtain ⟨-, -, x3, x4⟩ := dim_spec (t := tx) (show 0 < g.W by omega) hcx hW hc _ rfl _ rfl
    rw [x4, y4]
    unfold part
    have hnx := place_pos hh (show 0 < g.W by omega) (relOf g.h g.W c)
    have hlc := (place_iff hc rx).2 rfl
    have hlt : c - (place g.h g.W (relOf g.h g.W c)).2 < (place g.h g.W (relOf g.h g.W c)).1 := by omega
    simp only [tileOf]
    by_cases hhas : has (neighbour (cx : Int) (relOf g.h g.W c) g.kx tx).2
        (neighbour (cy : Int) (relOf g.h g.H r) g.ky ty).2 = true
    · simp only [hhas, if_true, valueOf]
      rw [mul_comm (r - _), Nat.mul_add_div hnx, Nat.div_eq_of_lt hlt, add_zero, Nat.mul_add_mod,
        Nat.mod_eq_of_lt hlt, y3]
      congr 1
      rw [← x3]
      unfold offX
      by_cases hch : c < g.h
      · have e : relOf g.h g.W c = -1 := if_pos hch
        rw [if_pos hch, e, if_pos (by decide), if_pos (by decide)]
        ring
      · have e : ¬ relOf g.h g.W c < 0 := by
          unfold relOf
          rw [if_neg hch]
          split <;> decide
        rw [if_neg hch, if_neg e, if_neg e]
        ring
    · simp only [hhas, valueOf]
      rfl

/-- C83: A chunk is read with `h` additional pixels on each side (not more than a chunk has). Every pixel of
the result is the pixel of the large image at that position, whichever tile or chunk it is in, and nodata if
that tile does not exist. Missing: the pixels west of the chunk if there are several chunks side by side, see
`c83_west_violated`. -/
theorem c83_seamless_partial {g : Grid} {disc : List Char → Option Img} {pre post : List Char} {w : Int → Int → Int}
    {has : Int → Int → Bool} (hT : Tiled disc pre post (g.ky * g.H) (g.kx * g.W) w has) (hu : Unique pre post)
    {cx cy : Nat} {tx ty : Int} (hh : 0 < g.h) (hW : g.h ≤ g.W) (hH : g.h ≤ g.H)
    (hcx : cx < g.kx) (hcy : cy < g.ky) (hx : -999 < tx ∧ tx < 9999) (hy : -999 < ty ∧ ty < 9999)
    (ht : has tx ty = true) :
    ∃ m, readExtended g disc (pre ++ tileName (tx, ty) ++ post) (cx, cy) (tx, ty) = some m ∧
      ∀ r c, c < g.W + g.h * 2 → r < g.H + g.h * 2 → (g.h ≤ c ∨ g.kx = 1 ∨ cx = 1) →
        m (r * (g.W + g.h * 2) + c) =
          pixel g.nodata (g.ky * g.H) (g.kx * g.W) w has
            ((ty * g.ky + cy) * g.H + r - g.h) ((tx * g.kx + cx) * g.W + c - g.h) := by
  obtain ⟨m, hm, hall⟩ := main_spec hT hu hh hW hH hcx hcy hx hy ht
  refine ⟨m, hm, fun r c hc hr hside => ?_⟩
  rw [hall r c hc hr]
  have : (if c < g.h then (neighbour cx (-1) g.kx tx).1 * (g.W : Int) else 0) = 0 := by
    by_cases hch : c < g.h
    · rw [if_pos hch]
      rcases hside with h | h | h
      · omega
      · have : cx = 0 := by omega
        rw [h, this]
        simp [neighbour]
      · unfold neighbour
        rw [if_neg (by omega), if_neg (by omega), h]
        simp
    · rw [if_neg hch]
  rw [this, sub_zero]
  rfl

/-- C83, violated: if there are several chunks side by side, the pixels west of a chunk are not those of the
large image at that position: they are taken from the first chunk of the tile of the western neighbour, i.e.
displaced by as many chunks as the western neighbour is away from the border of its tile. All chunks but
the second of each tile are affected. -/
theorem c83_west_violated {g : Grid} {disc : List Char → Option Img} {pre post : List Char} {w : Int → Int → Int}
    {has : Int → Int → Bool} (hT : Tiled disc pre post (g.ky * g.H) (g.kx * g.W) w has) (hu : Unique pre post)
    {cx cy : Nat} {tx ty : Int} (hh : 0 < g.h) (hW : g.h ≤ g.W) (hH : g.h ≤ g.H)
    (hcx : cx < g.kx) (hcy : cy < g.ky) (hx : -999 < tx ∧ tx < 9999) (hy : -999 < ty ∧ ty < 9999)
    (ht : has tx ty = true) (hk : 2 ≤ g.kx) (h1 : cx ≠ 1) :
    ∃ shift : Nat, 0 < shift ∧ ∃ m,
      readExtended g disc (pre ++ tileName (tx, ty) ++ post) (cx, cy) (tx, ty) = some m ∧
      ∀ r c, c < g.h → r < g.H + g.h * 2 →
        has (((tx * g.kx + cx) * g.W + c - g.h) / ((g.kx * g.W : Nat) : Int))
          (((ty * g.ky + cy) * g.H + r - g.h) / ((g.ky * g.H : Nat) : Int)) = true →
        m (r * (g.W + g.h * 2) + c) =
          w ((ty * g.ky + cy) * g.H + r - g.h) ((tx * g.kx + cx) * g.W + c - g.h - shift) := by
  obtain ⟨m, hm, hall⟩ := main_spec hT hu hh hW hH hcx hcy hx hy ht
  have hn : (neighbour (cx : Int) (-1) g.kx tx).1 = ((if cx = 0 then g.kx - 1 else cx - 1 : Nat) : Int) := by
    unfold neighbour
    by_cases h0 : cx = 0
    · rw [if_pos (by omega), if_pos h0]; simp only; omega
    · rw [if_neg (by omega), if_neg (by omega), if_neg h0]; simp only; omega
  refine ⟨(if cx = 0 then g.kx - 1 else cx - 1) * g.W, Nat.mul_pos ?_ (by omega), m, hm, fun r c hc hr hhas => ?_⟩
  · split <;> omega
  · rw [hall r c (by omega) hr, if_pos hhas, if_pos hc, hn]
    push_cast
    rfl

/-- C83: Without additional pixels, the chunk is the part of the tile. -/
theorem c83_plain {g : Grid} {disc : List Char → Option Img} {pre post : List Char} {w : Int → Int → Int}
    {has : Int → Int → Bool} (hT : Tiled disc pre post (g.ky * g.H) (g.kx * g.W) w has)
    {cx cy : Nat} {tx ty : Int} (hh : g.h = 0) (hcx : cx < g.kx) (hcy : cy < g.ky)
    (hx : -1000 < tx ∧ tx < 10000) (hy : -1000 < ty ∧ ty < 10000) (ht : has tx ty = true) :
    ∃ m, readExtended g disc (pre ++ tileName (tx, ty) ++ post) (cx, cy) (tx, ty) = some m ∧
      ∀ r c, c < g.W → r < g.H →
        m (r * g.W + c) = w ((ty * g.ky + cy) * g.H + r) ((tx * g.kx + cx) * g.W + c) := by
  have ew : window g cx cy 0 0 = (((cx * g.W : Nat) : Int), ((cy * g.H : Nat) : Int), g.W, g.H) := by
    simp [window]
  have b1 : (cx + 1) * g.W ≤ g.kx * g.W := Nat.mul_le_mul_right _ hcx
  have b2 : (cy + 1) * g.H ≤ g.ky * g.H := Nat.mul_le_mul_right _ hcy
  have b1' : ((cx * g.W : Nat) : Int) + g.W ≤ g.kx * g.W := by
    have : cx * g.W + g.W ≤ g.kx * g.W := by rw [Nat.succ_mul] at b1; exact b1
    exact_mod_cast this
  have b2' : ((cy * g.H : Nat) : Int) + g.H ≤ g.ky * g.H := by
    have : cy * g.H + g.H ≤ g.ky * g.H := by rw [Nat.succ_mul] at b2; exact b2
    exact_mod_cast this
  unfold readExtended
  rw [hT _ _ (by omega) (by omega), if_pos ht]
  simp only [readChunk, ew, rasterIO]
  rw [if_neg (by simp only [not_or, not_lt, gt_iff_lt]; exact ⟨by omega, by omega, b1', b2'⟩)]
  simp only [hh]
  rw [if_neg (by decide)]
  refine ⟨_, rfl, fun r c hc hr => ?_⟩
  simp only [Int.toNat_natCast]
  rw [mul_comm r, Nat.mul_add_div (by omega), Nat.div_eq_of_lt hc, Nat.mul_add_mod, Nat.mod_eq_of_lt hc]
  congr 1 <;> push_cast <;> ring

/-- The condition on the paths holds if no `X` occurs before the name of the tile. -/
theorem unique_of_noX {pre post : List Char} (h : 'X' ∉ pre) : Unique pre post := by
  intro t
  refine ⟨rfl, fun pre' suf' e => ?_⟩
  by_contra hlt
  apply h
  have e2 : (pre ++ tileName t ++ post)[pre'.length]? = some 'X' := by
    rw [e, List.append_assoc, List.getElem?_append_right (le_refl _)]
    simp [tileName]
  rw [List.append_assoc, List.getElem?_append_left (by omega)] at e2
  exact List.mem_of_getElem? e2

/-- C84: The file of another tile is the file with the same path in which only the name of the tile differs,
whatever tiles were asked for before. -/
theorem c84_rename {pre post : List Char} (hu : Unique pre post) {tx ty tx' ty' : Int}
    (hx : -1000 < tx ∧ tx < 10000) (hy : -1000 < ty ∧ ty < 10000)
    (hx' : -1000 < tx' ∧ tx' < 10000) (hy' : -1000 < ty' ∧ ty' < 10000) :
    rename (pre ++ tileName (tx, ty) ++ post) (tileName (tx, ty)) (tileName (tx', ty')) =
      some (pre ++ tileName (tx', ty') ++ post) :=
  rename_spec hu ⟨hx, hy⟩ ⟨hx', hy'⟩

/-- C84, violated: if the name of the tile occurs in the path earlier, e.g. as a directory of the datacube, that
occurrence is replaced, and the file that is looked for is not the one of the neighbouring tile. -/
theorem c84_rename_violated {pre mid post : List Char} {tx ty tx' ty' : Int} (hu : 'X' ∉ pre)
    (hx : -1000 < tx ∧ tx < 10000) (hy : -1000 < ty ∧ ty < 10000)
    (hx' : -1000 < tx' ∧ tx' < 10000) (hy' : -1000 < ty' ∧ ty' < 10000) :
    rename (pre ++ tileName (tx, ty) ++ (mid ++ tileName (tx, ty) ++ post)) (tileName (tx, ty))
        (tileName (tx', ty')) =
      some (pre ++ tileName (tx', ty') ++ (mid ++ tileName (tx, ty) ++ post)) :=
  rename_spec (unique_of_noX hu) ⟨hx, hy⟩ ⟨hx', hy'⟩

end Verif.Halo

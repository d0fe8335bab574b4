import Mathlib.Data.List.Nodup
import Mathlib.Data.List.Perm.Basic
import Mathlib.Tactic.Linarith
import Verif.FloatErr
import Verif.Train.Count
import Verif.Index.Lemmas
import Verif.Gas.Model

/-!
# C246, C247, C249: map of water vapour and of transmittance
-/

namespace Verif.Gas

open Verif.Float
open Verif.Train (nearest_ge nearest_le)
open Verif.Index (truncQ)

/-! ## Specification -/

/-- The block of a pixel: row and column of its upper left corner. -/
def blockOf (nx p : Nat) : Nat × Nat := (6 * (p / nx / 6), 6 * (p % nx / 6))

/-- Every row of blocks is processed by one thread, once. -/
def Schedule (ny : Nat) (assign : List (List Nat)) : Prop := assign.flatten.Perm (List.range (ny / 6))

/-! ## Blocks -/

theorem mem_cell {X nx a b p : Nat} (hx : nx = 6 * X) (hb : b < X) :
    p ∈ cell nx (6 * a) (6 * b) ↔ blockOf nx p = (6 * a, 6 * b) := by
  have hpos : 0 < nx := by omega
  unfold cell blockOf
  simp only [List.mem_flatMap, List.mem_map, List.mem_range, Prod.mk.injEq]
  constructor
  · rintro ⟨ii, hi, jj, hj, rfl⟩
    have hlt : 6 * b + jj < nx := by omega
    have e1 : ((6 * a + ii) * nx + 6 * b + jj) / nx = 6 * a + ii := by
      rw [Nat.add_assoc, Nat.mul_comm, Nat.mul_add_div hpos, Nat.div_eq_of_lt hlt, Nat.add_zero]
    have e2 : ((6 * a + ii) * nx + 6 * b + jj) % nx = 6 * b + jj := by
      rw [Nat.add_assoc, Nat.mul_comm, Nat.mul_add_mod, Nat.mod_eq_of_lt hlt]
    rw [e1, e2]
    omega
  · rintro ⟨h1, h2⟩
    refine ⟨p / nx % 6, by omega, p % nx % 6, by omega, ?_⟩
    have e1 : 6 * a + p / nx % 6 = p / nx := by omega
    have e2 : 6 * b + p % nx % 6 = p % nx := by omega
    rw [e1, Nat.add_assoc, e2, Nat.mul_comm]
    exact Nat.div_add_mod p nx

theorem mem_rowBlocks {X nx bi : Nat} (hx : nx = 6 * X) (b : Nat × Nat) :
    b ∈ rowBlocks nx bi ↔ b.1 = 6 * bi ∧ ∃ bj, bj < X ∧ b.2 = 6 * bj := by
  unfold rowBlocks
  have e : (nx + 5) / 6 = X := by omega
  rw [e, List.mem_map]
  constructor
  · rintro ⟨bj, h, rfl⟩; exact ⟨rfl, bj, List.mem_range.1 h, rfl⟩
  · rintro ⟨h1, bj, h2, h3⟩; exact ⟨bj, List.mem_range.2 h2, by rw [← h1, ← h3]⟩

/-- C246: the blocks cover every pixel of the image once, and nothing else. -/
theorem c246_blocks {nx ny X Y : Nat} (hx : nx = 6 * X) (hy : ny = 6 * Y) (p : Nat) :
    (p < nx * ny ↔ ∃ b ∈ (List.range ((ny + 5) / 6)).flatMap (rowBlocks nx), p ∈ cell nx b.1 b.2) ∧
    ∀ b ∈ (List.range ((ny + 5) / 6)).flatMap (rowBlocks nx), p ∈ cell nx b.1 b.2 → b = blockOf nx p := by
  have key : ∀ b ∈ (List.range ((ny + 5) / 6)).flatMap (rowBlocks nx), p ∈ cell nx b.1 b.2 →
      b = blockOf nx p ∧ p < nx * ny := by
    intro b hb hp
    obtain ⟨bi, hbi, hb⟩ := List.mem_flatMap.1 hb
    rw [List.mem_range] at hbi
    obtain ⟨h1, bj, h2, h3⟩ := (mem_rowBlocks hx b).1 hb
    rw [h1, h3, mem_cell hx h2] at hp
    refine ⟨by rw [hp, ← h1, ← h3], ?_⟩
    have h4 := congrArg Prod.fst hp
    unfold blockOf at h4
    dsimp only at h4
    have : p / nx < ny := by omega
    exact (Nat.div_lt_iff_lt_mul (by omega)).1 this |>.trans_eq (Nat.mul_comm ..)
  refine ⟨⟨fun hp => ?_, fun ⟨b, hb, hm⟩ => (key b hb hm).2⟩, fun b hb hm => (key b hb hm).1⟩
  have hpos : 0 < nx := Nat.pos_of_ne_zero fun h => by rw [h, Nat.zero_mul] at hp; omega
  have h1 : p / nx < ny := (Nat.div_lt_iff_lt_mul hpos).2 (by rwa [Nat.mul_comm])
  have h2 : p % nx < nx := Nat.mod_lt _ hpos
  refine ⟨blockOf nx p, List.mem_flatMap.2 ⟨p / nx / 6, List.mem_range.2 (by omega),
    (mem_rowBlocks hx _).2 ⟨rfl, p % nx / 6, by omega, rfl⟩⟩, ?_⟩
  exact (mem_cell (a := p / nx / 6) hx (by omega : p % nx / 6 < X)).2 rfl

/-! ## Estimates -/

theorem thread_sub (inp : Nat → Nat → Option Input) (est : ℚ → Input → ℚ) (w : ℚ) (bs : List (Nat × Nat)) :
    ((thread inp est w bs).map Prod.fst).Sublist bs := by
  induction bs generalizing w with
  | nil => exact List.Sublist.refl _
  | cons b bs ih =>
    rw [thread]
    cases inp b.1 b.2 with
    | none => exact (ih w).cons b
    | some x =>
      dsimp only
      split
      · exact (ih 3).cons b
      · exact (ih _).cons_cons b

theorem thread_range {inp : Nat → Nat → Option Input} {est : ℚ → Input → ℚ} {w : ℚ} {bs : List (Nat × Nat)}
    {e : (Nat × Nat) × ℚ} (h : e ∈ thread inp est w bs) : 0 < e.2 ∧ e.2 ≤ 7 ∧ ∃ x start, inp e.1.1 e.1.2 = some x ∧ e.2 = est start x := by
  induction bs generalizing w with
  | nil => cases h
  | cons b bs ih =>
    rw [thread] at h
    cases hi : inp b.1 b.2 with
    | none => rw [hi] at h; exact ih h
    | some x =>
      rw [hi] at h
      dsimp only at h
      split at h
      · exact ih h
      · rename_i hc
        push Not at hc
        rcases List.mem_cons.1 h with rfl | h
        · exact ⟨hc.2, hc.1, x, w, hi, rfl⟩
        · exact ih h

variable {rf rd : ℚ → ℚ} {est : ℚ → Input → ℚ} {s : Scene} {assign : List (List Nat)}

theorem estimates_nodup {Y : Nat} (hy : s.ny = 6 * Y) (hs : Schedule s.ny assign) :
    ((estimates rf rd est s assign).map Prod.fst).Nodup := by
  have h1 : ((estimates rf rd est s assign).map Prod.fst).Sublist (assign.flatten.flatMap (rowBlocks s.nx)) := by
    unfold estimates
    clear hs
    induction assign with
    | nil => exact List.Sublist.refl _
    | cons rows r ih =>
      rw [List.flatMap_cons, List.map_append, List.flatten_cons, List.flatMap_append]
      exact (thread_sub ..).append ih
  refine h1.nodup ?_
  have hp : (assign.flatten.flatMap (rowBlocks s.nx)).Perm ((List.range (s.ny / 6)).flatMap (rowBlocks s.nx)) :=
    hs.flatMap_right _
  rw [hp.nodup_iff, List.nodup_flatMap]
  refine ⟨fun bi _ => ?_, ?_⟩
  · unfold rowBlocks
    refine List.Nodup.map (fun a b h => ?_) List.nodup_range
    have := congrArg Prod.snd h
    dsimp only at this
    omega
  · refine List.Pairwise.imp_of_mem (fun {a b} _ _ hne => ?_) (List.nodup_range (n := s.ny / 6))
    show List.Disjoint _ _
    intro x hxa hxb
    unfold rowBlocks at hxa hxb
    obtain ⟨u, -, rfl⟩ := List.mem_map.1 hxa
    obtain ⟨v, -, hv⟩ := List.mem_map.1 hxb
    have := congrArg Prod.fst hv
    dsimp only at this
    exact hne (by omega)

theorem estimates_mem {X : Nat} (hx : s.nx = 6 * X) {e : (Nat × Nat) × ℚ}
    (h : e ∈ estimates rf rd est s assign) :
    0 < e.2 ∧ e.2 ≤ 7 ∧ (∃ a b, b < X ∧ e.1 = (6 * a, 6 * b)) ∧ ∃ x, input rf rd s e.1.1 e.1.2 = some x := by
  unfold estimates at h
  obtain ⟨rows, -, h⟩ := List.mem_flatMap.1 h
  obtain ⟨h1, h2, x, st, h3, -⟩ := thread_range h
  have hm := (thread_sub _ _ _ _).subset (List.mem_map_of_mem (f := Prod.fst) h)
  obtain ⟨bi, -, hb⟩ := List.mem_flatMap.1 hm
  obtain ⟨g1, bj, g2, g3⟩ := (mem_rowBlocks hx _).1 hb
  exact ⟨h1, h2, ⟨bi, bj, g2, by rw [← g1, ← g3]⟩, x, h3⟩

/-! ## Painting -/

theorem paint_none {X : Nat} (hx : s.nx = 6 * X) (acc : List ((Nat × Nat) × ℚ)) (p : Nat)
    (hm : ∀ e ∈ acc, ∃ a b, b < X ∧ e.1 = (6 * a, 6 * b))
    (h : (s.px p).off = true ∨ ∀ e ∈ acc, e.1 ≠ blockOf s.nx p) (f : Nat → Int) :
    acc.foldl (fun m e => fun p =>
      if p ∈ cell s.nx e.1.1 e.1.2 ∧ (s.px p).off = false then truncQ (rf (e.2 * 1000)) else m p) f p = f p := by
  induction acc generalizing f with
  | nil => rfl
  | cons e acc ih =>
    rw [List.foldl_cons, ih (fun e he => hm e (List.mem_cons_of_mem _ he))
      (h.imp id fun h e he => h e (List.mem_cons_of_mem _ he))]
    refine if_neg ?_
    rintro ⟨h1, h2⟩
    rcases h with h | h
    · rw [h] at h2; cases h2
    · obtain ⟨a, b, hb, he⟩ := hm e (by simp)
      rw [he] at h1
      exact h e (by simp) (he.trans ((mem_cell hx hb).1 h1).symm)

theorem paint_some {X : Nat} (hx : s.nx = 6 * X) (acc : List ((Nat × Nat) × ℚ)) (p : Nat) (w : ℚ)
    (hm : ∀ e ∈ acc, ∃ a b, b < X ∧ e.1 = (6 * a, 6 * b)) (hn : (acc.map Prod.fst).Nodup)
    (ho : (s.px p).off = false) (h : (blockOf s.nx p, w) ∈ acc) (f : Nat → Int) :
    acc.foldl (fun m e => fun p =>
      if p ∈ cell s.nx e.1.1 e.1.2 ∧ (s.px p).off = false then truncQ (rf (e.2 * 1000)) else m p) f p = truncQ (rf (w * 1000)) := by
  induction acc generalizing f with
  | nil => cases h
  | cons e acc ih =>
    rw [List.foldl_cons]
    rw [List.map_cons, List.nodup_cons] at hn
    rcases List.mem_cons.1 h with h | h
    · subst h
      rw [paint_none hx acc p (fun e he => hm e (List.mem_cons_of_mem _ he)) (Or.inr fun e he hc =>
        hn.1 (List.mem_map.2 ⟨e, he, hc⟩))]
      obtain ⟨a, b, hb, he⟩ := hm _ (List.mem_cons_self)
      dsimp only at he ⊢
      rw [if_pos ⟨by rw [he]; exact (mem_cell hx hb).2 he, ho⟩]
    · exact ih (fun e he => hm e (List.mem_cons_of_mem _ he)) hn.2 h _

theorem trunc_pos (hrf : ∀ x, Nearest 24 x (rf x)) {w : ℚ} (h1 : 1 / 1000 ≤ w) : 0 < truncQ (rf (w * 1000)) := by
  have h : (1 : ℚ) ≤ rf (w * 1000) := nearest_ge (hrf _) ⟨1, 0, by norm_num, by norm_num⟩ (by linarith)
  rw [Verif.Index.truncQ_eq, if_pos (by linarith)]
  exact Int.lt_of_lt_of_le Int.zero_lt_one (Int.le_floor.2 (by exact_mod_cast h))

/-- C246: a valid pixel whose block has an estimate (at least 0.001 cm) gets it, without the fill flag. -/
theorem c246_own {X Y : Nat} (hrf : ∀ x, Nearest 24 x (rf x)) (hx : s.nx = 6 * X) (hy : s.ny = 6 * Y)
    (hs : Schedule s.ny assign) (p : Nat) (ho : (s.px p).off = false) (w : ℚ) (hw : 1 / 1000 ≤ w)
    (h : (blockOf s.nx p, w) ∈ estimates rf rd est s assign) :
    waterVapor rf rd est s assign p = (truncQ (rf (w * 1000)), false) := by
  have hp : paint rf s (estimates rf rd est s assign) p = truncQ (rf (w * 1000)) :=
    paint_some hx _ p w (fun e he => (estimates_mem hx he).2.2.1) (estimates_nodup hy hs) ho h _
  unfold waterVapor
  dsimp only
  rw [if_neg (by have := List.length_pos_of_mem h; omega), if_pos (Or.inr (by rw [hp]; exact trunc_pos hrf hw)), hp]

/-- C246: a valid pixel whose block has none gets the mean of all estimates, with the fill flag. -/
theorem c246_filled {X : Nat} (hx : s.nx = 6 * X) (p : Nat) (ho : (s.px p).off = false)
    (h : ∀ w, (blockOf s.nx p, w) ∉ estimates rf rd est s assign) (hne : estimates rf rd est s assign ≠ []) :
    waterVapor rf rd est s assign p =
      (truncQ (rf (rf (((estimates rf rd est s assign).map Prod.snd).sum / (estimates rf rd est s assign).length) * 1000)), true) := by
  have hp : paint rf s (estimates rf rd est s assign) p = 0 :=
    paint_none hx _ p (fun e he => (estimates_mem hx he).2.2.1) (Or.inr fun e he hc => h e.2 (by rw [← hc]; exact he)) _
  unfold waterVapor
  dsimp only
  rw [if_neg (by rw [List.length_eq_zero_iff]; exact hne), if_neg (by rw [ho, hp]; decide)]
  rfl

/-- C246: a pixel without data gets nothing. -/
theorem c246_off {X : Nat} (hx : s.nx = 6 * X) (p : Nat) (ho : (s.px p).off = true) :
    waterVapor rf rd est s assign p = (0, false) := by
  have hp : paint rf s (estimates rf rd est s assign) p = 0 :=
    paint_none hx _ p (fun e he => (estimates_mem hx he).2.2.1) (Or.inl ho) _
  unfold waterVapor
  dsimp only
  rw [hp, ho]
  split <;> simp

/-- C246: only blocks with a usable pixel and with estimates above 0 and up to 7 cm count. -/
theorem c246_estimates {X : Nat} (hx : s.nx = 6 * X) {b : Nat × Nat} {w : ℚ}
    (h : (b, w) ∈ estimates rf rd est s assign) : 0 < w ∧ w ≤ 7 ∧
      ∃ p ∈ cell s.nx b.1 b.2, (s.px p).off = false ∧ (s.px p).shadow = false ∧ (s.px p).water = false ∧ 1500 ≤ (s.px p).nir := by
  obtain ⟨h1, h2, -, x, h3⟩ := estimates_mem hx h
  refine ⟨h1, h2, ?_⟩
  unfold input at h3
  dsimp only at h3
  by_cases he : (((cell s.nx b.1 b.2).map s.px).filter usable).length = 0
  · rw [if_pos he] at h3; cases h3
  · obtain ⟨q, hq⟩ := List.exists_mem_of_length_pos (Nat.pos_of_ne_zero he)
    rw [List.mem_filter, List.mem_map] at hq
    obtain ⟨⟨p, hp, rfl⟩, hu⟩ := hq
    refine ⟨p, hp, ?_⟩
    simpa [usable, and_assoc] using hu

/-- C246, violated: if there is no estimate at all, every pixel gets water vapour 0, without the fill flag. -/
theorem c246_none_violated (h : estimates rf rd est s assign = []) (p : Nat) : waterVapor rf rd est s assign p = (0, false) := by
  unfold waterVapor
  rw [h]
  rfl

/-- C246, violated: a valid pixel whose block has an estimate of at most 0.0005 cm does not get it, but the mean of all
estimates and the fill flag: the estimate is truncated to 0, which counts as no estimate (gas-ll.c:399, 433). -/
theorem c246_tiny_violated {X Y : Nat} (hrf : ∀ x, Nearest 24 x (rf x)) (hx : s.nx = 6 * X) (hy : s.ny = 6 * Y)
    (hs : Schedule s.ny assign) (p : Nat) (ho : (s.px p).off = false) (w : ℚ) (hw : w ≤ 1 / 2000)
    (h : (blockOf s.nx p, w) ∈ estimates rf rd est s assign) :
    waterVapor rf rd est s assign p =
      (truncQ (rf (rf (((estimates rf rd est s assign).map Prod.snd).sum / (estimates rf rd est s assign).length) * 1000)), true) := by
  have hp : paint rf s (estimates rf rd est s assign) p = truncQ (rf (w * 1000)) :=
    paint_some hx _ p w (fun e he => (estimates_mem hx he).2.2.1) (estimates_nodup hy hs) ho h _
  have h0 : 0 < w := (estimates_mem hx h).1
  have l : 0 ≤ rf (w * 1000) := nearest_ge (hrf _) ⟨0, 0, by norm_num, by norm_num⟩ (by linarith)
  have u : rf (w * 1000) ≤ 1 / 2 := nearest_le (hrf _) ⟨1, -1, by norm_num, by norm_num⟩ (by linarith)
  have z : truncQ (rf (w * 1000)) = 0 := by
    rw [Verif.Index.truncQ_eq, if_pos l, Int.floor_eq_iff]
    constructor <;> push_cast <;> linarith
  unfold waterVapor
  dsimp only
  rw [if_neg (by have := List.length_pos_of_mem h; omega), if_neg (by rw [hp, z, ho]; decide)]
  rfl

theorem usable_eq (s' : Scene) (l : List Nat)
    (h : ∀ p, (s.px p).off = (s'.px p).off ∧ ((s.px p).off = false → s'.px p = s.px p)) :
    (l.map s'.px).filter usable = (l.map s.px).filter usable := by
  induction l with
  | nil => rfl
  | cons p l ih =>
    rw [List.map_cons, List.map_cons, List.filter_cons, List.filter_cons, ih]
    cases ho : (s.px p).off with
    | false => rw [(h p).2 ho]
    | true =>
      have ho' : (s'.px p).off = true := (h p).1 ▸ ho
      rw [if_neg (by simp [usable, ho']), if_neg (by simp [usable, ho])]

/-- C246, violated: if the upper left pixel of a block has no data, there is an image with the same flags and the same values
in all pixels with data, for which the search gets another reflectance of the water vapour band. -/
theorem c246_corner_violated (hrf : ∀ x, Nearest 24 x (rf x)) (hrd : ∀ x, Nearest 53 x (rd x)) {i j : Nat} {x : Input}
    (h : input rf rd s i j = some x) (hc : (s.px (i * s.nx + j)).off = true) :
    ∃ s' : Scene, s'.nx = s.nx ∧ s'.ny = s.ny ∧ s'.view = s.view ∧
      (∀ p, (s'.px p).off = (s.px p).off ∧ ((s.px p).off = false → s'.px p = s.px p)) ∧
      ∃ x', input rf rd s' i j = some x' ∧ x'.measure ≠ x.measure := by
  have key : ∀ v : Int, rf (rd ((v : ℚ) / 10000)) ≠ x.measure → ∃ s' : Scene, s'.nx = s.nx ∧ s'.ny = s.ny ∧ s'.view = s.view ∧
      (∀ p, (s'.px p).off = (s.px p).off ∧ ((s.px p).off = false → s'.px p = s.px p)) ∧
      ∃ x', input rf rd s' i j = some x' ∧ x'.measure ≠ x.measure := by
    intro v hv
    have hpx : ∀ p, ((if p = i * s.nx + j then { s.px p with vapor := v } else s.px p) : Px).off = (s.px p).off ∧
        ((s.px p).off = false → (if p = i * s.nx + j then { s.px p with vapor := v } else s.px p) = s.px p) := by
      intro p
      by_cases hp : p = i * s.nx + j
      · rw [if_pos hp]
        refine ⟨rfl, fun hf => ?_⟩
        rw [hp, hc] at hf
        exact absurd hf (by decide)
      · rw [if_neg hp]
        exact ⟨rfl, fun _ => rfl⟩
    refine ⟨⟨s.nx, s.ny, fun p => if p = i * s.nx + j then { s.px p with vapor := v } else s.px p, s.view⟩, rfl, rfl, rfl,
      hpx, ?_⟩
    have e := usable_eq (s := s)
      ⟨s.nx, s.ny, fun p => if p = i * s.nx + j then { s.px p with vapor := v } else s.px p, s.view⟩ (cell s.nx i j)
      (fun p => ⟨(hpx p).1.symm, (hpx p).2⟩)
    unfold input at h ⊢
    dsimp only at h e ⊢
    rw [e]
    by_cases hl : (((cell s.nx i j).map s.px).filter usable).length = 0
    · rw [if_pos hl] at h; cases h
    · rw [if_neg hl] at h ⊢
      obtain ⟨g, hg, -⟩ := Option.map_eq_some_iff.1 h
      rw [hg]
      exact ⟨_, rfl, by simpa using hv⟩
  have r0 : rf (rd (((0 : Int) : ℚ) / 10000)) = 0 := by
    have z : ∀ {k : Nat} {r : ℚ → ℚ}, (∀ x, Nearest k x (r x)) → r 0 = 0 := fun hr =>
      eq_of_nearest_rep ⟨0, 0, by positivity, by simp⟩ (hr 0)
    rw [Int.cast_zero, zero_div, z hrd, z hrf]
  have r1 : rf (rd (((10000 : Int) : ℚ) / 10000)) = 1 := by
    have e : (((10000 : Int) : ℚ) / 10000) = 1 := by norm_num
    rw [e, eq_of_nearest_rep ⟨1, 0, by norm_num, by norm_num⟩ (hrd 1), eq_of_nearest_rep ⟨1, 0, by norm_num, by norm_num⟩ (hrf 1)]
  by_cases hm : x.measure = 0
  · exact key 10000 (by rw [r1, hm]; norm_num)
  · exact key 0 (by rw [r0]; exact fun h => hm h.symm)

/-- C246: apart from this, only pixels with data are used. (Missing: see `c246_corner_violated`.) -/
theorem c246_valid_partial (s' : Scene) (hn : s'.nx = s.nx) (i j : Nat) (hv : s'.view i j = s.view i j)
    (hc : s'.px (i * s.nx + j) = s.px (i * s.nx + j))
    (h : ∀ p, (s.px p).off = (s'.px p).off ∧ ((s.px p).off = false → s'.px p = s.px p)) :
    input rf rd s' i j = input rf rd s i j := by
  have e : ((cell s'.nx i j).map s'.px).filter usable = ((cell s.nx i j).map s.px).filter usable := by
    rw [hn]
    generalize cell s.nx i j = l
    induction l with
    | nil => rfl
    | cons p l ih =>
      rw [List.map_cons, List.map_cons, List.filter_cons, List.filter_cons, ih]
      cases ho : (s.px p).off with
      | false => rw [(h p).2 ho]
      | true =>
        have ho' : (s'.px p).off = true := (h p).1 ▸ ho
        simp [usable, ho, ho']
  unfold input
  dsimp only
  rw [e, hn, hv, hc]

/-! ## C247 -/

theorem thread_free {inp : Nat → Nat → Option Input} {f : Input → ℚ} (w : ℚ) (bs : List (Nat × Nat)) :
    thread inp (fun _ => f) w bs = bs.filterMap fun b => (inp b.1 b.2).bind fun x =>
      if f x > 7 ∨ f x ≤ 0 then none else some (b, f x) := by
  induction bs generalizing w with
  | nil => rfl
  | cons b bs ih =>
    rw [thread, List.filterMap_cons]
    cases inp b.1 b.2 with
    | none => exact ih w
    | some x =>
      by_cases hc : f x > 7 ∨ f x ≤ 0
      · simp [hc, ih]
      · simp [hc, ih]

/-- C247: if the search did not depend on its start value, the result would not depend on how the threads share the rows.
(Missing: it does, see `c247_threads_violated`.) -/
theorem c247_threads_partial {X Y : Nat} (hx : s.nx = 6 * X) (hy : s.ny = 6 * Y) (f : Input → ℚ)
    (assign' : List (List Nat)) (hs : Schedule s.ny assign) (hs' : Schedule s.ny assign') (p : Nat) :
    waterVapor rf rd (fun _ => f) s assign p = waterVapor rf rd (fun _ => f) s assign' p := by
  have hf : ∀ assign : List (List Nat), estimates rf rd (fun _ => f) s assign =
      (assign.flatten.flatMap (rowBlocks s.nx)).filterMap fun b => (input rf rd s b.1 b.2).bind fun x =>
        if f x > 7 ∨ f x ≤ 0 then none else some (b, f x) := by
    intro assign
    unfold estimates
    induction assign with
    | nil => rfl
    | cons rows r ih =>
      rw [List.flatMap_cons, ih, thread_free, List.flatten_cons, List.flatMap_append, List.filterMap_append]
  have hperm : (estimates rf rd (fun _ => f) s assign).Perm (estimates rf rd (fun _ => f) s assign') := by
    rw [hf, hf]
    exact ((hs.trans hs'.symm).flatMap_right _).filterMap _
  have hlen := hperm.length_eq
  have hsum : ((estimates rf rd (fun _ => f) s assign).map Prod.snd).sum =
      ((estimates rf rd (fun _ => f) s assign').map Prod.snd).sum := (hperm.map _).sum_eq
  have hpaint : paint rf s (estimates rf rd (fun _ => f) s assign) p = paint rf s (estimates rf rd (fun _ => f) s assign') p := by
    unfold paint
    by_cases ho : (s.px p).off = true
    · rw [paint_none hx _ p (fun e he => (estimates_mem hx he).2.2.1) (Or.inl ho),
        paint_none hx _ p (fun e he => (estimates_mem hx he).2.2.1) (Or.inl ho)]
    · have ho : (s.px p).off = false := by simpa using ho
      by_cases h : ∃ w, (blockOf s.nx p, w) ∈ estimates rf rd (fun _ => f) s assign
      · obtain ⟨w, h⟩ := h
        rw [paint_some hx _ p w (fun e he => (estimates_mem hx he).2.2.1) (estimates_nodup hy hs) ho h,
          paint_some hx _ p w (fun e he => (estimates_mem hx he).2.2.1) (estimates_nodup hy hs') ho (hperm.subset h)]
      · push Not at h
        rw [paint_none hx _ p (fun e he => (estimates_mem hx he).2.2.1) (Or.inr fun e he hc => h e.2 (by rw [← hc]; exact he)),
          paint_none hx _ p (fun e he => (estimates_mem hx he).2.2.1)
            (Or.inr fun e he hc => h e.2 (by rw [← hc]; exact hperm.symm.subset he))]
  unfold waterVapor average
  dsimp only
  rw [hpaint, hlen, hsum]

/-- C247, violated: the search of a block starts from the result of the block before, of the same thread. If the search from
there ends elsewhere than from the default, then the same image (here two blocks below each other) has different water vapour
with one thread and with two. -/
theorem c247_threads_violated (hrf : ∀ x, Nearest 24 x (rf x)) (hx : s.nx = 6) (hy : s.ny = 12) (a b : Input)
    (ha : input rf rd s 0 0 = some a) (hb : input rf rd s 6 0 = some b)
    (h1 : 0 < est 3 a ∧ est 3 a ≤ 7) (h2 : 1 / 1000 ≤ est 3 b ∧ est 3 b ≤ 7)
    (h3 : 1 / 1000 ≤ est (est 3 a) b ∧ est (est 3 a) b ≤ 7)
    (hd : truncQ (rf (est 3 b * 1000)) ≠ truncQ (rf (est (est 3 a) b * 1000))) :
    Schedule s.ny [[0, 1]] ∧ Schedule s.ny [[0], [1]] ∧
    ∃ p, waterVapor rf rd est s [[0, 1]] p ≠ waterVapor rf rd est s [[0], [1]] p := by
  have s1 : Schedule s.ny [[0, 1]] := by rw [hy]; exact List.Perm.refl _
  have s2 : Schedule s.ny [[0], [1]] := by rw [hy]; exact List.Perm.refl _
  have hr : ∀ bi, rowBlocks s.nx bi = [(6 * bi, 0)] := by intro bi; rw [hx]; rfl
  have na : ¬ (est 3 a > 7 ∨ est 3 a ≤ 0) := by push Not; exact ⟨h1.2, h1.1⟩
  have nb : ¬ (est 3 b > 7 ∨ est 3 b ≤ 0) := by push Not; exact ⟨h2.2, by linarith⟩
  have nc : ¬ (est (est 3 a) b > 7 ∨ est (est 3 a) b ≤ 0) := by push Not; exact ⟨h3.2, by linarith⟩
  have e1 : estimates rf rd est s [[0, 1]] = [((0, 0), est 3 a), ((6, 0), est (est 3 a) b)] := by
    simp only [estimates, List.flatMap_cons, List.flatMap_nil, List.append_nil, hr]
    simp [thread, ha, hb, na, nc]
  have e2 : estimates rf rd est s [[0], [1]] = [((0, 0), est 3 a), ((6, 0), est 3 b)] := by
    simp only [estimates, List.flatMap_cons, List.flatMap_nil, List.append_nil, hr]
    simp [thread, ha, hb, na, nb]
  have hX : s.nx = 6 * 1 := hx
  obtain ⟨-, -, p, hp, ho, -⟩ := c246_estimates (b := (6, 0)) (w := est 3 b) hX (by rw [e2]; simp : _ ∈ estimates rf rd est s [[0], [1]])
  have hbp : blockOf s.nx p = (6, 0) := (mem_cell (a := 1) (b := 0) hX (by omega)).1 hp
  refine ⟨s1, s2, p, ?_⟩
  rw [c246_own (Y := 2) hrf hX hy s1 p ho (est (est 3 a) b) h3.1 (by rw [hbp, e1]; simp),
    c246_own (Y := 2) hrf hX hy s2 p ho (est 3 b) h2.1 (by rw [hbp, e2]; simp)]
  intro hc
  exact hd (congrArg Prod.fst hc).symm

/-! ## C249 -/

theorem transmittance_eq {X Y : Nat} (hx : s.nx = 6 * X) (hy : s.ny = 6 * Y) (tg : Int → Nat → ℚ) (wvp : Nat → Int) (p g : Nat)
    (hp : p < s.nx * s.ny) (ho : (s.px p).off = false) (hg : s.view (blockOf s.nx p).1 (blockOf s.nx p).2 = some g) :
    transmittance rf rd s tg wvp p =
      truncQ (rf (tg (vaporIndex rf rd (wvp ((blockOf s.nx p).1 * s.nx + (blockOf s.nx p).2))) g * 10000)) := by
  obtain ⟨h1, h2⟩ := c246_blocks hx hy p
  obtain ⟨b, hb, hm⟩ := h1.1 hp
  have hbp := h2 b hb hm
  unfold transmittance
  generalize ((List.range ((s.ny + 5) / 6)).flatMap (rowBlocks s.nx)) = l at hb h2
  have gen : ∀ (l : List (Nat × Nat)) (f : Nat → Int), (∀ b ∈ l, p ∈ cell s.nx b.1 b.2 → b = blockOf s.nx p) →
      (b ∈ l ∨ f p = truncQ (rf (tg (vaporIndex rf rd (wvp ((blockOf s.nx p).1 * s.nx + (blockOf s.nx p).2))) g * 10000))) →
      l.foldl (fun m b => fun p =>
        match s.view b.1 b.2 with
        | none => m p
        | some g =>
          if p ∈ cell s.nx b.1 b.2 ∧ (s.px p).off = false then
            truncQ (rf (tg (vaporIndex rf rd (wvp (b.1 * s.nx + b.2))) g * 10000))
          else m p) f p = truncQ (rf (tg (vaporIndex rf rd (wvp ((blockOf s.nx p).1 * s.nx + (blockOf s.nx p).2))) g * 10000)) := by
    intro l
    induction l with
    | nil =>
      intro f _ h
      rcases h with h | h
      · cases h
      · exact h
    | cons c l ih =>
      intro f hu h
      rw [List.foldl_cons]
      refine ih _ (fun b hb => hu b (List.mem_cons_of_mem _ hb)) ?_
      by_cases hc : p ∈ cell s.nx c.1 c.2
      · right
        have hcb := hu c (by simp) hc
        rw [hcb, hg]
        dsimp only
        rw [if_pos ⟨by rw [← hcb]; exact hc, ho⟩]
      · rcases h with h | h
        · rcases List.mem_cons.1 h with h | h
          · rw [h] at hm; exact absurd hm hc
          · exact Or.inl h
        · right
          rw [← h]
          cases s.view c.1 c.2 with
          | none => rfl
          | some g => exact if_neg fun h => hc h.1
  exact gen l _ h2 (Or.inl hb)

/-- C249: a valid pixel gets the transmittance for its own water vapour, if the upper left pixel of its block is valid, too.
(Missing: see `c249_corner_violated`.) -/
theorem c249_own_partial {X Y : Nat} (hrf : ∀ x, Nearest 24 x (rf x)) (hx : s.nx = 6 * X) (hy : s.ny = 6 * Y)
    (hs : Schedule s.ny assign) (tg : Int → Nat → ℚ) (p g : Nat)
    (hp : p < s.nx * s.ny) (ho : (s.px p).off = false) (hg : s.view (blockOf s.nx p).1 (blockOf s.nx p).2 = some g)
    (hc : (s.px ((blockOf s.nx p).1 * s.nx + (blockOf s.nx p).2)).off = false)
    (hw : ∀ e ∈ estimates rf rd est s assign, 1 / 1000 ≤ e.2) :
    transmittance rf rd s tg (fun q => (waterVapor rf rd est s assign q).1) p =
      truncQ (rf (tg (vaporIndex rf rd (waterVapor rf rd est s assign p).1) g * 10000)) := by
  rw [transmittance_eq hx hy tg _ p g hp ho hg]
  have hpos : 0 < s.nx := Nat.pos_of_ne_zero fun h => by rw [h, Nat.zero_mul] at hp; omega
  have hlt : (blockOf s.nx p).2 < s.nx := by
    have : p % s.nx < s.nx := Nat.mod_lt _ hpos
    unfold blockOf; dsimp only; omega
  have hb : blockOf s.nx ((blockOf s.nx p).1 * s.nx + (blockOf s.nx p).2) = blockOf s.nx p := by
    have e1 : ((blockOf s.nx p).1 * s.nx + (blockOf s.nx p).2) / s.nx = (blockOf s.nx p).1 := by
      rw [Nat.mul_comm, Nat.mul_add_div hpos, Nat.div_eq_of_lt hlt, Nat.add_zero]
    have e2 : ((blockOf s.nx p).1 * s.nx + (blockOf s.nx p).2) % s.nx = (blockOf s.nx p).2 := by
      rw [Nat.mul_comm, Nat.mul_add_mod, Nat.mod_eq_of_lt hlt]
    have e3 : blockOf s.nx ((blockOf s.nx p).1 * s.nx + (blockOf s.nx p).2) =
      (6 * (((blockOf s.nx p).1 * s.nx + (blockOf s.nx p).2) / s.nx / 6),
        6 * (((blockOf s.nx p).1 * s.nx + (blockOf s.nx p).2) % s.nx / 6)) := rfl
    rw [e3, e1, e2]
    unfold blockOf
    dsimp only
    rw [Nat.mul_div_cancel_left _ (by decide), Nat.mul_div_cancel_left _ (by decide)]
  have : waterVapor rf rd est s assign ((blockOf s.nx p).1 * s.nx + (blockOf s.nx p).2) = waterVapor rf rd est s assign p := by
    by_cases hne : estimates rf rd est s assign = []
    · rw [c246_none_violated hne, c246_none_violated hne]
    · by_cases h : ∃ w, (blockOf s.nx p, w) ∈ estimates rf rd est s assign
      · obtain ⟨w, h⟩ := h
        rw [c246_own hrf hx hy hs p ho w (hw _ h) h, c246_own hrf hx hy hs _ hc w (hw _ h) (by rw [hb]; exact h)]
      · push Not at h
        rw [c246_filled hx p ho h hne, c246_filled hx _ hc (by rw [hb]; exact h) hne]
  rw [this]

/-- C249, violated: if the upper left pixel of a block has no data, all pixels of the block get the transmittance of an
atmosphere without water vapour, whatever their own water vapour is. -/
theorem c249_corner_violated {X Y : Nat} (hrf : ∀ x, Nearest 24 x (rf x)) (hrd : ∀ x, Nearest 53 x (rd x))
    (hx : s.nx = 6 * X) (hy : s.ny = 6 * Y) (tg : Int → Nat → ℚ) (p g : Nat)
    (hp : p < s.nx * s.ny) (ho : (s.px p).off = false) (hg : s.view (blockOf s.nx p).1 (blockOf s.nx p).2 = some g)
    (hc : (s.px ((blockOf s.nx p).1 * s.nx + (blockOf s.nx p).2)).off = true) :
    transmittance rf rd s tg (fun q => (waterVapor rf rd est s assign q).1) p = truncQ (rf (tg 0 g * 10000)) := by
  rw [transmittance_eq hx hy tg _ p g hp ho hg, c246_off hx _ hc]
  have z : ∀ {k : Nat} {r : ℚ → ℚ}, (∀ x, Nearest k x (r x)) → r 0 = 0 := by
    intro k r hr
    exact (eq_of_nearest_rep ⟨0, 0, by positivity, by simp⟩ (hr 0))
  have : vaporIndex rf rd 0 = 0 := by
    unfold vaporIndex index
    rw [Int.cast_zero, zero_div, z hrd, z hrf, zero_div, z hrd]
    rfl
  rw [this]

/-! ## Examples -/

/-- An image of two blocks; the first pixel of the second one has no data. -/
def small : Scene := ⟨6, 12, fun p => ⟨decide (p = 36), false, false, 2000, 1500, 0⟩, fun _ _ => some 0⟩

example : Schedule small.ny [[1], [0]] := by
  unfold Schedule
  exact List.Perm.swap ..

example : (36 : Nat) < small.nx * small.ny ∧ (small.px 37).off = false ∧ (small.px 36).off = true ∧ blockOf 6 37 = (6, 0) := by
  decide

example : estimates id id (fun w _ => w / 2) small [[0, 1]] = [((0, 0), 3 / 2), ((6, 0), 3 / 4)] := by
  have h : ∀ i j, input id id small i j ≠ none → ∃ x, input id id small i j = some x := by
    intro i j h; exact Option.ne_none_iff_exists'.1 h
  obtain ⟨a, ha⟩ := h 0 0 (by unfold input; dsimp only; rw [if_neg (by decide +kernel)]; simp [small])
  obtain ⟨b, hb⟩ := h 6 0 (by unfold input; dsimp only; rw [if_neg (by decide +kernel)]; simp [small])
  have hr : ∀ bi, rowBlocks small.nx bi = [(6 * bi, 0)] := fun bi => rfl
  simp only [estimates, List.flatMap_cons, List.flatMap_nil, List.append_nil, hr]
  simp only [thread, ha, hb, List.cons_append, List.nil_append]
  norm_num

end Verif.Gas

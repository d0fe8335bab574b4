import Mathlib.Algebra.Order.Archimedean.Basic
import Verif.Tile.Spec
import Verif.Libc.Lemmas

/-! # Lemmas about the search loops -/

namespace Verif.Tile
open Spec

theorem shiftUp_eq (x size : ℚ) (inc : ℤ) (n : Nat) (tx : ℚ) (px : ℤ)
    (h : ∀ k : Nat, k < n → tx + k * size < x) (hn : x ≤ tx + n * size) :
    shiftUp x size inc tx px = some (tx + n * size, px + n * inc) := by
  induction n generalizing tx px with
  | zero =>
    rw [shiftUp, if_neg (by simp at hn; simpa using hn)]; simp
  | succ n ih =>
    rw [shiftUp, if_pos (by simpa using h 0 (by omega)),
      ih (tx + size) (px + inc) (fun k hk => by
        have := h (k + 1) (by omega); push_cast at this; linarith)
        (by push_cast at hn; linarith)]
    push_cast
    simp only [Option.some.injEq, Prod.mk.injEq]
    constructor <;> ring

theorem shiftDown_eq (x size : ℚ) (inc : ℤ) (n : Nat) (tx : ℚ) (px : ℤ)
    (h : ∀ k : Nat, k < n → x < tx - k * size) (hn : tx - n * size ≤ x) :
    shiftDown x size inc tx px = some (tx - n * size, px + n * inc) := by
  induction n generalizing tx px with
  | zero =>
    rw [shiftDown, if_neg (by simp at hn; simpa using hn)]; simp
  | succ n ih =>
    rw [shiftDown, if_pos (by simpa using h 0 (by omega)),
      ih (tx - size) (px + inc) (fun k hk => by
        have := h (k + 1) (by omega); push_cast at this; linarith)
        (by push_cast at hn; linarith)]
    push_cast
    simp only [Option.some.injEq, Prod.mk.injEq]
    constructor <;> ring

theorem alignRight_eq (ulx res : ℚ) (n : Nat) (t : ℚ)
    (h : ∀ k : Nat, k < n → t + k * res < ulx) (hn : ulx ≤ t + n * res) :
    alignRight ulx res t = some (t + n * res) := by
  induction n generalizing t with
  | zero => rw [alignRight, if_neg (by simp at hn; simpa using hn)]; simp
  | succ n ih =>
    rw [alignRight, if_pos (by simpa using h 0 (by omega)),
      ih (t + res) (fun k hk => by
        have := h (k + 1) (by omega); push_cast at this; linarith)
        (by push_cast at hn; linarith)]
    push_cast
    simp only [Option.some.injEq]; ring

theorem alignDown_eq (uly res : ℚ) (n : Nat) (t : ℚ)
    (h : ∀ k : Nat, k < n → uly < t - k * res) (hn : t - n * res ≤ uly) :
    alignDown uly res t = some (t - n * res) := by
  induction n generalizing t with
  | zero => rw [alignDown, if_neg (by simp at hn; simpa using hn)]; simp
  | succ n ih =>
    rw [alignDown, if_pos (by simpa using h 0 (by omega)),
      ih (t - res) (fun k hk => by
        have := h (k + 1) (by omega); push_cast at this; linarith)
        (by push_cast at hn; linarith)]
    push_cast
    simp only [Option.some.injEq]; ring

/-- The number of steps a search loop needs. -/
theorem exists_steps (size d : ℚ) (hs : 0 < size) :
    ∃ n : Nat, (∀ k : Nat, k < n → k * size < d) ∧ d ≤ n * size := by
  have hex : ∃ n : Nat, d ≤ n * size := by
    obtain ⟨n, hn⟩ := Archimedean.arch d hs
    exact ⟨n, by simpa using hn⟩
  classical
  refine ⟨Nat.find hex, fun k hk => ?_, Nat.find_spec hex⟩
  have := Nat.find_min hex hk
  exact not_le.1 this

theorem findX_spec (o s x : ℚ) (hs : 0 < s) :
    ∃ i : ℤ, findX o s x = some (o + i * s, i) ∧
      ((0 < i ∧ o + i * s < x ∧ x ≤ o + (i + 1) * s) ∨
       (i = 0 ∧ o ≤ x ∧ x ≤ o + s) ∨
       (i < 0 ∧ o + i * s ≤ x ∧ x < o + (i + 1) * s)) := by
  unfold findX
  by_cases h1 : x > o
  · rw [if_pos h1]
    obtain ⟨n, hlt, hle⟩ := exists_steps s (x - o) hs
    rw [shiftUp_eq x s 1 n o 0 (fun k hk => by have := hlt k hk; linarith) (by linarith)]
    have hn : 0 < n := by
      rcases Nat.eq_zero_or_pos n with h | h
      · subst h; simp at hle; linarith
      · exact h
    refine ⟨(n : ℤ) - 1, ?_, ?_⟩
    · simp only [Option.bind_some, Option.some.injEq, Prod.mk.injEq]
      push_cast
      constructor <;> ring
    · have hm := hlt (n - 1) (by omega)
      rw [Nat.cast_sub (by omega)] at hm
      push_cast at hm ⊢
      rcases Nat.lt_or_ge 1 n with h | h
      · left; refine ⟨by omega, by linarith, by linarith⟩
      · have : n = 1 := by omega
        subst this
        right; left; refine ⟨by norm_num, by linarith, by push_cast at hle; linarith⟩
  · rw [if_neg h1]
    by_cases h2 : x < o
    · rw [if_pos h2]
      obtain ⟨n, hlt, hle⟩ := exists_steps s (o - x) hs
      rw [shiftDown_eq x s (-1) n o 0 (fun k hk => by have := hlt k hk; linarith) (by linarith)]
      have hn : 0 < n := by
        rcases Nat.eq_zero_or_pos n with h | h
        · subst h; simp at hle; linarith
        · exact h
      refine ⟨-(n : ℤ), ?_, ?_⟩
      · simp only [Option.some.injEq, Prod.mk.injEq]
        push_cast
        constructor <;> ring
      · have hm := hlt (n - 1) (by omega)
        rw [Nat.cast_sub (by omega)] at hm
        push_cast at hm ⊢
        right; right; refine ⟨by omega, by linarith, by linarith⟩
    · rw [if_neg h2]
      refine ⟨0, by simp, Or.inr (Or.inl ⟨rfl, ?_, ?_⟩)⟩ <;> linarith

theorem findY_eq_findX (o s y : ℚ) : findY o s y =
    (findX (-o) s (-y)).map fun r => (-r.1, r.2) := by
  have up : ∀ (x : ℚ) (inc : ℤ) (tx : ℚ) (px : ℤ), shiftUp (-x) s inc (-tx) px =
      (shiftDown x s inc tx px).map fun r => (-r.1, r.2) := by
    intro x inc
    have a : ∀ (tx : ℚ) (px : ℤ) r, shiftUp (-x) s inc (-tx) px = some r →
        shiftDown x s inc tx px = some (-r.1, r.2) := by
      intro tx px r h
      have key := shiftUp.partial_correctness (x := -x) (size := s) (inc := inc)
        (fun tx' px r => shiftDown x s inc (-tx') px = some (-r.1, r.2)) ?_ (-tx) px r h
      · simpa using key
      intro f ih tx' px r hr
      split at hr
      · rw [shiftDown, if_pos (by linarith)]
        have := ih _ _ _ hr
        rw [show -tx' - s = -(tx' + s) by ring]; exact this
      · rw [shiftDown, if_neg (by linarith)]
        simp only [Option.some.injEq] at hr; subst hr; rfl
    have b : ∀ (tx : ℚ) (px : ℤ) r, shiftDown x s inc tx px = some r →
        shiftUp (-x) s inc (-tx) px = some (-r.1, r.2) := by
      intro tx px r h
      refine shiftDown.partial_correctness (x := x) (size := s) (inc := inc)
        (fun tx' px r => shiftUp (-x) s inc (-tx') px = some (-r.1, r.2)) ?_ tx px r h
      intro f ih tx' px r hr
      split at hr
      · rw [shiftUp, if_pos (by linarith)]
        have := ih _ _ _ hr
        rw [show -tx' + s = -(tx' - s) by ring]; exact this
      · rw [shiftUp, if_neg (by linarith)]
        simp only [Option.some.injEq] at hr; subst hr; rfl
    intro tx px
    cases h1 : shiftUp (-x) s inc (-tx) px with
    | some r => rw [a tx px r h1]; simp
    | none =>
      cases h2 : shiftDown x s inc tx px with
      | none => rfl
      | some r => rw [b tx px r h2] at h1; simp at h1
  have down : ∀ (x : ℚ) (inc : ℤ) (tx : ℚ) (px : ℤ), shiftDown (-x) s inc (-tx) px =
      (shiftUp x s inc tx px).map fun r => (-r.1, r.2) := by
    intro x inc tx px
    have := up (-x) inc (-tx) px
    rw [neg_neg, neg_neg] at this
    rw [this, Option.map_map]
    cases shiftDown (-x) s inc (-tx) px <;> simp
  unfold findY findX
  by_cases h1 : y < o
  · rw [if_pos h1, if_pos (by linarith : -y > -o), up]
    cases shiftDown y s 1 o 0 with
    | none => rfl
    | some r => simp; ring
  · rw [if_neg h1, if_neg (by linarith : ¬ -y > -o)]
    by_cases h2 : y > o
    · rw [if_pos h2, if_pos (by linarith : -y < -o), down]
      cases shiftUp y s (-1) o 0 with
      | none => rfl
      | some r => simp
    · rw [if_neg h2, if_neg (by linarith : ¬ -y < -o)]; simp

theorem findY_spec (o s y : ℚ) (hs : 0 < s) :
    ∃ j : ℤ, findY o s y = some (o - j * s, j) ∧
      ((0 < j ∧ y < o - j * s ∧ o - (j + 1) * s ≤ y) ∨
       (j = 0 ∧ y ≤ o ∧ o - s ≤ y) ∨
       (j < 0 ∧ y ≤ o - j * s ∧ o - (j + 1) * s < y)) := by
  obtain ⟨j, h1, h2⟩ := findX_spec (-o) s (-y) hs
  refine ⟨j, ?_, ?_⟩
  · rw [findY_eq_findX, h1]; simp; ring
  · rcases h2 with ⟨a, b, c⟩ | ⟨a, b, c⟩ | ⟨a, b, c⟩
    · left; exact ⟨a, by linarith, by linarith⟩
    · right; left; exact ⟨a, by linarith, by linarith⟩
    · right; right; exact ⟨a, by linarith, by linarith⟩

/-- A loop with a tile size of zero or less that is entered does not terminate. -/
theorem shiftUp_diverges (x size : ℚ) (inc : ℤ) (hs : size ≤ 0) (tx : ℚ) (px : ℤ) (h : x > tx) :
    shiftUp x size inc tx px = none := by
  cases hr : shiftUp x size inc tx px with
  | none => rfl
  | some r =>
    exfalso
    refine shiftUp.partial_correctness (x := x) (size := size) (inc := inc)
      (fun tx _ _ => ¬ x > tx) ?_ tx px r hr h
    intro f ih tx px r hr hx
    rw [if_pos hx] at hr
    exact ih _ _ _ hr (by linarith)

/-! ## Active tiles -/

theorem mem_loopRange (lo hi t : ℤ) : t ∈ loopRange lo hi ↔ lo ≤ t ∧ t ≤ hi := by
  simp only [loopRange, List.mem_map, List.mem_range]
  constructor
  · rintro ⟨i, hi', rfl⟩; omega
  · rintro ⟨h1, h2⟩
    exact ⟨(t - lo).toNat, by omega, by omega⟩

theorem loopRange_sorted (lo hi : ℤ) : (loopRange lo hi).Pairwise (· < ·) := by
  unfold loopRange
  rw [List.pairwise_map]
  refine List.Pairwise.imp ?_ (List.pairwise_lt_range (n := (hi - lo + 1).toNat))
  intro a b h; omega

theorem loopRange_length (lo hi : ℤ) : (loopRange lo hi).length = (hi - lo + 1).toNat := by
  simp [loopRange]

theorem foldl_or (allow : List (ℤ × ℤ)) (x y : ℤ) (b : Bool) :
    allow.foldl (fun ok a => if x = a.1 ∧ y = a.2 then true else ok) b =
      (b || decide ((x, y) ∈ allow)) := by
  induction allow generalizing b with
  | nil => simp
  | cons a l ih =>
    rw [List.foldl_cons, ih]
    by_cases h : x = a.1 ∧ y = a.2
    · have : (x, y) = a := Prod.ext h.1 h.2
      simp [h, this]
    · have : (x, y) ≠ a := by rintro rfl; exact h ⟨rfl, rfl⟩
      rw [if_neg h]; simp [this]

theorem tileAllowlisted_iff (allow : List (ℤ × ℤ)) (x y : ℤ) :
    tileAllowlisted allow x y = true ↔ Allowed allow x y := by
  unfold tileAllowlisted Allowed
  split
  · rename_i h
    have : allow ≠ [] := by rintro rfl; simp at h
    rw [foldl_or]; simp [this]
  · rename_i h
    have : allow = [] := by
      cases allow with
      | nil => rfl
      | cons a l => simp at h
    simp [this]

theorem activeTiles_eq (allow : List (ℤ × ℤ)) (e : Extent) :
    activeTiles allow e = (loopRange e.minY e.maxY).flatMap fun ty =>
      ((loopRange e.minX e.maxX).filter fun tx => tileAllowlisted allow tx ty).map fun tx => (tx, ty) := by
  have inner : ∀ (ty : ℤ) (l : List ℤ) (acc : List (ℤ × ℤ)),
      l.foldl (fun acc tx => if tileAllowlisted allow tx ty = false then acc else acc ++ [(tx, ty)]) acc =
        acc ++ (l.filter fun tx => tileAllowlisted allow tx ty).map fun tx => (tx, ty) := by
    intro ty l
    induction l with
    | nil => simp
    | cons a l ih =>
      intro acc
      rw [List.foldl_cons, ih]
      cases h : tileAllowlisted allow a ty <;> simp [h]
  have outer : ∀ (l : List ℤ) (acc : List (ℤ × ℤ)),
      l.foldl (fun acc ty => (loopRange e.minX e.maxX).foldl (fun acc tx =>
        if tileAllowlisted allow tx ty = false then acc else acc ++ [(tx, ty)]) acc) acc =
      acc ++ l.flatMap fun ty =>
        ((loopRange e.minX e.maxX).filter fun tx => tileAllowlisted allow tx ty).map fun tx => (tx, ty) := by
    intro l
    induction l with
    | nil => simp
    | cons a l ih => intro acc; rw [List.foldl_cons, ih, inner]; simp
  unfold activeTiles
  rw [outer]; simp

theorem mem_activeTiles (allow : List (ℤ × ℤ)) (e : Extent) (x y : ℤ) :
    (x, y) ∈ activeTiles allow e ↔ InExtent e x y ∧ Allowed allow x y := by
  rw [activeTiles_eq]
  simp only [List.mem_flatMap, List.mem_map, List.mem_filter, mem_loopRange, Prod.mk.injEq,
    tileAllowlisted_iff, InExtent]
  constructor
  · rintro ⟨a, ha, b, ⟨hb, hal⟩, rfl, rfl⟩; exact ⟨⟨hb, ha⟩, hal⟩
  · rintro ⟨⟨hx, hy⟩, hal⟩; exact ⟨y, hy, x, ⟨hx, hal⟩, rfl, rfl⟩

theorem activeTiles_sorted (allow : List (ℤ × ℤ)) (e : Extent) :
    (activeTiles allow e).Pairwise Before := by
  rw [activeTiles_eq, List.pairwise_flatMap]
  constructor
  · intro y _
    rw [List.pairwise_map]
    refine List.Pairwise.imp ?_ ((loopRange_sorted e.minX e.maxX).filter _)
    intro a b h; exact Or.inr ⟨rfl, h⟩
  · refine List.Pairwise.imp ?_ (loopRange_sorted e.minY e.maxY)
    intro a b h p hp q hq
    simp only [List.mem_map] at hp hq
    obtain ⟨_, _, rfl⟩ := hp
    obtain ⟨_, _, rfl⟩ := hq
    exact Or.inl h

theorem activeTiles_length (allow : List (ℤ × ℤ)) (e : Extent) (hX : e.minX ≤ e.maxX + 1)
    (hY : e.minY ≤ e.maxY + 1) :
    ((activeTiles allow e).length : ℤ) ≤ e.cells := by
  have h : ∀ l : List ℤ, ((l.flatMap fun ty =>
      ((loopRange e.minX e.maxX).filter fun tx => tileAllowlisted allow tx ty).map
        fun tx => (tx, ty)).length) ≤ l.length * (e.maxX - e.minX + 1).toNat := by
    intro l
    induction l with
    | nil => simp
    | cons a l ih =>
      rw [List.flatMap_cons, List.length_append, List.length_cons, List.length_map]
      have := List.length_filter_le (fun tx => tileAllowlisted allow tx a) (loopRange e.minX e.maxX)
      rw [loopRange_length] at this
      rw [Nat.add_mul]; omega
  have := h (loopRange e.minY e.maxY)
  rw [← activeTiles_eq, loopRange_length] at this
  unfold Extent.cells
  have h1 : ((e.maxX - e.minX + 1).toNat : ℤ) = e.maxX - e.minX + 1 := by omega
  have h2 : ((e.maxY - e.minY + 1).toNat : ℤ) = e.maxY - e.minY + 1 := by omega
  calc ((activeTiles allow e).length : ℤ)
      ≤ (((e.maxY - e.minY + 1).toNat * (e.maxX - e.minX + 1).toNat : Nat) : ℤ) := by
        exact_mod_cast this
    _ = (e.maxX - e.minX + 1) * (e.maxY - e.minY + 1) := by
        push_cast [h1, h2]; rw [← h1, ← h2]; push_cast [h1, h2]; ring

/-! ## The allow-list file -/

theorem tileName_length (t : ℤ × ℤ) (h1 : -1000 < t.1 ∧ t.1 < 10000) (h2 : -1000 < t.2 ∧ t.2 < 10000) :
    (tileName t).length = 11 := by
  simp [tileName, Libc.fmtInt0_length _ h1.1 h1.2, Libc.fmtInt0_length _ h2.1 h2.2]

theorem fmt_char_ne (w : Nat) (v : ℤ) (d : Char) (hd : d.isDigit = false) (hd' : d ≠ '-') :
    d ∉ Libc.fmtInt0 w v := by
  intro h
  rcases Libc.fmtInt0_chars w v d h with h | h
  · rw [hd] at h; simp at h
  · exact hd' h

theorem tileName_noNul (t : ℤ × ℤ) (d : Char) (hd : d.isDigit = false) (hd' : d ≠ '-')
    (hx : d ≠ 'X') (hy : d ≠ 'Y') (hu : d ≠ '_') : d ∉ tileName t := by
  simp only [tileName, List.mem_cons, List.mem_append, not_or]
  exact ⟨hx, fmt_char_ne _ _ _ hd hd', hu, hy, fmt_char_ne _ _ _ hd hd'⟩

theorem cstr_store (buffer line : List Char) (start : Nat) (hs : start ≤ line.length)
    (hn : '\x00' ∉ line) : cstr (store buffer line) start = line.drop start := by
  unfold cstr store
  rw [List.drop_append_of_le_length hs, List.takeWhile_append_of_pos]
  · simp
  · intro c hc
    have : c ∈ line := List.mem_of_mem_drop hc
    simp only [decide_eq_true_eq, ne_eq]
    rintro rfl; exact hn this

theorem parseId_name (buffer : List Char) (t : ℤ × ℤ) (h1 : -1000 < t.1 ∧ t.1 < 10000)
    (h2 : -1000 < t.2 ∧ t.2 < 10000) : parseId (store buffer (tileName t ++ ['\n'])) = t := by
  have hn : '\x00' ∉ tileName t ++ ['\n'] := by
    rw [List.mem_append, not_or]
    exact ⟨tileName_noNul t _ (by decide) (by decide) (by decide) (by decide) (by decide), by decide⟩
  have hl := tileName_length t h1 h2
  have l1 := Libc.fmtInt0_length t.1 h1.1 h1.2
  have l2 := Libc.fmtInt0_length t.2 h2.1 h2.2
  unfold parseId
  rw [cstr_store _ _ _ (by simp [hl]) hn, cstr_store _ _ _ (by simp [hl]) hn]
  have e1 : ((tileName t ++ ['\n']).drop 1).take 4 = Libc.fmtInt0 4 t.1 := by
    simp only [tileName, List.cons_append, List.drop_succ_cons, List.drop_zero, List.append_assoc]
    exact List.take_left' l1
  have e2 : ((tileName t ++ ['\n']).drop 7).take 4 = Libc.fmtInt0 4 t.2 := by
    have : (tileName t ++ ['\n']).drop 7 = Libc.fmtInt0 4 t.2 ++ ['\n'] := by
      simp only [tileName, List.cons_append, List.append_assoc]
      rw [show (7 : Nat) = (4 + 2) + 1 by rfl, List.drop_succ_cons, ← List.drop_drop]
      rw [show (Libc.fmtInt0 4 t.1 ++ ('_' :: 'Y' :: (Libc.fmtInt0 4 t.2 ++ ['\n']))).drop 4 =
        '_' :: 'Y' :: (Libc.fmtInt0 4 t.2 ++ ['\n']) from by
          exact List.drop_left' l1]
      rfl
    rw [this]; exact List.take_left' l2
  rw [e1, e2, Libc.atoi_fmtInt0 _ h1.1 h1.2, Libc.atoi_fmtInt0 _ h2.1 h2.2]

theorem readIds_names (tiles : List (ℤ × ℤ)) (buffer : List Char)
    (h : ∀ t ∈ tiles, (-1000 < t.1 ∧ t.1 < 10000) ∧ (-1000 < t.2 ∧ t.2 < 10000)) :
    readIds tiles.length buffer (tiles.map fun t => tileName t ++ ['\n']) = some tiles := by
  induction tiles generalizing buffer with
  | nil => rfl
  | cons t l ih =>
    have ht := h t (by simp)
    rw [List.length_cons, List.map_cons, readIds,
      ih _ (fun t ht => h t (by simp [ht])), parseId_name _ _ ht.1 ht.2]; rfl

end Verif.Tile

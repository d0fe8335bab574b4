import Verif.Str.Props

/-!
# Theorems about arrays, string vectors, paths and numbers: C31, C32, C33, C49
-/

namespace Verif.Str

open Spec

/-! ## C32 -/

/-- The list cut or extended with zeros to `n` elements. -/
def resize {V : Type} (zero : V) (n : Nat) (l : List V) : List V :=
  l.take n ++ List.replicate (n - l.length) zero

theorem resize_length {V : Type} (zero : V) (n : Nat) (l : List V) : (resize zero n l).length = n := by
  unfold resize; simp; omega

theorem resize_getElem? {V : Type} (zero : V) (n : Nat) (l : List V) (i : Nat) (hi : i < n) :
    (resize zero n l)[i]? = if i < l.length then l[i]? else some zero := by
  unfold resize
  split
  · rw [List.getElem?_append_left (by simp; omega), List.getElem?_take_of_lt hi]
  · rw [List.getElem?_append_right (by simp; omega), List.getElem?_replicate]
    rw [if_pos (by simp; omega)]

theorem resize_self {V : Type} (zero : V) (l : List V) : resize zero l.length l = l := by
  unfold resize; simp

theorem reAlloc_ok {V : Type} (zero : V) (arr : List V) (n : Nat) (h : n ≠ 0 ∨ arr.length = n) :
    reAlloc zero arr n = .ok (resize zero n arr) := by
  unfold reAlloc
  split
  · rename_i e; subst e; rw [resize_self]
  · rename_i e
    rw [if_neg (by rcases h with h | h; exacts [h, absurd h e])]
    rfl

/-- C32: re-allocating an array keeps the elements within both sizes and fills up with zeros. -/
theorem c32_realloc {V : Type} (zero : V) (arr : List V) (n : Nat) (h : n ≠ 0) :
    ∃ out, reAlloc zero arr n = .ok out ∧ Resized zero arr out n :=
  ⟨_, reAlloc_ok zero arr n (Or.inl h), resize_length _ _ _, fun i hi => resize_getElem? zero n arr i hi⟩

/-- Limit of C32: shrinking to zero elements ends the program. -/
theorem c32_zero {V : Type} (zero : V) (arr : List V) (h : arr ≠ []) : reAlloc zero arr 0 = .exit := by
  unfold reAlloc
  rw [if_neg (by simpa using h), if_pos rfl]

theorem reRows_ok {V : Type} (zero : V) (n2 : Nat) (rows : List (List V)) (n : Nat)
    (h : n2 ≠ 0 ∨ ∀ r ∈ rows, r.length = n2) :
    ∃ out, reRows zero n2 rows n = .ok out ∧ out.length = n ∧
      ∀ i < n, out[i]? = some (resize zero n2 (rows[i]?.getD [])) := by
  induction n generalizing rows with
  | zero => exact ⟨[], by cases rows <;> rfl, rfl, by simp⟩
  | succ n ih =>
    cases rows with
    | nil =>
      obtain ⟨out, e, l, hi⟩ := ih [] (by simp)
      refine ⟨List.replicate n2 zero :: out, by simp [reRows, e, Out.bind], by simp [l], ?_⟩
      intro i hi'
      cases i with
      | zero => simp [resize]
      | succ i => simpa using hi i (by omega)
    | cons r rows =>
      obtain ⟨out, e, l, hi⟩ := ih rows (by
        rcases h with h | h
        · exact Or.inl h
        · exact Or.inr fun r' hr' => h r' (by simp [hr']))
      have er := reAlloc_ok zero r n2 (by
        rcases h with h | h
        · exact Or.inl h
        · exact Or.inr (h r (by simp)))
      refine ⟨resize zero n2 r :: out, by simp [reRows, e, er, Out.bind], by simp [l], ?_⟩
      intro i hi'
      cases i with
      | zero => simp
      | succ i => simpa using hi i (by omega)

theorem reAlloc2D_ok {V : Type} (zero : V) (m1 m2 : Nat) (arr : List (List V)) (n1 n2 : Nat)
    (hs : Shape2 arr m1 m2) (h1 : n1 ≠ 0) (h2 : n2 ≠ 0 ∨ m2 = n2) :
    ∃ out, reAlloc2D zero m2 arr n1 n2 = .ok out ∧ out.length = n1 ∧
      ∀ i < n1, out[i]? = some (resize zero n2 (arr[i]?.getD [])) := by
  unfold reAlloc2D
  split
  · rename_i e
    refine ⟨arr, rfl, e.1, fun i hi => ?_⟩
    have hi' : i < arr.length := by omega
    rw [List.getElem?_eq_getElem hi']
    have := hs.2 arr[i] (List.getElem_mem _)
    simp only [Option.getD_some, Option.some.injEq]
    rw [← e.2, ← this, resize_self]
  · rw [if_neg (by simp [h1])]
    apply reRows_ok
    rcases h2 with h | h
    · exact Or.inl h
    · exact Or.inr fun r hr => h ▸ hs.2 r hr

/-- C32: re-allocating a two-dimensional array keeps the elements within both extents and fills
up with zeros. -/
theorem c32_realloc2D {V : Type} (zero : V) (m1 m2 : Nat) (arr : List (List V)) (n1 n2 : Nat)
    (hs : Shape2 arr m1 m2) (h1 : n1 ≠ 0) (h2 : n2 ≠ 0) :
    ∃ out, reAlloc2D zero m2 arr n1 n2 = .ok out ∧ Shape2 out n1 n2 ∧
      ∀ i < n1, ∀ j < n2, at2 out i j = if i < m1 ∧ j < m2 then at2 arr i j else some zero := by
  obtain ⟨out, e, l, hi⟩ := reAlloc2D_ok zero m1 m2 arr n1 n2 hs h1 (Or.inl h2)
  refine ⟨out, e, ⟨l, ?_⟩, ?_⟩
  · intro r hr
    obtain ⟨i, hi', rfl⟩ := List.getElem_of_mem hr
    have := hi i (by omega)
    rw [List.getElem?_eq_getElem hi'] at this
    simp only [Option.some.injEq] at this
    rw [this, resize_length]
  · intro i hi' j hj
    unfold at2
    rw [hi i hi', Option.bind_some, resize_getElem? _ _ _ _ hj]
    by_cases hm : i < m1
    · have hia : i < arr.length := by rw [hs.1]; exact hm
      rw [List.getElem?_eq_getElem hia]
      simp only [Option.getD_some, hm, true_and, Option.bind_some]
      rw [hs.2 _ (List.getElem_mem hia)]
    · have hia : arr.length ≤ i := by rw [hs.1]; omega
      rw [List.getElem?_eq_none hia]
      simp [hm]

example : reAlloc2D 0 2 [[1, 2], [3, 4]] 3 3 = .ok [[1, 2, 0], [3, 4, 0], [0, 0, 0]] ∧
    Shape2 [[1, 2], [3, 4]] 2 2 := by
  refine ⟨by decide, rfl, by decide⟩

theorem mapOut_ok {α β : Type} (f : α → Out β) (g : α → β) (l : List α) (h : ∀ a ∈ l, f a = .ok (g a)) :
    mapOut f l = .ok (l.map g) := by
  induction l with
  | nil => rfl
  | cons a l ih =>
    rw [mapOut, h a (by simp), ih fun b hb => h b (by simp [hb])]
    rfl

/-- C32: re-allocating a three-dimensional array keeps the elements within both extents and fills
up with zeros. -/
theorem c32_realloc3D {V : Type} (zero : V) (m1 m2 m3 : Nat) (arr : List (List (List V)))
    (n1 n2 n3 : Nat) (hs : Shape3 arr m1 m2 m3) (h1 : n1 ≠ 0) (h2 : n2 ≠ 0) (h3 : n3 ≠ 0) :
    ∃ out, reAlloc3D zero m2 m3 arr n1 n2 n3 = .ok out ∧ Shape3 out n1 n2 n3 ∧
      ∀ i < n1, ∀ j < n2, ∀ k < n3, at3 out i j k =
        if i < m1 ∧ j < m2 ∧ k < m3 then at3 arr i j k else some zero := by
  have step : ∃ g : List (List V) → List (List V),
      (if m2 ≠ n2 ∨ m3 ≠ n3 then mapOut (fun a => reAlloc2D zero m3 a n2 n3) arr else Out.ok arr) =
        .ok (arr.map g) ∧ ∀ a ∈ arr, Shape2 (g a) n2 n3 ∧ ∀ j < n2, ∀ k < n3,
          at2 (g a) j k = if j < m2 ∧ k < m3 then at2 a j k else some zero := by
    by_cases hc : m2 ≠ n2 ∨ m3 ≠ n3
    · rw [if_pos hc]
      have ex : ∀ a : {a // a ∈ arr}, ∃ out, reAlloc2D zero m3 a.1 n2 n3 = .ok out ∧ Shape2 out n2 n3 ∧
          ∀ j < n2, ∀ k < n3, at2 out j k = if j < m2 ∧ k < m3 then at2 a.1 j k else some zero :=
        fun a => c32_realloc2D zero m2 m3 a.1 n2 n3 (hs.2 a.1 a.2) h2 h3
      have hg : ∀ a ∈ arr, reAlloc2D zero m3 a n2 n3 =
          .ok (match reAlloc2D zero m3 a n2 n3 with | .ok o => o | _ => []) := by
        intro a ha
        obtain ⟨out, e, -⟩ := ex ⟨a, ha⟩
        rw [e]
      refine ⟨fun a => match reAlloc2D zero m3 a n2 n3 with | .ok o => o | _ => [],
        mapOut_ok _ _ arr hg, ?_⟩
      intro a ha
      obtain ⟨out, e, h⟩ := ex ⟨a, ha⟩
      simp only [e]
      exact h
    · rw [if_neg hc]
      simp only [ne_eq, not_or, not_not] at hc
      obtain ⟨rfl, rfl⟩ := hc
      refine ⟨id, by simp, fun a ha => ⟨hs.2 a ha, fun j hj k hk => ?_⟩⟩
      simp [hj, hk]
  obtain ⟨g, eg, hg⟩ := step
  have hl := hs.1
  by_cases hsame : arr.length = n1 ∧ m2 = n2 ∧ m3 = n3
  · refine ⟨arr, ?_, ?_, ?_⟩
    · unfold reAlloc3D; rw [if_pos hsame]
    · obtain ⟨e1, e2, e3⟩ := hsame
      exact ⟨e1, fun m hm => e2 ▸ e3 ▸ hs.2 m hm⟩
    · obtain ⟨e1, e2, e3⟩ := hsame
      intro i hi j hj k hk
      rw [if_pos ⟨by omega, by omega, by omega⟩]
  · refine ⟨(arr.map g).take n1 ++
      List.replicate (n1 - (arr.map g).length) (List.replicate n2 (List.replicate n3 zero)), ?_, ⟨?_, ?_⟩, ?_⟩
    · unfold reAlloc3D
      rw [if_neg hsame, eg]
      simp only [Out.bind]
      rw [if_neg (by simp [h1])]
    · simp; omega
    · intro m hm
      rcases List.mem_append.1 hm with hm | hm
      · obtain ⟨a, ha, rfl⟩ := List.mem_map.1 (List.mem_of_mem_take hm)
        exact (hg a ha).1
      · rw [List.eq_of_mem_replicate hm]
        exact ⟨by simp, fun r hr => by rw [List.eq_of_mem_replicate hr]; simp⟩
    · intro i hi j hj k hk
      unfold at3
      by_cases hm : i < m1
      · have hia : i < arr.length := by omega
        rw [List.getElem?_append_left (by simp; omega), List.getElem?_take_of_lt hi, List.getElem?_map,
          List.getElem?_eq_getElem hia]
        simp only [Option.map_some, Option.bind_some]
        rw [(hg _ (List.getElem_mem hia)).2 j hj k hk]
        simp [hm]
      · rw [List.getElem?_append_right (by simp; omega), List.getElem?_replicate, if_pos (by simp; omega),
          if_neg (by tauto)]
        simp [at2, hj, hk]

example : reAlloc3D 0 1 2 [[[1, 2]], [[3, 4]]] 1 2 3 = .ok [[[1, 2, 0], [0, 0, 0]]] := by decide

/-- C32, contiguous two-dimensional array (partial): elements are kept if the row length does not
change. -/
theorem c32_realloc2DC_partial {V : Type} (zero : V) (m1 n1 n2 : Nat) (block : List V)
    (hl : block.length = m1 * n2) (h1 : n1 ≠ 0) (h2 : n2 ≠ 0) :
    ∃ out, reAlloc2DC zero block m1 n2 n1 n2 = .ok out ∧ out.length = n1 * n2 ∧
      ∀ i < n1, ∀ j < n2, out[i * n2 + j]? = if i < m1 then block[i * n2 + j]? else some zero := by
  have hn : n1 * n2 ≠ 0 := Nat.mul_ne_zero h1 h2
  have hlt : ∀ m i j, i < m → j < n2 → i * n2 + j < m * n2 := by
    intro m i j hi hj
    have : (i + 1) * n2 ≤ m * n2 := Nat.mul_le_mul_right _ hi
    rw [Nat.add_mul] at this
    omega
  have hge : ∀ i j, ¬ i < m1 → ¬ i * n2 + j < m1 * n2 := by
    intro i j hi
    have : m1 * n2 ≤ i * n2 := Nat.mul_le_mul_right _ (by omega)
    omega
  have key : ∀ i < n1, ∀ j < n2, (resize zero (n1 * n2) block)[i * n2 + j]? =
      if i < m1 then block[i * n2 + j]? else some zero := by
    intro i hi j hj
    rw [resize_getElem? _ _ _ _ (hlt n1 i j hi hj), hl]
    by_cases hm : i < m1
    · rw [if_pos (hlt m1 i j hm hj), if_pos hm]
    · rw [if_neg (hge i j hm), if_neg hm]
  unfold reAlloc2DC
  split
  · rename_i e
    refine ⟨block, rfl, by rw [hl, e.1], ?_⟩
    have := key
    rw [show n1 * n2 = block.length by rw [hl, e.1], resize_self] at this
    exact this
  · rw [reAlloc_ok zero block _ (Or.inl hn)]
    simp only [Out.bind]
    rw [if_neg (by simp [h1])]
    exact ⟨_, rfl, resize_length _ _ _, key⟩

/-- C32 does not hold for contiguous arrays whose row length changes: with shorter rows, the first
element of the second row is afterwards an element of the former first row. -/
theorem c32_contiguous_violated {V : Type} (zero : V) (m1 m2 n1 n2 : Nat) (block : List V)
    (hl : block.length = m1 * m2) (hm : 1 ≤ m1) (h1 : 1 < n1) (h2 : 0 < n2) (h : n2 < m2) :
    ∃ out, reAlloc2DC zero block m1 m2 n1 n2 = .ok out ∧ out[1 * n2 + 0]? = block[n2]? := by
  refine ⟨resize zero (n1 * n2) block, ?_, ?_⟩
  · unfold reAlloc2DC
    rw [if_neg (by omega), reAlloc_ok _ _ _ (Or.inl (Nat.mul_ne_zero (by omega) (by omega)))]
    simp only [Out.bind]
    rw [if_neg (by omega)]
  · have a1 : 2 * n2 ≤ n1 * n2 := Nat.mul_le_mul_right _ h1
    have a2 : 1 * m2 ≤ m1 * m2 := Nat.mul_le_mul_right _ hm
    rw [resize_getElem? _ _ _ _ (by omega), if_pos (by omega)]
    simp

example : reAlloc2DC 0 [11, 12, 13, 21, 22, 23] 2 3 2 2 = .ok [11, 12, 13, 21] := by decide

/-! ## C31 -/

/-- All rows have the length of the vector and hold a C string. -/
def Inv (v : StrVec) : Prop :=
  v.rows.length = v.number ∧ ∀ r ∈ v.rows, r.length = v.length ∧ nul ∈ r

theorem cstr_resize (n : Nat) (r : List Char) (h : nul ∈ r) (hn : r.length ≤ n) :
    cstr (resize nul n r) = cstr r := by
  unfold resize cstr
  rw [List.take_of_length_le hn, List.takeWhile_append, if_neg]
  intro hl
  have e : r.takeWhile (fun c => c ≠ nul) = r := by
    have := List.takeWhile_prefix (l := r) (fun c => decide (c ≠ nul))
    exact this.eq_of_length hl
  rw [← e] at h
  have := List.mem_takeWhile_imp h
  simp at this

theorem cstr_replicate (n : Nat) : cstr (List.replicate n nul) = [] := by
  unfold cstr
  cases n with
  | zero => rfl
  | succ n => simp [List.replicate_succ]

theorem nul_mem_resize (n : Nat) (r : List Char) (h : r.length < n ∨ (nul ∈ r ∧ r.length ≤ n)) :
    nul ∈ resize nul n r := by
  unfold resize
  rcases h with h | ⟨h1, h2⟩
  · exact List.mem_append_right _ (List.mem_replicate.2 ⟨by omega, rfl⟩)
  · exact List.mem_append_left _ (by rwa [List.take_of_length_le h2])

theorem reAllocVec_ok (v : StrVec) (hv : Inv v) (n l : Nat) (hn : v.number ≤ n) (h0 : n ≠ 0)
    (hl : v.length ≤ l) (h0l : l ≠ 0) :
    ∃ v', reAllocVec v n l = .ok v' ∧ Inv v' ∧ v'.number = n ∧ v'.length = l + 1 ∧
      ∀ i < n, v'.text i = some ((v.text i).getD []) := by
  unfold reAllocVec
  rw [if_neg h0, if_neg h0l]
  obtain ⟨out, e, hlen, hi⟩ := reAlloc2D_ok nul v.number v.length v.rows n (l + 1)
    ⟨hv.1, fun r hr => (hv.2 r hr).1⟩ h0 (Or.inl (by omega))
  rw [e]
  refine ⟨_, rfl, ⟨hlen, ?_⟩, rfl, rfl, ?_⟩
  · intro r hr
    obtain ⟨i, hi', rfl⟩ := List.getElem_of_mem (l := out) hr
    have := hi i (by omega)
    rw [List.getElem?_eq_getElem hi'] at this
    simp only [Option.some.injEq] at this
    simp only [this]
    refine ⟨resize_length _ _ _, nul_mem_resize _ _ ?_⟩
    left
    cases hr : v.rows[i]? with
    | none => simp
    | some r => have := (hv.2 r (List.mem_of_getElem? hr)).1; simp only [Option.getD_some]; omega
  · intro i hi'
    unfold StrVec.text
    simp only [hi i hi', Option.map_some, Option.some.injEq]
    cases hr : v.rows[i]? with
    | none => simp [resize, cstr_replicate]
    | some r =>
      have := hv.2 r (List.mem_of_getElem? hr)
      simp only [Option.getD_some, Option.map_some]
      exact cstr_resize _ _ this.2 (by omega)

theorem fillVec_ok (v : StrVec) (hv : Inv v) (pos : Nat) (new : List Char) (hn : nul ∉ new)
    (hne : new ≠ [] ∨ 0 < v.length) :
    ∃ v', fillVec v pos new = .ok v' ∧ Inv v' ∧ 0 < v'.length ∧
      v'.number = max v.number (pos + 1) ∧ v'.text pos = some new ∧
      ∀ q < v'.number, q ≠ pos → v'.text q = some ((v.text q).getD []) := by
  have first : ∃ w, (if pos ≥ v.number ∨ new.length ≥ v.length then
      reAllocVec v (if pos ≥ v.number then pos + 1 else v.number)
        (if new.length ≥ v.length then new.length else v.length)
      else .ok v) = .ok w ∧ Inv w ∧ w.number = max v.number (pos + 1) ∧ new.length < w.length ∧
      ∀ i < w.number, w.text i = some ((v.text i).getD []) := by
    split
    · have hl : 0 < (if new.length ≥ v.length then new.length else v.length) := by
        have := List.length_pos_iff (l := new)
        split
        · rcases hne with h | h
          · exact this.2 h
          · omega
        · omega
      obtain ⟨w, e, h1, h2, h3, h4⟩ := reAllocVec_ok v hv (if pos ≥ v.number then pos + 1 else v.number)
        (if new.length ≥ v.length then new.length else v.length) (by split <;> omega)
        (by split <;> omega) (by split <;> omega) (by omega)
      refine ⟨w, e, h1, ?_, ?_, ?_⟩
      · rw [h2]; split <;> omega
      · rw [h3]; split <;> omega
      · rw [h2]; exact h4
    · rename_i hc
      refine ⟨v, rfl, hv, by omega, by omega, ?_⟩
      intro i hi
      have : i < v.rows.length := by rw [hv.1]; exact hi
      unfold StrVec.text
      rw [List.getElem?_eq_getElem this]
      rfl
  obtain ⟨w, e, hw, hnum, hlen, htext⟩ := first
  unfold fillVec
  simp only
  rw [e]
  simp only [Out.bind]
  have hpos : pos < w.rows.length := by rw [hw.1, hnum]; omega
  rw [List.getElem?_eq_getElem hpos]
  have hrow := hw.2 _ (List.getElem_mem hpos)
  obtain ⟨out, ec, hh⟩ := (c29_copy w.rows[pos] new w.length (by omega) (by omega) hn).1 hlen
  simp only [ec]
  have hnew := holds_cstr hh hn
  refine ⟨_, rfl, ⟨by simpa using hw.1, ?_⟩, by simp only; omega, hnum, ?_, ?_⟩
  · intro r hr
    rcases List.mem_or_eq_of_mem_set hr with hr | rfl
    · exact hw.2 r hr
    · refine ⟨by simp only [hh.1]; exact hrow.1, ?_⟩
      have : nul ∈ r.take (new.length + 1) := by rw [hh.2.1]; simp
      exact List.mem_of_mem_take this
  · unfold StrVec.text
    simp only
    rw [List.getElem?_set_self hpos]
    simp [hnew]
  · intro q hq hqp
    have := htext q hq
    unfold StrVec.text at this ⊢
    simp only
    rw [List.getElem?_set_ne (Ne.symm hqp)]
    exact this

/-- C31: filling one element stores exactly the text and leaves all others unchanged; the vector
grows if necessary, new elements are empty. -/
theorem c31_fill (v : StrVec) (hv : Inv v) (pos : Nat) (new : List Char) (hn : nul ∉ new)
    (hne : new ≠ [] ∨ 0 < v.length) :
    ∃ v', fillVec v pos new = .ok v' ∧ Inv v' ∧ v'.text pos = some new ∧
      (∀ q < v.number, q ≠ pos → v'.text q = v.text q) ∧
      (∀ q, v.number ≤ q → q < pos → v'.text q = some []) := by
  obtain ⟨v', e, h1, -, h3, h4, h5⟩ := fillVec_ok v hv pos new hn hne
  refine ⟨v', e, h1, h4, ?_, ?_⟩
  · intro q hq hqp
    rw [h5 q (by omega) hqp]
    have : q < v.rows.length := by rw [hv.1]; exact hq
    unfold StrVec.text
    rw [List.getElem?_eq_getElem this]
    rfl
  · intro q hq hqp
    rw [h5 q (by omega) (by omega)]
    have : v.rows.length ≤ q := by rw [hv.1]; exact hq
    unfold StrVec.text
    rw [List.getElem?_eq_none this]
    rfl

theorem written_mem {fs : List (Nat × List Char)} {i : Nat} (h : fs.any (fun g => g.1 = i) = false) :
    written fs i = [] := by
  induction fs with
  | nil => rfl
  | cons f fs ih =>
    simp only [List.any_cons, Bool.or_eq_false_iff, decide_eq_false_iff_not] at h
    rw [written, if_neg (by simp [h.2]), if_neg h.1]

/-- C31: after any sequence of fills of an empty vector, each element is the text written to it
last, and the empty text if it was not written. The first text must not be empty (else the
program ends, `c31_empty_first`). -/
theorem c31_history (f : Nat × List Char) (fs : List (Nat × List Char)) (hf : f.2 ≠ [])
    (hn : ∀ g ∈ f :: fs, nul ∉ g.2) :
    ∃ v, fillAll StrVec.empty (f :: fs) = .ok v ∧
      (∀ i < v.number, v.text i = some (written (f :: fs) i)) ∧ ∀ g ∈ f :: fs, g.1 < v.number := by
  have main : ∀ (fs : List (Nat × List Char)) (v : StrVec), Inv v → 0 < v.length →
      (∀ g ∈ fs, nul ∉ g.2) → ∃ v', fillAll v fs = .ok v' ∧ v.number ≤ v'.number ∧
      (∀ i < v'.number, v'.text i =
        some (if fs.any (fun g => g.1 = i) then written fs i else (v.text i).getD [])) ∧
      ∀ g ∈ fs, g.1 < v'.number := by
    intro fs
    induction fs with
    | nil =>
      intro v hv _ _
      refine ⟨v, rfl, Nat.le_refl _, ?_, by simp⟩
      intro i hi
      have : i < v.rows.length := by rw [hv.1]; exact hi
      unfold StrVec.text
      rw [List.getElem?_eq_getElem this]
      rfl
    | cons g fs ih =>
      intro v hv hl hn
      obtain ⟨w, e, h1, h2, h3, h4, h5⟩ := fillVec_ok v hv g.1 g.2 (hn g (by simp)) (Or.inr hl)
      obtain ⟨v', e', hle, ht, hp⟩ := ih w h1 h2 fun g' hg' => hn g' (by simp [hg'])
      refine ⟨v', by rw [fillAll, e]; exact e', by omega, ?_, ?_⟩
      · intro i hi
        rw [ht i hi]
        congr 1
        simp only [List.any_cons, Bool.or_eq_true, decide_eq_true_eq, written]
        by_cases ha : fs.any (fun g => g.1 = i) = true
        · rw [if_pos ha, if_pos (Or.inr ha), if_pos ha]
        · rw [if_neg ha]
          by_cases hg : g.1 = i
          · rw [if_pos (Or.inl hg), if_neg ha, if_pos hg, ← hg, h4]
            rfl
          · rw [if_neg (by simp only [hg, false_or]; exact ha)]
            by_cases hi' : i < w.number
            · rw [h5 i hi' (Ne.symm hg)]; rfl
            · have o1 : w.rows.length ≤ i := by rw [h1.1]; omega
              have o2 : v.rows.length ≤ i := by rw [hv.1]; omega
              unfold StrVec.text
              rw [List.getElem?_eq_none o1, List.getElem?_eq_none o2]
      · intro g' hg'
        rcases List.mem_cons.1 hg' with rfl | hg'
        · omega
        · exact hp g' hg'
  obtain ⟨w, e, h1, h2, h3, h4, h5⟩ := fillVec_ok StrVec.empty ⟨rfl, by simp [StrVec.empty]⟩ f.1 f.2
    (hn f (by simp)) (Or.inl hf)
  obtain ⟨v, e', hle, ht, hp⟩ := main fs w h1 h2 fun g hg => hn g (by simp [hg])
  refine ⟨v, by rw [fillAll, e]; exact e', ?_, ?_⟩
  · intro i hi
    rw [ht i hi]
    congr 1
    rw [written]
    by_cases ha : fs.any (fun g => g.1 = i) = true
    · rw [if_pos ha, if_pos ha]
    · rw [if_neg ha, if_neg ha]
      by_cases hg : f.1 = i
      · rw [if_pos hg, ← hg, h4]; rfl
      · rw [if_neg hg]
        by_cases hi' : i < w.number
        · rw [h5 i hi' (Ne.symm hg)]; rfl
        · have o1 : w.rows.length ≤ i := by rw [h1.1]; omega
          unfold StrVec.text
          rw [List.getElem?_eq_none o1]
          rfl
  · intro g hg
    rcases List.mem_cons.1 hg with rfl | hg
    · omega
    · exact hp g hg

example : ∃ v, fillAll StrVec.empty [(1, "ab".toList), (0, "x".toList), (1, "longer".toList)] = .ok v ∧
    v.text 0 = some "x".toList ∧ v.text 1 = some "longer".toList := ⟨_, rfl, by decide, by decide⟩

/-- Limit of C31: the empty text as first fill of an unallocated vector ends the program. -/
theorem c31_empty_first (pos : Nat) : fillVec StrVec.empty pos [] = .exit := by
  unfold fillVec
  simp only [StrVec.empty, List.length_nil, ge_iff_le, Nat.le_refl, or_true, if_true, reAllocVec]
  simp [Out.bind]

/-- C31: a text is found in a vector if and only if it is an element; the position is the first. -/
theorem c31_contains (vector : List (List Char)) (target : List Char) :
    (vectorContains vector target = true ↔ target ∈ vector) ∧
    (target ∉ vector → vectorContainsPos vector target = -1) ∧
    (target ∈ vector → ∃ k : Nat, vectorContainsPos vector target = k ∧ vector[k]? = some target ∧
      ∀ j < k, vector[j]? ≠ some target) := by
  have pos : ∀ (vector : List (List Char)) (i : ℤ),
      (target ∉ vector → vectorContainsPos vector target i = -1) ∧
      (target ∈ vector → ∃ k : Nat, vectorContainsPos vector target i = i + k ∧
        vector[k]? = some target ∧ ∀ j < k, vector[j]? ≠ some target) := by
    intro vector
    induction vector with
    | nil => intro i; simp [vectorContainsPos]
    | cons v vs ih =>
      intro i
      rw [vectorContainsPos]
      by_cases hv : v = target
      · subst hv
        refine ⟨by simp, fun _ => ⟨0, by simp, by simp, by simp⟩⟩
      · rw [if_neg hv]
        obtain ⟨h1, h2⟩ := ih (i + 1)
        refine ⟨fun h => h1 fun h' => h (by simp [h']), fun h => ?_⟩
        obtain ⟨k, e, hk, hj⟩ := h2 (by
          rcases List.mem_cons.1 h with h | h
          · exact absurd h.symm hv
          · exact h)
        refine ⟨k + 1, by rw [e]; push_cast; omega, by simpa using hk, ?_⟩
        intro j hj'
        cases j with
        | zero => simpa using hv
        | succ j => simpa using hj j (by omega)
  refine ⟨?_, (pos vector 0).1, fun h => ?_⟩
  · induction vector with
    | nil => simp [vectorContains]
    | cons v vs ih =>
      rw [vectorContains]
      by_cases hv : v = target
      · simp [hv]
      · simp [hv, ih, Ne.symm hv]
  · obtain ⟨k, e, hk⟩ := (pos vector 0).2 h
    exact ⟨k, by simpa using e, hk⟩

/-! ## C33 -/

theorem copyText_ok (size : Nat) (src : List Char) (hn : nul ∉ src) (h : src.length < size) :
    copyText size src = .ok src := by
  unfold copyText
  obtain ⟨out, e, hh⟩ := (c29_copy (List.replicate size nul) src size (by omega) (by simp) hn).1 h
  rw [e]
  simp only [Out.bind, holds_cstr hh hn]

theorem strip_ok (p : List Char) (k : Nat) (h : p ≠ []) (hl : p.getLast? ≠ some '/') :
    stripSlashes (p ++ List.replicate k '/') = .ok p := by
  obtain ⟨q, c, rfl⟩ : ∃ q c, p = q ++ [c] := ⟨p.dropLast, p.getLast h, (List.dropLast_append_getLast h).symm⟩
  have hc : c ≠ '/' := by simpa using hl
  unfold stripSlashes
  rw [if_neg (by simp [hc])]
  congr 1
  rw [List.reverse_append, List.reverse_replicate, List.dropWhile_append_of_pos (by
    intro x hx; simp [List.eq_of_mem_replicate hx])]
  rw [List.reverse_append]
  simp [hc]

theorem afterSlash_split (dir base : List Char) (hb : '/' ∉ base) :
    afterSlash (dir ++ '/' :: base) = base := by
  unfold afterSlash
  rw [List.reverse_append, List.reverse_cons, List.append_assoc, List.takeWhile_append_of_pos (by
    intro x hx
    simp only [List.mem_reverse] at hx
    simp only [decide_eq_true_eq]
    rintro rfl
    exact hb hx)]
  simp

theorem afterSlash_none (base : List Char) (hb : '/' ∉ base) : afterSlash base = base := by
  unfold afterSlash
  rw [List.takeWhile_eq_self_iff.2 (by
    intro x hx
    simp only [List.mem_reverse] at hx
    simp only [decide_eq_true_eq]
    rintro rfl
    exact hb hx)]
  simp

/-- C33: the base name is the part after the last slash, trailing slashes ignored; without a
slash it is the whole path. The path loses its trailing slashes. -/
theorem c33_basename (path base : List Char) (k size : Nat)
    (h : (∃ dir, Split path dir base) ∨ (path = base ∧ '/' ∉ base)) (hb : base ≠ [])
    (hn : nul ∉ base) (hs : base.length < size) :
    basenameWithExt (path ++ List.replicate k '/') size = .ok (base, path) := by
  have hbs : '/' ∉ base := by
    rcases h with ⟨dir, h⟩ | h
    exacts [h.2, h.2]
  have hlast : path ≠ [] ∧ path.getLast? ≠ some '/' := by
    have hbl : base.getLast? ≠ some '/' := fun hc => hbs (List.mem_of_getLast? hc)
    rcases h with ⟨dir, h, -⟩ | ⟨h, -⟩
    · subst h
      refine ⟨by simp, ?_⟩
      rw [List.getLast?_append, List.getLast?_cons]
      cases hg : base.getLast? with
      | none => exact absurd (List.getLast?_eq_none_iff.1 hg) hb
      | some c => rw [hg] at hbl; simpa using hbl
    · subst h; exact ⟨hb, hbl⟩
  unfold basenameWithExt
  rw [strip_ok path k hlast.1 hlast.2]
  simp only [Out.bind]
  have e : afterSlash path = base := by
    rcases h with ⟨dir, h, -⟩ | ⟨h, -⟩
    · subst h; exact afterSlash_split dir base hbs
    · subst h; exact afterSlash_none _ hbs
  rw [e, copyText_ok size base hn hs]

example : basenameWithExt "/data/X0001_Y0002/file.tif//".toList 1024 =
    .ok ("file.tif".toList, "/data/X0001_Y0002/file.tif".toList) :=
  c33_basename "/data/X0001_Y0002/file.tif".toList "file.tif".toList 2 1024
    (Or.inl ⟨"/data/X0001_Y0002".toList, by decide, by decide⟩) (by decide) (by decide) (by decide)

/-- C33: base name without extension and extension concatenate to the base name; the first has no
dot, the second is empty or starts with a dot. -/
theorem c33_extension (path base : List Char) (k size size' : Nat)
    (h : (∃ dir, Split path dir base) ∨ (path = base ∧ '/' ∉ base)) (hb : base ≠ [])
    (hn : nul ∉ base) (hs : base.length < size) (hs' : base.length < size') (h10 : base.length < 1024) :
    ∃ name ext, basenameWithoutExt (path ++ List.replicate k '/') size = .ok (name, path) ∧
      extension (path ++ List.replicate k '/') size' = .ok (ext, path) ∧
      name ++ ext = base ∧ '.' ∉ name ∧ (ext = [] ∨ ext.head? = some '.') := by
  refine ⟨base.takeWhile (· ≠ '.'), base.dropWhile (· ≠ '.'), ?_, ?_, List.takeWhile_append_dropWhile, ?_, ?_⟩
  · unfold basenameWithoutExt
    rw [c33_basename path base k size h hb hn hs]
    rfl
  · unfold extension
    rw [c33_basename path base k 1024 h hb hn h10]
    simp only [Out.bind]
    cases hd : base.dropWhile (· ≠ '.') with
    | nil => rfl
    | cons c cs =>
      simp only
      have hsub : ∀ x ∈ c :: cs, x ∈ base := fun x hx =>
        (List.dropWhile_suffix (l := base) (fun x => decide (x ≠ '.'))).subset (hd ▸ hx)
      have hlen : (c :: cs).length ≤ base.length := hd ▸
        (List.dropWhile_suffix (l := base) (fun x => decide (x ≠ '.'))).length_le
      rw [copyText_ok size' (c :: cs) (fun hx => hn (hsub _ hx)) (by omega)]
  · intro hm
    have := List.mem_takeWhile_imp hm
    simp at this
  · cases hd : base.dropWhile (· ≠ '.') with
    | nil => exact Or.inl rfl
    | cons c cs =>
      right
      have := List.head_dropWhile_not (fun x => decide (x ≠ '.')) (l := base) (by rw [hd]; simp)
      simp only [hd, List.head_cons, decide_eq_false_iff_not, ne_eq, not_not] at this
      simp [this]

/-- C33: the second kind of extension starts at the last dot. -/
theorem c33_extension2 (path name ext : List Char) (k size : Nat)
    (h : (∃ dir, Split path dir (name ++ '.' :: ext)) ∨
      (path = name ++ '.' :: ext ∧ '/' ∉ name ++ '.' :: ext))
    (hd : '.' ∉ ext) (hn : nul ∉ name ++ '.' :: ext) (hs : (name ++ '.' :: ext).length < size)
    (h10 : (name ++ '.' :: ext).length < 1024) :
    extension2 (path ++ List.replicate k '/') size = .ok ('.' :: ext, path) := by
  unfold extension2
  rw [c33_basename path _ k 1024 h (by simp) hn h10]
  simp only [Out.bind]
  rw [if_neg (by simp)]
  have e : ((name ++ '.' :: ext).reverse.takeWhile (· ≠ '.')).reverse = ext := by
    rw [List.reverse_append, List.reverse_cons, List.append_assoc, List.takeWhile_append_of_pos (by
      intro x hx
      simp only [List.mem_reverse] at hx
      simp only [decide_eq_true_eq]
      rintro rfl
      exact hd hx)]
    simp
  rw [e, copyText_ok size ('.' :: ext) (fun hx => hn (List.mem_append_right _ hx)) (by
    simp only [List.length_append] at hs; omega)]

/-- C33 (partial): the directory name is the part before the last slash of the path as given.
Missing: trailing slashes are not ignored, see `c33_dirname_violated`. -/
theorem c33_dirname_partial (cwd : Option (List Char)) (path dir base : List Char) (size : Nat)
    (h : Split path dir base) (hn : nul ∉ path) (hs : path.length < size) :
    directoryname cwd path size = .ok dir := by
  unfold directoryname
  rw [copyText_ok size path hn hs]
  simp only [Out.bind]
  obtain ⟨h1, h2⟩ := h
  subst h1
  rw [if_neg (by simp)]
  congr 1
  rw [List.reverse_append, List.reverse_cons, List.append_assoc, List.dropWhile_append_of_pos (by
    intro x hx
    simp only [List.mem_reverse] at hx
    simp only [decide_eq_true_eq]
    rintro rfl
    exact h2 hx)]
  simp

/-- C33: without a slash the directory name is the working directory. -/
theorem c33_dirname_cwd (cwd path : List Char) (size : Nat) (hb : '/' ∉ path) (hn : nul ∉ path)
    (hs : path.length < size) (hc : cwd.length < size) : directoryname (some cwd) path size = .ok cwd := by
  unfold directoryname
  rw [copyText_ok size path hn hs]
  simp only [Out.bind]
  rw [if_pos (by
    rw [List.all_eq_true]
    intro x hx
    simp only [decide_eq_true_eq]
    rintro rfl
    exact hb hx)]
  simp [hc]

/-- C33 does not hold for paths with a trailing slash: the directory name is the path itself. -/
theorem c33_dirname_violated (cwd : Option (List Char)) (dir base : List Char) (size : Nat)
    (hn : nul ∉ dir ++ '/' :: base) (hs : (dir ++ '/' :: base).length + 1 < size) :
    directoryname cwd (dir ++ '/' :: base ++ ['/']) size = .ok (dir ++ '/' :: base) := by
  apply c33_dirname_partial cwd _ _ [] size ⟨rfl, by simp⟩
  · intro h
    rcases List.mem_append.1 h with h | h
    · exact hn h
    · revert h; decide
  · simp only [List.length_append, List.length_cons, List.length_nil] at hs ⊢; omega

/-- Limit of C33: a path that is empty or consists of slashes only is read before its start. -/
theorem c33_no_name (k size : Nat) : basenameWithExt (List.replicate k '/') size = .ub := by
  unfold basenameWithExt stripSlashes
  rw [if_pos (by simp)]
  rfl

/-! ## C49 -/

theorem digitOf_digit {c : Char} (h : c.isDigit = true) : digitOf c = some (c.toNat - 48) := by
  unfold digitOf
  rw [if_pos]
  simp only [Char.isDigit, Bool.and_eq_true, decide_eq_true_eq] at h
  exact h

theorem runDigits_eq (base : Nat) (ds t : List Char) (hne : ds ≠ [])
    (hd : ∀ c ∈ ds, ∃ d, digitOf c = some d ∧ d < base)
    (ht : ∀ c, t.head? = some c → ∀ d, digitOf c = some d → base ≤ d) :
    runDigits base (ds ++ t) = some (ds.foldl (fun a c => a * base + (digitOf c).getD 0) 0, t) := by
  have hok : ∀ c ∈ ds, isDigitIn base c = true := by
    intro c hc
    obtain ⟨d, e, hlt⟩ := hd c hc
    simp [isDigitIn, e, hlt]
  have htw : t.takeWhile (isDigitIn base) = [] ∧
      t.dropWhile (isDigitIn base) = t := by
    cases t with
    | nil => simp
    | cons c cs =>
      have := ht c rfl
      cases e : digitOf c with
      | none => simp [isDigitIn, e]
      | some d => have := this d e; simp [isDigitIn, e]; omega
  have e1 := List.takeWhile_append_of_pos (l₂ := t) hok
  have e2 := List.dropWhile_append_of_pos (l₂ := t) hok
  rw [htw.1, List.append_nil] at e1
  rw [htw.2] at e2
  unfold runDigits
  rw [e1, e2]
  cases ds with
  | nil => exact absurd rfl hne
  | cons c cs => rfl

theorem natVal_eq (ds : List Char) (hd : ∀ c ∈ ds, c.isDigit = true) :
    ds.foldl (fun a c => a * 10 + (digitOf c).getD 0) 0 = Libc.natVal ds := by
  have aux : ∀ (l : List Char) (acc : Nat), (∀ c ∈ l, c.isDigit = true) →
      l.foldl (fun a c => a * 10 + (digitOf c).getD 0) acc =
      l.foldl (fun a c => a * 10 + (c.toNat - 48)) acc := by
    intro l
    induction l with
    | nil => intros; rfl
    | cons c l ih =>
      intro acc hl
      rw [List.foldl_cons, List.foldl_cons, digitOf_digit (hl c (by simp)), Option.getD_some]
      exact ih _ fun c hc => hl c (by simp [hc])
  exact aux ds 0 hd

/-- A text of digits without a leading zero (or the digit zero alone). -/
def Decimal (ds : List Char) : Prop :=
  (∀ c ∈ ds, c.isDigit = true) ∧ (ds = ['0'] ∨ (ds ≠ [] ∧ ds.head? ≠ some '0'))

theorem strtolDigits_decimal (ds t : List Char) (h : Decimal ds)
    (ht : ∀ c, t.head? = some c → digitOf c = none) :
    strtolDigits (ds ++ t) = some (Libc.natVal ds, t) := by
  obtain ⟨hd, h⟩ := h
  rcases h with rfl | ⟨hne, h0⟩
  · cases t with
    | nil => rfl
    | cons c cs =>
      have hc := ht c rfl
      have hx : ¬ (c = 'x' ∨ c = 'X') := by
        rintro (rfl | rfl) <;> revert hc <;> decide
      simp only [List.cons_append, List.nil_append, strtolDigits, if_neg hx]
      exact runDigits_eq 8 ['0'] (c :: cs) (by simp) (by simp; decide) (by
        intro c' h' d hd'
        simp only [List.head?_cons, Option.some.injEq] at h'
        subst h'
        rw [hc] at hd'; simp at hd')
  · obtain ⟨c, cs, rfl⟩ := List.exists_cons_of_ne_nil hne
    have h0' : c ≠ '0' := by simpa using h0
    have : strtolDigits (c :: cs ++ t) = runDigits 10 (c :: cs ++ t) := by
      rw [List.cons_append]
      unfold strtolDigits
      split
      · rename_i e; simp only [List.cons.injEq] at e; exact absurd e.1 h0'
      · rename_i e; simp only [List.cons.injEq] at e; exact absurd e.1 h0'
      · rfl
    rw [this, runDigits_eq 10 (c :: cs) t (by simp), natVal_eq _ hd]
    · intro c' hc'
      have := Libc.isDigit_toNat (hd c' hc')
      exact ⟨_, digitOf_digit (hd c' hc'), by omega⟩
    · intro c' h' d hd'
      rw [ht c' h'] at hd'
      simp at hd'

theorem strtol_digit_head (ds : List Char) (c : Char) (hc : c.isDigit = true) :
    strtol (c :: ds) = (strtolDigits (c :: ds)).map fun r => ((r.1 : ℤ), r.2) := by
  unfold strtol
  have hsp := Libc.digit_not_space hc
  have e : (c :: ds).dropWhile Date.isSpace = c :: ds := by
    rw [List.dropWhile_cons_of_neg]
    have : Date.isSpace c = false := hsp
    simp [this]
  have hn := Libc.isDigit_toNat hc
  rw [e]
  split
  · rename_i e'; simp only [List.cons.injEq] at e'; obtain ⟨rfl, -⟩ := e'; exact absurd hc (by decide)
  · rename_i e'; simp only [List.cons.injEq] at e'; obtain ⟨rfl, -⟩ := e'; exact absurd hc (by decide)
  · rfl

/-- C49 (partial): a decimal number without leading zeros, with or without minus sign, is accepted
with its value if it fits into an integer, and refused otherwise. Missing: leading zeros, see
`c49_leading_zero_violated`. -/
theorem c49_decimal_partial (ds : List Char) (h : Decimal ds) :
    charToInt ds = (if (Libc.natVal ds : ℤ) ≤ 2147483647 then some (Libc.natVal ds : ℤ) else none) ∧
    charToInt ('-' :: ds) =
      (if (Libc.natVal ds : ℤ) ≤ 2147483648 then some (-(Libc.natVal ds : ℤ)) else none) := by
  have e := strtolDigits_decimal ds [] h (by simp)
  rw [List.append_nil] at e
  obtain ⟨c, cs, rfl⟩ : ∃ c cs, ds = c :: cs := by
    rcases h.2 with h | h
    · exact ⟨_, _, h⟩
    · exact List.exists_cons_of_ne_nil h.1
  constructor
  · unfold charToInt
    rw [strtol_digit_head cs c (h.1 c (by simp)), e]
    simp only [Option.map_some, ne_eq, not_true_eq_false, if_false]
    split <;> split <;> first | rfl | omega
  · have : strtol ('-' :: c :: cs) = (strtolDigits (c :: cs)).map fun r => (-(r.1 : ℤ), r.2) := by
      unfold strtol
      rw [List.dropWhile_cons_of_neg (by decide)]
      rfl
    unfold charToInt
    rw [this, e]
    simp only [Option.map_some, ne_eq, not_true_eq_false, if_false]
    split <;> split <;> first | rfl | omega

example : charToInt "-2147483648".toList = some (-2147483648) ∧ charToInt "2147483648".toList = none ∧
    Decimal "2147483648".toList := by
  refine ⟨by decide +kernel, by decide +kernel, by decide, Or.inr ⟨by decide, by decide⟩⟩

/-- C49: a number followed by any other character is refused. -/
theorem c49_garbage (ds t : List Char) (c : Char) (h : Decimal ds) (hc : digitOf c = none) :
    charToInt (ds ++ c :: t) = none := by
  have e := strtolDigits_decimal ds (c :: t) h (by
    intro c' h'; simp only [List.head?_cons, Option.some.injEq] at h'; rw [← h']; exact hc)
  obtain ⟨d, cs, rfl⟩ : ∃ d cs, ds = d :: cs := by
    rcases h.2 with h | h
    · exact ⟨_, _, h⟩
    · exact List.exists_cons_of_ne_nil h.1
  unfold charToInt
  rw [List.cons_append, strtol_digit_head _ d (h.1 d (by simp)), ← List.cons_append, e]
  simp

example : charToInt "12 ".toList = none ∧ charToInt "12.5".toList = none := by decide

/-- C49 does not hold for numbers with a leading zero: their digits are read as an octal number,
and the digits 8 and 9 are refused. -/
theorem c49_leading_zero_violated (d : Char) (ds : List Char)
    (hd : ∀ c ∈ d :: ds, c.isDigit = true) :
    charToInt ('0' :: d :: ds) =
      if ∀ c ∈ d :: ds, c.toNat < 56 then
        (let v : ℤ := ((d :: ds).foldl (fun a c => a * 8 + (c.toNat - 48)) 0 : Nat)
         if v ≤ 2147483647 then some v else none)
      else none := by
  have hx : ¬ (d = 'x' ∨ d = 'X') := by
    have := hd d (by simp)
    rintro (rfl | rfl) <;> exact absurd this (by decide)
  have key : strtolDigits ('0' :: d :: ds) = runDigits 8 ('0' :: d :: ds) := by
    simp only [strtolDigits, if_neg hx]
  -- split into octal digits and the rest
  let p : Char → Bool := fun c => decide (c.toNat < 56)
  have hall : ∀ c ∈ '0' :: d :: ds, c.isDigit = true := by
    intro c hc
    rcases List.mem_cons.1 hc with rfl | hc
    · decide
    · exact hd c hc
  have esplit : '0' :: d :: ds = (('0' :: d :: ds).takeWhile p) ++ (('0' :: d :: ds).dropWhile p) :=
    (List.takeWhile_append_dropWhile).symm
  have hne : ('0' :: d :: ds).takeWhile p ≠ [] := by
    rw [List.takeWhile_cons_of_pos (by decide)]; simp
  have hrun := runDigits_eq 8 (('0' :: d :: ds).takeWhile p) (('0' :: d :: ds).dropWhile p) hne (by
    intro c hc
    have h1 := List.mem_takeWhile_imp hc
    have h2 := hall c ((List.takeWhile_prefix p).subset hc)
    simp only [p, decide_eq_true_eq] at h1
    exact ⟨_, digitOf_digit h2, by omega⟩) (by
    intro c hc v hv
    have hmem : c ∈ '0' :: d :: ds := (List.dropWhile_suffix p).subset (List.mem_of_head? hc)
    rw [digitOf_digit (hall c hmem)] at hv
    have hnp : p c = false := by
      have hne' : ('0' :: d :: ds).dropWhile p ≠ [] := by
        intro hnil; rw [hnil] at hc; simp at hc
      have := List.head_dropWhile_not p hne'
      have hh : (('0' :: d :: ds).dropWhile p).head hne' = c := by
        have := List.head?_eq_some_head hne'
        rw [hc] at this
        simpa using this.symm
      rwa [hh] at this
    simp only [p, decide_eq_false_iff_not] at hnp
    simp only [Option.some.injEq] at hv
    omega)
  rw [← esplit] at hrun
  unfold charToInt
  rw [strtol_digit_head _ '0' (by decide), key, hrun]
  simp only [Option.map_some]
  by_cases ho : ∀ c ∈ d :: ds, c.toNat < 56
  · rw [if_pos ho]
    have hall8 : ∀ c ∈ '0' :: d :: ds, p c = true := by
      intro c hc
      rcases List.mem_cons.1 hc with rfl | hc
      · decide
      · simpa [p] using ho c hc
    rw [List.takeWhile_eq_self_iff.2 hall8, List.dropWhile_eq_nil_iff.2 hall8]
    have hval : ('0' :: d :: ds).foldl (fun a c => a * 8 + (digitOf c).getD 0) 0 =
        (d :: ds).foldl (fun a c => a * 8 + (c.toNat - 48)) 0 := by
      rw [List.foldl_cons]
      have : 0 * 8 + (digitOf '0').getD 0 = 0 := by decide
      rw [this]
      have aux : ∀ (l : List Char) (acc : Nat), (∀ c ∈ l, c.isDigit = true) →
          l.foldl (fun a c => a * 8 + (digitOf c).getD 0) acc =
          l.foldl (fun a c => a * 8 + (c.toNat - 48)) acc := by
        intro l
        induction l with
        | nil => intros; rfl
        | cons c l ih =>
          intro acc hl
          rw [List.foldl_cons, List.foldl_cons, digitOf_digit (hl c (by simp)), Option.getD_some]
          exact ih _ fun c hc => hl c (by simp [hc])
      exact aux _ _ hd
    rw [hval]
    simp only [ne_eq, not_true_eq_false, if_false]
    split <;> split <;> first | rfl | omega
  · rw [if_neg ho, if_pos]
    intro hnil
    rw [List.dropWhile_eq_nil_iff] at hnil
    apply ho
    intro c hc
    simpa [p] using hnil c (by simp only [List.mem_cons] at hc ⊢; right; exact hc)

example : charToInt "010".toList = some 8 ∧ charToInt "08".toList = none ∧
    charToInt "0x10".toList = some 16 := by decide

end Verif.Str

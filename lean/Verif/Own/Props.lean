import Verif.Own.Model
import Mathlib.Data.List.Nodup
import Mathlib.Data.Finset.Card

/-! Property C318. -/

namespace Verif.Own

open Verif.Str (Out)

/-- No block with a number that is still to come is in use. -/
def Heap.WF (h : Heap) : Prop := ∀ p ∈ h.live, p < h.next

/-- From `h` to `h'`, exactly the blocks `ids` were obtained. -/
structure Got (h h' : Heap) (ids : List Nat) : Prop where
  live : ∀ p, p ∈ h'.live ↔ p ∈ h.live ∨ p ∈ ids
  nodup : ids.Nodup
  lo : ∀ p ∈ ids, h.next ≤ p
  hi : ∀ p ∈ ids, p < h'.next
  le : h.next ≤ h'.next

theorem Got.refl (h : Heap) : Got h h [] := ⟨by simp, by simp, by simp, by simp, le_refl _⟩

theorem Got.trans {h h1 h2 : Heap} {a b : List Nat} (x : Got h h1 a) (y : Got h1 h2 b) : Got h h2 (a ++ b) := by
  refine ⟨fun p => ?_, ?_, ?_, ?_, le_trans x.le y.le⟩
  · rw [y.live, x.live, List.mem_append]; tauto
  · rw [List.nodup_append]
    refine ⟨x.nodup, y.nodup, fun p hp q hq e => ?_⟩
    have := x.hi p hp; have := y.lo q hq; omega
  · intro p hp
    rcases List.mem_append.1 hp with k | k
    · exact x.lo p k
    · exact le_trans x.le (y.lo p k)
  · intro p hp
    rcases List.mem_append.1 hp with k | k
    · exact lt_of_lt_of_le (x.hi p k) y.le
    · exact y.hi p k

theorem Got.perm {h h' : Heap} {a b : List Nat} (x : Got h h' a) (e : a.Perm b) : Got h h' b :=
  ⟨fun p => by rw [x.live, e.mem_iff], e.nodup_iff.1 x.nodup, fun p hp => x.lo p (e.mem_iff.2 hp),
    fun p hp => x.hi p (e.mem_iff.2 hp), x.le⟩

theorem got_alloc (h : Heap) : Got h (alloc h).1 [(alloc h).2] := by
  refine ⟨fun p => ?_, by simp, ?_, ?_, ?_⟩ <;> simp [alloc]
  tauto

theorem got_allocN (h : Heap) (n : Nat) : Got h (allocN h n).1 (allocN h n).2 ∧ (allocN h n).2.length = n := by
  induction n generalizing h with
  | zero => exact ⟨Got.refl h, rfl⟩
  | succ n ih => exact ⟨(got_alloc h).trans (ih (alloc h).1).1, by simp [allocN, (ih (alloc h).1).2]⟩

/-- The blocks of an array of arrays, in the order they are freed. -/
def Arr2.ids (a : Arr2) : List Nat := a.rows ++ [a.base]

theorem got_alloc2D (h : Heap) (n : Nat) :
    Got h (alloc2D h n).1 (alloc2D h n).2.ids ∧ (alloc2D h n).2.rows.length = n :=
  ⟨((got_alloc h).trans (got_allocN (alloc h).1 n).1).perm (by
    show ([(alloc h).2] ++ (allocN (alloc h).1 n).2).Perm ((allocN (alloc h).1 n).2 ++ [(alloc h).2])
    exact List.perm_append_comm), (got_allocN (alloc h).1 n).2⟩

/-- Freeing a list of blocks. -/
def freeAll (h : Heap) : List Nat → Out Heap
  | [] => .ok h
  | p :: ps => (free h p).bind fun h' => freeAll h' ps

theorem freeAll_append (h : Heap) (a b : List Nat) :
    freeAll h (a ++ b) = (freeAll h a).bind fun h' => freeAll h' b := by
  induction a generalizing h with
  | nil => rfl
  | cons p ps ih =>
    show (free h p).bind _ = ((free h p).bind _).bind _
    cases free h p with
    | ok h' => exact ih h'
    | exit => rfl
    | ub => rfl

theorem freeAll_ok (ids : List Nat) (h : Heap) (nd : ids.Nodup) (hm : ∀ p ∈ ids, p ∈ h.live) :
    freeAll h ids = .ok ⟨h.next, h.live \ ids.toFinset⟩ := by
  induction ids generalizing h with
  | nil => simp [freeAll]
  | cons p ps ih =>
    obtain ⟨hp, nd'⟩ := List.nodup_cons.1 nd
    have e : free h p = .ok { h with live := h.live.erase p } := if_pos (hm p (by simp))
    show (free h p).bind _ = _
    rw [e]
    show freeAll { h with live := h.live.erase p } ps = _
    rw [ih _ nd' (fun q hq => by
      refine Finset.mem_erase.2 ⟨fun k => hp (k ▸ hq), hm q (by simp [hq])⟩)]
    congr 2
    ext q
    simp
    tauto

/-- Blocks that were obtained can be freed, and the heap is as before. -/
theorem freeAll_got {h h' : Heap} {ids : List Nat} (w : h.WF) (g : Got h h' ids) :
    freeAll h' ids = .ok ⟨h'.next, h.live⟩ := by
  rw [freeAll_ok ids h' g.nodup (fun p hp => (g.live p).2 (Or.inr hp))]
  congr 2
  ext q
  rw [Finset.mem_sdiff, g.live, List.mem_toFinset]
  constructor
  · rintro ⟨a | a, b⟩
    · exact a
    · exact absurd a b
  · intro a
    refine ⟨Or.inl a, fun b => ?_⟩
    have := w q a; have := g.lo q b; omega

theorem freeN_eq (h : Heap) (l : List Nat) (n : Nat) (hn : n ≤ l.length) : freeN h l n = freeAll h (l.take n) := by
  induction l generalizing h n with
  | nil => have : n = 0 := by simpa using hn
           subst this; rfl
  | cons p ps ih =>
    cases n with
    | zero => rfl
    | succ n =>
      show (free h p).bind _ = (free h p).bind _
      congr 1
      funext h'
      exact ih h' n (by simpa using hn)

theorem free2D_eq (h : Heap) (a : Arr2) (n : Nat) (hn : a.rows.length = n) (hb : a.base ∈ h.live) :
    free2D h a n = freeAll h a.ids := by
  unfold free2D
  rw [if_neg (fun k => k.2 hb), freeN_eq h a.rows n hn.ge, ← hn, List.take_length]
  unfold Arr2.ids
  rw [freeAll_append]
  congr 1
  funext h'
  show _ = (free h' a.base).bind _
  cases free h' a.base <;> rfl

/-- C318: what `alloc_2D` obtained, `free_2D` with the same number of rows gives back: exactly that, and nothing is freed
twice. -/
theorem c318_2d (h : Heap) (w : h.WF) (n : Nat) :
    (alloc2D h n).1.live.card = h.live.card + (n + 1) ∧
    free2D (alloc2D h n).1 (alloc2D h n).2 n = .ok ⟨(alloc2D h n).1.next, h.live⟩ := by
  obtain ⟨g, hl⟩ := got_alloc2D h n
  constructor
  · have e : (alloc2D h n).1.live = h.live ∪ (alloc2D h n).2.ids.toFinset := by
      ext p; rw [g.live, Finset.mem_union, List.mem_toFinset]
    rw [e, Finset.card_union_of_disjoint, List.toFinset_card_of_nodup g.nodup]
    · simp [Arr2.ids, hl]
    · rw [Finset.disjoint_left]
      intro p hp hq
      have := w p hp; have := g.lo p (List.mem_toFinset.1 hq); omega
  · rw [free2D_eq _ _ n hl ((g.live _).2 (Or.inr (by simp [Arr2.ids])))]
    exact freeAll_got w g

theorem freeN_over (l : List Nat) (h : Heap) (n : Nat) (hn : l.length < n) : ∀ h', freeN h l n ≠ .ok h' := by
  induction l generalizing h n with
  | nil =>
    intro h'
    obtain ⟨m, rfl⟩ : ∃ m, n = m + 1 := ⟨n - 1, by simp at hn; omega⟩
    simp [freeN]
  | cons p ps ih =>
    intro h'
    obtain ⟨m, rfl⟩ : ∃ m, n = m + 1 := ⟨n - 1, by simp at hn; omega⟩
    show (free h p).bind _ ≠ _
    unfold free
    split
    · exact ih _ m (by simpa using hn) h'
    · simp [Out.bind]

/-- C318: with another number of rows, `free_2D` leaves rows in use, or goes beyond the array (undefined behaviour). -/
theorem c318_2d_count (h : Heap) (w : h.WF) (n m : Nat) :
    (m ≤ n → ∃ h', free2D (alloc2D h n).1 (alloc2D h n).2 m = .ok h' ∧ h'.live.card = h.live.card + (n - m)) ∧
    (n < m → ∀ h', free2D (alloc2D h n).1 (alloc2D h n).2 m ≠ .ok h') := by
  obtain ⟨g, hl⟩ := got_alloc2D h n
  have hb : (alloc2D h n).2.base ∈ (alloc2D h n).1.live := (g.live _).2 (Or.inr (by simp [Arr2.ids]))
  constructor
  · intro hm
    have e : free2D (alloc2D h n).1 (alloc2D h n).2 m =
        freeAll (alloc2D h n).1 ((alloc2D h n).2.rows.take m ++ [(alloc2D h n).2.base]) := by
      unfold free2D
      rw [if_neg (fun k => k.2 hb), freeN_eq _ _ m (by omega), freeAll_append]
      congr 1
      funext h'
      show _ = (free h' _).bind _
      cases free h' (alloc2D h n).2.base <;> rfl
    have sub : ((alloc2D h n).2.rows.take m ++ [(alloc2D h n).2.base]).Sublist (alloc2D h n).2.ids :=
      (List.take_sublist _ _).append (List.Sublist.refl _)
    have nd := g.nodup.sublist sub
    have mem : ∀ p ∈ (alloc2D h n).2.rows.take m ++ [(alloc2D h n).2.base], p ∈ (alloc2D h n).1.live :=
      fun p hp => (g.live p).2 (Or.inr (sub.subset hp))
    refine ⟨_, e.trans (freeAll_ok _ _ nd mem), ?_⟩
    show ((alloc2D h n).1.live \ _).card = _
    rw [Finset.card_sdiff_of_subset (fun p hp => mem p (List.mem_toFinset.1 hp)),
      List.toFinset_card_of_nodup nd, (c318_2d h w n).1]
    simp [hl]
    omega
  · intro hm h' k
    unfold free2D at k
    rw [if_neg (fun k => k.2 hb)] at k
    cases e : freeN (alloc2D h n).1 (alloc2D h n).2.rows m with
    | ok x => exact freeN_over _ _ m (by omega) x e
    | exit => rw [e] at k; cases k
    | ub => rw [e] at k; cases k

/-- C318: what `alloc_2DC` obtained with at least one row, `free_2DC` gives back. -/
theorem c318_2dc_partial (h : Heap) (w : h.WF) (n1 n2 : Nat) (h1 : 0 < n1) :
    free2DC (alloc2DC h n1 n2).1 (alloc2DC h n1 n2).2 = .ok ⟨h.next + 2, h.live⟩ := by
  obtain ⟨k, rfl⟩ : ∃ k, n1 = k + 1 := ⟨n1 - 1, by omega⟩
  have g : Got h (alloc2DC h (k + 1) n2).1 [h.next, h.next + 1] := (got_alloc h).trans (got_alloc (alloc h).1)
  have hb : (alloc2DC h (k + 1) n2).2.base ∈ (alloc2DC h (k + 1) n2).1.live := by simp [alloc2DC, alloc]
  have e : ∃ r, (alloc2DC h (k + 1) n2).2.rows = (h.next, 0) :: r :=
    ⟨_, by simp [alloc2DC, alloc, List.range_succ_eq_map]; rfl⟩
  obtain ⟨r, e⟩ := e
  unfold free2DC
  rw [if_neg (fun k => k hb), e]
  show (if (0 : Nat) ≠ 0 then Out.ub else _) = _
  rw [if_neg (by simp)]
  have := freeAll_got w g
  have f : freeAll (alloc2DC h (k + 1) n2).1 [h.next, h.next + 1] =
      (free (alloc2DC h (k + 1) n2).1 h.next).bind fun h' => free h' (alloc2DC h (k + 1) n2).2.base := by
    show (free _ _).bind _ = _
    congr 1
    funext h'
    show (free h' _).bind _ = _
    show (free h' (h.next + 1)).bind _ = free h' (h.next + 1)
    cases free h' (h.next + 1) <;> rfl
  rw [← f, this]
  rfl

/-- C318, violated: a contiguous array without rows cannot be freed: `free_2DC` reads beyond the array of pointers. -/
theorem c318_2dc_violated (h : Heap) (n2 : Nat) : free2DC (alloc2DC h 0 n2).1 (alloc2DC h 0 n2).2 = .ub := by
  simp [free2DC, alloc2DC]

/-- The blocks of a 3D array, in the order they are freed. -/
def Arr3.ids (a : Arr3) : List Nat := a.rows.flatMap Arr2.ids ++ [a.base]

theorem got_allocRows (h : Heap) (n2 n : Nat) :
    Got h (allocRows h n2 n).1 ((allocRows h n2 n).2.flatMap Arr2.ids) ∧ (allocRows h n2 n).2.length = n ∧
    ∀ a ∈ (allocRows h n2 n).2, a.rows.length = n2 := by
  induction n generalizing h with
  | zero => exact ⟨Got.refl h, rfl, by simp [allocRows]⟩
  | succ n ih =>
    obtain ⟨g, l⟩ := got_alloc2D h n2
    obtain ⟨g', l', m'⟩ := ih (alloc2D h n2).1
    refine ⟨?_, by simp [allocRows, l'], ?_⟩
    · show Got h (allocRows (alloc2D h n2).1 n2 n).1 (((alloc2D h n2).2 :: (allocRows (alloc2D h n2).1 n2 n).2).flatMap Arr2.ids)
      rw [List.flatMap_cons]
      exact g.trans g'
    · intro a ha
      rcases List.mem_cons.1 ha with rfl | k
      · exact l
      · exact m' a k

theorem freeRows_eq (n2 : Nat) (l : List Arr2) (h : Heap) (hl : ∀ a ∈ l, a.rows.length = n2)
    (nd : (l.flatMap Arr2.ids).Nodup) (hm : ∀ p ∈ l.flatMap Arr2.ids, p ∈ h.live) :
    freeRows h n2 l l.length = freeAll h (l.flatMap Arr2.ids) := by
  induction l generalizing h with
  | nil => rfl
  | cons a as ih =>
    rw [List.flatMap_cons] at nd hm ⊢
    obtain ⟨na, nas, dis⟩ := List.nodup_append.1 nd
    rw [freeAll_append]
    show (free2D h a n2).bind _ = _
    rw [free2D_eq h a n2 (hl a (by simp)) (hm _ (by simp [Arr2.ids])),
      freeAll_ok a.ids h na (fun p hp => hm p (by simp [hp]))]
    show freeRows _ n2 as as.length = freeAll _ _
    refine ih _ (fun b hb => hl b (by simp [hb])) nas (fun p hp => ?_)
    refine Finset.mem_sdiff.2 ⟨hm p (List.mem_append_right _ hp), fun k => ?_⟩
    exact dis p (List.mem_toFinset.1 k) p hp rfl

/-- C318: what `alloc_3D` obtained, `free_3D` with the same sizes gives back. -/
theorem c318_3d (h : Heap) (w : h.WF) (n1 n2 : Nat) :
    free3D (alloc3D h n1 n2).1 (alloc3D h n1 n2).2 n1 n2 = .ok ⟨(alloc3D h n1 n2).1.next, h.live⟩ := by
  obtain ⟨g, l, m⟩ := got_allocRows (alloc h).1 n2 n1
  have G : Got h (alloc3D h n1 n2).1 (alloc3D h n1 n2).2.ids := ((got_alloc h).trans g).perm (by
    show ([(alloc h).2] ++ (allocRows (alloc h).1 n2 n1).2.flatMap Arr2.ids).Perm
      ((allocRows (alloc h).1 n2 n1).2.flatMap Arr2.ids ++ [(alloc h).2])
    exact List.perm_append_comm)
  have hb : (alloc3D h n1 n2).2.base ∈ (alloc3D h n1 n2).1.live := (G.live _).2 (Or.inr (by simp [Arr3.ids]))
  have hr : (alloc3D h n1 n2).2.rows.length = n1 := l
  rw [← freeAll_got w G]
  unfold free3D
  rw [if_neg (fun k => k.2 hb)]
  unfold Arr3.ids
  rw [freeAll_append]
  have e := freeRows_eq n2 (alloc3D h n1 n2).2.rows (alloc3D h n1 n2).1 m
    (g.nodup) (fun p hp => (G.live p).2 (Or.inr (by
      show p ∈ _ ++ _
      exact List.mem_append_left _ hp)))
  rw [hr] at e
  rw [e]
  congr 1
  funext h'
  show _ = (free h' _).bind _
  cases free h' (alloc3D h n1 n2).2.base <;> rfl

example : free3D (alloc3D ⟨5, {1, 3}⟩ 2 3).1 (alloc3D ⟨5, {1, 3}⟩ 2 3).2 2 3 = .ok ⟨14, {1, 3}⟩ := by decide +kernel

/-- The blocks of optional names. -/
def nameIds : Option Arr2 → List Nat
  | some a => a.ids
  | none => []

theorem got_names (h : Heap) (has : Bool) (n : Nat) :
    Got h (allocNames h has n).1 (nameIds (allocNames h has n).2) := by
  cases has with
  | true => exact (got_alloc2D h n).1
  | false => exact Got.refl h

theorem freeAll_ub (ids : List Nat) (h : Heap) (p : Nat) (hp : p ∈ ids) (hl : p ∉ h.live) : freeAll h ids = .ub := by
  induction ids generalizing h with
  | nil => simp at hp
  | cons q qs ih =>
    show (free h q).bind _ = _
    unfold free
    split
    · next hq =>
      rcases List.mem_cons.1 hp with rfl | k
      · exact absurd hq hl
      · exact ih _ k (fun m => hl (Finset.mem_of_mem_erase m))
    · rfl

theorem free2D_all (h : Heap) (a : Arr2) (n : Nat) (hn : a.rows.length = n) : free2D h a n = freeAll h a.ids := by
  by_cases hb : a.base ∈ h.live
  · exact free2D_eq h a n hn hb
  · rw [freeAll_ub a.ids h a.base (by simp [Arr2.ids]) hb]
    unfold free2D
    by_cases h0 : 0 < n
    · rw [if_pos ⟨h0, hb⟩]
    · rw [if_neg (fun k => h0 k.1)]
      obtain rfl : n = 0 := by omega
      have e : freeN h a.rows 0 = .ok h := by cases a.rows <;> rfl
      rw [e]
      exact if_neg hb

theorem freeNames_all (h h0 : Heap) (has : Bool) (n : Nat) :
    freeNames h has (allocNames h0 has n).2 n = freeAll h (nameIds (allocNames h0 has n).2) := by
  cases has with
  | true => exact free2D_all h _ n (got_alloc2D h0 n).2
  | false => rfl

theorem freeData_all (h h0 : Heap) (n : Nat) : freeData h (some (alloc2D h0 n).2) n = freeAll h (alloc2D h0 n).2.ids :=
  free2D_all h _ n (got_alloc2D h0 n).2

theorem freeOpt_all (h : Heap) (p : Nat) : freeOpt h (some p) = freeAll h [p] := by
  show free h p = (free h p).bind _
  cases free h p <;> rfl

theorem freeAll_bind {α : Type} (h : Heap) (a b : List Nat) (k : Heap → Out α) :
    ((freeAll h a).bind fun h' => (freeAll h' b).bind k) = (freeAll h (a ++ b)).bind k := by
  rw [freeAll_append]
  cases freeAll h a <;> rfl

/-- The table after it was freed: everything is NULL, except for the pointers to names. -/
def freed (t : Tab) : Tab :=
  { t with data := none, rowMask := none, colMask := none, mean := none, sd := none, min := none, max := none, sum := none }

/-- C318: whatever was in use before, and with or without names, `free_table` gives back exactly what `allocate_table`
obtained; a table without rows or columns ends the program. -/
theorem c318_table (h : Heap) (w : h.WF) (nrow ncol : Nat) (hr hc : Bool) :
    (1 ≤ nrow → 1 ≤ ncol → freeTable (allocateTable h nrow ncol hr hc).1 (allocateTable h nrow ncol hr hc).2 =
      .ok (⟨(allocateTable h nrow ncol hr hc).1.next, h.live⟩, freed (allocateTable h nrow ncol hr hc).2)) ∧
    (nrow = 0 ∨ ncol = 0 →
      freeTable (allocateTable h nrow ncol hr hc).1 (allocateTable h nrow ncol hr hc).2 = .exit) := by
  constructor
  · intro h1 h2
    have gd := (got_alloc2D h nrow).1
    have gr := got_names (alloc2D h nrow).1 hr nrow
    have gc := got_names (allocNames (alloc2D h nrow).1 hr nrow).1 hc ncol
    generalize hcd : (allocNames (allocNames (alloc2D h nrow).1 hr nrow).1 hc ncol) = c at gc
    have g1 := got_alloc c.1
    have g2 := got_alloc (alloc c.1).1
    have g3 := got_alloc (alloc (alloc c.1).1).1
    have g4 := got_alloc (alloc (alloc (alloc c.1).1).1).1
    have g5 := got_alloc (alloc (alloc (alloc (alloc c.1).1).1).1).1
    have g6 := got_alloc (alloc (alloc (alloc (alloc (alloc c.1).1).1).1).1).1
    have g7 := got_alloc (alloc (alloc (alloc (alloc (alloc (alloc c.1).1).1).1).1).1).1
    have G := ((((((((gd.trans gr).trans gc).trans g1).trans g2).trans g3).trans g4).trans g5).trans g6).trans g7
    have hn : ∀ x : Heap, freeNames x hc c.2 ncol = freeAll x (nameIds c.2) := fun x => by
      rw [← hcd]; exact freeNames_all x _ hc ncol
    have G' := G.perm (b := (((((((nameIds (allocNames (alloc2D h nrow).1 hr nrow).2 ++ nameIds c.2) ++
      (alloc2D h nrow).2.ids) ++ [(alloc c.1).2]) ++ [(alloc (alloc c.1).1).2]) ++ [(alloc (alloc (alloc c.1).1).1).2]) ++
      [(alloc (alloc (alloc (alloc c.1).1).1).1).2]) ++ [(alloc (alloc (alloc (alloc (alloc c.1).1).1).1).1).2]) ++
      [(alloc (alloc (alloc (alloc (alloc (alloc c.1).1).1).1).1).1).2] ++
      [(alloc (alloc (alloc (alloc (alloc (alloc (alloc c.1).1).1).1).1).1).1).2]) (by
        repeat refine List.Perm.append_right _ ?_
        rw [List.append_assoc]
        exact List.perm_append_comm)
    have F := freeAll_got w G'
    subst hcd
    refine (if_neg (show ¬ (nrow < 1 ∨ ncol < 1) by omega)).trans ?_
    show ((freeNames _ hr (allocNames (alloc2D h nrow).1 hr nrow).2 nrow).bind fun x =>
        (freeNames x hc (allocNames (allocNames (alloc2D h nrow).1 hr nrow).1 hc ncol).2 ncol).bind fun x =>
        (freeData x (some (alloc2D h nrow).2) nrow).bind fun x =>
        (freeOpt x (some _)).bind fun x => (freeOpt x (some _)).bind fun x => (freeOpt x (some _)).bind fun x =>
        (freeOpt x (some _)).bind fun x => (freeOpt x (some _)).bind fun x => (freeOpt x (some _)).bind fun x =>
        (freeOpt x (some _)).bind fun x => .ok (x, _)) = _
    simp only [freeNames_all, freeData_all, freeOpt_all, freeAll_bind]
    simp only [List.append_assoc] at F
    exact congrArg (fun o => Out.bind o fun x => Out.ok (x, freed (allocateTable h nrow ncol hr hc).2)) F
  · intro h0
    exact if_pos (show nrow < 1 ∨ ncol < 1 by omega)

/-- C318: a table without names can be freed twice. -/
theorem c318_twice_partial (h : Heap) (w : h.WF) (nrow ncol : Nat) (h1 : 1 ≤ nrow) (h2 : 1 ≤ ncol) (x : Heap) (t : Tab)
    (e : freeTable (allocateTable h nrow ncol false false).1 (allocateTable h nrow ncol false false).2 = .ok (x, t)) :
    freeTable x t = .ok (x, t) := by
  rw [(c318_table h w nrow ncol false false).1 h1 h2] at e
  cases e
  refine (if_neg (show ¬ (nrow < 1 ∨ ncol < 1) by omega)).trans ?_
  rfl

/-- C318, violated: the pointers to names are not reset: freeing a table with names twice frees the same memory twice. -/
theorem c318_twice_violated (h : Heap) (w : h.WF) (nrow ncol : Nat) (hr hc : Bool) (hn : hr = true ∨ hc = true)
    (h1 : 1 ≤ nrow) (h2 : 1 ≤ ncol) (x : Heap) (t : Tab)
    (e : freeTable (allocateTable h nrow ncol hr hc).1 (allocateTable h nrow ncol hr hc).2 = .ok (x, t)) :
    freeTable x t = .ub := by
  rw [(c318_table h w nrow ncol hr hc).1 h1 h2] at e
  cases e
  have dead : ∀ (h0 : Heap) (n m : Nat), h.next ≤ h0.next → 1 ≤ n →
      free2D ⟨m, h.live⟩ (alloc2D h0 n).2 n = .ub := by
    intro h0 n m hle h1
    refine if_pos ⟨h1, fun k => ?_⟩
    have := w _ k
    have : (alloc2D h0 n).2.base = h0.next := rfl
    omega
  have l1 := (got_alloc2D h nrow).1.le
  have l2 := (got_names (alloc2D h nrow).1 hr nrow).le
  refine (if_neg (show ¬ (nrow < 1 ∨ ncol < 1) by omega)).trans ?_
  show ((freeNames ⟨_, h.live⟩ hr (allocNames (alloc2D h nrow).1 hr nrow).2 nrow).bind fun x =>
        (freeNames x hc (allocNames (allocNames (alloc2D h nrow).1 hr nrow).1 hc ncol).2 ncol).bind _) = _
  cases hr with
  | true =>
    have : freeNames ⟨(allocateTable h nrow ncol true hc).1.next, h.live⟩ true (allocNames (alloc2D h nrow).1 true nrow).2 nrow = .ub :=
      dead _ _ _ l1 h1
    rw [this]; rfl
  | false =>
    cases hc with
    | false => simp at hn
    | true =>
      show ((free2D ⟨_, h.live⟩ (alloc2D (alloc2D h nrow).1 ncol).2 ncol).bind _) = _
      rw [dead _ _ _ l1 h2]; rfl

example : Heap.WF ⟨5, {1, 3}⟩ := by intro p hp; simp at hp; show p < 5; omega
example : (allocateTable ⟨5, {1, 3}⟩ 2 3 true false).1.live.card = 15 := by decide +kernel

end Verif.Own

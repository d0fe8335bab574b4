import Verif.Queue.Spec

/-!
# Property C11: the coordinate queue is a bounded FIFO
-/

namespace Verif.Queue

theorem toShort_id {x : Int} (h1 : -32768 ≤ x) (h2 : x < 32768) : toShort x = x := by
  unfold toShort
  rw [BitVec.toInt_ofInt]
  rw [Int.bmod_def]
  have : (2 ^ 16 : Nat) = 65536 := by decide
  simp only [this]
  split <;> omega

/-- Position of the `i`-th oldest element. -/
def pos (size tail i : Nat) : Nat := if tail + i < size then tail + i else tail + i - size

/-- The circular buffer represents a list. -/
structure Rep (q : Q) (l : List (Int × Int)) : Prop where
  head_lt : q.head < q.size
  tail_lt : q.tail < q.size
  len : l.length < q.size
  head_eq : q.head = pos q.size q.tail l.length
  content : ∀ i (h : i < l.length), q.buf (pos q.size q.tail i) = l[i]

theorem rep_step (q : Q) (l : List (Int × Int)) (o : Op) (hr : Rep q l) (ho : Spec.Fits o) :
    (step q o).1 = (Spec.step (q.size - 1) l o).1 ∧
    Rep (step q o).2 (Spec.step (q.size - 1) l o).2 ∧ (step q o).2.size = q.size := by
  obtain ⟨h1, h2, h3, h4, h5⟩ := hr
  cases o with
  | enq x y =>
    obtain ⟨⟨hx1, hx2⟩, hy1, hy2⟩ := ho
    simp only [step, enqueue, Spec.step]
    have hcond : (q.head + 1 = q.tail ∨ (q.head + 1 = q.size ∧ q.tail = 0)) ↔
        l.length = q.size - 1 := by
      rw [h4]; unfold pos; split <;> omega
    by_cases hfull : l.length = q.size - 1
    · rw [if_pos (hcond.2 hfull), if_pos hfull]
      exact ⟨rfl, ⟨h1, h2, h3, h4, h5⟩, rfl⟩
    · rw [if_neg (fun h => hfull (hcond.1 h)), if_neg hfull, if_neg (by omega)]
      refine ⟨rfl, ⟨?_, h2, ?_, ?_, ?_⟩, rfl⟩
      · dsimp only; split <;> omega
      · simp only [List.length_append, List.length_singleton]; omega
      · simp only [List.length_append, List.length_singleton]
        rw [h4]; unfold pos
        split <;> split <;> split <;> omega
      · intro i hi
        simp only [List.length_append, List.length_singleton] at hi
        dsimp only
        by_cases hil : i < l.length
        · rw [if_neg, h5 i hil, List.getElem_append_left hil]
          rw [h4]; unfold pos; split <;> split <;> omega
        · have hil' : i = l.length := by omega
          subst hil'
          rw [if_pos h4.symm]
          simp [toShort_id hx1 hx2, toShort_id hy1 hy2]
  | deq =>
    simp only [step, dequeue]
    cases l with
    | nil =>
      have : q.tail = q.head := by rw [h4]; unfold pos; simp; omega
      rw [if_neg (by simp [this])]
      exact ⟨rfl, ⟨h1, h2, h3, h4, h5⟩, rfl⟩
    | cons a l =>
      simp only [List.length_cons] at h3 h4 h5
      have hne : q.tail ≠ q.head := by rw [h4]; unfold pos; split <;> omega
      rw [if_pos hne, if_neg (by omega)]
      have h0 := h5 0 (by omega)
      have hp0 : pos q.size q.tail 0 = q.tail := by unfold pos; simp; omega
      rw [hp0] at h0
      simp only [List.getElem_cons_zero] at h0
      refine ⟨?_, ⟨?_, ?_, ?_, ?_, ?_⟩, rfl⟩
      · simp [Spec.step, h0]
      · exact h1
      · dsimp only; split <;> omega
      · simp only [Spec.step]; omega
      · simp only [Spec.step]
        rw [h4]; unfold pos
        split <;> split <;> split <;> omega
      · intro i hi
        simp only [Spec.step] at hi ⊢
        have := h5 (i + 1) (by omega)
        rw [List.getElem_cons_succ] at this
        rw [← this]
        congr 1
        unfold pos
        split <;> split <;> split <;> omega

/-- C11: on a fresh queue of any size n ≥ 1, every sequence of calls (with coordinates that fit
16 bits) gives the results of an abstract FIFO list of capacity n - 1. In particular no call
accesses memory outside the buffer. -/
theorem c11_bounded_fifo (n : Nat) (hn : 1 ≤ n) (ops : List Op) (ho : ∀ o ∈ ops, Spec.Fits o) :
    run (create n) ops = Spec.run (n - 1) [] ops := by
  have key : ∀ (ops : List Op) (q : Q) (l : List (Int × Int)), q.size = n → Rep q l →
      (∀ o ∈ ops, Spec.Fits o) → run q ops = Spec.run (n - 1) l ops := by
    intro ops
    induction ops with
    | nil => intros; rfl
    | cons o os ih =>
      intro q l hq hr ho
      have hs := rep_step q l o hr (ho o (by simp))
      rw [hq] at hs
      simp only [run, Spec.run]
      rw [hs.1, ih _ _ hs.2.2 hs.2.1 (fun o h => ho o (by simp [h]))]
  refine key ops _ _ rfl ⟨?_, ?_, ?_, ?_, ?_⟩ ho
  · simp only [create]; omega
  · simp only [create]; omega
  · simp only [create, List.length_nil]; omega
  · simp [create, pos]
  · intro i hi; simp at hi

/-- C11: no sequence of calls touches memory outside the buffer. -/
theorem c11_in_bounds (n : Nat) (hn : 1 ≤ n) (ops : List Op) (ho : ∀ o ∈ ops, Spec.Fits o) :
    Res.ub ∉ run (create n) ops := by
  rw [c11_bounded_fifo n hn ops ho]
  have key : ∀ (ops : List Op) (l : List (Int × Int)), Res.ub ∉ Spec.run (n - 1) l ops := by
    intro ops
    induction ops with
    | nil => intro l; simp [Spec.run]
    | cons o os ih =>
      intro l
      simp only [Spec.run, List.mem_cons, not_or]
      refine ⟨?_, ih _⟩
      cases o with
      | enq x y => simp only [Spec.step]; split <;> simp
      | deq => cases l <;> simp [Spec.step]
  exact key ops []

/-- Limits of C11: a queue of size 0 (which greyscale reconstruction would create for an image
of one pixel) accepts an element outside its buffer, and larger coordinates are cut to 16 bits. -/
theorem c11_limits :
    (enqueue (create 0) 1 1).1 = .ub ∧
    run (create 3) [.enq 32768 5, .deq] = [.success 32768 5, .success (-32768) 5] := by decide

example : run (create 3) [.enq 1 2, .enq 3 4, .enq 5 6, .deq, .enq 7 8, .deq, .deq, .deq] =
    [.success 1 2, .success 3 4, .failure, .success 1 2, .success 7 8, .success 3 4,
     .success 7 8, .failure] := by decide

end Verif.Queue

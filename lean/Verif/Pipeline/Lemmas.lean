import Verif.Pipeline.Spec

namespace Verif.Pipeline
open Spec

/-- Counters at iteration `k`. -/
def unitsAt (k : Nat) : Units := ⟨(k : Int) - 2, (k : Int) - 1, k⟩

theorem loop_stop (n : Nat) (u : Units) (h : u.now + 1 > n) : loop n u = [] := by
  rw [loop]
  exact if_pos h

theorem loop_go (n : Nat) (u : Units) (h : ¬ u.now + 1 > n) :
    loop n u = advance u :: loop n (advance u) := by
  rw [loop]
  exact if_neg h

theorem loop_eq (n : Nat) : ∀ (j k : Nat), j = n + 2 - k → k ≤ n + 2 →
    loop n ⟨(k : Int) - 3, (k : Int) - 2, (k : Int) - 1⟩ =
      (List.range' k j).map unitsAt := by
  intro j
  induction j with
  | zero =>
    intro k hj hk
    rw [loop_stop _ _ (by show (k : Int) - 2 + 1 > n; omega)]
    rfl
  | succ j ih =>
    intro k hj hk
    have h := ih (k + 1) (by omega) (by omega)
    rw [loop_go _ _ (by show ¬ (k : Int) - 2 + 1 > n; omega), List.range'_succ, List.map_cons, ← h]
    have e : advance ⟨(k : Int) - 3, (k : Int) - 2, (k : Int) - 1⟩ = unitsAt k := by
      simp only [advance, unitsAt, Units.mk.injEq]; omega
    rw [e]
    congr 2
    simp only [unitsAt, Units.mk.injEq]; omega

/-- The work of iteration `k`. -/
def workAt (n k : Nat) : Work :=
  ⟨if k < n then some (k : Int) else none,
   if 1 ≤ k ∧ k ≤ n then some ((k : Int) - 1) else none,
   if 2 ≤ k then some ((k : Int) - 2) else none⟩

theorem workOf_unitsAt (n k : Nat) : workOf n (unitsAt k) = workAt n k := by
  have h1 : readThis n (unitsAt k) = decide (k < n) := by
    simp [readThis, unitsAt]
  have h2 : computeThis n (unitsAt k) = decide (1 ≤ k ∧ k ≤ n) := by
    unfold computeThis
    rw [decide_eq_decide]
    simp only [unitsAt]
    omega
  have h3 : writeThis (unitsAt k) = decide (2 ≤ k) := by
    unfold writeThis
    rw [decide_eq_decide]
    simp only [unitsAt]
    omega
  unfold workOf
  rw [h1, h2, h3]
  simp [workAt, unitsAt]

theorem iterations_eq (n : Nat) : iterations n = (List.range (n + 2)).map (workAt n) := by
  unfold iterations
  have h := loop_eq n (n + 2) 0 (by omega) (by omega)
  have hi : initUnits = ⟨((0 : Nat) : Int) - 3, ((0 : Nat) : Int) - 2, ((0 : Nat) : Int) - 1⟩ := rfl
  rw [hi, h, List.map_map, List.range_eq_range']
  apply List.map_congr_left
  intro k _
  exact workOf_unitsAt n k

/-! ### Commuting steps -/

section
variable {I O : Type}

/-- Two steps commute. -/
def Comm (f g : Step I O) : Prop := ∀ s, f (g s) = g (f s)

theorem exec_append (a b : List (Step I O)) (s : St I O) : exec (a ++ b) s = exec b (exec a s) := by
  simp [exec, List.foldl_append]

theorem exec_comm_one (f : Step I O) (l : List (Step I O)) (h : ∀ g ∈ l, Comm f g) (s : St I O) :
    exec l (f s) = f (exec l s) := by
  induction l generalizing s with
  | nil => rfl
  | cons g l ih =>
    show exec l (g (f s)) = f (exec l (g s))
    rw [← h g (by simp) s, ih (fun g' h' => h g' (by simp [h']))]

theorem exec_interleave {a b l : List (Step I O)} (hi : Interleave a b l)
    (hc : ∀ f ∈ a, ∀ g ∈ b, Comm f g) (s : St I O) : exec l s = exec (a ++ b) s := by
  induction hi generalizing s with
  | nil => rfl
  | left _ ih =>
    exact ih (fun f hf g hg => hc f (by simp [hf]) g hg) _
  | @right a b l x _ ih =>
    show exec l (x s) = _
    rw [ih (fun f hf g hg => hc f hf g (by simp [hg]))]
    rw [exec_append, exec_append]
    show exec b (exec a (x s)) = exec b (x (exec a s))
    rw [exec_comm_one x a]
    intro g hg s'
    exact (hc g hg x (by simp) s').symm

theorem interleave_mem {α : Type} {a b l : List α} (hi : Interleave a b l) (x : α) :
    x ∈ l ↔ x ∈ a ∨ x ∈ b := by
  induction hi with
  | nil => simp
  | left _ ih => simp [ih, or_assoc]
  | right _ ih => simp [ih]; tauto

theorem exec_interleave3 {a b c l : List (Step I O)} (hi : Interleave3 a b c l)
    (hab : ∀ f ∈ a, ∀ g ∈ b, Comm f g) (hac : ∀ f ∈ a, ∀ g ∈ c, Comm f g)
    (hbc : ∀ f ∈ b, ∀ g ∈ c, Comm f g) (s : St I O) : exec l s = exec (a ++ b ++ c) s := by
  obtain ⟨m, hm, hl⟩ := hi
  rw [exec_interleave hl, exec_append, exec_interleave hm hbc, exec_append, exec_append,
    exec_append]
  intro f hf g hg
  rcases (interleave_mem hm g).1 hg with h | h
  · exact hab f hf g h
  · exact hac f hf g h

theorem comm_onSlot {p q : Int} (h : p ≠ q) (f g : Slot I O → Slot I O) :
    Comm (onSlot p f) (onSlot q g) := by
  intro s
  simp only [onSlot, St.mk.injEq, and_true]
  funext i
  by_cases hp : i = p
  · subst hp; simp [h]
  · by_cases hq : i = q
    · subst hq; simp [hp]
    · simp [hp, hq]

theorem comm_output_slot {p q : Int} (h : p ≠ q) (f : Slot I O → Slot I O) (g : Step I O)
    (hg : g ∈ (outputSteps q : List (Step I O))) : Comm (onSlot p f) g := by
  simp only [outputSteps, List.mem_cons, List.not_mem_nil, or_false] at hg
  rcases hg with rfl | rfl
  · intro s
    have hq : (onSlot p f s).slots q = s.slots q := by
      simp [onSlot, Ne.symm h]
    simp only [hq]
    cases (s.slots q).out with
    | none => rfl
    | some o => dsimp only; split <;> rfl
  · exact comm_onSlot h _ _

theorem readSteps_onSlot (rd : Int → I) (p : Int) (f : Step I O) (h : f ∈ readSteps (O := O) rd p) :
    ∃ g, f = onSlot p g := by
  simp only [readSteps, List.mem_cons, List.not_mem_nil, or_false] at h
  rcases h with rfl | rfl <;> exact ⟨_, rfl⟩

theorem computeSteps_onSlot (cmp : I → Option O × Nat) (p : Int) (f : Step I O)
    (h : f ∈ computeSteps cmp p) : ∃ g, f = onSlot p g := by
  simp only [computeSteps, List.mem_cons, List.not_mem_nil, or_false] at h
  rcases h with rfl | rfl | rfl <;> exact ⟨_, rfl⟩

theorem mem_getD_map {α β : Type} (o : Option α) (f : α → List β) (x : β)
    (h : x ∈ (o.map f).getD []) : ∃ a, o = some a ∧ x ∈ f a := by
  cases o with
  | none => simp at h
  | some a => exact ⟨a, rfl, by simpa using h⟩

/-- In an iteration with pairwise different units every interleaving is equivalent to the
sequential order. -/
theorem exec_threads (rd : Int → I) (cmp : I → Option O × Nat) (w : Work)
    (h1 : ∀ p q, w.read = some p → w.compute = some q → p ≠ q)
    (h2 : ∀ p q, w.read = some p → w.write = some q → p ≠ q)
    (h3 : ∀ p q, w.compute = some p → w.write = some q → p ≠ q)
    (l : List (Step I O))
    (hl : Interleave3 (threads rd cmp w).1 (threads rd cmp w).2.1 (threads rd cmp w).2.2 l)
    (s : St I O) :
    exec l s = exec ((threads rd cmp w).1 ++ (threads rd cmp w).2.1 ++ (threads rd cmp w).2.2) s := by
  apply exec_interleave3 hl
  · intro f hf g hg
    obtain ⟨p, hp, hf⟩ := mem_getD_map _ _ _ hf
    obtain ⟨q, hq, hg⟩ := mem_getD_map _ _ _ hg
    obtain ⟨f', rfl⟩ := readSteps_onSlot rd p f hf
    obtain ⟨g', rfl⟩ := computeSteps_onSlot cmp q g hg
    exact comm_onSlot (h1 p q hp hq) _ _
  · intro f hf g hg
    obtain ⟨p, hp, hf⟩ := mem_getD_map _ _ _ hf
    obtain ⟨q, hq, hg⟩ := mem_getD_map _ _ _ hg
    obtain ⟨f', rfl⟩ := readSteps_onSlot rd p f hf
    exact comm_output_slot (h2 p q hp hq) _ _ hg
  · intro f hf g hg
    obtain ⟨p, hp, hf⟩ := mem_getD_map _ _ _ hf
    obtain ⟨q, hq, hg⟩ := mem_getD_map _ _ _ hg
    obtain ⟨f', rfl⟩ := computeSteps_onSlot cmp p f hf
    exact comm_output_slot (h3 p q hp hq) _ _ hg

/-! ### The state after `k` iterations of the sequential loop -/

/-- Expected slot of unit `u` before iteration `k`. -/
def slotAt (rd : Int → I) (cmp : I → Option O × Nat) (n k : Nat) (u : Int) : Slot I O :=
  if 0 ≤ u ∧ u < n then
    if (k : Int) ≤ u then ⟨.unset, none, 0⟩
    else if (k : Int) = u + 1 then ⟨.loaded (rd u), none, 0⟩
    else if (k : Int) = u + 2 then ⟨.freed, (cmp (rd u)).1, (cmp (rd u)).2⟩
    else ⟨.freed, if (cmp (rd u)).2 > 0 then none else (cmp (rd u)).1, (cmp (rd u)).2⟩
  else ⟨.unset, none, 0⟩

def stAt (rd : Int → I) (cmp : I → Option O × Nat) (n k : Nat) : St I O :=
  ⟨slotAt rd cmp n k, (List.range (k - 2)).flatMap (product rd cmp)⟩

theorem exec_read (rd : Int → I) (p : Int) (s : St I O) :
    exec (readSteps (O := O) rd p) s =
      { s with slots := fun i => if i = p then { s.slots i with inp := .loaded (rd p) } else s.slots i } := by
  simp only [exec, readSteps, List.foldl_cons, List.foldl_nil, onSlot, St.mk.injEq, and_true]
  funext i
  by_cases h : i = p <;> simp [h]

theorem exec_compute (cmp : I → Option O × Nat) (p : Int) (s : St I O) (i : I)
    (h : (s.slots p).inp = .loaded i) :
    exec (computeSteps cmp p) s =
      { s with slots := fun j => if j = p then ⟨.freed, (cmp i).1, (cmp i).2⟩ else s.slots j } := by
  simp only [exec, computeSteps, List.foldl_cons, List.foldl_nil, onSlot, St.mk.injEq, and_true]
  funext j
  by_cases hj : j = p
  · subst hj; simp [h]
  · simp [hj]

theorem exec_output (p : Int) (s : St I O) :
    exec (outputSteps p) s =
      ⟨fun j => if j = p then
          { s.slots j with out := if (s.slots j).nprod > 0 then none else (s.slots j).out }
        else s.slots j,
       match (s.slots p).out with
       | some o => if (s.slots p).nprod > 0 then s.disk ++ [(p, o)] else s.disk
       | none => s.disk⟩ := by
  simp only [exec, outputSteps, List.foldl_cons, List.foldl_nil, onSlot]
  cases hout : (s.slots p).out with
  | none =>
    simp only [St.mk.injEq, and_true]
    funext j
    by_cases hj : j = p
    · subst hj
      simp only [if_true]
      rw [← hout]
      split <;> rfl
    · simp [hj]
  | some o =>
    by_cases hn : (s.slots p).nprod > 0
    · simp only [hn, if_true, St.mk.injEq, and_true]
      funext j
      by_cases hj : j = p
      · subst hj; simp [hn]
      · simp [hj]
    · simp only [hn, if_false, St.mk.injEq, and_true]
      funext j
      by_cases hj : j = p
      · subst hj; simp [hn]
      · simp [hj]

theorem slotAt_done (rd : Int → I) (cmp : I → Option O × Nat) (n k : Nat) (u : Int)
    (h : 0 ≤ u ∧ u < n) (hk : u + 3 ≤ k) : slotAt rd cmp n k u =
      ⟨.freed, if (cmp (rd u)).2 > 0 then none else (cmp (rd u)).1, (cmp (rd u)).2⟩ := by
  unfold slotAt
  rw [if_pos h, if_neg (by omega), if_neg (by omega), if_neg (by omega)]

/-- One iteration of the sequential loop. -/
theorem stAt_step (rd : Int → I) (cmp : I → Option O × Nat) (n k : Nat) (hk : k < n + 2) :
    exec ((threads rd cmp (workAt n k)).1 ++ (threads rd cmp (workAt n k)).2.1 ++
      (threads rd cmp (workAt n k)).2.2) (stAt rd cmp n k) = stAt rd cmp n (k + 1) := by
  rw [exec_append, exec_append]
  -- read
  have h1 : exec (threads rd cmp (workAt n k)).1 (stAt rd cmp n k) =
      ⟨fun i => if i = k ∧ k < n then ⟨.loaded (rd k), none, 0⟩ else slotAt rd cmp n k i,
       (List.range (k - 2)).flatMap (product rd cmp)⟩ := by
    by_cases h : k < n
    · simp only [threads, workAt, h, if_true, Option.map_some, Option.getD_some, exec_read, stAt,
        St.mk.injEq, and_true]
      funext i
      by_cases hi : i = k
      · subst hi
        have : slotAt rd cmp n k k = ⟨.unset, none, 0⟩ := by
          simp only [slotAt]; split <;> simp
        simp [this]
      · simp [hi]
    · simp only [threads, workAt, h, if_false, Option.map_none, Option.getD_none, exec,
        List.foldl_nil, stAt, St.mk.injEq, and_true]
      funext i
      simp
  rw [h1]
  -- compute
  have h2 : exec (threads rd cmp (workAt n k)).2.1
      ⟨fun i => if i = k ∧ k < n then ⟨.loaded (rd k), none, 0⟩ else slotAt rd cmp n k i,
       (List.range (k - 2)).flatMap (product rd cmp)⟩ =
      ⟨fun i => if i = k ∧ k < n then ⟨.loaded (rd k), none, 0⟩ else
        if i = (k : Int) - 1 ∧ 1 ≤ k ∧ k ≤ n then
          ⟨.freed, (cmp (rd ((k : Int) - 1))).1, (cmp (rd ((k : Int) - 1))).2⟩
        else slotAt rd cmp n k i,
       (List.range (k - 2)).flatMap (product rd cmp)⟩ := by
    by_cases h : 1 ≤ k ∧ k ≤ n
    · have hp : (if ((k : Int) - 1) = k ∧ k < n then (⟨.loaded (rd k), none, 0⟩ : Slot I O)
          else slotAt rd cmp n k ((k : Int) - 1)) = ⟨.loaded (rd ((k : Int) - 1)), none, 0⟩ := by
        rw [if_neg (by omega)]
        unfold slotAt
        rw [if_pos (by omega), if_neg (by omega), if_pos (by omega)]
      simp only [threads, workAt, h, and_self, if_true, Option.map_some, Option.getD_some]
      rw [exec_compute (i := rd ((k : Int) - 1)) (h := by dsimp only; rw [hp])]
      simp only [St.mk.injEq, and_true]
      funext i
      by_cases hi : i = (k : Int) - 1
      · rw [if_pos hi, if_neg (by omega), if_pos hi]
      · rw [if_neg hi]
        simp [hi]
    · simp only [threads, workAt, h, if_false, Option.map_none, Option.getD_none, exec,
        List.foldl_nil, and_false]
  rw [h2]
  -- output
  by_cases h : 2 ≤ k
  · have e : (threads rd cmp (workAt n k)).2.2 = (outputSteps ((k : Int) - 2) : List (Step I O)) := by
      simp [threads, workAt, h]
    rw [e, exec_output]
    have hs : (if ((k : Int) - 2) = k ∧ k < n then (⟨.loaded (rd k), none, 0⟩ : Slot I O)
        else if ((k : Int) - 2) = (k : Int) - 1 ∧ 1 ≤ k ∧ k ≤ n then
          ⟨.freed, (cmp (rd ((k : Int) - 1))).1, (cmp (rd ((k : Int) - 1))).2⟩
        else slotAt rd cmp n k ((k : Int) - 2)) =
        ⟨.freed, (cmp (rd ((k : Int) - 2))).1, (cmp (rd ((k : Int) - 2))).2⟩ := by
      rw [if_neg (by omega), if_neg (by omega)]
      unfold slotAt
      rw [if_pos (by omega), if_neg (by omega), if_neg (by omega), if_pos (by omega)]
    simp only [hs, stAt, St.mk.injEq]
    constructor
    · funext i
      by_cases hi : i = (k : Int) - 2
      · subst hi
        rw [if_pos rfl, hs]
        rw [slotAt_done _ _ _ _ _ (by omega) (by omega)]
      · rw [if_neg hi]
        by_cases hk' : i = k ∧ k < n
        · rw [if_pos hk']
          unfold slotAt
          rw [if_pos (by omega), if_neg (by omega), if_pos (by omega), hk'.1]
        · rw [if_neg hk']
          by_cases hk1 : i = (k : Int) - 1 ∧ 1 ≤ k ∧ k ≤ n
          · rw [if_pos hk1]
            unfold slotAt
            rw [if_pos (by omega), if_neg (by omega), if_neg (by omega), if_pos (by omega), hk1.1]
          · rw [if_neg hk1]
            by_cases hr : 0 ≤ i ∧ i < n
            · by_cases hi2 : (k : Int) ≤ i
              · unfold slotAt
                rw [if_pos hr, if_pos hr, if_pos hi2, if_pos (by omega)]
              · rw [slotAt_done _ _ _ _ _ hr (by omega), slotAt_done _ _ _ _ _ hr (by omega)]
            · unfold slotAt
              rw [if_neg hr, if_neg hr]
    · have hr : List.range (k + 1 - 2) = List.range (k - 2) ++ [k - 2] := by
        have : k + 1 - 2 = (k - 2) + 1 := by omega
        rw [this, List.range_succ]
      rw [hr, List.flatMap_append]
      have hc : ((k - 2 : Nat) : Int) = (k : Int) - 2 := by omega
      simp only [List.flatMap_cons, List.flatMap_nil, List.append_nil, product, hc]
      cases (cmp (rd ((k : Int) - 2))).1 with
      | none => simp
      | some o => dsimp only; split <;> simp
  · have e : (threads rd cmp (workAt n k)).2.2 = ([] : List (Step I O)) := by
      simp [threads, workAt, h]
    rw [e]
    show St.mk _ _ = _
    simp only [stAt, St.mk.injEq]
    constructor
    · funext i
      by_cases hk' : i = k ∧ k < n
      · rw [if_pos hk']
        unfold slotAt
        rw [if_pos (by omega), if_neg (by omega), if_pos (by omega), hk'.1]
      · rw [if_neg hk']
        by_cases hk1 : i = (k : Int) - 1 ∧ 1 ≤ k ∧ k ≤ n
        · rw [if_pos hk1]
          unfold slotAt
          rw [if_pos (by omega), if_neg (by omega), if_neg (by omega), if_pos (by omega), hk1.1]
        · rw [if_neg hk1]
          unfold slotAt
          by_cases hr : 0 ≤ i ∧ i < n
          · rw [if_pos hr, if_pos hr]
            by_cases hi2 : (k : Int) ≤ i
            · rw [if_pos hi2, if_pos (by omega)]
            · exfalso; omega
          · rw [if_neg hr, if_neg hr]
    · have : k + 1 - 2 = k - 2 := by omega
      rw [this]

theorem sequential_prefix (rd : Int → I) (cmp : I → Option O × Nat) (n : Nat) :
    ∀ k, k ≤ n + 2 → sequential rd cmp ((List.range k).map (workAt n)) (stAt rd cmp n 0) =
      stAt rd cmp n k := by
  intro k
  induction k with
  | zero => intro _; rfl
  | succ k ih =>
    intro hk
    rw [List.range_succ, List.map_append, sequential, List.foldl_append]
    have := ih (by omega)
    rw [sequential] at this
    rw [this]
    exact stAt_step rd cmp n k (by omega)

theorem stAt_zero (rd : Int → I) (cmp : I → Option O × Nat) (n : Nat) :
    stAt rd cmp n 0 = initSt := by
  simp only [stAt, initSt, St.mk.injEq]
  constructor
  · funext i
    unfold slotAt
    split
    · rw [if_pos (by omega)]
    · rfl
  · rfl

end

end Verif.Pipeline

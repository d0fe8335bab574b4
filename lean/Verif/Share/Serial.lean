import Verif.Share.Spec

/-!
# Every schedule is equivalent to a serial one
-/

namespace Verif.Share
variable {P S N L F : Type} [DecidableEq P] [DecidableEq N]
  (name : S → N) (body : S → List (Step L F))

/-- All steps of a section in one go. -/
def runBody : List (Step L F) → L → F → Option (L × F)
  | [], l, c => some (l, c)
  | f :: fs, l, c => (f l c).bind fun r => runBody fs r.1 r.2

omit [DecidableEq P] [DecidableEq N] in
theorem runBody_snoc (a : List (Step L F)) (f : Step L F) (l : L) (c : F) :
    runBody (a ++ [f]) l c = (runBody a l c).bind fun r => f r.1 r.2 := by
  induction a generalizing l c with
  | nil =>
    simp only [List.nil_append, runBody, Option.bind]
    cases f l c <;> rfl
  | cons g a ih =>
    simp only [List.cons_append, runBody]
    cases g l c with
    | none => rfl
    | some r => simp only [Option.bind_some, ih]

/-- One section after the other. -/
def serial : (N → F) → (P → L) → List (P × S) → Option ((N → F) × (P → L))
  | fs, loc, [] => some (fs, loc)
  | fs, loc, (i, s) :: r => (runBody (body s) (loc i) (fs (name s))).bind fun x =>
      serial (Function.update fs (name s) x.2) (Function.update loc i x.1) r

theorem serial_append (fs : N → F) (loc : P → L) (a b : List (P × S)) :
    serial name body fs loc (a ++ b) =
      (serial name body fs loc a).bind fun r => serial name body r.1 r.2 b := by
  induction a generalizing fs loc with
  | nil => rfl
  | cons e a ih =>
    obtain ⟨i, s⟩ := e
    simp only [List.cons_append, serial]
    cases runBody (body s) (loc i) (fs (name s)) with
    | none => rfl
    | some r => simp only [Option.bind_some, ih]

/-- What holds after every event. -/
structure Inv (fs₀ : N → F) (prog : P → List S) (loc₀ : P → L) (w : World P S N L F) : Prop where
  order : ∀ i, ((w.log.filter fun e => e.1 = i).map Prod.snd) ++ (w.pr i).todo = prog i
  state : ∃ fs loc, serial name body fs₀ loc₀ w.log = some (fs, loc) ∧
    (∀ n, w.lk n = none → w.fs n = fs n) ∧
    (∀ i, (w.pr i).inside = none → (w.pr i).loc = loc i) ∧
    (∀ i bs, (w.pr i).inside = some bs → ∃ s rest before, (w.pr i).todo = s :: rest ∧
      body s = before ++ bs ∧ w.lk (name s) = some i ∧
      runBody before (loc i) (fs (name s)) = some ((w.pr i).loc, w.fs (name s)))
  owner : ∀ n i, w.lk n = some i → (w.pr i).inside ≠ none ∧
    ∃ s rest, (w.pr i).todo = s :: rest ∧ name s = n

theorem inv_start (fs : N → F) (prog : P → List S) (loc : P → L) :
    Inv name body fs prog loc (start fs prog loc) where
  order i := rfl
  state := ⟨fs, loc, rfl, fun _ _ => rfl, fun _ _ => rfl, fun i bs h => by cases h⟩
  owner n i h := by cases h

/-- Changing `running` does not matter. -/
theorem inv_stop {fs₀ : N → F} {prog : P → List S} {loc₀ : P → L} {w : World P S N L F}
    (h : Inv name body fs₀ prog loc₀ w) (i : P) :
    Inv name body fs₀ prog loc₀
      { w with pr := Function.update w.pr i { w.pr i with running := false } } := by
  obtain ⟨h1, ⟨fs, loc, h2, h3, h4, h5⟩, h6⟩ := h
  have key : ∀ k, ((Function.update w.pr i { w.pr i with running := false }) k).todo = (w.pr k).todo ∧
      ((Function.update w.pr i { w.pr i with running := false }) k).inside = (w.pr k).inside ∧
      ((Function.update w.pr i { w.pr i with running := false }) k).loc = (w.pr k).loc := by
    intro k
    by_cases e : k = i
    · subst e; simp only [Function.update_self]; exact ⟨trivial, trivial, trivial⟩
    · rw [Function.update_of_ne e]; exact ⟨rfl, rfl, rfl⟩
  refine ⟨fun k => ?_, ⟨fs, loc, h2, h3, fun k hk => ?_, fun k bs hk => ?_⟩, fun n k hk => ?_⟩
  · rw [(key k).1]; exact h1 k
  · rw [(key k).2.1] at hk; rw [(key k).2.2]; exact h4 k hk
  · rw [(key k).2.1] at hk; rw [(key k).1, (key k).2.2]; exact h5 k bs hk
  · rw [(key k).1, (key k).2.1]; exact h6 n k hk

theorem inv_go {fs₀ : N → F} {prog : P → List S} {loc₀ : P → L} {w : World P S N L F}
    (h : Inv name body fs₀ prog loc₀ w) (i : P) :
    Inv name body fs₀ prog loc₀ (go name body w i) := by
  unfold go
  dsimp only
  split
  · exact h
  cases ht : (w.pr i).todo with
  | nil => exact h
  | cons s rest =>
    dsimp only
    have hstop := inv_stop name body h i
    obtain ⟨h1, ⟨fs, loc, h2, h3, h4, h5⟩, h6⟩ := h
    cases hi : (w.pr i).inside with
    | none =>
      dsimp only
      cases hl : w.lk (name s) with
      | some j => exact ⟨h1, ⟨fs, loc, h2, h3, h4, h5⟩, h6⟩
      | none =>
        dsimp only
        refine ⟨fun k => ?_, ⟨fs, loc, h2, fun n hn => ?_, fun k hk => ?_, fun k bs hk => ?_⟩,
          fun n k hk => ?_⟩
        · by_cases e : k = i
          · subst e; simp only [Function.update_self]; rw [← ht]; exact h1 k
          · simp only [Function.update_of_ne e]; exact h1 k
        · dsimp only at hn ⊢
          by_cases e : n = name s
          · subst e; rw [Function.update_self] at hn; cases hn
          · rw [Function.update_of_ne e] at hn; exact h3 n hn
        · dsimp only at hk ⊢
          by_cases e : k = i
          · subst e; rw [Function.update_self] at hk; cases hk
          · rw [Function.update_of_ne e] at hk ⊢; exact h4 k hk
        · dsimp only at hk ⊢
          by_cases e : k = i
          · subst e
            simp only [Function.update_self] at hk ⊢
            cases hk
            exact ⟨s, rest, [], rfl, rfl, Function.update_self .., by rw [runBody, h3 _ hl, h4 _ hi]⟩
          · rw [Function.update_of_ne e] at hk ⊢
            obtain ⟨s', rest', before, a1, a2, a3, a4⟩ := h5 k bs hk
            refine ⟨s', rest', before, a1, a2, ?_, a4⟩
            rw [Function.update_of_ne ?_]; exact a3
            intro e'; rw [e', hl] at a3; cases a3
        · dsimp only at hk ⊢
          by_cases e : n = name s
          · subst e
            rw [Function.update_self] at hk
            cases hk
            simp only [Function.update_self]
            exact ⟨by simp, s, rest, rfl, rfl⟩
          · rw [Function.update_of_ne e] at hk
            obtain ⟨a, b⟩ := h6 n k hk
            have : k ≠ i := by rintro rfl; exact a hi
            rw [Function.update_of_ne this]; exact ⟨a, b⟩
    | some bs =>
      obtain ⟨s', rest', before, a1, a2, a3, a4⟩ := h5 i bs hi
      rw [ht] at a1
      obtain ⟨rfl, rfl⟩ := List.cons.inj a1
      cases bs with
      | cons f bs =>
        dsimp only
        cases hf : f (w.pr i).loc (w.fs (name s)) with
        | none => rw [← ht, ← hi]; exact hstop
        | some lc =>
          obtain ⟨l, c⟩ := lc
          dsimp only
          refine ⟨fun k => ?_, ⟨fs, loc, h2, fun n hn => ?_, fun k hk => ?_, fun k bs' hk => ?_⟩,
            fun n k hk => ?_⟩
          · by_cases e : k = i
            · subst e; simp only [Function.update_self]; rw [← ht]; exact h1 k
            · simp only [Function.update_of_ne e]; exact h1 k
          · dsimp only at hn ⊢
            have : n ≠ name s := by rintro rfl; rw [a3] at hn; cases hn
            rw [Function.update_of_ne this]; exact h3 n hn
          · dsimp only at hk ⊢
            by_cases e : k = i
            · subst e; rw [Function.update_self] at hk; cases hk
            · rw [Function.update_of_ne e] at hk ⊢; exact h4 k hk
          · dsimp only at hk ⊢
            by_cases e : k = i
            · subst e
              simp only [Function.update_self] at hk ⊢
              cases hk
              refine ⟨s, rest, before ++ [f], rfl, ?_, a3, ?_⟩
              · rw [a2, List.append_assoc]; rfl
              · rw [runBody_snoc, a4, Option.bind_some, Function.update_self]; exact hf
            · rw [Function.update_of_ne e] at hk ⊢
              obtain ⟨s', rest', before', b1, b2, b3, b4⟩ := h5 k bs' hk
              refine ⟨s', rest', before', b1, b2, b3, ?_⟩
              rw [Function.update_of_ne ?_]; exact b4
              intro e'; rw [e', a3] at b3; cases b3; exact e rfl
          · dsimp only at hk ⊢
            obtain ⟨a, b⟩ := h6 n k hk
            by_cases e : k = i
            · subst e
              simp only [Function.update_self]
              rw [ht] at b
              exact ⟨by simp, b⟩
            · rw [Function.update_of_ne e]; exact ⟨a, b⟩
      | nil =>
        dsimp only
        rw [List.append_nil] at a2
        have hser : serial name body fs₀ loc₀ (w.log ++ [(i, s)]) =
            some (Function.update fs (name s) (w.fs (name s)), Function.update loc i (w.pr i).loc) := by
          rw [serial_append, h2, Option.bind_some, serial, a2]
          dsimp only
          rw [a4]; rfl
        refine ⟨fun k => ?_, ⟨_, _, hser, fun n hn => ?_, fun k hk => ?_, fun k bs' hk => ?_⟩,
          fun n k hk => ?_⟩
        · dsimp only
          rw [List.filter_append, List.map_append]
          by_cases e : k = i
          · subst e
            simp only [Function.update_self]
            rw [← h1 k, ht]
            simp
          · rw [Function.update_of_ne e]
            have : ([(i, s)] : List (P × S)).filter (fun e => decide (e.1 = k)) = [] := by
              simp [Ne.symm e]
            rw [this, List.map_nil, List.append_nil]; exact h1 k
        · dsimp only at hn ⊢
          by_cases e : n = name s
          · subst e; rw [Function.update_self]
          · rw [Function.update_of_ne e] at hn ⊢; exact h3 n hn
        · dsimp only at hk ⊢
          by_cases e : k = i
          · subst e; simp only [Function.update_self]
          · rw [Function.update_of_ne e] at hk ⊢
            rw [Function.update_of_ne e]; exact h4 k hk
        · dsimp only at hk ⊢
          by_cases e : k = i
          · subst e; rw [Function.update_self] at hk; cases hk
          · rw [Function.update_of_ne e] at hk ⊢
            obtain ⟨s', rest', before', b1, b2, b3, b4⟩ := h5 k bs' hk
            have hn : name s' ≠ name s := by
              intro e'; rw [e', a3] at b3; cases b3; exact e rfl
            refine ⟨s', rest', before', b1, b2, ?_, ?_⟩
            · rw [Function.update_of_ne hn]; exact b3
            · rw [Function.update_of_ne hn, Function.update_of_ne e]; exact b4
        · dsimp only at hk ⊢
          by_cases e : n = name s
          · subst e; rw [Function.update_self] at hk; cases hk
          · rw [Function.update_of_ne e] at hk
            obtain ⟨a, s', rest', b, c⟩ := h6 n k hk
            have : k ≠ i := by
              rintro rfl
              rw [ht] at b
              cases b
              exact e c.symm
            rw [Function.update_of_ne this]; exact ⟨a, s', rest', b, c⟩

theorem inv_exec {fs₀ : N → F} {prog : P → List S} {loc₀ : P → L} (es : List (Event P))
    {w : World P S N L F} (h : Inv name body fs₀ prog loc₀ w) :
    Inv name body fs₀ prog loc₀ (exec name body w es) := by
  induction es generalizing w with
  | nil => exact h
  | cons e es ih =>
    refine ih ?_
    cases e with
    | go i => exact inv_go name body h i
    | stop i => exact inv_stop name body h i

end Verif.Share

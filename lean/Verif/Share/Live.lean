import Mathlib.Algebra.BigOperators.Group.Finset.Basic
import Mathlib.Algebra.Order.BigOperators.Group.Finset
import Mathlib.Data.Fintype.Basic
import Mathlib.Analysis.Complex.ExponentialBounds
import Mathlib.Tactic.Linarith
import Mathlib.Tactic.Positivity
import Mathlib.Data.List.Induction
import Mathlib.Algebra.Order.Field.Basic
import Verif.Share.Props

/-!
# C241, C242, C243: completeness of the provenance, waiting, timeout
-/

namespace Verif.Share
open Spec

section
variable {P S N L F : Type} [DecidableEq P] [DecidableEq N]
  (name : S → N) (body : S → List (Step L F))

theorem exec_append (w : World P S N L F) (a b : List (Event P)) :
    exec name body w (a ++ b) = exec name body (exec name body w a) b := List.foldl_append ..

/-- The steps inside of a section without interruption. -/
theorem exec_inside (i : P) (s : S) (rest : List S) (bs : List (Step L F)) (w : World P S N L F) (l l' : L)
    (c : F) (hp : w.pr i = ⟨s :: rest, some bs, l, true⟩)
    (hb : runBody bs l (w.fs (name s)) = some (l', c)) :
    exec name body w (List.replicate (bs.length + 1) (.go i)) =
      { fs := Function.update w.fs (name s) c, lk := Function.update w.lk (name s) none,
        pr := Function.update w.pr i ⟨rest, none, l', true⟩, log := w.log ++ [(i, s)] } := by
  induction bs generalizing w l with
  | nil =>
    cases hb
    simp [exec, act, go, hp]
  | cons f bs ih =>
    rw [runBody] at hb
    cases hf : f l (w.fs (name s)) with
    | none => rw [hf] at hb; cases hb
    | some r =>
      obtain ⟨l1, c1⟩ := r
      rw [hf, Option.bind_some] at hb
      have hgo : go name body w i = { w with
          fs := Function.update w.fs (name s) c1
          pr := Function.update w.pr i ⟨s :: rest, some bs, l1, true⟩ } := by
        simp [go, hp, hf]
      rw [List.length_cons, List.replicate_succ]
      show exec name body (go name body w i) _ = _
      rw [hgo, ih _ l1 (by simp) (by simpa using hb)]
      simp

/-- A whole section without interruption. -/
theorem exec_section (i : P) (s : S) (rest : List S) (w : World P S N L F) (l l' : L)
    (c : F) (hp : w.pr i = ⟨s :: rest, none, l, true⟩) (hl : w.lk (name s) = none)
    (hb : runBody (body s) l (w.fs (name s)) = some (l', c)) :
    exec name body w (List.replicate ((body s).length + 2) (.go i)) =
      { fs := Function.update w.fs (name s) c, lk := w.lk,
        pr := Function.update w.pr i ⟨rest, none, l', true⟩, log := w.log ++ [(i, s)] } := by
  have hgo : go name body w i = { w with
      lk := Function.update w.lk (name s) (some i)
      pr := Function.update w.pr i ⟨s :: rest, some (body s), l, true⟩ } := by
    simp [go, hp, hl]
  rw [List.replicate_succ]
  show exec name body (go name body w i) _ = _
  rw [hgo]
  refine (exec_inside name body i s rest (body s) { w with
      lk := Function.update w.lk (name s) (some i)
      pr := Function.update w.pr i ⟨s :: rest, some (body s), l, true⟩ } l l' c
        (Function.update_self ..) hb).trans ?_
  have : Function.update w.lk (name s) none = w.lk := by
    rw [← hl]; exact Function.update_eq_self ..
  simp [this]

/-- Nothing happens any more when all processes have stopped. -/
theorem exec_stopped (w : World P S N L F) (h : ∀ i, (w.pr i).running = false) (es : List (Event P)) :
    (exec name body w es).fs = w.fs := by
  induction es generalizing w with
  | nil => rfl
  | cons e es ih =>
    show (exec name body (act name body w e) es).fs = _
    cases e with
    | go i =>
      have : act name body w (.go i) = w := by simp [act, go, h i]
      rw [this]; exact ih w h
    | stop i =>
      refine (ih _ ?_).trans rfl
      intro k
      show ((Function.update w.pr i _) k).running = false
      by_cases e : k = i
      · subst e; rw [Function.update_self]
      · rw [Function.update_of_ne e]; exact h k

/-! ## A lock that is left behind -/

theorem go_other (w : World P S N L F) (h : ∀ k bs, (w.pr k).inside = some bs →
      ∃ s rest, (w.pr k).todo = s :: rest ∧ w.lk (name s) = some k) (n : N) (i : P)
    (hl : w.lk n = some i) (hs : (w.pr i).running = false) (k : P) :
    (go name body w k).fs n = w.fs n ∧ (go name body w k).lk n = some i ∧
    ((go name body w k).pr i).running = false ∧
    ((go name body w k).log.filter fun e => name e.2 = n) = w.log.filter fun e => name e.2 = n := by
  unfold go
  dsimp only
  split
  · exact ⟨rfl, hl, hs, rfl⟩
  rename_i hk
  have hki : k ≠ i := by rintro rfl; rw [hs] at hk; exact hk rfl
  cases ht : (w.pr k).todo with
  | nil => exact ⟨rfl, hl, hs, rfl⟩
  | cons s rest =>
    dsimp only
    cases hi : (w.pr k).inside with
    | none =>
      dsimp only
      cases hls : w.lk (name s) with
      | some j => exact ⟨rfl, hl, hs, rfl⟩
      | none =>
        dsimp only
        have : n ≠ name s := by rintro rfl; rw [hl] at hls; cases hls
        rw [Function.update_of_ne this, Function.update_of_ne hki.symm]
        exact ⟨rfl, hl, hs, rfl⟩
    | some bs =>
      obtain ⟨s', rest', h1, h2⟩ := h k bs hi
      rw [ht] at h1
      obtain ⟨rfl, rfl⟩ := List.cons.inj h1
      have hn : n ≠ name s := by
        rintro rfl; rw [hl] at h2; cases h2; exact hki rfl
      cases bs with
      | nil =>
        dsimp only
        rw [Function.update_of_ne hn, Function.update_of_ne hki.symm, List.filter_append]
        exact ⟨rfl, hl, hs, by simp [hn.symm]⟩
      | cons f bs =>
        dsimp only
        cases f (w.pr k).loc (w.fs (name s)) with
        | none =>
          dsimp only
          rw [Function.update_of_ne hki.symm]; exact ⟨rfl, hl, hs, rfl⟩
        | some r =>
          dsimp only
          rw [Function.update_of_ne hn, Function.update_of_ne hki.symm]
          exact ⟨rfl, hl, hs, rfl⟩

theorem stale (fs₀ : N → F) (prog : P → List S) (loc₀ : P → L) (es : List (Event P))
    (w : World P S N L F) (h : Inv name body fs₀ prog loc₀ w) (n : N) (i : P)
    (hl : w.lk n = some i) (hs : (w.pr i).running = false) :
    (exec name body w es).fs n = w.fs n ∧ (exec name body w es).lk n = some i ∧
    ((exec name body w es).log.filter fun e => name e.2 = n) = w.log.filter fun e => name e.2 = n := by
  induction es generalizing w with
  | nil => exact ⟨rfl, hl, rfl⟩
  | cons e es ih =>
    have key : (act name body w e).fs n = w.fs n ∧ (act name body w e).lk n = some i ∧
        ((act name body w e).pr i).running = false ∧
        ((act name body w e).log.filter fun e => name e.2 = n) = w.log.filter fun e => name e.2 = n := by
      cases e with
      | go k =>
        refine go_other name body w ?_ n i hl hs k
        intro k bs hk
        obtain ⟨fs, loc, -, -, -, h5⟩ := h.state
        obtain ⟨s, rest, _, a1, -, a3, -⟩ := h5 k bs hk
        exact ⟨s, rest, a1, a3⟩
      | stop k =>
        refine ⟨rfl, hl, ?_, rfl⟩
        show ((Function.update w.pr k _) i).running = false
        by_cases e : i = k
        · subst e; rw [Function.update_self]
        · rw [Function.update_of_ne e]; exact hs
    obtain ⟨k1, k2, k3, k4⟩ := key
    have h' : Inv name body fs₀ prog loc₀ (act name body w e) := by
      cases e with
      | go k => exact inv_go name body h k
      | stop k => exact inv_stop name body h k
    obtain ⟨a1, a2, a3⟩ := ih _ h' k2 k3
    exact ⟨a1.trans k1, a2, a3.trans k4⟩

/-! ## Progress -/

/-- The number of steps a process has to make. -/
def left (p : Proc S L F) : Nat :=
  match p.inside with
  | none => (p.todo.map fun s => (body s).length + 2).sum
  | some bs => bs.length + 1 + (p.todo.tail.map fun s => (body s).length + 2).sum

/-- A process that does not have to wait makes one of its steps, or it stops with a failure. -/
theorem go_left (w : World P S N L F) (i : P) (hr : (w.pr i).running = true) (s : S) (rest : List S)
    (ht : (w.pr i).todo = s :: rest) (hw : (w.pr i).inside = none → w.lk (name s) = none) :
    (∀ k, k ≠ i → (go name body w i).pr k = w.pr k) ∧
    (((go name body w i).pr i).running = false ∨
      (((go name body w i).pr i).running = true ∧
        left body ((go name body w i).pr i) + 1 = left body (w.pr i))) := by
  unfold go
  dsimp only
  rw [hr, ht]
  dsimp only
  rw [if_neg (by simp)]
  cases hi : (w.pr i).inside with
  | none =>
    dsimp only
    rw [hw hi]
    dsimp only
    refine ⟨fun k hk => Function.update_of_ne hk _ _, Or.inr ?_⟩
    rw [Function.update_self]
    refine ⟨rfl, ?_⟩
    simp [left, hi, ht]; omega
  | some bs =>
    cases bs with
    | nil =>
      dsimp only
      refine ⟨fun k hk => Function.update_of_ne hk _ _, Or.inr ?_⟩
      rw [Function.update_self]
      refine ⟨rfl, ?_⟩
      simp [left, hi, ht]; omega
    | cons f bs =>
      dsimp only
      cases f (w.pr i).loc (w.fs (name s)) with
      | none =>
        refine ⟨fun k hk => Function.update_of_ne hk _ _, Or.inl ?_⟩
        dsimp only
        rw [Function.update_self]
      | some r =>
        refine ⟨fun k hk => Function.update_of_ne hk _ _, Or.inr ?_⟩
        dsimp only
        rw [Function.update_self]
        refine ⟨rfl, ?_⟩
        simp [left, hi, ht]; omega

end

variable {P : Type} [DecidableEq P]

/-! ## C241 -/

/-- A section of process `i` that can be carried out is carried out. -/
theorem part_run (w : World P Part (List Char) Loc File) (i : P) (s : Part) (rest : List Part) (l l' : Loc)
    (f c : File) (hp : w.pr i = ⟨s :: rest, none, l, true⟩) (hl : w.lk = fun _ => none)
    (hf : w.fs s.name = f) (hb : runBody (Part.body s) l f = some (l', c)) :
    ∃ es w', exec Part.name Part.body w es = w' ∧ w'.fs = Function.update w.fs s.name c ∧
      w'.lk = (fun _ => none) ∧ w'.pr = Function.update w.pr i ⟨rest, none, l', true⟩ ∧
      w'.log = w.log ++ [(i, s)] := by
  subst hf
  exact ⟨_, _, exec_section Part.name Part.body i s rest w l l' c hp (by rw [hl]) hb, rfl, hl, rfl, rfl⟩

theorem dir_run (w : World P Part (List Char) Loc File) (i : P) (j : Job) (rest : List Part) (l : Loc)
    (hp : w.pr i = ⟨.dir j :: rest, none, l, true⟩) (hl : w.lk = fun _ => none) :
    ∃ es w' c, exec Part.name Part.body w es = w' ∧ w'.fs = Function.update w.fs j.dir c ∧
      w'.lk = (fun _ => none) ∧ w'.pr = Function.update w.pr i ⟨rest, none, l, true⟩ := by
  obtain ⟨c, hc, -⟩ := body_dir j l (w.fs j.dir)
  obtain ⟨es, w', h1, h2, h3, h4, -⟩ := part_run w i (.dir j) rest l l _ c hp hl rfl hc
  exact ⟨es, w', c, h1, h2, h3, h4⟩

theorem body_file_absent (j : Job) (l : Loc) :
    runBody (Part.body (.file j)) l .absent = some ({ l with data := j.data, update := false }, .image j.data) := by
  cases hm : j.mode <;> simp [Part.body, runBody, readStep, hm, createStep, writeStep]

theorem body_prov_absent (j : Job) (l : Loc) : runBody (Part.body (.prov j)) l .absent =
    some ({ l with exist := false }, .text (header ++ line j l.update)) := by
  simp [Part.body, runBody, existStep, openStep, lineStep, File.exist]

theorem body_prov_text (j : Job) (l : Loc) (t : List Char) : runBody (Part.body (.prov j)) l (.text t) =
    some ({ l with exist := true }, .text (t ++ line j l.update)) := by
  simp [Part.body, runBody, existStep, openStep, lineStep, File.exist]

theorem parts_cons (j : Job) (h : j.origin ≠ []) : [j].flatMap parts = [.dir j, .file j, .prov j] := by
  have : 0 < j.origin.length := List.length_pos_iff.2 h
  simp [parts, this]

/-- C241, violated: the provenance is written after the image has been unlocked. A process that is
stopped in between (killed, or it cannot lock the provenance file in time) leaves a complete image
that is not recorded anywhere, whatever happens later. -/
theorem c241_crash_violated (j : Job) (h1 : j.dir ≠ j.file) (h2 : j.dir ≠ j.prov) (h3 : j.file ≠ j.prov)
    (ho : j.origin ≠ []) :
    ∃ es : List (Event Unit), ∀ more,
      (run (fun _ => [j]) (fun _ => .absent) (es ++ more)).fs j.file = .image j.data ∧
      (run (fun _ => [j]) (fun _ => .absent) (es ++ more)).fs j.prov = .absent := by
  obtain ⟨es1, w1, c, a1, a2, a3, a4⟩ := dir_run
    (start (fun _ => File.absent) (fun _ : Unit => [j].flatMap parts) fun _ => ⟨fun _ _ => 0, false, false⟩)
    () j [.file j, .prov j] ⟨fun _ _ => 0, false, false⟩ (by rw [start, parts_cons j ho]) rfl
  obtain ⟨es2, w2, b1, b2, b3, b4, -⟩ := part_run w1 () (.file j) [.prov j] _ _ _ _ (by rw [a4, Function.update_self])
    a3 (by rw [a2]; exact Function.update_of_ne h1.symm ..) (body_file_absent j _)
  refine ⟨es1 ++ es2 ++ [.stop ()], fun more => ?_⟩
  have hrun : (run (fun _ => [j]) (fun _ => .absent) ((es1 ++ es2 ++ [.stop ()]) ++ more)).fs = w2.fs := by
    unfold run
    rw [exec_append, exec_append, exec_append, a1, b1]
    rw [exec_stopped _ _ _ (fun i => by simp [exec, act])]
    rfl
  rw [hrun, b2, a2]
  dsimp only [Part.name]
  rw [Function.update_self, Function.update_of_ne h3.symm, Function.update_of_ne h2.symm]
  exact ⟨rfl, rfl⟩

section
attribute [local irreducible] header line

/-- C241, violated: the order of the lines is not the order in which the images have been written.
With two processes that write the same file it is possible that both come to their end and the
provenance lists the update of the file before its creation. -/
theorem c241_order_violated (j k : Job) (m : Brick.Mode) (hd : k.dir = j.dir) (hf : k.file = j.file)
    (hp : k.prov = j.prov) (h1 : j.dir ≠ j.file) (h2 : j.dir ≠ j.prov) (h3 : j.file ≠ j.prov)
    (hj : j.origin ≠ []) (hk : k.origin ≠ []) (hm : k.mode = .mosaic m) :
    ∃ es : List (Event Bool), let w := run (fun i => if i then [k] else [j]) (fun _ => .absent) es
      (∀ i, (w.pr i).todo = []) ∧
      w.fs j.file = written (.image j.data) k ∧
      w.fs j.prov = .text (header ++ line k true ++ line j false) := by
  obtain ⟨es1, w1, c, a1, a2, a3, a4⟩ := dir_run
    (start (fun _ => File.absent) (fun i : Bool => (if i then [k] else [j]).flatMap parts) fun _ => ⟨fun _ _ => 0, false, false⟩)
    false j [.file j, .prov j] ⟨fun _ _ => 0, false, false⟩ (by
      have := parts_cons j hj
      simp only [start, Bool.false_eq_true, if_false]; rw [this]) rfl
  obtain ⟨es2, w2, b1, b2, b3, b4, -⟩ := part_run w1 false (.file j) [.prov j] _ _ _ _ (by rw [a4, Function.update_self])
    a3 (by rw [a2]; exact Function.update_of_ne h1.symm ..) (body_file_absent j _)
  obtain ⟨es3, w3, c3, d1, d2, d3, d4⟩ := dir_run w2 true k [.file k, .prov k] ⟨fun _ _ => 0, false, false⟩ (by
      have := parts_cons k hk
      rw [b4, Function.update_of_ne (by simp), a4, Function.update_of_ne (by simp)]
      simp only [start, if_true]; rw [this]) b3
  have hfile : w3.fs (Part.file k).name = .image j.data := by
    dsimp only [Part.name] at b2 ⊢
    rw [d2, hd, hf, Function.update_of_ne h1.symm, b2, Function.update_self]
  have hb : runBody (Part.body (.file k)) ⟨fun _ _ => 0, false, false⟩ (.image j.data) =
      some (⟨fun b p => Brick.mosaicPixel m (k.nodata b) (k.data b p) (j.data b p), true, false⟩,
        written (.image j.data) k) := by
    simp [Part.body, runBody, readStep, hm, createStep, writeStep, written]
  obtain ⟨es4, w4, e1, e2, e3, e4, -⟩ := part_run w3 true (.file k) [.prov k] _ _ _ _ (by rw [d4, Function.update_self])
    d3 hfile hb
  have hprov : w4.fs (Part.prov k).name = .absent := by
    dsimp only [Part.name] at e2 b2 ⊢
    rw [e2, hp, hf, Function.update_of_ne h3.symm, d2, hd, Function.update_of_ne h2.symm, b2,
      Function.update_of_ne h3.symm, a2, Function.update_of_ne h2.symm]
    rfl
  obtain ⟨es5, w5, f1, f2, f3, f4, -⟩ := part_run w4 true (.prov k) [] _ _ _ (.text (header ++ line k true))
    (by rw [e4, Function.update_self]) e3 hprov
    (body_prov_absent k _)
  have hprov5 : w5.fs (Part.prov j).name = .text (header ++ line k true) := by
    dsimp only [Part.name] at f2 ⊢
    rw [f2, hp, Function.update_self]
  obtain ⟨es6, w6, g1, g2, g3, g4, -⟩ := part_run w5 false (.prov j) [] _ _ _
    (.text (header ++ line k true ++ line j false))
    (by rw [f4, Function.update_of_ne (by simp), e4, Function.update_of_ne (by simp), d4,
          Function.update_of_ne (by simp), b4, Function.update_self]) f3 hprov5
    (body_prov_text j _ _)
  refine ⟨es1 ++ es2 ++ es3 ++ es4 ++ es5 ++ es6, ?_⟩
  have hrun : run (fun i => if i then [k] else [j]) (fun _ => .absent) (es1 ++ es2 ++ es3 ++ es4 ++ es5 ++ es6) = w6 := by
    unfold run
    rw [exec_append, exec_append, exec_append, exec_append, exec_append, a1, b1, d1, e1, f1, g1]
  dsimp only
  rw [hrun]
  refine ⟨fun i => ?_, ?_, ?_⟩
  · cases i
    · rw [g4, Function.update_self]
    · rw [g4, Function.update_of_ne (by simp), f4, Function.update_self]
  · dsimp only [Part.name] at g2 f2 e2
    rw [g2, Function.update_of_ne h3, f2, hp, Function.update_of_ne h3, e2, hf, Function.update_self]
  · dsimp only [Part.name] at g2
    rw [g2, Function.update_self]

end

/-- C241 (partial): if all processes come to their end, every image with origins has been recorded:
one line for each of them, in the order of the process. Missing: processes that stop
(`c241_crash_violated`), the order among processes (`c241_order_violated`). -/
theorem c241_recorded_partial (jobs : P → List Job) (fs : List Char → File) (es : List (Event P)) (n : List Char)
    (hn : ∀ i, ∀ j ∈ jobs i, j.dir ≠ n ∧ j.file ≠ n) (i : P) (hi : ((run jobs fs es).pr i).todo = [])
    (j : Job) (hj : j ∈ jobs i) (hp : j.prov = n) (ho : j.origin ≠ []) :
    ∃ u, line j u ∈ lines n (run jobs fs es).log (fun m => (fs m).exist) fun _ => false := by
  obtain ⟨⟨-, h2⟩, h3⟩ := c240_provenance jobs fs es n hn
  have h4 := (h3 i).2 hi
  have hm : j ∈ toProv n ((run jobs fs es).log.filter fun e => e.1 = i) := by
    rw [h4]; exact List.mem_filter.2 ⟨hj, by simp [hp, ho]⟩
  have hm' : j ∈ toProv n (run jobs fs es).log := by
    obtain ⟨e, he, h⟩ := List.mem_filterMap.1 hm
    exact List.mem_filterMap.2 ⟨e, (List.mem_filter.1 he).1, h⟩
  revert hm'
  generalize toProv n (run jobs fs es).log = js at h2
  generalize (lines n (run jobs fs es).log (fun m => (fs m).exist) fun _ => false) = ls at h2 ⊢
  intro hm'
  induction h2 with
  | nil => cases hm'
  | cons h _ ih =>
    rcases List.mem_cons.1 hm' with rfl | hm'
    · obtain ⟨u, rfl⟩ := h
      exact ⟨u, List.mem_cons_self ..⟩
    · obtain ⟨u, hu⟩ := ih hm'
      exact ⟨u, List.mem_cons_of_mem _ hu⟩

/-! ## C242 -/

/-- C242, violated: a process that stops while it holds the lock of a path blocks this path for
ever: the path keeps its (incomplete) content and its lock, and no process ever completes a write
to it. -/
theorem c242_stale_violated (jobs : P → List Job) (fs : List Char → File) (es more : List (Event P))
    (n : List Char) (i : P) (hl : (run jobs fs es).lk n = some i)
    (hs : ((run jobs fs es).pr i).running = false) :
    (run jobs fs (es ++ more)).fs n = (run jobs fs es).fs n ∧
    (run jobs fs (es ++ more)).lk n = some i ∧
    ((run jobs fs (es ++ more)).log.filter fun e => e.2.name = n) =
      (run jobs fs es).log.filter fun e => e.2.name = n := by
  have h := stale Part.name Part.body _ _ _ more _ (inv_run jobs fs es) n i hl hs
  have e : run jobs fs (es ++ more) = exec Part.name Part.body (run jobs fs es) more := by
    unfold run; rw [exec_append]
  rw [e]
  exact h

/-- It is possible to stop with a half-written image. -/
example : let j : Job := ⟨['d'], ['p'], ['f'], .create, fun _ => -9999, fun _ _ => 5, [['o']], ['t']⟩
    let w := run (fun _ : Unit => [j]) (fun _ => .absent)
      [.go (), .go (), .go (), .go (), .go (), .go (), .stop ()]
    w.lk ['f'] = some () ∧ (w.pr ()).running = false ∧ w.fs ['f'] = .broken := ⟨rfl, rfl, rfl⟩

/-- Files are used in their kind: directories for the tiles, images, text for provenance. -/
structure Proper (jobs : P → List Job) (fs : List Char → File) : Prop where
  dir : ∀ i k, ∀ a ∈ jobs i, ∀ b ∈ jobs k, a.dir ≠ b.file ∧ a.dir ≠ b.prov ∧ a.file ≠ b.prov
  file : ∀ i, ∀ j ∈ jobs i, fs j.file = .absent ∨ ∃ v, fs j.file = .image v
  prov : ∀ i, ∀ j ∈ jobs i, fs j.prov = .absent ∨ ∃ t, fs j.prov = .text t

/-- The steps of a section do not fail on a file of the right kind. -/
theorem body_ok (s : Part) (l l1 : Loc) (c c1 : File)
    (h : match s with
      | .dir _ => True
      | .file _ => c = .absent ∨ ∃ v, c = .image v
      | .prov _ => c = .absent ∨ ∃ t, c = .text t)
    (before bs : List (Step Loc File)) (f : Step Loc File) (he : s.body = before ++ f :: bs)
    (hr : runBody before l c = some (l1, c1)) : ∃ r, f l1 c1 = some r := by
  cases s with
  | dir j =>
    cases before with
    | nil => cases he; exact ⟨_, rfl⟩
    | cons a b => simp [Part.body] at he
  | file j =>
    have hread : ∃ l', readStep j l c = some (l', c) := by
      unfold readStep
      cases j.mode with
      | create => exact ⟨_, rfl⟩
      | mosaic m => rcases h with rfl | ⟨v, rfl⟩ <;> exact ⟨_, rfl⟩
    obtain ⟨l', hread⟩ := hread
    rcases before with _ | ⟨a, _ | ⟨b, _ | ⟨d, e⟩⟩⟩
    · cases he; cases hr; exact ⟨_, hread⟩
    · cases he
      rw [runBody, hread, Option.bind_some, runBody] at hr
      cases hr
      rcases h with rfl | ⟨v, rfl⟩ <;> exact ⟨_, rfl⟩
    · cases he; exact ⟨_, rfl⟩
    · simp [Part.body] at he
  | prov j =>
    rcases before with _ | ⟨a, _ | ⟨b, _ | ⟨d, e⟩⟩⟩
    · cases he; exact ⟨_, rfl⟩
    · cases he; cases hr
      rcases h with rfl | ⟨v, rfl⟩ <;> exact ⟨_, rfl⟩
    · cases he
      rcases h with rfl | ⟨v, rfl⟩ <;> cases hr <;> exact ⟨_, rfl⟩
    · simp [Part.body] at he

theorem go_only_append {a b : List P} (jobs : P → List Job) (fs : List Char → File) :
    run jobs fs ((a ++ b).map .go) = exec Part.name Part.body (run jobs fs (a.map .go)) (b.map .go) := by
  unfold run; rw [List.map_append, exec_append]

theorem fold_kind (f : File) (js : List Job) (h : f = .absent ∨ ∃ v, f = .image v) :
    js.foldl written f = .absent ∨ ∃ v, js.foldl written f = .image v := by
  induction js generalizing f with
  | nil => exact h
  | cons j js ih => exact ih _ (Or.inr ⟨_, rfl⟩)

/-- C242: if no process is stopped from outside, the processes do not fail because of each other:
no step of any of them fails on the files the others have left, whatever the schedule. -/
theorem c242_no_failure (jobs : P → List Job) (fs : List Char → File) (hp : Proper jobs fs) (sched : List P)
    (i : P) : ((run jobs fs (sched.map .go)).pr i).running = true := by
  induction sched using List.reverseRecOn generalizing i with
  | nil => rfl
  | append_singleton sched k ih =>
    rw [go_only_append]
    have hinv := inv_run jobs fs (sched.map .go)
    have hlog : ∀ e ∈ (run jobs fs (sched.map .go)).log, ∃ j ∈ jobs e.1, e.2 ∈ parts j := fun e => log_part
    generalize run jobs fs (sched.map .go) = w at *
    show ((go Part.name Part.body w k).pr i).running = true
    unfold go
    dsimp only
    split
    · exact ih i
    have other : ∀ p : Proc Part Loc File, p.running = true → (Function.update w.pr k p i).running = true := by
      intro p hpr
      by_cases e : i = k
      · subst e; rw [Function.update_self]; exact hpr
      · rw [Function.update_of_ne e]; exact ih i
    cases ht : (w.pr k).todo with
    | nil => exact ih i
    | cons s rest =>
      dsimp only
      cases hi : (w.pr k).inside with
      | none =>
        dsimp only
        cases w.lk s.name with
        | some j => exact ih i
        | none => exact other _ (ih k)
      | some bs =>
        cases bs with
        | nil => exact other _ (ih k)
        | cons f bs =>
          dsimp only
          obtain ⟨fs', loc', h2, -, -, h5⟩ := hinv.state
          obtain ⟨s', rest', before, a1, a2, -, a4⟩ := h5 k _ hi
          rw [ht] at a1
          obtain ⟨rfl, rfl⟩ := List.cons.inj a1
          have hs : s ∈ (jobs k).flatMap parts := by
            rw [← hinv.order k, ht]; simp
          obtain ⟨j, hj, hsj⟩ := List.mem_flatMap.1 hs
          have hok := body_ok s (loc' k) (w.pr k).loc (fs' s.name) (w.fs s.name) (by
            have himg : ∀ n, (∀ i, ∀ j ∈ jobs i, j.dir ≠ n ∧ j.prov ≠ n) → ImagePath n (w.log.map Prod.snd) := by
              intro n hn t ht'
              obtain ⟨e, he, rfl⟩ := List.mem_map.1 ht'
              obtain ⟨j', hj', hpt⟩ := hlog e he
              have hh := hn e.1 j' hj'
              unfold parts at hpt
              rcases List.mem_append.1 hpt with hpt | hpt
              · rcases List.mem_cons.1 hpt with hpt | hpt
                · rw [hpt]; exact hh.1
                · rw [List.mem_singleton.1 hpt]; trivial
              · split at hpt
                · rw [List.mem_singleton.1 hpt]; exact hh.2
                · cases hpt
            have hprv : ∀ n, (∀ i, ∀ j ∈ jobs i, j.dir ≠ n ∧ j.file ≠ n) → ProvPath n (w.log.map Prod.snd) := by
              intro n hn t ht'
              obtain ⟨e, he, rfl⟩ := List.mem_map.1 ht'
              obtain ⟨j', hj', hpt⟩ := hlog e he
              have hh := hn e.1 j' hj'
              unfold parts at hpt
              rcases List.mem_append.1 hpt with hpt | hpt
              · rcases List.mem_cons.1 hpt with hpt | hpt
                · rw [hpt]; exact hh.1
                · rw [List.mem_singleton.1 hpt]; exact hh.2
              · split at hpt
                · rw [List.mem_singleton.1 hpt]; trivial
                · cases hpt
            have hjs : ∀ t, t ∈ parts j → t = .dir j ∨ t = .file j ∨ t = .prov j := by
              intro t h
              unfold parts at h
              rcases List.mem_append.1 h with h | h
              · simp at h; tauto
              · split at h
                · simp at h; tauto
                · cases h
            rcases hjs s hsj with rfl | rfl | rfl
            · trivial
            · have e := serial_file j.file w.log fs fs' _ loc' (himg _ (fun i' j' hj' =>
                ⟨(hp.dir i' k j' hj' j hj).1, ((hp.dir k i' j hj j' hj').2.2).symm⟩)) h2
              simp only [Part.name]
              rw [e]
              exact fold_kind _ _ (hp.file k j hj)
            · have e := serial_prov j.prov w.log fs fs' _ loc' (hprv _ (fun i' j' hj' =>
                ⟨(hp.dir i' k j' hj' j hj).2.1, (hp.dir i' k j' hj' j hj).2.2⟩)) h2
              simp only [Part.name]
              rcases hp.prov k j hj with h0 | ⟨t, h0⟩
              · rcases e.1 h0 with h | h
                · exact Or.inl h.2
                · exact Or.inr ⟨_, h.2⟩
              · exact Or.inr ⟨_, e.2 t h0⟩) before bs f a2 a4
          obtain ⟨r, hr⟩ := hok
          rw [hr]
          exact other _ (ih k)

/-- The number of steps that are left for all processes together. -/
def total [Fintype P] (w : World P Part (List Char) Loc File) : Nat :=
  ∑ i, left Part.body (w.pr i)

theorem total_step [Fintype P] (w : World P Part (List Char) Loc File) (k : P) (hr : (w.pr k).running = true)
    (hr' : ((go Part.name Part.body w k).pr k).running = true) (s : Part) (rest : List Part)
    (ht : (w.pr k).todo = s :: rest) (hw : (w.pr k).inside = none → w.lk s.name = none) :
    total (go Part.name Part.body w k) + 1 = total w := by
  obtain ⟨h1, h2⟩ := go_left Part.name Part.body w k hr s rest ht hw
  rcases h2 with h2 | ⟨-, h2⟩
  · rw [hr'] at h2; cases h2
  unfold total
  rw [← Finset.add_sum_erase _ _ (Finset.mem_univ k), ← Finset.add_sum_erase Finset.univ _ (Finset.mem_univ k), ← h2]
  have : ∑ x ∈ Finset.univ.erase k, left Part.body ((go Part.name Part.body w k).pr x) =
      ∑ x ∈ Finset.univ.erase k, left Part.body (w.pr x) := by
    refine Finset.sum_congr rfl fun x hx => ?_
    rw [h1 x (Finset.ne_of_mem_erase hx)]
  rw [this]; omega

/-- A step either changes nothing or is one of the steps that are left. -/
theorem step_or [Fintype P] (jobs : P → List Job) (fs : List Char → File) (hp : Proper jobs fs)
    (sched : List P) (k : P) :
    run jobs fs ((sched ++ [k]).map .go) = run jobs fs (sched.map .go) ∨
    total (run jobs fs ((sched ++ [k]).map .go)) + 1 = total (run jobs fs (sched.map .go)) := by
  have h1 := c242_no_failure jobs fs hp sched k
  have h2 := c242_no_failure jobs fs hp (sched ++ [k]) k
  rw [go_only_append] at h2 ⊢
  generalize run jobs fs (sched.map .go) = w at *
  change ((go Part.name Part.body w k).pr k).running = true at h2
  show go Part.name Part.body w k = w ∨ total (go Part.name Part.body w k) + 1 = total w
  cases ht : (w.pr k).todo with
  | nil => left; unfold go; dsimp only; rw [h1, ht]; rfl
  | cons s rest =>
    by_cases hw : (w.pr k).inside = none → w.lk s.name = none
    · exact Or.inr (total_step w k h1 h2 s rest ht hw)
    · left
      have hi : (w.pr k).inside = none := by
        by_contra h; exact hw (fun h' => absurd h' h)
      cases hl : w.lk s.name with
      | none => exact absurd (fun _ => hl) hw
      | some j => unfold go; dsimp only; rw [h1, ht, hi]; dsimp only; rw [hl]; rfl

/-- While a process has something to do there is a process that can make a step: the processes
never wait for each other in a circle. -/
theorem can_step [Fintype P] (jobs : P → List Job) (fs : List Char → File) (hp : Proper jobs fs)
    (sched : List P) (i : P) (hi : ((run jobs fs (sched.map .go)).pr i).todo ≠ []) :
    ∃ k, total (run jobs fs ((sched ++ [k]).map .go)) + 1 = total (run jobs fs (sched.map .go)) := by
  have h1 := c242_no_failure jobs fs hp sched
  have h2 := fun k => c242_no_failure jobs fs hp (sched ++ [k]) k
  have hinv := inv_run jobs fs (sched.map .go)
  simp only [go_only_append] at h2 ⊢
  generalize run jobs fs (sched.map .go) = w at *
  cases ht : (w.pr i).todo with
  | nil => exact absurd ht hi
  | cons s rest =>
    by_cases hw : (w.pr i).inside = none → w.lk s.name = none
    · exact ⟨i, total_step w i (h1 i) (h2 i) s rest ht hw⟩
    · cases hl : w.lk s.name with
      | none => exact absurd (fun _ => hl) hw
      | some j =>
        obtain ⟨a, s', rest', b, -⟩ := hinv.owner _ _ hl
        exact ⟨j, total_step w j (h1 j) (h2 j) s' rest' b (fun h => absurd h a)⟩

/-- C242: if no process is stopped from outside, every process comes to its end and all locks are
released, in every schedule in which each process gets its turn again and again. -/
theorem c242_finish [Fintype P] (jobs : P → List Job) (fs : List Char → File) (hp : Proper jobs fs)
    (σ : Nat → P) (fair : ∀ i t, ∃ t', t ≤ t' ∧ σ t' = i) :
    ∃ T, ∀ t, T ≤ t → (∀ i, ((run jobs fs (((List.range t).map σ).map .go)).pr i).todo = []) ∧
      ∀ n, (run jobs fs (((List.range t).map σ).map .go)).lk n = none := by
  have hsucc : ∀ t, (List.range (t + 1)).map σ = (List.range t).map σ ++ [σ t] := by
    intro t; rw [List.range_succ, List.map_append]; rfl
  have later : ∀ t, (∀ i, ((run jobs fs (((List.range t).map σ).map .go)).pr i).todo = []) →
      ∀ t', t ≤ t' → ∀ i, ((run jobs fs (((List.range t').map σ).map .go)).pr i).todo = [] := by
    intro t h t' ht
    induction t', ht using Nat.le_induction with
    | base => exact h
    | succ t' _ ih =>
      intro i
      rw [hsucc, go_only_append]
      have e : exec Part.name Part.body (run jobs fs (((List.range t').map σ).map .go)) ([σ t'].map .go) =
          run jobs fs (((List.range t').map σ).map .go) := by
        show go _ _ _ _ = _
        unfold go; dsimp only; rw [ih (σ t')]; simp
      rw [e]; exact ih i
  have same : ∀ t t', t ≤ t' → run jobs fs (((List.range t').map σ).map .go) = run jobs fs (((List.range t).map σ).map .go) ∨
      total (run jobs fs (((List.range t').map σ).map .go)) < total (run jobs fs (((List.range t).map σ).map .go)) := by
    intro t t' ht
    induction t', ht using Nat.le_induction with
    | base => exact Or.inl rfl
    | succ t' _ ih =>
      rw [hsucc]
      rcases step_or jobs fs hp ((List.range t').map σ) (σ t') with e | e
      · rw [e]; exact ih
      · right
        rcases ih with ih | ih
        · rw [← ih]; omega
        · omega
  have main : ∀ m t, total (run jobs fs (((List.range t).map σ).map .go)) = m →
      ∃ T, ∀ i, ((run jobs fs (((List.range T).map σ).map .go)).pr i).todo = [] := by
    intro m
    induction m using Nat.strong_induction_on with
    | _ m ih =>
      intro t ht
      by_cases hd : ∀ i, ((run jobs fs (((List.range t).map σ).map .go)).pr i).todo = []
      · exact ⟨t, hd⟩
      · obtain ⟨i, hi⟩ := not_forall.1 hd
        obtain ⟨k, hk⟩ := can_step jobs fs hp _ i hi
        obtain ⟨t', h1, h2⟩ := fair k t
        rcases same t t' h1 with e | e
        · refine ih _ ?_ (t' + 1) rfl
          rw [hsucc, h2]
          have : total (run jobs fs (((List.range t').map σ ++ [k]).map .go)) =
              total (run jobs fs (((List.range t).map σ ++ [k]).map .go)) := by
            rw [go_only_append, go_only_append, e]
          rw [this]; omega
        · exact ih _ (by omega) t' rfl
  obtain ⟨T, hT⟩ := main _ 0 rfl
  refine ⟨T, fun t ht => ⟨later T hT t ht, fun n => ?_⟩⟩
  have hinv := inv_run jobs fs (((List.range t).map σ).map .go)
  cases hl : (run jobs fs (((List.range t).map σ).map .go)).lk n with
  | none => rfl
  | some i =>
    obtain ⟨-, s, rest, h, -⟩ := hinv.owner _ _ hl
    rw [later T hT t ht i] at h; cases h

/-- Two processes that update the same image. -/
def twoJobs : Bool → List Job := fun i =>
  [⟨['d'], ['p'], ['f'], .mosaic .update, fun _ => -9999, fun _ _ => if i then 7 else 5, [['o']], ['t']⟩]

example : Proper twoJobs fun _ => .absent where
  dir i k a ha b hb := by
    simp only [twoJobs, List.mem_singleton] at ha hb; subst ha; subst hb; simp
  file i j hj := Or.inl rfl
  prov i j hj := Or.inl rfl

/-- Both processes in turns. -/
def turns : List (Event Bool) := ((List.range 50).map fun t => decide (t % 2 = 1)).map .go

set_option maxRecDepth 100000 in
/-- Both are done after 50 events, and both have written the image. -/
example : ((run twoJobs (fun _ => .absent) turns).pr true).todo = [] ∧
    ((run twoJobs (fun _ => .absent) turns).pr false).todo = [] ∧
    (toFile ['f'] (run twoJobs (fun _ => .absent) turns).log).length = 2 := ⟨rfl, rfl, rfl⟩

/-! ## C243 -/

/-- C243: the waiting time grows with the size of the image and stays between one and ten minutes. -/
theorem c243_timeout (a b : ℝ) (hab : a < b) :
    60 < lockTimeout a ∧ lockTimeout a < lockTimeout b ∧ lockTimeout b < 600 := by
  unfold lockTimeout
  have e1 := Real.exp_pos (-1 * (a / 241120800 - 5))
  have e2 := Real.exp_pos (-1 * (b / 241120800 - 5))
  have e3 : Real.exp (-1 * (b / 241120800 - 5)) < Real.exp (-1 * (a / 241120800 - 5)) := by
    apply Real.exp_lt_exp.2
    have : a / 241120800 < b / 241120800 := by apply div_lt_div_of_pos_right hab; norm_num
    linarith
  refine ⟨?_, ?_, ?_⟩
  · have : 0 < 540 / (1 + Real.exp (-1 * (a / 241120800 - 5))) := by positivity
    linarith
  · have : 540 / (1 + Real.exp (-1 * (a / 241120800 - 5))) < 540 / (1 + Real.exp (-1 * (b / 241120800 - 5))) := by
      apply div_lt_div_of_pos_left <;> linarith
    linarith
  · have : 540 / (1 + Real.exp (-1 * (b / 241120800 - 5))) < 540 := by
      rw [div_lt_iff₀ (by linarith)]; linarith
    linarith

/-- C243: a full Sentinel-2 image (10 bands of 10980 x 10980 pixels of two bytes) is given more than
595 seconds, an image of no size less than 65 seconds. -/
theorem c243_ends : 595 < lockTimeout (10 * 10980 * 10980 * 2) ∧ lockTimeout 0 < 65 := by
  have h5 : (128 : ℝ) < Real.exp 5 := by
    have := Real.add_one_lt_exp (x := 1) (by norm_num)
    have h1 : (2.7 : ℝ) < Real.exp 1 := by
      have := Real.exp_one_gt_d9; linarith
    have : Real.exp 5 = Real.exp 1 ^ 5 := by rw [← Real.exp_nat_mul]; norm_num
    rw [this]
    calc (128 : ℝ) < 2.7 ^ 5 := by norm_num
      _ < Real.exp 1 ^ 5 := by gcongr
  unfold lockTimeout
  have e1 : (-1 * ((10 * 10980 * 10980 * 2 : ℝ) / 241120800 - 5)) = -5 := by norm_num
  have e2 : (-1 * ((0 : ℝ) / 241120800 - 5)) = 5 := by norm_num
  rw [e1, e2, Real.exp_neg]
  have h6 : (Real.exp 5)⁻¹ < 1 / 128 := by
    rw [inv_lt_comm₀ (by linarith) (by norm_num)]; linarith
  have h7 : 0 < (Real.exp 5)⁻¹ := by positivity
  constructor
  · have : 535 < 540 / (1 + (Real.exp 5)⁻¹) := by
      rw [lt_div_iff₀ (by linarith)]; linarith
    linarith
  · have : 540 / (1 + Real.exp 5) < 5 := by
      rw [div_lt_iff₀ (by linarith)]; linarith
    linarith

end Verif.Share

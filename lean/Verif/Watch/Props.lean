import Verif.Watch.Model
import Verif.Pipeline.Props
import Mathlib.Data.List.Forall2
import Mathlib.Algebra.BigOperators.Group.List.Basic
import Mathlib.Algebra.Order.BigOperators.Group.List
import Mathlib.Tactic.Ring
import Mathlib.Tactic.Linarith
import Mathlib.Tactic.NormNum

/-!
# Time measurement and progress report: properties C267 to C270
-/

namespace Verif.Watch

/-! ## Specification -/

namespace Spec

/-- What happened in one execution of the loop body: when each of the three stages began and
ended, if it ran. -/
structure Lap where
  input : Option (Int × Int)
  compute : Option (Int × Int)
  output : Option (Int × Int)
  deriving DecidableEq, Repr

/-- The duration of a stage. -/
def dur : Option (Int × Int) → Int
  | none => 0
  | some (a, b) => b - a

/-- What a stage takes longer than the others: the time in which the others wait for it. -/
def excess (d e f : Int) : Int := max 0 (d - max e f)

/-- The readings of the clock, in the order in which they are made. -/
def reading : Ev → Option Int
  | .null _ => none
  | .tick _ t => some t
  | .tock _ t => some t

/-- The three stages run concurrently. -/
def Streamed (laps : List Lap) (bodies : List (List Ev)) : Prop :=
  List.Forall₂ (fun (l : Lap) (evs : List Ev) => Pipeline.Interleave3 (stage .input l.input) (stage .compute l.compute)
    (stage .output l.output) evs) laps bodies

/-- The three stages run one after the other. -/
def InTurn (laps : List Lap) (bodies : List (List Ev)) : Prop :=
  bodies = laps.map (fun l => stage .input l.input ++ stage .compute l.compute ++
    stage .output l.output)

/-- The clock never goes back. -/
def Forward (t0 : Int) (bodies : List (List Ev)) (tend : Int) : Prop :=
  (t0 :: (bodies.flatten.filterMap reading ++ [tend])).Pairwise (· ≤ ·)

end Spec

open Spec

/-! ## Lemmas -/

/-- The task of a measurement. -/
def ofTask (t : Task) : Ev → Bool
  | .null u => u = t
  | .tick u _ => u = t
  | .tock u _ => u = t

theorem measure_keep (c : Clock) (e : Ev) :
    (measure c e).total = c.total ∧ (measure c e).bound = c.bound := by
  cases e <;> exact ⟨rfl, rfl⟩

theorem fold_keep (evs : List Ev) (c : Clock) :
    (evs.foldl measure c).total = c.total ∧ (evs.foldl measure c).bound = c.bound := by
  induction evs generalizing c with
  | nil => exact ⟨rfl, rfl⟩
  | cons e es ih =>
    rw [List.foldl_cons]
    exact ⟨(ih _).1.trans (measure_keep c e).1, (ih _).2.trans (measure_keep c e).2⟩

theorem measure_other (t : Task) (c : Clock) (e : Ev) (h : ofTask t e = false) :
    (measure c e).secs t = c.secs t ∧ (measure c e).time t = c.time t := by
  cases e with
  | null u =>
    have : t ≠ u := by simp [ofTask] at h; exact fun he => h he.symm
    exact ⟨if_neg this, rfl⟩
  | tick u n =>
    have : t ≠ u := by simp [ofTask] at h; exact fun he => h he.symm
    exact ⟨rfl, if_neg this⟩
  | tock u n =>
    have : t ≠ u := by simp [ofTask] at h; exact fun he => h he.symm
    exact ⟨if_neg this, rfl⟩

theorem measure_same (t : Task) (c d : Clock) (e : Ev) (h : c.secs t = d.secs t ∧ c.time t = d.time t) :
    (measure c e).secs t = (measure d e).secs t ∧ (measure c e).time t = (measure d e).time t := by
  cases e with
  | null u => by_cases hu : t = u <;> simp [measure, set, hu, h] <;> (subst hu; exact h.2) 
  | tick u n => by_cases hu : t = u <;> simp [measure, set, hu, h]; (subst hu; exact h.1)
  | tock u n =>
    by_cases hu : t = u
    · subst hu; simp [measure, set, h]
    · simp [measure, set, hu, h]

/-- The time of a task depends on its own measurements only. -/
theorem fold_filter (t : Task) (evs : List Ev) (c d : Clock)
    (h : c.secs t = d.secs t ∧ c.time t = d.time t) :
    (evs.foldl measure c).secs t = ((evs.filter (ofTask t)).foldl measure d).secs t ∧
    (evs.foldl measure c).time t = ((evs.filter (ofTask t)).foldl measure d).time t := by
  induction evs generalizing c d with
  | nil => exact h
  | cons e es ih =>
    rw [List.foldl_cons]
    by_cases he : ofTask t e = true
    · rw [List.filter_cons_of_pos he, List.foldl_cons]
      exact ih _ _ (measure_same t c d e h)
    · rw [List.filter_cons_of_neg he]
      have he' : ofTask t e = false := by simpa using he
      have := measure_other t c e he'
      exact ih _ _ ⟨this.1.trans h.1, this.2.trans h.2⟩

theorem interleave_filter {a b l : List Ev} (p : Ev → Bool) (h : Pipeline.Interleave a b l) :
    (b.filter p = [] → l.filter p = a.filter p) ∧ (a.filter p = [] → l.filter p = b.filter p) := by
  induction h with
  | nil => exact ⟨fun _ => rfl, fun _ => rfl⟩
  | left h ih =>
    rename_i a b l x
    constructor
    · intro hb
      by_cases hx : p x = true
      · rw [List.filter_cons_of_pos hx, List.filter_cons_of_pos hx, ih.1 hb]
      · rw [List.filter_cons_of_neg hx, List.filter_cons_of_neg hx, ih.1 hb]
    · intro ha
      by_cases hx : p x = true
      · rw [List.filter_cons_of_pos hx] at ha; exact absurd ha (by simp)
      · rw [List.filter_cons_of_neg hx] at ha
        rw [List.filter_cons_of_neg hx, ih.2 ha]
  | right h ih =>
    rename_i a b l x
    constructor
    · intro hb
      by_cases hx : p x = true
      · rw [List.filter_cons_of_pos hx] at hb; exact absurd hb (by simp)
      · rw [List.filter_cons_of_neg hx] at hb
        rw [List.filter_cons_of_neg hx, ih.1 hb]
    · intro ha
      by_cases hx : p x = true
      · rw [List.filter_cons_of_pos hx, List.filter_cons_of_pos hx, ih.2 ha]
      · rw [List.filter_cons_of_neg hx, List.filter_cons_of_neg hx, ih.2 ha]

theorem filter_stage (t u : Task) (x : Option (Int × Int)) :
    (stage u x).filter (ofTask t) = if u = t then stage u x else [] := by
  rcases x with _ | ⟨a, b⟩
  · split <;> rfl
  · by_cases h : u = t <;> simp [stage, ofTask, h]

theorem filter_three {i c o : Option (Int × Int)} {evs : List Ev}
    (h : Pipeline.Interleave3 (stage .input i) (stage .compute c) (stage .output o) evs) :
    evs.filter (ofTask .input) = stage .input i ∧
    evs.filter (ofTask .compute) = stage .compute c ∧
    evs.filter (ofTask .output) = stage .output o ∧
    evs.filter (ofTask .runtime) = [] := by
  obtain ⟨m, h1, h2⟩ := h
  have f1 := fun t => interleave_filter (ofTask t) h1
  have f2 := fun t => interleave_filter (ofTask t) h2
  refine ⟨?_, ?_, ?_, ?_⟩
  · have hm : m.filter (ofTask .input) = [] := by
      rw [(f1 _).1 (by rw [filter_stage]; rfl), filter_stage]; rfl
    rw [(f2 _).1 hm, filter_stage]; rfl
  · rw [(f2 _).2 (by rw [filter_stage]; rfl), (f1 _).1 (by rw [filter_stage]; rfl), filter_stage]; rfl
  · rw [(f2 _).2 (by rw [filter_stage]; rfl), (f1 _).2 (by rw [filter_stage]; rfl), filter_stage]; rfl
  · rw [(f2 _).2 (by rw [filter_stage]; rfl), (f1 _).2 (by rw [filter_stage]; rfl), filter_stage]; rfl

theorem fold_stage (t : Task) (x : Option (Int × Int)) (c : Clock) (h : c.secs t = 0) :
    ((stage t x).foldl measure c).secs t = dur x := by
  rcases x with _ | ⟨a, b⟩
  · exact h
  · simp [stage, measure, set, dur]

theorem lap_fields (c : Clock) :
    (lap c).secs .input = 0 ∧ (lap c).secs .compute = 0 ∧ (lap c).secs .output = 0 ∧
    (lap c).time .runtime = c.time .runtime ∧
    (lap c).total .input = c.total .input + c.secs .input ∧
    (lap c).total .compute = c.total .compute + c.secs .compute ∧
    (lap c).total .output = c.total .output + c.secs .output ∧
    (lap c).bound .input = c.bound .input + excess (c.secs .input) (c.secs .compute) (c.secs .output) ∧
    (lap c).bound .compute = c.bound .compute + excess (c.secs .compute) (c.secs .input) (c.secs .output) ∧
    (lap c).bound .output = c.bound .output + excess (c.secs .output) (c.secs .input) (c.secs .compute) := by
  refine ⟨rfl, rfl, rfl, rfl, rfl, rfl, rfl, rfl, rfl, rfl⟩

/-- The state after one execution of the loop body. -/
theorem body_fields (c : Clock) (l : Lap) (evs : List Ev)
    (h : Pipeline.Interleave3 (stage .input l.input) (stage .compute l.compute)
      (stage .output l.output) evs) :
    (evs.foldl measure (lap c)).secs .input = dur l.input ∧
    (evs.foldl measure (lap c)).secs .compute = dur l.compute ∧
    (evs.foldl measure (lap c)).secs .output = dur l.output ∧
    (evs.foldl measure (lap c)).time .runtime = c.time .runtime ∧
    (evs.foldl measure (lap c)).total = (lap c).total ∧
    (evs.foldl measure (lap c)).bound = (lap c).bound := by
  obtain ⟨f1, f2, f3, f4⟩ := filter_three h
  have g := fun t => fold_filter t evs (lap c) (lap c) ⟨rfl, rfl⟩
  refine ⟨?_, ?_, ?_, ?_, (fold_keep evs _).1, (fold_keep evs _).2⟩
  · rw [(g .input).1, f1]; exact fold_stage _ _ _ rfl
  · rw [(g .compute).1, f2]; exact fold_stage _ _ _ rfl
  · rw [(g .output).1, f3]; exact fold_stage _ _ _ rfl
  · rw [(g .runtime).2, f4]; rfl

/-- Everything that has been measured, including the times that are not added yet. -/
theorem fold_fields (laps : List Lap) (bodies : List (List Ev)) (h : Streamed laps bodies) (c : Clock) :
    let d := bodies.foldl (fun c evs => evs.foldl measure (lap c)) c
    d.time .runtime = c.time .runtime ∧
    d.total .input + d.secs .input =
      c.total .input + c.secs .input + (laps.map (fun l => dur l.input)).sum ∧
    d.total .compute + d.secs .compute =
      c.total .compute + c.secs .compute + (laps.map (fun l => dur l.compute)).sum ∧
    d.total .output + d.secs .output =
      c.total .output + c.secs .output + (laps.map (fun l => dur l.output)).sum ∧
    d.bound .input + excess (d.secs .input) (d.secs .compute) (d.secs .output) =
      c.bound .input + excess (c.secs .input) (c.secs .compute) (c.secs .output) +
        (laps.map (fun l => excess (dur l.input) (dur l.compute) (dur l.output))).sum ∧
    d.bound .compute + excess (d.secs .compute) (d.secs .input) (d.secs .output) =
      c.bound .compute + excess (c.secs .compute) (c.secs .input) (c.secs .output) +
        (laps.map (fun l => excess (dur l.compute) (dur l.input) (dur l.output))).sum ∧
    d.bound .output + excess (d.secs .output) (d.secs .input) (d.secs .compute) =
      c.bound .output + excess (c.secs .output) (c.secs .input) (c.secs .compute) +
        (laps.map (fun l => excess (dur l.output) (dur l.input) (dur l.compute))).sum := by
  unfold Streamed at h
  induction h generalizing c with
  | nil => simp
  | cons hb hrest ih =>
    rename_i l evs laps bodies
    obtain ⟨b1, b2, b3, b4, b5, b6⟩ := body_fields c l evs hb
    obtain ⟨l1, l2, l3, l4, l5, l6, l7, l8, l9, l10⟩ := lap_fields c
    obtain ⟨i0, i1, i2, i3, i4, i5, i6⟩ := ih (evs.foldl measure (lap c))
    rw [b1, b2, b3, b6] at i4 i5 i6
    rw [b5, b1] at i1
    rw [b5, b2] at i2
    rw [b5, b3] at i3
    simp only [List.foldl_cons, List.map_cons, List.sum_cons]
    refine ⟨i0.trans b4, ?_, ?_, ?_, ?_, ?_, ?_⟩
    · rw [i1, l5]; ring
    · rw [i2, l6]; ring
    · rw [i3, l7]; ring
    · rw [i4, l8]; ring
    · rw [i5, l9]; ring
    · rw [i6, l10]; ring

/-! ## C267 -/

/-- C267: what is reported at the end, whatever the interleaving of the stages. The virtual times
of input, compute and output are the summed durations of these stages, the virtual time is the sum
of the three, the real time is the time between start and end, and the saved time is the
difference. The time bound by a stage is the summed time by which it took longer than both
others. -/
theorem c267_times (t0 tend : Int) (laps : List Lap) (bodies : List (List Ev))
    (h : Streamed laps bodies) :
    let r := report (run t0 bodies tend)
    r.real = tend - t0 ∧
    r.virtOf .input = (laps.map (fun l => dur l.input)).sum ∧
    r.virtOf .compute = (laps.map (fun l => dur l.compute)).sum ∧
    r.virtOf .output = (laps.map (fun l => dur l.output)).sum ∧
    r.virt = r.virtOf .input + r.virtOf .compute + r.virtOf .output ∧
    r.saved = r.virt - r.real ∧
    r.boundOf .input = (laps.map (fun l => excess (dur l.input) (dur l.compute) (dur l.output))).sum ∧
    r.boundOf .compute = (laps.map (fun l => excess (dur l.compute) (dur l.input) (dur l.output))).sum ∧
    r.boundOf .output = (laps.map (fun l => excess (dur l.output) (dur l.input) (dur l.compute))).sum := by
  obtain ⟨i0, i1, i2, i3, i4, i5, i6⟩ := fold_fields laps bodies h (start t0)
  have z : excess 0 0 0 = 0 := rfl
  have e : ∀ x : Int, 0 + 0 + x = x := by intro x; ring
  refine ⟨?_, ?_, ?_, ?_, rfl, rfl, ?_, ?_, ?_⟩
  · show tend - (bodies.foldl (fun c evs => evs.foldl measure (lap c)) (start t0)).time .runtime = _
    rw [i0]; rfl
  · exact i1.trans (e _)
  · exact i2.trans (e _)
  · exact i3.trans (e _)
  · exact i4.trans (e _)
  · exact i5.trans (e _)
  · exact i6.trans (e _)

/-- Everything that is measured in one execution of the loop body lies between two times, if the
clock does not go back. -/
theorem forward_cons (t0 tend : Int) (evs : List Ev) (bodies : List (List Ev))
    (h : Forward t0 (evs :: bodies) tend) :
    ∃ m, (t0 :: evs.filterMap reading ++ [m]).Pairwise (· ≤ ·) ∧ Forward m bodies tend := by
  unfold Forward at *
  rw [List.flatten_cons, List.filterMap_append, List.append_assoc] at h
  set R := evs.filterMap reading
  refine ⟨(t0 :: R).getLast (by simp), ?_, ?_⟩
  · have hs : (t0 :: R).Pairwise (· ≤ ·) := by
      rw [← List.cons_append, List.pairwise_append] at h
      exact h.1
    rw [List.pairwise_append]
    refine ⟨hs, by simp, ?_⟩
    intro a ha b hb
    rw [List.mem_singleton] at hb
    subst hb
    have hsplit := List.dropLast_append_getLast (l := t0 :: R) (by simp)
    rw [← hsplit, List.pairwise_append] at hs
    rw [← hsplit, List.mem_append, List.mem_singleton] at ha
    rcases ha with ha | ha
    · exact hs.2.2 a ha _ (by simp)
    · exact le_of_eq ha
  · have hsplit := List.dropLast_append_getLast (l := t0 :: R) (by simp)
    rw [← List.cons_append, ← hsplit, List.append_assoc, List.pairwise_append] at h
    exact h.2.1

theorem stage_between (t : Task) (x : Option (Int × Int)) (evs : List Ev) (a b : Int)
    (hf : evs.filter (ofTask t) = stage t x)
    (h : (a :: evs.filterMap reading ++ [b]).Pairwise (· ≤ ·)) : 0 ≤ dur x ∧ dur x ≤ b - a := by
  have hs : ((stage t x).filterMap reading).Sublist (evs.filterMap reading) := by
    rw [← hf]; exact (List.filter_sublist).filterMap _
  have hs' : (a :: (stage t x).filterMap reading ++ [b]).Sublist (a :: evs.filterMap reading ++ [b]) :=
    List.Sublist.append (hs.cons_cons a) (List.Sublist.refl _)
  have hp := h.sublist hs'
  rcases x with _ | ⟨p, q⟩
  · simp [stage, reading] at hp
    simp only [dur]; omega
  · simp [stage, reading] at hp
    simp only [dur]; omega

theorem longest_le (laps : List Lap) (bodies : List (List Ev)) (h : Streamed laps bodies) :
    ∀ (t0 tend : Int), Forward t0 bodies tend →
    (∀ l ∈ laps, 0 ≤ dur l.input ∧ 0 ≤ dur l.compute ∧ 0 ≤ dur l.output) ∧
    (laps.map (fun l => max (dur l.input) (max (dur l.compute) (dur l.output)))).sum ≤ tend - t0 := by
  unfold Streamed at h
  induction h with
  | nil =>
    intro t0 tend hf
    simp [Forward] at hf
    simp; omega
  | cons hb hrest ih =>
    rename_i l evs laps bodies
    intro t0 tend hf
    obtain ⟨m, h1, h2⟩ := forward_cons _ _ _ _ hf
    obtain ⟨f1, f2, f3, _⟩ := filter_three hb
    have s1 := stage_between _ _ _ _ _ f1 h1
    have s2 := stage_between _ _ _ _ _ f2 h1
    have s3 := stage_between _ _ _ _ _ f3 h1
    obtain ⟨i1, i2⟩ := ih m tend h2
    constructor
    · intro x hx
      rcases List.mem_cons.1 hx with rfl | hx
      · exact ⟨s1.1, s2.1, s3.1⟩
      · exact i1 x hx
    · rw [List.map_cons, List.sum_cons]
      omega

/-- C267: the reported times are consistent, if the clock does not go back. No stage takes longer
than the run, none of the times is negative, and the times bound by the three stages together do
not exceed the real time. -/
theorem c267_consistent (t0 tend : Int) (laps : List Lap) (bodies : List (List Ev))
    (h : Streamed laps bodies) (hf : Forward t0 bodies tend) :
    let r := report (run t0 bodies tend)
    0 ≤ r.real ∧
    (∀ t, t = .input ∨ t = .compute ∨ t = .output →
      0 ≤ r.boundOf t ∧ r.boundOf t ≤ r.virtOf t ∧ r.virtOf t ≤ r.real) ∧
    r.boundOf .input + r.boundOf .compute + r.boundOf .output ≤ r.real := by
  intro r
  obtain ⟨e0, e1, e2, e3, -, -, b1, b2, b3⟩ := c267_times t0 tend laps bodies h
  obtain ⟨hn, hm⟩ := longest_le laps bodies h t0 tend hf
  have key : ∀ (f g : Lap → Int) (ls : List Lap), (∀ l ∈ ls, f l ≤ g l) →
      (ls.map f).sum ≤ (ls.map g).sum := by
    intro f g ls
    induction ls with
    | nil => intro _; simp
    | cons l ls ih =>
      intro hl
      rw [List.map_cons, List.map_cons, List.sum_cons, List.sum_cons]
      have := hl l (by simp)
      have := ih (fun x hx => hl x (by simp [hx]))
      omega
  have kz : ∀ (f : Lap → Int), (∀ l ∈ laps, 0 ≤ f l) → 0 ≤ (laps.map f).sum := by
    intro f hl
    have := key (fun _ => 0) f laps hl
    simpa using this
  have kadd : ∀ (f g k : Lap → Int) (ls : List Lap), (ls.map (fun l => f l + g l + k l)).sum =
      (ls.map f).sum + (ls.map g).sum + (ls.map k).sum := by
    intro f g k ls
    induction ls with
    | nil => simp
    | cons l ls ih => simp only [List.map_cons, List.sum_cons, ih]; ring
  have hr : r.real = tend - t0 := e0
  refine ⟨?_, ?_, ?_⟩
  · rw [hr]
    refine le_trans (kz _ ?_) hm
    intro l hl; have := hn l hl; omega
  · intro t ht
    rcases ht with rfl | rfl | rfl
    · rw [show r.boundOf .input = _ from b1, show r.virtOf .input = _ from e1, hr]
      refine ⟨kz _ ?_, key _ _ _ ?_, le_trans (key _ _ _ ?_) hm⟩ <;> intro l hl <;>
        have := hn l hl <;> (try unfold excess) <;> omega
    · rw [show r.boundOf .compute = _ from b2, show r.virtOf .compute = _ from e2, hr]
      refine ⟨kz _ ?_, key _ _ _ ?_, le_trans (key _ _ _ ?_) hm⟩ <;> intro l hl <;>
        have := hn l hl <;> (try unfold excess) <;> omega
    · rw [show r.boundOf .output = _ from b3, show r.virtOf .output = _ from e3, hr]
      refine ⟨kz _ ?_, key _ _ _ ?_, le_trans (key _ _ _ ?_) hm⟩ <;> intro l hl <;>
        have := hn l hl <;> (try unfold excess) <;> omega
  · rw [show r.boundOf .input = _ from b1, show r.boundOf .compute = _ from b2,
      show r.boundOf .output = _ from b3, hr, ← kadd]
    refine le_trans (key _ _ _ ?_) hm
    intro l hl
    have := hn l hl
    unfold excess
    omega

theorem interleave_append {α : Type} (a b : List α) : Pipeline.Interleave a b (a ++ b) := by
  induction a with
  | nil =>
    induction b with
    | nil => exact .nil
    | cons x b ih => exact .right ih
  | cons x a ih => exact .left ih

theorem inTurn_streamed (laps : List Lap) (bodies : List (List Ev)) (h : InTurn laps bodies) :
    Streamed laps bodies := by
  unfold InTurn at h
  subst h
  unfold Streamed
  induction laps with
  | nil => exact .nil
  | cons l ls ih =>
    refine .cons ⟨stage .compute l.compute ++ stage .output l.output, interleave_append _ _, ?_⟩ ih
    dsimp only
    rw [List.append_assoc]
    exact interleave_append _ _

/-- C267: without streaming no time is saved. -/
theorem c267_in_turn (t0 tend : Int) (laps : List Lap) (bodies : List (List Ev))
    (h : InTurn laps bodies) (hf : Forward t0 bodies tend) :
    (report (run t0 bodies tend)).saved ≤ 0 := by
  obtain ⟨e0, e1, e2, e3, e4, e5, -⟩ := c267_times t0 tend laps bodies (inTurn_streamed _ _ h)
  rw [e5, e4, e0, e1, e2, e3]
  unfold InTurn at h
  subst h
  clear e0 e1 e2 e3 e4 e5
  suffices hs : (laps.map (fun l => dur l.input)).sum + (laps.map (fun l => dur l.compute)).sum +
      (laps.map (fun l => dur l.output)).sum ≤ tend - t0 by omega
  induction laps generalizing t0 with
  | nil => simp [Forward] at hf; simp; omega
  | cons l ls ih =>
    rw [List.map_cons] at hf
    obtain ⟨m, h1, h2⟩ := forward_cons _ _ _ _ hf
    have := ih m h2
    simp only [List.map_cons, List.sum_cons]
    have hd : dur l.input + dur l.compute + dur l.output ≤ m - t0 := by
      obtain ⟨i, k, o⟩ := l
      rcases i with _ | ⟨a, b⟩ <;> rcases k with _ | ⟨c, d⟩ <;> rcases o with _ | ⟨e, f⟩ <;>
        simp [stage, reading] at h1 <;> simp only [dur] <;> omega
    omega

/-- Two units with streaming: the stages overlap, and 9 seconds are saved. -/
def exampleBodies : List (List Ev) :=
  [[.tick .input 0, .tock .input 10],
   [.tick .input 10, .tick .compute 10, .tock .compute 15, .tock .input 20],
   [.tick .compute 20, .tick .output 20, .tock .output 24, .tock .compute 25],
   [.tick .output 25, .tock .output 29]]

def exampleLaps : List Lap :=
  [⟨some (0, 10), none, none⟩, ⟨some (10, 20), some (10, 15), none⟩,
   ⟨none, some (20, 25), some (20, 24)⟩, ⟨none, none, some (25, 29)⟩]

example : Streamed exampleLaps exampleBodies ∧ Forward 0 exampleBodies 29 ∧
    (report (run 0 exampleBodies 29)).real = 29 ∧ (report (run 0 exampleBodies 29)).virt = 38 ∧
    (report (run 0 exampleBodies 29)).saved = 9 ∧
    (report (run 0 exampleBodies 29)).boundOf .input = 15 ∧
    (report (run 0 exampleBodies 29)).boundOf .compute = 1 ∧
    (report (run 0 exampleBodies 29)).boundOf .output = 4 := by
  refine ⟨?_, by unfold Forward; decide, by decide, by decide, by decide, by decide, by decide,
    by decide⟩
  refine .cons ⟨[], .nil, .left (.left .nil)⟩ (.cons ⟨_, .left (.left .nil), ?_⟩
    (.cons ⟨[.tick .compute 20, .tick .output 20, .tock .output 24, .tock .compute 25], ?_, ?_⟩
    (.cons ⟨_, .right (.right .nil), ?_⟩ .nil)))
  · exact .left (.right (.right (.left .nil)))
  · exact .left (.right (.right (.left .nil)))
  · exact .right (.right (.right (.right .nil)))
  · exact .right (.right .nil)

end Verif.Watch

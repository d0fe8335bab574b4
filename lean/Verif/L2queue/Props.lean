import Mathlib.Data.List.Forall2
import Mathlib.Data.List.Perm.Basic
import Mathlib.Data.List.Nodup
import Mathlib.Tactic.ByContra
import Verif.L2queue.Model
import Verif.L2queue.Spec
import Mathlib.Data.List.Induction
import Mathlib.Data.List.Pairwise

/-!
# Theorems on the Level 2 queue (C44)
-/

namespace Verif.L2queue

open Spec

/-! ## The `sed` command -/

theorem matchesAt_iff : ∀ (p l : List Char), matchesAt p l = true ↔ ∃ t r, l = t ++ ' ' :: r ∧ Looks p t
  | [], [] => by
    simp only [matchesAt, Bool.false_eq_true, false_iff]
    rintro ⟨t, r, h, _⟩
    simp at h
  | [], c :: l => by
    simp only [matchesAt, decide_eq_true_eq]
    constructor
    · rintro rfl; exact ⟨[], l, rfl, List.Forall₂.nil⟩
    · rintro ⟨t, r, h, ht⟩
      cases ht
      simp at h; exact h.1
  | p :: ps, [] => by
    simp only [matchesAt, Bool.false_eq_true, false_iff]
    rintro ⟨t, r, h, _⟩
    simp at h
  | p :: ps, c :: cs => by
    simp only [matchesAt, Bool.and_eq_true, Bool.or_eq_true, decide_eq_true_eq, matchesAt_iff ps cs]
    constructor
    · rintro ⟨h1, t, r, rfl, ht⟩
      exact ⟨c :: t, r, rfl, List.Forall₂.cons h1 ht⟩
    · rintro ⟨t, r, h, ht⟩
      cases ht with
      | cons h1 h2 =>
        simp only [List.cons_append, List.cons.injEq] at h
        obtain ⟨rfl, rfl⟩ := h
        exact ⟨h1, _, r, rfl, h2⟩

theorem split_blank {a b a' b' : List Char} (h : a ++ ' ' :: b = a' ++ ' ' :: b') (ha : ' ' ∉ a) (hb : ' ' ∉ b) :
    a = a' ∧ b = b' := by
  have h1 := List.append_eq_append_iff.1 h
  rcases h1 with ⟨c, h2, h3⟩ | ⟨c, h2, h3⟩
  · cases c with
    | nil => simp at h2 h3; exact ⟨h2.symm, h3⟩
    | cons x c =>
      simp only [List.cons_append, List.cons.injEq] at h3
      obtain ⟨-, h3⟩ := h3
      exact absurd (by rw [h3]; simp) hb
  · cases c with
    | nil => simp at h2 h3; exact ⟨h2, h3.symm⟩
    | cons x c =>
      simp only [List.cons_append, List.cons.injEq] at h3
      obtain ⟨h4, -⟩ := h3
      subst h4
      exact absurd (by rw [h2]; simp) ha

theorem sedLine_miss (p s : List Char) : ∀ q st : List Char, ' ' ∉ q → ' ' ∉ st → ¬ Collide p q →
    sedLine p s (q ++ ' ' :: st) = q ++ ' ' :: st
  | [], st, _, hst, hc => by
    have hp : p ≠ [] := by rintro rfl; exact hc ⟨[], [], rfl, List.Forall₂.nil⟩
    have h1 : ∀ st : List Char, ' ' ∉ st → sedLine p s st = st := by
      intro st
      induction st with
      | nil => intro _; rfl
      | cons c st ih =>
        intro h
        rw [sedLine, if_neg, ih (fun h' => h (List.mem_cons_of_mem _ h'))]
        rw [matchesAt_iff]
        rintro ⟨t, r, e, _⟩
        exact h (by rw [e]; simp)
    rw [List.nil_append, sedLine, if_neg, h1 st hst]
    rw [matchesAt_iff]
    rintro ⟨t, r, e, ht⟩
    have := split_blank (a := []) (b := st) (by simpa using e) (by simp) hst
    rw [← this.1] at ht
    cases ht
    exact hp rfl
  | c :: q, st, hq, hst, hc => by
    rw [List.cons_append, sedLine, if_neg, sedLine_miss p s q st (fun h => hq (List.mem_cons_of_mem _ h)) hst]
    · rintro ⟨pre, t, e, ht⟩
      exact hc ⟨c :: pre, t, by rw [e]; rfl, ht⟩
    · rw [matchesAt_iff]
      rintro ⟨t, r, e, ht⟩
      have := split_blank (a := c :: q) (b := st) (by simpa using e) hq hst
      exact hc ⟨[], c :: q, rfl, by rw [this.1]; exact ht⟩

/-- A path describes itself. -/
theorem looks_self : ∀ p : List Char, Looks p p
  | [] => List.Forall₂.nil
  | _ :: p => List.Forall₂.cons (.inr rfl) (looks_self p)

theorem sedLine_hit (p s st : List Char) (hp : p ≠ []) :
    sedLine p s (p ++ ' ' :: st) = p ++ ' ' :: s := by
  cases p with
  | nil => exact absurd rfl hp
  | cons c p =>
    rw [List.cons_append, sedLine, if_pos]
    · have : (c :: (p ++ ' ' :: st)).take (c :: p).length = c :: p := by
        rw [← List.cons_append, List.take_left']
        rfl
      rw [this]
    · rw [matchesAt_iff]
      exact ⟨c :: p, st, rfl, looks_self _⟩

theorem looks_length {p t : List Char} (h : Looks p t) : p.length = t.length := List.Forall₂.length_eq h

/-- C44, violated: if the path of an image is the end of the path of another image (`/a/x.zip` and `/mnt/a/x.zip`),
the update for the first one overwrites the status of the other one. -/
theorem c44_suffix_violated (p s st : List Char) : ∀ pre : List Char, ' ' ∉ pre ++ p → ' ' ∉ st → p ≠ [] →
    sedLine p s ((pre ++ p) ++ ' ' :: st) = (pre ++ p) ++ ' ' :: s
  | [], _, _, hp => by simpa using sedLine_hit p s st hp
  | c :: pre, hb, hst, hp => by
    have ih := c44_suffix_violated p s st pre (fun h => hb (List.mem_cons_of_mem _ h)) hst hp
    rw [List.cons_append, List.cons_append, sedLine, if_neg]
    · rw [ih]; rfl
    · rw [matchesAt_iff]
      rintro ⟨t, r, e, ht⟩
      have := split_blank (a := c :: pre ++ p) (b := st) (by simpa using e) (by simpa using hb) hst
      have hl := looks_length ht
      rw [← this.1] at hl
      simp at hl
      omega

/-- C44, violated: the status of an image whose path contains a plus sign is never updated. -/
theorem c44_plus_violated (p s : List Char) (file : List (List Char)) (h : '+' ∈ p) : sedFile p s file = file := by
  unfold sedFile
  rw [if_pos (by simpa using h)]

/-! ## The queue -/

/-- The entry after an update for path `p`. -/
def setStatus (p s : List Char) (e : Entry) : Entry := if e.path = p then { e with status := s } else e

/-- An entry that the update can handle. -/
structure GoodEntry (e : Entry) : Prop where
  ne : e.path ≠ []
  path : ' ' ∉ e.path
  status : ' ' ∉ e.status

theorem sedFile_entries (p s : List Char) (hp : '+' ∉ p) (es : List Entry) (hg : ∀ e ∈ es, GoodEntry e)
    (hc : ∀ e ∈ es, e.path = p ∨ ¬ Collide p e.path) :
    sedFile p s (es.map Entry.line) = (es.map (setStatus p s)).map Entry.line := by
  unfold sedFile
  rw [if_neg (by simpa using hp), List.map_map, List.map_map]
  apply List.map_congr_left
  intro e he
  have g := hg e he
  simp only [Function.comp_apply, setStatus, Entry.line]
  by_cases h : e.path = p
  · rw [if_pos h]
    simp only
    rw [h]
    exact sedLine_hit p s e.status (h ▸ g.ne)
  · rw [if_neg h]
    exact sedLine_miss p s e.path e.status g.path g.status ((hc e he).resolve_left h)

theorem hasQueued_eq (l : List Char) : hasQueued l = true ↔ ∃ a b, l = a ++ QUEUED ++ b := by
  fun_induction hasQueued l with
  | case1 l => simp only [true_iff]; exact ⟨[], l, rfl⟩
  | case2 c l hn ih =>
    rw [ih]
    constructor
    · rintro ⟨a, b, rfl⟩; exact ⟨c :: a, b, rfl⟩
    · rintro ⟨a, b, h⟩
      cases a with
      | nil =>
        simp only [QUEUED, List.nil_append, List.cons_append, List.cons.injEq] at h
        exact absurd h.2 (hn _ h.1)
      | cons x a =>
        simp only [List.cons_append, List.cons.injEq] at h
        exact ⟨a, b, h.2⟩
  | case3 =>
    simp only [Bool.false_eq_true, false_iff]
    rintro ⟨a, b, h⟩
    simp [QUEUED] at h

theorem dropQueued_id (l : List Char) (h : hasQueued l = false) : dropQueued l = l := by
  fun_induction hasQueued l with
  | case1 l => simp at h
  | case2 c l hn ih =>
    rw [dropQueued]
    · rw [ih h]
    · exact hn
  | case3 => rfl

theorem queued_prefix {q st b : List Char} (h : QUEUED ++ b = q ++ ' ' :: st) : ∃ d, q = QUEUED ++ d := by
  rcases List.append_eq_append_iff.1 h with ⟨c, h2, -⟩ | ⟨c, h2, h3⟩
  · exact ⟨c, h2⟩
  · cases c with
    | nil => exact ⟨[], by simpa using h2.symm⟩
    | cons x c =>
      simp only [List.cons_append, List.cons.injEq] at h3
      have : ' ' ∈ QUEUED := by rw [h2, h3.1]; simp
      exact absurd this (by decide)

theorem hasQueued_line (q st : List Char) (hq : hasQueued q = false) : hasQueued (q ++ ' ' :: st) = hasQueued st := by
  rw [Bool.eq_iff_iff, hasQueued_eq, hasQueued_eq]
  constructor
  · rintro ⟨a, b, h⟩
    rw [List.append_assoc] at h
    rcases List.append_eq_append_iff.1 h with ⟨c, h2, h3⟩ | ⟨c, h2, h3⟩
    · cases c with
      | nil => simp [QUEUED] at h3
      | cons x c =>
        simp only [List.cons_append, List.cons.injEq] at h3
        exact ⟨c, b, by rw [h3.2]; simp⟩
    · obtain ⟨d, hd⟩ := queued_prefix h3
      have : hasQueued q = true := (hasQueued_eq q).2 ⟨a, d, by rw [h2, hd]; simp⟩
      rw [hq] at this; cases this
  · rintro ⟨a, b, rfl⟩
    exact ⟨q ++ ' ' :: a, b, by simp⟩

theorem dropQueued_line (st : List Char) : ∀ q : List Char, hasQueued q = false →
    dropQueued (q ++ ' ' :: st) = q ++ ' ' :: dropQueued st
  | [], _ => by rw [List.nil_append, dropQueued]; rfl; intro l h; simp at h
  | c :: q, hq => by
    have hq' : hasQueued q = false := by
      by_contra h
      obtain ⟨a, b, e⟩ := (hasQueued_eq q).1 (by simpa using h)
      have : hasQueued (c :: q) = true := (hasQueued_eq _).2 ⟨c :: a, b, by rw [e]; rfl⟩
      rw [hq] at this; cases this
    rw [List.cons_append, dropQueued, dropQueued_line st q hq']
    · rfl
    · intro l hc hl
      have h : QUEUED ++ l = (c :: q) ++ ' ' :: st := by rw [List.cons_append, hc, hl]; rfl
      obtain ⟨d, hd⟩ := queued_prefix h
      have : hasQueued (c :: q) = true := (hasQueued_eq _).2 ⟨[], d, by rw [hd]; simp⟩
      rw [hq] at this; cases this

/-- C44: the images that are processed are exactly those with the status QUEUED. -/
theorem c44_images (es : List Entry) (hq : GoodQueue es) :
    images (es.map Entry.line) = (es.filter fun e => e.status = QUEUED).map (·.path) := by
  obtain ⟨hp, hs, -⟩ := hq
  unfold images
  induction es with
  | nil => rfl
  | cons e es ih =>
    have ih' := ih (fun x hx => hp x (List.mem_cons_of_mem _ hx)) (fun x hx => hs x (List.mem_cons_of_mem _ hx))
    obtain ⟨-, h2, -, h4⟩ := hp e List.mem_cons_self
    have hl := hasQueued_line e.path e.status h4
    rcases hs e List.mem_cons_self with h | h | h
    · rw [List.map_cons, List.filter_cons_of_pos (by rw [Entry.line, hl, h]; rfl), List.map_cons, ih',
        List.filter_cons_of_pos (by simpa using h), List.map_cons, Entry.line, dropQueued_line _ _ h4, h]
      congr 1
      have : dropQueued QUEUED = [] := rfl
      rw [this, List.filter_append, List.filter_eq_self.2]
      · simp
      · intro x hx
        simp only [ne_eq, decide_eq_true_eq]
        rintro rfl
        exact h2 hx
    · rw [List.map_cons, List.filter_cons_of_neg (by rw [Entry.line, hl, h]; decide), ih',
        List.filter_cons_of_neg (by rw [h]; decide)]
    · rw [List.map_cons, List.filter_cons_of_neg (by rw [Entry.line, hl, h]; decide), ih',
        List.filter_cons_of_neg (by rw [h]; decide)]

/-! ## Workers -/

/-- One update. -/
def upd (jobs : List (List Char × List Char)) (file : List (List Char)) (i : Nat) : List (List Char) :=
  match jobs[i]? with
  | some j => sedFile j.1 j.2 file
  | none => file

theorem foldl_upd (jobs : List (List Char × List Char)) : ∀ (ord : List Nat) (file : List (List Char)),
    ord.foldl (upd jobs) file = (ord.filterMap (fun i => jobs[i]?)).foldl (fun f j => sedFile j.1 j.2 f) file
  | [], _ => rfl
  | i :: ord, file => by
    rw [List.foldl_cons, foldl_upd jobs ord]
    cases hj : jobs[i]? with
    | none =>
      rw [List.filterMap_cons_none hj]
      have : upd jobs file i = file := by simp [upd, hj]
      rw [this]
    | some j =>
      rw [List.filterMap_cons_some hj, List.foldl_cons]
      have : upd jobs file i = sedFile j.1 j.2 file := by simp [upd, hj]
      rw [this]

/-- What holds while no worker gives up waiting for the lock. -/
structure LInv (jobs : List (List Char × List Char)) (file0 : List (List Char)) (s : Sys) (ord : List Nat) : Prop where
  len : s.pcs.length = jobs.length
  nodup : ord.Nodup
  mem : ∀ i : Nat, i ∈ ord ↔ s.pcs[i]? = some .written ∨ s.pcs[i]? = some .done
  file : s.file = ord.foldl (upd jobs) file0
  excl : ∀ i : Nat, s.pcs[i]? = some .locked ∨ (∃ sn, s.pcs[i]? = some (Pc.read sn)) ∨ s.pcs[i]? = some .written → s.lock = some i
  snap : ∀ (i : Nat) (sn : List (List Char)), s.pcs[i]? = some (Pc.read sn) → sn = s.file

theorem get_set {pcs : List Pc} {i : Nat} (hi : i < pcs.length) (x : Pc) (k : Nat) :
    (pcs.set i x)[k]? = if i = k then some x else pcs[k]? := by
  rw [List.getElem?_set]
  split
  · rename_i h; subst h; rfl
  · rfl

theorem step_inv (jobs : List (List Char × List Char)) (file0 : List (List Char)) (s s' : Sys) (ord : List Nat)
    (h : LInv jobs file0 s ord) (i : Nat) (a : Act) (ha : a ≠ .giveUp) (hs : act jobs s i a = some s') :
    ∃ ord', LInv jobs file0 s' ord' := by
  have hlt : ∀ x, s.pcs[i]? = some x → i < s.pcs.length := fun x hx => (List.getElem?_eq_some_iff.1 hx).1
  unfold act at hs
  generalize hj : jobs[i]? = oj at hs
  generalize hpc : s.pcs[i]? = op at hs
  split at hs
  · -- lock
    split at hs
    · rename_i hl
      cases hs
      have hl' : s.lock = none := by simpa using hl
      refine ⟨ord, by simp [h.len], h.nodup, ?_, h.file, ?_, ?_⟩
      · intro k
        rw [h.mem k, get_set (hlt _ hpc)]
        split
        · rename_i e; subst e; rw [hpc]; simp
        · rfl
      · intro k hk
        simp only [get_set (hlt _ hpc)] at hk
        by_cases e : i = k
        · rw [e]
        · simp only [if_neg e] at hk
          have := h.excl k hk
          rw [hl'] at this; cases this
      · intro k sn hk
        simp only [get_set (hlt _ hpc)] at hk
        split at hk
        · cases hk
        · exact h.snap k sn hk
    · cases hs
  · exact absurd rfl ha
  · -- read
    cases hs
    have hown := h.excl i (.inl hpc)
    refine ⟨ord, by simp [h.len], h.nodup, ?_, h.file, ?_, ?_⟩
    · intro k
      rw [h.mem k, get_set (hlt _ hpc)]
      split
      · rename_i e; subst e; rw [hpc]; simp
      · rfl
    · intro k hk
      simp only [get_set (hlt _ hpc)] at hk
      by_cases e : i = k
      · rw [← e]; exact hown
      · simp only [if_neg e] at hk
        exact h.excl k hk
    · intro k sn hk
      simp only [get_set (hlt _ hpc)] at hk
      split at hk
      · cases hk; rfl
      · exact h.snap k sn hk
  · -- write
    rename_i j snap
    cases hs
    have hown := h.excl i (.inr (.inl ⟨_, hpc⟩))
    have hni : i ∉ ord := by rw [h.mem i, hpc]; simp
    refine ⟨ord ++ [i], by simp [h.len], ?_, ?_, ?_, ?_, ?_⟩
    · rw [List.nodup_append]
      exact ⟨h.nodup, by simp, by intro x hx y hy; simp at hy; subst hy; rintro rfl; exact hni hx⟩
    · intro k
      rw [List.mem_append, h.mem k, get_set (hlt _ hpc)]
      by_cases e : i = k
      · subst e; simp
      · simp [e, Ne.symm e]
    · show sedFile j.1 j.2 snap = _
      rw [List.foldl_append, ← h.file, h.snap i snap hpc]
      simp [upd, hj]
    · intro k hk
      simp only [get_set (hlt _ hpc)] at hk
      by_cases e : i = k
      · rw [← e]; exact hown
      · simp only [if_neg e] at hk
        exact h.excl k hk
    · intro k sn hk
      simp only [get_set (hlt _ hpc)] at hk
      by_cases e : i = k
      · simp [e] at hk
      · simp only [if_neg e] at hk
        have := h.excl k (.inr (.inl ⟨_, hk⟩))
        rw [hown] at this
        cases this
        exact absurd rfl e
  · -- unlock
    cases hs
    have hown := h.excl i (.inr (.inr hpc))
    refine ⟨ord, by simp [h.len], h.nodup, ?_, h.file, ?_, ?_⟩
    · intro k
      rw [h.mem k, get_set (hlt _ hpc)]
      split
      · rename_i e; subst e; rw [hpc]; simp
      · rfl
    · intro k hk
      simp only [get_set (hlt _ hpc)] at hk
      by_cases e : i = k
      · simp [e] at hk
      · simp only [if_neg e] at hk
        have := h.excl k hk
        rw [hown] at this
        cases this
        exact absurd rfl e
    · intro k sn hk
      simp only [get_set (hlt _ hpc)] at hk
      split at hk
      · cases hk
      · exact h.snap k sn hk
  · cases hs

theorem exec_inv (jobs : List (List Char × List Char)) (file0 : List (List Char)) :
    ∀ (sched : List (Nat × Act)) (s s' : Sys) (ord : List Nat), LInv jobs file0 s ord →
    (∀ x ∈ sched, x.2 ≠ .giveUp) → exec jobs sched s = some s' → ∃ ord', LInv jobs file0 s' ord'
  | [], s, s', ord, h, _, hs => by cases hs; exact ⟨ord, h⟩
  | (i, a) :: l, s, s', ord, h, hg, hs => by
    rw [exec] at hs
    obtain ⟨s1, h1, h2⟩ := Option.bind_eq_some_iff.1 hs
    obtain ⟨ord1, i1⟩ := step_inv jobs file0 s s1 ord h i a (hg (i, a) List.mem_cons_self) h1
    exact exec_inv jobs file0 l s1 s' ord1 i1 (fun x hx => hg x (List.mem_cons_of_mem _ hx)) h2

theorem start_inv (jobs : List (List Char × List Char)) (file0 : List (List Char)) :
    LInv jobs file0 (start file0 jobs.length) [] := by
  refine ⟨by simp [start], by simp, ?_, rfl, ?_, ?_⟩
  · intro i
    simp only [start, List.getElem?_replicate]
    split <;> simp
  · intro i hi
    simp only [start, List.getElem?_replicate] at hi
    split at hi <;> simp at hi
  · intro i sn hi
    simp only [start, List.getElem?_replicate] at hi
    split at hi <;> simp at hi

/-- C44: whatever the schedule, if no worker gives up waiting for the lock, the file at the end is the result of one
update after the other, each job once, in some order. -/
theorem c44_serial (jobs : List (List Char × List Char)) (file0 : List (List Char)) (sched : List (Nat × Act))
    (s : Sys) (hg : ∀ x ∈ sched, x.2 ≠ .giveUp) (hs : exec jobs sched (start file0 jobs.length) = some s)
    (hf : Finished s) :
    ∃ js : List (List Char × List Char), js.Perm jobs ∧ s.file = js.foldl (fun f j => sedFile j.1 j.2 f) file0 := by
  obtain ⟨ord, h⟩ := exec_inv jobs file0 sched _ s [] (start_inv jobs file0) hg hs
  have hmem : ∀ i, i ∈ ord ↔ i < jobs.length := by
    intro i
    rw [h.mem i]
    constructor
    · rintro (h' | h') <;> · have := (List.getElem?_eq_some_iff.1 h').1; rw [h.len] at this; exact this
    · intro hi
      right
      rw [List.getElem?_eq_getElem (by rw [h.len]; exact hi), hf _ (List.getElem_mem _)]
  have hperm : ord.Perm (List.range jobs.length) := by
    rw [List.perm_ext_iff_of_nodup h.nodup List.nodup_range]
    intro i; rw [hmem i, List.mem_range]
  refine ⟨ord.filterMap (fun i => jobs[i]?), ?_, ?_⟩
  · have h1 := hperm.filterMap (fun i => jobs[i]?)
    have h2 : (List.range jobs.length).filterMap (fun i => jobs[i]?) = jobs := by
      apply List.ext_getElem?
      intro i
      clear h hmem hperm h1 hs hf hg
      induction jobs using List.reverseRecOn generalizing i with
      | nil => simp
      | append_singleton l x ih =>
        rw [List.length_append, List.length_singleton, List.range_succ, List.filterMap_append]
        have e : (List.range l.length).filterMap (fun i => (l ++ [x])[i]?) = (List.range l.length).filterMap (fun i => l[i]?) := by
          apply List.filterMap_congr
          intro k hk
          rw [List.getElem?_append_left (by simpa using hk)]
        rw [e, List.ext_getElem? ih]
        simp
    rw [h2] at h1
    exact h1
  · rw [h.file]
    exact foldl_upd jobs ord file0

theorem setStatus_path (p s : List Char) (e : Entry) : (setStatus p s e).path = e.path := by
  unfold setStatus; split <;> rfl

theorem setStatus_good {p s : List Char} {e : Entry} (hs : ' ' ∉ s) (h : GoodEntry e) : GoodEntry (setStatus p s e) := by
  unfold setStatus
  split
  · exact ⟨h.ne, h.path, hs⟩
  · exact h

/-- Several updates, one after the other. -/
theorem foldl_sed : ∀ (js : List (List Char × List Char)) (es : List Entry), (∀ e ∈ es, GoodEntry e) →
    (∀ j ∈ js, '+' ∉ j.1 ∧ ' ' ∉ j.2 ∧ ∀ e ∈ es, e.path = j.1 ∨ ¬ Collide j.1 e.path) →
    js.foldl (fun f j => sedFile j.1 j.2 f) (es.map Entry.line) =
      (es.map fun e => js.foldl (fun e j => setStatus j.1 j.2 e) e).map Entry.line
  | [], es, _, _ => by simp
  | j :: js, es, hg, hj => by
    obtain ⟨h1, h2, h3⟩ := hj j List.mem_cons_self
    rw [List.foldl_cons, sedFile_entries j.1 j.2 h1 es hg h3, foldl_sed js]
    · simp only [List.map_map]; rfl
    · intro e he
      obtain ⟨e', he', rfl⟩ := List.mem_map.1 he
      exact setStatus_good h2 (hg e' he')
    · intro k hk
      obtain ⟨k1, k2, k3⟩ := hj k (List.mem_cons_of_mem _ hk)
      refine ⟨k1, k2, ?_⟩
      intro e he
      obtain ⟨e', he', rfl⟩ := List.mem_map.1 he
      rw [setStatus_path]
      exact k3 e' he'

theorem foldl_setStatus (result : List Char → List Char) : ∀ (js : List (List Char × List Char)) (e : Entry),
    (∀ j ∈ js, j.2 = result j.1) →
    js.foldl (fun e j => setStatus j.1 j.2 e) e =
      if e.path ∈ js.map (·.1) then { e with status := result e.path } else e
  | [], e, _ => by simp
  | j :: js, e, h => by
    rw [List.foldl_cons, foldl_setStatus result js _ (fun k hk => h k (List.mem_cons_of_mem _ hk)), setStatus_path]
    have hj := h j List.mem_cons_self
    simp only [List.map_cons, List.mem_cons]
    by_cases h1 : e.path = j.1
    · simp only [setStatus, h1, if_true, true_or, hj]
      split <;> rfl
    · simp only [setStatus, h1, if_false, false_or]

theorem collide_self (p : List Char) : Collide p p := ⟨[], p, rfl, looks_self p⟩

/-- C44: for every usable queue, whatever the outcomes of the images and the schedule of the workers, if all workers
finish and none gives up waiting for the lock, each image that was queued is marked with its own outcome and all other
lines are unchanged. -/
theorem c44_status_partial (es : List Entry) (hq : GoodQueue es) (result : List Char → List Char)
    (hr : ∀ p, result p = DONE ∨ result p = FAIL) (sched : List (Nat × Act)) (s : Sys)
    (hg : ∀ x ∈ sched, x.2 ≠ .giveUp)
    (hs : exec ((images (es.map Entry.line)).map fun p => (p, result p)) sched
      (start (es.map Entry.line) (images (es.map Entry.line)).length) = some s)
    (hf : Finished s) :
    s.file = es.map fun e => e.path ++ ' ' :: (if e.status = QUEUED then result e.path else e.status) := by
  have hi := c44_images es hq
  rw [hi] at hs
  generalize hjobs : ((es.filter fun e => e.status = QUEUED).map (·.path)).map (fun p => (p, result p)) = jobs at hs
  have hlen : ((es.filter fun e => e.status = QUEUED).map (·.path)).length = jobs.length := by rw [← hjobs]; simp
  rw [hlen] at hs
  obtain ⟨js, hperm, hfile⟩ := c44_serial jobs _ sched s hg hs hf
  have hblank : ∀ st, st = QUEUED ∨ st = DONE ∨ st = FAIL → ' ' ∉ st := by
    rintro st (rfl | rfl | rfl) <;> decide
  have hjs : ∀ j ∈ js, ∃ e ∈ es, e.path = j.1 ∧ e.status = QUEUED ∧ j.2 = result j.1 := by
    intro j hj
    have : j ∈ jobs := hperm.subset hj
    rw [← hjobs, List.map_map] at this
    obtain ⟨e, he, rfl⟩ := List.mem_map.1 this
    have := List.mem_filter.1 he
    exact ⟨e, this.1, rfl, by simpa using this.2, rfl⟩
  have hapart : ∀ a ∈ es, ∀ b ∈ es, a.path = b.path ∨ ¬ Collide a.path b.path := by
    intro a ha b hb
    by_cases hab : a = b
    · left; rw [hab]
    · right
      have hsym : Std.Symm (fun a b : Entry => ¬ Collide a.path b.path ∧ ¬ Collide b.path a.path) :=
        ⟨fun _ _ h => ⟨h.2, h.1⟩⟩
      exact (hq.apart.forall ha hb hab).1
  have huniq : ∀ a ∈ es, ∀ b ∈ es, a.path = b.path → a = b := by
    intro a ha b hb hp
    by_contra hab
    have hsym : Std.Symm (fun a b : Entry => ¬ Collide a.path b.path ∧ ¬ Collide b.path a.path) :=
      ⟨fun _ _ h => ⟨h.2, h.1⟩⟩
    exact (hq.apart.forall ha hb hab).1 (hp ▸ collide_self _)
  rw [hfile, foldl_sed js es, List.map_map]
  · apply List.map_congr_left
    intro e he
    simp only [Function.comp_apply, Entry.line]
    rw [foldl_setStatus result js e (fun j hj => (hjs j hj).choose_spec.2.2.2)]
    have hiff : e.path ∈ js.map (·.1) ↔ e.status = QUEUED := by
      constructor
      · intro h
        obtain ⟨j, hj, hje⟩ := List.mem_map.1 h
        obtain ⟨e', he', h1, h2, -⟩ := hjs j hj
        rw [huniq e he e' he' (by rw [h1, hje])]
        exact h2
      · intro h
        refine List.mem_map.2 ⟨(e.path, result e.path), hperm.symm.subset ?_, rfl⟩
        rw [← hjobs, List.map_map]
        exact List.mem_map.2 ⟨e, List.mem_filter.2 ⟨he, by simpa using h⟩, rfl⟩
    by_cases hst : e.status = QUEUED
    · rw [if_pos (hiff.2 hst), if_pos hst]
    · rw [if_neg (fun h => hst (hiff.1 h)), if_neg hst]
  · intro e he
    obtain ⟨h1, h2, -, -⟩ := hq.path e he
    exact ⟨h1, h2, hblank _ (hq.status e he)⟩
  · intro j hj
    obtain ⟨e, he, h1, -, h3⟩ := hjs j hj
    refine ⟨h1 ▸ (hq.path e he).2.2.1, ?_, ?_⟩
    · rw [h3]
      exact hblank _ (.inr (hr _))
    · intro e' he'
      rw [← h1]
      rcases hapart e he e' he' with h | h
      · exact .inl h.symm
      · exact .inr h

/-- C44, violated: `lockfile-create` gives up after some attempts and the script goes on without the lock: for every
two images there is a schedule in which both workers finish and the status of the first one is still QUEUED. -/
theorem c44_give_up_violated (es : List Entry) (a b : Entry) (hes : es = [a, b]) (hq : GoodQueue es)
    (ha : a.status = QUEUED) (hb : b.status = QUEUED) (result : List Char → List Char)
    (hr : ∀ p, result p = DONE ∨ result p = FAIL) :
    ∃ sched s, exec ((images (es.map Entry.line)).map fun p => (p, result p)) sched
        (start (es.map Entry.line) (images (es.map Entry.line)).length) = some s ∧ Finished s ∧
      s.file = [a.path ++ ' ' :: QUEUED, b.path ++ ' ' :: result b.path] := by
  have hi := c44_images es hq
  subst hes
  rw [hi]
  have e1 : ([a, b].filter fun e => e.status = QUEUED) = [a, b] := by simp [ha, hb]
  rw [e1]
  refine ⟨[(0, .lock), (0, .read), (1, .giveUp), (1, .read), (0, .write), (0, .unlock), (1, .write), (1, .unlock)],
    ⟨sedFile b.path (result b.path) ([a, b].map Entry.line), none, [.done, .done]⟩, rfl, ?_, ?_⟩
  · intro pc hpc
    simpa using hpc
  · have hblank : ∀ st, st = QUEUED ∨ st = DONE ∨ st = FAIL → ' ' ∉ st := by
      rintro st (rfl | rfl | rfl) <;> decide
    have hab : ¬ Collide b.path a.path := by
      have := hq.apart
      simp at this
      exact this.2
    have hne : a.path ≠ b.path := fun h => hab (h ▸ collide_self _)
    show sedFile _ _ _ = _
    rw [sedFile_entries _ _ (hq.path b (by simp)).2.2.1]
    · simp [setStatus, hne, Entry.line, ha]
    · intro e he
      obtain ⟨h1, h2, -, -⟩ := hq.path e he
      exact ⟨h1, h2, hblank _ (hq.status e he)⟩
    · intro e he
      simp only [List.mem_cons, List.not_mem_nil, or_false] at he
      rcases he with rfl | rfl
      · exact .inr hab
      · exact .inl rfl

/-- A queue of three images. -/
def queueEx : List Entry :=
  [⟨"/l1/LC08.tar".toList, QUEUED⟩, ⟨"/l1/LE07.tar".toList, DONE⟩, ⟨"/l1/S2A.zip".toList, QUEUED⟩]

theorem collide_iff (p q : List Char) : Collide p q ↔
    p.length ≤ q.length ∧ Looks p (q.drop (q.length - p.length)) := by
  constructor
  · rintro ⟨pre, t, rfl, h⟩
    have hl := looks_length h
    refine ⟨by simp [hl], ?_⟩
    have : (pre ++ t).length - p.length = pre.length := by simp [hl]
    rw [this, List.drop_left]
    exact h
  · rintro ⟨h1, h2⟩
    exact ⟨q.take (q.length - p.length), _, (List.take_append_drop _ _).symm, h2⟩

instance (p q : List Char) : Decidable (Looks p q) := by unfold Looks; infer_instance

theorem queueEx_good : GoodQueue queueEx := by
  refine ⟨by decide +kernel, by decide +kernel, ?_⟩
  simp only [queueEx, List.pairwise_cons, List.mem_cons, List.not_mem_nil, or_false, collide_iff, forall_eq_or_imp,
    forall_eq, List.Pairwise.nil, false_imp_iff, implies_true, and_true]
  decide +kernel

/-- The hypotheses of `c44_status_partial` are met: two workers, interleaved. -/
example : ∃ (sched : List (Nat × Act)) (s : Sys), GoodQueue queueEx ∧ (∀ x ∈ sched, x.2 ≠ .giveUp) ∧
    exec ((images (queueEx.map Entry.line)).map fun p => (p, if p.length = 11 then FAIL else DONE)) sched
      (start (queueEx.map Entry.line) (images (queueEx.map Entry.line)).length) = some s ∧ Finished s :=
  ⟨[(1, .lock), (1, .read), (1, .write), (1, .unlock), (0, .lock), (0, .read), (0, .write), (0, .unlock)],
    ⟨["/l1/LC08.tar DONE".toList, "/l1/LE07.tar DONE".toList, "/l1/S2A.zip FAIL".toList], none, [.done, .done]⟩,
    queueEx_good, by decide, by rfl, by intro pc h; simpa using h⟩

end Verif.L2queue

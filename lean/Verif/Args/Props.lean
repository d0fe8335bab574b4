import Mathlib.Tactic.Linarith
import Mathlib.Tactic.NormNum
import Mathlib.Tactic.Ring
import Mathlib.Tactic.FieldSimp
import Verif.Args.Model
import Verif.Index.Lemmas
import Verif.Param.Lemmas
import Verif.Tile.Props

/-!
# Properties C284 to C288: command lines of the tools
-/

namespace Verif.Args

/-! ## Specification -/

/-- The words of a command line with these options and other arguments: the options can be anywhere between the arguments,
each with its value attached or in the next word. `flags` are the options without, `args` those with a value. -/
inductive Spec.Written (flags args : List Char) : List (Char × Option Word) → List Word → List Word → Prop
  | nil : Written flags args [] [] []
  | pos {o p l} (w : Word) (hw : w = ['-'] ∨ w.head? ≠ some '-') (h : Written flags args o p l) : Written flags args o (w :: p) (w :: l)
  | flag {o p l} (c : Char) (hc : c ∈ flags) (h : Written flags args o p l) : Written flags args ((c, none) :: o) p (['-', c] :: l)
  | apart {o p l} (c : Char) (a : Word) (hc : c ∈ args) (h : Written flags args o p l) :
      Written flags args ((c, some a) :: o) p (['-', c] :: a :: l)
  | attached {o p l} (c : Char) (a : Word) (hc : c ∈ args) (ha : a ≠ []) (h : Written flags args o p l) :
      Written flags args ((c, some a) :: o) p (('-' :: c :: a) :: l)

/-- The last value that is given for an option. -/
def Spec.last : List (Char × Option Word) → Char → Option Word
  | [], _ => none
  | x :: l, c =>
    match Spec.last l c with
    | some w => some w
    | none => if x.1 = c then x.2 else none

/-- The items between commas. -/
def Spec.items (w : Word) : List Word := (w.splitOnP fun c => c = ',').filter fun v => v ≠ []

open Spec

/-! ## getopt -/

theorem cluster_eq (os : Word) (c : Char) (cs : Word) (rest : List Word) : cluster os (c :: cs) rest =
    match takes os c with
    | none => (.bad :: (cluster os cs rest).1, (cluster os cs rest).2)
    | some false => (.opt c none :: (cluster os cs rest).1, (cluster os cs rest).2)
    | some true =>
      if cs ≠ [] then ([.opt c (some cs)], rest)
      else match rest with
        | [] => ([.bad], [])
        | a :: rest => ([.opt c (some a)], rest) := by
  rw [cluster.eq_def]
  dsimp only
  cases takes os c with
  | none => rfl
  | some b =>
    cases b with
    | false => rfl
    | true => cases rest <;> rfl

theorem cluster_flag (os : Word) (c : Char) (rest : List Word) (h : takes os c = some false) :
    cluster os [c] rest = ([.opt c none], rest) := by
  rw [cluster_eq, h]
  dsimp only
  rw [cluster.eq_def]

theorem cluster_apart (os : Word) (c : Char) (a : Word) (rest : List Word) (h : takes os c = some true) :
    cluster os [c] (a :: rest) = ([.opt c (some a)], rest) := by
  rw [cluster_eq, h]
  dsimp only
  rw [if_neg (by simp)]

theorem cluster_attached (os : Word) (c : Char) (a : Word) (rest : List Word) (h : takes os c = some true) (ha : a ≠ []) :
    cluster os (c :: a) rest = ([.opt c (some a)], rest) := by
  rw [cluster_eq, h]
  exact if_pos ha

theorem cluster_missing (os : Word) (c : Char) (h : takes os c = some true) : cluster os [c] [] = ([.bad], []) := by
  rw [cluster_eq, h]
  rfl

def ev (x : Char × Option Word) : Ev := .opt x.1 x.2

theorem getopt_dash (os : Word) (c : Char) (cs : Word) (ws : List Word) (h : c ≠ '-' ∨ cs ≠ []) :
    getopt os (('-' :: c :: cs) :: ws) =
      ((cluster os (c :: cs) ws).1 ++ (getopt os (cluster os (c :: cs) ws).2).1, (getopt os (cluster os (c :: cs) ws).2).2) := by
  rw [getopt, if_neg]
  rintro ⟨a, b⟩
  rcases h with h | h
  · exact h a
  · exact h b

theorem getopt_pos (os w : Word) (ws : List Word) (h : w = ['-'] ∨ w.head? ≠ some '-') :
    getopt os (w :: ws) = ((getopt os ws).1, w :: (getopt os ws).2) := by
  rw [getopt]
  intro c cs e
  subst e
  rcases h with h | h
  · cases h
  · exact h rfl

/-- Options are found wherever they are, and the other arguments keep their order. -/
theorem getopt_written (os : Word) (flags args : List Char) (hf : ∀ c ∈ flags, takes os c = some false)
    (ha : ∀ c ∈ args, takes os c = some true) (hd : ∀ c, c ∈ flags ∨ c ∈ args → c ≠ '-')
    (o : List (Char × Option Word)) (p l : List Word) (h : Written flags args o p l) (rest : List Word) :
    getopt os (l ++ rest) = (o.map ev ++ (getopt os rest).1, p ++ (getopt os rest).2) := by
  induction h with
  | nil => rfl
  | pos w hw _ ih =>
    rw [List.cons_append, getopt_pos os w _ hw, ih]
    rfl
  | flag c hc _ ih =>
    rw [List.cons_append, getopt_dash os c [] _ (Or.inl (hd c (Or.inl hc)))]
    rw [cluster_flag os c _ (hf c hc), ih]
    rfl
  | apart c a hc _ ih =>
    rw [List.cons_append, getopt_dash os c [] _ (Or.inl (hd c (Or.inr hc)))]
    rw [List.cons_append, cluster_apart os c a _ (ha c hc), ih]
    rfl
  | attached c a hc hne _ ih =>
    rw [List.cons_append, getopt_dash os c a _ (Or.inr hne)]
    rw [cluster_attached os c a _ (ha c hc) hne, ih]
    rfl

theorem getopt_all (os : Word) (flags args : List Char) (hf : ∀ c ∈ flags, takes os c = some false)
    (ha : ∀ c ∈ args, takes os c = some true) (hd : ∀ c, c ∈ flags ∨ c ∈ args → c ≠ '-')
    (o : List (Char × Option Word)) (p l : List Word) (h : Written flags args o p l) :
    getopt os l = (o.map ev, p) := by
  have := getopt_written os flags args hf ha hd o p l h []
  rw [List.append_nil] at this
  rw [this, show getopt os [] = ([], []) by rw [getopt]]
  simp

theorem getopt_bad (os : Word) (c : Char) (cs : Word) (ws : List Word) (h : takes os c = none) (hd : c ≠ '-' ∨ cs ≠ []) :
    ∃ es, (getopt os (('-' :: c :: cs) :: ws)).1 = .bad :: es := by
  rw [getopt_dash os c cs ws hd, cluster_eq, h]
  exact ⟨_, rfl⟩

theorem run_append {σ : Type} (step : Char → Option Word → σ → Res σ) (a b : List Ev) (s t : σ) (h : run step a s = .ok t) :
    run step (a ++ b) s = run step b t := by
  induction a generalizing s with
  | nil => cases h; rfl
  | cons e a ih =>
    cases e with
    | bad => cases h
    | opt c v =>
      rw [List.cons_append, run]
      rw [run] at h
      cases hs : step c v s with
      | ok s' =>
        rw [hs] at h
        exact ih s' h
      | stop b => rw [hs] at h; cases h
      | loop => rw [hs] at h; cases h
      | ub => rw [hs] at h; cases h

theorem written_mem {flags args o p l} (h : Written flags args o p l) (x) (hx : x ∈ o) :
    (x.1 ∈ flags ∧ x.2 = none) ∨ (x.1 ∈ args ∧ ∃ a, x.2 = some a) := by
  induction h with
  | nil => cases hx
  | pos w _ _ ih => exact ih hx
  | flag c hc _ ih =>
    rcases List.mem_cons.1 hx with rfl | hx
    · exact Or.inl ⟨hc, rfl⟩
    · exact ih hx
  | apart c a hc _ ih =>
    rcases List.mem_cons.1 hx with rfl | hx
    · exact Or.inr ⟨hc, a, rfl⟩
    · exact ih hx
  | attached c a hc _ _ ih =>
    rcases List.mem_cons.1 hx with rfl | hx
    · exact Or.inr ⟨hc, a, rfl⟩
    · exact ih hx

theorem last_other (x : Char × Option Word) (l : List (Char × Option Word)) (c : Char) (h : x.1 ≠ c) : last (x :: l) c = last l c := by
  rw [last]
  cases last l c with
  | none => simp [h]
  | some v => rfl

theorem last_same (w : Word) (l : List (Char × Option Word)) (c : Char) : last ((c, some w) :: l) c = some ((last l c).getD w) := by
  rw [last]
  cases last l c with
  | none => simp
  | some v => rfl

theorem last_mem (l : List (Char × Option Word)) (c : Char) (w : Word) (h : last l c = some w) : (c, some w) ∈ l := by
  induction l with
  | nil => cases h
  | cons x l ih =>
    rw [last] at h
    cases e : last l c with
    | some v =>
      rw [e] at h
      cases h
      exact List.mem_cons_of_mem _ (ih e)
    | none =>
      rw [e] at h
      by_cases hx : x.1 = c
      · simp only [hx, if_true] at h
        rw [← hx, ← h]
        exact List.mem_cons_self
      · simp [hx] at h

/-! ## C284: force-hist -/

/-- The values of the options are valid: no help, names below 1024 characters, and bands from 1. -/
def Spec.HistValid (o : List (Char × Option Word)) : Prop :=
  ∀ x ∈ o, ∃ w, x.2 = some w ∧ (x.1 = 'o' → w.length < 1024) ∧ (x.1 = 'b' → 1 ≤ Date.atoi w)

theorem hist_run (o : List (Char × Option Word)) (hc : ∀ x ∈ o, x.1 ∈ ['o', 'b'] ∨ x.1 ∈ ['h', 'v', 'i']) (hm : ∀ x ∈ o, x.1 ∈ ['h', 'v', 'i'] → x.2 = none)
    (hv : HistValid o) (s : Hist) :
    run histStep (o.map ev) s =
      .ok ⟨s.input, (last o 'o').getD s.output, ((last o 'b').map Date.atoi).getD s.band⟩ := by
  induction o generalizing s with
  | nil => rfl
  | cons x o ih =>
    obtain ⟨w, hw, h1, h2⟩ := hv x List.mem_cons_self
    have ih' := ih (fun y hy => hc y (List.mem_cons_of_mem _ hy)) (fun y hy => hm y (List.mem_cons_of_mem _ hy))
      (fun y hy => hv y (List.mem_cons_of_mem _ hy))
    obtain ⟨c, a⟩ := x
    dsimp only at hw h1 h2
    subst hw
    have hcc : c = 'o' ∨ c = 'b' := by
      rcases hc _ List.mem_cons_self with h | h
      · simpa using h
      · have := hm _ List.mem_cons_self h
        cases this
    rw [List.map_cons]
    rcases hcc with rfl | rfl
    · have e : histStep 'o' (some w) s = .ok { s with output := w } := if_pos (h1 rfl)
      rw [show ev ('o', some w) = .opt 'o' (some w) from rfl, run, e]
      dsimp only
      rw [ih', last_same, last_other _ _ _ (by dsimp only; decide)]
      rfl
    · have e : histStep 'b' (some w) s = .ok { s with band := Date.atoi w } := if_neg (by have := h2 rfl; omega)
      rw [show ev ('b', some w) = .opt 'b' (some w) from rfl, run, e]
      dsimp only
      rw [ih', last_same, last_other _ _ _ (by dsimp only; decide)]
      cases last o 'b' <;> rfl

theorem hist_takes : (∀ c ∈ ['h', 'v', 'i'], takes "hvio:b:".toList c = some false) ∧
    (∀ c ∈ ['o', 'b'], takes "hvio:b:".toList c = some true) := by
  refine ⟨?_, ?_⟩ <;> decide

theorem no_dash (flags args : List Char) (h : '-' ∉ flags ++ args) (c : Char) (hc : c ∈ flags ∨ c ∈ args) : c ≠ '-' := by
  rintro rfl
  exact h (List.mem_append.2 hc)

theorem hist_getopt {o p l} (h : Written ['h', 'v', 'i'] ['o', 'b'] o p l) (rest : List Word) :
    getopt "hvio:b:".toList (l ++ rest) =
      (o.map ev ++ (getopt "hvio:b:".toList rest).1, p ++ (getopt "hvio:b:".toList rest).2) :=
  getopt_written _ _ _ hist_takes.1 hist_takes.2 (no_dash _ _ (by decide)) o p l h rest

theorem hist_ok {o p l} (h : Written ['h', 'v', 'i'] ['o', 'b'] o p l) (hv : HistValid o) (s : Hist) :
    run histStep (o.map ev) s =
      .ok ⟨s.input, (last o 'o').getD s.output, ((last o 'b').map Date.atoi).getD s.band⟩ := by
  refine hist_run o ?_ ?_ hv s
  · intro x hx
    rcases written_mem h x hx with h | h
    · exact Or.inr h.1
    · exact Or.inl h.1
  · intro x hx hf
    rcases written_mem h x hx with h | h
    · exact h.2
    · obtain ⟨a, _⟩ := h
      revert a hf
      generalize x.1 = c
      intro hf a
      simp only [List.mem_cons, List.not_mem_nil, or_false] at a hf
      rcases hf with rfl | rfl | rfl <;> simp at a

/-- C284: options can be placed anywhere, the last one counts, and missing ones have their default. -/
theorem c284_accepted (o : List (Char × Option Word)) (line : List Word) (image : Word)
    (h : Written ['h', 'v', 'i'] ['o', 'b'] o [image] line) (hv : HistValid o)
    (hi : image.length < 1024) (hk : image ≠ "wwssadadBA".toList) :
    hist line = .ok ⟨image, (last o 'o').getD "histogram.csv".toList, ((last o 'b').map Date.atoi).getD 1⟩ := by
  have hg := hist_getopt h []
  rw [List.append_nil, show getopt "hvio:b:".toList [] = ([], []) by rw [getopt]] at hg
  unfold hist
  dsimp only
  rw [hg]
  dsimp only
  rw [List.append_nil, List.append_nil, hist_ok h hv]
  dsimp only [positional]
  rw [if_neg hk, if_pos (show [image].length = 1 from rfl)]
  show copy image _ = _
  unfold copy
  rw [if_pos hi]

/-- C284: a command line with another number of arguments is refused. -/
theorem c284_count (o : List (Char × Option Word)) (line pos : List Word) (h : Written ['h', 'v', 'i'] ['o', 'b'] o pos line)
    (hv : HistValid o) (hp : pos.length ≠ 1) (hk : pos.head? ≠ some "wwssadadBA".toList) : hist line = .stop false := by
  have hg := hist_getopt h []
  rw [List.append_nil, show getopt "hvio:b:".toList [] = ([], []) by rw [getopt]] at hg
  unfold hist
  dsimp only
  rw [hg]
  dsimp only
  rw [List.append_nil, List.append_nil, hist_ok h hv]
  dsimp only
  cases pos with
  | nil => rfl
  | cons p ps =>
    unfold positional
    dsimp only
    rw [if_neg (by intro e; exact hk (by rw [e]; rfl)), if_neg hp]

theorem hist_stops {o p l} (h : Written ['h', 'v', 'i'] ['o', 'b'] o p l) (hv : HistValid o) (rest : List Word) (b : Bool)
    (hr : ∀ s, run histStep (getopt "hvio:b:".toList rest).1 s = .stop b) : hist (l ++ rest) = .stop b := by
  unfold hist
  dsimp only
  rw [hist_getopt h]
  dsimp only
  rw [run_append _ _ _ _ _ (hist_ok h hv _), hr]

/-- C284: after valid words, an unknown option, or an option without its value at the end, is refused, and so is a
band below 1 and a name that is too long; `-h`, `-v` and `-i` end with success. Whatever follows is not read. -/
theorem c284_stops (o : List (Char × Option Word)) (line pos rest : List Word) (h : Written ['h', 'v', 'i'] ['o', 'b'] o pos line)
    (hv : HistValid o) :
    (∀ c cs, c ∉ ['h', 'v', 'i', 'o', 'b', '-'] → hist (line ++ ('-' :: c :: cs) :: rest) = .stop false) ∧
    (∀ c ∈ ['o', 'b'], hist (line ++ [['-', c]]) = .stop false) ∧
    (∀ w, Date.atoi w < 1 → hist (line ++ ['-', 'b'] :: w :: rest) = .stop false) ∧
    (∀ w : Word, 1024 ≤ w.length → hist (line ++ ['-', 'o'] :: w :: rest) = .stop false) ∧
    (∀ c ∈ ['h', 'v', 'i'], hist (line ++ ['-', c] :: rest) = .stop true) := by
  have hd : ∀ c ∈ ['h', 'v', 'i', 'o', 'b'], c ≠ '-' := by decide
  refine ⟨?_, ?_, ?_, ?_, ?_⟩
  · intro c cs hc
    apply hist_stops h hv
    intro s
    have ht : takes "hvio:b:".toList c = none := by
      simp only [List.mem_cons, List.not_mem_nil, or_false, not_or] at hc
      have : "hvio:b:".toList = ['h', 'v', 'i', 'o', ':', 'b', ':'] := by decide
      rw [this]
      simp [takes, hc]
    obtain ⟨es, he⟩ := getopt_bad _ c cs rest ht (Or.inl (by intro e; subst e; exact hc (by decide)))
    rw [he]
    rfl
  · intro c hc
    apply hist_stops h hv
    intro s
    rw [getopt_dash _ c [] _ (Or.inl (hd c (by revert c; decide))), cluster_missing _ c (hist_takes.2 c hc)]
    rfl
  · intro w hw
    apply hist_stops h hv
    intro s
    rw [getopt_dash _ 'b' [] _ (Or.inl (by decide)), cluster_apart _ 'b' w _ (hist_takes.2 'b' (by decide))]
    dsimp only
    rw [List.singleton_append, run]
    have : histStep 'b' (some w) s = .stop false := if_pos hw
    rw [this]
  · intro w hw
    apply hist_stops h hv
    intro s
    rw [getopt_dash _ 'o' [] _ (Or.inl (by decide)), cluster_apart _ 'o' w _ (hist_takes.2 'o' (by decide))]
    dsimp only
    rw [List.singleton_append, run]
    have : histStep 'o' (some w) s = .stop false := if_neg (by omega)
    rw [this]
  · intro c hc
    apply hist_stops h hv
    intro s
    rw [getopt_dash _ c [] _ (Or.inl (hd c (by revert c; decide))), cluster_flag _ c _ (hist_takes.1 c hc)]
    dsimp only
    rw [List.singleton_append, run]
    have : histStep c none s = .stop true := by
      simp only [List.mem_cons, List.not_mem_nil, or_false] at hc
      rcases hc with rfl | rfl | rfl <;> rfl
    rw [this]

/-- `force-hist -b 2 image -oout -b3` -/
example : hist ["-b".toList, "2".toList, "image".toList, "-oout".toList, "-b3".toList] = .ok ⟨"image".toList, "out".toList, 3⟩ := by
  have h : Written ['h', 'v', 'i'] ['o', 'b'] [('b', some ['2']), ('o', some "out".toList), ('b', some ['3'])] ["image".toList]
      [['-', 'b'], ['2'], "image".toList, '-' :: 'o' :: "out".toList, '-' :: 'b' :: ['3']] :=
    .apart 'b' _ (by decide) (.pos _ (by decide) (.attached 'o' _ (by decide) (by decide) (.attached 'b' _ (by decide) (by decide) .nil)))
  refine c284_accepted _ _ _ h ?_ (by decide) (by decide)
  intro x hx
  simp only [List.mem_cons, List.not_mem_nil, or_false] at hx
  rcases hx with rfl | rfl | rfl
  · exact ⟨_, rfl, by decide, by decide⟩
  · exact ⟨_, rfl, by decide, by decide⟩
  · exact ⟨_, rfl, by decide, by decide⟩

/-! ## All tools -/

theorem run_inv {σ : Type} (step : Char → Option Word → σ → Res σ) (P : σ → Prop)
    (hs : ∀ c a s t, P s → step c a s = .ok t → P t) (es : List Ev) (s t : σ) (h0 : P s) (h : run step es s = .ok t) : P t := by
  induction es generalizing s with
  | nil => cases h; exact h0
  | cons e es ih =>
    cases e with
    | bad => cases h
    | opt c a =>
      rw [run] at h
      cases e : step c a s with
      | ok s' =>
        rw [e] at h
        exact ih s' (hs c a s s' h0 e) h
      | stop b => rw [e] at h; cases h
      | loop => rw [e] at h; cases h
      | ub => rw [e] at h; cases h

theorem written_args {flags args o p l} (h : Written flags args o p l) (hv : ∀ x ∈ o, ∃ w, x.2 = some w) :
    ∀ x ∈ o, x.1 ∈ args := by
  intro x hx
  rcases written_mem h x hx with a | a
  · obtain ⟨w, hw⟩ := hv x hx
    rw [a.2] at hw
    cases hw
  · exact a.1

theorem copy_ok {σ : Type} {w : Word} {k : Word → Res σ} {t : σ} (h : copy w k = .ok t) : w.length < 1024 ∧ k w = .ok t := by
  unfold copy at h
  split at h
  · exact ⟨by assumption, h⟩
  · cases h

theorem positional_ok {σ : Type} {n : Nat} {pos : List Word} {k : List Word → Res σ} {t : σ} (h : positional n pos k = .ok t) :
    pos.length = n ∧ k pos = .ok t := by
  unfold positional at h
  split at h
  · cases h
  · split at h
    · cases h
    · split at h
      · exact ⟨by assumption, h⟩
      · cases h

/-! ## C285: force-stratified-sample -/

/-- The values of the options are valid. -/
def Spec.SampleValid (o : List (Char × Option Word)) : Prop :=
  ∀ x ∈ o, ∃ w, x.2 = some w ∧ (x.1 = 'o' → w.length < 1024) ∧ (x.1 = 'f' → w.length < 1024) ∧ (x.1 = 'b' → 1 ≤ Date.atoi w)

theorem sample_run (o : List (Char × Option Word)) (hc : ∀ x ∈ o, x.1 ∈ ['o', 'f', 'b']) (hv : SampleValid o) (s : Sample) :
    run sampleStep (o.map ev) s =
      .ok { s with output := (last o 'o').getD s.output, format := (last o 'f').getD s.format,
                   band := ((last o 'b').map Date.atoi).getD s.band, f := s.f || (last o 'f').isSome } := by
  induction o generalizing s with
  | nil => simp [run, last]
  | cons x o ih =>
    obtain ⟨w, hw, h1, h2, h3⟩ := hv x List.mem_cons_self
    have ih' := ih (fun y hy => hc y (List.mem_cons_of_mem _ hy)) (fun y hy => hv y (List.mem_cons_of_mem _ hy))
    have hx := hc x List.mem_cons_self
    obtain ⟨c, a⟩ := x
    dsimp only at hw h1 h2 h3 hx
    subst hw
    simp only [List.mem_cons, List.not_mem_nil, or_false] at hx
    rw [List.map_cons]
    rcases hx with rfl | rfl | rfl
    · have e : sampleStep 'o' (some w) s = .ok { s with output := w } := if_pos (h1 rfl)
      rw [show ev ('o', some w) = .opt 'o' (some w) from rfl, run, e]
      dsimp only
      rw [ih', last_same, last_other _ _ 'f' (by dsimp only; decide), last_other _ _ 'b' (by dsimp only; decide)]
      rfl
    · have e : sampleStep 'f' (some w) s = .ok { s with format := w, f := true } := if_pos (h2 rfl)
      rw [show ev ('f', some w) = .opt 'f' (some w) from rfl, run, e]
      dsimp only
      rw [ih', last_same, last_other _ _ 'o' (by dsimp only; decide), last_other _ _ 'b' (by dsimp only; decide)]
      simp
    · have e : sampleStep 'b' (some w) s = .ok { s with band := Date.atoi w } := if_neg (by have := h3 rfl; omega)
      rw [show ev ('b', some w) = .opt 'b' (some w) from rfl, run, e]
      dsimp only
      rw [ih', last_same, last_other _ _ 'o' (by dsimp only; decide), last_other _ _ 'f' (by dsimp only; decide)]
      cases last o 'b' <;> rfl

theorem sample_getopt {o p l} (h : Written ['h', 'v', 'i'] ['o', 'f', 'b'] o p l) : getopt "hvio:f:b:".toList l = (o.map ev, p) :=
  getopt_all _ _ _ (by decide) (by decide) (no_dash _ _ (by decide)) o p l h

/-- C285, partial: without `-f`, the sample is written as geopackage to the file of the last `-o`, unless it exists.
Missing: other formats. -/
theorem c285_accepted_partial (exist : Word → Bool) (o : List (Char × Option Word)) (line : List Word) (image sizes column : Word)
    (h : Written ['h', 'v', 'i'] ['o', 'f', 'b'] o [image, sizes, column] line) (hv : SampleValid o) (hf : last o 'f' = none)
    (hi : image.length < 1024) (hs : sizes.length < 1024) (hcl : column.length < 1024) (hk : image ≠ "wwssadadBA".toList) :
    sample exist line =
      if exist ((last o 'o').getD "sample.gpkg".toList) = true then .stop false
      else .ok { image := image, sizes := sizes, column := column, output := (last o 'o').getD "sample.gpkg".toList,
                 format := "GPKG".toList, band := ((last o 'b').map Date.atoi).getD 1, o := false, f := false } := by
  have hc := written_args h fun x hx => by obtain ⟨w, hw, _⟩ := hv x hx; exact ⟨w, hw⟩
  unfold sample
  dsimp only
  rw [sample_getopt h]
  dsimp only
  rw [sample_run o hc hv, hf]
  dsimp only [positional]
  rw [if_neg hk, if_pos (show [image, sizes, column].length = 3 from rfl)]
  have e : ∀ (k : Word → Word → Word → Res Sample), (copy ([image, sizes, column].getD 0 []) fun a =>
      copy ([image, sizes, column].getD 1 []) fun b => copy ([image, sizes, column].getD 2 []) fun c => k a b c) =
      k image sizes column := by
    intro k
    show (copy image fun a => copy sizes fun b => copy column fun c => k a b c) = _
    unfold copy
    rw [if_pos hi]
    simp only [if_pos hs, if_pos hcl]
  rw [e]
  rfl

/-- C285, violated: whatever the command line, no sample is written in another format: `-f` is only accepted together
with `-o`, but `-o` is not noticed. -/
theorem c285_format_violated (exist : Word → Bool) (line : List Word) (s : Sample) (h : sample exist line = .ok s) :
    s.format = "GPKG".toList := by
  unfold sample at h
  dsimp only at h
  cases e : run sampleStep (getopt "hvio:f:b:".toList line).1 sampleDefault with
  | ok t =>
    rw [e] at h
    dsimp only at h
    have inv : t.o = false ∧ (t.f = false → t.format = "GPKG".toList) := by
      refine run_inv sampleStep (fun t => t.o = false ∧ (t.f = false → t.format = "GPKG".toList)) ?_ _ _ _ ⟨rfl, fun _ => rfl⟩ e
      intro c a s t hs ht
      unfold sampleStep at ht
      split at ht
      · cases ht
      · cases ht
      · cases ht
      · obtain ⟨_, ht⟩ := copy_ok ht
        cases ht
        exact hs
      · obtain ⟨_, ht⟩ := copy_ok ht
        cases ht
        exact ⟨hs.1, fun h => by cases h⟩
      · split at ht
        · cases ht
        · cases ht
          exact hs
      · cases ht
    generalize hu : positional 3 (getopt "hvio:f:b:".toList line).2 _ = r at h
    cases r with
    | ok u =>
      obtain ⟨_, hu⟩ := positional_ok hu
      obtain ⟨_, hu⟩ := copy_ok hu
      obtain ⟨_, hu⟩ := copy_ok hu
      obtain ⟨_, hu⟩ := copy_ok hu
      cases hu
      dsimp only at h
      split at h
      · cases h
      · split at h
        · cases h
        · cases h
          dsimp only
          apply inv.2
          rename_i h1 h2
          rw [inv.1] at h1
          simpa using h1
    | stop b => cases h
    | loop => cases h
    | ub => cases h
  | stop b => rw [e] at h; cases h
  | loop => rw [e] at h; cases h
  | ub => rw [e] at h; cases h

/-- `force-stratified-sample -f CSV -o out.csv image sizes column` is refused, without `-f` it is accepted. -/
example : sample (fun _ => false) ["-f".toList, "CSV".toList, "-o".toList, "out.csv".toList, "image".toList, "sizes".toList, "column".toList] =
      .stop false := by
  have h : Written ['h', 'v', 'i'] ['o', 'f', 'b'] [('f', some "CSV".toList), ('o', some "out.csv".toList)] ["image".toList, "sizes".toList, "column".toList]
      [['-', 'f'], "CSV".toList, ['-', 'o'], "out.csv".toList, "image".toList, "sizes".toList, "column".toList] :=
    .apart 'f' _ (by decide) (.apart 'o' _ (by decide) (.pos _ (by decide) (.pos _ (by decide) (.pos _ (by decide) .nil))))
  have := sample_getopt h
  unfold sample
  rw [show ["-f".toList, "CSV".toList, "-o".toList, "out.csv".toList, "image".toList, "sizes".toList, "column".toList] =
    [['-', 'f'], "CSV".toList, ['-', 'o'], "out.csv".toList, "image".toList, "sizes".toList, "column".toList] by decide, this]
  decide

/-! ## C286: force-tile-finder -/

theorem tokens_items (w : Word) : Param.tokens comma w = items w := Param.tokens_eq comma w

theorem pair_eq (rd : ℚ → ℚ) (w : Word) : pair rd w =
    if w.length < 1024 ∧ (items w).length = 2 then .ok (Libc.atof rd ((items w).getD 0 []), Libc.atof rd ((items w).getD 1 []))
    else .stop false := by
  unfold pair copy
  dsimp only
  rw [tokens_items]
  by_cases h : w.length < 1024
  · rw [if_pos h]
    generalize items w = l
    match l with
    | [] => simp
    | [a] => simp
    | [a, b] => simp [h]
    | a :: b :: c :: l => simp
  · rw [if_neg h, if_neg fun e => h e.1]

/-- The values of the options are valid: a point has two numbers, a resolution is positive. -/
def Spec.FinderValid (rd : ℚ → ℚ) (o : List (Char × Option Word)) : Prop :=
  ∀ x ∈ o, ∃ w, x.2 = some w ∧ (x.1 = 'p' → w.length < 1024 ∧ (items w).length = 2) ∧ (x.1 = 'r' → 0 < Libc.atof rd w)

/-- The number `k` in the last value of an option, or a default. -/
def Spec.number (rd : ℚ → ℚ) (o : List (Char × Option Word)) (c : Char) (k : Nat) (d : ℚ) : ℚ :=
  match last o c with
  | some w => Libc.atof rd ((items w).getD k [])
  | none => d

theorem number_other (rd : ℚ → ℚ) (x) (o) (c : Char) (k : Nat) (d : ℚ) (h : x.1 ≠ c) : number rd (x :: o) c k d = number rd o c k d := by
  unfold number
  rw [last_other _ _ _ h]

theorem number_same (rd : ℚ → ℚ) (w : Word) (o) (c : Char) (k : Nat) (d : ℚ) :
    number rd ((c, some w) :: o) c k d = number rd o c k (Libc.atof rd ((items w).getD k [])) := by
  unfold number
  rw [last_same]
  cases last o c <;> rfl

theorem finder_run (rd : ℚ → ℚ) (o : List (Char × Option Word)) (hc : ∀ x ∈ o, x.1 ∈ ['p', 'r']) (hv : FinderValid rd o) (s : Finder) :
    run (finderStep rd) (o.map ev) s =
      .ok ⟨number rd o 'p' 0 s.lon, number rd o 'p' 1 s.lat, ((last o 'r').map (Libc.atof rd)).getD s.res, s.dcube⟩ := by
  induction o generalizing s with
  | nil => rfl
  | cons x o ih =>
    obtain ⟨w, hw, h1, h2⟩ := hv x List.mem_cons_self
    have ih' := ih (fun y hy => hc y (List.mem_cons_of_mem _ hy)) (fun y hy => hv y (List.mem_cons_of_mem _ hy))
    have hx := hc x List.mem_cons_self
    obtain ⟨c, a⟩ := x
    dsimp only at hw h1 h2 hx
    subst hw
    simp only [List.mem_cons, List.not_mem_nil, or_false] at hx
    rw [List.map_cons]
    rcases hx with rfl | rfl
    · have e : finderStep rd 'p' (some w) s =
          .ok { s with lon := Libc.atof rd ((items w).getD 0 []), lat := Libc.atof rd ((items w).getD 1 []) } := by
        show (match pair rd w with | .ok p => _ | .stop b => _ | .loop => _ | .ub => _) = _
        rw [pair_eq, if_pos (h1 rfl)]
      rw [show ev ('p', some w) = .opt 'p' (some w) from rfl, run, e]
      dsimp only
      rw [ih', number_same, number_same, last_other _ _ 'r' (by dsimp only; decide)]
    · have e : finderStep rd 'r' (some w) s = .ok { s with res := Libc.atof rd w } := if_neg (not_le.2 (h2 rfl))
      rw [show ev ('r', some w) = .opt 'r' (some w) from rfl, run, e]
      dsimp only
      rw [ih', last_same, number_other _ _ _ 'p' _ _ (by dsimp only; decide), number_other _ _ _ 'p' _ _ (by dsimp only; decide)]
      cases last o 'r' <;> rfl

theorem finder_getopt {o p l} (h : Written ['h', 'v', 'i'] ['p', 'r'] o p l) (rest : List Word) :
    getopt "hvip:r:".toList (l ++ rest) =
      (o.map ev ++ (getopt "hvip:r:".toList rest).1, p ++ (getopt "hvip:r:".toList rest).2) :=
  getopt_written _ _ _ (by decide) (by decide) (no_dash _ _ (by decide)) o p l h rest

/-- C286: the point and the resolution are those of the last options, or the defaults. -/
theorem c286_accepted (rd : ℚ → ℚ) (o : List (Char × Option Word)) (line : List Word) (dir : Word)
    (h : Written ['h', 'v', 'i'] ['p', 'r'] o [dir] line) (hv : FinderValid rd o)
    (hi : dir.length < 1024) (hk : dir ≠ "wwssadadBA".toList) :
    finder rd line = .ok ⟨number rd o 'p' 0 (6675589 / 1000000), number rd o 'p' 1 (49748134 / 1000000),
      ((last o 'r').map (Libc.atof rd)).getD 10, dir⟩ := by
  have hc := written_args h fun x hx => by obtain ⟨w, hw, _⟩ := hv x hx; exact ⟨w, hw⟩
  have hg := finder_getopt h []
  rw [List.append_nil, show getopt "hvip:r:".toList [] = ([], []) by rw [getopt]] at hg
  unfold finder
  dsimp only
  rw [hg]
  dsimp only
  rw [List.append_nil, List.append_nil, finder_run rd o hc hv]
  dsimp only [positional]
  rw [if_neg hk, if_pos (show [dir].length = 1 from rfl)]
  show copy dir _ = _
  unfold copy
  rw [if_pos hi]

/-- C286: a point without exactly two numbers and a resolution that is not positive are refused, wherever they are. -/
theorem c286_refused (rd : ℚ → ℚ) (o : List (Char × Option Word)) (line pos rest : List Word) (w : Word)
    (h : Written ['h', 'v', 'i'] ['p', 'r'] o pos line) (hv : FinderValid rd o) :
    ((items w).length ≠ 2 → finder rd (line ++ ['-', 'p'] :: w :: rest) = .stop false) ∧
    (Libc.atof rd w ≤ 0 → finder rd (line ++ ['-', 'r'] :: w :: rest) = .stop false) := by
  have hc := written_args h fun x hx => by obtain ⟨w, hw, _⟩ := hv x hx; exact ⟨w, hw⟩
  have key : ∀ c, takes "hvip:r:".toList c = some true → c ≠ '-' → (∀ s, finderStep rd c (some w) s = .stop false) →
      finder rd (line ++ ['-', c] :: w :: rest) = .stop false := by
    intro c ht hd hs
    unfold finder
    dsimp only
    rw [finder_getopt h]
    dsimp only
    rw [run_append _ _ _ _ _ (finder_run rd o hc hv _), getopt_dash _ c [] _ (Or.inl hd), cluster_apart _ c w _ ht]
    dsimp only
    rw [List.singleton_append, run, hs]
  constructor
  · intro hw
    refine key 'p' (by decide) (by decide) fun s => ?_
    show (match pair rd w with | .ok p => _ | .stop b => _ | .loop => _ | .ub => _) = _
    rw [pair_eq, if_neg fun e => hw e.2]
  · intro hw
    exact key 'r' (by decide) (by decide) fun s => if_pos hw

/-- C286: if a command line is accepted, the resolution is positive. -/
theorem c286_positive (rd : ℚ → ℚ) (line : List Word) (s : Finder) (h : finder rd line = .ok s) : 0 < s.res := by
  unfold finder at h
  dsimp only at h
  split at h
  · rename_i t ht
    obtain ⟨_, h⟩ := positional_ok h
    obtain ⟨_, h⟩ := copy_ok h
    cases h
    show 0 < t.res
    refine run_inv (finderStep rd) (fun t => 0 < t.res) ?_ _ _ _ (show (0 : ℚ) < 10 by norm_num) ht
    intro c a s t hs ht
    unfold finderStep at ht
    split at ht
    · cases ht
    · cases ht
    · cases ht
    · split at ht
      · cases ht
        exact hs
      · cases ht
      · cases ht
      · cases ht
    · split at ht
      · cases ht
      · cases ht
        rename_i h1
        exact not_le.1 h1
    · cases ht
  · simp_all

/-- `force-tile-finder dir -r 30 -p 13.5,-52.25` -/
example : finder id ["dir".toList, "-r".toList, "30".toList, "-p".toList, "13.5,-52.25".toList] =
    .ok ⟨27 / 2, -209 / 4, 30, "dir".toList⟩ := by
  have h : Written ['h', 'v', 'i'] ['p', 'r'] [('r', some "30".toList), ('p', some "13.5,-52.25".toList)] ["dir".toList]
      ["dir".toList, ['-', 'r'], "30".toList, ['-', 'p'], "13.5,-52.25".toList] :=
    .pos _ (by decide) (.apart 'r' _ (by decide) (.apart 'p' _ (by decide) .nil))
  have := c286_accepted id _ _ _ h (by
    intro x hx
    simp only [List.mem_cons, List.not_mem_nil, or_false] at hx
    rcases hx with rfl | rfl
    · exact ⟨_, rfl, by decide, fun _ => by decide +kernel⟩
    · exact ⟨_, rfl, fun _ => by decide +kernel, by decide⟩) (by decide) (by decide)
  rw [show ["dir".toList, "-r".toList, "30".toList, "-p".toList, "13.5,-52.25".toList] =
    ["dir".toList, ['-', 'r'], "30".toList, ['-', 'p'], "13.5,-52.25".toList] by decide, this]
  decide +kernel

/-! ## C287: reported pixel -/

theorem trunc_cell (d res : ℚ) (hr : 0 < res) (hd : 0 ≤ d) :
    0 ≤ Index.truncQ (d / res) ∧ (Index.truncQ (d / res) : ℚ) * res ≤ d ∧ d < (Index.truncQ (d / res) + 1) * res := by
  have hq : 0 ≤ d / res := div_nonneg hd hr.le
  rw [Index.truncQ_eq, if_pos hq]
  refine ⟨Int.floor_nonneg.2 hq, ?_, ?_⟩
  · exact (le_div_iff₀ hr).1 (Int.floor_le _)
  · exact (div_lt_iff₀ hr).1 (Int.lt_floor_add_one _)

/-- C287: the reported column and row, counted from the corner of the reported tile, contain the point. -/
theorem c287_contains (c : Tile.Cube) (hX : 0 < c.tileSizeX) (hY : 0 < c.tileSizeY) (hr : 0 < c.resolution) (x y : ℚ) :
    ∃ t j i, report c x y = some (t, j, i) ∧ 0 ≤ j ∧ 0 ≤ i ∧
      t.tilex = c.originX + t.idx * c.tileSizeX ∧ t.tiley = c.originY - t.idy * c.tileSizeY ∧
      (t.tilex + j * c.resolution ≤ x ∧ x < t.tilex + (j + 1) * c.resolution) ∧
      (t.tiley - (i + 1) * c.resolution < y ∧ y ≤ t.tiley - i * c.resolution) := by
  obtain ⟨f, hf, ⟨⟨h1, h2⟩, ⟨h3, h4⟩⟩, h5, h6⟩ := Tile.c16_tile_contains_point c hX hY x y
  have hx : 0 ≤ x - f.tilex := by rw [h5]; linarith
  have hy : 0 ≤ f.tiley - y := by rw [h6]; linarith
  obtain ⟨a1, a2, a3⟩ := trunc_cell _ c.resolution hr hx
  obtain ⟨b1, b2, b3⟩ := trunc_cell _ c.resolution hr hy
  refine ⟨f, _, _, by unfold report; rw [hf]; rfl, a1, b1, h5, h6, ⟨?_, ?_⟩, ⟨?_, ?_⟩⟩ <;> linarith

/-- C287, partial: inside a tile of `nx` columns and `ny` rows, the reported pixel is one of them. Missing: points on the edge
of a tile. -/
theorem c287_inside_partial (c : Tile.Cube) (nx ny : Nat) (hr : 0 < c.resolution) (hX : c.tileSizeX = nx * c.resolution)
    (hY : c.tileSizeY = ny * c.resolution) (hx0 : 0 < nx) (hy0 : 0 < ny) (x y : ℚ) (tx ty : Int)
    (h : (c.originX + tx * c.tileSizeX < x ∧ x < c.originX + (tx + 1) * c.tileSizeX) ∧
      (c.originY - (ty + 1) * c.tileSizeY < y ∧ y < c.originY - ty * c.tileSizeY)) :
    ∃ t j i, report c x y = some (t, j, i) ∧ t.idx = tx ∧ t.idy = ty ∧ (0 ≤ j ∧ j < nx) ∧ (0 ≤ i ∧ i < ny) := by
  have pX : 0 < c.tileSizeX := by rw [hX]; have : (0 : ℚ) < nx := by exact_mod_cast hx0
                                  positivity
  have pY : 0 < c.tileSizeY := by rw [hY]; have : (0 : ℚ) < ny := by exact_mod_cast hy0
                                  positivity
  obtain ⟨t, j, i, e, hj, hi, e1, e2, ⟨a1, a2⟩, ⟨b1, b2⟩⟩ := c287_contains c pX pY hr x y
  have hin : Tile.Spec.Inside c tx ty x y := by
    obtain ⟨⟨g1, g2⟩, ⟨g3, g4⟩⟩ := h
    refine ⟨⟨?_, ?_⟩, ⟨?_, ?_⟩⟩
    · unfold Tile.Spec.left; exact g1
    · unfold Tile.Spec.left; push_cast; exact g2
    · unfold Tile.Spec.top; push_cast; exact g3
    · unfold Tile.Spec.top; exact g4
  have hf := Tile.c16_interior c pX pY x y tx ty hin
  have ht : t.idx = tx ∧ t.idy = ty := by
    unfold report at e
    rw [hf] at e
    simp only [Option.bind_some, Option.some.injEq, Prod.mk.injEq] at e
    rw [← e.1]
    exact ⟨rfl, rfl⟩
  rw [ht.1] at e1
  rw [ht.2] at e2
  refine ⟨t, j, i, e, ht.1, ht.2, ⟨hj, ?_⟩, ⟨hi, ?_⟩⟩
  · have k : (j : ℚ) * c.resolution < nx * c.resolution := by rw [← hX]; linarith [h.1.2]
    exact_mod_cast lt_of_mul_lt_mul_right k hr.le
  · have k : (i : ℚ) * c.resolution < ny * c.resolution := by rw [← hY]; linarith [h.2.1]
    exact_mod_cast lt_of_mul_lt_mul_right k hr.le

/-- C287, violated: for each tile right of the origin, a point on its left edge is reported in the tile to the left, in the
column after the last one of that tile. -/
theorem c287_edge_violated (c : Tile.Cube) (nx : Nat) (hr : 0 < c.resolution) (hX : c.tileSizeX = nx * c.resolution)
    (hY : 0 < c.tileSizeY) (hx0 : 0 < nx) (tx : Int) (htx : 0 < tx) (y : ℚ) :
    ∃ (t : Tile.Found) (i : Int), report c (c.originX + tx * c.tileSizeX) y = some (t, (nx : Int), i) ∧ t.idx = tx - 1 := by
  have pX : 0 < c.tileSizeX := by rw [hX]; have : (0 : ℚ) < nx := by exact_mod_cast hx0
                                  positivity
  obtain ⟨f, hf, hi⟩ := Tile.c16_edge_convention c pX hY tx y
  rw [if_pos htx] at hi
  obtain ⟨g, hg, _, h5, _⟩ := Tile.c16_tile_contains_point c pX hY (Tile.Spec.left c tx) y
  rw [hf] at hg
  cases hg
  unfold Tile.Spec.left at hf h5
  refine ⟨f, Index.truncQ ((f.tiley - y) / c.resolution), ?_, hi⟩
  unfold report
  rw [hf]
  simp only [Option.bind_some, Option.some.injEq, Prod.mk.injEq, true_and, and_true]
  rw [h5, hi]
  have : (c.originX + (tx : ℚ) * c.tileSizeX - (c.originX + ((tx - 1 : Int) : ℚ) * c.tileSizeX)) / c.resolution = (nx : ℚ) := by
    rw [hX]
    push_cast
    field_simp
    ring
  rw [this, Index.truncQ_eq, if_pos (by positivity)]
  exact Int.floor_natCast nx

example : ∃ (t : Tile.Found) (i : Int), report ⟨0, 0, 3000, 3000, 10⟩ 6000 (-5) = some (t, 300, i) ∧ t.idx = 1 := by
  have := c287_edge_violated ⟨0, 0, 3000, 3000, 10⟩ 300 (by norm_num) (by norm_num) (by norm_num) (by norm_num) 2 (by norm_num) (-5)
  norm_num at this
  obtain ⟨t, ⟨i, h⟩, e⟩ := this
  exact ⟨t, i, h, e⟩

/-! ## C288: force-cube-init -/

/-- The values of the options are valid: two numbers for the origin, two positive numbers for the size. -/
def Spec.InitValid (rd : ℚ → ℚ) (o : List (Char × Option Word)) : Prop :=
  ∀ x ∈ o, ∃ w, x.2 = some w ∧ w.length < 1024 ∧ (x.1 = 'o' → (items w).length = 2) ∧
    (x.1 = 't' → (items w).length = 2 ∧ ∀ v ∈ items w, 0 < Libc.atof rd v)

theorem sizes_two (rd : ℚ → ℚ) (l : List Word) (s : ℚ × ℚ) (hl : l.length = 2) (h : ∀ v ∈ l, 0 < Libc.atof rd v) :
    sizes rd 0 l s = .ok (2, (Libc.atof rd (l.getD 0 []), Libc.atof rd (l.getD 1 []))) := by
  match l, hl with
  | [a, b], _ =>
    have ha := h a (by simp)
    have hb := h b (by simp)
    rw [sizes, if_neg (not_le.2 ha), sizes, if_neg (not_le.2 hb), sizes]
    rfl

theorem init_run (rd : ℚ → ℚ) (o : List (Char × Option Word)) (hc : ∀ x ∈ o, x.1 ∈ ['d', 'o', 't']) (hv : InitValid rd o) (s : Init) :
    run (initStep rd) (o.map ev) s =
      .ok ⟨number rd o 'o' 0 s.lon, number rd o 'o' 1 s.lat, number rd o 't' 0 s.sizeX, number rd o 't' 1 s.sizeY,
        (last o 'd').getD s.dcube, s.proj⟩ := by
  induction o generalizing s with
  | nil => rfl
  | cons x o ih =>
    obtain ⟨w, hw, h0, h1, h2⟩ := hv x List.mem_cons_self
    have ih' := ih (fun y hy => hc y (List.mem_cons_of_mem _ hy)) (fun y hy => hv y (List.mem_cons_of_mem _ hy))
    have hx := hc x List.mem_cons_self
    obtain ⟨c, a⟩ := x
    dsimp only at hw h1 h2 hx
    subst hw
    simp only [List.mem_cons, List.not_mem_nil, or_false] at hx
    rw [List.map_cons]
    rcases hx with rfl | rfl | rfl
    · have e : initStep rd 'd' (some w) s = .ok { s with dcube := w } := if_pos h0
      rw [show ev ('d', some w) = .opt 'd' (some w) from rfl, run, e]
      dsimp only
      rw [ih', last_same, number_other _ _ _ 'o' _ _ (by dsimp only; decide), number_other _ _ _ 'o' _ _ (by dsimp only; decide),
        number_other _ _ _ 't' _ _ (by dsimp only; decide), number_other _ _ _ 't' _ _ (by dsimp only; decide)]
      rfl
    · have e : initStep rd 'o' (some w) s =
          .ok { s with lon := Libc.atof rd ((items w).getD 0 []), lat := Libc.atof rd ((items w).getD 1 []) } := by
        show (match pair rd w with | .ok p => _ | .stop b => _ | .loop => _ | .ub => _) = _
        rw [pair_eq, if_pos ⟨h0, h1 rfl⟩]
      rw [show ev ('o', some w) = .opt 'o' (some w) from rfl, run, e]
      dsimp only
      rw [ih', number_same, number_same, last_other _ _ 'd' (by dsimp only; decide),
        number_other _ _ _ 't' _ _ (by dsimp only; decide), number_other _ _ _ 't' _ _ (by dsimp only; decide)]
    · have e : initStep rd 't' (some w) s =
          .ok { s with sizeX := Libc.atof rd ((items w).getD 0 []), sizeY := Libc.atof rd ((items w).getD 1 []) } := by
        show tileSize rd w s = _
        unfold tileSize copy
        rw [if_pos h0]
        dsimp only
        rw [tokens_items, sizes_two rd _ _ (h2 rfl).1 (h2 rfl).2]
        rfl
      rw [show ev ('t', some w) = .opt 't' (some w) from rfl, run, e]
      dsimp only
      rw [ih', number_same, number_same, last_other _ _ 'd' (by dsimp only; decide),
        number_other _ _ _ 'o' _ _ (by dsimp only; decide), number_other _ _ _ 'o' _ _ (by dsimp only; decide)]

theorem init_getopt {o p l} (h : Written ['h', 'v', 'i'] ['d', 'o', 't'] o p l) (rest : List Word) :
    getopt "hvid:o:t:".toList (l ++ rest) =
      (o.map ev ++ (getopt "hvid:o:t:".toList rest).1, p ++ (getopt "hvid:o:t:".toList rest).2) :=
  getopt_written _ _ _ (by decide) (by decide) (no_dash _ _ (by decide)) o p l h rest

/-- C288: directory, origin and tile size are those of the last options, or the defaults. -/
theorem c288_accepted (rd : ℚ → ℚ) (o : List (Char × Option Word)) (line : List Word) (proj : Word)
    (h : Written ['h', 'v', 'i'] ['d', 'o', 't'] o [proj] line) (hv : InitValid rd o)
    (hi : proj.length < 1024) (hk : proj ≠ "wwssadadBA".toList) :
    init rd line = .ok ⟨number rd o 'o' 0 (-25), number rd o 'o' 1 60, number rd o 't' 0 30000, number rd o 't' 1 30000,
      (last o 'd').getD ['.'], proj⟩ := by
  have hc := written_args h fun x hx => by obtain ⟨w, hw, _⟩ := hv x hx; exact ⟨w, hw⟩
  have hg := init_getopt h []
  rw [List.append_nil, show getopt "hvid:o:t:".toList [] = ([], []) by rw [getopt]] at hg
  unfold init
  dsimp only
  rw [hg]
  dsimp only
  rw [List.append_nil, List.append_nil, init_run rd o hc hv]
  dsimp only [positional]
  rw [if_neg hk, if_pos (show [proj].length = 1 from rfl)]
  show copy proj _ = _
  unfold copy
  rw [if_pos hi]

theorem sizes_inv (rd : ℚ → ℚ) (i : Nat) (l : List Word) (s : ℚ × ℚ) (r : Nat × (ℚ × ℚ)) (h0 : 0 < s.1 ∧ 0 < s.2)
    (h : sizes rd i l s = .ok r) : 0 < r.2.1 ∧ 0 < r.2.2 := by
  induction l generalizing i s with
  | nil =>
    rw [sizes] at h
    cases h
    exact h0
  | cons w l ih =>
    match i with
    | 0 =>
      rw [sizes] at h
      split at h
      · cases h
      · rename_i hw
        exact ih 1 (_, _) ⟨not_le.1 hw, h0.2⟩ h
    | 1 =>
      rw [sizes] at h
      split at h
      · cases h
      · rename_i hw
        exact ih 2 (s.1, Libc.atof rd w) ⟨h0.1, not_le.1 hw⟩ h
    | i + 2 =>
      rw [sizes] at h
      cases h

/-- C288: if a command line is accepted, the tiles have a positive size (so that the search for tiles ends, C16). -/
theorem c288_positive (rd : ℚ → ℚ) (line : List Word) (s : Init) (h : init rd line = .ok s) : 0 < s.sizeX ∧ 0 < s.sizeY := by
  unfold init at h
  dsimp only at h
  split at h
  · rename_i t ht
    obtain ⟨_, h⟩ := positional_ok h
    obtain ⟨_, h⟩ := copy_ok h
    cases h
    show 0 < t.sizeX ∧ 0 < t.sizeY
    refine run_inv (initStep rd) (fun t => 0 < t.sizeX ∧ 0 < t.sizeY) ?_ _ _ _
      (show (0 : ℚ) < 30000 ∧ (0 : ℚ) < 30000 by norm_num) ht
    intro c a s t hs ht
    unfold initStep at ht
    split at ht
    · cases ht
    · cases ht
    · cases ht
    · obtain ⟨_, ht⟩ := copy_ok ht
      cases ht
      exact hs
    · split at ht
      · cases ht
        exact hs
      · cases ht
      · cases ht
      · cases ht
    · unfold tileSize at ht
      obtain ⟨_, ht⟩ := copy_ok ht
      split at ht
      · rename_i r hr
        split at ht
        · cases ht
        · cases ht
          exact sizes_inv rd _ _ _ _ hs hr
      · cases ht
      · cases ht
      · cases ht
    · cases ht
  · simp_all

theorem init_stops (rd : ℚ → ℚ) (o : List (Char × Option Word)) (line pos rest : List Word) (w : Word)
    (h : Written ['h', 'v', 'i'] ['d', 'o', 't'] o pos line) (hv : InitValid rd o) (c : Char) (r : Res Init) (hr : ∀ t, r ≠ .ok t)
    (ht : takes "hvid:o:t:".toList c = some true) (hd : c ≠ '-') (hs : ∀ s, initStep rd c (some w) s = r) :
    init rd (line ++ ['-', c] :: w :: rest) = r := by
  have hc := written_args h fun x hx => by obtain ⟨w, hw, _⟩ := hv x hx; exact ⟨w, hw⟩
  unfold init
  dsimp only
  rw [init_getopt h]
  dsimp only
  rw [run_append _ _ _ _ _ (init_run rd o hc hv _), getopt_dash _ c [] _ (Or.inl hd), cluster_apart _ c w _ ht]
  dsimp only
  rw [List.singleton_append, run, hs]
  cases r with
  | ok t => exact absurd rfl (hr t)
  | stop b => rfl
  | loop => rfl
  | ub => rfl

/-- C288, partial: an origin without exactly two numbers, and a tile size with less than two numbers or with a first or
second number that is not positive are refused. Missing: tile sizes with more than two numbers. -/
theorem c288_refused_partial (rd : ℚ → ℚ) (o : List (Char × Option Word)) (line pos rest : List Word) (w : Word)
    (h : Written ['h', 'v', 'i'] ['d', 'o', 't'] o pos line) (hv : InitValid rd o) :
    ((items w).length ≠ 2 → init rd (line ++ ['-', 'o'] :: w :: rest) = .stop false) ∧
    ((items w).length < 2 → init rd (line ++ ['-', 't'] :: w :: rest) = .stop false) ∧
    (∀ a b l, items w = a :: b :: l → Libc.atof rd a ≤ 0 ∨ Libc.atof rd b ≤ 0 →
      init rd (line ++ ['-', 't'] :: w :: rest) = .stop false) := by
  have ht : ∀ s, (∀ q, (∀ r, sizes rd 0 (items w) q = .ok r → r.1 ≠ 2) ∧ (∀ b, sizes rd 0 (items w) q = .stop b → b = false) ∧
      sizes rd 0 (items w) q ≠ .loop ∧ sizes rd 0 (items w) q ≠ .ub) → initStep rd 't' (some w) s = .stop false := by
    intro s hq
    show tileSize rd w s = _
    unfold tileSize copy
    split
    · dsimp only
      rw [tokens_items]
      obtain ⟨h1, h2, h3, h4⟩ := hq (s.sizeX, s.sizeY)
      cases e : sizes rd 0 (items w) (s.sizeX, s.sizeY) with
      | ok r =>
        dsimp only
        rw [if_pos (h1 r e)]
      | stop b =>
        dsimp only
        rw [h2 b e]
      | loop => exact absurd e h3
      | ub => exact absurd e h4
    · rfl
  refine ⟨?_, ?_, ?_⟩
  · intro hw
    refine init_stops rd o line pos rest w h hv 'o' _ (fun t => by simp) (by decide) (by decide) fun s => ?_
    show (match pair rd w with | .ok p => _ | .stop b => _ | .loop => _ | .ub => _) = _
    rw [pair_eq, if_neg fun e => hw e.2]
  · intro hw
    refine init_stops rd o line pos rest w h hv 't' _ (fun t => by simp) (by decide) (by decide) fun s => ht s ?_
    intro q
    match items w, hw with
    | [], _ => simp [sizes]
    | [a], _ =>
      by_cases ha : Libc.atof rd a ≤ 0
      · simp [sizes, ha]
      · simp [sizes, ha]
  · intro a b l e hab
    refine init_stops rd o line pos rest w h hv 't' _ (fun t => by simp) (by decide) (by decide) fun s => ht s ?_
    intro q
    rw [e]
    by_cases ha : Libc.atof rd a ≤ 0
    · simp [sizes, ha]
    · have hb : Libc.atof rd b ≤ 0 := by
        rcases hab with h | h
        · exact absurd h ha
        · exact h
      simp [sizes, ha, hb]

/-- C288, violated: with three or more numbers for the tile size, an element behind the array is read. -/
theorem c288_sizes_violated (rd : ℚ → ℚ) (o : List (Char × Option Word)) (line pos rest : List Word) (w : Word)
    (h : Written ['h', 'v', 'i'] ['d', 'o', 't'] o pos line) (hv : InitValid rd o) (hl : w.length < 1024)
    (a b c : Word) (l : List Word) (e : items w = a :: b :: c :: l) (ha : 0 < Libc.atof rd a) (hb : 0 < Libc.atof rd b) :
    init rd (line ++ ['-', 't'] :: w :: rest) = .ub := by
  refine init_stops rd o line pos rest w h hv 't' _ (fun t => by simp) (by decide) (by decide) fun s => ?_
  show tileSize rd w s = _
  unfold tileSize copy
  rw [if_pos hl]
  dsimp only
  rw [tokens_items, e]
  simp [sizes, not_le.2 ha, not_le.2 hb]

/-- `force-cube-init -t 3000,6000,1 proj` reads behind the array; with two numbers it is accepted. -/
example : init id (["-t".toList, "3000,6000,1".toList, "proj".toList]) = .ub ∧
    init id (["-t".toList, "3000,6000".toList, "proj".toList]) = .ok ⟨-25, 60, 3000, 6000, ['.'], "proj".toList⟩ := by
  constructor
  · exact c288_sizes_violated id [] [] [] ["proj".toList] "3000,6000,1".toList .nil (by intro x hx; cases hx) (by decide)
      "3000".toList "6000".toList "1".toList [] (by decide +kernel) (by decide +kernel) (by decide +kernel)
  · have h : Written ['h', 'v', 'i'] ['d', 'o', 't'] [('t', some "3000,6000".toList)] ["proj".toList]
        [['-', 't'], "3000,6000".toList, "proj".toList] := .apart 't' _ (by decide) (.pos _ (by decide) .nil)
    have := c288_accepted id _ _ _ h (by
      intro x hx
      simp only [List.mem_cons, List.not_mem_nil, or_false] at hx
      subst hx
      exact ⟨_, rfl, by decide, by decide, fun _ => by decide +kernel⟩) (by decide) (by decide)
    rw [show ["-t".toList, "3000,6000".toList, "proj".toList] = [['-', 't'], "3000,6000".toList, "proj".toList] by decide, this]
    decide +kernel

end Verif.Args

import Verif.Libc.Lemmas
import Verif.Param.Spec

/-!
# Lemmas about parameter parsing
-/

namespace Verif.Param

open Verif.Str (Out)
open Spec

theorem tokens_none {sep : Char → Bool} {s : List Char} (h : Libc.strtok sep s = none) :
    tokens sep s = [] := by
  rw [tokens]
  split
  · rfl
  · rename_i e; rw [h] at e; simp at e

theorem tokens_some {sep : Char → Bool} {s t r : List Char} (h : Libc.strtok sep s = some (t, r)) :
    tokens sep s = t :: tokens sep r := by
  rw [tokens]
  split
  · rename_i e; rw [h] at e; simp at e
  · rename_i e; rw [h] at e
    obtain ⟨rfl, rfl⟩ := Prod.mk.inj (Option.some.inj e)
    rfl

theorem split_dropWhile (sep : Char → Bool) (s : List Char) :
    (s.splitOnP sep).filter (fun w => w ≠ []) =
      ((s.dropWhile sep).splitOnP sep).filter (fun w => w ≠ []) := by
  induction s with
  | nil => rfl
  | cons c s ih =>
    by_cases hc : sep c = true
    · rw [List.dropWhile_cons_of_pos hc, List.splitOnP_cons_eq_if_modifyHead, if_pos hc, ← ih]
      simp
    · rw [List.dropWhile_cons_of_neg hc]

/-- Repeated `strtok` yields the non-empty pieces between the separators. -/
theorem tokens_eq (sep : Char → Bool) (s : List Char) :
    tokens sep s = (s.splitOnP sep).filter (fun w => w ≠ []) := by
  induction hn : s.length using Nat.strong_induction_on generalizing s with
  | _ n ih =>
    cases e : Libc.strtok sep s with
    | none =>
      rw [tokens_none e]
      unfold Libc.strtok at e
      split at e
      · rename_i e'
        rw [split_dropWhile, e']
        rfl
      · simp at e
    | some p =>
      obtain ⟨t, r⟩ := p
      have hlt := strtok_length e
      rw [tokens_some e, ih r.length (by omega) r rfl]
      unfold Libc.strtok at e
      split at e
      · simp at e
      · rename_i c cs e'
        obtain ⟨h1, h2⟩ := Prod.mk.inj (Option.some.inj e)
        rw [split_dropWhile sep s, e']
        have hc : sep c = false := by
          have := List.head_dropWhile_not sep (l := s) (by rw [e']; simp)
          simpa [e'] using this
        have ht : ∀ x ∈ t, sep x = false := by
          intro x hx
          rw [← h1] at hx
          have := List.mem_takeWhile_imp hx
          simpa using this
        have htne : t ≠ [] := by
          rw [← h1, List.takeWhile_cons_of_pos (by simp [hc])]; simp
        have hsplit : c :: cs = t ++ (c :: cs).dropWhile (fun c => !sep c) := by
          rw [← h1]; exact (List.takeWhile_append_dropWhile).symm
        cases hd : (c :: cs).dropWhile (fun c => !sep c) with
        | nil =>
          rw [hd] at hsplit h2
          rw [hsplit, List.append_nil, List.splitOnP_eq_singleton ht, ← h2]
          simp [htne]
        | cons d ds =>
          rw [hd] at hsplit h2
          have hds : sep d = true := by
            have := List.head_dropWhile_not (fun c => !sep c) (l := c :: cs) (by rw [hd]; simp)
            simpa [hd] using this
          rw [hsplit, List.splitOnP_append_cons_of_forall_mem ht d hds]
          rw [← h2]
          simp [htne]

theorem tokens_words (s : List Char) : tokens isSep s = words s := by
  rw [tokens_eq, words]
  congr 2
  funext c
  unfold isSep
  by_cases h1 : c = ' ' <;> by_cases h2 : c = '=' <;> simp [h1, h2]

theorem cut_content (l : List Char) : Libc.cutAt isEnd l = content l := by
  unfold Libc.cutAt content
  congr 1
  funext c
  unfold isEnd
  by_cases h1 : c = '\r' <;> by_cases h2 : c = '\n' <;> by_cases h3 : c = '#' <;> simp [h1, h2, h3]

theorem content_newline (l : List Char) : content (l ++ ['\n']) = content l := by
  unfold content
  rw [List.takeWhile_append]
  split
  · rename_i h
    have e : l.takeWhile (fun c => decide (c ≠ '#' ∧ c ≠ '\r' ∧ c ≠ '\n')) = l :=
      (List.takeWhile_prefix _).eq_of_length h
    rw [e]
    simp
  · rfl

theorem given_newline (tag : List Char) (ls : List (List Char)) :
    given tag (ls.map (· ++ ['\n'])) = given tag ls := by
  unfold given
  rw [List.filterMap_map]
  congr 1
  funext l
  simp only [Function.comp, content_newline]

/-- What the matching parameter becomes. -/
def fillPar (p : Par) (texts : List (List Char)) : Out Par :=
  if p.vector then (parseAll p.kind texts).bind fun vs => .ok { p with set := true, values := vs }
  else match texts with
    | [] => .ok p
    | t :: _ => (parseVal p.kind t).bind fun v => .ok { p with set := true, values := [v] }

theorem loop_rest_nil (buf tag : List Char) (ps : List Par) : parseLoop buf tag ps [] = .ok ps := by
  induction ps with
  | nil => rfl
  | cons p ps ih =>
    rw [parseLoop]
    split
    · rw [ih]; rfl
    · split
      · rfl
      · rw [ih]; rfl

theorem loop_none (buf tag : List Char) (ps : List Par) (rest : List (List Char))
    (h : ∀ p ∈ ps, p.name = tag → p.set = true) : parseLoop buf tag ps rest = .ok ps := by
  induction ps with
  | nil => rfl
  | cons p ps ih =>
    rw [parseLoop.eq_def]
    simp only
    have ih := ih fun q hq => h q (by simp [hq])
    split
    · rw [ih]; rfl
    · split
      · rename_i h1 h2
        exact absurd (h p (by simp) h2) h1
      · rw [ih]; rfl

theorem loop_first (buf tag : List Char) (pre : List Par) (p : Par) (post : List Par) (t : List Char)
    (rest : List (List Char)) (hpre : ∀ q ∈ pre, q.name = tag → q.set = true) (hp : p.name = tag)
    (hps : p.set = false) (hpost : p.vector = false → ∀ q ∈ post, q.name = tag → q.set = true)
    (hbuf : tokens isSep (Libc.cutAt isEnd buf) = tag :: t :: rest) :
    parseLoop buf tag (pre ++ p :: post) (t :: rest) =
      (fillPar p (t :: rest)).bind fun p' => .ok (pre ++ p' :: post) := by
  induction pre with
  | nil =>
    rw [List.nil_append, parseLoop, if_neg (by simp [hps]), if_pos hp]
    unfold fillPar
    cases hv : p.vector with
    | false =>
      simp only
      rw [loop_none _ _ _ _ (hpost hv)]
      simp only [if_true, Bool.false_eq_true, if_false]
      cases parseVal p.kind t <;> rfl
    | true =>
      simp only
      rw [if_neg (by simp), if_neg (by unfold lengthPar; rw [hbuf]; simp), hbuf,
        loop_rest_nil]
      simp only [List.tail_cons, if_true]
      cases parseAll p.kind (t :: rest) <;> rfl
  | cons q pre ih =>
    have ih := ih fun q' hq' => hpre q' (by simp [hq'])
    rw [List.cons_append, parseLoop, ih]
    have hq := hpre q (by simp)
    split
    · cases fillPar p (t :: rest) <;> rfl
    · rename_i h1
      rw [if_neg fun h2 => h1 (hq h2)]
      cases fillPar p (t :: rest) <;> rfl

theorem fillPar_fields {p p' : Par} {texts : List (List Char)} (h : fillPar p texts = .ok p') :
    p'.name = p.name ∧ p'.kind = p.kind ∧ p'.vector = p.vector ∧ p'.expected = p.expected := by
  unfold fillPar at h
  split at h
  · cases e : parseAll p.kind texts with
    | ok vs => rw [e] at h; simp only [Out.bind, Out.ok.injEq] at h; subst h; exact ⟨rfl, rfl, rfl, rfl⟩
    | exit => rw [e] at h; simp [Out.bind] at h
    | ub => rw [e] at h; simp [Out.bind] at h
  · split at h
    · simp only [Out.ok.injEq] at h; subst h; exact ⟨rfl, rfl, rfl, rfl⟩
    · rename_i t _
      cases e : parseVal p.kind t with
      | ok vs => rw [e] at h; simp only [Out.bind, Out.ok.injEq] at h; subst h; exact ⟨rfl, rfl, rfl, rfl⟩
      | exit => rw [e] at h; simp [Out.bind] at h
      | ub => rw [e] at h; simp [Out.bind] at h

theorem parseAll_ok {k : Kind} {ts : List (List Char)} {vs : List Val} (h : parseAll k ts = .ok vs) :
    ts.length = vs.length ∧
      ∀ (i : Nat) t v, ts[i]? = some t → vs[i]? = some v → parseVal k t = .ok v := by
  induction ts generalizing vs with
  | nil => simp only [parseAll, Out.ok.injEq] at h; subst h; simp
  | cons t ts ih =>
    rw [parseAll] at h
    cases e : parseVal k t with
    | exit => rw [e] at h; simp [Out.bind] at h
    | ub => rw [e] at h; simp [Out.bind] at h
    | ok v =>
      rw [e] at h
      cases e2 : parseAll k ts with
      | exit => rw [e2] at h; simp [Out.bind] at h
      | ub => rw [e2] at h; simp [Out.bind] at h
      | ok vs' =>
        rw [e2] at h
        simp only [Out.bind, Out.ok.injEq] at h
        subst h
        obtain ⟨h1, h2⟩ := ih e2
        refine ⟨by simp [h1], ?_⟩
        intro i t' v' ht hv
        cases i with
        | zero =>
          simp only [List.getElem?_cons_zero, Option.some.injEq] at ht hv
          subst ht; subst hv; exact e
        | succ i => exact h2 i t' v' (by simpa using ht) (by simpa using hv)

theorem fillPar_ok {p p' : Par} {texts : List (List Char)} (hne : texts ≠ [])
    (h : fillPar p texts = .ok p') : p'.set = true ∧ ReadAs p.kind p.vector texts p'.values := by
  unfold fillPar at h
  unfold ReadAs
  split at h
  · rename_i hv
    rw [if_pos hv]
    cases e : parseAll p.kind texts with
    | ok vs =>
      rw [e] at h; simp only [Out.bind, Out.ok.injEq] at h; subst h
      exact ⟨rfl, parseAll_ok e⟩
    | exit => rw [e] at h; simp [Out.bind] at h
    | ub => rw [e] at h; simp [Out.bind] at h
  · rename_i hv
    rw [if_neg hv]
    cases texts with
    | nil => exact absurd rfl hne
    | cons t ts =>
      simp only at h
      cases e : parseVal p.kind t with
      | ok v =>
        rw [e] at h; simp only [Out.bind, Out.ok.injEq] at h; subst h
        exact ⟨rfl, t, v, rfl, rfl, e⟩
      | exit => rw [e] at h; simp [Out.bind] at h
      | ub => rw [e] at h; simp [Out.bind] at h

theorem parseVal_readable {k : Kind} {t : List Char} (h : Readable k t) : ∃ v, parseVal k t = .ok v := by
  cases k with
  | int lo hi => exact ⟨_, rfl⟩
  | enum tags => exact ⟨_, rfl⟩
  | float rd lo hi => exact ⟨_, rfl⟩
  | date lo hi =>
    simp only [Readable] at h
    unfold parseVal parseDate
    simp only
    rw [if_neg (by omega)]
    exact ⟨_, rfl⟩
  | char test =>
    simp only [Readable] at h
    unfold parseVal
    simp only
    rw [if_pos h]
    exact ⟨_, rfl⟩

theorem fillPar_readable {p : Par} {texts : List (List Char)}
    (h : ∀ t ∈ texts, Readable p.kind t) : ∃ p', fillPar p texts = .ok p' := by
  unfold fillPar
  split
  · have : ∀ ts : List (List Char), (∀ t ∈ ts, Readable p.kind t) → ∃ vs, parseAll p.kind ts = .ok vs := by
      intro ts
      induction ts with
      | nil => intro _; exact ⟨[], rfl⟩
      | cons t ts ih =>
        intro h
        obtain ⟨v, e⟩ := parseVal_readable (h t (by simp))
        obtain ⟨vs, e2⟩ := ih fun t' ht' => h t' (by simp [ht'])
        exact ⟨v :: vs, by rw [parseAll, e, e2]; rfl⟩
    obtain ⟨vs, e⟩ := this texts h
    exact ⟨_, by rw [e]; rfl⟩
  · cases texts with
    | nil => exact ⟨_, rfl⟩
    | cons t ts =>
      obtain ⟨v, e⟩ := parseVal_readable (h t (by simp))
      exact ⟨_, by simp only [e]; rfl⟩

/-! ## The state after some lines -/

/-- A registered parameter after the lines gave it these texts, or nothing. -/
def Filled (p0 : Par) (texts : Option (List (List Char))) (p : Par) : Prop :=
  match texts with
  | none => p = p0
  | some ts => fillPar p0 ts = .ok p

/-- The parameters after the lines `E`. -/
def State (ps0 : List Par) (E : List (List Char)) (ps : List Par) : Prop :=
  ps.length = ps0.length ∧
  ∀ (i : Nat) p0, ps0[i]? = some p0 → ∃ p, ps[i]? = some p ∧
    Filled p0 (given p0.name E)[rank ps0 i p0.name]? p

theorem given_ne_nil {tag : List Char} {E : List (List Char)} {ts : List (List Char)}
    (h : ts ∈ given tag E) : ts ≠ [] := by
  unfold given at h
  obtain ⟨l, -, hl⟩ := List.mem_filterMap.1 h
  split at hl
  · split at hl
    · simp only [Option.some.injEq] at hl; subst hl; simp
    · simp at hl
  · simp at hl

theorem filled_set {p0 p : Par} {o : Option (List (List Char))} (h0 : p0.set = false)
    (hne : ∀ ts, o = some ts → ts ≠ []) (h : Filled p0 o p) : p.set = o.isSome := by
  cases o with
  | none => simp only [Filled] at h; subst h; simpa using h0
  | some ts => exact (fillPar_ok (hne ts rfl) h).1

theorem filled_fields {p0 p : Par} {o : Option (List (List Char))} (h : Filled p0 o p) :
    p.name = p0.name ∧ p.kind = p0.kind ∧ p.vector = p0.vector ∧ p.expected = p0.expected := by
  cases o with
  | none => simp only [Filled] at h; subst h; exact ⟨rfl, rfl, rfl, rfl⟩
  | some ts => exact fillPar_fields h

/-- Ranks take all values below. -/
theorem rank_surj (ps : List Par) (name : List Char) (i r : Nat) (h : r < rank ps i name) :
    ∃ (j : Nat) (q : Par), j < i ∧ ps[j]? = some q ∧ q.name = name ∧ rank ps j name = r := by
  induction i with
  | zero => simp [rank] at h
  | succ i ih =>
    by_cases hr : r < rank ps i name
    · obtain ⟨j, q, h1, h2⟩ := ih hr
      exact ⟨j, q, by omega, h2⟩
    · cases hq : ps[i]? with
      | none =>
        exfalso
        unfold rank at h hr
        rw [List.take_add_one, hq] at h
        simp only [Option.toList_none, List.append_nil] at h
        exact hr h
      | some q =>
        unfold rank at h hr
        rw [List.take_add_one, hq] at h
        simp only [Option.toList_some, List.filter_append, List.length_append] at h
        by_cases hn : q.name = name
        · rw [List.filter_cons_of_pos (by simp [hn])] at h
          simp only [List.filter_nil, List.length_cons, List.length_nil] at h
          refine ⟨i, q, by omega, hq, hn, ?_⟩
          unfold rank
          omega
        · rw [List.filter_cons_of_neg (by simp [hn])] at h
          simp only [List.filter_nil, List.length_nil] at h
          omega

theorem rank_lt (ps : List Par) (name : List Char) (i j : Nat) (q : Par) (hq : ps[i]? = some q)
    (hn : q.name = name) (hij : i < j) : rank ps i name < rank ps j name := by
  induction j with
  | zero => omega
  | succ j ih =>
    have hle : rank ps j name ≤ rank ps (j + 1) name := by
      unfold rank
      rw [List.take_add_one, List.filter_append, List.length_append]
      omega
    by_cases h : i = j
    · subst h
      unfold rank
      rw [List.take_add_one, hq]
      simp only [Option.toList_some, List.filter_append, List.length_append]
      rw [List.filter_cons_of_pos (by simp [hn])]
      simp
    · have := ih (by omega)
      omega

theorem given_append (tag : List Char) (E F : List (List Char)) :
    given tag (E ++ F) = given tag E ++ given tag F := by
  unfold given; rw [List.filterMap_append]

theorem find_split {α : Type} (P : α → Prop) (l : List α) :
    (∀ a ∈ l, ¬ P a) ∨ ∃ pre a post, l = pre ++ a :: post ∧ P a ∧ ∀ b ∈ pre, ¬ P b := by
  induction l with
  | nil => left; simp
  | cons x l ih =>
    by_cases hx : P x
    · exact Or.inr ⟨[], x, l, rfl, hx, by simp⟩
    · rcases ih with ih | ⟨pre, a, post, e, ha, hpre⟩
      · left
        intro a ha
        rcases List.mem_cons.1 ha with rfl | ha
        exacts [hx, ih a ha]
      · refine Or.inr ⟨x :: pre, a, post, by rw [e]; rfl, ha, ?_⟩
        intro b hb
        rcases List.mem_cons.1 hb with rfl | hb
        exacts [hx, hpre b hb]

/-- One line. -/
theorem step (ps0 : List Par) (hr : Registry ps0) (E : List (List Char)) (ps : List Par)
    (hs : State ps0 E ps) (l : List Char) (hl : l.length < 65536) :
    (parseParameter ps l = .ok ps ∧ State ps0 (E ++ [l]) ps) ∨
    ∃ (i : Nat) (p0 : Par) (ts : List (List Char)), ps0[i]? = some p0 ∧
      (given p0.name (E ++ [l]))[rank ps0 i p0.name]? = some ts ∧
      parseParameter ps l = ((fillPar p0 ts).bind fun p' => .ok (ps.set i p')) ∧
      ∀ p', fillPar p0 ts = .ok p' → State ps0 (E ++ [l]) (ps.set i p') := by
  have hset : ∀ (i : Nat) p0 p, ps0[i]? = some p0 → ps[i]? = some p →
      (p.name = p0.name ∧ p.kind = p0.kind ∧ p.vector = p0.vector ∧
      (p.set = true ↔ rank ps0 i p0.name < (given p0.name E).length)) := by
    intro i p0 p h1 h2
    obtain ⟨p', e, hf⟩ := hs.2 i p0 h1
    rw [h2] at e
    simp only [Option.some.injEq] at e
    subst e
    have ff := filled_fields hf
    refine ⟨ff.1, ff.2.1, ff.2.2.1, ?_⟩
    rw [filled_set (hr.1 p0 (List.mem_of_getElem? h1)).1 (fun ts hts =>
      given_ne_nil (List.mem_of_getElem? hts)) hf]
    simp
  have hidx : ∀ p ∈ ps, ∃ (i : Nat) (p0 : Par), ps0[i]? = some p0 ∧ ps[i]? = some p := by
    intro p hp
    obtain ⟨i, hi, rfl⟩ := List.getElem_of_mem hp
    refine ⟨i, ps0[i]'(by rw [← hs.1]; exact hi), List.getElem?_eq_getElem _, List.getElem?_eq_getElem hi⟩
  unfold parseParameter
  rw [if_pos hl, tokens_words, cut_content]
  -- a line that gives nothing
  have keep : (∀ p0 ∈ ps0, given p0.name [l] = []) → State ps0 (E ++ [l]) ps := by
    intro hg
    refine ⟨hs.1, fun i p0 h0 => ?_⟩
    rw [given_append, hg p0 (List.mem_of_getElem? h0), List.append_nil]
    exact hs.2 i p0 h0
  cases hw : words (content l) with
  | nil =>
    left
    exact ⟨rfl, keep fun p0 _ => by simp [given, hw]⟩
  | cons tag rest =>
    simp only
    cases rest with
    | nil =>
      left
      exact ⟨loop_rest_nil _ _ _, keep fun p0 _ => by simp [given, hw]⟩
    | cons t rest =>
      have hgiven : ∀ name, given name [l] = if tag = name then [t :: rest] else [] := by
        intro name
        unfold given
        by_cases h : tag = name <;> simp [hw, h]
      have htok : tokens isSep (Libc.cutAt isEnd l) = tag :: t :: rest := by
        rw [tokens_words, cut_content, hw]
      rcases find_split (fun p : Par => p.name = tag ∧ p.set = false) ps with hnone | ⟨pre, p, post, e, ⟨hpn, hps⟩, hpre⟩
      · -- no parameter waits for this tag
        left
        refine ⟨loop_none _ _ _ _ (fun p hp hn => ?_), hs.1, ?_⟩
        · by_contra hc
          exact hnone p hp ⟨hn, by simpa using hc⟩
        · intro i p0 h0
          obtain ⟨p, h1, h2⟩ := hs.2 i p0 h0
          refine ⟨p, h1, ?_⟩
          rw [given_append, hgiven]
          by_cases hn : tag = p0.name
          · rw [if_pos hn]
            have hh := hset i p0 p h0 h1
            have hset' : p.set = true := by
              by_contra hc
              exact hnone p (List.mem_of_getElem? h1) ⟨by rw [hh.1, hn], by simpa using hc⟩
            rw [List.getElem?_append_left (hh.2.2.2.1 hset')]
            exact h2
          · rw [if_neg hn, List.append_nil]; exact h2
      · -- the first parameter that waits for this tag
        right
        have hpi : ps[pre.length]? = some p := by rw [e]; simp
        obtain ⟨p0, h0⟩ : ∃ p0, ps0[pre.length]? = some p0 := by
          have : pre.length < ps0.length := by rw [← hs.1, e]; simp
          exact ⟨_, List.getElem?_eq_getElem this⟩
        have hh := hset _ p0 p h0 hpi
        have hn0 : p0.name = tag := by rw [← hh.1]; exact hpn
        have hpp : p = p0 := by
          obtain ⟨p', h1, h2⟩ := hs.2 _ p0 h0
          rw [hpi] at h1
          simp only [Option.some.injEq] at h1
          subst h1
          have hge : (given p0.name E).length ≤ rank ps0 pre.length p0.name := by
            by_contra hc
            have := hh.2.2.2.2 (by omega)
            rw [hps] at this
            simp at this
          rw [List.getElem?_eq_none hge] at h2
          exact h2
        have hrank : rank ps0 pre.length p0.name = (given p0.name E).length := by
          have hge : (given p0.name E).length ≤ rank ps0 pre.length p0.name := by
            by_contra hc
            have := hh.2.2.2.2 (by omega)
            rw [hps] at this
            simp at this
          by_contra hc
          obtain ⟨j, q0, hj, hq0, hqn, hqr⟩ := rank_surj ps0 p0.name pre.length (given p0.name E).length (by omega)
          obtain ⟨q, hq, -⟩ := hs.2 j q0 hq0
          have hq' := hset j q0 q hq0 hq
          have hqset : ¬ q.set = true := by
            rw [hq'.2.2.2, hqn, hqr]
            omega
          have hqpre : q ∈ pre := by
            have : ps[j]? = pre[j]? := by rw [e, List.getElem?_append_left hj]
            rw [this] at hq
            exact List.mem_of_getElem? hq
          exact hpre q hqpre ⟨by rw [hq'.1, hqn, hn0], by simpa using hqset⟩
        have hscalar : p.vector = false → ∀ q ∈ post, q.name = tag → q.set = true := by
          intro hv q hq hqn
          exfalso
          obtain ⟨k, hk, hkq⟩ := List.getElem_of_mem hq
          have hqi : ps[pre.length + (k + 1)]? = some q := by
            rw [e, List.getElem?_append_right (by omega)]
            simp only [Nat.add_sub_cancel_left, List.getElem?_cons_succ]
            rw [List.getElem?_eq_getElem hk, hkq]
          obtain ⟨q0, hq0⟩ : ∃ q0, ps0[pre.length + (k + 1)]? = some q0 := by
            have : pre.length + (k + 1) < ps0.length := by rw [← hs.1, e]; simp; omega
            exact ⟨_, List.getElem?_eq_getElem this⟩
          have hq' := hset _ q0 q hq0 hqi
          have := hr.2 pre.length (pre.length + (k + 1)) p0 q0 h0 hq0 (by omega) (by
            rw [hn0, ← hq'.1, hqn])
          rw [← hpp, hv] at this
          simp at this
        have hloop := loop_first l tag pre p post t rest (fun q hq hqn => by
          by_contra hc
          exact hpre q hq ⟨hqn, by simpa using hc⟩) hpn hps hscalar htok
        have hg : given p0.name (E ++ [l]) = given p0.name E ++ [t :: rest] := by
          rw [given_append, hgiven, if_pos hn0.symm]
        refine ⟨pre.length, p0, t :: rest, h0, ?_, ?_, ?_⟩
        · rw [hg, hrank, List.getElem?_append_right (Nat.le_refl _)]
          simp
        · rw [e, hloop, hpp]
          congr 1
          funext p'
          simp
        · intro p' hp'
          refine ⟨by simpa using hs.1, ?_⟩
          intro i q0 hq0
          by_cases hi : i = pre.length
          · subst hi
            rw [h0] at hq0
            simp only [Option.some.injEq] at hq0
            subst hq0
            refine ⟨p', by rw [List.getElem?_set_self (by rw [e]; simp)], ?_⟩
            rw [hg, hrank, List.getElem?_append_right (Nat.le_refl _)]
            simpa [Filled] using hp'
          · obtain ⟨q, hq1, hq2⟩ := hs.2 i q0 hq0
            refine ⟨q, by rw [List.getElem?_set_ne (Ne.symm hi)]; exact hq1, ?_⟩
            rw [given_append, hgiven]
            by_cases hn : tag = q0.name
            · rw [if_pos hn]
              have hrne : rank ps0 i q0.name ≠ (given q0.name E).length := by
                have hnn : q0.name = p0.name := by rw [← hn, hn0]
                rw [hnn, ← hrank]
                rcases Nat.lt_or_gt_of_ne hi with h | h
                · exact Nat.ne_of_lt (rank_lt ps0 p0.name i pre.length q0 hq0 hnn h)
                · exact Nat.ne_of_gt (rank_lt ps0 p0.name pre.length i p0 h0 rfl h)
              by_cases hlt : rank ps0 i q0.name < (given q0.name E).length
              · rw [List.getElem?_append_left hlt]; exact hq2
              · rw [List.getElem?_append_right (by omega)]
                rw [List.getElem?_eq_none (by omega)] at hq2
                rw [List.getElem?_eq_none (by simp; omega)]
                exact hq2
            · rw [if_neg hn, List.append_nil]; exact hq2

theorem lines_state (ps0 : List Par) (hr : Registry ps0) (ls : List (List Char))
    (hl : ∀ l ∈ ls, l.length < 65536) (E : List (List Char)) (ps ps' : List Par)
    (hs : State ps0 E ps) (h : parseLines ps ls = .ok ps') : State ps0 (E ++ ls) ps' := by
  induction ls generalizing E ps with
  | nil => simp only [parseLines, Out.ok.injEq] at h; subst h; simpa using hs
  | cons l ls ih =>
    rw [parseLines] at h
    rw [show E ++ l :: ls = (E ++ [l]) ++ ls by simp]
    rcases step ps0 hr E ps hs l (hl l (by simp)) with ⟨e, hs'⟩ | ⟨i, p0, ts, -, -, e, hs'⟩
    · rw [e] at h
      exact ih (fun l' hl' => hl l' (by simp [hl'])) _ ps hs' h
    · rw [e] at h
      cases ef : fillPar p0 ts with
      | exit => rw [ef] at h; simp [Out.bind] at h
      | ub => rw [ef] at h; simp [Out.bind] at h
      | ok p' =>
        rw [ef] at h
        exact ih (fun l' hl' => hl l' (by simp [hl'])) _ _ (hs' p' ef) h

theorem given_prefix {tag : List Char} {E F : List (List Char)} {r : Nat} {ts : List (List Char)}
    (h : (given tag E)[r]? = some ts) : (given tag (E ++ F))[r]? = some ts := by
  rw [given_append, List.getElem?_append_left]
  · exact h
  · exact (List.getElem?_eq_some_iff.1 h).1

theorem lines_ok (ps0 : List Par) (hr : Registry ps0) (ls : List (List Char))
    (hl : ∀ l ∈ ls, l.length < 65536) (E : List (List Char)) (ps : List Par) (hs : State ps0 E ps)
    (hread : ∀ (i : Nat) p0 ts, ps0[i]? = some p0 →
      (given p0.name (E ++ ls))[rank ps0 i p0.name]? = some ts → ∀ t ∈ ts, Readable p0.kind t) :
    ∃ ps', parseLines ps ls = .ok ps' := by
  induction ls generalizing E ps with
  | nil => exact ⟨ps, rfl⟩
  | cons l ls ih =>
    rw [parseLines]
    have hread' : ∀ (i : Nat) p0 ts, ps0[i]? = some p0 →
      (given p0.name ((E ++ [l]) ++ ls))[rank ps0 i p0.name]? = some ts → ∀ t ∈ ts, Readable p0.kind t := by
      rw [show (E ++ [l]) ++ ls = E ++ l :: ls by simp]; exact hread
    rcases step ps0 hr E ps hs l (hl l (by simp)) with ⟨e, hs'⟩ | ⟨i, p0, ts, h0, hg, e, hs'⟩
    · rw [e]
      exact ih (fun l' hl' => hl l' (by simp [hl'])) _ ps hs' hread'
    · obtain ⟨p', ef⟩ := fillPar_readable (hread' i p0 ts h0 (given_prefix hg))
      rw [e, ef]
      exact ih (fun l' hl' => hl l' (by simp [hl'])) _ _ (hs' p' ef) hread'

theorem state_init (ps0 : List Par) : State ps0 [] ps0 :=
  ⟨rfl, fun _ p0 h0 => ⟨p0, h0, by simp [given, Filled]⟩⟩

end Verif.Param

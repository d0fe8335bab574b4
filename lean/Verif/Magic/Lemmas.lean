import Verif.Magic.Model
import Verif.Magic.Spec
import Mathlib.Data.List.Nodup
import Mathlib.Data.List.Infix

/-!
# Lemmas about texts
-/

namespace Verif.Magic

open Spec

/-! ## Separated words -/

/-- Words with a separator between. -/
def joined (sep : Char) : List Text → Text
  | [] => []
  | [v] => v
  | v :: w :: r => v ++ sep :: joined sep (w :: r)

theorem splitOn_ne (sep : Char) (t : Text) : splitOn sep t ≠ [] := by
  cases t with
  | nil => simp [splitOn]
  | cons c t =>
    rw [splitOn]
    split
    · simp
    · split <;> simp

theorem splitOn_clean {sep : Char} {v : Text} (h : sep ∉ v) : splitOn sep v = [v] := by
  induction v with
  | nil => rfl
  | cons c t ih =>
    rw [List.mem_cons, not_or] at h
    rw [splitOn, if_neg (Ne.symm h.1), ih h.2]

theorem splitOn_append {sep : Char} {v : Text} (h : sep ∉ v) (t : Text) : splitOn sep (v ++ sep :: t) = v :: splitOn sep t := by
  induction v with
  | nil => rw [List.nil_append, splitOn, if_pos rfl]
  | cons c v ih =>
    rw [List.mem_cons, not_or] at h
    rw [List.cons_append, splitOn, if_neg (Ne.symm h.1), ih h.2]

theorem splitOn_joined {sep : Char} : ∀ {vs : List Text}, vs ≠ [] → (∀ v ∈ vs, sep ∉ v) → splitOn sep (joined sep vs) = vs
  | [], h, _ => absurd rfl h
  | [v], _, h => splitOn_clean (h v List.mem_cons_self)
  | v :: w :: r, _, h => by
    rw [joined, splitOn_append (h v List.mem_cons_self), splitOn_joined (by simp) fun x hx => h x (List.mem_cons_of_mem _ hx)]

theorem splitOn_flat {sep : Char} (c : List Text) (h : ∀ v ∈ c, sep ∉ v) : splitOn sep (c.flatMap fun v => sep :: v) = [] :: c := by
  induction c with
  | nil => rfl
  | cons v c ih =>
    rw [List.flatMap_cons, List.cons_append, splitOn, if_pos rfl]
    congr 1
    have ih := ih fun x hx => h x (List.mem_cons_of_mem _ hx)
    cases c with
    | nil => simpa using splitOn_clean (h v List.mem_cons_self)
    | cons w r =>
      rw [List.flatMap_cons, List.cons_append] at ih ⊢
      rw [splitOn_append (h v List.mem_cons_self)]
      rw [splitOn, if_pos rfl] at ih
      injection ih with _ ih
      rw [ih]

theorem map_clean {a b : Char} {v : Text} (h : a ∉ v) : v.map (fun c => if c = a then b else c) = v := by
  have : ∀ c ∈ v, (if c = a then b else c) = c := by
    intro c hc
    rw [if_neg]
    intro e
    exact h (e ▸ hc)
  rw [List.map_congr_left this]
  exact List.map_id _

theorem map_joined (a b : Char) : ∀ vs : List Text, (∀ v ∈ vs, a ∉ v) → (joined a vs).map (fun c => if c = a then b else c) = joined b vs
  | [], _ => rfl
  | [v], h => by
    rw [joined, joined]
    exact map_clean (h v List.mem_cons_self)
  | v :: w :: r, h => by
    rw [joined, joined, List.map_append, List.map_cons, if_pos rfl, map_joined a b (w :: r) fun x hx => h x (List.mem_cons_of_mem _ hx)]
    congr 1
    exact map_clean (h v List.mem_cons_self)

theorem squeeze_clean {v : Text} (h : ' ' ∉ v) (t : Text) : squeeze (v ++ t) = v ++ squeeze t := by
  induction v with
  | nil => rfl
  | cons c v ih =>
    rw [List.mem_cons, not_or] at h
    have ih := ih h.2
    rw [List.cons_append]
    cases hv : v ++ t with
    | nil =>
      have : v = [] ∧ t = [] := List.append_eq_nil_iff.1 hv
      rw [this.1, this.2]
      rfl
    | cons d u =>
      rw [squeeze, if_neg (fun hh => h.1 hh.1.symm), ← hv, ih]
      rfl

theorem squeeze_space {c : Char} (h : c ≠ ' ') (t : Text) : squeeze (' ' :: c :: t) = ' ' :: squeeze (c :: t) := by
  rw [squeeze, if_neg (fun hh => h hh.2)]

theorem squeeze_joined (u : Text) : ∀ vs : List Text, vs ≠ [] → (∀ v ∈ vs, v ≠ [] ∧ ' ' ∉ v) → squeeze (joined ' ' vs ++ u) = joined ' ' vs ++ squeeze u
  | [], h, _ => absurd rfl h
  | [v], _, h => squeeze_clean (h v List.mem_cons_self).2 u
  | v :: w :: r, _, h => by
    have ih := squeeze_joined u (w :: r) (by simp) fun x hx => h x (List.mem_cons_of_mem _ hx)
    rw [joined, List.append_assoc, squeeze_clean (h v List.mem_cons_self).2, List.append_assoc]
    congr 1
    obtain ⟨hw1, hw2⟩ := h w (by simp)
    obtain ⟨c, w', rfl⟩ := List.exists_cons_of_ne_nil hw1
    have hc : c ≠ ' ' := fun e => hw2 (by simp [e])
    have : ∃ z, joined ' ' ((c :: w') :: r) = c :: z := by cases r <;> simp [joined]
    obtain ⟨z, hz⟩ := this
    rw [hz] at ih ⊢
    simp only [List.cons_append] at ih ⊢
    rw [squeeze_space hc, ih]

theorem dropSpace_joined (u : Text) : ∀ vs : List Text, vs ≠ [] → (∀ v ∈ vs, v ≠ [] ∧ ' ' ∉ v) → dropSpace (joined ' ' vs ++ u) = joined ' ' vs ++ u
  | [], h, _ => absurd rfl h
  | v :: r, _, h => by
    obtain ⟨hw1, hw2⟩ := h v (by simp)
    obtain ⟨c, w', rfl⟩ := List.exists_cons_of_ne_nil hw1
    have hc : c ≠ ' ' := fun e => hw2 (by simp [e])
    have : ∃ z, joined ' ' ((c :: w') :: r) = c :: z := by cases r <;> simp [joined]
    obtain ⟨z, hz⟩ := this
    rw [hz, List.cons_append]
    unfold dropSpace
    split
    · rename_i e
      injection e with e
      exact absurd e hc
    · rfl

theorem flat_joined : ∀ vs : List Text, vs ≠ [] → (vs.flatMap fun v => ' ' :: v) = ' ' :: joined ' ' vs
  | [], h => absurd rfl h
  | [v], _ => by simp [joined]
  | v :: w :: r, _ => by
    rw [List.flatMap_cons, flat_joined (w :: r) (by simp), joined]
    rfl

/-! ## Definitions of variables -/

theorem afterLast_clean {t : Text} (h : '%' ∉ t) : afterLast t = none := by
  induction t with
  | nil => rfl
  | cons c t ih =>
    rw [List.mem_cons, not_or] at h
    rw [afterLast, ih h.2]
    simp only
    rw [if_neg]
    intro hh
    obtain ⟨u, e⟩ := hh
    rw [List.cons_append] at e
    injection e with e
    exact h.1 e

theorem afterLast_append {t r : Text} (h : afterLast t = some r) (p : Text) : afterLast (p ++ t) = some r := by
  induction p with
  | nil => exact h
  | cons c p ih => rw [List.cons_append, afterLast, ih]

theorem afterLast_here {t : Text} (h : '%' ∉ t) : afterLast ('%' :: ':' :: ' ' :: t) = some t := by
  have : afterLast (':' :: ' ' :: t) = none := afterLast_clean (by simp [h])
  rw [afterLast, this]
  simp only
  rw [if_pos ⟨t, rfl⟩]
  rfl

theorem definition_eq (d : Vector') (h : d.2 ≠ []) : definition d = '%' :: d.1 ++ '%' :: ':' :: ' ' :: joined ' ' d.2 := by
  unfold definition
  rw [flat_joined _ h]
  simp

theorem joined_mem {sep c : Char} (hc : c ≠ sep) : ∀ vs : List Text, c ∈ joined sep vs → ∃ v ∈ vs, c ∈ v
  | [], h => by simp [joined] at h
  | [v], h => ⟨v, List.mem_cons_self, h⟩
  | v :: w :: r, h => by
    rw [joined, List.mem_append, List.mem_cons] at h
    rcases h with h | h | h
    · exact ⟨v, List.mem_cons_self, h⟩
    · exact absurd h hc
    · obtain ⟨x, h1, h2⟩ := joined_mem hc (w :: r) h
      exact ⟨x, List.mem_cons_of_mem _ h1, h2⟩

/-- Names and values as far as the definitions are concerned. -/
def Fine (d : Vector') : Prop := '%' ∉ d.1 ∧ d.2 ≠ [] ∧ ∀ v ∈ d.2, v ≠ [] ∧ ' ' ∉ v ∧ '%' ∉ v

theorem text_definition {d : Vector'} (h : Fine d) (u : Text) (hu : u = [] ∨ u = [' ']) :
    dropSpace (squeeze ((afterLast (definition d ++ u)).getD (definition d ++ u))) = joined ' ' d.2 ++ u := by
  obtain ⟨h1, h2, h3⟩ := h
  have hp : '%' ∉ joined ' ' d.2 ++ u := by
    intro hh
    rcases List.mem_append.1 hh with hh | hh
    · obtain ⟨v, a, b⟩ := joined_mem (by decide) _ hh
      exact (h3 v a).2.2 b
    · rcases hu with rfl | rfl <;> simp at hh
  have : afterLast (definition d ++ u) = some (joined ' ' d.2 ++ u) := by
    rw [definition_eq d h2]
    have := afterLast_append (afterLast_here hp) ('%' :: d.1)
    simpa using this
  rw [this, Option.getD_some, squeeze_joined u _ h2 fun v hv => ⟨(h3 v hv).1, (h3 v hv).2.1⟩]
  have : squeeze u = u := by rcases hu with rfl | rfl <;> rfl
  rw [this, dropSpace_joined u _ h2 fun v hv => ⟨(h3 v hv).1, (h3 v hv).2.1⟩]

theorem cut_key {k : Text} (h : '%' ∉ k) (t : Text) : cut (k ++ '%' :: ':' :: t) = k := by
  induction k with
  | nil =>
    rw [List.nil_append, cut, if_pos ⟨t, rfl⟩]
  | cons c k ih =>
    rw [List.mem_cons, not_or] at h
    rw [List.cons_append, cut, if_neg, ih h.2]
    rintro ⟨u, e⟩
    rw [List.cons_append] at e
    injection e with e
    exact h.1 e

theorem prefix_key {k k' t : Text} (h : '%' ∉ k) (h' : '%' ∉ k') (hp : k ++ ['%', ':'] <+: k' ++ '%' :: t) : k = k' := by
  induction k generalizing k' with
  | nil =>
    cases k' with
    | nil => rfl
    | cons c k' =>
      obtain ⟨u, e⟩ := hp
      simp only [List.nil_append, List.cons_append] at e
      injection e with e
      exact absurd (by rw [e]; exact List.mem_cons_self) h'
  | cons c k ih =>
    cases k' with
    | nil =>
      obtain ⟨u, e⟩ := hp
      simp only [List.nil_append, List.cons_append] at e
      injection e with e
      exact absurd (by simp [e]) h
    | cons c' k' =>
      rw [List.cons_append, List.cons_append, List.cons_prefix_cons] at hp
      rw [hp.1, ih (fun hh => h (List.mem_cons_of_mem _ hh)) (fun hh => h' (List.mem_cons_of_mem _ hh)) hp.2]

/-- A line without `%` at most in the two places of a definition. -/
theorem contains_definition {d : Vector'} (h : Fine d) {k : Text} (hk : '%' ∉ k) (u : Text) (hu : u = [] ∨ u = [' ']) :
    ('%' :: k ++ ['%', ':'] <:+: definition d ++ u) ↔ k = d.1 := by
  obtain ⟨h1, h2, h3⟩ := h
  have hp : '%' ∉ ':' :: ' ' :: (joined ' ' d.2 ++ u) := by
    intro hh
    simp only [List.mem_cons, List.mem_append] at hh
    rcases hh with hh | hh | hh | hh
    · exact absurd hh (by decide)
    · exact absurd hh (by decide)
    · obtain ⟨v, a, b⟩ := joined_mem (by decide) _ hh
      exact (h3 v a).2.2 b
    · rcases hu with rfl | rfl <;> simp at hh
  have e : definition d ++ u = '%' :: (d.1 ++ '%' :: ':' :: ' ' :: (joined ' ' d.2 ++ u)) := by
    rw [definition_eq d h2]; simp
  rw [e]
  constructor
  · intro hi
    have clean : ∀ t : Text, '%' ∉ t → ∀ w : Text, ¬ '%' :: w <:+: t := by
      intro t ht w hh
      exact ht (hh.subset (by simp))
    rw [List.cons_append, List.infix_cons_iff] at hi
    rcases hi with hi | hi
    · rw [List.cons_prefix_cons] at hi
      exact prefix_key hk h1 hi.2
    · exfalso
      -- the remaining text has a single `%`
      have hcount := hi.sublist.count_le '%'
      have c1 : List.count '%' ('%' :: (k ++ ['%', ':'])) = 2 := by
        simp [List.count_eq_zero.2 hk]
      have c2 : List.count '%' (d.1 ++ '%' :: ':' :: ' ' :: (joined ' ' d.2 ++ u)) = 1 := by
        rw [List.count_append, List.count_cons, List.count_eq_zero.2 h1, List.count_eq_zero.2 hp]
        simp
      omega
  · rintro rfl
    exact ⟨[], ' ' :: (joined ' ' d.2 ++ u), by simp⟩

/-! ## Replacement -/

theorem replaceGo_skip (pat rep : Text) (l X : Text) : replaceGo pat rep l.length (l ++ X) = replaceGo pat rep 0 X := by
  induction l with
  | nil => rfl
  | cons c l ih => rw [List.length_cons, List.cons_append, replaceGo]; exact ih

theorem replaceGo_clean (p rep : Text) {t : Text} (h : '{' ∉ t) (X : Text) : replaceGo ('{' :: p) rep 0 (t ++ X) = t ++ replaceGo ('{' :: p) rep 0 X := by
  induction t with
  | nil => rfl
  | cons c t ih =>
    rw [List.mem_cons, not_or] at h
    rw [List.cons_append, replaceGo, if_neg, ih h.2, List.cons_append]
    rw [List.cons_prefix_cons]
    exact fun hh => h.1 hh.1

theorem replaceGo_here (p rep X : Text) : replaceGo ('{' :: p) rep 0 ('{' :: p ++ X) = rep ++ replaceGo ('{' :: p) rep 0 X := by
  rw [List.cons_append, replaceGo, if_pos ⟨X, rfl⟩, List.length_cons, Nat.add_sub_cancel, replaceGo_skip]

theorem written_var (k : Text) : (Piece.var k).written = '{' :: '%' :: k ++ ['%', '}'] := by
  unfold Piece.written
  simp

theorem prefix_name {k k' t : Text} (h : '%' ∉ k) (h' : '%' ∉ k') (hp : k ++ ['%', '}'] <+: k' ++ '%' :: t) : k = k' := by
  induction k generalizing k' with
  | nil =>
    cases k' with
    | nil => rfl
    | cons c k' =>
      obtain ⟨u, e⟩ := hp
      simp only [List.nil_append, List.cons_append] at e
      injection e with e
      exact absurd (by rw [e]; exact List.mem_cons_self) h'
  | cons c k ih =>
    cases k' with
    | nil =>
      obtain ⟨u, e⟩ := hp
      simp only [List.nil_append, List.cons_append] at e
      injection e with e
      exact absurd (by simp [e]) h
    | cons c' k' =>
      rw [List.cons_append, List.cons_append, List.cons_prefix_cons] at hp
      rw [hp.1, ih (fun hh => h (List.mem_cons_of_mem _ hh)) (fun hh => h' (List.mem_cons_of_mem _ hh)) hp.2]

/-- Lines as far as the replacement is concerned. -/
def Clean (line : List Piece) : Prop :=
  ∀ p ∈ line, match p with
    | .text t => '{' ∉ t
    | .var k => '%' ∉ k ∧ '{' ∉ k

/-- All uses of a variable replaced. -/
def putIn (k rep : Text) (line : List Piece) : Text :=
  line.flatMap fun p =>
    match p with
    | .text t => t
    | .var k' => if k' = k then rep else (Piece.var k').written

theorem replaceGo_line {k : Text} (hk : '%' ∉ k) (rep : Text) (line : List Piece) (h : Clean line) :
    replaceGo ('{' :: '%' :: k ++ ['%', '}']) rep 0 (written line) = putIn k rep line := by
  induction line with
  | nil => rfl
  | cons p line ih =>
    have ih := ih fun q hq => h q (List.mem_cons_of_mem _ hq)
    have hp := h p List.mem_cons_self
    have e : written (p :: line) = p.written ++ written line := rfl
    rw [e]
    unfold putIn at ih ⊢
    rw [List.flatMap_cons]
    cases p with
    | text t =>
      simp only at hp
      show replaceGo _ rep 0 (t ++ written line) = _
      rw [List.cons_append, replaceGo_clean _ _ hp, ← List.cons_append, ih]
    | var k' =>
      simp only at hp
      by_cases hkk : k' = k
      · subst hkk
        simp only [if_pos]
        rw [written_var]
        have := replaceGo_here ('%' :: k' ++ ['%', '}']) rep (written line)
        simp only [List.cons_append] at this ih ⊢
        rw [this, ih]
      · simp only [if_neg hkk]
        rw [written_var]
        have hc : '{' ∉ '%' :: k' ++ ['%', '}'] := by simp [hp.2]
        have := replaceGo_clean ('%' :: k ++ ['%', '}']) rep hc (written line)
        simp only [List.cons_append] at this ih ⊢
        rw [replaceGo, if_neg, this, ih]
        intro hh
        simp only [List.cons_prefix_cons, true_and] at hh
        rw [List.append_assoc] at hh
        exact hkk (prefix_name hk hp.1 hh).symm

/-- A value without special characters. -/
def Plain (v : Text) : Prop := '+' ∉ v ∧ '&' ∉ v ∧ '{' ∉ v

theorem flat_plain {v pat : Text} (h : '&' ∉ v) : (v.flatMap fun c => if c = '&' then pat else [c]) = v := by
  induction v with
  | nil => rfl
  | cons c v ih =>
    rw [List.mem_cons, not_or] at h
    rw [List.flatMap_cons, if_neg (Ne.symm h.1), ih h.2]
    rfl

/-- The line with a variable replaced by a text. -/
def assign (k v : Text) (line : List Piece) : List Piece :=
  line.map fun p =>
    match p with
    | .text t => .text t
    | .var k' => if k' = k then .text v else .var k'

theorem putIn_assign (k v : Text) (line : List Piece) : putIn k v line = written (assign k v line) := by
  unfold putIn written assign
  rw [List.flatMap_map]
  refine congrArg List.flatten (List.map_congr_left fun p _ => ?_)
  cases p with
  | text t => rfl
  | var k' =>
    simp only
    split <;> rfl

theorem clean_assign {k v : Text} {line : List Piece} (h : Clean line) (hv : '{' ∉ v) : Clean (assign k v line) := by
  intro p hp
  obtain ⟨q, hq, rfl⟩ := List.mem_map.1 hp
  have := h q hq
  cases q with
  | text t => exact this
  | var k' =>
    simp only at this ⊢
    split
    · rename_i hh
      split at hh
      · injection hh with hh; subst hh; exact hv
      · cases hh
    · rename_i hh
      split at hh
      · cases hh
      · injection hh with hh; subst hh; exact this

theorem substituteAll_spec : ∀ (ks vs : List Text) (line : List Piece), (∀ k ∈ ks, '%' ∉ k) → (∀ v ∈ vs, Plain v) → ks.length = vs.length → Clean line →
    substituteAll ks vs (written line) = filled (lookup ks vs) line
  | [], [], line, _, _, _, _ => by
    rw [substituteAll]
    unfold written filled
    refine congrArg List.flatten (List.map_congr_left fun p _ => ?_)
    cases p <;> rfl
  | [], _ :: _, _, _, _, h, _ => by simp at h
  | _ :: _, [], _, _, _, h, _ => by simp at h
  | k :: ks, v :: vs, line, hk, hv, hl, hc => by
    obtain ⟨p1, p2, p3⟩ := hv v List.mem_cons_self
    rw [substituteAll, List.headD_cons, List.tail_cons]
    unfold substitute
    simp only
    rw [if_neg p1, flat_plain p2, replaceGo_line (hk k List.mem_cons_self) v line hc, putIn_assign,
      substituteAll_spec ks vs (assign k v line) (fun x hx => hk x (List.mem_cons_of_mem _ hx)) (fun x hx => hv x (List.mem_cons_of_mem _ hx))
        (by simpa using hl) (clean_assign hc p3)]
    unfold filled assign
    rw [List.flatMap_map]
    refine congrArg List.flatten (List.map_congr_left fun p _ => ?_)
    cases p with
    | text t => rfl
    | var k' =>
      simp only
      by_cases e : k' = k
      · subst e
        simp [lookup]
      · rw [if_neg e]
        simp only
        have : lookup (k :: ks) (v :: vs) k' = lookup ks vs k' := by
          unfold lookup
          rw [List.zip_cons_cons, List.find?_cons_of_neg (by simpa using Ne.symm e)]
        rw [this]

end Verif.Magic

import Verif.Magic.Lemmas
import Mathlib.Data.List.Forall2

/-!
# Generated parameter files

The parameter file of the user has the definitions of the replacement vectors, a first line with `+`, and more lines.
-/

namespace Verif.Magic

open Spec

section file

variable {ds : List Vector'} {u : Text} {rest : List Text}

theorem upToPlus_file (hd : ∀ d ∈ ds, Fine d) {l0 : Text} {bs : List Text} (hr : l0.head? = some '+') :
    upToPlus (ds.map (fun d => definition d ++ u) ++ l0 :: bs) = ds.map (fun d => definition d ++ u) ++ [l0] := by
  induction ds with
  | nil => rw [List.map_nil, List.nil_append, upToPlus, if_pos hr]; rfl
  | cons d ds ih =>
    rw [List.map_cons, List.cons_append, upToPlus, if_neg, ih fun x hx => hd x (List.mem_cons_of_mem _ hx)]
    · rfl
    · rw [definition_eq d (hd d List.mem_cons_self).2.1]
      simp

theorem fromPlus_file (hd : ∀ d ∈ ds, Fine d) {l0 : Text} {bs : List Text} (hr : l0.head? = some '+') :
    fromPlus (ds.map (fun d => definition d ++ u) ++ l0 :: bs) = l0 :: bs := by
  induction ds with
  | nil => rw [List.map_nil, List.nil_append, fromPlus, if_pos hr]
  | cons d ds ih =>
    rw [List.map_cons, List.cons_append, fromPlus, if_neg, ih fun x hx => hd x (List.mem_cons_of_mem _ hx)]
    rw [definition_eq d (hd d List.mem_cons_self).2.1]
    simp

theorem keys_file (hd : ∀ d ∈ ds, Fine d) {l0 : Text} {bs : List Text} (hr : l0.head? = some '+') (hn : ¬ ['%', ':'] <:+: l0) :
    keys (ds.map (fun d => definition d ++ u) ++ l0 :: bs) = ds.map (·.1) := by
  unfold keys
  rw [upToPlus_file hd hr, List.filter_append, List.filter_eq_self.2, List.filter_cons_of_neg (by simpa using hn), List.filter_nil, List.append_nil, List.map_map]
  · refine List.map_congr_left fun d h => ?_
    obtain ⟨h1, h2, -⟩ := hd d h
    show cut (dropPercent (definition d ++ u)) = d.1
    rw [definition_eq d h2]
    show cut (dropPercent ('%' :: (d.1 ++ '%' :: ':' :: ' ' :: joined ' ' d.2) ++ u)) = d.1
    rw [List.cons_append, dropPercent, List.append_assoc]
    exact cut_key h1 _
  · intro l hl
    obtain ⟨d, h, rfl⟩ := List.mem_map.1 hl
    rw [decide_eq_true_eq, definition_eq d (hd d h).2.1]
    exact ⟨'%' :: d.1, ' ' :: joined ' ' d.2 ++ u, by simp⟩

theorem valueText_file (hu : u = [] ∨ u = [' ']) (hd : ∀ d ∈ ds, Fine d) (hnd : (ds.map (·.1)).Nodup) (hn : ∀ l ∈ rest, ¬ ['%', ':'] <:+: l) (d : Vector') (hm : d ∈ ds) :
    valueText (ds.map (fun d => definition d ++ u) ++ rest) d.1 = some (joined ' ' d.2 ++ u) := by
  have key : (ds.map (fun d => definition d ++ u) ++ rest).filter (fun l => decide ('%' :: d.1 ++ ['%', ':'] <:+: l)) = [definition d ++ u] := by
    rw [List.filter_append, (List.filter_eq_nil_iff (l := rest)).2, List.append_nil]
    · rw [List.filter_map]
      have e : ds.filter ((fun l => decide ('%' :: d.1 ++ ['%', ':'] <:+: l)) ∘ fun d => definition d ++ u) = ds.filter fun x => decide (d.1 = x.1) := by
        refine List.filter_congr fun x hx => ?_
        exact decide_eq_decide.2 (contains_definition (hd x hx) (hd d hm).1 u hu)
      rw [e]
      clear e hd
      induction ds with
      | nil => simp at hm
      | cons x ds ih =>
        rw [List.map_cons, List.nodup_cons] at hnd
        by_cases hx : d.1 = x.1
        · have : ds.filter (fun x => decide (d.1 = x.1)) = [] := by
            rw [List.filter_eq_nil_iff]
            intro y hy
            rw [decide_eq_true_eq]
            intro h
            exact hnd.1 (List.mem_map.2 ⟨y, hy, h.symm.trans hx⟩)
          rw [List.filter_cons_of_pos (by simpa using hx), this]
          rcases List.mem_cons.1 hm with rfl | hm
          · rfl
          · exact absurd (List.mem_map.2 ⟨d, hm, hx⟩) hnd.1
        · rw [List.filter_cons_of_neg (by simpa using hx)]
          refine ih hnd.2 ?_
          rcases List.mem_cons.1 hm with rfl | hm
          · exact absurd rfl hx
          · exact hm
    · intro l hl
      rw [decide_eq_true_eq]
      intro hh
      refine hn l hl (List.IsInfix.trans ?_ hh)
      exact ⟨'%' :: d.1, [], by simp⟩
  unfold valueText
  rw [key]
  simp only
  rw [text_definition (hd d hm) u hu]

theorem mapM_some {α β : Type} (f : α → Option β) (g : α → β) (l : List α) (h : ∀ x ∈ l, f x = some (g x)) : l.mapM f = some (l.map g) := by
  induction l with
  | nil => rfl
  | cons a l ih =>
    rw [List.mapM_cons, h a List.mem_cons_self, ih fun x hx => h x (List.mem_cons_of_mem _ hx)]
    rfl

theorem texts_file (hu : u = [] ∨ u = [' ']) (hd : ∀ d ∈ ds, Fine d) (hnd : (ds.map (·.1)).Nodup) (hn : ∀ l ∈ rest, ¬ ['%', ':'] <:+: l) :
    (ds.map (·.1)).mapM (valueText (ds.map (fun d => definition d ++ u) ++ rest)) = some (ds.map fun d => joined ' ' d.2 ++ u) := by
  rw [List.mapM_map]
  exact mapM_some _ _ ds fun d h => valueText_file hu hd hnd hn d h

end file

theorem words_comb (c : List Text) (h : ∀ v ∈ c, v ≠ [] ∧ ' ' ∉ v ∧ '%' ∉ v) :
    words ((c.flatMap fun v => '%' :: v).map fun x => if x = '%' then ' ' else x) = c := by
  have e : ((c.flatMap fun v => '%' :: v).map fun x => if x = '%' then ' ' else x) = c.flatMap fun v => ' ' :: v := by
    rw [List.map_flatMap]
    refine congrArg List.flatten (List.map_congr_left fun v hv => ?_)
    rw [List.map_cons, if_pos rfl, map_clean (h v hv).2.2]
  unfold words
  rw [e, splitOn_flat c fun v hv => (h v hv).2.1, List.filter_cons_of_neg (by simp), List.filter_eq_self.2]
  intro v hv
  simpa using (h v hv).1

theorem words_joined (vs : List Text) (hne : vs ≠ []) (h : ∀ v ∈ vs, v ≠ [] ∧ ' ' ∉ v) : words (joined ' ' vs) = vs := by
  unfold words
  rw [splitOn_joined hne fun v hv => (h v hv).2, List.filter_eq_self.2]
  intro v hv
  simpa using (h v hv).1

theorem joined_comma (vs : List Text) (h : 2 ≤ vs.length) : ',' ∈ joined ',' vs := by
  match vs, h with
  | v :: w :: r, _ => simp [joined]

theorem expand_spec (vss : List (List Text)) (h : ∀ vs ∈ vss, 2 ≤ vs.length ∧ ∀ v ∈ vs, ',' ∉ v) :
    expand (vss.map (joined ',')) = (combinations vss).map fun c => c.flatMap fun v => '%' :: v := by
  induction vss with
  | nil => rfl
  | cons vs vss ih =>
    obtain ⟨h1, h2⟩ := h vs List.mem_cons_self
    rw [List.map_cons, expand, ih fun x hx => h x (List.mem_cons_of_mem _ hx)]
    unfold braces
    rw [if_pos (joined_comma vs h1), splitOn_joined (by intro e; rw [e] at h1; simp at h1) h2, combinations, List.map_flatMap]
    refine congrArg List.flatten (List.map_congr_left fun v _ => ?_)
    rw [List.map_map, List.map_map]
    exact List.map_congr_left fun c _ => by simp [List.flatMap_cons]

theorem mem_combinations (vss : List (List Text)) (c : List Text) : c ∈ combinations vss ↔ List.Forall₂ (fun v vs => v ∈ vs) c vss := by
  induction vss generalizing c with
  | nil => simp [combinations]
  | cons vs vss ih =>
    rw [combinations, List.mem_flatMap]
    constructor
    · rintro ⟨v, hv, h⟩
      obtain ⟨c', hc, rfl⟩ := List.mem_map.1 h
      exact .cons hv ((ih c').1 hc)
    · intro h
      cases h with
      | cons hv hc => exact ⟨_, hv, List.mem_map.2 ⟨_, (ih _).2 hc, rfl⟩⟩

theorem value_facts {v : Text} (h : ∀ c ∈ v, ValueChar c) : ' ' ∉ v ∧ '%' ∉ v ∧ ',' ∉ v ∧ Plain v := by
  have : ∀ x : Char, x.isAlphanum = false → x ∉ ['_', '-', '.', '/', ':'] → x ∉ v := by
    intro x h1 h2 hx
    rcases h x hx with e | e
    · rw [h1] at e; cases e
    · exact h2 e
  exact ⟨this _ (by decide) (by decide), this _ (by decide) (by decide), this _ (by decide) (by decide),
    this _ (by decide) (by decide), this _ (by decide) (by decide), this _ (by decide) (by decide)⟩

theorem name_facts {k : Text} (h : ∀ c ∈ k, NameChar c) : '%' ∉ k ∧ '{' ∉ k := by
  have : ∀ x : Char, x.isAlphanum = false → x ≠ '_' → x ∉ k := by
    intro x h1 h2 hx
    rcases h x hx with e | e
    · rw [h1] at e; cases e
    · exact h2 e
  exact ⟨this _ (by decide) (by decide), this _ (by decide) (by decide)⟩

/-- Replacement vectors as documented: each variable is defined once, by values of plain characters. -/
structure Vectors (ds : List Vector') : Prop where
  some : ds ≠ []
  once : (ds.map (·.1)).Nodup
  names : ∀ d ∈ ds, ∀ c ∈ d.1, NameChar c
  values : ∀ d ∈ ds, d.2 ≠ [] ∧ ∀ v ∈ d.2, v ≠ [] ∧ ∀ c ∈ v, ValueChar c

/-- Lines of the parameter file proper: the first starts with `+`, braces occur only in uses of variables, and no line looks like a definition. -/
structure Lines (body : List (List Piece)) : Prop where
  start : (body.head?.map written).bind List.head? = Option.some '+'
  texts : ∀ line ∈ body, ∀ t, Piece.text t ∈ line → '{' ∉ t
  uses : ∀ line ∈ body, ∀ k, Piece.var k ∈ line → ∀ c ∈ k, NameChar c
  others : ∀ line ∈ body, ¬ "%:".toList <:+: written line

theorem Vectors.fine {ds : List Vector'} (h : Vectors ds) : ∀ d ∈ ds, Fine d := fun d hd =>
  ⟨(name_facts (h.names d hd)).1, (h.values d hd).1, fun v hv =>
    have := value_facts ((h.values d hd).2 v hv).2
    ⟨((h.values d hd).2 v hv).1, this.1, this.2.1⟩⟩

theorem Lines.clean {body : List (List Piece)} (h : Lines body) : ∀ line ∈ body, Clean line := by
  intro line hl p hp
  cases p with
  | text t => exact h.texts line hl t hp
  | var k => exact name_facts (h.uses line hl k hp)

theorem Lines.split {body : List (List Piece)} (h : Lines body) :
    ∃ l0 bs, body.map written = l0 :: bs ∧ l0.head? = Option.some '+' ∧ ∀ l ∈ l0 :: bs, ¬ ['%', ':'] <:+: l := by
  have ho : ∀ l ∈ body.map written, ¬ ['%', ':'] <:+: l := by
    intro l hl
    obtain ⟨x, hx, rfl⟩ := List.mem_map.1 hl
    exact h.others x hx
  cases body with
  | nil => have := h.start; simp at this
  | cons b bs => exact ⟨written b, bs.map written, rfl, by simpa using h.start, ho⟩

theorem generate_spec {ds : List Vector'} {u : Text} (hd : ∀ d ∈ ds, Fine d) (hk : ∀ d ∈ ds, '%' ∉ d.1) {body : List (List Piece)} (hb : Lines body)
    (c : List Text) (hc : ∀ v ∈ c, v ≠ [] ∧ ' ' ∉ v ∧ '%' ∉ v ∧ Plain v) (hl : ds.length = c.length) :
    generate (ds.map (fun d => definition d ++ u) ++ body.map written) (ds.map (·.1)) (c.flatMap fun v => '%' :: v) =
      body.map (filled (lookup (ds.map (·.1)) c)) := by
  obtain ⟨l0, bs, e, h1, -⟩ := hb.split
  unfold generate
  simp only
  rw [words_comb c fun v hv => ⟨(hc v hv).1, (hc v hv).2.1, (hc v hv).2.2.1⟩, e, fromPlus_file hd h1, ← e, List.map_map]
  refine List.map_congr_left fun line hline => ?_
  refine substituteAll_spec _ _ line ?_ (fun v hv => (hc v hv).2.2.2) (by simpa using hl) (hb.clean line hline)
  intro k hk'
  obtain ⟨d, hd', rfl⟩ := List.mem_map.1 hk'
  exact hk d hd'

theorem forall₂_mem {c : List Text} {vss : List (List Text)} (h : List.Forall₂ (fun v vs => v ∈ vs) c vss) : c.length = vss.length ∧ ∀ v ∈ c, ∃ vs ∈ vss, v ∈ vs := by
  refine ⟨h.length_eq, ?_⟩
  induction h with
  | nil => simp
  | @cons v vs c vss hv _ ih =>
    intro x hx
    rcases List.mem_cons.1 hx with rfl | hx
    · exact ⟨vs, List.mem_cons_self, hv⟩
    · obtain ⟨ws, h1, h2⟩ := ih x hx
      exact ⟨ws, List.mem_cons_of_mem _ h1, h2⟩

/-- C164: with replacement vectors of two or more plain values, there is a parameter file for each combination of values: the lines from the first
line with `+`, with all variables replaced. Missing: vectors of a single value (`c164_single_violated`), values with `,`, `&` and `+`
(`c164_comma_violated`, `c165_special_violated`) and a space at the end of the definition (`c164_space_violated`). -/
theorem c164_all_partial (ds : List Vector') (h : Vectors ds) (h2 : ∀ d ∈ ds, 2 ≤ d.2.length) (body : List (List Piece)) (hb : Lines body) :
    run .all (ds.map definition ++ body.map written) =
      .files ((combinations (ds.map (·.2))).map fun c => body.map (filled (lookup (ds.map (·.1)) c))) := by
  have hd := h.fine
  obtain ⟨l0, bs, e, e1, e2⟩ := hb.split
  have hk := keys_file (u := []) (bs := bs) hd e1 (e2 l0 List.mem_cons_self)
  have ht := texts_file (u := []) (.inl rfl) hd h.once e2
  have hds : ds.map definition = ds.map fun d => definition d ++ [] := by simp
  unfold run
  simp only
  rw [hds, e, hk, if_neg (by simpa using h.some), ht]
  simp only
  congr 1
  have hv : ∀ d ∈ ds, ∀ v ∈ d.2, v ≠ [] ∧ ' ' ∉ v ∧ '%' ∉ v ∧ ',' ∉ v ∧ Plain v := by
    intro d hd' v hv
    have := (h.values d hd').2 v hv
    exact ⟨this.1, value_facts this.2⟩
  have hc : combAll (ds.map fun d => joined ' ' d.2 ++ []) = (combinations (ds.map (·.2))).map fun c => c.flatMap fun v => '%' :: v := by
    unfold combAll
    rw [← expand_spec, List.map_map, List.map_map]
    · congr 1
      refine List.map_congr_left fun d hd' => ?_
      show List.map _ (joined ' ' d.2 ++ []) = joined ',' d.2
      rw [List.append_nil, map_joined ' ' ',' _ fun v hv' => (hv d hd' v hv').2.1]
    · intro vs hvs
      obtain ⟨d, hd', rfl⟩ := List.mem_map.1 hvs
      exact ⟨h2 d hd', fun v hv' => (hv d hd' v hv').2.2.2.1⟩
  rw [hc, List.map_map]
  refine List.map_congr_left fun c hc' => ?_
  rw [mem_combinations] at hc'
  obtain ⟨f1, f2⟩ := forall₂_mem hc'
  have := generate_spec (u := []) hd (fun d hd' => (hd d hd').1) hb c (fun v hv' => by
    obtain ⟨vs, g1, g2⟩ := f2 v hv'
    obtain ⟨d, g3, rfl⟩ := List.mem_map.1 g1
    have := hv d g3 v g2
    exact ⟨this.1, this.2.1, this.2.2.1, this.2.2.2.2⟩) (by simpa using f1.symm)
  rw [← e]
  exact this

/-- C164: the combinations are all lists with a value of each vector; their number is the product of the numbers of values, and each combination
occurs once if no value is repeated. -/
theorem c164_combinations (vss : List (List (List Char))) :
    (∀ c, c ∈ combinations vss ↔ List.Forall₂ (fun v vs => v ∈ vs) c vss) ∧ (combinations vss).length = (vss.map List.length).prod ∧
      ((∀ vs ∈ vss, vs.Nodup) → (combinations vss).Nodup) := by
  refine ⟨mem_combinations vss, ?_, ?_⟩
  · induction vss with
    | nil => rfl
    | cons vs vss ih =>
      rw [combinations, List.length_flatMap, List.map_cons, List.prod_cons, ← ih]
      simp
  · induction vss with
    | nil => intro _; simp [combinations]
    | cons vs vss ih =>
      intro h
      rw [combinations, List.nodup_flatMap]
      refine ⟨fun v _ => (ih fun x hx => h x (List.mem_cons_of_mem _ hx)).map (fun a b e => by injection e), ?_⟩
      refine (h vs List.mem_cons_self).imp fun {a b} hab => ?_
      intro x h1 h2
      obtain ⟨c1, -, rfl⟩ := List.mem_map.1 h1
      obtain ⟨c2, -, e⟩ := List.mem_map.1 h2
      injection e with e
      exact hab e.symm

/-! ## One variable -/

theorem generate_one {d : Vector'} {u : Text} (hd : Fine d) {body : List (List Piece)} (hb : Lines body) (v : Text) (hv : ' ' ∉ v ∧ '%' ∉ v)
    (hp : '+' ∉ v ∧ '&' ∉ v) :
    generate ([d].map (fun d => definition d ++ u) ++ body.map written) [d.1] ('%' :: v) = body.map (filled fun k => if k = d.1 then some v else none) := by
  obtain ⟨l0, bs, e, h1, -⟩ := hb.split
  have hw : substituteAll [d.1] (words (List.map (fun c => if c = '%' then ' ' else c) ('%' :: v))) = substituteAll [d.1] [v] := by
    rw [List.map_cons, if_pos rfl, map_clean hv.2]
    unfold words
    have := splitOn_flat (sep := ' ') [v] (by simpa using hv.1)
    simp only [List.flatMap_cons, List.flatMap_nil, List.append_nil] at this
    rw [this, List.filter_cons_of_neg (by simp)]
    by_cases hne : v = []
    · subst hne; rfl
    · rw [List.filter_cons_of_pos (by simpa using hne)]; rfl
  unfold generate
  simp only
  rw [hw, e, fromPlus_file (by intro x hx; rw [List.mem_singleton] at hx; rw [hx]; exact hd) h1, ← e, List.map_map]
  refine List.map_congr_left fun line hline => ?_
  show substituteAll [d.1] [v] (written line) = _
  rw [substituteAll, substituteAll, List.headD_cons]
  unfold substitute
  simp only
  rw [if_neg hp.1, flat_plain hp.2, replaceGo_line hd.1 v line (hb.clean line hline)]
  unfold putIn filled
  refine congrArg List.flatten (List.map_congr_left fun p _ => ?_)
  cases p with
  | text t => rfl
  | var k' =>
    simp only
    split <;> rfl

/-- A vector with any values, except for spaces and `%`. -/
def One (k : Text) (vs : List Text) : Prop := (∀ c ∈ k, NameChar c) ∧ vs ≠ [] ∧ ∀ v ∈ vs, v ≠ [] ∧ ' ' ∉ v ∧ '%' ∉ v

theorem One.fine {k : Text} {vs : List Text} (h : One k vs) : Fine (k, vs) := ⟨(name_facts h.1).1, h.2.1, h.2.2⟩

theorem run_one {k : Text} {vs : List Text} (h : One k vs) {u : Text} (hu : u = [] ∨ u = [' ']) {body : List (List Piece)} (hb : Lines body) (mode : Mode) :
    run mode ((definition (k, vs) ++ u) :: body.map written) =
      match mode with
      | .all => .files ((combAll [joined ' ' vs ++ u]).map (generate ([(k, vs)].map (fun d => definition d ++ u) ++ body.map written) [k]))
      | .paired => match combPaired [joined ' ' vs ++ u] with
        | none => .usage
        | some cs => .files (cs.map (generate ([(k, vs)].map (fun d => definition d ++ u) ++ body.map written) [k])) := by
  obtain ⟨l0, bs, e, e1, e2⟩ := hb.split
  have hd : ∀ d ∈ [(k, vs)], Fine d := by intro d hd; rw [List.mem_singleton] at hd; rw [hd]; exact h.fine
  have hk := keys_file (u := u) (bs := bs) hd e1 (e2 l0 List.mem_cons_self)
  have ht := texts_file (u := u) hu hd (by simp) e2
  have hf : (definition (k, vs) ++ u) :: l0 :: bs = [(k, vs)].map (fun d => definition d ++ u) ++ l0 :: bs := rfl
  unfold run
  simp only
  rw [e, hf, hk, if_neg (by simp), ht]
  rfl

/-- C164, violated: a vector of a single value is not expanded by the shell; the value is put in with braces. -/
theorem c164_single_violated (k v : List Char) (h : One k [v]) (hc : ',' ∉ v ∧ '+' ∉ v ∧ '&' ∉ v) (body : List (List Piece)) (hb : Lines body) :
    run .all (definition (k, [v]) :: body.map written) =
      .files [body.map (filled fun x => if x = k then some ("{".toList ++ v ++ "}".toList) else none)] := by
  have := run_one h (u := []) (.inl rfl) hb .all
  rw [List.append_nil] at this
  rw [this]
  simp only
  have hv := h.2.2 v List.mem_cons_self
  have e : combAll [joined ' ' [v] ++ []] = ['%' :: ('{' :: v ++ ['}'])] := by
    unfold combAll
    rw [List.append_nil, List.map_singleton, map_joined ' ' ',' _ (by simpa using hv.2.1)]
    unfold expand braces
    rw [joined, if_neg hc.1]
    simp [expand]
  rw [e, List.map_singleton, generate_one h.fine hb ('{' :: v ++ ['}']) (by simp [hv.2]) (by simp [hc.2])]
  rfl

/-- C164, violated: a value with a comma is taken apart: `a,b` counts as the two values `a` and `b`. -/
theorem c164_comma_violated (k a b : List Char) (h : One k [a, b]) (hc : ∀ v ∈ [a, b], ',' ∉ v ∧ '+' ∉ v ∧ '&' ∉ v) (body : List (List Piece)) (hb : Lines body) :
    run .all (definition (k, [a ++ ',' :: b]) :: body.map written) =
      .files ([a, b].map fun v => body.map (filled fun x => if x = k then some v else none)) := by
  have ha := h.2.2 a (by simp)
  have hb' := h.2.2 b (by simp)
  have h1 : One k [a ++ ',' :: b] := by
    refine ⟨h.1, by simp, ?_⟩
    intro v hv
    rw [List.mem_singleton] at hv
    subst hv
    simp [ha.2, hb'.2]
  have := run_one h1 (u := []) (.inl rfl) hb .all
  rw [List.append_nil] at this
  rw [this]
  simp only
  have e : combAll [joined ' ' [a ++ ',' :: b] ++ []] = [a, b].map fun v => '%' :: v := by
    unfold combAll
    rw [List.append_nil, List.map_singleton, map_joined ' ' ',' _ (by simp [ha.2, hb'.2])]
    unfold expand braces
    rw [joined, if_pos (by simp), splitOn_append (hc a (by simp)).1, splitOn_clean (hc b (by simp)).1]
    simp [expand]
  rw [e, List.map_map]
  congr 1
  refine List.map_congr_left fun v hv => ?_
  exact generate_one h1.fine hb v (h.2.2 v hv).2 (hc v hv).2

/-- C164, violated: a space at the end of the definition adds a parameter file with an empty value. -/
theorem c164_space_violated (k : List Char) (vs : List (List Char)) (h : One k vs) (hc : ∀ v ∈ vs, ',' ∉ v ∧ '+' ∉ v ∧ '&' ∉ v) (body : List (List Piece)) (hb : Lines body) :
    run .all ((definition (k, vs) ++ " ".toList) :: body.map written) =
      .files ((vs ++ [[]]).map fun v => body.map (filled fun x => if x = k then some v else none)) := by
  have := run_one h (u := [' ']) (.inr rfl) hb .all
  have e0 : " ".toList = [' '] := rfl
  rw [e0, this]
  simp only
  have e : combAll [joined ' ' vs ++ [' ']] = (vs ++ [[]]).map fun v => '%' :: v := by
    have hj : joined ' ' vs ++ [' '] = joined ' ' (vs ++ [[]]) := by
      have : ∀ l : List Text, l ≠ [] → joined ' ' l ++ [' '] = joined ' ' (l ++ [[]]) := by
        intro l
        induction l with
        | nil => intro hh; exact absurd rfl hh
        | cons a l ih =>
          intro _
          cases l with
          | nil => simp [joined]
          | cons b l =>
            have ih := ih (by simp)
            simp only [List.cons_append] at ih ⊢
            rw [joined, joined, List.append_assoc, List.cons_append, ih]
      exact this vs h.2.1
    unfold combAll
    rw [hj, List.map_singleton, map_joined ' ' ',' _ (by
      intro v hv
      rcases List.mem_append.1 hv with hv | hv
      · exact (h.2.2 v hv).2.1
      · rw [List.mem_singleton] at hv; rw [hv]; simp)]
    unfold expand braces
    rw [if_pos (joined_comma _ (by
      have := List.length_pos_iff.2 h.2.1
      rw [List.length_append]; simp; omega)), splitOn_joined (by simp) (by
      intro v hv
      rcases List.mem_append.1 hv with hv | hv
      · exact (hc v hv).1
      · rw [List.mem_singleton] at hv; rw [hv]; simp)]
    simp only [expand, List.map_cons, List.map_nil, List.append_nil]
    generalize vs ++ [[]] = l
    induction l with
    | nil => rfl
    | cons a l ih => rw [List.flatMap_cons, ih]; rfl
  rw [e, List.map_map]
  congr 1
  refine List.map_congr_left fun v hv => ?_
  rcases List.mem_append.1 hv with hv | hv
  · exact generate_one h.fine hb v (h.2.2 v hv).2 (hc v hv).2
  · rw [List.mem_singleton] at hv
    subst hv
    exact generate_one h.fine hb [] (by simp) (by simp)

/-! ## Pairs -/

/-- The combination of the values at one position. -/
def pair (vss : List (List Text)) (i : Nat) : List Text := vss.map fun vs => vs.getD i []

theorem append_spec (cs vs : List Text) (h : cs.length = vs.length) : append cs vs = (cs.zip vs).map fun p => p.1 ++ '%' :: p.2 := by
  induction vs generalizing cs with
  | nil => cases cs <;> simp_all [append]
  | cons v vs ih =>
    cases cs with
    | nil => simp at h
    | cons c cs =>
      rw [append, ih cs (by simpa using h)]
      rfl

theorem append_nil (vs : List Text) : append [] vs = vs.map fun v => '%' :: v := by
  induction vs with
  | nil => rfl
  | cons v vs ih => rw [append, ih]; rfl

theorem foldl_append (n : Nat) (vss : List (List Text)) (h : ∀ vs ∈ vss, vs.length = n) (done : List (List Text)) :
    vss.foldl append ((List.range n).map fun i => (pair done i).flatMap fun v => '%' :: v) =
      (List.range n).map fun i => (pair (done ++ vss) i).flatMap fun v => '%' :: v := by
  induction vss generalizing done with
  | nil => simp
  | cons vs vss ih =>
    have hv := h vs List.mem_cons_self
    rw [List.foldl_cons, append_spec _ _ (by simp [hv])]
    have e : (((List.range n).map fun i => (pair done i).flatMap fun v => '%' :: v).zip vs).map (fun p => p.1 ++ '%' :: p.2) =
        (List.range n).map fun i => (pair (done ++ [vs]) i).flatMap fun v => '%' :: v := by
      refine List.ext_getElem (by simp [hv]) ?_
      intro i h1 h2
      simp only [List.length_map, List.length_zip, List.length_range] at h1 h2
      have : i < vs.length := by omega
      simp only [List.getElem_map, List.getElem_zip, List.getElem_range]
      unfold pair
      rw [List.map_append, List.flatMap_append]
      simp [List.getD_eq_getElem?_getD, List.getElem?_eq_getElem this]
    rw [e, ih (fun x hx => h x (List.mem_cons_of_mem _ hx)), List.append_assoc]
    rfl

theorem checkLengths_same (n : Nat) (l : List Nat) (h : ∀ m ∈ l, m = n) : checkLengths n l = some n := by
  induction l with
  | nil => rfl
  | cons m l ih =>
    have := h m List.mem_cons_self
    subst this
    rw [checkLengths, if_neg (by simp)]
    exact ih fun x hx => h x (List.mem_cons_of_mem _ hx)

theorem checkLengths_differ (n : Nat) (hn : 0 < n) (l : List Nat) (hp : ∀ m ∈ l, 0 < m) (h : ∃ m ∈ l, m ≠ n) : checkLengths n l = none := by
  induction l with
  | nil => simp at h
  | cons m l ih =>
    rw [checkLengths]
    by_cases e : n = m
    · subst e
      rw [if_neg (by simp)]
      refine ih (fun x hx => hp x (List.mem_cons_of_mem _ hx)) ?_
      obtain ⟨x, h1, h2⟩ := h
      rcases List.mem_cons.1 h1 with rfl | h1
      · exact absurd rfl h2
      · exact ⟨x, h1, h2⟩
    · rw [if_pos ⟨hn, e⟩]

theorem run_paired {ds : List Vector'} (h : Vectors ds) {body : List (List Piece)} (hb : Lines body) :
    run .paired (ds.map definition ++ body.map written) =
      match checkLengths 0 (ds.map fun d => d.2.length) with
      | none => .usage
      | some _ => .files (((ds.map (·.2)).foldl append []).map (generate (ds.map definition ++ body.map written) (ds.map (·.1)))) := by
  have hd := h.fine
  obtain ⟨l0, bs, e, e1, e2⟩ := hb.split
  have hk := keys_file (u := []) (bs := bs) hd e1 (e2 l0 List.mem_cons_self)
  have ht := texts_file (u := []) (.inl rfl) hd h.once e2
  have hds : ds.map definition = ds.map fun d => definition d ++ [] := by simp
  have hw : ∀ d ∈ ds, words (joined ' ' d.2 ++ []) = d.2 := by
    intro d hd'
    rw [List.append_nil]
    exact words_joined _ (hd d hd').2.1 fun v hv => ⟨((hd d hd').2.2 v hv).1, ((hd d hd').2.2 v hv).2.1⟩
  unfold run
  simp only
  rw [hds, e, hk, if_neg (by simpa using h.some), ht]
  simp only
  unfold combPaired
  have w1 : ((ds.map fun d => joined ' ' d.2 ++ []).map fun t => (words t).length) = ds.map fun d => d.2.length := by
    rw [List.map_map]
    refine List.map_congr_left fun d hd' => ?_
    show (words (joined ' ' d.2 ++ [])).length = d.2.length
    rw [hw d hd']
  have w2 : (ds.map fun d => joined ' ' d.2 ++ []).foldl (fun cs t => append cs (words t)) [] = (ds.map (·.2)).foldl append [] := by
    have : ∀ (l : List Vector') (cs : List Text), (∀ d ∈ l, words (joined ' ' d.2 ++ []) = d.2) →
        (l.map fun d => joined ' ' d.2 ++ []).foldl (fun cs t => append cs (words t)) cs = (l.map (·.2)).foldl append cs := by
      intro l
      induction l with
      | nil => intro cs _; rfl
      | cons d l ih =>
        intro cs hl
        rw [List.map_cons, List.map_cons, List.foldl_cons, List.foldl_cons, hl d List.mem_cons_self, ih _ fun x hx => hl x (List.mem_cons_of_mem _ hx)]
    exact this ds [] hw
  rw [w1, w2]
  cases checkLengths 0 (ds.map fun d => d.2.length) <;> rfl

/-- C165: with paired vectors of plain values of the same length, the parameter file number `i` has all variables replaced by their value number `i`.
Missing: values with `&` and `+`, see `c165_special_violated`. -/
theorem c165_paired_partial (ds : List Vector') (h : Vectors ds) (n : Nat) (hn : ∀ d ∈ ds, d.2.length = n) (body : List (List Piece)) (hb : Lines body) :
    ∃ files, run .paired (ds.map definition ++ body.map written) = .files files ∧ files.length = n ∧
      ∀ i < n, files[i]? = some (body.map (filled (lookup (ds.map (·.1)) (ds.map fun d => d.2.getD i [])))) := by
  have hd := h.fine
  obtain ⟨d0, ds', hds⟩ := List.exists_cons_of_ne_nil h.some
  have hf : (ds.map (·.2)).foldl append [] = (List.range n).map fun i => (pair (ds.map (·.2)) i).flatMap fun v => '%' :: v := by
    rw [hds, List.map_cons, List.foldl_cons, append_nil]
    have e := foldl_append n (ds'.map (·.2)) (by
      intro vs hvs
      obtain ⟨d, h1, rfl⟩ := List.mem_map.1 hvs
      exact hn d (by rw [hds]; exact List.mem_cons_of_mem _ h1)) [d0.2]
    have e0 : (d0.2.map fun v => '%' :: v) = (List.range n).map fun i => (pair [d0.2] i).flatMap fun v => '%' :: v := by
      have hl := hn d0 (by rw [hds]; exact List.mem_cons_self)
      refine List.ext_getElem (by simp [hl]) ?_
      intro i h1 h2
      simp only [List.length_map, List.length_range] at h1 h2
      simp [pair, List.getD_eq_getElem?_getD, List.getElem?_eq_getElem h1]
    rw [e0, e]
    rfl
  have hc : ∃ m, checkLengths 0 (ds.map fun d => d.2.length) = some m := by
    rw [hds, List.map_cons, checkLengths, if_neg (by simp)]
    refine ⟨_, checkLengths_same _ _ ?_⟩
    intro m hm
    obtain ⟨d, h1, rfl⟩ := List.mem_map.1 hm
    rw [hn d (by rw [hds]; exact List.mem_cons_of_mem _ h1), hn d0 (by rw [hds]; exact List.mem_cons_self)]
  obtain ⟨m, hm⟩ := hc
  refine ⟨_, by rw [run_paired h hb, hm, hf], by simp, ?_⟩
  intro i hi
  rw [List.map_map, List.getElem?_map, List.getElem?_range hi, Option.map_some]
  congr 1
  have hl := generate_spec (u := []) hd (fun d hd' => (hd d hd').1) hb (pair (ds.map (·.2)) i) (by
    intro v hv
    unfold pair at hv
    rw [List.map_map] at hv
    obtain ⟨d, h1, rfl⟩ := List.mem_map.1 hv
    have hlen : i < d.2.length := by rw [hn d h1]; exact hi
    have hm : d.2.getD i [] ∈ d.2 := by
      rw [List.getD_eq_getElem?_getD, List.getElem?_eq_getElem hlen]
      exact List.getElem_mem hlen
    have := (h.values d h1).2 _ hm
    have f := value_facts this.2
    exact ⟨this.1, f.1, f.2.1, f.2.2.2⟩) (by simp [pair])
  have e : (ds.map fun d => definition d ++ []) = ds.map definition := by simp
  have e' : pair (ds.map (·.2)) i = ds.map fun d => d.2.getD i [] := by unfold pair; rw [List.map_map]; rfl
  rw [e, e'] at hl
  show generate _ _ ((pair (ds.map (·.2)) i).flatMap fun v => '%' :: v) = _
  rw [e']
  exact hl

/-- C165: paired vectors of different lengths are refused. -/
theorem c165_lengths (ds : List Vector') (h : Vectors ds) (d e : Vector') (hd : d ∈ ds) (he : e ∈ ds) (hn : d.2.length ≠ e.2.length) (body : List (List Piece)) (hb : Lines body) :
    run .paired (ds.map definition ++ body.map written) = .usage := by
  obtain ⟨d0, ds', hds⟩ := List.exists_cons_of_ne_nil h.some
  have hpos : ∀ x ∈ ds, 0 < x.2.length := fun x hx => List.length_pos_iff.2 (h.values x hx).1
  have : checkLengths 0 (ds.map fun d => d.2.length) = none := by
    rw [hds, List.map_cons, checkLengths, if_neg (by simp)]
    refine checkLengths_differ _ (hpos d0 (by rw [hds]; exact List.mem_cons_self)) _ ?_ ?_
    · intro m hm
      obtain ⟨x, h1, rfl⟩ := List.mem_map.1 hm
      exact hpos x (by rw [hds]; exact List.mem_cons_of_mem _ h1)
    · by_contra hh
      have all : ∀ x ∈ ds, x.2.length = d0.2.length := by
        intro x hx
        rw [hds] at hx
        rcases List.mem_cons.1 hx with rfl | hx
        · rfl
        · by_contra hne
          exact hh ⟨_, List.mem_map.2 ⟨x, hx, rfl⟩, hne⟩
      exact hn ((all d hd).trans (all e he).symm)
  rw [run_paired h hb, this]

/-- C165, violated: a value with `+` is not put in at all, and a `&` in a value is replaced by the use of the variable: with the value `v` in the only
vector, the use `{%k%}` becomes itself, or `v` with `{%k%}` at each `&`. -/
theorem c165_special_violated (k v : List Char) (h : One k [v]) (body : List (List Piece)) (hb : Lines body) :
    run .paired (definition (k, [v]) :: body.map written) =
      .files [body.map (filled fun x => if x = k then
        some (if '+' ∈ v then (Piece.var k).written else v.flatMap fun c => if c = '&' then (Piece.var k).written else [c]) else none)] := by
  have := run_one h (u := []) (.inl rfl) hb .paired
  rw [List.append_nil] at this
  rw [this]
  simp only
  have hv := h.2.2 v List.mem_cons_self
  have e : combPaired [joined ' ' [v] ++ []] = some ['%' :: v] := by
    unfold combPaired
    simp only [List.append_nil, List.map_cons, List.map_nil, List.foldl_cons, List.foldl_nil]
    rw [words_joined [v] (by simp) (by simpa using ⟨hv.1, hv.2.1⟩)]
    rfl
  rw [e]
  simp only [List.map_cons, List.map_nil]
  congr 2
  obtain ⟨l0, bs, e, h1, -⟩ := hb.split
  have hw := words_comb [v] (by simpa using hv)
  simp only [List.flatMap_cons, List.flatMap_nil, List.append_nil] at hw
  have hfr := fromPlus_file (ds := [(k, [v])]) (u := []) (bs := bs) (by intro x hx; rw [List.mem_singleton] at hx; rw [hx]; exact h.fine) h1
  unfold generate
  simp only
  simp only [List.map_cons, List.map_nil, List.append_nil] at hfr hw ⊢
  rw [hw, e, hfr, ← e, List.map_map]
  refine List.map_congr_left fun line hline => ?_
  show substituteAll [k] [v] (written line) = _
  rw [substituteAll, substituteAll, List.headD_cons]
  unfold substitute
  simp only
  by_cases hp : '+' ∈ v
  · simp only [if_pos hp]
    unfold written filled
    refine congrArg List.flatten (List.map_congr_left fun p _ => ?_)
    cases p with
    | text t => rfl
    | var k' =>
      simp only
      by_cases e : k' = k
      · rw [if_pos e, e]; rfl
      · rw [if_neg e]; rfl
  · simp only [if_neg hp]
    rw [replaceGo_line h.fine.1 _ line (hb.clean line hline)]
    unfold putIn filled
    refine congrArg List.flatten (List.map_congr_left fun p _ => ?_)
    cases p with
    | text t => rfl
    | var k' =>
      simp only
      by_cases e : k' = k
      · rw [if_pos e, if_pos e, written_var]; rfl
      · rw [if_neg e, if_neg e]; rfl

end Verif.Magic

import Verif.Skel.Lemmas

/-!
# Reading of edited skeletons (C232)
-/

namespace Verif.Skel

open Verif.Str (Out)
open Verif.Param (Par Kind Val parseFile given_append rank_lt)
open Verif.Param.Spec

/-- The number of earlier registered parameters with a name. -/
def before (regs : List Reg) (j : Nat) (name : String) : Nat := ((regs.take j).filter fun r => r.name = name).length

/-- Each registered parameter has its own entry, single values have one entry only, dates are known. -/
def fits (regs : List Reg) (es : List Entry) : Bool :=
  regs.length == es.length && es.all Entry.clean && regs.zipIdx.all fun x =>
    decide (before regs x.2 x.1.name < (slots x.1.name 0 es).length) && (x.1.vec || (slots x.1.name 0 es).length == 1) &&
    (match x.1.kind with | .date _ _ => Spec.dates.contains x.1.name | _ => true)

theorem rank_before (f d : ℚ → ℚ) (regs : List Reg) (j : Nat) (name : String) :
    rank (regs.map (Reg.par f d)) j name.toList = before regs j name := by
  unfold rank before
  rw [← List.map_take, List.filter_map, List.length_map]
  congr 2
  funext r
  simp [Reg.par, String.toList_inj]

theorem before_lt (regs : List Reg) (i j : Nat) (r : Reg) (hr : regs[i]? = some r) (hij : i < j) :
    before regs i r.name < before regs j r.name := by
  have := rank_lt (regs.map (Reg.par id id)) r.name.toList i j (Reg.par id id r) (by simp [hr]) rfl hij
  rwa [rank_before, rank_before] at this

theorem fits_spec (regs : List Reg) (es : List Entry) (h : fits regs es = true) :
    regs.length = es.length ∧ (∀ e ∈ es, e.clean = true) ∧ ∀ j r, regs[j]? = some r →
      before regs j r.name < (slots r.name 0 es).length ∧ (r.vec = true ∨ (slots r.name 0 es).length = 1) ∧
      (∀ lo hi, r.kind = .date lo hi → r.name ∈ Spec.dates) := by
  unfold fits at h
  simp only [Bool.and_eq_true, beq_iff_eq, List.all_eq_true] at h
  obtain ⟨⟨h1, h2⟩, h3⟩ := h
  refine ⟨h1, h2, fun j r hr => ?_⟩
  have := h3 (r, j) (by
    rw [List.mem_zipIdx_iff_getElem?]
    exact hr)
  simp only [decide_eq_true_eq, Bool.or_eq_true, beq_iff_eq] at this
  refine ⟨this.1.1, this.1.2, fun lo hi e => ?_⟩
  have h4 := this.2
  rw [e] at h4
  simpa using h4

theorem fits_registry (f d : ℚ → ℚ) (regs : List Reg) (es : List Entry) (h : fits regs es = true) :
    Registry (regs.map (Reg.par f d)) := by
  obtain ⟨-, -, h3⟩ := fits_spec regs es h
  constructor
  · intro p hp
    obtain ⟨r, -, rfl⟩ := List.mem_map.1 hp
    exact ⟨rfl, rfl⟩
  · have key : ∀ (i j : Nat) r s, regs[i]? = some r → regs[j]? = some s → i < j → r.name = s.name →
        r.vec = true ∧ s.vec = true := by
      intro i j r s hr hs hij hn
      have b := before_lt regs i j r hr hij
      have c := h3 j s hs
      have c' := h3 i r hr
      rw [hn] at b c'
      constructor
      · rcases c'.2.1 with h | h
        · exact h
        · have := c.1; omega
      · rcases c.2.1 with h | h
        · exact h
        · have := c.1; omega
    intro i j p q hp hq hij hn
    rw [List.getElem?_map] at hp hq
    obtain ⟨r, hr, rfl⟩ := Option.map_eq_some_iff.1 hp
    obtain ⟨s, hs, rfl⟩ := Option.map_eq_some_iff.1 hq
    have hn' : r.name = s.name := String.toList_inj.1 hn
    rcases Nat.lt_or_gt_of_ne hij with hlt | hlt
    · exact (key i j r s hr hs hlt hn').1
    · exact (key j i s r hs hr hlt hn'.symm).2

/-- The number of the entry of a registered parameter. -/
def place (regs : List Reg) (es : List Entry) (j : Nat) : Nat :=
  ((regs[j]?.map fun r => (slots r.name 0 es).getD (before regs j r.name) 0).getD 0)

theorem place_spec (regs : List Reg) (es : List Entry) (h : fits regs es = true) (j : Nat) (r : Reg)
    (hr : regs[j]? = some r) :
    (slots r.name 0 es)[before regs j r.name]? = some (place regs es j) ∧
    ∃ e, es[place regs es j]? = some e ∧ e.key = r.name := by
  obtain ⟨h1, -, -⟩ := (fits_spec regs es h).2.2 j r hr
  have e1 : (slots r.name 0 es)[before regs j r.name]? = some (place regs es j) := by
    unfold place
    rw [hr]
    simp [List.getElem?_eq_getElem h1]
  refine ⟨e1, ?_⟩
  obtain ⟨-, e, h2, h3⟩ := slots_mem r.name 0 es _ (List.mem_of_getElem? e1)
  exact ⟨e, by simpa using h2, h3⟩

theorem place_lt (regs : List Reg) (es : List Entry) (h : fits regs es = true) (i j : Nat) (r s : Reg)
    (hr : regs[i]? = some r) (hs : regs[j]? = some s) (hij : i < j) (hn : r.name = s.name) :
    place regs es i < place regs es j := by
  have a := (place_spec regs es h i r hr).1
  have b := (place_spec regs es h j s hs).1
  have c := before_lt regs i j r hr hij
  rw [← hn] at b
  obtain ⟨ha, ea⟩ := List.getElem?_eq_some_iff.1 a
  obtain ⟨hb, eb⟩ := List.getElem?_eq_some_iff.1 b
  rw [← ea, ← eb]
  exact List.pairwise_iff_getElem.1 (slots_sorted r.name 0 es) _ _ ha hb c

theorem place_inj (regs : List Reg) (es : List Entry) (h : fits regs es = true) (i j : Nat) (r s : Reg)
    (hr : regs[i]? = some r) (hs : regs[j]? = some s) (he : place regs es i = place regs es j) : i = j := by
  obtain ⟨e, e1, e2⟩ := (place_spec regs es h i r hr).2
  obtain ⟨e', e3, e4⟩ := (place_spec regs es h j s hs).2
  rw [he, e3] at e1
  have e1 := Option.some.inj e1
  have hn : r.name = s.name := by rw [← e2, ← e4, e1]
  by_contra hne
  rcases Nat.lt_or_gt_of_ne hne with hlt | hlt
  · have := place_lt regs es h i j r s hr hs hlt hn; omega
  · have := place_lt regs es h j i s r hs hr hlt hn.symm; omega

/-- What is read from a file with a skeleton's entries. -/
def Result (f d : ℚ → ℚ) (regs : List Reg) (es : List Entry) (val : Nat → List Char) (ps : List Par) : Prop :=
  ps.length = es.length ∧ ∀ j p, ps[j]? = some p → ∃ r, regs[j]? = some r ∧ p.name = r.name.toList ∧
    p.kind = r.kind.kind f d ∧ p.vector = r.vec ∧ p.expected = r.expected ∧ p.set = true ∧
    ReadAs p.kind p.vector (words (val (place regs es j))) p.values

theorem words_length (v : List Char) (t : List Char) (ht : t ∈ words v) : t.length ≤ v.length := by
  have : t <:+: v := by
    have h := Param.tokens_words v
    rw [← h] at ht
    clear h
    induction hn : v.length using Nat.strong_induction_on generalizing v with
    | _ n ih =>
      rw [Param.tokens] at ht
      split at ht
      · simp at ht
      · rename_i t' r e
        have hlen := Param.strtok_length e
        have hsub : t' <:+: v ∧ r <:+: v := by
          unfold Libc.strtok at e
          split at e
          · simp at e
          · rename_i c cs e2
            have e3 := Prod.mk.inj (Option.some.inj e)
            have hd : (c :: cs) <:+: v := by
              rw [← e2]; exact (List.dropWhile_suffix _).isInfix
            refine ⟨?_, ?_⟩
            · rw [← e3.1]; exact (List.takeWhile_prefix _).isInfix.trans hd
            · rw [← e3.2]
              exact ((List.drop_suffix _ _).isInfix.trans (List.dropWhile_suffix _).isInfix).trans hd
        rcases List.mem_cons.1 ht with rfl | ht
        · exact hsub.1
        · exact (ih r.length (by omega) r ht rfl).trans hsub.2
  exact this.length_le

theorem core (f d : ℚ → ℚ) (regs : List Reg) (es : List Entry) (h : fits regs es = true) (note : Nat → List (List Char))
    (val : Nat → List Char) (he : Spec.Edited es note val) (x y : List Char) (hx : words (content x) = [x] ∨ x = [])
    (hxl : '\n' ∉ x ∧ x.length ≤ 100) (hy : words (content y) = [y]) (hyl : '\n' ∉ y ∧ y.length ≤ 100) :
    ∃ ps, parseFile (regs.map (Reg.par f d)) (Param.fileText (x :: body note val 0 es ++ [[], y])) = .ok ps ∧
      Result f d regs es val ps := by
  obtain ⟨hlen, hc, h3⟩ := fits_spec regs es h
  have hv : ∀ j, 0 ≤ j → j < 0 + es.length → Spec.Value (val j) := fun j _ hj => he.values j (by omega)
  have hl : ∀ l ∈ x :: body note val 0 es ++ [[], y], '\n' ∉ l ∧ l.length + 1 < 65536 := by
    intro l hl
    simp only [List.cons_append, List.mem_cons, List.mem_append, List.not_mem_nil, or_false] at hl
    rcases hl with rfl | hl | rfl | rfl
    · exact ⟨hxl.1, by omega⟩
    · have := body_lines note val es 0 hc he.notes hv l hl
      exact ⟨this.1, by omega⟩
    · simp
    · exact ⟨hyl.1, by omega⟩
  have hg : ∀ name : String, given name.toList (x :: body note val 0 es ++ [[], y]) =
      (slots name 0 es).map fun j => words (val j) := by
    intro name
    rw [show x :: body note val 0 es ++ [[], y] = [x] ++ (body note val 0 es ++ [[], y]) by simp, given_append,
      given_append, given_body note val name es 0 hc he.notes hv]
    have g1 : given name.toList [x] = [] := by
      unfold given
      rcases hx with h | rfl
      · simp [h]
      · rfl
    have g2 : given name.toList [[], y] = [] := by
      unfold given
      rw [List.filterMap_cons, List.filterMap_cons, hy]
      rfl
    rw [g1, g2]
    simp
  have hreg := fits_registry f d regs es h
  obtain ⟨ps, hps⟩ := Param.c34_readable _ hreg _ hl (by
    intro i p0 ts h0 hts t ht
    rw [List.getElem?_map] at h0
    obtain ⟨r, hr, rfl⟩ := Option.map_eq_some_iff.1 h0
    rw [show (Reg.par f d r).name = r.name.toList from rfl, hg, rank_before, List.getElem?_map,
      (place_spec regs es h i r hr).1] at hts
    simp only [Option.map_some, Option.some.injEq] at hts
    subst hts
    obtain ⟨e, e1, e2⟩ := (place_spec regs es h i r hr).2
    show Readable (r.kind.kind f d) t
    cases hk : r.kind with
    | date lo hi =>
      exact he.dates _ e e1 (e2 ▸ (h3 i r hr).2.2 lo hi hk) t ht
    | char c =>
      have hv1 := (he.values _ (List.getElem?_eq_some_iff.1 e1).1).2.2.2.2
      have := words_length _ t ht
      show t.length < 1024
      omega
    | _ => trivial)
  refine ⟨ps, hps, ?_⟩
  obtain ⟨l1, l2⟩ := Param.c34_parse _ _ hreg _ hl hps
  rw [List.length_map] at l1
  refine ⟨l1.trans hlen, fun j p hp => ?_⟩
  have hj := (List.getElem?_eq_some_iff.1 hp).1
  have hr : regs[j]? = some (regs[j]'(by omega)) := List.getElem?_eq_getElem _
  generalize regs[j]'(by omega) = r at hr
  refine ⟨r, hr, ?_⟩
  obtain ⟨p', q1, q2, q3, q4, q5, q6⟩ := l2 j (Reg.par f d r) (by simp [hr])
  rw [hp] at q1
  have q1 := Option.some.inj q1
  subst q1
  rw [show (Reg.par f d r).name = r.name.toList from rfl, hg, rank_before, List.getElem?_map,
    (place_spec regs es h j r hr).1] at q6
  simp only [Option.map_some] at q6
  exact ⟨q2, q3, q4, q5, q6.1, q6.2⟩

/-! ## All modules -/

/-- In the skeleton: lines with features and models. -/
def Mod.features (m : Mod) : Nat := (slots "INPUT_FEATURE" 0 (entries m)).length
def Mod.models (m : Mod) : Nat := (slots "FILE_MODEL" 0 (entries m)).length

set_option maxRecDepth 100000 in
theorem fits_all (m : Mod) : fits (m.regs m.features m.models) (entries m) = true := by
  cases m <;> decide +kernel

end Verif.Skel

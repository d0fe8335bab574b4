import Verif.Skel.Read

/-!
# Comments of skeletons (C232) and default values (C233)
-/

namespace Verif.Skel

open Verif.Str (Out)
open Verif.Param (Par Kind Val parseFile parseVal parseAll valError FVal atofX CharTest)
open Verif.Param.Spec

/-! ## Comments -/

theorem readAs_unique (k : Kind) (vec : Bool) (ts : List (List Char)) (a b : List Val) (ha : ReadAs k vec ts a)
    (hb : ReadAs k vec ts b) : a = b := by
  unfold ReadAs at ha hb
  split at ha
  · rename_i hv
    rw [if_pos hv] at hb
    apply List.ext_getElem (by omega)
    intro i h1 h2
    have x := ha.2 i (ts[i]'(by omega)) a[i] (List.getElem?_eq_getElem _) (List.getElem?_eq_getElem _)
    have y := hb.2 i (ts[i]'(by omega)) b[i] (List.getElem?_eq_getElem _) (List.getElem?_eq_getElem _)
    rw [x] at y
    exact Out.ok.inj y
  · rename_i hv
    rw [if_neg hv] at hb
    obtain ⟨t, v, h1, h2, h3⟩ := ha
    obtain ⟨t', v', h1', h2', h3'⟩ := hb
    rw [h1] at h1'
    have := Option.some.inj h1'
    subst this
    rw [h3] at h3'
    rw [h2, h2', Out.ok.inj h3']

theorem result_unique (f d : ℚ → ℚ) (regs : List Reg) (es : List Entry) (val : Nat → List Char) (ps qs : List Par)
    (hp : Result f d regs es val ps) (hq : Result f d regs es val qs) : ps = qs := by
  apply List.ext_getElem (hp.1.trans hq.1.symm)
  intro j h1 h2
  obtain ⟨r, a1, a2, a3, a4, a5, a6, a7⟩ := hp.2 j ps[j] (List.getElem?_eq_getElem _)
  obtain ⟨s, b1, b2, b3, b4, b5, b6, b7⟩ := hq.2 j qs[j] (List.getElem?_eq_getElem _)
  rw [a1] at b1
  have := Option.some.inj b1
  subst this
  rw [a3, a4] at a7
  rw [b3, b4] at b7
  have hv := readAs_unique _ _ _ _ _ a7 b7
  generalize ps[j] = p at *
  generalize qs[j] = q at *
  obtain ⟨p1, p2, p3, p4, p5, p6⟩ := p
  obtain ⟨q1, q2, q3, q4, q5, q6⟩ := q
  simp only at a2 a3 a4 a5 a6 b2 b3 b4 b5 b6 hv
  subst a2 a3 a4 a5 a6 b2 b3 b4 b5 b6 hv
  rfl

/-- C232: the comments do not matter: what a program reads from a skeleton depends on the values only, so compact and
verbose skeletons are the same to it. -/
theorem c232_comments (m : Mod) (f d : ℚ → ℚ) (note note' : Nat → List (List Char)) (val : Nat → List Char)
    (he : Spec.Edited (entries m) note val) (he' : Spec.Edited (entries m) note' val) :
    m.read f d (skeleton m.tag (entries m) note val) = m.read f d (skeleton m.tag (entries m) note' val) := by
  obtain ⟨ps, h1, h2⟩ := read_skeleton m f d note val he
  obtain ⟨qs, h3, h4⟩ := read_skeleton m f d note' val he'
  rw [h1, h3, result_unique f d _ _ val ps qs h2 h4]

/-! ## Defaults -/

/-- Values of the skeletons are readable. -/
def Entry.fine (e : Entry) : Bool :=
  (words e.value.toList ≠ [] : Bool) && e.value.toList.all (fun c => c != '#' && c != '\r' && c != '\n') &&
  decide (e.value.toList.length ≤ 900) &&
  (!Spec.dates.contains e.key || (words e.value.toList).all fun t => decide (8 ≤ t.length))

theorem fine_all (m : Mod) : (entries m).all Entry.fine = true := by cases m <;> decide +kernel

theorem default_edited (m : Mod) (note : Nat → List (List Char)) (hn : ∀ i, ∀ l ∈ note i, Spec.Comment l) :
    Spec.Edited (entries m) note (Spec.default (entries m)) := by
  have h := fine_all m
  rw [List.all_eq_true] at h
  have hd : ∀ i e, (entries m)[i]? = some e → Spec.default (entries m) i = e.value.toList := by
    intro i e he
    unfold Spec.default
    rw [he]; rfl
  have hf : ∀ (i : Nat) (e : Entry), (entries m)[i]? = some e → e.fine = true := fun i e he => h e (List.mem_of_getElem? he)
  have hx : ∀ e : Entry, e.fine = true → Spec.Value e.value.toList ∧
      (e.key ∈ Spec.dates → ∀ t ∈ words e.value.toList, 8 ≤ t.length) := by
    intro e he
    unfold Entry.fine at he
    simp only [Bool.and_eq_true, decide_eq_true_eq, List.all_eq_true, bne_iff_ne, ne_eq, Bool.or_eq_true,
      Bool.not_eq_true', List.contains_eq_mem, decide_eq_false_iff_not] at he
    obtain ⟨⟨⟨h1, h2⟩, h3⟩, h4⟩ := he
    refine ⟨⟨h1, fun h => (h2 _ h).1.1 rfl, fun h => (h2 _ h).1.2 rfl, fun h => (h2 _ h).2 rfl, h3⟩, fun hk => ?_⟩
    rcases h4 with h4 | h4
    · exact absurd hk h4
    · exact h4
  refine ⟨hn, fun i hi => ?_, fun i e he hk => ?_⟩
  · have he := List.getElem?_eq_getElem hi
    rw [hd i _ he]
    exact (hx _ (hf i _ he)).1
  · rw [hd i e he]
    exact (hx e (hf i e he)).2 hk

/-- The text of a value passes the check, without rounding and with no files. -/
def textOk (k : RKind) (t : List Char) : Bool :=
  match parseVal (k.kind id id) t with
  | .ok v => !valError (fun _ => false) (k.kind id id) v && (match k with | .char .notExist => t == "NULL".toList | _ => true) &&
      (match v with | .float (.num _) => true | .float _ => false | _ => true)
  | _ => false

/-- The default of a parameter passes the check. -/
def passes (r : Reg) (ws : List (List Char)) : Bool :=
  if r.vec then (decide (ws ≠ []) && (decide (r.expected ≤ 0) || decide ((ws.length : ℤ) = r.expected))) && ws.all (textOk r.kind)
  else (ws.take 1).all (textOk r.kind)

theorem atofX_round (f : ℚ → ℚ) (s : List Char) (q : ℚ) (h : atofX id s = .num q) : atofX f s = .num (f q) := by
  have h3 : Libc.atof f (s.dropWhile Date.isSpace) = f (Libc.atof id (s.dropWhile Date.isSpace)) := by
    unfold Libc.atof
    split <;> rfl
  have key : ∀ x : Bool × List Char,
      (if (x.2.take 3).map Char.toLower = ['n', 'a', 'n'] then FVal.nan
        else if (x.2.take 3).map Char.toLower = ['i', 'n', 'f'] then (if x.1 then FVal.negInf else FVal.posInf)
        else .num (Libc.atof id (s.dropWhile Date.isSpace))) = .num q →
      (if (x.2.take 3).map Char.toLower = ['n', 'a', 'n'] then FVal.nan
        else if (x.2.take 3).map Char.toLower = ['i', 'n', 'f'] then (if x.1 then FVal.negInf else FVal.posInf)
        else .num (Libc.atof f (s.dropWhile Date.isSpace))) = .num (f q) := by
    intro x h
    split at h
    · cases h
    · rename_i h1
      rw [if_neg h1]
      split at h
      · split at h <;> cases h
      · rename_i h2
        rw [if_neg h2, h3]
        rw [FVal.num.injEq] at h
        rw [h]
  exact key _ h

theorem text_admissible (f d : ℚ → ℚ) (hf : Monotone f) (hd : Monotone d) (fileexist : List Char → Bool)
    (hnull : fileexist "NULL".toList = false) (k : RKind) (hk : k ≠ .char .exist) (t : List Char) (v : Val)
    (ht : textOk k t = true) (hv : parseVal (k.kind f d) t = .ok v) : Admissible fileexist (k.kind f d) v := by
  unfold textOk at ht
  have num : ∀ (g : ℚ → ℚ) (lo hi : ℚ), Monotone g →
      (match parseVal (.float id (.num (id lo)) (.num (id hi))) t with
        | .ok v => !valError (fun _ => false) (.float id (.num (id lo)) (.num (id hi))) v && true &&
          (match v with | .float (.num _) => true | .float _ => false | _ => true)
        | _ => false) = true →
      parseVal (.float g (.num (g lo)) (.num (g hi))) t = .ok v → Admissible fileexist (.float g (.num (g lo)) (.num (g hi))) v := by
    intro g lo hi hg h1 h2
    simp only [parseVal, Bool.and_true, Bool.and_eq_true, Bool.not_eq_true'] at h1
    simp only [parseVal, Out.ok.injEq] at h2
    subst h2
    cases hx : atofX id t with
    | num q =>
      rw [hx] at h1
      rw [atofX_round g t q hx]
      have h3 := h1.1
      simp only [valError, Param.floatError, FVal.lt, Bool.or_eq_false_iff, decide_eq_false_iff_not, not_lt] at h3
      exact ⟨hg h3.1, hg h3.2⟩
    | posInf => rw [hx] at h1; simp at h1
    | negInf => rw [hx] at h1; simp at h1
    | nan => rw [hx] at h1; simp at h1
  cases k with
  | float lo hi => exact num f lo hi hf ht hv
  | double lo hi => exact num d lo hi hd ht hv
  | int lo hi =>
    rw [show (RKind.int lo hi).kind id id = (RKind.int lo hi).kind f d from rfl, hv] at ht
    simp only [Bool.and_eq_true, Bool.not_eq_true'] at ht
    refine (Param.valError_iff fileexist (RKind.kind f d (.int lo hi)) v (by exact trivial) ?_).1 ?_
    · rintro rfl; simp at ht
    · cases v <;> exact ht.1.1
  | enum tags =>
    rw [show (RKind.enum tags).kind id id = (RKind.enum tags).kind f d from rfl, hv] at ht
    simp only [Bool.and_eq_true, Bool.not_eq_true'] at ht
    refine (Param.valError_iff fileexist (RKind.kind f d (.enum tags)) v (by exact trivial) ?_).1 ?_
    · rintro rfl; simp at ht
    · cases v <;> exact ht.1.1
  | date lo hi =>
    rw [show (RKind.date lo hi).kind id id = (RKind.date lo hi).kind f d from rfl, hv] at ht
    simp only [Bool.and_eq_true, Bool.not_eq_true'] at ht
    refine (Param.valError_iff fileexist (RKind.kind f d (.date lo hi)) v (by exact trivial) ?_).1 ?_
    · rintro rfl; simp at ht
    · cases v <;> exact ht.1.1
  | char c =>
    rw [show (RKind.char c).kind id id = (RKind.char c).kind f d from rfl, hv] at ht
    simp only [RKind.kind, parseVal] at hv
    split at hv
    · have hv := Out.ok.inj hv
      subst hv
      simp only [RKind.kind, valError, Bool.and_eq_true, Bool.not_eq_true', Param.charError] at ht
      cases c with
      | exist => exact absurd rfl hk
      | nullOrExist =>
        refine .inl ?_
        simpa using ht.1.1
      | notExist =>
        have := ht.1.2
        simp only [beq_iff_eq] at this
        show fileexist t = false
        rw [this]; exact hnull
      | none => trivial
      | base =>
        have := ht.1.1
        simp only at this
        split at this
        · cases this
        · rename_i h
          exact ⟨by simpa using h, by simpa using this⟩
      | nullOrBase =>
        have := ht.1.1
        simp only at this
        show t = "NULL".toList ∨ _
        by_cases h0 : t = "NULL".toList
        · exact .inl h0
        · rw [if_pos h0] at this
          split at this
          · cases this
          · rename_i h
            exact .inr ⟨by simpa using h, by simpa using this⟩
    · cases hv

/-- The parameters without a default that works: input that the user has to name. -/
def mustName (r : Reg) : Bool := (match r.kind with | .char .exist => true | _ => false) || r.name == "BASE_COARSE"

set_option maxRecDepth 100000 in
theorem pass_all (m : Mod) : ((m.regs m.features m.models).zipIdx.all fun x =>
    mustName x.1 || (x.1.name == "BASE_LSP") ||
      passes x.1 (words (Spec.default (entries m) (place (m.regs m.features m.models) (entries m) x.2)))) = true := by
  cases m <;> decide +kernel

/-- C233 (partial: not for BASE_LSP of Level 3): if no file is called NULL, the values of all parameters of an
unedited skeleton pass the check of the program, whatever its comments and however numbers are rounded (in order).
Exceptions are the input files and directories that have to exist, and the coarse data of CFIMP. -/
theorem c233_default_partial (m : Mod) (f d : ℚ → ℚ) (hf : Monotone f) (hd : Monotone d) (note : Nat → List (List Char))
    (hn : ∀ i, ∀ l ∈ note i, Spec.Comment l) (fileexist : List Char → Bool) (hnull : fileexist "NULL".toList = false) :
    ∃ ps, m.read f d (skeleton m.tag (entries m) note (Spec.default (entries m))) = .ok ps ∧
      ∀ p ∈ ps, p.kind ≠ .char .exist → p.name ≠ "BASE_COARSE".toList → p.name ≠ "BASE_LSP".toList → Complete fileexist p := by
  obtain ⟨ps, h1, h2⟩ := read_skeleton m f d note _ (default_edited m note hn)
  refine ⟨ps, h1, fun p hp hk hc hb => ?_⟩
  obtain ⟨j, hj, e⟩ := List.getElem_of_mem hp
  obtain ⟨r, a1, a2, a3, a4, a5, a6, a7⟩ := h2.2 j p (by rw [List.getElem?_eq_getElem hj, e])
  have hall := pass_all m
  rw [List.all_eq_true] at hall
  have h := hall (r, j) (by rw [List.mem_zipIdx_iff_getElem?]; exact a1)
  have hkr : r.kind ≠ .char .exist := by
    intro h; rw [h] at a3; exact hk a3
  have h0 : mustName r = false := by
    unfold mustName
    rw [Bool.or_eq_false_iff]
    constructor
    · split
      · rename_i h; exact absurd h hkr
      · rfl
    · rw [beq_eq_false_iff_ne]
      rintro h; rw [h] at a2; exact hc a2
  have h9 : (r.name == "BASE_LSP") = false := by
    rw [beq_eq_false_iff_ne]
    rintro h; rw [h] at a2; exact hb a2
  simp only [h0, h9, Bool.false_or] at h
  generalize words (Spec.default (entries m) (place (m.regs m.features m.models) (entries m) j)) = ws at h a7
  have adm : ∀ t v, textOk r.kind t = true → parseVal p.kind t = .ok v → Admissible fileexist p.kind v := by
    intro t v h1 h2
    rw [a3] at h2 ⊢
    exact text_admissible f d hf hd fileexist hnull r.kind hkr t v h1 h2
  unfold passes at h
  unfold ReadAs at a7
  refine ⟨a6, fun hv => ?_, ?_⟩
  · rw [if_pos hv] at a7
    rw [if_pos (a4 ▸ hv)] at h
    simp only [Bool.and_eq_true, decide_eq_true_eq, Bool.or_eq_true] at h
    refine ⟨?_, fun he => ?_⟩
    · intro hnil
      rw [hnil] at a7
      exact h.1.1 (List.length_eq_zero_iff.1 a7.1)
    · rw [a5] at he ⊢
      rcases h.1.2 with h | h
      · omega
      · rw [← h, a7.1]
  · intro v hv
    split at a7
    · rename_i hvec
      rw [if_pos (a4 ▸ hvec)] at h
      simp only [Bool.and_eq_true, List.all_eq_true] at h
      obtain ⟨i, hi, e⟩ := List.getElem_of_mem hv
      have hi' : i < ws.length := by omega
      exact adm ws[i] v (h.2 _ (List.getElem_mem hi')) (a7.2 i _ v (List.getElem?_eq_getElem hi') (by
        rw [List.getElem?_eq_getElem hi, e]))
    · rename_i hvec
      rw [if_neg (a4 ▸ hvec)] at h
      obtain ⟨t, v', b1, b2, b3⟩ := a7
      rw [b2, List.mem_singleton] at hv
      subst hv
      cases ws with
      | nil => cases b1
      | cons w ws =>
        have b1 := Option.some.inj b1
        subst b1
        simp only [List.take_succ_cons, List.take_zero, List.all_cons, List.all_nil, Bool.and_true] at h
        exact adm _ _ h b3

/-- C233, violated: the default of BASE_LSP is one name, but the program wants three: Level 3 processing refuses
every parameter file in which this line of the skeleton was not replaced, although the names are not used unless
LSP_DO is set, and whatever the other values are. -/
theorem c233_lsp_violated (f d : ℚ → ℚ) (note : Nat → List (List Char)) (val : Nat → List Char) (fileexist : List Char → Bool)
    (he : Spec.Edited (entries .level3) note val)
    (hb : ∀ i e, (entries .level3)[i]? = some e → e.key = "BASE_LSP" → val i = e.value.toList) :
    ∃ ps, Mod.level3.read f d (skeleton "LEVEL3" (entries .level3) note val) = .ok ps ∧
      Param.checkParameter fileexist ps = false := by
  obtain ⟨ps, h1, h2⟩ := read_skeleton .level3 f d note val he
  refine ⟨ps, h1, ?_⟩
  have hr : ∃ j : Fin (Mod.level3.regs (Mod.level3.features) (Mod.level3.models)).length,
      (Mod.level3.regs (Mod.level3.features) (Mod.level3.models))[j].name = "BASE_LSP" ∧
      (Mod.level3.regs (Mod.level3.features) (Mod.level3.models))[j].vec = true ∧
      (Mod.level3.regs (Mod.level3.features) (Mod.level3.models))[j].expected = 3 := by decide +kernel
  obtain ⟨j, r1, r2, r3⟩ := hr
  have fit := fits_all .level3
  have hlen := (fits_spec _ _ fit).1
  have hj : j.val < ps.length := by rw [h2.1, ← hlen]; exact j.isLt
  obtain ⟨r, a1, a2, a3, a4, a5, a6, a7⟩ := h2.2 j ps[j.val] (List.getElem?_eq_getElem hj)
  have hr0 := List.getElem?_eq_getElem (l := Mod.level3.regs (Mod.level3.features) (Mod.level3.models)) j.isLt
  rw [hr0] at a1
  have a1 := Option.some.inj a1
  obtain ⟨e, e1, e2⟩ := (place_spec _ _ fit j.val _ hr0).2
  have e3 := e2.trans r1
  have hval := hb _ e e1 e3
  have hdef : ∀ e ∈ entries .level3, e.key = "BASE_LSP" → (words e.value.toList).length = 1 := by decide +kernel
  have hone := hdef e (List.mem_of_getElem? e1) e3
  rw [← hval] at hone
  have hv : (ps[j.val]).vector = true := by rw [a4, ← a1]; exact r2
  have hx : (ps[j.val]).expected = 3 := by rw [a5, ← a1]; exact r3
  unfold ReadAs at a7
  rw [if_pos hv, hone] at a7
  have err : Param.parError fileexist ps[j.val] = 1 := by
    unfold Param.parError
    rw [if_neg (by rw [a6]; decide), if_neg (by rw [← a7.1]; simp), if_pos (by rw [hv, hx, ← a7.1]; decide)]
  have tot : ∀ (l : List Par), ∀ p ∈ l, Param.parError fileexist p = 1 → 0 < Param.totalErrors fileexist l := by
    intro l
    induction l with
    | nil => intro p hp; cases hp
    | cons q l ih =>
      intro p hp h
      rw [Param.totalErrors]
      rcases List.mem_cons.1 hp with rfl | hp
      · omega
      · have := ih p hp h; omega
  unfold Param.checkParameter
  have := tot ps _ (List.getElem_mem hj) err
  simpa using this

-- the unedited skeleton of each module, compact or with a comment before each line
example (m : Mod) : Spec.Edited (entries m) (fun _ => []) (Spec.default (entries m)) :=
  default_edited m _ (by simp)
example (m : Mod) : Spec.Edited (entries m) (fun _ => [[], "# Type: Integer = 1".toList]) (Spec.default (entries m)) :=
  default_edited m _ (by
    intro i l hl
    simp only [List.mem_cons, List.not_mem_nil, or_false] at hl
    rcases hl with rfl | rfl
    · exact ⟨.inl rfl, by decide, by decide⟩
    · exact ⟨.inr rfl, by decide, by decide⟩)

end Verif.Skel

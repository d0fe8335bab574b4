import Verif.Skel.Default

/-!
# The parameter file of the mixing program (C234)

`python/force-synthmix.py`, lines 116-171.
-/

namespace Verif.Skel

open Verif.Str (Out)

/-! ## Model -/

/-- Characters that `str.strip` removes. Only ASCII. -/
def pySpace (c : Char) : Bool := (9 ≤ c.toNat && c.toNat ≤ 13) || (28 ≤ c.toNat && c.toNat ≤ 32)

/-- `str.strip()`. -/
def strip (s : List Char) : List Char := ((s.dropWhile pySpace).reverse.dropWhile pySpace).reverse

/-- `line.split('=')`. -/
def splitEq (s : List Char) : List (List Char) := s.splitOnP fun c => c == '='

/-- force-synthmix.py:137-145: one line; the dictionary has the last value of a key. -/
def assign (dict : List Char → Option (List Char)) (l : List Char) : List Char → Option (List Char) :=
  if l.head? = some '#' then dict
  else match splitEq l with
    | [k, v] => fun x => if x = strip k then some (strip v) else dict x
    | _ => dict

/-- force-synthmix.py:147-151. -/
def mixKeys : List String :=
  ["FILE_FEATURES", "FILE_RESPONSE", "USE_CLASSES", "SYNTHETIC_MIXTURES", "INCLUDE_ORIGINAL", "MIXING_COMPLEXITY",
   "MIXING_LIKELIHOOD", "WITHIN_CLASS_MIXING", "CLASS_LIKELIHOOD", "ITERATIONS", "TARGET_CLASS", "DIR_MIXES", "BASE_MIXES"]

/-- force-synthmix.py:116-171 `parsePrm`, from the lines of the file. `exit`: the program ends (`exit(1)`, or an
exception if there is no line). -/
def parsePrm (lines : List (List Char)) : Out (List Char → Option (List Char)) :=
  let ls := (lines.filter fun l => strip l ≠ []).map strip
  if ls.head? ≠ some "++PARAM_SYNTHMIX_START++".toList then .exit
  else if ls.getLast? ≠ some "++PARAM_SYNTHMIX_END++".toList then .exit
  else
    let dict := ls.foldl assign fun _ => none
    if mixKeys.any fun k => (dict k.toList).isNone then .exit
    else if ["INCLUDE_ORIGINAL", "WITHIN_CLASS_MIXING"].any fun k =>
      !(["TRUE".toList, "FALSE".toList].map some).contains (dict k.toList) then .exit
    else .ok dict

/-! ## Theorems -/

theorem dropWhile_strip (p : Char → Bool) (a b : List Char) (ha : ∀ c ∈ a, p c = true) :
    (a ++ b).dropWhile p = b.dropWhile p := List.dropWhile_append_of_pos ha

theorem strip_pad (a s b : List Char) (ha : ∀ c ∈ a, pySpace c = true) (hb : ∀ c ∈ b, pySpace c = true) :
    strip (a ++ s ++ b) = strip s := by
  unfold strip
  rw [List.append_assoc, List.dropWhile_append_of_pos ha, List.dropWhile_append]
  split
  · rename_i h
    have h1 : s.dropWhile pySpace = [] := by simpa using h
    have h2 : b.dropWhile pySpace = [] := by
      rw [List.dropWhile_eq_nil_iff]; exact hb
    rw [h1, h2]
  · rw [List.reverse_append, List.dropWhile_append_of_pos (by simpa using hb)]

theorem strip_id (s : List Char) (h1 : ∀ c, s.head? = some c → pySpace c = false)
    (h2 : ∀ c, s.getLast? = some c → pySpace c = false) : strip s = s := by
  have key : ∀ l : List Char, (∀ c, l.head? = some c → pySpace c = false) → l.dropWhile pySpace = l := by
    intro l hl
    cases l with
    | nil => rfl
    | cons c l => rw [List.dropWhile_cons_of_neg (by simp [hl c rfl])]
  unfold strip
  rw [key s h1, key s.reverse (by rw [List.head?_reverse]; exact h2), List.reverse_reverse]

theorem strip_ends (s : List Char) : (∀ c, (strip s).head? = some c → pySpace c = false) ∧
    ∀ c, (strip s).getLast? = some c → pySpace c = false := by
  have key : ∀ l : List Char, ∀ c, (l.dropWhile pySpace).head? = some c → pySpace c = false := by
    intro l c hc
    have := List.head?_dropWhile_not pySpace l
    rw [hc] at this
    simpa using this
  constructor
  · intro c hc
    unfold strip at hc
    rw [List.head?_reverse] at hc
    have hsub : ∀ l : List Char, ∀ c, (l.dropWhile pySpace).getLast? = some c → l.getLast? = some c := by
      intro l c h
      obtain ⟨t, ht⟩ := List.dropWhile_suffix (l := l) pySpace
      rw [← ht, List.getLast?_append, h]; rfl
    have := hsub _ c hc
    rw [List.getLast?_reverse] at this
    exact key s c this
  · intro c hc
    unfold strip at hc
    rw [List.getLast?_reverse] at hc
    exact key _ c hc

theorem split_two (k v : List Char) (hk : '=' ∉ k) (hv : '=' ∉ v) : splitEq (k ++ '=' :: v) = [k, v] := by
  unfold splitEq
  rw [List.splitOnP_append_cons_of_forall_mem (fun x hx => by
    have : x ≠ '=' := fun e => hk (e ▸ hx)
    simp [this]) '=' (by decide)]
  rw [List.splitOnP_eq_singleton (fun x hx => by
    have : x ≠ '=' := fun e => hv (e ▸ hx)
    simp [this])]

theorem split_one (v : List Char) (hv : '=' ∉ v) : splitEq v = [v] := by
  unfold splitEq
  rw [List.splitOnP_eq_singleton (fun x hx => by
    have : x ≠ '=' := fun e => hv (e ▸ hx)
    simp [this])]

theorem split_three (k v : List Char) (hk : '=' ∉ k) (hv : '=' ∈ v) : ∀ a b, splitEq (k ++ '=' :: v) ≠ [a, b] := by
  intro a b h
  obtain ⟨v1, v2, rfl, h1⟩ : ∃ v1 v2, v = v1 ++ '=' :: v2 ∧ '=' ∉ v1 := by
    have := List.append_of_mem hv
    refine ⟨v.takeWhile (· ≠ '='), (v.dropWhile (· ≠ '=')).tail, ?_, ?_⟩
    · have h1 := List.takeWhile_append_dropWhile (p := (· ≠ '=')) (l := v)
      cases hd : v.dropWhile (· ≠ '=') with
      | nil =>
        rw [List.dropWhile_eq_nil_iff] at hd
        have := hd '=' hv
        simp at this
      | cons c t =>
        have h2 := List.head?_dropWhile_not (· ≠ '=') v
        rw [hd] at h2
        simp at h2
        rw [hd, h2] at h1
        simpa using h1.symm
    · intro h
      have := List.mem_takeWhile_imp h
      simp at this
  unfold splitEq at h
  rw [List.splitOnP_append_cons_of_forall_mem (fun x hx => by
    have : x ≠ '=' := fun e => hk (e ▸ hx)
    simp [this]) '=' (by decide), List.splitOnP_append_cons_of_forall_mem (fun x hx => by
    have : x ≠ '=' := fun e => h1 (e ▸ hx)
    simp [this]) '=' (by decide)] at h
  simp only [List.cons.injEq] at h
  exact List.splitOnP_ne_nil _ v2 h.2.2

theorem strip_decomp (v : List Char) : ∃ a b, v = a ++ strip v ++ b ∧ (∀ c ∈ a, pySpace c = true) ∧ ∀ c ∈ b, pySpace c = true := by
  refine ⟨v.takeWhile pySpace, ((v.dropWhile pySpace).reverse.takeWhile pySpace).reverse, ?_, ?_, ?_⟩
  · unfold strip
    rw [List.append_assoc, ← List.reverse_append, List.takeWhile_append_dropWhile, List.reverse_reverse,
      List.takeWhile_append_dropWhile]
  · exact fun c hc => List.mem_takeWhile_imp hc
  · intro c hc
    exact List.mem_takeWhile_imp (List.mem_reverse.1 hc)

/-- Key and separator of an entry for the mixing program. -/
def Entry.mixClean (e : Entry) : Bool :=
  e.sep == " = " && (e.key.toList ≠ [] : Bool) && e.key.toList.all (fun c => c != '=' && c != '#' && !pySpace c)

theorem mem_strip (c : Char) (v : List Char) (hc : pySpace c = false) : c ∈ strip v ↔ c ∈ v := by
  obtain ⟨a, b, h, ha, hb⟩ := strip_decomp v
  constructor
  · intro h'
    rw [h]; simp [h']
  · intro h'
    rw [h] at h'
    simp only [List.mem_append] at h'
    rcases h' with (h' | h') | h'
    · rw [ha c h'] at hc; cases hc
    · exact h'
    · rw [hb c h'] at hc; cases hc

theorem line_assign (e : Entry) (he : e.mixClean = true) (v : List Char) (hv : strip v ≠ [])
    (dict : List Char → Option (List Char)) :
    strip (line e v) ≠ [] ∧ assign dict (strip (line e v)) =
      if '=' ∈ v then dict else fun x => if x = e.key.toList then some (strip v) else dict x := by
  unfold Entry.mixClean at he
  simp only [Bool.and_eq_true, beq_iff_eq, decide_eq_true_eq, List.all_eq_true, bne_iff_ne, ne_eq, Bool.not_eq_true'] at he
  obtain ⟨⟨h1, h2⟩, h3⟩ := he
  obtain ⟨a, b, hd, ha, hb⟩ := strip_decomp v
  obtain ⟨s1, s2⟩ := strip_ends v
  have hmem := mem_strip '=' v (by decide)
  generalize hs : strip v = s at *
  obtain ⟨c, k, hk⟩ := List.exists_cons_of_ne_nil h2
  have el : strip (line e v) = e.key.toList ++ [' '] ++ '=' :: (' ' :: a ++ s) := by
    have x : line e v = [] ++ (e.key.toList ++ [' '] ++ '=' :: (' ' :: a ++ s)) ++ b := by
      unfold line
      rw [h1, hd, show " = ".toList = [' ', '=', ' '] by decide]
      simp
    rw [x, strip_pad _ _ _ (by simp) hb, strip_id]
    · intro d hdd
      rw [hk] at hdd
      simp only [List.cons_append, List.head?_cons, Option.some.injEq] at hdd
      subst hdd
      exact (h3 c (by rw [hk]; simp)).2
    · intro d hdd
      rw [show e.key.toList ++ [' '] ++ '=' :: (' ' :: a ++ s) = (e.key.toList ++ [' '] ++ '=' :: (' ' :: a)) ++ s by simp,
        List.getLast?_append] at hdd
      cases hg : s.getLast? with
      | none => exact absurd (List.getLast?_eq_none_iff.1 hg) hv
      | some y =>
        rw [hg] at hdd
        simp only [Option.some_or, Option.some.injEq] at hdd
        subst hdd
        exact s2 y hg
  have hka : '=' ∉ e.key.toList ++ [' '] := by
    intro h
    rcases List.mem_append.1 h with h | h
    · exact (h3 _ h).1.1 rfl
    · simp at h
  have haa : '=' ∉ a := fun h => by have := ha _ h; revert this; decide
  refine ⟨by rw [el]; simp, ?_⟩
  rw [el]
  unfold assign
  rw [if_neg (by
    rw [hk]
    simp only [List.cons_append, List.head?_cons, Option.some.injEq]
    exact (h3 c (by rw [hk]; simp)).1.2)]
  by_cases hq : '=' ∈ v
  · rw [if_pos hq]
    have := split_three (e.key.toList ++ [' ']) (' ' :: a ++ s) hka (by simp [hmem.2 hq])
    split
    · rename_i x y h; exact absurd h (this x y)
    · rfl
  · rw [if_neg hq, split_two _ _ hka (by
      intro h
      simp only [List.cons_append, List.mem_cons, List.mem_append] at h
      rcases h with h | h | h
      · revert h; decide
      · exact haa h
      · exact hq (hmem.1 h))]
    dsimp only
    have k1 : strip (e.key.toList ++ [' ']) = e.key.toList := by
      have := strip_pad [] e.key.toList [' '] (by simp) (by decide)
      rw [List.nil_append] at this
      rw [this, strip_id]
      · intro d hdd
        rw [hk] at hdd
        simp only [List.head?_cons, Option.some.injEq] at hdd
        subst hdd
        exact (h3 c (by rw [hk]; simp)).2
      · intro d hdd
        exact (h3 d (List.mem_of_getLast? hdd)).2
    have k2 : strip (' ' :: a ++ s) = s := by
      have := strip_pad (' ' :: a) s [] (by
        intro d hd
        rcases List.mem_cons.1 hd with rfl | hd
        · decide
        · exact ha d hd) (by simp)
      rw [List.append_nil] at this
      rw [this, strip_id s s1 s2]
    rw [k1, k2]

/-- The dictionary after some lines. -/
def run (dict : List Char → Option (List Char)) (lines : List (List Char)) : List Char → Option (List Char) :=
  ((lines.filter fun l => strip l ≠ []).map strip).foldl assign dict

theorem run_append (dict : List Char → Option (List Char)) (a b : List (List Char)) :
    run dict (a ++ b) = run (run dict a) b := by
  unfold run
  rw [List.filter_append, List.map_append, List.foldl_append]

theorem run_note (ls : List (List Char)) (h : ∀ l ∈ ls, Spec.Comment l) (dict : List Char → Option (List Char)) :
    run dict ls = dict := by
  induction ls with
  | nil => rfl
  | cons l ls ih =>
    rw [show l :: ls = [l] ++ ls from rfl, run_append]
    have hl : run dict [l] = dict := by
      rcases (h l (by simp)).1 with rfl | h1
      · rfl
      · cases l with
        | nil => rfl
        | cons c l =>
          simp only [List.head?_cons, Option.some.injEq] at h1
          subst h1
          have hx : (strip ('#' :: l)).head? = some '#' := by
            obtain ⟨a, b, h1, h2, h3⟩ := strip_decomp ('#' :: l)
            cases a with
            | nil =>
              cases hs : strip ('#' :: l) with
              | nil =>
                rw [hs] at h1
                have : '#' ∈ b := by
                  rw [List.nil_append, List.nil_append] at h1
                  rw [← h1]; simp
                exact absurd (h3 _ this) (by decide)
              | cons d t =>
                rw [hs] at h1
                simp only [List.nil_append, List.cons_append, List.cons.injEq] at h1
                rw [← h1.1]; rfl
            | cons d a =>
              have h4 := h2 d (by simp)
              simp only [List.cons_append, List.cons.injEq] at h1
              rw [← h1.1] at h4
              exact absurd h4 (by decide)
          unfold run
          have hne : strip ('#' :: l) ≠ [] := by intro h; rw [h] at hx; cases hx
          rw [List.filter_cons, if_pos (by simpa using hne)]
          simp only [List.filter_nil, List.map_cons, List.map_nil, List.foldl_cons, List.foldl_nil]
          unfold assign
          rw [if_pos hx]
    rw [hl]
    exact ih fun l hl => h l (List.mem_cons_of_mem _ hl)

theorem run_body (note : Nat → List (List Char)) (val : Nat → List Char) (es : List Entry) (i : Nat)
    (hc : ∀ e ∈ es, e.mixClean = true) (hn : ∀ i, ∀ l ∈ note i, Spec.Comment l)
    (hv : ∀ j, i ≤ j → j < i + es.length → strip (val j) ≠ []) (hnd : (es.map fun e => e.key).Nodup)
    (dict : List Char → Option (List Char)) :
    (∀ j e, es[j]? = some e → run dict (body note val i es) e.key.toList =
      if '=' ∈ val (i + j) then dict e.key.toList else some (strip (val (i + j)))) ∧
    ∀ x, (∀ e ∈ es, e.key.toList ≠ x) → run dict (body note val i es) x = dict x := by
  induction es generalizing i dict with
  | nil =>
    refine ⟨fun j e h => by simp at h, fun x _ => ?_⟩
    rw [body, run_note _ (hn i)]
  | cons e es ih =>
    rw [List.map_cons, List.nodup_cons] at hnd
    have hl := line_assign e (hc e (by simp)) (val i) (hv i (le_refl _) (by simp)) dict
    have hb : run dict (body note val i (e :: es)) = run (if '=' ∈ val i then dict else fun x =>
        if x = e.key.toList then some (strip (val i)) else dict x) (body note val (i + 1) es) := by
      rw [body, run_append, run_note _ (hn i), show line e (val i) :: body note val (i + 1) es =
        [line e (val i)] ++ body note val (i + 1) es from rfl, run_append]
      congr 1
      rw [← hl.2]
      unfold run
      rw [List.filter_cons, if_pos (by simpa using hl.1)]
      rfl
    rw [hb]
    obtain ⟨i1, i2⟩ := ih (i + 1) (fun e he => hc e (List.mem_cons_of_mem _ he))
      (fun j h1 h2 => hv j (by omega) (by simp only [List.length_cons]; omega)) hnd.2
      (if '=' ∈ val i then dict else fun x => if x = e.key.toList then some (strip (val i)) else dict x)
    have hother : ∀ e' ∈ es, e'.key.toList ≠ e.key.toList := by
      intro e' he' h
      apply hnd.1
      rw [← String.toList_inj.1 h]
      exact List.mem_map_of_mem he'
    constructor
    · intro j e' he'
      cases j with
      | zero =>
        simp only [List.getElem?_cons_zero, Option.some.injEq] at he'
        subst he'
        rw [i2 _ hother, Nat.add_zero]
        split <;> simp
      | succ j =>
        rw [List.getElem?_cons_succ] at he'
        rw [i1 j e' he', show i + (j + 1) = i + 1 + j by omega]
        have h0 := hother e' (List.mem_of_getElem? he')
        split
        · split
          · rfl
          · simp [h0]
        · rfl
    · intro x hx
      rw [i2 x fun e he => hx e (List.mem_cons_of_mem _ he)]
      have := hx e (by simp)
      split
      · rfl
      · simp [Ne.symm this]

theorem mix_clean : auxSynthmix.all Entry.mixClean = true := by decide +kernel
theorem mix_nodup : (auxSynthmix.map fun e => e.key).Nodup := by decide +kernel

/-- The lines of the file in the form of `parsePrm`. -/
theorem parse_eq (note : Nat → List (List Char)) (val : Nat → List Char) (hn : ∀ i, ∀ l ∈ note i, Spec.Comment l)
    (hv : ∀ j, j < auxSynthmix.length → strip (val j) ≠ []) :
    ∃ dict, (∀ j e, auxSynthmix[j]? = some e → dict e.key.toList = if '=' ∈ val j then none else some (strip (val j))) ∧
      parsePrm (fileLines "SYNTHMIX" auxSynthmix note val) =
        if mixKeys.any (fun k => (dict k.toList).isNone) then .exit
        else if ["INCLUDE_ORIGINAL", "WITHIN_CLASS_MIXING"].any (fun k =>
          !(["TRUE".toList, "FALSE".toList].map some).contains (dict k.toList)) then .exit
        else .ok dict := by
  have hb := run_body note val auxSynthmix 0 (List.all_eq_true.1 mix_clean) hn (fun j _ h => hv j (by omega)) mix_nodup
    (fun _ => none)
  refine ⟨run (fun _ => none) (body note val 0 auxSynthmix), ?_, ?_⟩
  · intro j e he
    have := hb.1 j e he
    rw [Nat.zero_add] at this
    exact this
  · have ts : startTag "SYNTHMIX" = "++PARAM_SYNTHMIX_START++".toList := by decide +kernel
    have te : endTag "SYNTHMIX" = "++PARAM_SYNTHMIX_END++".toList := by decide +kernel
    have ss : strip "++PARAM_SYNTHMIX_START++".toList = "++PARAM_SYNTHMIX_START++".toList := by decide +kernel
    have se : strip "++PARAM_SYNTHMIX_END++".toList = "++PARAM_SYNTHMIX_END++".toList := by decide +kernel
    have ns : "++PARAM_SYNTHMIX_START++".toList ≠ [] := by decide
    have ne : "++PARAM_SYNTHMIX_END++".toList ≠ [] := by decide
    have hls : ((fileLines "SYNTHMIX" auxSynthmix note val).filter fun l => strip l ≠ []).map strip =
        "++PARAM_SYNTHMIX_START++".toList :: ((body note val 0 auxSynthmix).filter fun l => strip l ≠ []).map strip ++
          ["++PARAM_SYNTHMIX_END++".toList] := by
      unfold fileLines
      rw [ts, te, List.cons_append, List.filter_cons, if_pos (by rw [ss]; exact decide_eq_true ns), List.map_cons, ss,
        List.filter_append, List.map_append, List.filter_cons, if_neg (by simp [strip]), List.filter_cons,
        if_pos (by rw [se]; exact decide_eq_true ne), List.filter_nil, List.map_cons, List.map_nil, se]
      rfl
    have as : ∀ d, assign d "++PARAM_SYNTHMIX_START++".toList = d := by
      intro d
      unfold assign
      rw [if_neg (by decide), split_one _ (by decide)]
    have ae : ∀ d, assign d "++PARAM_SYNTHMIX_END++".toList = d := by
      intro d
      unfold assign
      rw [if_neg (by decide), split_one _ (by decide)]
    unfold parsePrm
    simp only [hls]
    rw [if_neg (by simp), if_neg (by rw [List.getLast?_append]; exact fun h => h rfl)]
    rw [List.cons_append, List.foldl_cons, as, List.foldl_append, List.foldl_cons, List.foldl_nil, ae]
    rfl

/-- `s` is `v` without blanks and tabulators around it, and has at least one character. -/
def Trimmed (v s : List Char) : Prop :=
  s ≠ [] ∧ (∀ c, s.head? = some c ∨ s.getLast? = some c → 32 < c.toNat) ∧
  ∃ a b, v = a ++ s ++ b ∧ ∀ c ∈ a ++ b, c = ' ' ∨ c = '\t'

theorem strip_trimmed (v s : List Char) (h : Trimmed v s) : strip v = s := by
  obtain ⟨-, h2, a, b, rfl, h3⟩ := h
  have hs : ∀ c, c = ' ' ∨ c = '\t' → pySpace c = true := by rintro c (rfl | rfl) <;> decide
  have hn : ∀ c : Char, 32 < c.toNat → pySpace c = false := by
    intro c hc
    unfold pySpace
    simp only [Bool.or_eq_false_iff, Bool.and_eq_false_iff, decide_eq_false_iff_not]
    omega
  rw [strip_pad a s b (fun c hc => hs c (h3 c (by simp [hc]))) (fun c hc => hs c (h3 c (by simp [hc])))]
  exact strip_id s (fun c hc => hn c (h2 c (.inl hc))) (fun c hc => hn c (h2 c (.inr hc)))

theorem mix_keys : ∀ k, k ∈ mixKeys ↔ ∃ e ∈ auxSynthmix, e.key = k := by
  have h1 : ∀ k ∈ mixKeys, ∃ e ∈ auxSynthmix, e.key = k := by decide +kernel
  have h2 : ∀ e ∈ auxSynthmix, e.key ∈ mixKeys := by decide +kernel
  intro k
  constructor
  · exact h1 k
  · rintro ⟨e, he, rfl⟩; exact h2 e he

/-- C234 (partial: no equal sign in a value): the mixing program reads its skeleton with any comments and any values
in place of the defaults, if the two switches are TRUE or FALSE; each parameter has the text of its line without
blanks around it. The file is refused if one of the switches is something else. -/
theorem c234_mix_partial (note : Nat → List (List Char)) (val s : Nat → List Char)
    (hn : ∀ i, ∀ l ∈ note i, Spec.Comment l) (hv : ∀ j, j < 13 → Trimmed (val j) (s j) ∧ '=' ∉ val j) :
    ((∀ j e, auxSynthmix[j]? = some e → e.key = "INCLUDE_ORIGINAL" ∨ e.key = "WITHIN_CLASS_MIXING" →
        s j = "TRUE".toList ∨ s j = "FALSE".toList) →
      ∃ dict, parsePrm (fileLines "SYNTHMIX" auxSynthmix note val) = .ok dict ∧
        ∀ j e, auxSynthmix[j]? = some e → dict e.key.toList = some (s j)) ∧
    ((∃ j e, auxSynthmix[j]? = some e ∧ (e.key = "INCLUDE_ORIGINAL" ∨ e.key = "WITHIN_CLASS_MIXING") ∧
        s j ≠ "TRUE".toList ∧ s j ≠ "FALSE".toList) →
      parsePrm (fileLines "SYNTHMIX" auxSynthmix note val) = .exit) := by
  have hlen : auxSynthmix.length = 13 := rfl
  obtain ⟨dict, h1, h2⟩ := parse_eq note val hn (fun j hj => by
    rw [strip_trimmed _ _ (hv j (by omega)).1]; exact (hv j (by omega)).1.1)
  have hd : ∀ j e, auxSynthmix[j]? = some e → dict e.key.toList = some (s j) := by
    intro j e he
    have hj := (List.getElem?_eq_some_iff.1 he).1
    have := hv j (by omega)
    rw [h1 j e he, if_neg this.2, strip_trimmed _ _ this.1]
  have hkeys : (mixKeys.any fun k => (dict k.toList).isNone) = false := by
    rw [List.any_eq_false]
    intro k hk
    obtain ⟨e, he, rfl⟩ := (mix_keys k).1 hk
    obtain ⟨j, hj, e1⟩ := List.getElem_of_mem he
    rw [hd j e (by rw [List.getElem?_eq_getElem hj, e1])]
    simp
  rw [h2, if_neg (by rw [hkeys]; decide)]
  constructor
  · intro hsw
    refine ⟨dict, ?_, hd⟩
    rw [if_neg]
    rw [Bool.not_eq_true, List.any_eq_false]
    intro k hk
    have hk' : k = "INCLUDE_ORIGINAL" ∨ k = "WITHIN_CLASS_MIXING" := by simpa using hk
    obtain ⟨e, he, ek⟩ := (mix_keys k).1 (by rcases hk' with rfl | rfl <;> decide +kernel)
    obtain ⟨j, hj, e1⟩ := List.getElem_of_mem he
    have he' : auxSynthmix[j]? = some e := by rw [List.getElem?_eq_getElem hj, e1]
    have := hsw j e he' (ek ▸ hk')
    rw [← ek, hd j e he']
    rcases this with h | h <;> simp [h]
  · rintro ⟨j, e, he, hk, n1, n2⟩
    rw [if_pos]
    rw [List.any_eq_true]
    refine ⟨e.key, by simpa using hk, ?_⟩
    rw [hd j e he]
    simp only [List.map_cons, List.map_nil, Bool.not_eq_true', List.contains_eq_mem, decide_eq_false_iff_not, List.mem_cons,
      Option.some.injEq, List.not_mem_nil, or_false]
    rintro (h | h)
    · exact n1 h
    · exact n2 h

/-- C234, violated: if the text of any value contains an equal sign (a path, say), the parameter is ignored, and the
file is refused because the parameter is missing. -/
theorem c234_equal_violated (note : Nat → List (List Char)) (val s : Nat → List Char)
    (hn : ∀ i, ∀ l ∈ note i, Spec.Comment l) (hv : ∀ j, j < 13 → Trimmed (val j) (s j))
    (j : Nat) (hj : j < 13) (he : '=' ∈ val j) :
    parsePrm (fileLines "SYNTHMIX" auxSynthmix note val) = .exit := by
  have hlen : auxSynthmix.length = 13 := rfl
  obtain ⟨dict, h1, h2⟩ := parse_eq note val hn (fun j hj => by
    rw [strip_trimmed _ _ (hv j (by omega))]; exact (hv j (by omega)).1)
  rw [h2, if_pos]
  rw [List.any_eq_true]
  have hej := List.getElem?_eq_getElem (l := auxSynthmix) (i := j) (by omega)
  generalize auxSynthmix[j]'(by omega) = e at hej
  refine ⟨e.key, (mix_keys _).2 ⟨e, List.mem_of_getElem? hej, rfl⟩, ?_⟩
  rw [h1 j e hej, if_pos he]
  rfl

/-- C234, violated: a comment after a value is part of the value here, unlike in the parameter files of the other
programs; a switch with a comment is refused. -/
theorem c234_comment_violated (note : Nat → List (List Char)) (val s : Nat → List Char)
    (hn : ∀ i, ∀ l ∈ note i, Spec.Comment l) (hv : ∀ j, j < 13 → Trimmed (val j) (s j) ∧ '=' ∉ val j)
    (j : Nat) (e : Entry) (he : auxSynthmix[j]? = some e) (hk : e.key = "INCLUDE_ORIGINAL" ∨ e.key = "WITHIN_CLASS_MIXING")
    (hc : '#' ∈ s j) : parsePrm (fileLines "SYNTHMIX" auxSynthmix note val) = .exit := by
  refine (c234_mix_partial note val s hn hv).2 ⟨j, e, he, hk, ?_, ?_⟩
  · intro h; rw [h] at hc; revert hc; decide
  · intro h; rw [h] at hc; revert hc; decide

-- the unedited skeleton
example : ∀ j, j < 13 → Trimmed (Spec.default auxSynthmix j) (Spec.default auxSynthmix j) ∧ '=' ∉ Spec.default auxSynthmix j := by
  have h : ∀ j : Fin 13, Spec.default auxSynthmix j ≠ [] ∧ (∀ c ∈ Spec.default auxSynthmix j, c ≠ '=') ∧
      (∀ c ∈ (Spec.default auxSynthmix j).head?, 32 < c.toNat) ∧ (∀ c ∈ (Spec.default auxSynthmix j).getLast?, 32 < c.toNat) := by
    decide +kernel
  intro j hj
  obtain ⟨h1, h2, h3, h4⟩ := h ⟨j, hj⟩
  refine ⟨⟨h1, ?_, [], [], by simp, by simp⟩, fun h => h2 _ h rfl⟩
  rintro c (h | h)
  · exact h3 c h
  · exact h4 c h

end Verif.Skel

import Verif.Skel.Spec
import Verif.Param.Props
import Verif.Rules.Props

/-!
# Lines of skeletons
-/

namespace Verif.Skel

open Verif.Str (Out)
open Verif.Param (Par Kind Val parseFile given_append)
open Verif.Param.Spec

theorem words_sep (c : Char) (v : List Char) (hc : c = ' ' ∨ c = '=') : words (c :: v) = words v := by
  unfold words
  rw [List.splitOnP_cons, if_pos (by simpa using hc)]
  simp

theorem words_seps (s v : List Char) (hs : ∀ c ∈ s, c = ' ' ∨ c = '=') : words (s ++ v) = words v := by
  induction s with
  | nil => rfl
  | cons c s ih =>
    rw [List.cons_append, words_sep c _ (hs c (by simp))]
    exact ih fun c hc => hs c (List.mem_cons_of_mem _ hc)

theorem words_key (k s v : List Char) (hk : k ≠ []) (hkc : ∀ c ∈ k, c ≠ ' ' ∧ c ≠ '=') (hs : s ≠ [])
    (hsc : ∀ c ∈ s, c = ' ' ∨ c = '=') : words (k ++ (s ++ v)) = k :: words v := by
  obtain ⟨c, s, rfl⟩ := List.exists_cons_of_ne_nil hs
  have h1 := words_seps (c :: s) v hsc
  have h2 := words_sep c (s ++ v) (hsc c (by simp))
  rw [← h1, List.cons_append, h2]
  unfold words
  rw [List.splitOnP_append_cons_of_forall_mem (fun x hx => by
    have := hkc x hx
    simp [this.1, this.2]) c (by simpa using hsc c (by simp))]
  simp [hk]

theorem content_id (l : List Char) (h : '#' ∉ l ∧ '\r' ∉ l ∧ '\n' ∉ l) : content l = l := by
  unfold content
  rw [List.takeWhile_eq_self_iff]
  intro c hc
  have h1 : c ≠ '#' := fun e => h.1 (e ▸ hc)
  have h2 : c ≠ '\r' := fun e => h.2.1 (e ▸ hc)
  have h3 : c ≠ '\n' := fun e => h.2.2 (e ▸ hc)
  simp [h1, h2, h3]

theorem words_nil : words [] = [] := by decide

theorem comment_words (l : List Char) (h : Spec.Comment l) : words (content l) = [] := by
  have : content l = [] := by
    rcases h.1 with rfl | h1
    · rfl
    · cases l with
      | nil => rfl
      | cons c l =>
        simp only [List.head?_cons, Option.some.injEq] at h1
        subst h1
        rfl
  rw [this, words_nil]

/-- Key and separator of an entry are readable. -/
def Entry.clean (e : Entry) : Bool :=
  (e.key.toList ≠ [] : Bool) && e.key.toList.all (fun c => c != ' ' && c != '=' && c != '#' && c != '\r' && c != '\n') &&
  (e.sep.toList ≠ [] : Bool) && e.sep.toList.all (fun c => c == ' ' || c == '=') &&
  decide (e.key.toList.length + e.sep.toList.length ≤ 100)

theorem line_words (e : Entry) (v : List Char) (he : e.clean = true) (hv : Spec.Value v) :
    words (content (line e v)) = e.key.toList :: words v ∧ '\n' ∉ line e v ∧ (line e v).length ≤ 1000 := by
  unfold Entry.clean at he
  simp only [Bool.and_eq_true, decide_eq_true_eq, List.all_eq_true, bne_iff_ne, ne_eq, Bool.or_eq_true, beq_iff_eq] at he
  obtain ⟨⟨⟨⟨h1, h2⟩, h3⟩, h4⟩, h5⟩ := he
  have hx : ∀ c : Char, c ≠ ' ' → c ≠ '=' → (c ∉ e.key.toList) → c ∉ v → c ∉ line e v := by
    intro c c1 c2 c3 c4 hc
    unfold line at hc
    rcases List.mem_append.1 hc with hc | hc
    · exact c3 hc
    · rcases List.mem_append.1 hc with hc | hc
      · rcases h4 c hc with rfl | rfl
        · exact c1 rfl
        · exact c2 rfl
      · exact c4 hc
  have a1 : '#' ∉ line e v := hx _ (by decide) (by decide) (fun h => (h2 _ h).1.1.2 rfl) hv.2.1
  have a2 : '\r' ∉ line e v := hx _ (by decide) (by decide) (fun h => (h2 _ h).1.2 rfl) hv.2.2.1
  have a3 : '\n' ∉ line e v := hx _ (by decide) (by decide) (fun h => (h2 _ h).2 rfl) hv.2.2.2.1
  refine ⟨?_, a3, ?_⟩
  · rw [content_id _ ⟨a1, a2, a3⟩]
    exact words_key _ _ _ h1 (fun c hc => (h2 c hc).1.1.1) h3 h4
  · have := hv.2.2.2.2
    unfold line
    simp only [List.length_append]
    omega

/-- The numbers of the entries with a key. -/
def slots (key : String) : Nat → List Entry → List Nat
  | _, [] => []
  | i, e :: es => if e.key = key then i :: slots key (i + 1) es else slots key (i + 1) es

theorem slots_mem (key : String) (i : Nat) (es : List Entry) (j : Nat) (h : j ∈ slots key i es) :
    i ≤ j ∧ ∃ e, es[j - i]? = some e ∧ e.key = key := by
  induction es generalizing i with
  | nil => simp [slots] at h
  | cons e es ih =>
    rw [slots] at h
    have hr : j ∈ slots key (i + 1) es → i ≤ j ∧ ∃ e', (e :: es)[j - i]? = some e' ∧ e'.key = key := by
      intro h
      obtain ⟨h1, e', h2, h3⟩ := ih (i + 1) h
      refine ⟨by omega, e', ?_, h3⟩
      rw [show j - i = (j - (i + 1)) + 1 by omega, List.getElem?_cons_succ]
      exact h2
    split at h
    · rename_i hk
      rcases List.mem_cons.1 h with rfl | h
      · exact ⟨le_refl _, e, by simp, hk⟩
      · exact hr h
    · exact hr h

theorem slots_sorted (key : String) (i : Nat) (es : List Entry) : (slots key i es).Pairwise (· < ·) := by
  induction es generalizing i with
  | nil => simp [slots]
  | cons e es ih =>
    rw [slots]
    split
    · rw [List.pairwise_cons]
      refine ⟨fun j hj => ?_, ih _⟩
      have := (slots_mem key (i + 1) es j hj).1
      omega
    · exact ih _

section
variable (note : Nat → List (List Char)) (val : Nat → List Char)

theorem note_given (key : List Char) (ls : List (List Char)) (h : ∀ l ∈ ls, Spec.Comment l) : given key ls = [] := by
  unfold given
  rw [List.filterMap_eq_nil_iff]
  intro l hl
  rw [comment_words l (h l hl)]

theorem given_body (key : String) (es : List Entry) (i : Nat) (hc : ∀ e ∈ es, e.clean = true)
    (hn : ∀ i, ∀ l ∈ note i, Spec.Comment l) (hv : ∀ j, i ≤ j → j < i + es.length → Spec.Value (val j)) :
    given key.toList (body note val i es) = (slots key i es).map fun j => words (val j) := by
  induction es generalizing i with
  | nil => rw [body, note_given _ _ (hn i)]; rfl
  | cons e es ih =>
    have hvi := hv i (le_refl _) (by simp)
    obtain ⟨w, ws, hw⟩ := List.exists_cons_of_ne_nil hvi.1
    have hl := (line_words e (val i) (hc e (by simp)) hvi).1
    rw [body, given_append, note_given _ _ (hn i), List.nil_append, slots]
    have h2 := ih (i + 1) (fun e he => hc e (List.mem_cons_of_mem _ he))
      (fun j h1 h2 => hv j (by omega) (by simp only [List.length_cons]; omega))
    have h3 : given key.toList (line e (val i) :: body note val (i + 1) es) =
        (if e.key = key then [words (val i)] else []) ++ given key.toList (body note val (i + 1) es) := by
      rw [show line e (val i) :: body note val (i + 1) es = [line e (val i)] ++ body note val (i + 1) es from rfl,
        given_append]
      congr 1
      unfold given
      rw [List.filterMap_cons, hl, hw]
      by_cases hk : e.key = key
      · simp [hk]
      · have : e.key.toList ≠ key.toList := fun h => hk (String.toList_inj.1 h)
        simp [hk, this]
    rw [h3, h2]
    by_cases hk : e.key = key <;> simp [hk]

theorem count_body (key : String) (es : List Entry) (i : Nat) (hc : ∀ e ∈ es, e.clean = true)
    (hn : ∀ i, ∀ l ∈ note i, Spec.Comment l) (hv : ∀ j, i ≤ j → j < i + es.length → Spec.Value (val j)) :
    ((body note val i es).countP fun l => (words (content l)).head? = some key.toList) = (slots key i es).length := by
  have h0 : ∀ i, ((note i).countP fun l => (words (content l)).head? = some key.toList) = 0 := by
    intro i
    rw [List.countP_eq_zero]
    intro l hl
    rw [comment_words l (hn i l hl)]
    simp
  induction es generalizing i with
  | nil => rw [body, h0]; rfl
  | cons e es ih =>
    have hvi := hv i (le_refl _) (by simp)
    have hl := (line_words e (val i) (hc e (by simp)) hvi).1
    have h2 := ih (i + 1) (fun e he => hc e (List.mem_cons_of_mem _ he))
      (fun j h1 h2 => hv j (by omega) (by simp only [List.length_cons]; omega))
    rw [body, List.countP_append, h0, List.countP_cons, h2, hl, slots]
    by_cases hk : e.key = key
    · simp [hk]
    · have : e.key.toList ≠ key.toList := fun h => hk (String.toList_inj.1 h)
      simp [hk, this]

theorem body_lines (es : List Entry) (i : Nat) (hc : ∀ e ∈ es, e.clean = true)
    (hn : ∀ i, ∀ l ∈ note i, Spec.Comment l) (hv : ∀ j, i ≤ j → j < i + es.length → Spec.Value (val j)) :
    ∀ l ∈ body note val i es, '\n' ∉ l ∧ l.length ≤ 1000 := by
  induction es generalizing i with
  | nil => intro l hl; exact ⟨(hn i l hl).2.1, (hn i l hl).2.2⟩
  | cons e es ih =>
    intro l hl
    rw [body] at hl
    rcases List.mem_append.1 hl with h | h
    · exact ⟨(hn i l h).2.1, (hn i l h).2.2⟩
    · rcases List.mem_cons.1 h with rfl | h
      · exact (line_words e (val i) (hc e (by simp)) (hv i (le_refl _) (by simp))).2
      · exact ih (i + 1) (fun e he => hc e (List.mem_cons_of_mem _ he))
          (fun j h1 h2 => hv j (by omega) (by simp only [List.length_cons]; omega)) l h

end

end Verif.Skel

import Verif.Assess.Model
import Mathlib.Tactic.Linarith

/-!
# The confusion matrix and the classes of the tables
-/

namespace Verif.Assess

theorem sum_countP {α : Type} [DecidableEq α] (cl : List α) (hn : cl.Nodup) {β : Type} (f : β → α) (l : List β) (hl : ∀ s ∈ l, f s ∈ cl) :
    (cl.map fun c => l.countP fun s => f s = c).sum = l.length := by
  induction l with
  | nil => simp
  | cons s t ih =>
    have ih := ih fun x hx => hl x (List.mem_cons_of_mem _ hx)
    have h1 : ∀ c ∈ cl, ((s :: t).countP fun x => f x = c) = (t.countP fun x => f x = c) + if f s = c then 1 else 0 := by
      intro c _
      rw [List.countP_cons]
      simp
    rw [List.map_congr_left h1, List.sum_map_add, ih]
    have : (cl.map fun c => if f s = c then 1 else 0).sum = 1 := by
      have h2 := List.count_eq_one_of_mem hn (hl s List.mem_cons_self)
      have h3 : ∀ l : List α, (l.map fun c => if f s = c then 1 else 0).sum = l.count (f s) := by
        intro l
        induction l with
        | nil => rfl
        | cons a l ih =>
          rw [List.map_cons, List.sum_cons, ih, List.count_cons]
          by_cases ha : f s = a
          · simp [ha, Nat.add_comm]
          · simp [ha, Ne.symm ha]
      rw [h3, h2]
    rw [this]
    rfl

theorem classes_nodup (sample : List (Int × Int)) : (classes sample).Nodup :=
  (List.perm_insertionSort _ _).nodup_iff.2 (List.nodup_dedup _)

theorem mem_classes (sample : List (Int × Int)) (c : Int) : c ∈ classes sample ↔ ∃ s ∈ sample, s.1 = c ∨ s.2 = c := by
  unfold classes
  rw [List.mem_insertionSort, List.mem_dedup, List.mem_append, List.mem_map, List.mem_map]
  constructor
  · rintro (⟨s, h, e⟩ | ⟨s, h, e⟩)
    · exact ⟨s, h, .inl e⟩
    · exact ⟨s, h, .inr e⟩
  · rintro ⟨s, h, e | e⟩
    · exact .inl ⟨s, h, e⟩
    · exact .inr ⟨s, h, e⟩

theorem confusion_row (sample : List (Int × Int)) (m : Int) :
    ((classes sample).map fun r => confusion sample m r).sum = sample.countP fun s => s.1 = m := by
  have := sum_countP (classes sample) (classes_nodup sample) (fun s : Int × Int => s.2) (sample.filter fun s => s.1 = m)
    (fun s hs => (mem_classes sample s.2).2 ⟨s, (List.mem_filter.1 hs).1, .inr rfl⟩)
  rw [List.countP_eq_length_filter, ← this]
  congr 1
  refine List.map_congr_left fun r _ => ?_
  unfold confusion
  rw [List.countP_filter]
  refine List.countP_congr fun s _ => ?_
  simp [and_comm]

/-- C161: the classes are the labels that occur in the map or in the reference, each once and in ascending order; an entry of the confusion matrix
counts the samples with these two labels, a row has all samples of the map class, and the matrix all samples. -/
theorem c161_confusion (sample : List (Int × Int)) :
    (classes sample).Pairwise (· < ·) ∧ (∀ c, c ∈ classes sample ↔ ∃ s ∈ sample, s.1 = c ∨ s.2 = c) ∧
      (∀ m r, confusion sample m r = sample.count (m, r)) ∧
      (∀ m, ((classes sample).map fun r => confusion sample m r).sum = (sample.map Prod.fst).count m) ∧
      ((classes sample).map fun m => ((classes sample).map fun r => confusion sample m r).sum).sum = sample.length := by
  refine ⟨?_, mem_classes sample, ?_, ?_, ?_⟩
  · have h1 : (classes sample).Pairwise (· ≤ ·) := List.pairwise_insertionSort _ _
    have h2 := classes_nodup sample
    exact (h1.and h2).imp fun ⟨a, b⟩ => lt_of_le_of_ne a b
  · intro m r
    unfold confusion List.count
    refine List.countP_congr fun s _ => ?_
    obtain ⟨a, b⟩ := s
    simp
  · intro m
    rw [confusion_row]
    unfold List.count
    rw [List.countP_map]
    refine List.countP_congr fun s _ => ?_
    simp
  · rw [List.map_congr_left fun m _ => confusion_row sample m]
    exact sum_countP (classes sample) (classes_nodup sample) (fun s : Int × Int => s.1) sample
      (fun s hs => (mem_classes sample s.1).2 ⟨s, hs, .inl rfl⟩)

/-- C161: if the table of counts has the classes of the sample, in any order, it is accepted, and each row of the confusion matrix gets the count of
its class. Missing: refusal of other tables, see `c161_mismatch_violated`. -/
theorem c161_aligned_partial (sample : List (Int × Int)) (hs : sample ≠ []) (count : List (Int × Nat)) (hp : (count.map (·.1)).Perm (classes sample)) :
    accepted count (classes sample) = true ∧ (arrange count).map (·.1) = classes sample ∧
      ∀ (i : Nat) (c : Int) (x : Nat), (arrange count)[i]? = some (c, x) → (classes sample)[i]? = some c ∧ (c, x) ∈ count := by
  have e : (arrange count).map (·.1) = classes sample := by
    unfold arrange
    rw [List.map_insertionSort (s := (· ≤ ·)) (r := fun a b : Int × Nat => a.1 ≤ b.1) (fun x => x.1) count (fun a _ b _ => Iff.rfl)]
    have h1 : (List.insertionSort (· ≤ ·) (count.map (·.1))).Pairwise (· ≤ ·) := List.pairwise_insertionSort _ _
    have h2 : (classes sample).Pairwise (· ≤ ·) := List.pairwise_insertionSort _ _
    exact List.Perm.eq_of_pairwise' h1 h2 ((List.perm_insertionSort _ _).trans hp)
  refine ⟨?_, e, ?_⟩
  · unfold accepted
    rw [e]
    obtain ⟨s, t, rfl⟩ := List.exists_cons_of_ne_nil hs
    have : s.1 ∈ classes (s :: t) := (mem_classes _ _).2 ⟨s, List.mem_cons_self, .inl rfl⟩
    obtain ⟨c, l, hc⟩ := List.exists_cons_of_ne_nil (List.ne_nil_of_mem this)
    rw [hc]
    simp
  · intro i c x hi
    refine ⟨?_, ?_⟩
    · rw [← e, List.getElem?_map, hi]; rfl
    · have := List.mem_of_getElem? hi
      exact (List.mem_insertionSort _).1 this

/-- C161, violated: a single common class is enough. Whenever the classes of the sample are `c₀ < … < d` (at least two of them) and the table has the
same classes but another one `c` instead of the last, it is accepted, and the count of class `c` is used for class `d`. -/
theorem c161_mismatch_violated (sample : List (Int × Int)) (cl : List Int) (d : Int) (hc : classes sample = cl ++ [d]) (hne : cl ≠ [])
    (counts : List Nat) (hl : counts.length = cl.length) (c : Int) (x : Nat) (hlt : ∀ a ∈ cl, a < c) :
    accepted (cl.zip counts ++ [(c, x)]) (classes sample) = true ∧ (arrange (cl.zip counts ++ [(c, x)]))[cl.length]? = some (c, x) := by
  have hs := (c161_confusion sample).1
  rw [hc] at hs
  have hcl : cl.Pairwise (· < ·) := (List.pairwise_append.1 hs).1
  have hz : (cl.zip counts).map (·.1) = cl := by
    have : (cl.zip counts).map Prod.fst = cl := List.map_fst_zip (by omega)
    exact this
  have ha : arrange (cl.zip counts ++ [(c, x)]) = cl.zip counts ++ [(c, x)] := by
    unfold arrange
    refine List.Pairwise.insertionSort_eq ?_
    refine List.pairwise_append.2 ⟨?_, List.pairwise_singleton _ _, ?_⟩
    · have : ((cl.zip counts).map (·.1)).Pairwise (· < ·) := by rw [hz]; exact hcl
      exact (List.pairwise_map.1 this).imp le_of_lt
    · intro a h1 b h2
      rw [List.mem_singleton] at h2
      subst h2
      have : a.1 ∈ cl := by rw [← hz]; exact List.mem_map_of_mem h1
      exact (hlt _ this).le
  constructor
  · unfold accepted
    rw [ha, List.map_append, hz, hc]
    obtain ⟨b, t, rfl⟩ := List.exists_cons_of_ne_nil hne
    simp
  · rw [ha, List.getElem?_append_right (by rw [List.length_zip]; omega)]
    have : cl.length - (cl.zip counts).length = 0 := by rw [List.length_zip]; omega
    rw [this]
    rfl

end Verif.Assess

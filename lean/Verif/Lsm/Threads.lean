import Verif.Lsm.View

/-! # Threads -/

namespace Verif.Lsm

open Verif.Ccl (Px Image Objects)
open Spec

/-- Between pixels, only the entries of the last patches differ from zero. -/
def Clean (t : Thread) : Prop := ∀ l, l ∉ t.uniq → t.seen l = false ∧ t.area l = 0 ∧ t.perim l = 0

theorem foldl_clear {α : Type} (z : α) (u : List Int) (f : Int → α) (k : Int) :
    (u.foldl (fun a l k => if k = l then z else a k) f) k = if k ∈ u then z else f k := by
  induction u generalizing f with
  | nil => simp
  | cons x t ih =>
    rw [List.foldl_cons, ih]
    by_cases hk : k = x
    · simp [hk]
    · simp [hk]

theorem reset_clean {t : Thread} (h : Clean t) : t.reset = Thread.init := by
  unfold Thread.reset Thread.init
  congr 1
  · funext k
    rw [foldl_clear]
    split
    · rfl
    · exact (h k ‹_›).1
  · funext k
    rw [foldl_clear]
    split
    · rfl
    · exact (h k ‹_›).2.1
  · funext k
    rw [foldl_clear]
    split
    · rfl
    · exact (h k ‹_›).2.2

theorem clean_init : Clean Thread.init := fun _ _ => ⟨rfl, rfl, rfl⟩

theorem fresh_clean {t : Thread} (h : Clean t) : fresh t = fresh Thread.init := by
  unfold fresh
  rw [reset_clean h, reset_clean clean_init]

/-- The variables at the end of the loop over the kernel. -/
def measure (par : Par) (c : Chunk) (o : Objects) (p : Px) : Acc :=
  (viewAt par c o p).foldl (add par c o p) (fresh Thread.init)

theorem measure_summary {par : Par} {c : Chunk} {o : Objects} (g : Good par c o) (p : Px) :
    Summary par c o p (viewAt par c o p) (measure par c o p) :=
  summary par c o p _ fun v hv => (g.range _ ((mem_viewAt g p v).1 hv).2).1

theorem pixel_clean {par : Par} {c : Chunk} {o : Objects} {t : Thread} (h : Clean t) (p : Px) :
    (pixel par c o t p).2 =
      if usable par c p && (o.image.px p || par.allpx) then some (measure par c o p) else none := by
  unfold pixel
  rw [fresh_clean h, foldl_look]
  cases usable par c p <;> cases o.image.px p <;> cases par.allpx <;> rfl

theorem summary_clean {par : Par} {c : Chunk} {o : Objects} {p : Px} {V : List Px} {a : Acc}
    (s : Summary par c o p V a) : Clean a.toThread := by
  intro l hl
  have hl' : l ∉ a.uniq := hl
  have hn : V.filter (fun v => o.obj (p + v) = l) = [] := by
    rw [List.filter_eq_nil_iff]
    intro v hv he
    exact hl' ((s.uniq l).2 ⟨v, hv, by simpa using he⟩)
  refine ⟨?_, ?_, ?_⟩
  · have := mt (s.seen l).1 hl'
    simpa using this
  · show a.area l = 0
    rw [s.area, hn]; rfl
  · show a.perim l = 0
    rw [s.perim, hn]; rfl

theorem pixel_state {par : Par} {c : Chunk} {o : Objects} (g : Good par c o) {t : Thread} (h : Clean t) (p : Px) :
    Clean (pixel par c o t p).1 := by
  unfold pixel
  split
  · exact h
  · split
    · exact h
    · show Clean (Acc.toThread (List.foldl _ _ _))
      rw [fresh_clean h, foldl_look]
      exact summary_clean (measure_summary g p)

theorem thread_fst (par : Par) (c : Chunk) (o : Objects) (t : Thread) (ps : List Px) :
    (thread par c o t ps).map Prod.fst = ps := by
  induction ps generalizing t with
  | nil => rfl
  | cons p ps ih => simp [thread, ih]

theorem thread_mem {par : Par} {c : Chunk} {o : Objects} (g : Good par c o) {t : Thread} (h : Clean t) (ps : List Px)
    (p : Px) (r : Option Acc) (hm : (p, r) ∈ thread par c o t ps) :
    r = if usable par c p && (o.image.px p || par.allpx) then some (measure par c o p) else none := by
  induction ps generalizing t with
  | nil => simp [thread] at hm
  | cons q ps ih =>
    simp only [thread, List.mem_cons, Prod.mk.injEq] at hm
    rcases hm with ⟨rfl, rfl⟩ | hm
    · exact pixel_clean h p
    · exact ih (pixel_state g h q) hm

theorem landscape_spec (par : Par) (c : Chunk) : ∃ (N : Nat) (o : Objects), Good par c o ∧
    ∀ fuel, N ≤ fuel → ∀ sched, ∃ res, landscape par c fuel sched = some (o, res) ∧
      res.map Prod.fst = sched.flatten ∧
      ∀ p r, (p, r) ∈ res → r = if 1 ≤ o.nobj ∧ (usable par c p && (o.image.px p || par.allpx)) = true
        then some (measure par c o p) else none := by
  obtain ⟨N, o, h1, g⟩ := objects_good par c
  refine ⟨N, o, g, ?_⟩
  intro fuel hf sched
  unfold landscape
  rw [h1 fuel hf]
  refine ⟨_, rfl, ?_, ?_⟩
  · split
    · rw [List.map_map]
      exact List.map_id _
    · rw [List.map_flatMap, List.flatMap_def]
      congr 1
      conv_rhs => rw [← List.map_id sched]
      exact List.map_congr_left fun ps _ => thread_fst ..
  · intro p r hm
    split at hm
    · rename_i hn
      rw [if_neg (by omega)]
      simp only [List.mem_map, Prod.mk.injEq] at hm
      obtain ⟨_, _, _, e⟩ := hm
      exact e.symm
    · rename_i hn
      rw [List.mem_flatMap] at hm
      obtain ⟨ps, _, hm⟩ := hm
      have := thread_mem g clean_init ps p r hm
      rw [this]
      simp [show 1 ≤ o.nobj by omega]

end Verif.Lsm

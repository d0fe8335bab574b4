import Verif.Equi.Model
import Mathlib.Data.List.Nodup
import Mathlib.Data.List.Basic

/-!
# Images that are not tiled: C309
-/

namespace Verif.Equi

/-- Specification: the file of a product of a scene. -/
def Spec.file (dirLevel2 scene : Text) (p : Product) : Text :=
  dirLevel2 ++ "/".toList ++ scene ++ "/".toList ++ p.name ++ ".".toList ++ p.ext

/-- Specification: a product and an image that is there already have the same number of columns, rows and bands. -/
def Spec.Fits (old : Option Image) (p : Product) : Prop :=
  ∀ o, old = some o → o.nx = p.image.nx ∧ o.ny = p.image.ny ∧ o.bands = p.image.bands

/-- Specification: the product, combined with the image that was there. -/
def Spec.result (mosaic : List Int → List Int → List Int) (old : Option Image) (p : Product) : Image :=
  match old with
  | none => p.image
  | some o => ⟨p.image.nx, p.image.ny, p.image.bands, mosaic o.px p.image.px⟩

variable {mosaic : List Int → List Int → List Int} {free : Text → Bool}

theorem file_eq (dir scene : Text) (p : Product) : Spec.file dir scene p = path (dir ++ '/' :: scene) p := by
  unfold Spec.file path
  simp

theorem write_ok {dname : Text} {p : Product} {d : Disc} (hl : (path dname p).length < 1024)
    (hf : free (path dname p) = true) (h : Spec.Fits (d (path dname p)) p) :
    write mosaic free dname p d =
      some (fun n => if n = path dname p then some (Spec.result mosaic (d (path dname p)) p) else d n) := by
  unfold write
  rw [if_neg (by omega)]
  cases e : d (path dname p) with
  | none => dsimp only; rw [if_pos hf]; rfl
  | some o =>
    dsimp only
    obtain ⟨a, b, c⟩ := h o e
    rw [if_neg (by rintro (h | h | h) <;> contradiction), if_pos hf]
    rfl

theorem write_none {dname : Text} {p : Product} {d : Disc} (h : free (path dname p) = false) :
    write mosaic free dname p d = none := by
  unfold write
  split
  · rfl
  · cases e : d (path dname p) with
    | none => dsimp only; rw [if_neg (by rw [h]; decide)]
    | some o =>
      dsimp only
      split
      · rfl
      · rw [if_neg (by rw [h]; decide)]

theorem write_size {dname : Text} {p : Product} {d : Disc} {o : Image} (e : d (path dname p) = some o)
    (h : ¬ (o.nx = p.image.nx ∧ o.ny = p.image.ny ∧ o.bands = p.image.bands)) :
    write mosaic free dname p d = none := by
  unfold write
  split
  · rfl
  · rw [e]
    dsimp only
    rw [if_pos (by
      by_contra hc
      simp only [not_or, not_not] at hc
      exact h ⟨hc.2.1, hc.2.2, hc.1⟩)]

theorem writeAll_ok (dname : Text) (ps : List Product) (d : Disc) (hn : (ps.map (path dname)).Nodup)
    (h : ∀ p ∈ ps, (path dname p).length < 1024 ∧ free (path dname p) = true ∧ Spec.Fits (d (path dname p)) p) :
    (writeAll mosaic free dname ps d).2 = true ∧
    (∀ p ∈ ps, (writeAll mosaic free dname ps d).1 (path dname p) = some (Spec.result mosaic (d (path dname p)) p)) ∧
    ∀ n, (∀ p ∈ ps, n ≠ path dname p) → (writeAll mosaic free dname ps d).1 n = d n := by
  induction ps generalizing d with
  | nil => exact ⟨rfl, by simp, fun n _ => rfl⟩
  | cons p ps ih =>
    rw [List.map_cons, List.nodup_cons] at hn
    have hp := h p List.mem_cons_self
    have ne : ∀ q ∈ ps, path dname q ≠ path dname p := fun q hq hc => hn.1 (hc ▸ List.mem_map_of_mem hq)
    rw [writeAll, write_ok hp.1 hp.2.1 hp.2.2]
    dsimp only
    have i := ih (fun n => if n = path dname p then some (Spec.result mosaic (d (path dname p)) p) else d n) hn.2 (by
      intro q hq
      have hq' := h q (List.mem_cons_of_mem _ hq)
      rw [if_neg (ne q hq)]
      exact hq')
    refine ⟨i.1, ?_, ?_⟩
    · intro q hq
      rcases List.mem_cons.1 hq with e | hq
      · subst e
        rw [i.2.2 _ (fun r hr hc => ne r hr hc.symm)]
        exact if_pos rfl
      · rw [i.2.1 q hq]
        rw [if_neg (ne q hq)]
    · intro n hh
      rw [i.2.2 n (fun q hq => hh q (List.mem_cons_of_mem _ hq))]
      exact if_neg (hh p List.mem_cons_self)

theorem writeAll_append (dname : Text) (pre post : List Product) (d : Disc)
    (h : (writeAll mosaic free dname pre d).2 = true) :
    writeAll mosaic free dname (pre ++ post) d = writeAll mosaic free dname post (writeAll mosaic free dname pre d).1 := by
  induction pre generalizing d with
  | nil => rfl
  | cons p ps ih =>
    rw [List.cons_append, writeAll]
    rw [writeAll] at h
    conv_rhs => rw [writeAll]
    cases e : write mosaic free dname p d with
    | none => rw [e] at h; cases h
    | some d' => rw [e] at h; dsimp only at h ⊢; exact ih d' h

/-- C309: if a scene is not tiled, each of its products is written to the directory of the scene, combined with the
image of the same name that was there; no other file is changed. -/
theorem c309_written_partial (dirLevel2 scene : Text) (products : List Product) (d : Disc)
    (hd : dirLevel2.length + 1 + scene.length < 1024)
    (hn : (products.map (Spec.file dirLevel2 scene)).Nodup)
    (hl : ∀ p ∈ products, (Spec.file dirLevel2 scene p).length < 1024)
    (hf : ∀ p ∈ products, free (Spec.file dirLevel2 scene p) = true)
    (hs : ∀ p ∈ products, Spec.Fits (d (Spec.file dirLevel2 scene p)) p) :
    (flush mosaic free dirLevel2 scene products d).2 = true ∧
    (∀ p ∈ products, (flush mosaic free dirLevel2 scene products d).1 (Spec.file dirLevel2 scene p) =
      some (Spec.result mosaic (d (Spec.file dirLevel2 scene p)) p)) ∧
    ∀ n, (∀ p ∈ products, n ≠ Spec.file dirLevel2 scene p) →
      (flush mosaic free dirLevel2 scene products d).1 n = d n := by
  have e : Spec.file dirLevel2 scene = path (dirLevel2 ++ '/' :: scene) := funext (file_eq dirLevel2 scene)
  rw [e] at hn hl hf hs ⊢
  unfold flush
  rw [if_neg (by rw [List.length_append, List.length_cons]; omega)]
  exact writeAll_ok _ products d hn (fun p hp => ⟨hl p hp, hf p hp, hs p hp⟩)

def exBoa : Product := ⟨"20180823_LEVEL2_SEN2A_BOA".toList, "tif".toList, ⟨2, 1, 1, [5, 7]⟩⟩
def exQai : Product := ⟨"20180823_LEVEL2_SEN2A_QAI".toList, "tif".toList, ⟨2, 1, 1, [0, 1]⟩⟩

example : ([exBoa, exQai].map (Spec.file "lvl2".toList "T33UUP".toList)).Nodup ∧
    (∀ p ∈ [exBoa, exQai], (Spec.file "lvl2".toList "T33UUP".toList p).length < 1024) ∧
    ∀ p ∈ [exBoa, exQai], Spec.Fits none p :=
  ⟨by decide, by decide, fun p _ o h => by cases h⟩

/-- C309: if a scene is processed a second time with the same result, its images stay the same, provided that the
combination of an image with itself is this image (as it is for averages). -/
theorem c309_again (dirLevel2 scene : Text) (products : List Product) (d : Disc)
    (hd : dirLevel2.length + 1 + scene.length < 1024)
    (hn : (products.map (Spec.file dirLevel2 scene)).Nodup)
    (hl : ∀ p ∈ products, (Spec.file dirLevel2 scene p).length < 1024)
    (hf : ∀ p ∈ products, free (Spec.file dirLevel2 scene p) = true)
    (hs : ∀ p ∈ products, d (Spec.file dirLevel2 scene p) = none) (hm : ∀ a, mosaic a a = a) :
    flushScene mosaic free dirLevel2 scene [products, products] d =
      flushScene mosaic free dirLevel2 scene [products] d := by
  have a := @c309_written_partial mosaic free dirLevel2 scene products d hd hn hl hf
    (fun p hp o ho => by rw [hs p hp] at ho; cases ho)
  have ra : ∀ p ∈ products, (flush mosaic free dirLevel2 scene products d).1 (Spec.file dirLevel2 scene p) =
      some p.image := by
    intro p hp
    rw [a.2.1 p hp, hs p hp]
    rfl
  have b := @c309_written_partial mosaic free dirLevel2 scene products (flush mosaic free dirLevel2 scene products d).1
    hd hn hl hf (fun p hp o ho => by rw [ra p hp] at ho; cases ho; exact ⟨rfl, rfl, rfl⟩)
  rw [flushScene, if_pos a.1, flushScene, if_pos b.1, flushScene, flushScene, if_pos a.1, flushScene]
  refine Prod.ext (funext fun n => ?_) rfl
  dsimp only
  by_cases h : ∃ p ∈ products, n = Spec.file dirLevel2 scene p
  · obtain ⟨p, hp, e⟩ := h
    rw [e, b.2.1 p hp, ra p hp]
    unfold Spec.result
    dsimp only
    rw [hm]
  · exact b.2.2 n (fun p hp e => h ⟨p, hp, e⟩)

/-- C309: if the name of the directory does not fit, the program fails and nothing is written. -/
theorem c309_long (dirLevel2 scene : Text) (products : List Product) (rest : List (List Product)) (d : Disc)
    (hd : 1024 ≤ dirLevel2.length + 1 + scene.length) :
    flushScene mosaic free dirLevel2 scene (products :: rest) d = (d, false) := by
  have e : flush mosaic free dirLevel2 scene products d = (d, false) := by
    unfold flush
    rw [if_pos (by rw [List.length_append, List.length_cons]; omega)]
  rw [flushScene, e, if_neg (by simp)]

/-- C309, violated: if one of the products cannot be written, the program fails, but the products before it stay on disc
without the others. -/
theorem c309_incomplete_violated (dirLevel2 scene : Text) (pre post : List Product) (q : Product) (d : Disc)
    (hd : dirLevel2.length + 1 + scene.length < 1024)
    (hn : ((pre ++ q :: post).map (Spec.file dirLevel2 scene)).Nodup)
    (hl : ∀ p ∈ pre, (Spec.file dirLevel2 scene p).length < 1024)
    (hf : ∀ p ∈ pre, free (Spec.file dirLevel2 scene p) = true)
    (hq : free (Spec.file dirLevel2 scene q) = false)
    (hs : ∀ p ∈ pre ++ q :: post, d (Spec.file dirLevel2 scene p) = none) :
    (flush mosaic free dirLevel2 scene (pre ++ q :: post) d).2 = false ∧
    (∀ p ∈ pre, (flush mosaic free dirLevel2 scene (pre ++ q :: post) d).1 (Spec.file dirLevel2 scene p) =
      some p.image) ∧
    ∀ p ∈ q :: post, (flush mosaic free dirLevel2 scene (pre ++ q :: post) d).1 (Spec.file dirLevel2 scene p) = none := by
  have e : Spec.file dirLevel2 scene = path (dirLevel2 ++ '/' :: scene) := funext (file_eq dirLevel2 scene)
  rw [e] at hn hl hf hs hq ⊢
  unfold flush
  rw [if_neg (by rw [List.length_append, List.length_cons]; omega)]
  rw [List.map_append, List.nodup_append] at hn
  have a := @writeAll_ok mosaic free (dirLevel2 ++ '/' :: scene) pre d hn.1 (fun p hp => ⟨hl p hp, hf p hp, by
    intro o ho
    rw [hs p (List.mem_append_left _ hp)] at ho
    cases ho⟩)
  rw [writeAll_append _ _ _ _ a.1, writeAll, write_none hq]
  dsimp only
  refine ⟨rfl, ?_, ?_⟩
  · intro p hp
    rw [a.2.1 p hp, hs p (List.mem_append_left _ hp)]
    rfl
  · intro p hp
    rw [a.2.2 _ (fun r hr hc => hn.2.2 _ (List.mem_map_of_mem hr) _ (List.mem_map_of_mem hp) hc.symm)]
    exact hs p (List.mem_append_right _ hp)

/-- C309, violated: the images of a scene that covers two continents have the same name. If their sizes differ, the
program fails at the second continent, and only the image of the first one is there. -/
theorem c309_continents_violated (dirLevel2 scene : Text) (p q : Product) (rest : List Product) (d : Disc)
    (hd : dirLevel2.length + 1 + scene.length < 1024) (name : p.name = q.name) (ext : p.ext = q.ext)
    (hl : (Spec.file dirLevel2 scene p).length < 1024) (hf : free (Spec.file dirLevel2 scene p) = true)
    (hs : d (Spec.file dirLevel2 scene p) = none)
    (size : ¬ (p.image.nx = q.image.nx ∧ p.image.ny = q.image.ny ∧ p.image.bands = q.image.bands)) :
    (flushScene mosaic free dirLevel2 scene [[p], q :: rest] d).2 = false ∧
    (flushScene mosaic free dirLevel2 scene [[p], q :: rest] d).1 (Spec.file dirLevel2 scene q) = some p.image := by
  have fq : Spec.file dirLevel2 scene q = Spec.file dirLevel2 scene p := by
    unfold Spec.file; rw [name, ext]
  have a := @c309_written_partial mosaic free dirLevel2 scene [p] d hd (by simp)
    (fun r hr => by rw [List.mem_singleton.1 hr]; exact hl) (fun r hr => by rw [List.mem_singleton.1 hr]; exact hf)
    (fun r hr o ho => by rw [List.mem_singleton.1 hr, hs] at ho; cases ho)
  have on := a.2.1 p List.mem_cons_self
  rw [hs] at on
  have b : flush mosaic free dirLevel2 scene (q :: rest) (flush mosaic free dirLevel2 scene [p] d).1 =
      ((flush mosaic free dirLevel2 scene [p] d).1, false) := by
    conv_lhs => unfold flush
    rw [if_neg (by rw [List.length_append, List.length_cons]; omega), writeAll, write_size (o := p.image) ?_ size]
    · unfold flush
      rw [if_neg (by rw [List.length_append, List.length_cons]; omega)]
    · rw [← file_eq, fq]
      have := on
      unfold flush at this
      exact this
  rw [flushScene, if_pos a.1, flushScene, b, if_neg (by simp)]
  exact ⟨rfl, by rw [fq]; exact on⟩

/-- C309, violated: if the sizes are equal, the pixels of two continents in two projections are combined into one image. -/
theorem c309_mixed_violated (dirLevel2 scene : Text) (p q : Product) (d : Disc)
    (hd : dirLevel2.length + 1 + scene.length < 1024) (name : p.name = q.name) (ext : p.ext = q.ext)
    (hl : (Spec.file dirLevel2 scene p).length < 1024) (hf : free (Spec.file dirLevel2 scene p) = true)
    (hs : d (Spec.file dirLevel2 scene p) = none)
    (size : p.image.nx = q.image.nx ∧ p.image.ny = q.image.ny ∧ p.image.bands = q.image.bands) :
    (flushScene mosaic free dirLevel2 scene [[p], [q]] d).2 = true ∧
    (flushScene mosaic free dirLevel2 scene [[p], [q]] d).1 (Spec.file dirLevel2 scene q) =
      some ⟨q.image.nx, q.image.ny, q.image.bands, mosaic p.image.px q.image.px⟩ := by
  have fq : Spec.file dirLevel2 scene q = Spec.file dirLevel2 scene p := by
    unfold Spec.file; rw [name, ext]
  have a := @c309_written_partial mosaic free dirLevel2 scene [p] d hd (by simp)
    (fun r hr => by rw [List.mem_singleton.1 hr]; exact hl) (fun r hr => by rw [List.mem_singleton.1 hr]; exact hf)
    (fun r hr o ho => by rw [List.mem_singleton.1 hr, hs] at ho; cases ho)
  have on := a.2.1 p List.mem_cons_self
  rw [hs] at on
  have b := @c309_written_partial mosaic free dirLevel2 scene [q] (flush mosaic free dirLevel2 scene [p] d).1 hd (by simp)
    (fun r hr => by rw [List.mem_singleton.1 hr, fq]; exact hl)
    (fun r hr => by rw [List.mem_singleton.1 hr, fq]; exact hf)
    (fun r hr o ho => by rw [List.mem_singleton.1 hr, fq, on] at ho; cases ho; rw [List.mem_singleton.1 hr]; exact size)
  rw [flushScene, if_pos a.1, flushScene, if_pos b.1, flushScene]
  refine ⟨rfl, ?_⟩
  dsimp only
  rw [b.2.1 q List.mem_cons_self, fq, on]
  rfl

end Verif.Equi

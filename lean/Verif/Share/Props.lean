import Verif.Brick.Props
import Verif.Share.Serial

/-!
# C239, C240: images and provenance files under every schedule
-/

namespace Verif.Share
open Spec

variable {P : Type} [DecidableEq P]

theorem inv_run (jobs : P → List Job) (fs : List Char → File) (es : List (Event P)) :
    Inv Part.name Part.body fs (fun i => (jobs i).flatMap parts) (fun _ => ⟨fun _ _ => 0, false, false⟩)
      (run jobs fs es) :=
  inv_exec _ _ es (inv_start _ _ fs _ _)

/-! ## The sections in one go -/

theorem body_dir (j : Job) (l : Loc) (f : File) :
    ∃ c, runBody (Part.body (.dir j)) l f = some (l, c) ∧ c.exist = true := by
  cases f <;> exact ⟨_, rfl, rfl⟩

theorem body_file {j : Job} {l l' : Loc} {f c : File}
    (h : runBody (Part.body (.file j)) l f = some (l', c)) :
    c = written f j ∧ l'.update = (match j.mode with | .create => false | .mosaic _ => f.exist) := by
  simp only [Part.body, runBody, readStep, createStep, writeStep, written] at h ⊢
  cases hm : j.mode with
  | create =>
    rw [hm] at h
    cases f <;> simp only [Option.bind_some, Option.bind_none, Option.some.injEq, Prod.mk.injEq, reduceCtorEq] at h
    all_goals (obtain ⟨rfl, rfl⟩ := h; exact ⟨rfl, rfl⟩)
  | mosaic m =>
    rw [hm] at h
    cases f <;> simp only [Option.bind_some, Option.bind_none, Option.some.injEq, Prod.mk.injEq, reduceCtorEq] at h
    all_goals (obtain ⟨rfl, rfl⟩ := h; exact ⟨rfl, rfl⟩)

theorem body_prov {j : Job} {l l' : Loc} {f c : File}
    (h : runBody (Part.body (.prov j)) l f = some (l', c)) :
    l'.update = l.update ∧
    ((f = .absent ∧ c = .text (header ++ line j l.update)) ∨
      ∃ t, f = .text t ∧ c = .text (t ++ line j l.update)) := by
  simp only [Part.body, runBody, existStep, openStep, lineStep, Option.bind_some] at h
  cases f <;> simp only [File.exist, Option.bind_some, Option.bind_none, Option.some.injEq, Prod.mk.injEq, reduceCtorEq] at h
  all_goals (obtain ⟨rfl, rfl⟩ := h)
  · exact ⟨rfl, Or.inl ⟨rfl, by simp⟩⟩
  · exact ⟨rfl, Or.inr ⟨_, rfl, by simp⟩⟩

/-! ## Images -/

/-- `n` is used for images only. -/
def ImagePath (n : List Char) (l : List Part) : Prop :=
  ∀ s ∈ l, match s with | .dir j => j.dir ≠ n | .prov j => j.prov ≠ n | .file _ => True

theorem serial_file (n : List Char) (log : List (P × Part)) (fs fs' : List Char → File)
    (loc loc' : P → Loc) (hn : ImagePath n (log.map Prod.snd))
    (h : serial Part.name Part.body fs loc log = some (fs', loc')) :
    fs' n = (toFile n log).foldl written (fs n) := by
  induction log generalizing fs loc with
  | nil => cases h; rfl
  | cons e log ih =>
    obtain ⟨i, s⟩ := e
    rw [serial] at h
    cases hb : runBody (Part.body s) (loc i) (fs (Part.name s)) with
    | none => rw [hb] at h; cases h
    | some r =>
      rw [hb, Option.bind_some] at h
      have h0 := hn s (List.mem_cons_self ..)
      have := ih _ _ (fun t ht => hn t (List.mem_cons_of_mem _ ht)) h
      rw [this]
      cases s with
      | dir j => simp only [Part.name]; rw [Function.update_of_ne (Ne.symm h0)]; rfl
      | prov j => simp only [Part.name]; rw [Function.update_of_ne (Ne.symm h0)]; rfl
      | file j =>
        obtain ⟨l, c⟩ := r
        obtain ⟨h1, -⟩ := body_file hb
        simp only [toFile, List.filterMap_cons, Part.name]
        by_cases e : j.file = n
        · rw [if_pos e]
          simp only [Part.name] at h1
          rw [List.foldl_cons, ← e, Function.update_self, ← h1]
        · rw [if_neg e, Function.update_of_ne (Ne.symm e)]

theorem filterMap_parts_file (n : List Char) (js : List Job) :
    ((js.flatMap parts).filterMap fun s => match s with
      | .file j => if j.file = n then some j else none | _ => none) = js.filter fun j => j.file = n := by
  induction js with
  | nil => rfl
  | cons j js ih =>
    rw [List.flatMap_cons, List.filterMap_append, ih, List.filter_cons]
    unfold parts
    by_cases h : j.file = n <;> by_cases ho : j.origin.length > 0 <;> simp [h, ho]

theorem filterMap_parts_prov (n : List Char) (js : List Job) :
    ((js.flatMap parts).filterMap fun s => match s with
      | .prov j => if j.prov = n then some j else none | _ => none) =
        js.filter fun j => j.prov = n ∧ j.origin ≠ [] := by
  induction js with
  | nil => rfl
  | cons j js ih =>
    rw [List.flatMap_cons, List.filterMap_append, ih, List.filter_cons]
    unfold parts
    by_cases h : j.prov = n <;> by_cases ho : j.origin = []
    · simp [h, ho]
    · have : 0 < j.origin.length := List.length_pos_iff.2 ho
      simp [h, ho, this]
    · simp [h, ho]
    · have : 0 < j.origin.length := List.length_pos_iff.2 ho
      simp [h, ho, this]

theorem toFile_own (n : List Char) (i : P) (log : List (P × Part)) :
    toFile n (log.filter fun e => e.1 = i) =
      ((log.filter fun e => e.1 = i).map Prod.snd).filterMap fun s => match s with
        | .file j => if j.file = n then some j else none | _ => none := by
  rw [List.filterMap_map]; rfl

theorem toProv_own (n : List Char) (i : P) (log : List (P × Part)) :
    toProv n (log.filter fun e => e.1 = i) =
      ((log.filter fun e => e.1 = i).map Prod.snd).filterMap fun s => match s with
        | .prov j => if j.prov = n then some j else none | _ => none := by
  rw [List.filterMap_map]; rfl

theorem log_part {jobs : P → List Job} {fs : List Char → File} {es : List (Event P)} {e : P × Part}
    (h : e ∈ (run jobs fs es).log) : ∃ j ∈ jobs e.1, e.2 ∈ parts j := by
  have := (inv_run jobs fs es).order e.1
  have h1 : e.2 ∈ (((run jobs fs es).log.filter fun x => x.1 = e.1).map Prod.snd) :=
    List.mem_map.2 ⟨e, List.mem_filter.2 ⟨h, by simp⟩, rfl⟩
  have h2 : e.2 ∈ (jobs e.1).flatMap parts := by rw [← this]; exact List.mem_append_left _ h1
  exact List.mem_flatMap.1 h2

/-- C239: whatever the schedule, and whichever processes stop at whichever point: as long as nobody
holds the lock of an image file, the file is the result of some of the writes, each of them carried
out completely and one after the other. From each process these are its first writes to that file,
in its order; and all of them, if the process has come to its end. -/
theorem c239_images (jobs : P → List Job) (fs : List Char → File) (es : List (Event P)) (n : List Char)
    (hn : ∀ i, ∀ j ∈ jobs i, j.dir ≠ n ∧ j.prov ≠ n) :
    ((run jobs fs es).lk n = none →
      (run jobs fs es).fs n = (toFile n (run jobs fs es).log).foldl written (fs n)) ∧
    ∀ i, toFile n ((run jobs fs es).log.filter fun e => e.1 = i) <+: (jobs i).filter (fun j => j.file = n) ∧
      (((run jobs fs es).pr i).todo = [] →
        toFile n ((run jobs fs es).log.filter fun e => e.1 = i) = (jobs i).filter fun j => j.file = n) := by
  have hinv := inv_run jobs fs es
  refine ⟨fun hl => ?_, fun i => ?_⟩
  · obtain ⟨fs', loc', h2, h3, -, -⟩ := hinv.state
    rw [h3 n hl]
    refine serial_file n _ _ _ _ _ ?_ h2
    intro s hs
    obtain ⟨e, he, rfl⟩ := List.mem_map.1 hs
    obtain ⟨j, hj, hp⟩ := log_part he
    have hh := hn e.1 j hj
    unfold parts at hp
    rcases List.mem_append.1 hp with hp | hp
    · rcases List.mem_cons.1 hp with hp | hp
      · rw [hp]; exact hh.1
      · rw [List.mem_singleton.1 hp]; trivial
    · split at hp
      · rw [List.mem_singleton.1 hp]; exact hh.2
      · cases hp
  · have := hinv.order i
    have key := congrArg (List.filterMap fun s => match s with
        | .file j => if j.file = n then some j else none | _ => none) this
    rw [List.filterMap_append, filterMap_parts_file, ← toFile_own] at key
    refine ⟨⟨_, key⟩, fun ht => ?_⟩
    rw [ht, List.filterMap_nil, List.append_nil] at key
    exact key

theorem fold_update (nd : Nat → ℤ) (js : List Job)
    (hm : ∀ j ∈ js, j.mode = .mosaic .update ∧ j.nodata = nd) (v : Img) :
    ∃ v', js.foldl written (.image v) = .image v' ∧
      ∀ b p, Brick.mosaicHistory .update (nd b) (some (v b p)) (js.map fun j => j.data b p) = some (v' b p) := by
  induction js generalizing v with
  | nil => exact ⟨v, rfl, fun _ _ => rfl⟩
  | cons j js ih =>
    obtain ⟨h1, h2⟩ := hm j (List.mem_cons_self ..)
    obtain ⟨v', e1, e2⟩ := ih (fun x hx => hm x (List.mem_cons_of_mem _ hx))
      (fun b p => Brick.mosaicPixel .update (nd b) (j.data b p) (v b p))
    refine ⟨v', ?_, ?_⟩
    · rw [List.foldl_cons, ← e1]; simp only [written, h1, h2]
    · intro b p
      rw [List.map_cons, Brick.mosaicHistory]
      exact e2 b p

/-- C239: for tiles that are updated, every pixel of the unlocked file holds the last valid value of
the writes that are complete (nodata only if none of them has a valid value there): no valid
observation of any process gets lost. -/
theorem c239_update (jobs : P → List Job) (fs : List Char → File) (es : List (Event P)) (n : List Char)
    (hn : ∀ i, ∀ j ∈ jobs i, j.dir ≠ n ∧ j.prov ≠ n) (nd : Nat → ℤ)
    (hm : ∀ i, ∀ j ∈ jobs i, j.file = n → j.mode = .mosaic .update ∧ j.nodata = nd)
    (h0 : fs n = .absent) (hl : (run jobs fs es).lk n = none)
    (hd : toFile n (run jobs fs es).log ≠ []) :
    ∃ v, (run jobs fs es).fs n = .image v ∧
      ∀ b p, v b p = Brick.Spec.lastValid (nd b) ((toFile n (run jobs fs es).log).map fun j => j.data b p) := by
  rw [(c239_images jobs fs es n hn).1 hl, h0]
  have hall : ∀ j ∈ toFile n (run jobs fs es).log, j.mode = .mosaic .update ∧ j.nodata = nd := by
    intro j hj
    obtain ⟨e, he, h2⟩ := List.mem_filterMap.1 hj
    obtain ⟨i, s⟩ := e
    obtain ⟨j', hj', hp⟩ := log_part he
    cases s with
    | dir k => cases h2
    | prov k => cases h2
    | file k =>
      simp only at h2
      split at h2
      case isFalse => cases h2
      case isTrue e =>
        cases h2
        have : j = j' := by
          simp only [parts] at hp
          rcases List.mem_append.1 hp with hp | hp
          · simpa using hp
          · split at hp <;> simp at hp
        subst this
        exact hm i j hj' e
  cases hL : toFile n (run jobs fs es).log with
  | nil => exact absurd hL hd
  | cons j js =>
    rw [hL] at hall
    obtain ⟨h1, h2⟩ := hall j (List.mem_cons_self ..)
    obtain ⟨v', e1, e2⟩ := fold_update nd js (fun x hx => hall x (List.mem_cons_of_mem _ hx)) j.data
    refine ⟨v', ?_, fun b p => ?_⟩
    · rw [List.foldl_cons, ← e1]; simp only [written, h1]
    · have := e2 b p
      rw [Brick.c27_update_history (nd b) (some (j.data b p)) _ (Or.inl (by simp))] at this
      simpa using (Option.some.inj this).symm

/-- C239: an image file that is not locked is complete (unless it was not complete before the first
process started). -/
theorem c239_complete (jobs : P → List Job) (fs : List Char → File) (es : List (Event P)) (n : List Char)
    (hn : ∀ i, ∀ j ∈ jobs i, j.dir ≠ n ∧ j.prov ≠ n) (h0 : fs n ≠ .broken)
    (hl : (run jobs fs es).lk n = none) : (run jobs fs es).fs n ≠ .broken := by
  rw [(c239_images jobs fs es n hn).1 hl]
  generalize toFile n (run jobs fs es).log = js
  generalize fs n = f at h0
  induction js generalizing f with
  | nil => exact h0
  | cons j js ih => exact ih (written f j) (by simp [written])

/-! ## Provenance -/

theorem exist_update (fs : List Char → File) (n : List Char) (c : File) (hc : c.exist = true) :
    (fun m => (Function.update fs n c m).exist) = Function.update (fun m => (fs m).exist) n true := by
  funext m
  by_cases h : m = n
  · subst h; rw [Function.update_self, Function.update_self, hc]
  · rw [Function.update_of_ne h, Function.update_of_ne h]

theorem loc_update (loc : P → Loc) (i : P) (l : Loc) :
    (fun k => (Function.update loc i l k).update) =
      Function.update (fun k => (loc k).update) i l.update := by
  funext k
  by_cases h : k = i
  · subst h; rw [Function.update_self, Function.update_self]
  · rw [Function.update_of_ne h, Function.update_of_ne h]

/-- `n` is used for provenance only. -/
def ProvPath (n : List Char) (l : List Part) : Prop :=
  ∀ s ∈ l, match s with | .dir j => j.dir ≠ n | .file j => j.file ≠ n | .prov _ => True

theorem serial_prov (n : List Char) (log : List (P × Part)) (fs fs' : List Char → File)
    (loc loc' : P → Loc) (hn : ProvPath n (log.map Prod.snd))
    (h : serial Part.name Part.body fs loc log = some (fs', loc')) :
    (fs n = .absent →
      (lines n log (fun m => (fs m).exist) (fun i => (loc i).update) = [] ∧ fs' n = .absent) ∨
      (lines n log (fun m => (fs m).exist) (fun i => (loc i).update) ≠ [] ∧
        fs' n = .text (header ++ (lines n log (fun m => (fs m).exist) (fun i => (loc i).update)).flatten))) ∧
    ∀ t, fs n = .text t → fs' n = .text
      (t ++ (lines n log (fun m => (fs m).exist) (fun i => (loc i).update)).flatten) := by
  induction log generalizing fs loc with
  | nil =>
    cases h
    exact ⟨fun h => Or.inl ⟨rfl, h⟩, fun t ht => by rw [ht]; simp [lines]⟩
  | cons e log ih =>
    obtain ⟨i, s⟩ := e
    rw [serial] at h
    cases hb : runBody (Part.body s) (loc i) (fs (Part.name s)) with
    | none => rw [hb] at h; cases h
    | some r =>
      obtain ⟨l, c⟩ := r
      rw [hb, Option.bind_some] at h
      have h0 := hn s (List.mem_cons_self ..)
      have ih := ih _ _ (fun t ht => hn t (List.mem_cons_of_mem _ ht)) h
      dsimp only at ih
      rw [loc_update] at ih
      cases s with
      | dir j =>
        obtain ⟨c', hc, hx⟩ := body_dir j (loc i) (fs j.dir)
        simp only [Part.name] at hb ih
        rw [hc] at hb; cases hb
        rw [exist_update _ _ _ hx, Function.update_of_ne (Ne.symm h0), Function.update_eq_self] at ih
        exact ih
      | file j =>
        simp only [Part.name] at hb ih
        obtain ⟨h1, h2⟩ := body_file hb
        rw [exist_update _ _ _ (by rw [h1]; rfl), Function.update_of_ne (Ne.symm h0), h2] at ih
        exact ih
      | prov j =>
        simp only [Part.name] at hb ih
        obtain ⟨h1, h2⟩ := body_prov hb
        have hx : c.exist = true := by
          rcases h2 with ⟨-, rfl⟩ | ⟨t, -, rfl⟩ <;> rfl
        rw [exist_update _ _ _ hx, h1, Function.update_eq_self] at ih
        rw [lines]
        by_cases e : j.prov = n
        · subst e
          rw [if_pos rfl]
          rw [Function.update_self] at ih
          rcases h2 with ⟨ha, rfl⟩ | ⟨t, ha, rfl⟩
          · refine ⟨fun _ => Or.inr ⟨by simp, ?_⟩, fun t ht => absurd (ha.symm.trans ht) (by simp)⟩
            rw [ih.2 _ rfl]; simp
          · refine ⟨fun h => absurd (ha.symm.trans h) (by simp), fun t' ht => ?_⟩
            rw [ha] at ht; cases ht
            rw [ih.2 _ rfl]; simp
        · rw [if_neg e, List.nil_append]
          rw [Function.update_of_ne (Ne.symm e)] at ih
          exact ih

theorem lines_jobs (n : List Char) (log : List (P × Part)) (there : List Char → Bool) (last : P → Bool) :
    List.Forall₂ (fun j l => ∃ u, l = line j u) (toProv n log) (lines n log there last) := by
  induction log generalizing there last with
  | nil => exact .nil
  | cons e log ih =>
    obtain ⟨i, s⟩ := e
    cases s with
    | dir j => exact ih _ _
    | file j => exact ih _ _
    | prov j =>
      simp only [toProv, List.filterMap_cons, lines]
      by_cases h : j.prov = n
      · rw [if_pos h, if_pos h]
        exact .cons ⟨_, rfl⟩ (ih _ _)
      · rw [if_neg h, if_neg h]
        exact ih _ _

/-- C240: whatever the schedule, and whichever processes stop: as long as nobody holds the lock of a
provenance file, it starts with one header line (if it did not exist before; otherwise with its old
content), followed by one complete line for each image that has been recorded, with the mode
`update` exactly if there was an image that was updated. The file exists only if there is a line.
The lines of a process are those of its first images, in its order, and those of all of its images
if the process has come to its end. -/
theorem c240_provenance (jobs : P → List Job) (fs : List Char → File) (es : List (Event P)) (n : List Char)
    (hn : ∀ i, ∀ j ∈ jobs i, j.dir ≠ n ∧ j.file ≠ n) :
    (let ls := lines n (run jobs fs es).log (fun m => (fs m).exist) fun _ => false
     ((run jobs fs es).lk n = none →
      (fs n = .absent → (ls = [] ∧ (run jobs fs es).fs n = .absent) ∨
        (ls ≠ [] ∧ (run jobs fs es).fs n = .text (header ++ ls.flatten))) ∧
      ∀ t, fs n = .text t → (run jobs fs es).fs n = .text (t ++ ls.flatten)) ∧
     List.Forall₂ (fun j l => ∃ u, l = line j u) (toProv n (run jobs fs es).log) ls) ∧
    ∀ i, toProv n ((run jobs fs es).log.filter fun e => e.1 = i) <+:
        (jobs i).filter (fun j => j.prov = n ∧ j.origin ≠ []) ∧
      (((run jobs fs es).pr i).todo = [] →
        toProv n ((run jobs fs es).log.filter fun e => e.1 = i) =
          (jobs i).filter fun j => j.prov = n ∧ j.origin ≠ []) := by
  have hinv := inv_run jobs fs es
  refine ⟨⟨fun hl => ?_, lines_jobs ..⟩, fun i => ?_⟩
  · obtain ⟨fs', loc', h2, h3, -, -⟩ := hinv.state
    rw [h3 n hl]
    refine serial_prov n _ _ _ _ _ ?_ h2
    intro s hs
    obtain ⟨e, he, rfl⟩ := List.mem_map.1 hs
    obtain ⟨j, hj, hp⟩ := log_part he
    have hh := hn e.1 j hj
    unfold parts at hp
    rcases List.mem_append.1 hp with hp | hp
    · rcases List.mem_cons.1 hp with hp | hp
      · rw [hp]; exact hh.1
      · rw [List.mem_singleton.1 hp]; exact hh.2
    · split at hp
      · rw [List.mem_singleton.1 hp]; trivial
      · cases hp
  · have := hinv.order i
    have key := congrArg (List.filterMap fun s => match s with
        | .prov j => if j.prov = n then some j else none | _ => none) this
    rw [List.filterMap_append, filterMap_parts_prov, ← toProv_own] at key
    refine ⟨⟨_, key⟩, fun ht => ?_⟩
    rw [ht, List.filterMap_nil, List.append_nil] at key
    exact key

end Verif.Share

import Mathlib.Data.List.SplitOn
import Verif.Share.Live

/-!
# The provenance table, directories, and images that get lost (C239, C240, C242) -/

namespace Verif.Share
open Verif.Share.Spec

variable {P : Type} [DecidableEq P]

/-! ## The table -/

theorem splitOn_plain (c : Char) (t : List Char) (h : c ∉ t) : t.splitOn c = [t] :=
  List.splitOnP_eq_singleton (fun x hx => by
    simp only [beq_eq_false_iff_ne]; rintro rfl; exact h hx)

theorem splitOn_cons (c : Char) (t r : List Char) (h : c ∉ t) : (t ++ c :: r).splitOn c = t :: r.splitOn c :=
  List.splitOnP_append_cons_of_forall_mem (fun x hx => by
    simp only [beq_eq_false_iff_ne]; rintro rfl; exact h hx) _ (by simp) _

theorem splitOn_ne (c : Char) (t : List Char) : t.splitOn c ≠ [] := by
  intro h
  have := List.splitOnP_ne_nil (· == c) t
  exact this h

theorem splitOn_join (os : List (List Char)) (ho : os ≠ []) (h : ∀ o ∈ os, ';' ∉ o) :
    ((os.intersperse ";".toList).flatten).splitOn ';' = os := by
  induction os with
  | nil => exact absurd rfl ho
  | cons a r ih =>
    cases r with
    | nil => simpa using splitOn_plain ';' a (h a (by simp))
    | cons b r =>
      have e : ((a :: b :: r).intersperse ";".toList).flatten =
          a ++ ';' :: (((b :: r).intersperse ";".toList).flatten) := by
        simp [List.intersperse]
      rw [e, splitOn_cons _ _ _ (h a (by simp)), ih (by simp) fun o hm => h o (List.mem_cons_of_mem _ hm)]

theorem mem_join (c : Char) (hc : c ≠ ';') (os : List (List Char)) (h : ∀ o ∈ os, c ∉ o) :
    c ∉ (os.intersperse ";".toList).flatten := by
  induction os with
  | nil => simp
  | cons a r ih =>
    cases r with
    | nil => simpa using h a (by simp)
    | cons b r =>
      have e : ((a :: b :: r).intersperse ";".toList).flatten =
          a ++ ';' :: (((b :: r).intersperse ";".toList).flatten) := by
        simp [List.intersperse]
      rw [e]
      have h1 := h a (by simp)
      have h2 := ih fun o hm => h o (List.mem_cons_of_mem _ hm)
      simp only [List.mem_append, List.mem_cons, not_or]
      exact ⟨h1, hc, h2⟩

/-- The line without its end. -/
theorem line_eq (j : Job) (u : Bool) : line j u =
    (j.file ++ ',' :: ((j.origin.intersperse ";".toList).flatten ++ ',' ::
      ((if u then "update".toList else "create".toList) ++ ',' :: j.stamp))) ++ '\n' :: [] := by
  simp [line, modeName]

theorem table_line (j : Job) (u : Bool) (rest : List Char) (hf : Plain j.file) (hs : Plain j.stamp)
    (ho : j.origin ≠ []) (hp : ∀ o ∈ j.origin, Plain o) :
    table (line j u ++ rest) = row j u :: table rest := by
  have hm : Plain (if u then "update".toList else "create".toList) := by
    cases u <;> exact ⟨by decide, by decide, by decide⟩
  unfold table
  rw [line_eq, List.append_assoc, List.cons_append, List.nil_append, splitOn_cons]
  · have hne : rest.splitOn '\n' ≠ [] := splitOn_ne _ _
    rw [List.dropLast_cons_of_ne_nil hne, List.map_cons]
    congr 1
    rw [splitOn_cons _ _ _ hf.1, splitOn_cons _ _ _ (mem_join _ (by decide) _ fun o h => (hp o h).1),
      splitOn_cons _ _ _ hm.1, splitOn_plain _ _ hs.1]
    simp only [List.map_cons, List.map_nil]
    rw [splitOn_plain _ _ hf.2.1, splitOn_join _ ho fun o h => (hp o h).2.1, splitOn_plain _ _ hm.2.1,
      splitOn_plain _ _ hs.2.1]
    rfl
  · have := mem_join '\n' (by decide) j.origin fun o h => (hp o h).2.2
    simp only [List.mem_append, List.mem_cons, not_or]
    exact ⟨hf.2.2, by decide, this, by decide, hm.2.2, by decide, hs.2.2⟩

theorem table_lines (js : List (Job × Bool)) (h : ∀ e ∈ js, Plain e.1.file ∧ Plain e.1.stamp ∧ e.1.origin ≠ [] ∧
    ∀ o ∈ e.1.origin, Plain o) :
    table (js.map fun e => line e.1 e.2).flatten = js.map fun e => row e.1 e.2 := by
  induction js with
  | nil => rfl
  | cons e js ih =>
    obtain ⟨h1, h2, h3, h4⟩ := h e (by simp)
    rw [List.map_cons, List.map_cons, List.flatten_cons, table_line _ _ _ h1 h2 h3 h4,
      ih fun e he => h e (List.mem_cons_of_mem _ he)]

theorem table_header (rest : List Char) : table (header ++ rest) =
    [["file".toList], ["origin".toList], ["mode".toList], ["creation".toList]] :: table rest := by
  have e : header = "file,origin,mode,creation".toList ++ '\n' :: [] := by decide
  unfold table
  rw [e, List.append_assoc, List.cons_append, List.nil_append, splitOn_cons _ _ _ (by decide),
    List.dropLast_cons_of_ne_nil (splitOn_ne _ _), List.map_cons]
  congr 1

/-- C240: as long as nobody holds the lock of a new provenance file and something has been recorded
in it, the file is a table with four named columns and one row per recorded image, in the order in
which they were recorded: the file, all origins, `update` or `create`, and the time (for names
without the characters that separate the columns, entries and lines). -/
theorem c240_table (jobs : P → List Job) (fs : List Char → File) (es : List (Event P)) (n : List Char)
    (hn : ∀ i, ∀ j ∈ jobs i, j.dir ≠ n ∧ j.file ≠ n) (hl : (run jobs fs es).lk n = none)
    (hp : ∀ i, ∀ j ∈ jobs i, Plain j.file ∧ Plain j.stamp ∧ ∀ o ∈ j.origin, Plain o)
    (ha : fs n = .absent) (hr : toProv n (run jobs fs es).log ≠ []) :
    ∃ t us, (run jobs fs es).fs n = .text t ∧ us.length = (toProv n (run jobs fs es).log).length ∧
      table t = [["file".toList], ["origin".toList], ["mode".toList], ["creation".toList]] ::
        List.zipWith row (toProv n (run jobs fs es).log) us ∧
      lines n (run jobs fs es).log (fun m => (fs m).exist) (fun _ => false) =
        List.zipWith line (toProv n (run jobs fs es).log) us := by
  obtain ⟨⟨h1, h2⟩, -⟩ := c240_provenance jobs fs es n hn
  have hj : ∀ j ∈ toProv n (run jobs fs es).log, Plain j.file ∧ Plain j.stamp ∧ j.origin ≠ [] ∧
      ∀ o ∈ j.origin, Plain o := by
    intro j hj
    obtain ⟨e, he, h⟩ := List.mem_filterMap.1 hj
    obtain ⟨k, hk, hkp⟩ := log_part he
    have : e.2 = .prov j := by
      revert h
      cases e.2 with
      | dir => simp
      | file => simp
      | prov j' => dsimp only; split <;> simp
    rw [this] at hkp
    unfold parts at hkp
    rcases List.mem_append.1 hkp with hq | hq
    · simp at hq
    · split at hq
      · rename_i hlen
        have := List.mem_singleton.1 hq
        cases this
        obtain ⟨a, b, c⟩ := hp _ _ hk
        exact ⟨a, b, List.length_pos_iff.1 hlen, c⟩
      · cases hq
  have key : ∀ (js : List Job) (ls : List (List Char)), List.Forall₂ (fun j l => ∃ u, l = line j u) js ls →
      ∃ us, us.length = js.length ∧ ls = List.zipWith line js us := by
    intro js ls h
    induction h with
    | nil => exact ⟨[], rfl, rfl⟩
    | cons h _ ih =>
      obtain ⟨u, rfl⟩ := h
      obtain ⟨us, h1, h2⟩ := ih
      exact ⟨u :: us, by simp [h1], by rw [h2]; rfl⟩
  obtain ⟨us, hu, hz⟩ := key _ _ h2
  have hls : lines n (run jobs fs es).log (fun m => (fs m).exist) (fun _ => false) ≠ [] := by
    rw [hz]
    intro h0
    have := congrArg List.length h0
    rw [List.length_zipWith, hu, Nat.min_self] at this
    exact hr (List.length_eq_zero_iff.1 this)
  rcases (h1 hl).1 ha with ⟨h0, -⟩ | ⟨-, ht⟩
  · exact absurd h0 hls
  · refine ⟨_, us, ht, hu, ?_, hz⟩
    rw [table_header, hz]
    congr 1
    have e : ∀ (α : Type) (f : Job → Bool → α), List.zipWith f (toProv n (run jobs fs es).log) us =
        ((toProv n (run jobs fs es).log).zip us).map fun e => f e.1 e.2 := by
      intro α f
      rw [List.zip, List.map_zipWith]
    rw [e, e]
    exact table_lines _ fun e he => hj e.1 (List.of_mem_zip he).1

/-- A table of two images, the second one an update. -/
example : let j : Job := ⟨['d'], ['p'], ['f'], .mosaic .update, fun _ => -9999, fun _ _ => 5, [['o'], ['q']], ['t']⟩
    let es := List.replicate 28 (Event.go ())
    let w := run (fun _ : Unit => [j, j]) (fun _ => .absent) es
    w.lk ['p'] = none ∧ (toProv ['p'] w.log).length = 2 ∧
    lines ['p'] w.log (fun _ => false) (fun _ => false) = ["f,o;q,create,t\n".toList, "f,o;q,update,t\n".toList] :=
  ⟨rfl, rfl, rfl⟩

/-! ## Directories -/

open Classical in
/-- A path that is only used as a directory, by sections one after the other. -/
theorem serial_dir (n : List Char) (log : List (P × Part)) (fs fs' : List Char → File)
    (loc loc' : P → Loc)
    (hn : ∀ s ∈ log.map Prod.snd, match s with | .file j => j.file ≠ n | .prov j => j.prov ≠ n | .dir _ => True)
    (h : serial Part.name Part.body fs loc log = some (fs', loc')) :
    (fs n ≠ .absent → fs' n = fs n) ∧
    (fs n = .absent → fs' n = if ∃ e ∈ log, ∃ j, e.2 = .dir j ∧ j.dir = n then .dir else .absent) := by
  induction log generalizing fs loc with
  | nil => cases h; exact ⟨fun _ => rfl, fun h => by simp [h]⟩
  | cons e log ih =>
    obtain ⟨i, s⟩ := e
    rw [serial] at h
    cases hb : runBody (Part.body s) (loc i) (fs (Part.name s)) with
    | none => rw [hb] at h; cases h
    | some r =>
      rw [hb, Option.bind_some] at h
      have h0 := hn s (List.mem_cons_self ..)
      have ih := ih _ _ (fun t ht => hn t (List.mem_cons_of_mem _ ht)) h
      by_cases e : Part.name s = n
      · cases s with
        | file j => exact absurd e h0
        | prov j => exact absurd e h0
        | dir j =>
          subst e
          rw [Function.update_self] at ih
          have hr : r.2 = match fs (Part.name (.dir j)) with | .absent => .dir | f => f := by
            simp only [Part.body, runBody, dirStep, Option.bind_some, Option.some.injEq] at hb
            rw [← hb]
            cases fs (Part.name (.dir j)) <;> rfl
          constructor
          · intro hx
            have : r.2 = fs (Part.name (.dir j)) := by
              rw [hr]; revert hx; cases fs (Part.name (.dir j)) <;> simp
            rw [ih.1 (by rw [this]; exact hx), this]
          · intro hx
            rw [hx] at hr
            rw [ih.1 (by rw [hr]; simp), hr, if_pos ⟨(i, .dir j), List.mem_cons_self .., j, rfl, rfl⟩]
      · rw [Function.update_of_ne (Ne.symm e)] at ih
        refine ⟨ih.1, fun hx => (ih.2 hx).trans ?_⟩
        have : (∃ e ∈ (i, s) :: log, ∃ j, e.2 = .dir j ∧ j.dir = n) ↔ ∃ e ∈ log, ∃ j, e.2 = .dir j ∧ j.dir = n := by
          constructor
          · rintro ⟨e', he, j, h1, h2⟩
            rcases List.mem_cons.1 he with rfl | he
            · dsimp only at h1
              subst h1
              exact absurd h2 e
            · exact ⟨e', he, j, h1, h2⟩
          · rintro ⟨e', he, h⟩
            exact ⟨e', List.mem_cons_of_mem _ he, h⟩
        simp only [this]

/-- C239: the directory of a tile that did not exist is there as soon as a process has completed the
first section of a write to it, and not before; what exists already at its path is kept. -/
theorem c239_directory (jobs : P → List Job) (fs : List Char → File) (es : List (Event P)) (n : List Char)
    (hn : ∀ i, ∀ j ∈ jobs i, j.file ≠ n ∧ j.prov ≠ n) (hl : (run jobs fs es).lk n = none) :
    (fs n ≠ .absent → (run jobs fs es).fs n = fs n) ∧
    (fs n = .absent → ((∃ e ∈ (run jobs fs es).log, ∃ j, e.2 = .dir j ∧ j.dir = n) → (run jobs fs es).fs n = .dir) ∧
      ((¬ ∃ e ∈ (run jobs fs es).log, ∃ j, e.2 = .dir j ∧ j.dir = n) → (run jobs fs es).fs n = .absent)) := by
  classical
  obtain ⟨fs', loc', h2, h3, -, -⟩ := (inv_run jobs fs es).state
  rw [h3 n hl]
  have := serial_dir n _ _ _ _ _ ?_ h2
  · refine ⟨this.1, fun ha => ⟨fun h => ?_, fun h => ?_⟩⟩
    · rw [this.2 ha, if_pos h]
    · rw [this.2 ha, if_neg h]
  · intro s hs
    obtain ⟨e, he, rfl⟩ := List.mem_map.1 hs
    obtain ⟨j, hj, hp⟩ := log_part he
    have hh := hn e.1 j hj
    unfold parts at hp
    rcases List.mem_append.1 hp with hp | hp
    · rcases List.mem_cons.1 hp with hp | hp
      · rw [hp]; trivial
      · rw [List.mem_singleton.1 hp]; exact hh.1
    · split at hp
      · rw [List.mem_singleton.1 hp]; exact hh.2
      · cases hp

example : let j : Job := ⟨['d'], ['p'], ['f'], .create, fun _ => -9999, fun _ _ => 5, [['o']], ['t']⟩
    let w := run (fun _ : Unit => [j]) (fun _ => .absent) [.go (), .go (), .go ()]
    w.lk ['d'] = none ∧ w.log.length = 1 ∧ w.fs ['d'] = .dir := ⟨rfl, rfl, rfl⟩

/-- A directory is never replaced by sections. -/
theorem serial_keep (n : List Char) (log : List (P × Part)) (fs fs' : List Char → File)
    (loc loc' : P → Loc) (hd : fs n = .dir)
    (h : serial Part.name Part.body fs loc log = some (fs', loc')) : fs' n = .dir := by
  induction log generalizing fs loc with
  | nil => cases h; exact hd
  | cons e log ih =>
    obtain ⟨i, s⟩ := e
    rw [serial] at h
    cases hb : runBody (Part.body s) (loc i) (fs (Part.name s)) with
    | none => rw [hb] at h; cases h
    | some r =>
      rw [hb, Option.bind_some] at h
      refine ih _ _ ?_ h
      by_cases e : Part.name s = n
      · rw [← e, Function.update_self]
        rw [e, hd] at hb
        cases s with
        | dir j =>
          simp only [Part.body, runBody, dirStep, Option.bind_some, Option.some.injEq] at hb
          rw [← hb]
        | file j =>
          exfalso
          simp only [Part.body, runBody, readStep, createStep] at hb
          cases hm : j.mode <;> rw [hm] at hb <;> simp at hb
        | prov j =>
          exfalso
          simp [Part.body, runBody, existStep, openStep, File.exist] at hb
      · rw [Function.update_of_ne (Ne.symm e), hd]

/-- C239: an existing directory is never replaced by a file, whatever is written to its path. -/
theorem c239_directory_kept (jobs : P → List Job) (fs : List Char → File) (es : List (Event P)) (n : List Char)
    (hd : fs n = .dir) (hl : (run jobs fs es).lk n = none) : (run jobs fs es).fs n = .dir := by
  obtain ⟨fs', loc', h2, h3, -, -⟩ := (inv_run jobs fs es).state
  rw [h3 n hl]
  exact serial_keep n _ _ _ _ _ hd h2

/-! ## Lost images -/

/-- C242, violated: an image that was complete can get lost. Whenever a process updates an image,
there is a moment at which its end (killed, disk full) leaves a file that is no image any more, and
that no other process can write again. -/
theorem c242_lost_violated (j : Job) (m : Brick.Mode) (v : Img) (fs : List Char → File) (hm : j.mode = .mosaic m)
    (hd : j.dir ≠ j.file) (hf : fs j.file = .image v) (others : List Job) :
    ∃ es : List (Event Bool), ∀ more,
      (run (fun i => if i then [j] else others) fs (es ++ more)).fs j.file = .broken ∧
      (run (fun i => if i then [j] else others) fs (es ++ more)).lk j.file = some true := by
  refine ⟨List.replicate 6 (.go true) ++ [.stop true], fun more => ?_⟩
  have e : parts j = .dir j :: .file j :: if j.origin.length > 0 then [.prov j] else [] := rfl
  have key : ((run (fun i => if i then [j] else others) fs (List.replicate 6 (.go true) ++ [.stop true])).fs j.file = .broken ∧
      (run (fun i => if i then [j] else others) fs (List.replicate 6 (.go true) ++ [.stop true])).lk j.file = some true ∧
      ((run (fun i => if i then [j] else others) fs (List.replicate 6 (.go true) ++ [.stop true])).pr true).running = false) := by
    have hne : j.file ≠ j.dir := fun h => hd h.symm
    simp [run, exec, act, go, start, e, Part.name, Part.body, dirStep, readStep, createStep, hm,
      hf, hne, List.replicate]
  obtain ⟨h1, h2, h3⟩ := key
  obtain ⟨k1, k2, -⟩ := c242_stale_violated _ fs _ more j.file true h2 h3
  exact ⟨k1.trans h1, k2⟩

end Verif.Share

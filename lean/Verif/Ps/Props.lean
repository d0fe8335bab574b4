import Mathlib.Data.List.Infix
import Verif.Ps.Model

/-!
# C244, C245
-/

namespace Verif.Ps

/-- The datacubes that are active. -/
def active : Nat → List Bool → List Nat
  | _, [] => []
  | c, b :: r => (if b then [c] else []) ++ active (c + 1) r

theorem mem_active (c d : Nat) (cover : List Bool) : d ∈ active c cover ↔ c ≤ d ∧ cover[d - c]? = some true := by
  induction cover generalizing c with
  | nil => simp [active]
  | cons b r ih =>
    rw [active, List.mem_append, ih]
    rcases Nat.lt_trichotomy d c with h | h | h
    · have h1 : ¬ (c ≤ d) := by omega
      have h2 : ¬ (c + 1 ≤ d) := by omega
      have h3 : ¬ d = c := by omega
      cases b <;> simp [h1, h2, h3]
    · subst h
      have h2 : ¬ (d + 1 ≤ d) := by omega
      cases b <;> simp <;> intro h3 <;> exact absurd h3 h2
    · have e : d - c = (d - (c + 1)) + 1 := by omega
      rw [e, List.getElem?_cons_succ]
      have h3 : ¬ d = c := by omega
      cases b
      · simp; omega
      · simp [h3]; omega

/-- The order of the steps, with and without an area of interest. -/
def order : Bool → List Step
  | false => [.read, .atmosphere, .bounds, .geometry, .reflectance, .topography, .clouds, .coregistration, .resolution,
      .radiometry, .output]
  | true => [.read, .atmosphere, .bounds, .aoi, .geometry, .reflectance, .topography, .clouds, .coregistration, .resolution,
      .radiometry, .output]

theorem steps_eq (aoi : Bool) : steps aoi = order aoi := by cases aoi <;> rfl

/-- Everything that is to be done for the datacubes `cs`. -/
def work (aoi : Bool) (cs : List Nat) : List (Nat × Step) := cs.flatMap fun c => (order aoi).map fun s => (c, s)

theorem pass_cases (res : Nat → Step → Code) (c : Nat) (l : List Step) :
    (pass res c l = (l.map fun s => (c, s), none) ∧ ∀ s ∈ l, goesOn s (res c s) = true) ∨
    ∃ a s b, l = a ++ s :: b ∧ (∀ x ∈ a, goesOn x (res c x) = true) ∧ goesOn s (res c s) = false ∧
      pass res c l = ((a ++ [s]).map fun s => (c, s), some (exitCode s (res c s))) := by
  induction l with
  | nil => exact Or.inl ⟨rfl, by simp⟩
  | cons s l ih =>
    rw [pass]
    by_cases h : goesOn s (res c s) = true
    · rw [if_pos h]
      rcases ih with ⟨h1, h2⟩ | ⟨a, t, b, h1, h2, h3, h4⟩
      · rw [h1]
        exact Or.inl ⟨rfl, fun x hx => by rcases List.mem_cons.1 hx with rfl | hx; exact h; exact h2 x hx⟩
      · rw [h4]
        refine Or.inr ⟨s :: a, t, b, by rw [h1]; rfl, fun x hx => ?_, h3, rfl⟩
        rcases List.mem_cons.1 hx with rfl | hx
        · exact h
        · exact h2 x hx
    · rw [if_neg h]
      exact Or.inr ⟨[], s, l, rfl, by simp, by simpa using h, rfl⟩

/-- Either everything goes on, or there is a first step that ends the program. -/
theorem loop_cases (res : Nat → Step → Code) (aoi : Bool) (c : Nat) (cover : List Bool) :
    (loop res aoi c cover = (work aoi (active c cover), none) ∧
      ∀ e ∈ work aoi (active c cover), goesOn e.2 (res e.1 e.2) = true) ∨
    ∃ a e b, work aoi (active c cover) = a ++ e :: b ∧ (∀ x ∈ a, goesOn x.2 (res x.1 x.2) = true) ∧
      goesOn e.2 (res e.1 e.2) = false ∧ loop res aoi c cover = (a ++ [e], some (exitCode e.2 (res e.1 e.2))) := by
  induction cover generalizing c with
  | nil => exact Or.inl ⟨rfl, by simp [work, active]⟩
  | cons b r ih =>
    cases b with
    | false => exact ih (c + 1)
    | true =>
      have hw : work aoi (active c (true :: r)) = (steps aoi).map (fun s => (c, s)) ++ work aoi (active (c + 1) r) := by
        simp [work, active, steps_eq]
      rw [hw, loop]
      rcases pass_cases res c (steps aoi) with ⟨h1, h2⟩ | ⟨a, s, b, h1, h2, h3, h4⟩
      · rw [h1]
        dsimp only
        have hall : ∀ e ∈ (steps aoi).map (fun s => (c, s)), goesOn e.2 (res e.1 e.2) = true := by
          intro e he
          obtain ⟨s, hs, rfl⟩ := List.mem_map.1 he
          exact h2 s hs
        rcases ih (c + 1) with ⟨g1, g2⟩ | ⟨a, e, b, g1, g2, g3, g4⟩
        · rw [g1]
          refine Or.inl ⟨rfl, fun e he => ?_⟩
          rcases List.mem_append.1 he with he | he
          · exact hall e he
          · exact g2 e he
        · rw [g4, g1]
          refine Or.inr ⟨_ ++ a, e, b, (List.append_assoc ..).symm, fun x hx => ?_, g3, by rw [List.append_assoc]⟩
          rcases List.mem_append.1 hx with hx | hx
          · exact hall x hx
          · exact g2 x hx
      · rw [h4]
        dsimp only
        refine Or.inr ⟨a.map fun s => (c, s), (c, s), b.map (fun s => (c, s)) ++ work aoi (active (c + 1) r), ?_, ?_, h3, ?_⟩
        · rw [h1]; simp
        · intro x hx
          obtain ⟨t, ht, rfl⟩ := List.mem_map.1 hx
          exact h2 t ht
        · simp

theorem goesOn_iff {res : Nat → Step → Code} (hb : ∀ c, res c .bounds ≠ .cancel ∧ res c .geometry ≠ .cancel) (c : Nat)
    (s : Step) : goesOn s (res c s) = true ↔ res c s = .success := by
  have h := hb c
  cases s <;> cases hr : res c _ <;> simp_all [goesOn]

/-- C244: an image is output only after all steps in their order have been successful for this datacube: reading, angles,
conversion, topography, clouds, co-registration, resolution merge and radiometric correction. (`hb`: masks and angles return
SUCCESS or FAILURE only, read-ll.c:148-231, sunview-ll.c:142-235.) -/
theorem c244_order (init : Init → Bool) (res : Nat → Step → Code) (aoi : Bool) (cover : List Bool) (c : Nat)
    (hb : ∀ c, res c .bounds ≠ .cancel ∧ res c .geometry ≠ .cancel)
    (h : (c, .output) ∈ (main init res aoi cover).trace) :
    cover[c]? = some true ∧ (∀ i, init i = true) ∧
    ∀ s, s ≠ .output → (s = .aoi → aoi = true) → res c s = .success ∧ (c, s) ∈ (main init res aoi cover).trace := by
  unfold main at h ⊢
  by_cases hi : inits.all init = true
  swap
  · rw [if_neg hi] at h; cases h
  rw [if_pos hi] at h ⊢
  have hinit : ∀ i, init i = true := by
    intro i
    rw [List.all_eq_true] at hi
    exact hi i (by cases i <;> decide)
  have hstep : ∀ s, (s = .aoi → aoi = true) → s ∈ steps aoi := by intro s; cases aoi <;> cases s <;> decide
  have hsplit : ∃ pre, steps aoi = pre ++ [.output] ∧ .output ∉ pre := by
    cases aoi
    · exact ⟨[.read, .atmosphere, .bounds, .geometry, .reflectance, .topography, .clouds, .coregistration, .resolution,
        .radiometry], rfl, by decide⟩
    · exact ⟨[.read, .atmosphere, .bounds, .aoi, .geometry, .reflectance, .topography, .clouds, .coregistration, .resolution,
        .radiometry], rfl, by decide⟩
  have hgo : ∀ s, (s = .aoi → aoi = true) → ∀ c, goesOn s (res c s) = true → res c s = .success :=
    fun s _ c => (goesOn_iff hb c s).1
  have main' : ∀ (c' : Nat) (cover : List Bool), (c, .output) ∈ (loop res aoi c' cover).1 →
      c ∈ active c' cover ∧ ∀ s, s ≠ .output → (s = .aoi → aoi = true) → res c s = .success ∧ (c, s) ∈ (loop res aoi c' cover).1 := by
    intro c' cover
    induction cover generalizing c' with
    | nil => intro h; cases h
    | cons b r ih =>
      cases b with
      | false => exact ih (c' + 1)
      | true =>
        intro h
        rw [loop] at h ⊢
        rcases pass_cases res c' (steps aoi) with ⟨h1, h2⟩ | ⟨a, s, b, h1, h2, h3, h4⟩
        · rw [h1] at h ⊢
          dsimp only at h ⊢
          rcases List.mem_append.1 h with h | h
          · obtain ⟨t, -, e⟩ := List.mem_map.1 h
            cases e
            refine ⟨by simp [active], fun s _ hs => ⟨hgo s hs _ (h2 s (hstep s hs)), ?_⟩⟩
            exact List.mem_append_left _ (List.mem_map.2 ⟨s, hstep s hs, rfl⟩)
          · obtain ⟨i1, i2⟩ := ih _ h
            refine ⟨List.mem_append_right _ i1, fun s hs ha => ⟨(i2 s hs ha).1, List.mem_append_right _ (i2 s hs ha).2⟩⟩
        · rw [h4] at h ⊢
          dsimp only at h ⊢
          obtain ⟨t, ht, e⟩ := List.mem_map.1 h
          cases e
          obtain ⟨pre, hp, hn⟩ := hsplit
          have hs : s = .output ∧ a = pre := by
            rcases List.mem_append.1 ht with ht | ht
            · exfalso
              have hlen := congrArg List.length (h1.symm.trans hp)
              have : a <+: pre := by
                have h5 : a <+: pre ++ [.output] := ⟨s :: b, by rw [← h1, hp]⟩
                refine List.prefix_of_prefix_length_le h5 (List.prefix_append ..) ?_
                simp at hlen; omega
              exact hn (this.subset ht)
            · have ht := List.mem_singleton.1 ht
              subst ht
              have h5 : a ++ Step.output :: b = pre ++ [Step.output] := h1.symm.trans hp
              have h6 : b = [] := by
                by_contra hb
                have h7 : Step.output :: b ≠ [] := by simp
                obtain ⟨x, y, hxy⟩ : ∃ x y, b = x ++ [y] := ⟨b.dropLast, b.getLast hb, (List.dropLast_append_getLast hb).symm⟩
                rw [hxy] at h5
                have h8 := congrArg List.dropLast h5
                simp only [List.dropLast_concat] at h8
                have : a ++ Step.output :: (x ++ [y]) = (a ++ Step.output :: x) ++ [y] := by simp
                rw [this, List.dropLast_concat] at h8
                exact hn (by rw [← h8]; simp)
              subst h6
              exact ⟨rfl, (List.append_inj_left' h5 rfl)⟩
          obtain ⟨rfl, rfl⟩ := hs
          refine ⟨by simp [active], fun s hso hs => ?_⟩
          have hm : s ∈ a := by
            have := hstep s hs
            rw [hp] at this
            rcases List.mem_append.1 this with h | h
            · exact h
            · exact absurd (List.mem_singleton.1 h) hso
          exact ⟨hgo s hs _ (h2 s hm), List.mem_map.2 ⟨s, List.mem_append_left _ hm, rfl⟩⟩
  have htr : (finish (loop res aoi 0 cover)).trace = (loop res aoi 0 cover).1 := by
    rcases loop res aoi 0 cover with ⟨t, _ | e⟩ <;> rfl
  rw [htr] at h ⊢
  obtain ⟨h1, h2⟩ := main' 0 cover h
  exact ⟨by simpa using ((mem_active ..).1 h1).2, hinit, h2⟩

/-- C244: if every step is successful, every active datacube is output exactly once, in ascending order, no other one is
touched, and the program ends with SUCCESS and writes the citations. -/
theorem c244_complete (init : Init → Bool) (res : Nat → Step → Code) (aoi : Bool) (cover : List Bool)
    (hi : ∀ i, init i = true) (h : ∀ c s, (s = .aoi → aoi = true) → res c s = .success) :
    (main init res aoi cover).code = .success ∧ (main init res aoi cover).cited = true ∧
    (main init res aoi cover).trace = work aoi (active 0 cover) ∧
    ((main init res aoi cover).trace.filterMap fun e => if e.2 = .output then some e.1 else none) =
      (List.range cover.length).filter (fun c => cover[c]? = some true) := by
  have hi : inits.all init = true := by rw [List.all_eq_true]; exact fun i _ => hi i
  have hmem : ∀ s ∈ order aoi, (s = .aoi → aoi = true) := by intro s; cases aoi <;> cases s <;> decide
  have hgo : ∀ e ∈ work aoi (active 0 cover), goesOn e.2 (res e.1 e.2) = true := by
    intro e he
    obtain ⟨c, -, he⟩ := List.mem_flatMap.1 he
    obtain ⟨s, hs, rfl⟩ := List.mem_map.1 he
    dsimp only
    rw [h c s (hmem s hs)]
    cases s <;> rfl
  unfold main
  rw [if_pos hi]
  rcases loop_cases res aoi 0 cover with ⟨h1, -⟩ | ⟨a, e, b, h1, -, h3, -⟩
  · rw [h1]
    refine ⟨rfl, rfl, rfl, ?_⟩
    have key : ∀ cs : List Nat, ((work aoi cs).filterMap fun e => if e.2 = Step.output then some e.1 else none) = cs := by
      intro cs
      induction cs with
      | nil => rfl
      | cons c cs ih =>
        rw [work, List.flatMap_cons, List.filterMap_append]
        rw [work] at ih
        rw [ih]
        cases aoi <;> simp [order]
    show (work aoi (active 0 cover)).filterMap _ = _
    rw [key]
    have gen : ∀ (c : Nat) (cover : List Bool), active c cover =
        ((List.range' c cover.length).filter fun d => cover[d - c]? = some true) := by
      intro c cover
      induction cover generalizing c with
      | nil => rfl
      | cons b r ih =>
        rw [active, ih, List.length_cons, List.range'_succ, List.filter_cons]
        have : ((List.range' (c + 1) r.length).filter fun d => decide ((b :: r)[d - c]? = some true)) =
            ((List.range' (c + 1) r.length).filter fun d => decide (r[d - (c + 1)]? = some true)) := by
          apply List.filter_congr
          intro d hd
          rw [List.mem_range'_1] at hd
          have e : d - c = (d - (c + 1)) + 1 := by omega
          rw [e, List.getElem?_cons_succ]
        rw [this]
        cases b <;> simp
    rw [gen, ← List.range_eq_range']
    rfl
  · rw [hgo e (by rw [h1]; simp)] at h3; cases h3

/-- C244: the program ends with FAILURE exactly if something before the loop fails, or the first step that is not
successful is not the cloud detection with its cancellation. Whatever was output before stays, nothing is output afterwards. -/
theorem c244_failure (init : Init → Bool) (res : Nat → Step → Code) (aoi : Bool) (cover : List Bool)
    (hb : ∀ c, res c .bounds ≠ .cancel ∧ res c .geometry ≠ .cancel)
    (hi : ∀ i, init i = true) (a b : List (Nat × Step)) (e : Nat × Step)
    (hw : work aoi (active 0 cover) = a ++ e :: b) (ha : ∀ x ∈ a, res x.1 x.2 = .success)
    (he : res e.1 e.2 ≠ .success) :
    main init res aoi cover =
      ⟨a ++ [e], false, if e.2 = .clouds ∧ res e.1 e.2 = .cancel then .success else .failure⟩ := by
  have hi : inits.all init = true := by rw [List.all_eq_true]; exact fun i _ => hi i
  have hg : ∀ x : Nat × Step, goesOn x.2 (res x.1 x.2) = true ↔ res x.1 x.2 = .success := by
    rintro ⟨c, s⟩; exact goesOn_iff hb c s
  unfold main
  rw [if_pos hi]
  have hne : goesOn e.2 (res e.1 e.2) ≠ true := fun h => he ((hg e).1 h)
  rcases loop_cases res aoi 0 cover with ⟨h1, h2⟩ | ⟨a', e', b', h1, h2, h3, h4⟩
  · exact absurd (h2 e (by rw [hw]; simp)) hne
  · have same : a' = a ∧ e' = e := by
      rw [hw] at h1
      have gen : ∀ (a a' : List (Nat × Step)), a ++ e :: b = a' ++ e' :: b' →
          (∀ x ∈ a, goesOn x.2 (res x.1 x.2) = true) → (∀ x ∈ a', goesOn x.2 (res x.1 x.2) = true) → a' = a ∧ e' = e := by
        intro a
        induction a with
        | nil =>
          intro a' h _ h'
          cases a' with
          | nil => cases h; exact ⟨rfl, rfl⟩
          | cons x a' => cases h; exact absurd (h' e (by simp)) hne
        | cons y a ih =>
          intro a' h hA h'
          cases a' with
          | nil =>
            cases h
            have := hA e' (by simp)
            rw [h3] at this; cases this
          | cons x a' =>
            simp only [List.cons_append, List.cons.injEq] at h
            obtain ⟨rfl, h⟩ := h
            obtain ⟨r1, r2⟩ := ih a' h (fun x hx => hA x (List.mem_cons_of_mem _ hx)) (fun x hx => h' x (List.mem_cons_of_mem _ hx))
            exact ⟨by rw [r1], r2⟩
      exact gen a a' h1 (fun x hx => (hg x).2 (ha x hx)) h2
    obtain ⟨rfl, rfl⟩ := same
    rw [h4, finish]
    congr 1
    obtain ⟨c, s⟩ := e'
    dsimp only at he ⊢
    cases s <;> cases hr : res c _ <;> simp [exitCode] <;> exact absurd hr he

/-- C244: an image that is cancelled because of its clouds is not output at all, and the program ends with SUCCESS (the
cloud detection does not depend on the datacube). -/
theorem c244_cancelled (init : Init → Bool) (res : Nat → Step → Code) (aoi : Bool) (cover : List Bool)
    (hb : ∀ c, res c .bounds ≠ .cancel ∧ res c .geometry ≠ .cancel)
    (h : ∀ c, res c .clouds = .cancel) (c : Nat) : (c, .output) ∉ (main init res aoi cover).trace := by
  intro hm
  have := ((c244_order init res aoi cover c hb hm).2.2 .clouds (by decide) (by simp)).1
  rw [h c] at this; cases this

/-- Two of three datacubes are active; the second one fails in the radiometric correction. -/
example : main (fun _ => true) (fun c s => if c = 2 ∧ s = .radiometry then .failure else .success) false [true, false, true] =
    ⟨(steps false).map (fun s => (0, s)) ++ (steps false).dropLast.map (fun s => (2, s)), false, .failure⟩ := by decide

example : (main (fun _ => true) (fun _ s => if s = .clouds then .cancel else .success) true [true]).code = .success ∧
    ((main (fun _ => true) (fun _ s => if s = .clouds then .cancel else .success) true [true]).trace.length = 8) := by decide

/-! ## C245 -/

/-- C245: the parameters are accepted exactly if an aerosol file is given when the aerosol is not estimated, there is a DEM
when the topography is corrected, there is a DEM database when it is to be used, and there are output options when the
format is user-defined. -/
theorem c245_accepted (exist : List Char → Bool) (p : Par) :
    (check exist p).isSome = true ↔
      (p.doAod = false → p.dirAod ≠ "NULL".toList ∧ exist p.dirAod = true) ∧
      (p.doAtmo = true → p.doTopo = true → exist p.fileDem = true) ∧
      (p.useDemDatabase = true → p.fileDem ≠ "NULL".toList ∧ exist p.fileDem = true) ∧
      (p.custom = true → p.fileOptions ≠ "NULL".toList ∧ exist p.fileOptions = true) := by
  have hk : (check exist p).isSome = true ↔
      (¬ (p.doAod = false ∧ (p.dirAod = null ∨ exist p.dirAod = false)) ∧
       ¬ ((switch p).doTopo = true ∧ exist (switch p).fileDem = false) ∧
       ¬ ((switch p).useDemDatabase = true ∧ (switch p).fileDem = null) ∧
       ¬ ((switch p).useDemDatabase = true ∧ exist (switch p).fileDem = false) ∧
       ¬ ((switch p).custom = true ∧ ((switch p).fileOptions = null ∨ exist (switch p).fileOptions = false))) := by
    unfold check
    simp only [Bool.not_eq_true']
    by_cases h1 : p.doAod = false ∧ (p.dirAod = null ∨ exist p.dirAod = false)
    · rw [if_pos h1]; simp [h1]
    rw [if_neg h1]
    by_cases h2 : (switch p).doTopo = true ∧ exist (switch p).fileDem = false
    · rw [if_pos h2]; simp [h2]
    rw [if_neg h2]
    by_cases h3 : (switch p).useDemDatabase = true ∧ (switch p).fileDem = null
    · rw [if_pos h3]; simp [h3]
    rw [if_neg h3]
    by_cases h4 : (switch p).useDemDatabase = true ∧ exist (switch p).fileDem = false
    · rw [if_pos h4]; simp [h4]
    rw [if_neg h4]
    by_cases h5 : (switch p).custom = true ∧ ((switch p).fileOptions = null ∨ exist (switch p).fileOptions = false)
    · rw [if_pos h5]; simp [h5]
    rw [if_neg h5]
    exact ⟨fun _ => ⟨h1, h2, h3, h4, h5⟩, fun _ => rfl⟩
  have e1 : (switch p).fileDem = p.fileDem := by unfold switch; split <;> rfl
  have e2 : (switch p).useDemDatabase = p.useDemDatabase := by unfold switch; split <;> rfl
  have e3 : (switch p).custom = p.custom := by unfold switch; split <;> rfl
  have e4 : (switch p).fileOptions = p.fileOptions := by unfold switch; split <;> rfl
  have e5 : (switch p).doTopo = true ↔ p.doAtmo = true ∧ p.doTopo = true := by
    unfold switch; split <;> simp_all
  rw [hk, e1, e2, e3, e4, e5]
  show _ ↔ (_ → p.dirAod ≠ null ∧ _) ∧ _ ∧ (_ → p.fileDem ≠ null ∧ _) ∧ (_ → p.fileOptions ≠ null ∧ _)
  have hb : ∀ b : Bool, b = true ↔ ¬ b = false := by intro b; cases b <;> simp
  rw [hb (exist p.dirAod), hb (exist p.fileDem), hb (exist p.fileOptions)]
  constructor
  · rintro ⟨h1, h2, h3, h4, h5⟩
    refine ⟨fun h => ⟨fun g => h1 ⟨h, Or.inl g⟩, fun g => h1 ⟨h, Or.inr g⟩⟩, fun h h' g => h2 ⟨⟨h, h'⟩, g⟩,
      fun h => ⟨fun g => h3 ⟨h, g⟩, fun g => h4 ⟨h, g⟩⟩, fun h => ⟨fun g => h5 ⟨h, Or.inl g⟩, fun g => h5 ⟨h, Or.inr g⟩⟩⟩
  · rintro ⟨h1, h2, h3, h4⟩
    refine ⟨?_, fun h => h2 h.1.1 h.1.2 h.2, fun h => (h3 h.1).1 h.2, fun h => (h3 h.1).2 h.2, ?_⟩
    · rintro ⟨h, g | g⟩
      · exact (h1 h).1 g
      · exact (h1 h).2 g
    · rintro ⟨h, g | g⟩
      · exact (h4 h).1 g
      · exact (h4 h).2 g

/-- C245: without atmospheric correction, neither aerosol estimation, nor BRDF, topographic or adjacency correction are
done; with atmospheric correction the settings stay as given. Other settings are not changed. -/
theorem c245_switches (exist : List Char → Bool) (p q : Par) (h : check exist p = some q) :
    q.doAtmo = p.doAtmo ∧ q.doAod = (p.doAtmo && p.doAod) ∧ q.doBrdf = (p.doAtmo && p.doBrdf) ∧
    q.doTopo = (p.doAtmo && p.doTopo) ∧ q.doEnv = (p.doAtmo && p.doEnv) ∧ q.useDemDatabase = p.useDemDatabase ∧
    q.dirAod = p.dirAod ∧ q.fileDem = p.fileDem ∧ q.custom = p.custom ∧ q.fileOptions = p.fileOptions := by
  have hq : q = switch p := by
    unfold check at h
    split at h
    · cases h
    dsimp only at h
    repeat' split at h
    all_goals first | (cases h; done) | exact (Option.some.inj h).symm
  subst hq
  obtain ⟨a1, a2, a3, a4, a5, a6, d, f, a7, o⟩ := p
  cases a1 <;> simp [switch]

example : (check (fun n => n = "dem.tif".toList) ⟨true, true, true, true, true, false, null, "dem.tif".toList, false, null⟩).isSome = true := by
  decide

theorem joinProj_eq (size : Nat) (w : List Char) (ws : List (List Char))
    (h : ((w :: ws).intersperse [' ']).flatten.length < size) :
    joinProj size (w :: ws) = ((w :: ws).intersperse [' ']).flatten := by
  rw [joinProj]
  induction ws generalizing w with
  | nil => simp
  | cons x ws ih =>
    rw [List.foldl_cons]
    have e : ((w :: x :: ws).intersperse [' ']).flatten = (((w ++ [' '] ++ x) :: ws).intersperse [' ']).flatten := by
      cases ws <;> simp
    rw [e] at h ⊢
    have hl : (w ++ [' '] ++ x).length ≤ (((w ++ [' '] ++ x) :: ws).intersperse [' ']).flatten.length := by
      cases ws <;> simp
    generalize hL : (((w ++ [' '] ++ x) :: ws).intersperse [' ']).flatten.length = L at h hl
    have h1 : [' '].take (size - w.length - 1) = [' '] := by
      apply List.take_of_length_le
      simp at hl ⊢; omega
    have h2 : x.take (size - (w ++ [' ']).length - 1) = x := by
      apply List.take_of_length_le
      simp at hl ⊢; omega
    dsimp only
    rw [h1, h2]
    exact ih _ (by rw [hL]; exact h)

/-- C245: a projection in several words is the text of these words with one blank in between (up to 1023 characters). -/
theorem c245_projection (w : List Char) (ws : List (List Char))
    (h : ((w :: ws).intersperse [' ']).flatten.length < 1024) :
    joinProj 1024 (w :: ws) = ((w :: ws).intersperse [' ']).flatten := joinProj_eq 1024 w ws h

/-- C245: longer projections are cut off after 1023 characters; the buffer is never exceeded. -/
theorem c245_cut (w : List Char) (ws : List (List Char)) (hw : w.length < 1024) :
    (joinProj 1024 (w :: ws)).length < 1024 ∧ joinProj 1024 (w :: ws) <+: ((w :: ws).intersperse [' ']).flatten := by
  have gen : ∀ (ws : List (List Char)) (w full : List Char), w.length < 1024 → (w = full ∨ (w <+: full ∧ w.length = 1023)) →
      (joinProj 1024 (w :: ws)).length < 1024 ∧ joinProj 1024 (w :: ws) <+: ((full :: ws).intersperse [' ']).flatten := by
    intro ws
    induction ws with
    | nil =>
      intro w full h1 h2
      refine ⟨by simpa [joinProj] using h1, ?_⟩
      rcases h2 with rfl | ⟨h2, -⟩
      · simp [joinProj]
      · simpa [joinProj] using h2
    | cons x ws ih =>
      intro w full h1 h2
      have e : ((full :: x :: ws).intersperse [' ']).flatten = (((full ++ [' '] ++ x) :: ws).intersperse [' ']).flatten := by
        cases ws <;> simp
      rw [e]
      have step : joinProj 1024 (w :: x :: ws) = joinProj 1024
          ((w ++ [' '].take (1024 - w.length - 1) ++ x.take (1024 - (w ++ [' '].take (1024 - w.length - 1)).length - 1)) :: ws) := by
        rw [joinProj, List.foldl_cons]; rfl
      rw [step]
      apply ih
      · simp only [List.length_append, List.length_take]; simp; omega
      · rcases h2 with rfl | ⟨h2, h3⟩
        · by_cases hlt : w.length = 1023
          · right
            have : [' '].take (1024 - w.length - 1) = [] := by rw [hlt]; rfl
            rw [this, List.append_nil, hlt]
            refine ⟨by simp [List.append_assoc], by simp [hlt]⟩
          · have h1' : [' '].take (1024 - w.length - 1) = [' '] := by
              apply List.take_of_length_le; simp; omega
            rw [h1']
            by_cases hx : x.length ≤ 1024 - (w ++ [' ']).length - 1
            · left; rw [List.take_of_length_le hx]
            · right
              constructor
              · rw [List.prefix_append_right_inj]; exact List.take_prefix ..
              · rw [List.length_append, List.length_take]; simp at hx ⊢; omega
        · right
          have : [' '].take (1024 - w.length - 1) = [] := by rw [h3]; rfl
          rw [this, List.append_nil, h3]
          refine ⟨?_, by simp [h3]⟩
          simp only [Nat.reduceSub, List.take_zero, List.append_nil]
          exact h2.trans (by simp [List.append_assoc])
  exact gen ws w w hw (Or.inl rfl)

example : joinProj 1024 ["EPSG:3035".toList] = "EPSG:3035".toList := by decide
example : joinProj 1024 ["GEOGCS[".toList, "a]".toList] = "GEOGCS[ a]".toList := by decide

end Verif.Ps

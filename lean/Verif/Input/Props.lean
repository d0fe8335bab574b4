import Verif.Input.Model
import Verif.Qai.Props

/-!
# C261–C263: what a chunk is computed from -/

namespace Verif.Input
open Verif

/-! ## Lemmas -/

theorem small_one (x : Int) (h : 0 ≤ x) (h2 : x < 256) : small x = 1 ↔ x = 1 := by
  unfold small; omega

theorem binary_get (v : List Int) (p : Nat) : (binary v).getD p 0 ≠ 0 ↔ v[p]? = some 1 := by
  unfold binary
  rw [List.getD_eq_getElem?_getD, List.getElem?_map]
  cases h : v[p]? with
  | none => simp
  | some x => by_cases hx : x = 1 <;> simp [hx]

theorem mapM_none {α β : Type} (f : α → Option β) (l : List α) : l.mapM f = none ↔ ∃ x ∈ l, f x = none := by
  induction l with
  | nil => simp
  | cons a l ih =>
    rw [List.mapM_cons]
    cases h : f a with
    | none => simp [h]
    | some b =>
      cases h2 : l.mapM f with
      | none =>
        rw [h2] at ih
        obtain ⟨x, hx, hf⟩ := ih.1 rfl
        simp only [List.mem_cons]
        exact ⟨fun _ => ⟨x, Or.inr hx, hf⟩, fun _ => rfl⟩
      | some r =>
        rw [h2] at ih
        constructor
        · intro hh; simp at hh
        · rintro ⟨x, hx, hf⟩
          rcases List.mem_cons.1 hx with rfl | hx
          · rw [h] at hf; cases hf
          · exact absurd (ih.2 ⟨x, hx, hf⟩) (by simp)

theorem mapM_get {α β : Type} (f : α → Option β) : ∀ (l : List α) (r : List β), l.mapM f = some r →
    r.length = l.length ∧ ∀ i : Nat, r[i]? = l[i]?.bind f := by
  intro l
  induction l with
  | nil => intro r h; simp at h; subst h; simp
  | cons a l ih =>
    intro r h
    rw [List.mapM_cons] at h
    cases ha : f a with
    | none => simp [ha] at h
    | some b =>
      cases hl : l.mapM f with
      | none => simp [ha, hl] at h
      | some r' =>
        simp [ha, hl] at h
        subst h
        obtain ⟨h1, h2⟩ := ih r' hl
        refine ⟨by simp [h1], fun i => ?_⟩
        cases i with
        | zero => simp [ha]
        | succ i => simpa using h2 i

/-- The mask that is used, and what the file holds. -/
theorem mask_some (par : Par) (disk : Disk) (t : Int × Int) (s : Status) (v : List Int)
    (h : readMask par disk t = some (s, some v)) :
    par.dMask ≠ "NULL".toList ∧ ∃ f w, disk (path par.dMask t par.bMask) = some f ∧ f[0]? = some (some w) ∧
      v = binary (w.map small) ∧ ∃ x ∈ w, small x = 1 := by
  unfold readMask at h
  by_cases h0 : par.dMask = "NULL".toList
  · rw [if_pos h0] at h; cases h
  rw [if_neg h0] at h
  by_cases h1 : (par.dMask ++ '/' :: Halo.name t).length ≥ 1024
  · rw [if_pos h1] at h; cases h
  rw [if_neg h1] at h
  refine ⟨h0, ?_⟩
  cases hf : disk (path par.dMask t par.bMask) with
  | none => rw [hf] at h; cases h
  | some f =>
    rw [hf] at h
    dsimp only at h
    by_cases h2 : (path par.dMask t par.bMask).length ≥ 1024
    · rw [if_pos h2] at h; cases h
    rw [if_neg h2] at h
    cases hw : f[0]?.join with
    | none => rw [hw] at h; cases h
    | some w =>
      rw [hw] at h
      dsimp only at h
      by_cases h3 : ((w.map small).filter fun x => x = 1).length = 0
      · rw [if_pos h3] at h; cases h
      rw [if_neg h3] at h
      refine ⟨f, w, rfl, ?_, ?_, ?_⟩
      · cases hh : f[0]? with
        | none => rw [hh] at hw; cases hw
        | some o => rw [hh] at hw; cases o <;> simp_all
      · injection h with h; injection h with _ h; injection h with h; exact h.symm
      · obtain ⟨y, hy⟩ := List.exists_mem_of_length_pos (Nat.pos_of_ne_zero h3)
        obtain ⟨hy1, hy2⟩ := List.mem_filter.1 hy
        obtain ⟨x, hx, rfl⟩ := List.mem_map.1 hy1
        exact ⟨x, hx, by simpa using hy2⟩

/-- There is no mask: the parameter is NULL, or the chunk is skipped. -/
theorem mask_none (par : Par) (disk : Disk) (t : Int × Int) (s : Status)
    (h : readMask par disk t = some (s, none)) : s = .success ↔ par.dMask = "NULL".toList := by
  unfold readMask at h
  by_cases h0 : par.dMask = "NULL".toList
  · rw [if_pos h0] at h
    injection h with h; injection h with h _
    exact ⟨fun _ => h0, fun _ => h.symm⟩
  rw [if_neg h0] at h
  refine ⟨fun hs => ?_, fun hs => absurd hs h0⟩
  subst hs
  by_cases h1 : (par.dMask ++ '/' :: Halo.name t).length ≥ 1024
  · rw [if_pos h1] at h; cases h
  rw [if_neg h1] at h
  cases hf : disk (path par.dMask t par.bMask) with
  | none => rw [hf] at h; cases h
  | some f =>
    rw [hf] at h
    dsimp only at h
    by_cases h2 : (path par.dMask t par.bMask).length ≥ 1024
    · rw [if_pos h2] at h; cases h
    rw [if_neg h2] at h
    cases hw : f[0]?.join with
    | none => rw [hw] at h; cases h
    | some w =>
      rw [hw] at h
      dsimp only at h
      by_cases h3 : ((w.map small).filter fun x => x = 1).length = 0
      · rw [if_pos h3] at h; cases h
      · rw [if_neg h3] at h; cases h

/-- What a unit that is computed holds. -/
theorem unit_spec (m : Module) (par : Par) (disk : Disk) (t : Int × Int) (a1 a2 : Int × List Obs) (u : Unit)
    (h : readUnit m par disk t a1 a2 = some u) (hc : u.nt1 > 0) :
    (∃ s, readMask par disk t = some (s, u.mask) ∧ (u.mask = none → s = .success)) ∧
    (u.nt1, u.ard1) = readLevel (level1 m) par disk t a1 ∧
    (u.nt2, u.ard2) = readLevel (level2 m) par disk t a2 := by
  unfold readUnit at h
  cases hm : readMask par disk t with
  | none => rw [hm] at h; cases h
  | some sm =>
    obtain ⟨s, mask⟩ := sm
    rw [hm] at h
    simp only [Option.pure_def, Option.bind_eq_bind, Option.bind_some] at h
    by_cases h1 : mask.isNone ∧ s ≠ .success
    · rw [if_pos h1] at h
      injection h with h; subst h
      exact absurd hc (by simp)
    rw [if_neg h1] at h
    by_cases h2 : (readLevel (level1 m) par disk t a1).2.isEmpty ∧ (readLevel (level1 m) par disk t a1).1 < 0
    · rw [if_pos h2] at h
      injection h with h; subst h
      exact absurd hc (by simpa using h2.2.le)
    rw [if_neg h2] at h
    injection h with h; subst h
    refine ⟨⟨s, rfl, fun hn => ?_⟩, rfl, rfl⟩
    by_contra hs
    exact h1 ⟨by rw [show mask = none from hn]; rfl, hs⟩

theorem features_pos (par : Par) (disk : Disk) (t : Int × Int) (h : (readFeatures par disk t).1 > 0) :
    (∀ f ∈ par.ftr, lacking disk par.dLower t f.1 = false) ∧
    par.ftr.mapM (feature disk par.dLower par.ftrNodata t) = some (readFeatures par disk t).2 ∧
    (readFeatures par disk t).1 = par.ftr.length := by
  unfold readFeatures at h ⊢
  cases ha : par.ftr.any fun f => lacking disk par.dLower t f.1 with
  | true => rw [ha] at h; simp at h
  | false =>
    rw [ha] at h
    cases hm : par.ftr.mapM (feature disk par.dLower par.ftrNodata t) with
    | none => rw [hm] at h; simp at h
    | some l =>
      refine ⟨fun f hf => ?_, by simp, by simp⟩
      simpa using (List.any_eq_false.1 ha) f hf

theorem fields_pos (par : Par) (disk : Disk) (t : Int × Int) (h : (readConfield par disk t).1 > 0) :
    par.con.mapM (field disk par.dCon t) = some (readConfield par disk t).2 ∧
    (readConfield par disk t).1 = par.con.length := by
  unfold readConfield at h ⊢
  cases ha : par.con.any fun f => lacking disk par.dCon t f with
  | true => rw [ha] at h; simp at h
  | false =>
    rw [ha] at h
    cases hm : par.con.mapM (field disk par.dCon t) with
    | none => rw [hm] at h; simp at h
    | some l => exact ⟨by simp, by simp⟩

/-! ## The processing mask -/

/-- The band `b` (from 1) of the file `d/X…_Y…/name` of the tile holds the pixels `v`. -/
def Holds (disk : Disk) (d : List Char) (t : Int × Int) (name : List Char) (b : Nat) (v : List Int) : Prop :=
  ∃ f, disk (d ++ "/".toList ++ Halo.name t ++ "/".toList ++ name) = some f ∧ 1 ≤ b ∧ f[b - 1]? = some (some v)

theorem path_eq (d : List Char) (t : Int × Int) (n : List Char) :
    path d t n = d ++ "/".toList ++ Halo.name t ++ "/".toList ++ n := by
  unfold path
  rw [show "/".toList = ['/'] from rfl]
  simp

/-- C261: nothing is computed in a tile without a mask file, or in a chunk where no pixel of the mask is 1, whichever
module runs and whatever data there are. -/
theorem c261_skip (m : Module) (par : Par) (disk : Disk) (t : Int × Int) (a1 a2 : Int × List Obs) (u : Unit)
    (hd : par.dMask ≠ "NULL".toList)
    (hm : ∀ v, Holds disk par.dMask t par.bMask 1 v → ∀ x ∈ v, 0 ≤ x ∧ x < 256 ∧ x ≠ 1)
    (h : readUnit m par disk t a1 a2 = some u) : computes m u = false := by
  by_contra hc
  have hc : computes m u = true := by simpa using hc
  have hn : u.nt1 > 0 := by
    unfold computes at hc
    simpa using (Bool.and_eq_true_iff.1 hc).1
  obtain ⟨⟨s, hs, hn2⟩, -, -⟩ := unit_spec m par disk t a1 a2 u h hn
  cases hv : u.mask with
  | none =>
    rw [hv] at hs
    exact hd ((mask_none par disk t s hs).1 (hn2 hv))
  | some v =>
    rw [hv] at hs
    obtain ⟨-, f, w, hf, hw, -, x, hx, h1⟩ := mask_some par disk t s v hs
    obtain ⟨k1, k2, k3⟩ := hm w ⟨f, by rw [← path_eq]; exact hf, le_refl 1, hw⟩ x hx
    exact k3 ((small_one x k1 k2).1 h1)

/-- C261: of a chunk that is computed only the pixels with mask 1 are used (all pixels if there is no mask), whichever
quality rules and schedule; the values of the mask are numbers from 0 to 255. -/
theorem c261_pixels_partial (m : Module) (par : Par) (disk : Disk) (t : Int × Int) (a1 a2 : Int × List Obs) (u : Unit)
    (rule : Qai.Rule) (init : Nat → Nat → Bool) (schedule : List Nat) (i p : Nat) (sel : List Qai.QaiEnum)
    (hr : rule = Qai.parseQuality sel) (hp : p ∈ schedule)
    (hm : ∀ v, Holds disk par.dMask t par.bMask 1 v → ∀ x ∈ v, 0 ≤ x ∧ x < 256)
    (h : readUnit m par disk t a1 a2 = some u) (hc : computes m u = true)
    (hu : usable m u rule init schedule i p = true) :
    par.dMask = "NULL".toList ∨ ∃ v, Holds disk par.dMask t par.bMask 1 v ∧ v[p]? = some 1 := by
  have hn : u.nt1 > 0 := by
    unfold computes at hc
    simpa using (Bool.and_eq_true_iff.1 hc).1
  obtain ⟨⟨s, hs, hn2⟩, -, -⟩ := unit_spec m par disk t a1 a2 u h hn
  unfold usable at hu
  rw [hr] at hu
  have hscr := ((Qai.c09_screening _ _ _ _ _ _ _ _ hp).1 hu).1
  cases hv : u.mask with
  | none => rw [hv] at hs; exact Or.inl ((mask_none par disk t s hs).1 (hn2 hv))
  | some v =>
    rw [hv] at hs hscr
    obtain ⟨-, f, w, hf, hw, hvw, -⟩ := mask_some par disk t s v hs
    have hH : Holds disk par.dMask t par.bMask 1 w := ⟨f, by rw [← path_eq]; exact hf, le_refl 1, hw⟩
    refine Or.inr ⟨w, hH, ?_⟩
    have h1 := hscr _ rfl
    rw [hvw, decide_eq_true_eq, binary_get, List.getElem?_map] at h1
    cases hx : w[p]? with
    | none => rw [hx] at h1; cases h1
    | some x =>
      rw [hx] at h1
      obtain ⟨k1, k2⟩ := hm w hH x (List.mem_of_getElem? hx)
      injection h1 with h1
      rw [(small_one x k1 k2).1 h1]

/-! ## Features -/

theorem lacking_false (disk : Disk) (d : List Char) (t : Int × Int) (b : List Char)
    (h : lacking disk d t b = false) : ∃ f, disk (path d t b) = some f := by
  unfold lacking at h
  have := (Bool.or_eq_false_iff.1 h).2
  cases hd : disk (path d t b) with
  | none => rw [hd] at this; cases this
  | some f => exact ⟨f, rfl⟩

theorem feature_spec (disk : Disk) (d : List Char) (nodata : Int) (t : Int × Int) (f : List Char × Nat) (o : Obs) :
    feature disk d nodata t f = some o ↔
      ∃ v, Holds disk d t f.1 f.2 v ∧ o = ⟨[v], v.map fun x => if x = nodata then Qai.set .off 0#16 1 else 0#16⟩ := by
  unfold feature Holds
  rw [path_eq]
  cases disk (d ++ "/".toList ++ Halo.name t ++ "/".toList ++ f.1) with
  | none => simp
  | some file =>
    by_cases h0 : f.2 = 0
    · simp [h0]
    · have h1 : 1 ≤ f.2 := Nat.pos_of_ne_zero h0
      cases hf : file[f.2 - 1]? with
      | none => simp [h0, hf]
      | some o' =>
        cases o' with
        | none => simp [h0, hf]
        | some v =>
          simp only [Option.bind_eq_bind, Option.bind_some, h0, if_false, hf, Option.join_some, Option.pure_def,
            Option.some.injEq]
          constructor
          · rintro rfl; exact ⟨v, ⟨file, rfl, h1, by rw [hf]⟩, rfl⟩
          · rintro ⟨w, ⟨f', rfl, -, hw⟩, rfl⟩
            rw [hf] at hw; injection hw with hw; injection hw with hw; subst hw; rfl

/-- C262: if a chunk is computed from features, all features could be read, in the given order. -/
theorem c262_complete (m : Module) (hl : m = .ml ∨ m = .smp ∨ m = .txt ∨ m = .lsm ∨ m = .lib)
    (par : Par) (disk : Disk) (t : Int × Int) (a1 a2 : Int × List Obs) (u : Unit)
    (h : readUnit m par disk t a1 a2 = some u) (hc : computes m u = true) :
    u.nt1 = par.ftr.length ∧ u.ard1.length = par.ftr.length ∧
    ∀ (i : Nat) (f : List Char × Nat), par.ftr[i]? = some f →
      ∃ v, Holds disk par.dLower t f.1 f.2 v ∧ u.ard1[i]?.map (·.bands) = some [v] := by
  have hn : u.nt1 > 0 := by
    unfold computes at hc
    simpa using (Bool.and_eq_true_iff.1 hc).1
  obtain ⟨-, h1, -⟩ := unit_spec m par disk t a1 a2 u h hn
  have hlev : level1 m = .ftr := by rcases hl with rfl | rfl | rfl | rfl | rfl <;> rfl
  rw [hlev] at h1
  have h1 : (u.nt1, u.ard1) = readFeatures par disk t := h1
  have e1 : (readFeatures par disk t).1 = u.nt1 := by rw [← h1]
  have e2 : (readFeatures par disk t).2 = u.ard1 := by rw [← h1]
  obtain ⟨-, k2, k3⟩ := features_pos par disk t (by rw [e1]; exact hn)
  rw [e2] at k2
  rw [e1] at k3
  obtain ⟨g1, g2⟩ := mapM_get _ _ _ k2
  refine ⟨k3, g1, fun i f hf => ?_⟩
  have := g2 i
  rw [hf] at this
  dsimp only [Option.bind] at this
  have hi : i < u.ard1.length := by
    rw [g1]; exact (List.getElem?_eq_some_iff.1 hf).1
  rw [List.getElem?_eq_getElem hi] at this
  obtain ⟨v, hv, ho⟩ := (feature_spec disk par.dLower par.ftrNodata t f _).1 this.symm
  exact ⟨v, hv, by rw [List.getElem?_eq_getElem hi, Option.map_some, ho]⟩

/-- C262: a pixel of a feature is used iff the mask allows it and it is not FEATURE_NODATA, whatever the schedule. -/
theorem c262_usable (m : Module) (hl : m = .ml ∨ m = .smp ∨ m = .txt ∨ m = .lsm ∨ m = .lib)
    (par : Par) (disk : Disk) (t : Int × Int) (a1 a2 : Int × List Obs) (u : Unit)
    (h : readUnit m par disk t a1 a2 = some u) (hc : computes m u = true)
    (hm : ∀ v, Holds disk par.dMask t par.bMask 1 v → ∀ x ∈ v, 0 ≤ x ∧ x < 256)
    (init : Nat → Nat → Bool) (schedule : List Nat) (i p : Nat) (hp : p ∈ schedule) (f : List Char × Nat)
    (hf : par.ftr[i]? = some f) (v : List Int) (x : Int) (hv : Holds disk par.dLower t f.1 f.2 v) (hx : v[p]? = some x) :
    usable m u Qai.Rule.none init schedule i p = true ↔
      (par.dMask = "NULL".toList ∨ ∃ w, Holds disk par.dMask t par.bMask 1 w ∧ w[p]? = some 1) ∧ x ≠ par.ftrNodata := by
  have hn : u.nt1 > 0 := by
    unfold computes at hc
    simpa using (Bool.and_eq_true_iff.1 hc).1
  obtain ⟨⟨s, hs, hn2⟩, h1, -⟩ := unit_spec m par disk t a1 a2 u h hn
  have hlev : level1 m = .ftr := by rcases hl with rfl | rfl | rfl | rfl | rfl <;> rfl
  rw [hlev] at h1
  have h1 : (u.nt1, u.ard1) = readFeatures par disk t := h1
  have e1 : (readFeatures par disk t).1 = u.nt1 := by rw [← h1]
  have e2 : (readFeatures par disk t).2 = u.ard1 := by rw [← h1]
  obtain ⟨-, k2, -⟩ := features_pos par disk t (by rw [e1]; exact hn)
  rw [e2] at k2
  have g := (mapM_get _ _ _ k2).2 i
  rw [hf] at g
  dsimp only [Option.bind] at g
  rw [(feature_spec disk par.dLower par.ftrNodata t f _).2 ⟨v, hv, rfl⟩] at g
  unfold usable
  rw [show Qai.Rule.none = Qai.parseQuality [] from rfl, Qai.c09_screening _ _ _ _ _ _ _ _ hp, hlev, g]
  have hq : ((((some (⟨[v], v.map fun x => if x = par.ftrNodata then Qai.set .off 0#16 1 else 0#16⟩ : Obs)).map
      (·.qai)).getD [])[p]?).getD 0#16 = if x = par.ftrNodata then Qai.set .off 0#16 1 else 0#16 := by
    simp [List.getElem?_map, hx]
  rw [hq]
  have hoff : Qai.Spec.value .off (if x = par.ftrNodata then Qai.set .off 0#16 1 else 0#16) = 0 ↔ x ≠ par.ftrNodata := by
    by_cases he : x = par.ftrNodata
    · rw [if_pos he]; exact ⟨fun hh => absurd hh (by decide), fun hh => absurd he hh⟩
    · rw [if_neg he]; exact ⟨fun _ => he, fun _ => by decide⟩
  have hmask : (∀ mk, (u.mask.map fun v p => decide (v.getD p 0 ≠ 0)) = some mk → mk p = true) ↔
      (par.dMask = "NULL".toList ∨ ∃ w, Holds disk par.dMask t par.bMask 1 w ∧ w[p]? = some 1) := by
    cases hv : u.mask with
    | none =>
      rw [hv] at hs
      exact ⟨fun _ => Or.inl ((mask_none par disk t s hs).1 (hn2 hv)), fun _ mk hh => by cases hh⟩
    | some mv =>
      rw [hv] at hs
      obtain ⟨hd, fl, w, hfl, hw, hvw, -⟩ := mask_some par disk t s mv hs
      have hH : Holds disk par.dMask t par.bMask 1 w := ⟨fl, by rw [← path_eq]; exact hfl, le_refl 1, hw⟩
      have key : (decide (mv.getD p 0 ≠ 0) = true) ↔ w[p]? = some 1 := by
        rw [hvw, decide_eq_true_eq, binary_get, List.getElem?_map]
        cases hx : w[p]? with
        | none => simp
        | some y =>
          obtain ⟨k1, k2⟩ := hm w hH y (List.mem_of_getElem? hx)
          rw [Option.map_some, Option.some.injEq, Option.some.injEq]
          exact small_one y k1 k2
      constructor
      · intro hh; exact Or.inr ⟨w, hH, key.1 (hh _ rfl)⟩
      · rintro (hh | ⟨w', ⟨fl', hfl', -, hw'⟩, hh⟩)
        · exact absurd hh hd
        · rintro mk ⟨⟩
          rw [← path_eq, hfl] at hfl'
          injection hfl' with hfl'; subst hfl'
          rw [hw] at hw'; injection hw' with hw'; injection hw' with hw'; subst hw'
          exact key.2 hh
  rw [hmask, ← hoff]
  simp

/-- C262: if one feature of a tile is missing or cannot be read, nothing is computed. -/
theorem c262_missing (m : Module) (hl : m = .ml ∨ m = .smp ∨ m = .txt ∨ m = .lsm ∨ m = .lib)
    (par : Par) (disk : Disk) (t : Int × Int) (a1 a2 : Int × List Obs) (u : Unit) (f : List Char × Nat) (hf : f ∈ par.ftr)
    (hv : ∀ v, ¬ Holds disk par.dLower t f.1 f.2 v)
    (h : readUnit m par disk t a1 a2 = some u) : computes m u = false := by
  by_contra hc
  have hc : computes m u = true := by simpa using hc
  obtain ⟨i, hi⟩ := List.getElem?_of_mem hf
  obtain ⟨-, -, hall⟩ := c262_complete m hl par disk t a1 a2 u h hc
  obtain ⟨v, hv', -⟩ := hall i f hi
  exact hv v hv'

/-- C262: if all features of a tile can be read, and the mask selects a pixel, the chunk is computed. -/
theorem c262_computed (m : Module) (hl : m = .ml ∨ m = .smp ∨ m = .txt ∨ m = .lsm ∨ m = .lib)
    (par : Par) (disk : Disk) (t : Int × Int) (a1 a2 : Int × List Obs) (he : par.ftr ≠ [])
    (hf : ∀ f ∈ par.ftr, (∃ v, Holds disk par.dLower t f.1 f.2 v) ∧
      (par.dLower ++ "/".toList ++ Halo.name t ++ "/".toList ++ f.1).length < 1024)
    (hm : par.dMask = "NULL".toList ∨ ((∃ w, Holds disk par.dMask t par.bMask 1 w ∧ 1 ∈ w) ∧
      (par.dMask ++ "/".toList ++ Halo.name t ++ "/".toList ++ par.bMask).length < 1024)) :
    ∃ u, readUnit m par disk t a1 a2 = some u ∧ computes m u = true := by
  have hlev : level1 m = .ftr := by rcases hl with rfl | rfl | rfl | rfl | rfl <;> rfl
  have hmask : ∃ mk, readMask par disk t = some (.success, mk) := by
    unfold readMask
    rcases hm with hm | ⟨⟨w, ⟨f, hd, -, hw⟩, h1⟩, hlen⟩
    · exact ⟨none, by rw [if_pos hm]⟩
    · by_cases h0 : par.dMask = "NULL".toList
      · exact ⟨none, by rw [if_pos h0]⟩
      rw [← path_eq] at hd hlen
      have h2 : ¬ (par.dMask ++ '/' :: Halo.name t).length ≥ 1024 := by
        unfold path at hlen
        simp only [List.length_append, List.length_cons] at hlen ⊢
        omega
      have h3 : ¬ ((w.map small).filter fun x => x = 1).length = 0 := by
        have : (1 : Int) ∈ (w.map small).filter fun x => x = 1 :=
          List.mem_filter.2 ⟨List.mem_map.2 ⟨1, h1, rfl⟩, by decide⟩
        have := List.length_pos_of_mem this
        omega
      refine ⟨some (binary (w.map small)), ?_⟩
      rw [if_neg h0, if_neg h2, hd]
      dsimp only
      rw [if_neg (by omega), show f[0]? = some (some w) from hw]
      dsimp only [Option.join_some]
      rw [if_neg h3]
  have hfeat : ∃ l, readFeatures par disk t = ((par.ftr.length : Int), l) := by
    unfold readFeatures
    have h1 : (par.ftr.any fun f => lacking disk par.dLower t f.1) = false := by
      rw [List.any_eq_false]
      intro f hin
      obtain ⟨⟨v, fl, hd, -, -⟩, hlen⟩ := hf f hin
      rw [← path_eq] at hd hlen
      unfold lacking
      rw [hd]
      simpa using hlen
    rw [h1]
    cases hmm : par.ftr.mapM (feature disk par.dLower par.ftrNodata t) with
    | some l => exact ⟨l, by simp⟩
    | none =>
      obtain ⟨f, hin, hn⟩ := (mapM_none _ _).1 hmm
      obtain ⟨⟨v, hv⟩, -⟩ := hf f hin
      rw [(feature_spec disk par.dLower par.ftrNodata t f _).2 ⟨v, hv, rfl⟩] at hn
      cases hn
  obtain ⟨mk, hmask⟩ := hmask
  obtain ⟨l, hfeat⟩ := hfeat
  have hpos : (0 : Int) < par.ftr.length := by
    have := List.length_pos_of_ne_nil he
    omega
  refine ⟨⟨mk, par.ftr.length, l, 0, []⟩, ?_, ?_⟩
  · unfold readUnit
    rw [hmask]
    simp only [Option.pure_def, Option.bind_eq_bind, Option.bind_some]
    rw [if_neg (by simp), hlev]
    have e : readLevel .ftr par disk t a1 = ((par.ftr.length : Int), l) := hfeat
    rw [e]
    dsimp only
    rw [if_neg (by intro hh; omega)]
    have e2 : readLevel (level2 m) par disk t a2 = (0, []) := by
      rcases hl with rfl | rfl | rfl | rfl | rfl <;> rfl
    rw [e2]
  · unfold computes
    rcases hl with rfl | rfl | rfl | rfl | rfl <;> simpa using hpos

/-! ## Secondary data -/

theorem field_spec (disk : Disk) (d : List Char) (t : Int × Int) (b : List Char) (o : Obs)
    (h : field disk d t b = some o) : ∃ f, disk (d ++ "/".toList ++ Halo.name t ++ "/".toList ++ b) = some f ∧
      f = o.bands.map some := by
  unfold field at h
  rw [path_eq] at h
  cases hd : disk (d ++ "/".toList ++ Halo.name t ++ "/".toList ++ b) with
  | none => rw [hd] at h; cases h
  | some f =>
    rw [hd] at h
    simp only [Option.bind_eq_bind, Option.bind_some] at h
    refine ⟨f, rfl, ?_⟩
    cases hm : f.mapM id with
    | none => rw [hm] at h; cases h
    | some v =>
      rw [hm] at h
      simp only [Option.bind_some, Option.pure_def, Option.some.injEq] at h
      subst h
      obtain ⟨g1, g2⟩ := mapM_get _ _ _ hm
      apply List.ext_getElem?
      intro i
      rw [List.getElem?_map, g2 i]
      cases hi : f[i]? with
      | none => rfl
      | some o =>
        cases o with
        | some y => rfl
        | none =>
          exfalso
          have hl := (List.getElem?_eq_some_iff.1 hi).1
          rw [← g1] at hl
          have := g2 i
          rw [hi, List.getElem?_eq_getElem hl] at this
          cases this

/-- C263: a phenology adaptive composite is only computed if at least three continuous fields are given, and all of them
could be read with all their bands; an improved field only if all fields could be read and there is one at least. -/
theorem c263_fields (m : Module) (hm : m = .bap true ∨ m = .cfi) (par : Par) (disk : Disk) (t : Int × Int)
    (a1 a2 : Int × List Obs) (u : Unit) (h : readUnit m par disk t a1 a2 = some u) (hc : computes m u = true) :
    a1.1 > 0 ∧ u.ard1 = a1.2 ∧ 1 ≤ par.con.length ∧ (m = .bap true → 3 ≤ par.con.length) ∧
    u.ard2.length = par.con.length ∧
    ∀ (i : Nat) (b : List Char), par.con[i]? = some b →
      ∃ bands, disk (par.dCon ++ "/".toList ++ Halo.name t ++ "/".toList ++ b) = some (bands.map some) ∧
        u.ard2[i]?.map (·.bands) = some bands := by
  have hn : u.nt1 > 0 := by
    unfold computes at hc
    simpa using (Bool.and_eq_true_iff.1 hc).1
  obtain ⟨-, h1, h2⟩ := unit_spec m par disk t a1 a2 u h hn
  have hlev : level1 m = .ard := by rcases hm with rfl | rfl <;> rfl
  have hlev2 : level2 m = .con := by rcases hm with rfl | rfl <;> rfl
  rw [hlev] at h1
  rw [hlev2] at h2
  have h1 : (u.nt1, u.ard1) = a1 := h1
  have h2 : (u.nt2, u.ard2) = readConfield par disk t := h2
  have e1 : (readConfield par disk t).1 = u.nt2 := by rw [← h2]
  have e2 : (readConfield par disk t).2 = u.ard2 := by rw [← h2]
  have hn2 : u.nt2 ≥ 1 ∧ (m = .bap true → u.nt2 ≥ 3) := by
    unfold computes at hc
    have := (Bool.and_eq_true_iff.1 hc).2
    rcases hm with rfl | rfl
    · have h3 := (Bool.and_eq_true_iff.1 this).2
      have h3 : u.nt2 ≥ 3 := by simpa using h3
      exact ⟨by omega, fun _ => h3⟩
    · simp only [Bool.not_eq_true', Bool.or_eq_false_iff, decide_eq_false_iff_not, not_lt] at this
      exact ⟨this.2, fun hh => by cases hh⟩
  obtain ⟨k2, k3⟩ := fields_pos par disk t (by rw [e1]; omega)
  rw [e2] at k2
  rw [e1] at k3
  obtain ⟨g1, g2⟩ := mapM_get _ _ _ k2
  refine ⟨by rw [← h1]; exact hn, by rw [← h1], by omega, fun hh => by have := hn2.2 hh; omega, g1, fun i b hb => ?_⟩
  have := g2 i
  rw [hb] at this
  dsimp only [Option.bind] at this
  have hi : i < u.ard2.length := by
    rw [g1]; exact (List.getElem?_eq_some_iff.1 hb).1
  rw [List.getElem?_eq_getElem hi] at this
  obtain ⟨f, hf, ho⟩ := field_spec disk par.dCon t b _ this.symm
  exact ⟨_, by rw [hf, ho], by rw [List.getElem?_eq_getElem hi, Option.map_some]⟩

/-- C263: Level 2 ImproPhe only computes a chunk if both sets of images could be read and none of them is empty. -/
theorem c263_images (par : Par) (disk : Disk) (t : Int × Int) (a1 a2 : Int × List Obs) (u : Unit)
    (h : readUnit .l2i par disk t a1 a2 = some u) (hc : computes .l2i u = true) :
    a1.1 > 0 ∧ a2.1 > 0 ∧ u.ard1 = a1.2 ∧ u.ard2 = a2.2 := by
  have hn : u.nt1 > 0 := by
    unfold computes at hc
    simpa using (Bool.and_eq_true_iff.1 hc).1
  obtain ⟨-, h1, h2⟩ := unit_spec _ par disk t a1 a2 u h hn
  have h1 : (u.nt1, u.ard1) = a1 := h1
  have h2 : (u.nt2, u.ard2) = a2 := h2
  unfold computes at hc
  have := (Bool.and_eq_true_iff.1 hc).2
  simp only [Bool.not_eq_true', Bool.or_eq_false_iff, decide_eq_false_iff_not, not_lt] at this
  exact ⟨by rw [← h1]; exact hn, by rw [← h2]; show u.nt2 > 0; omega, by rw [← h1], by rw [← h2]⟩

/-! ## Examples and limits -/

/-- One feature and a mask, both in the directory of the tile. -/
def demoPar : Par := ⟨"m".toList, "a".toList, "l".toList, [("f".toList, 1)], -9999, "c".toList, []⟩

def demoDisk (mask : List Int) (v : List Int) : Disk := fun n =>
  if n = "m/X0001_Y0002/a".toList then some [some mask]
  else if n = "l/X0001_Y0002/f".toList then some [some v] else none

theorem demo_mask (x : Int) (h : x % 256 = 1) (v : List Int) :
    readMask demoPar (demoDisk [x] v) (1, 2) = some (.success, some [1]) := by
  have h1 : path demoPar.dMask (1, 2) demoPar.bMask = "m/X0001_Y0002/a".toList := by decide +kernel
  unfold readMask
  rw [if_neg (by decide +kernel), if_neg (by decide +kernel), h1]
  have h2 : demoDisk [x] v "m/X0001_Y0002/a".toList = some [some [x]] := by unfold demoDisk; rw [if_pos rfl]
  rw [h2]
  dsimp only
  rw [if_neg (by decide +kernel)]
  simp [small, h, binary]

theorem demo_features (x : Int) (v : List Int) :
    readFeatures demoPar (demoDisk [x] v) (1, 2) =
      (1, [⟨[v], v.map fun y => if y = -9999 then Qai.set .off 0#16 1 else 0#16⟩]) := by
  have h1 : path demoPar.dLower (1, 2) "f".toList = "l/X0001_Y0002/f".toList := by decide +kernel
  have h2 : demoDisk [x] v "l/X0001_Y0002/f".toList = some [some v] := by
    unfold demoDisk; rw [if_neg (by decide +kernel), if_pos rfl]
  have h3 : lacking (demoDisk [x] v) demoPar.dLower (1, 2) "f".toList = false := by
    unfold lacking; rw [h1, h2]; rfl
  have h4 : feature (demoDisk [x] v) demoPar.dLower demoPar.ftrNodata (1, 2) ("f".toList, 1) =
      some ⟨[v], v.map fun y => if y = -9999 then Qai.set .off 0#16 1 else 0#16⟩ := by
    unfold feature; dsimp only; rw [h1, h2]; rfl
  unfold readFeatures
  rw [show demoPar.ftr = [("f".toList, 1)] from rfl]
  rw [List.any_cons, h3, List.any_nil, List.mapM_cons, h4]
  rfl

/-- C261, violated: a pixel of the mask file that holds 257, 513, -255 or another number of the form 256k + 1 is taken for a 1,
although only 1 selects a pixel, because the number is cut to 8 bits before. -/
theorem c261_cut_violated (x : Int) (hx : x % 256 = 1) (y : Int) (hy : y ≠ -9999) :
    ∃ u, readUnit .ml demoPar (demoDisk [x] [y]) (1, 2) (0, []) (0, []) = some u ∧ computes .ml u = true ∧
      usable .ml u Qai.Rule.none (fun _ _ => false) [0] 0 0 = true := by
  refine ⟨⟨some [1], 1, [⟨[[y]], [0#16]⟩], 0, []⟩, ?_, rfl, ?_⟩
  swap
  · unfold usable
    rw [show Qai.Rule.none = Qai.parseQuality [] from rfl, Qai.c09_screening _ _ _ _ _ _ _ _ (by simp)]
    refine ⟨?_, fun _ => ?_, by simp⟩
    · rintro mk ⟨⟩; simp
    · show Qai.Spec.value .off 0#16 = 0
      decide
  unfold readUnit
  rw [demo_mask x hx]
  simp only [Option.pure_def, Option.bind_eq_bind, Option.bind_some]
  rw [if_neg (by simp)]
  have h1 : readLevel (level1 .ml) demoPar (demoDisk [x] [y]) (1, 2) (0, []) = (1, [⟨[[y]], [0#16]⟩]) := by
    show readFeatures demoPar (demoDisk [x] [y]) (1, 2) = _
    rw [demo_features]; simp [hy]
  rw [h1, if_neg (by simp)]
  rfl

example : ∃ u, readUnit .ml demoPar (demoDisk [1] [7]) (1, 2) (0, []) (0, []) = some u ∧ computes .ml u = true ∧
    usable .ml u Qai.Rule.none (fun _ _ => false) [0] 0 0 = true := c261_cut_violated 1 (by decide) 7 (by decide)

example : computes (.bap true) ⟨none, 2, [⟨[], []⟩, ⟨[], []⟩], 3, [⟨[], []⟩, ⟨[], []⟩, ⟨[], []⟩]⟩ = true := by decide
example : readUnit .cfi ⟨"NULL".toList, [], [], [], 0, "c".toList, ["e".toList]⟩
    (fun n => if n = "c/X0001_Y0002/e".toList then some [some [4], some [5]] else none) (1, 2) (2, [⟨[], []⟩, ⟨[], []⟩]) (0, []) =
    some ⟨none, 2, [⟨[], []⟩, ⟨[], []⟩], 1, [⟨[[4], [5]], [0#16]⟩]⟩ := by
  rfl

end Verif.Input

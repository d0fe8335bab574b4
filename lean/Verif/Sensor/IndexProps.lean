import Verif.Sensor.Props

/-!
# Properties of the index configuration
-/

namespace Verif.Sensor

open Verif.Str (Out)
open Spec

theorem mark_spec (bands : List String) (use : List Bool) (x : String) (hl : use.length = bands.length) :
    (mark bands use x).1.length = use.length ∧ ((mark bands use x).2 = true ↔ x ∈ bands) ∧
    ∀ b, b ∈ keep (mark bands use x).1 bands ↔ b ∈ keep use bands ∨ (b = x ∧ x ∈ bands) := by
  induction bands generalizing use with
  | nil =>
    cases use with
    | nil => simp [mark, keep]
    | cons u us => simp at hl
  | cons v bs ih =>
    cases use with
    | nil => simp at hl
    | cons u us =>
      have hl' : us.length = bs.length := by simpa using hl
      obtain ⟨h1, h2, h3⟩ := ih us hl'
      rw [mark]
      by_cases hv : v = x
      · subst hv
        rw [if_pos rfl]
        refine ⟨rfl, by simp, fun b => ?_⟩
        simp only [keep, if_true, List.mem_cons]
        cases u
        · simp; tauto
        · simp; tauto
      · rw [if_neg hv]
        refine ⟨by simp [h1], ?_, fun b => ?_⟩
        · simp only [h2, List.mem_cons]
          constructor
          · exact .inr
          · rintro (h | h)
            · exact absurd h.symm hv
            · exact h
        · simp only [keep, List.mem_cons]
          have hx : x = v ↔ False := ⟨fun h => hv h.symm, False.elim⟩
          cases u
          · simp only [Bool.false_eq_true, if_false, hx, false_or]; exact h3 b
          · simp only [if_true, List.mem_cons, hx, false_or, h3 b]; tauto

theorem checkAvailable_spec (bands req : List String) (use : List Bool) (hl : use.length = bands.length) :
    (checkAvailable bands use req).1.length = bands.length ∧
    ((checkAvailable bands use req).2 = 0 ↔ ∀ b ∈ req, b ∈ bands) ∧
    ∀ b, b ∈ keep (checkAvailable bands use req).1 bands ↔
      b ∈ keep use bands ∨ (b ∈ req ∧ b ∈ bands) := by
  induction req generalizing use with
  | nil => simp [checkAvailable, hl]
  | cons r rs ih =>
    obtain ⟨m1, m2, m3⟩ := mark_spec bands use r hl
    obtain ⟨h1, h2, h3⟩ := ih (mark bands use r).1 (by rw [m1, hl])
    rw [checkAvailable]
    refine ⟨h1, ?_, fun b => ?_⟩
    · simp only [List.mem_cons, forall_eq_or_imp]
      by_cases hm : (mark bands use r).2 = true
      · simp only [hm, if_true]
        rw [h2]
        exact ⟨fun h => ⟨m2.1 hm, h⟩, fun h => h.2⟩
      · simp only [hm, if_false, Bool.false_eq_true]
        constructor
        · intro h; omega
        · intro h; exact absurd (m2.2 h.1) hm
    · simp only
      rw [h3 b, m3 b]
      simp only [List.mem_cons]
      constructor
      · rintro ((h | ⟨rfl, h⟩) | ⟨h, h'⟩)
        · exact .inl h
        · exact .inr ⟨.inl rfl, h⟩
        · exact .inr ⟨.inr h, h'⟩
      · rintro (h | ⟨h | h, h'⟩)
        · exact .inl (.inl h)
        · exact .inl (.inr ⟨h, h ▸ h'⟩)
        · exact .inr ⟨h, h'⟩

theorem copyAll_ok {l r : List String} (h : copyAll l = .ok r) : r = l := by
  induction l generalizing r with
  | nil => cases h; rfl
  | cons s rest ih =>
    rw [copyAll] at h
    obtain ⟨s', hs, h⟩ := bind_ok h
    obtain ⟨t, ht, h⟩ := bind_ok h
    cases h
    rw [(copy_ok hs).1, ih ht]

/-- The kind of an index. -/
def TypeOf (bands : List String) (i : Index) : Prop :=
  (i.name ∈ bands → i.type = .band) ∧ (i.name ∉ bands → i.name = "SMA" → i.type = .sma) ∧
  (i.name ∉ bands → i.name ≠ "SMA" → i.type = .equation)

theorem requiredBands_ok {defs : String → Option J} {bands : List String} {n : String}
    {t : IType} {req : List String} (h : requiredBands defs bands n = .ok (some (t, req))) :
    Required defs bands n req ∧ TypeOf bands ⟨n, t, req⟩ := by
  unfold requiredBands at h
  split at h
  · rename_i hc
    have hc := (contains_iff _ _).1 hc
    obtain ⟨n', hn, h'⟩ := bind_ok h
    have e := (copy_ok hn).1
    rw [e] at h'
    cases h'
    exact ⟨.inl ⟨hc, rfl⟩, fun _ => rfl, fun h => absurd hc h, fun h => absurd hc h⟩
  · rename_i hc
    have hc : n ∉ bands := fun e => hc ((contains_iff _ _).2 e)
    split at h
    · rename_i hs
      obtain ⟨l, hl, h⟩ := bind_ok h
      cases h
      rw [copyAll_ok hl]
      exact ⟨.inr (.inl ⟨hc, hs, rfl⟩), fun h => absurd h hc, fun _ _ => rfl, fun _ h => absurd hs h⟩
    · rename_i hs
      obtain ⟨o, ho, h⟩ := bind_ok h
      cases o with
      | none => simp at h
      | some l =>
        simp only [Option.map_some, Out.ok.injEq, Option.some.injEq, Prod.mk.injEq] at h
        obtain ⟨rfl, rfl⟩ := h
        refine ⟨.inr (.inr ⟨hc, hs, ?_⟩), fun h => absurd h hc, fun _ h => absurd h hs, fun _ _ => rfl⟩
        unfold indexBandnames at ho
        split at ho
        · rename_i js hj
          rw [hj, (copyNames_ok ho).1]
        · cases ho

theorem requiredBands_of {defs : String → Option J} {bands : List String} {n : String}
    {req : List String} (h : Required defs bands n req) (hlen : ∀ b ∈ req, b.length < 1024) :
    ∃ t, requiredBands defs bands n = .ok (some (t, req)) := by
  have copyAll_of : ∀ l : List String, (∀ b ∈ l, b.length < 1024) → copyAll l = .ok l := by
    intro l
    induction l with
    | nil => intro _; rfl
    | cons b bs ih =>
      intro hb
      rw [copyAll, copy_of (hb b (by simp)), bind_eq, ih (fun x hx => hb x (by simp [hx])), bind_eq]
  rcases h with ⟨h1, rfl⟩ | ⟨h1, h2, rfl⟩ | ⟨h1, h2, h3⟩
  · refine ⟨.band, ?_⟩
    unfold requiredBands
    rw [if_pos ((contains_iff _ _).2 h1), copy_of (hlen n (by simp)), bind_eq]
  · refine ⟨.sma, ?_⟩
    unfold requiredBands
    rw [if_neg (fun e => h1 ((contains_iff _ _).1 e)), if_pos h2, copyAll_of _ hlen, bind_eq]
  · refine ⟨.equation, ?_⟩
    unfold requiredBands
    rw [if_neg (fun e => h1 ((contains_iff _ _).1 e)), if_neg h2, indexBandnames, h3]
    simp only
    rw [copyNames_of hlen, bind_eq]
    rfl

theorem parse_ok {defs : String → Option J} {bands names : List String} {use use' : List Bool}
    {ix : List Index} {e : Nat} (hl : use.length = bands.length)
    (h : parseIndices defs bands use names = .ok (use', ix, e)) (he : e = 0) :
    use'.length = bands.length ∧
    List.Forall₂ (fun n i => i.name = n ∧ Required defs bands n i.bands ∧ TypeOf bands i ∧
      ∀ b ∈ i.bands, b ∈ bands) names ix ∧
    ∀ b, b ∈ keep use' bands ↔ b ∈ keep use bands ∨ ∃ i ∈ ix, b ∈ i.bands := by
  induction names generalizing use use' ix e with
  | nil =>
    rw [parseIndices] at h
    cases h
    exact ⟨hl, .nil, by simp⟩
  | cons n ns ih =>
    rw [parseIndices] at h
    obtain ⟨r, hr, h⟩ := bind_ok h
    cases r with
    | none =>
      obtain ⟨x, hx, h⟩ := bind_ok h
      cases h
      omega
    | some r =>
      obtain ⟨x, hx, h⟩ := bind_ok h
      obtain ⟨hlc, hcnt, hk⟩ := checkAvailable_spec bands r.2 use hl
      simp only [Out.ok.injEq, Prod.mk.injEq] at h
      obtain ⟨rfl, rfl, rfl⟩ := h
      split at he
      · omega
      · rename_i hz
        have hall := hcnt.1 (by omega)
        obtain ⟨g1, g2, g3⟩ := ih hlc hx he
        obtain ⟨t, req⟩ := r
        obtain ⟨q1, q2⟩ := requiredBands_ok hr
        refine ⟨g1, .cons ⟨rfl, q1, q2, hall⟩ g2, fun b => ?_⟩
        rw [g3 b, hk b]
        simp only [List.mem_cons, exists_eq_or_imp]
        constructor
        · rintro ((h | h) | h)
          · exact .inl h
          · exact .inr (.inl h.1)
          · exact .inr (.inr h)
        · rintro (h | h | h)
          · exact .inl (.inl h)
          · exact .inl (.inr ⟨h, hall b h⟩)
          · exact .inr h

theorem parse_of {defs : String → Option J} {bands names : List String}
    (h : ∀ n ∈ names, ∃ req, Required defs bands n req ∧ (∀ b ∈ req, b.length < 1024) ∧
      ∀ b ∈ req, b ∈ bands) (use : List Bool) (hl : use.length = bands.length) :
    ∃ use' ix, parseIndices defs bands use names = .ok (use', ix, 0) := by
  induction names generalizing use with
  | nil => exact ⟨use, [], rfl⟩
  | cons n ns ih =>
    obtain ⟨req, h1, h2, h3⟩ := h n (by simp)
    obtain ⟨t, ht⟩ := requiredBands_of h1 h2
    obtain ⟨hlc, hcnt, _⟩ := checkAvailable_spec bands req use hl
    obtain ⟨use', ix, hx⟩ := ih (fun x hx => h x (by simp [hx])) _ hlc
    refine ⟨use', ⟨n, t, req⟩ :: ix, ?_⟩
    rw [parseIndices, ht, bind_eq]
    simp only [hx, bind_eq]
    rw [if_neg (by rw [hcnt.2 h3]; omega)]

theorem keep_map {α β : Type} (use : List Bool) (names : List α) (j : Nat) (b : α)
    (hj : (keep use names)[j]? = some b) :
    ∃ j0 : Nat, names[j0]? = some b ∧ ∀ row : List β, row.length = names.length →
      (keep use row)[j]? = row[j0]? := by
  induction names generalizing use j with
  | nil => cases use <;> simp [keep] at hj
  | cons x xs ih =>
    cases use with
    | nil => simp [keep] at hj
    | cons u us =>
      rw [keep] at hj
      cases u with
      | false =>
        simp only [Bool.false_eq_true, if_false] at hj
        obtain ⟨j0, h1, h2⟩ := ih us j hj
        refine ⟨j0 + 1, by simpa using h1, fun row hrow => ?_⟩
        cases row with
        | nil => simp at hrow
        | cons y ys =>
          rw [keep]
          simp only [Bool.false_eq_true, if_false, List.getElem?_cons_succ]
          exact h2 ys (by simpa using hrow)
      | true =>
        simp only [if_true] at hj
        cases j with
        | zero =>
          refine ⟨0, by simpa using hj, fun row hrow => ?_⟩
          cases row with
          | nil => simp at hrow
          | cons y ys => simp [keep]
        | succ j =>
          simp only [List.getElem?_cons_succ] at hj
          obtain ⟨j0, h1, h2⟩ := ih us j hj
          refine ⟨j0 + 1, by simpa using h1, fun row hrow => ?_⟩
          cases row with
          | nil => simp at hrow
          | cons y ys =>
            rw [keep]
            simp only [if_true, List.getElem?_cons_succ]
            exact h2 ys (by simpa using hrow)

theorem keep_sublist {α : Type} (use : List Bool) (l : List α) : (keep use l).Sublist l := by
  induction l generalizing use with
  | nil => cases use <;> simp [keep]
  | cons x xs ih =>
    cases use with
    | nil => simp [keep]
    | cons u us =>
      rw [keep]
      cases u
      · exact (ih us).cons _
      · exact (ih us).cons_cons _

theorem keep_false {α β : Type} (l : List α) (m : List β) : keep (l.map fun _ => false) m = [] := by
  induction l generalizing m with
  | nil => cases m <;> rfl
  | cons x xs ih =>
    cases m with
    | nil => rfl
    | cons y ys => simpa [keep] using ih ys

/-- C70: if the indices are accepted, each of them is a band, the unmixing or has a definition, and
every band it is made of is available. Without spectral adjustment the bands that are kept are exactly
those that some index is made of, in their previous order. -/
theorem c70_needed (defs : String → Option J) (adjust : Bool) (sen sen' : Sen) (names : List String)
    (ix : List Index) (hrows : ∀ row ∈ sen.bandNumber, row.length = sen.bandNames.length)
    (h : retrieveIndices defs adjust sen names = .ok (sen', ix)) :
    List.Forall₂ (fun n i => i.name = n ∧ Required defs sen.bandNames n i.bands ∧
      ∀ b ∈ i.bands, b ∈ sen'.bandNames) names ix ∧
    sen'.sensors = sen.sensors ∧
    (adjust = true → sen' = sen) ∧
    (adjust = false → sen'.bandNames.Sublist sen.bandNames ∧
      ∀ b, b ∈ sen'.bandNames ↔ ∃ i ∈ ix, b ∈ i.bands) := by
  unfold retrieveIndices at h
  obtain ⟨r, hr, h⟩ := bind_ok h
  obtain ⟨use, ix', e⟩ := r
  simp only at h
  split at h
  · cases h
  · rename_i he
    obtain ⟨g1, g2, g3⟩ := parse_ok (by simp) hr (by omega)
    cases adjust with
    | true =>
      simp only [if_true, Out.ok.injEq, Prod.mk.injEq] at h
      obtain ⟨rfl, rfl⟩ := h
      exact ⟨g2.imp fun a b h => ⟨h.1, h.2.1, h.2.2.2⟩, rfl, fun _ => rfl, fun h => by cases h⟩
    | false =>
      simp only [Bool.false_eq_true, if_false, Out.ok.injEq, Prod.mk.injEq] at h
      obtain ⟨rfl, rfl⟩ := h
      rw [removeUnused_eq use sen.bandNames sen.bandNumber g1 hrows]
      simp only
      have hk : ∀ b, b ∈ keep use sen.bandNames ↔ ∃ i ∈ ix', b ∈ i.bands := by
        intro b
        rw [g3 b, keep_false]
        simp
      refine ⟨?_, by simp, by simp, fun _ => ⟨keep_sublist _ _, hk⟩⟩
      have : ∀ (l : List String) (m : List Index), (∀ i ∈ m, i ∈ ix') →
          List.Forall₂ (fun n i => i.name = n ∧ Required defs sen.bandNames n i.bands ∧
            TypeOf sen.bandNames i ∧ ∀ b ∈ i.bands, b ∈ sen.bandNames) l m →
          List.Forall₂ (fun n i => i.name = n ∧ Required defs sen.bandNames n i.bands ∧
            ∀ b ∈ i.bands, b ∈ keep use sen.bandNames) l m := by
        intro l m hm hf
        induction hf with
        | nil => exact .nil
        | cons h1 h2 ih =>
          refine .cons ⟨h1.1, h1.2.1, fun b hb => (hk b).2 ⟨_, hm _ (by simp), hb⟩⟩
            (ih fun i hi => hm i (by simp [hi]))
      exact this _ _ (fun i hi => hi) g2

/-- C70: keeping only the needed bands does not mix up the numbers of the bands: a band that is kept is
read, for every sensor, from where it was read before. -/
theorem c70_numbers (defs : String → Option J) (adjust : Bool) (sen sen' : Sen) (names : List String)
    (ix : List Index) (hrows : ∀ row ∈ sen.bandNumber, row.length = sen.bandNames.length)
    (h : retrieveIndices defs adjust sen names = .ok (sen', ix)) (j : Nat) (b : String)
    (hj : sen'.bandNames[j]? = some b) :
    ∃ j0 : Nat, sen.bandNames[j0]? = some b ∧ ∀ (s : Nat) row, sen.bandNumber[s]? = some row →
      ∃ row', sen'.bandNumber[s]? = some row' ∧ row'[j]? = row[j0]? := by
  unfold retrieveIndices at h
  obtain ⟨r, hr, h⟩ := bind_ok h
  obtain ⟨use, ix', e⟩ := r
  simp only at h
  split at h
  · cases h
  · rename_i he
    obtain ⟨g1, g2, g3⟩ := parse_ok (by simp) hr (by omega)
    cases adjust with
    | true =>
      simp only [if_true, Out.ok.injEq, Prod.mk.injEq] at h
      obtain ⟨rfl, rfl⟩ := h
      exact ⟨j, hj, fun s row hs => ⟨row, hs, rfl⟩⟩
    | false =>
      simp only [Bool.false_eq_true, if_false, Out.ok.injEq, Prod.mk.injEq] at h
      obtain ⟨rfl, rfl⟩ := h
      rw [removeUnused_eq use sen.bandNames sen.bandNumber g1 hrows] at hj ⊢
      simp only at hj ⊢
      obtain ⟨j0, h1, h2⟩ := keep_map (β := Int) use sen.bandNames j b hj
      refine ⟨j0, h1, fun s row hs => ⟨keep use row, ?_, h2 row (hrows row (List.mem_of_getElem? hs))⟩⟩
      rw [List.getElem?_map, hs]
      rfl

/-- C70: indices whose bands are all available are accepted. -/
theorem c70_accept (defs : String → Option J) (adjust : Bool) (sen : Sen) (names : List String)
    (h : ∀ n ∈ names, ∃ req, Required defs sen.bandNames n req ∧ (∀ b ∈ req, b.length < 1024) ∧
      ∀ b ∈ req, b ∈ sen.bandNames) :
    ∃ r, retrieveIndices defs adjust sen names = .ok r := by
  obtain ⟨use, ix, hx⟩ := parse_of h (sen.bandNames.map fun _ => false) (by simp)
  unfold retrieveIndices
  rw [hx, bind_eq]
  simp only
  rw [if_neg (by omega)]
  cases adjust
  · exact ⟨_, rfl⟩
  · exact ⟨_, rfl⟩

/-- The example of the shipped definitions: Landsat 8. -/
def l8 : Sen := ⟨["LND08"], ["BLUE", "GREEN", "RED", "NIR", "SWIR1", "SWIR2"], [[1, 2, 3, 4, 5, 6]]⟩

example : retrieveIndices shippedDefs false l8 ["NDVI", "SWIR2"] =
    .ok (⟨["LND08"], ["RED", "NIR", "SWIR2"], [[3, 4, 6]]⟩,
      [⟨"NDVI", .equation, ["NIR", "RED"]⟩, ⟨"SWIR2", .band, ["SWIR2"]⟩]) := by decide +kernel

example : retrieveIndices shippedDefs false l8 ["NDRE1"] = .exit := by decide +kernel

/-! ## Which band is used for what -/

theorem bandFor_spec (ds : List String) (x : String) (b : Nat) (h : x ∈ ds) :
    ∃ k : Nat, bandFor ds x b = .ok (b + k) ∧ ds[k]? = some x := by
  induction ds generalizing b with
  | nil => cases h
  | cons d ds ih =>
    rw [bandFor]
    by_cases hd : d = x
    · exact ⟨0, by rw [if_pos hd]; rfl, by simp [hd]⟩
    · rw [if_neg hd]
      rcases List.mem_cons.1 h with h | h
      · exact absurd h.symm hd
      · obtain ⟨k, h1, h2⟩ := ih (b + 1) h
        exact ⟨k + 1, by rw [h1]; congr 1; omega, by simpa using h2⟩

theorem operands_spec (domains bands : List String) (ks : List Nat) (hk : ∀ k ∈ ks, k < bands.length)
    (hb : ∀ b ∈ bands, b ∈ domains) :
    ∃ ops, operands domains bands ks = .ok ops ∧ List.Forall₂ (fun k o => domains[o]? = bands[k]?) ks ops := by
  induction ks with
  | nil => exact ⟨[], rfl, .nil⟩
  | cons k ks ih =>
    obtain ⟨ops, h1, h2⟩ := ih fun k' hk' => hk k' (by simp [hk'])
    have hkl := hk k (by simp)
    obtain ⟨o, e1, e2⟩ := bandFor_spec domains bands[k] 0 (hb _ (List.getElem_mem hkl))
    refine ⟨o :: ops, ?_, .cons (by rw [e2, List.getElem?_eq_getElem hkl]) h2⟩
    rw [operands, List.getElem?_eq_getElem hkl]
    simp only [e1, bind_eq, h1, Nat.zero_add]

/-- The names of the bands that enter the formula of each shipped index, in the order of the formula
(the documentation of the parameter INDEX; EVI2 uses the third operand with weight zero). -/
def formula (name : String) (bands : List String) : List String :=
  if name = "EVI2" then ["NIR", "RED", "RED"] else bands

theorem shipped_check : ∀ d ∈ shipped, d.1 ≠ "NDVIre1n" → (dispatch d.1).any (fun x =>
    decide (x.2.1 = d.2.length) && decide (∀ k ∈ x.2.2, k < d.2.length) &&
    decide (x.2.2.map (fun k => d.2[k]?) = (formula d.1 d.2).map some)) = true := by decide +kernel

/-- The shipped definitions that have an implementation under the same name. -/
theorem shipped_dispatch (d : String × List String) (hd : d ∈ shipped) (hne : d.1 ≠ "NDVIre1n") :
    ∃ k n ks, dispatch d.1 = some (k, n, ks) ∧ n = d.2.length ∧ (∀ k ∈ ks, k < d.2.length) ∧
      ks.map (fun k => d.2[k]?) = (formula d.1 d.2).map some := by
  have h := shipped_check d hd hne
  cases hx : dispatch d.1 with
  | none => rw [hx] at h; simp at h
  | some x =>
    rw [hx] at h
    simp only [Option.any_some, Bool.and_eq_true, decide_eq_true_eq] at h
    exact ⟨x.1, x.2.1, x.2.2, rfl, h.1.1, h.1.2, h.2⟩

theorem lookup_mem {α β : Type} [BEq α] [LawfulBEq α] (l : List (α × β)) (n : α) (v : β)
    (h : l.lookup n = some v) : (n, v) ∈ l := by
  induction l with
  | nil => simp at h
  | cons x xs ih =>
    rw [List.lookup_cons] at h
    split at h
    · rename_i hx
      cases h
      have := eq_of_beq hx
      subst this
      simp
    · exact List.mem_cons_of_mem _ (ih h)

theorem shippedDefs_some {n : String} {req : List String}
    (h : shippedDefs n = some (.arr (req.map .str))) : (n, req) ∈ shipped := by
  unfold shippedDefs at h
  cases hl : shipped.lookup n with
  | none => rw [hl] at h; simp at h
  | some l =>
    rw [hl] at h
    simp only [Option.map_some, Option.some.injEq, J.arr.injEq] at h
    have := List.map_injective_iff.2 str_inj h
    subst this
    exact lookup_mem _ _ _ hl

theorem forall₂_map_eq {α β γ : Type} {f : α → γ} {g : β → γ} {l : List α} {m : List β}
    (h : List.Forall₂ (fun a b => g b = f a) l m) : m.map g = l.map f := by
  induction h with
  | nil => rfl
  | cons h1 _ ih => simp [h1, ih]

/-- C71: for every accepted list of indices and the shipped definitions, computing an index finds all
its bands, and the image bands it is given carry exactly the names of the formula, in that order; except
for NDVIre1n. -/
theorem c71_bands_partial (adjust : Bool) (sen sen' : Sen) (names : List String) (ix : List Index)
    (hrows : ∀ row ∈ sen.bandNumber, row.length = sen.bandNames.length)
    (h : retrieveIndices shippedDefs adjust sen names = .ok (sen', ix)) (i : Index) (hi : i ∈ ix)
    (hb : i.type ≠ .sma) (hne : i.name ≠ "NDVIre1n") :
    ∃ ops, indexOperands sen'.bandNames i = .ok ops ∧
      ops.map (fun o => sen'.bandNames[o]?) =
        (if i.type = .band then [i.name] else formula i.name i.bands).map some := by
  have hneed := (c70_needed shippedDefs adjust sen sen' names ix hrows h).1
  obtain ⟨n, hn, hname, hreq, havail⟩ := (forall₂_mem hneed).2 i hi
  have htype : TypeOf sen.bandNames i := by
    unfold retrieveIndices at h
    obtain ⟨r, hr, h⟩ := bind_ok h
    obtain ⟨use, ix', e⟩ := r
    simp only at h
    split at h
    · cases h
    · obtain ⟨_, g2, _⟩ := parse_ok (by simp) hr (by omega)
      have hix : ix' = ix := by
        cases adjust <;> simp at h <;> exact h.2
      subst hix
      obtain ⟨_, _, _, _, ht, _⟩ := (forall₂_mem g2).2 i hi
      exact ht
  subst hname
  rcases hreq with ⟨h1, h2⟩ | ⟨h1, h2, h3⟩ | ⟨h1, h2, h3⟩
  · have ht := htype.1 h1
    obtain ⟨ops, e1, e2⟩ := operands_spec sen'.bandNames i.bands [0] (by simp [h2]) havail
    refine ⟨ops, by rw [indexOperands, ht]; exact e1, ?_⟩
    rw [if_pos ht, forall₂_map_eq e2, h2]
    rfl
  · exact absurd (htype.2.1 h1 h2) hb
  · have ht := htype.2.2 h1 h2
    obtain ⟨k, m, ks, d1, d2, d3, d4⟩ := shipped_dispatch (i.name, i.bands) (shippedDefs_some h3) hne
    obtain ⟨ops, e1, e2⟩ := operands_spec sen'.bandNames i.bands ks d3 havail
    refine ⟨ops, ?_, ?_⟩
    · rw [indexOperands, ht]
      simp only [d1]
      rw [if_neg (by simp [d2])]
      exact e1
    · rw [if_neg (by rw [ht]; simp), forall₂_map_eq e2]
      exact d4

/-- C71, violated: NDVIre1n is defined in the shipped file, so it is accepted whenever its bands NIR
and REDEDGE1 are available; computing it then ends the program because the implementation is called
NDVIren. That name in turn has no definition. -/
theorem c71_ndvire1n_violated (sen : Sen) (adjust : Bool) (h1 : "NIR" ∈ sen.bandNames)
    (h2 : "REDEDGE1" ∈ sen.bandNames) (h3 : "NDVIre1n" ∉ sen.bandNames)
    (h4 : "NDVIren" ∉ sen.bandNames) :
    (∃ sen' i, retrieveIndices shippedDefs adjust sen ["NDVIre1n"] = .ok (sen', [i]) ∧
      indexOperands sen'.bandNames i = .exit) ∧
    retrieveIndices shippedDefs adjust sen ["NDVIren"] = .exit := by
  have hd1 : requiredBands shippedDefs sen.bandNames "NDVIre1n" =
      .ok (some (.equation, ["NIR", "REDEDGE1"])) := by
    unfold requiredBands
    rw [if_neg (fun e => h3 ((contains_iff _ _).1 e)), if_neg (by decide)]
    rfl
  have hd2 : requiredBands shippedDefs sen.bandNames "NDVIren" = .ok none := by
    unfold requiredBands
    rw [if_neg (fun e => h4 ((contains_iff _ _).1 e)), if_neg (by decide)]
    rfl
  have hc := (checkAvailable_spec sen.bandNames ["NIR", "REDEDGE1"] (sen.bandNames.map fun _ => false)
    (by simp)).2.1.2 (by simp [h1, h2])
  refine ⟨?_, ?_⟩
  · unfold retrieveIndices
    rw [parseIndices, hd1, bind_eq]
    simp only [parseIndices, bind_eq]
    rw [if_neg (show ¬ (checkAvailable _ _ _).2 > 0 by rw [hc]; omega)]
    simp only [Nat.lt_irrefl, gt_iff_lt, if_false]
    cases adjust
    · exact ⟨_, _, rfl, rfl⟩
    · exact ⟨_, _, rfl, rfl⟩
  · unfold retrieveIndices
    rw [parseIndices, hd2, bind_eq]
    rfl

/-- C71: reading the bands of the configuration from a file that has all the bands of the sensor
always succeeds, and the image then has exactly one band per band of the configuration, in the same
order. -/
theorem c71_read (row : List Int) (inFile : Nat) (h : ∀ n ∈ row, 0 ≤ n ∧ n ≤ inFile) :
    readBands inFile row = some row := by
  induction row with
  | nil => rfl
  | cons n ns ih =>
    have hn := h n (by simp)
    rw [readBands, if_neg (by omega), ih fun m hm => h m (by simp [hm])]
    split
    · simp_all
    · rw [if_neg (by omega)]; rfl

/-- C71: a file that lacks one of the bands is not read. -/
theorem c71_read_missing (row : List Int) (inFile : Nat) (h : ∃ n ∈ row, (inFile : Int) < n) :
    readBands inFile row = none := by
  induction row with
  | nil => simp at h
  | cons n ns ih =>
    rw [readBands]
    by_cases hn : (inFile : Int) < n
    · rw [if_neg (by omega), if_neg (by omega), if_pos (by omega)]
    · have : readBands inFile ns = none := by
        apply ih
        obtain ⟨m, hm, hlt⟩ := h
        rcases List.mem_cons.1 hm with rfl | hm
        · exact absurd hlt hn
        · exact ⟨m, hm, hlt⟩
      rw [this]
      simp

/-- C71: the shipped definitions name the bands of the documented formulas, in their order, and there are
no others. -/
theorem c71_documented (name : String) (bands : List String) :
    (name, bands) ∈ Spec.documented ↔ shippedDefs name = some (.arr (bands.map .str)) := by
  have hk : ∀ p ∈ shipped, p ∈ Spec.documented := by decide +kernel
  have hl : ∀ p ∈ Spec.documented, shipped.lookup p.1 = some p.2 := by decide +kernel
  have hmem : ∀ (l : List (String × List String)) (n : String) (b : List String), l.lookup n = some b →
      (n, b) ∈ l := by
    intro l
    induction l with
    | nil => intro n b h; simp at h
    | cons x xs ih =>
      intro n b h
      rw [List.lookup_cons] at h
      split at h
      · rename_i he
        have := eq_of_beq he
        subst this
        injection h with h
        subst h
        simp
      · exact List.mem_cons_of_mem _ (ih n b h)
  unfold shippedDefs
  constructor
  · intro h
    rw [hl _ h]
    rfl
  · intro h
    cases hs : shipped.lookup name with
    | none => rw [hs] at h; simp at h
    | some b =>
      rw [hs] at h
      simp only [Option.map_some, Option.some.injEq, J.arr.injEq] at h
      have hinj : ∀ a b : List String, a.map J.str = b.map J.str → a = b := by
        intro a
        induction a with
        | nil => intro b h; cases b <;> simp_all
        | cons x xs ih =>
          intro b h
          cases b with
          | nil => simp at h
          | cons y ys =>
            simp only [List.map_cons, List.cons.injEq, J.str.injEq] at h
            rw [h.1, ih ys h.2]
      rw [← hinj _ _ h]
      exact hk _ (hmem _ _ _ hs)

/-- All positions are below the number of bands. -/
def within : Option (Kind × Nat × List Nat) → Bool
  | none => true
  | some x => x.2.2.all (· < x.2.1)

theorem dispatch_within (name : String) : within (dispatch name) = true := by
  unfold dispatch
  simp only [apply_ite within]
  simp [within]

theorem operands_safe (domains bands : List String) (ks : List Nat) (h : ∀ k ∈ ks, k < bands.length) :
    operands domains bands ks ≠ .ub := by
  have hbf : ∀ (l : List String) (x : String) (b : Nat), bandFor l x b ≠ .ub := by
    intro l
    induction l with
    | nil => intro x b h; cases h
    | cons y ys ih =>
      intro x b
      rw [bandFor]
      split
      · intro h; cases h
      · exact ih x (b + 1)
  induction ks with
  | nil => intro h; cases h
  | cons k ks ih =>
    rw [operands]
    have hk := h k (by simp)
    have ih' := ih fun m hm => h m (by simp [hm])
    rw [List.getElem?_eq_getElem hk]
    simp only
    cases hb : bandFor domains bands[k] 0 with
    | ub => exact absurd hb (hbf _ _ _)
    | exit => intro h; cases h
    | ok v =>
      rw [bind_eq]
      cases ho : operands domains bands ks with
      | ub => exact absurd ho ih'
      | exit => intro h; cases h
      | ok r => intro h; cases h

/-- C71: whatever bands a (changed) definition lists for an index, its computation never looks for a band
that is not in the list: a wrong number of bands ends the program. -/
theorem c71_count (domains bands : List String) (name : String) :
    indexOperands domains ⟨name, .equation, bands⟩ ≠ .ub := by
  unfold indexOperands
  simp only
  cases hd : dispatch name with
  | none => intro h; cases h
  | some x =>
    obtain ⟨k, n, ks⟩ := x
    simp only
    split
    · intro h; cases h
    · rename_i hne
      have hlen : n = bands.length := by omega
      apply operands_safe
      rw [← hlen]
      have hall : ∀ j ∈ ks, j < n := by
        have hc := dispatch_within name
        rw [hd] at hc
        simpa [within] using hc
      exact hall

/-- C71: end to end, for the shipped definitions and any accepted sensors and indices without spectral
adjustment: the image band that is handed to the formula as operand `j` of index `i` was read, for each
sensor, from the band of the file whose position in the definition of that sensor carries the name of
this operand. -/
theorem c71_disc_partial (defs : String → Option SensorDef) (target : Option String)
    (sensors : List String) (sen sen' : Sen) (names : List String) (ix : List Index)
    (h0 : retrieveSensor defs false target sensors = .ok (some sen))
    (h : retrieveIndices shippedDefs false sen names = .ok (sen', ix)) (i : Index) (hi : i ∈ ix)
    (hb : i.type ≠ .sma) (hne : i.name ≠ "NDVIre1n") (s : Nat) (sname : String)
    (hs : sensors[s]? = some sname) :
    ∃ ops row l, indexOperands sen'.bandNames i = .ok ops ∧ sen'.bandNumber[s]? = some row ∧
      BandsOf defs sname l ∧ readBands l.length row = some row ∧
      ops.length = (if i.type = .band then [i.name] else formula i.name i.bands).length ∧
      ∀ (j o : Nat), ops[j]? = some o → ∃ n k : Nat,
        row[o]? = some (n : Int) ∧ n = k + 1 ∧
        l[k]? = (if i.type = .band then [i.name] else formula i.name i.bands)[j]? ∧ l[k]?.isSome := by
  have hrows : ∀ row ∈ sen.bandNumber, row.length = sen.bandNames.length := by
    obtain ⟨k, ks, _, _, _, e2, _⟩ := retrieve_ok h0
    intro row hrow
    rw [e2, bandNumbers] at hrow
    obtain ⟨_, _, rfl⟩ := List.mem_map.1 hrow
    simp
  obtain ⟨ops, e1, e2⟩ := c71_bands_partial false sen sen' names ix hrows h i hi hb hne
  obtain ⟨row0, l, g1, g2, g3, g4⟩ := c68_numbers defs target sensors sen h0 s sname hs
  -- the row after removing bands
  have hrow : ∃ row, sen'.bandNumber[s]? = some row ∧ row.length = sen'.bandNames.length := by
    unfold retrieveIndices at h
    obtain ⟨r, hr, h⟩ := bind_ok h
    obtain ⟨use, ix', e⟩ := r
    simp only at h
    split at h
    · cases h
    · obtain ⟨q1, _, _⟩ := parse_ok (by simp) hr (by omega)
      simp only [Bool.false_eq_true, if_false, Out.ok.injEq, Prod.mk.injEq] at h
      obtain ⟨rfl, rfl⟩ := h
      rw [removeUnused_eq use sen.bandNames sen.bandNumber q1 hrows]
      simp only
      refine ⟨keep use row0, by rw [List.getElem?_map, g1]; rfl, ?_⟩
      have : ∀ (u : List Bool) (a : List Int) (b : List String), a.length = b.length →
          (keep u a).length = (keep u b).length := by
        intro u a
        induction a generalizing u with
        | nil => intro b hb; cases b <;> cases u <;> simp_all [keep]
        | cons x xs ih =>
          intro b hb
          cases b with
          | nil => simp at hb
          | cons y ys =>
            cases u with
            | nil => rfl
            | cons u us =>
              rw [keep, keep]
              have := ih us ys (by simpa using hb)
              cases u <;> simp [this]
      exact this _ _ _ g2
  obtain ⟨row, r1, r2⟩ := hrow
  -- each entry of the row
  have hentry : ∀ (o : Nat) b, sen'.bandNames[o]? = some b →
      ∃ k : Nat, row[o]? = some ((k : Int) + 1) ∧ l[k]? = some b := by
    intro o b hob
    obtain ⟨j0, a1, a2⟩ := c70_numbers shippedDefs false sen sen' names ix hrows h o b hob
    obtain ⟨row', b1, b2⟩ := a2 s row0 g1
    rw [r1] at b1
    cases b1
    obtain ⟨k, c1, c2, _⟩ := g4 j0 b a1
    exact ⟨k, by rw [b2, c1], c2⟩
  refine ⟨ops, row, l, e1, r1, g3, ?_, ?_, ?_⟩
  · apply c71_read
    intro n hn
    obtain ⟨o, ho, rfl⟩ := List.mem_iff_getElem.1 hn
    have hob : sen'.bandNames[o]? = some (sen'.bandNames[o]'(by omega)) := List.getElem?_eq_getElem _
    obtain ⟨k, c1, c2⟩ := hentry o _ hob
    rw [List.getElem?_eq_getElem ho] at c1
    simp only [Option.some.injEq] at c1
    have := (List.getElem?_eq_some_iff.1 c2).1
    omega
  · have := congrArg List.length e2
    simpa using this
  · intro j o hj
    have := congrArg (fun x => x[j]?) e2
    simp only [List.getElem?_map, hj, Option.map_some] at this
    cases hf : (if i.type = .band then [i.name] else formula i.name i.bands)[j]? with
    | none => rw [hf] at this; simp at this
    | some b =>
      rw [hf] at this
      simp only [Option.map_some, Option.some.injEq] at this
      obtain ⟨k, c1, c2⟩ := hentry o b this
      exact ⟨k + 1, k, by rw [c1]; push_cast; rfl, rfl, c2, by rw [c2]; rfl⟩

end Verif.Sensor

import Mathlib.Data.List.Basic
import Mathlib.Data.List.Nodup
import Mathlib.Data.List.Perm.Subperm
import Verif.Sensor.Lemmas

/-!
# Properties of the sensor and index configuration
-/

namespace Verif.Sensor

open Verif.Str (Out)
open Spec

/-! ## Sensors -/

theorem bind_eq {α β : Type} (a : α) (f : α → Out β) : (Out.ok a).bind f = f a := rfl

/-- The steps of an accepted configuration. -/
theorem retrieve_ok {defs : String → Option SensorDef} {target : Option String} {sensors : List String}
    {r : Sen} (h : retrieveSensor defs false target sensors = .ok (some r)) :
    ∃ (k : Known) (ks : List Known),
      List.Forall₂ (fun s k => BandsOf defs s k.bands) sensors (k :: ks) ∧
      r.bandNames = pick (ks.map (·.bands)) k.bands ∧ r.bandNames ≠ [] ∧
      r.bandNumber = bandNumbers r.bandNames ((k :: ks).map (·.bands)) ∧
      checkTarget defs target r.bandNames = .ok true := by
  unfold retrieveSensor at h
  simp only [Bool.false_eq_true, if_false, Bool.not_false, if_true] at h
  obtain ⟨o, ho, h⟩ := bind_ok h
  cases o with
  | none => simp at h
  | some known =>
    simp only at h
    obtain ⟨_, ks, e, hf⟩ := loadAll_ok ho
    rw [List.nil_append] at e
    subst e
    obtain ⟨b, hb, h⟩ := bind_ok h
    cases known with
    | nil => simp [bandIntersection] at hb
    | cons k ks =>
      cases b with
      | none => simp at h
      | some bands =>
        simp only [List.map_cons, bandIntersection] at hb
        split at hb
        · cases hb
        · rename_i hlen
          simp only [Out.ok.injEq, Option.some.injEq] at hb
          obtain ⟨c, hc, h⟩ := bind_ok h
          cases c with
          | false => simp at h
          | true =>
            simp only [Bool.not_true, Bool.false_eq_true, if_false, Out.ok.injEq, Option.some.injEq] at h
            subst h
            refine ⟨k, ks, hf, hb.symm, ?_, rfl, hc⟩
            intro e
            simp only at e
            rw [hb, e] at hlen
            exact hlen (by simp)

theorem forall₂_mem {α β : Type} {R : α → β → Prop} {l : List α} {m : List β} (h : List.Forall₂ R l m) :
    (∀ a ∈ l, ∃ b ∈ m, R a b) ∧ ∀ b ∈ m, ∃ a ∈ l, R a b := by
  induction h with
  | nil => simp
  | cons h1 h2 ih =>
    refine ⟨?_, ?_⟩
    · intro a ha
      rcases List.mem_cons.1 ha with rfl | ha
      · exact ⟨_, by simp, h1⟩
      · obtain ⟨b, hb, hr⟩ := ih.1 a ha; exact ⟨b, by simp [hb], hr⟩
    · intro b hb
      rcases List.mem_cons.1 hb with rfl | hb
      · exact ⟨_, by simp, h1⟩
      · obtain ⟨a, ha, hr⟩ := ih.2 b hb; exact ⟨a, by simp [ha], hr⟩

theorem forall₂_get {α β : Type} {R : α → β → Prop} {l : List α} {m : List β} (h : List.Forall₂ R l m)
    (i : Nat) (a : α) (ha : l[i]? = some a) : ∃ b, m[i]? = some b ∧ R a b := by
  induction h generalizing i with
  | nil => simp at ha
  | cons h1 h2 ih =>
    cases i with
    | zero => simp at ha; subst ha; exact ⟨_, rfl, h1⟩
    | succ i => exact ih i (by simpa using ha)

theorem str_inj : Function.Injective J.str := fun a b h => by cases h; rfl

/-- The bands of a sensor are determined by its definition. -/
theorem bandsOf_unique {defs : String → Option SensorDef} {s : String} {l m : List String}
    (h1 : BandsOf defs s l) (h2 : BandsOf defs s m) : l = m := by
  obtain ⟨d, e1, e2⟩ := h1
  obtain ⟨d', e1', e2'⟩ := h2
  rw [e1] at e1'
  cases e1'
  rw [e2] at e2'
  simp only [Option.some.injEq, J.arr.injEq] at e2'
  exact List.map_injective_iff.2 str_inj e2'

/-- C68: whatever sensors are combined, if the configuration is accepted the bands that are used are
exactly the bands that every one of the sensors has; there is at least one, and they are in the order
of the first sensor. -/
theorem c68_bands (defs : String → Option SensorDef) (target : Option String) (sensors : List String)
    (r : Sen) (h : retrieveSensor defs false target sensors = .ok (some r)) :
    (∀ b, b ∈ r.bandNames ↔ ∀ s ∈ sensors, HasBand defs s b) ∧ r.bandNames ≠ [] ∧
      ∃ first rest l, sensors = first :: rest ∧ BandsOf defs first l ∧ r.bandNames.Sublist l := by
  obtain ⟨k, ks, hf, e1, hne, _, _⟩ := retrieve_ok h
  cases hf with
  | cons hk hks =>
    rename_i first rest
    refine ⟨fun b => ?_, hne, first, rest, k.bands, rfl, hk, ?_⟩
    · rw [e1, pick_eq, List.mem_filter, inAll_iff]
      have hm := forall₂_mem hks
      constructor
      · rintro ⟨h1, h2⟩ s hs
        rcases List.mem_cons.1 hs with rfl | hs
        · exact ⟨_, hk, h1⟩
        · obtain ⟨k', hk', hb⟩ := hm.1 s hs
          exact ⟨_, hb, h2 _ (List.mem_map_of_mem hk')⟩
      · intro hall
        refine ⟨?_, ?_⟩
        · obtain ⟨l, hl, hb⟩ := hall first (by simp)
          rwa [bandsOf_unique hk hl]
        · intro l hl
          obtain ⟨k', hk', rfl⟩ := List.mem_map.1 hl
          obtain ⟨s, hs, hb⟩ := hm.2 k' hk'
          obtain ⟨l, hl', hbl⟩ := hall s (List.mem_cons_of_mem _ hs)
          rwa [bandsOf_unique hb hl']
    · rw [e1, pick_eq]; exact List.filter_sublist

/-- C68: for every sensor and every band of the configuration, the band number that is read from the
files of that sensor is the (1-based) position of the band in the definition of the sensor, the first
one if the name occurs repeatedly. -/
theorem c68_numbers (defs : String → Option SensorDef) (target : Option String) (sensors : List String)
    (r : Sen) (h : retrieveSensor defs false target sensors = .ok (some r)) (i : Nat) (s : String)
    (hs : sensors[i]? = some s) :
    ∃ row l, r.bandNumber[i]? = some row ∧ row.length = r.bandNames.length ∧ BandsOf defs s l ∧
      ∀ (j : Nat) b, r.bandNames[j]? = some b →
        ∃ k : Nat, row[j]? = some ((k : Int) + 1) ∧ l[k]? = some b ∧ ∀ k' < k, l[k']? ≠ some b := by
  obtain ⟨k, ks, hf, e1, _, e2, _⟩ := retrieve_ok h
  obtain ⟨kn, hkn, hb⟩ := forall₂_get hf i s hs
  have hbands := (c68_bands defs target sensors r h).1
  refine ⟨r.bandNames.map fun b => pos kn.bands b 0 + 1, kn.bands, ?_, by simp, hb, ?_⟩
  · rw [e2, bandNumbers, List.map_map, List.getElem?_map, hkn]
    rfl
  · intro j b hj
    have hmem : b ∈ r.bandNames := List.mem_of_getElem? hj
    obtain ⟨l, hl, hbl⟩ := (hbands b).1 hmem s (List.mem_of_getElem? hs)
    rw [← bandsOf_unique hb hl] at hbl
    obtain ⟨m, h1, h2, h3⟩ := pos_spec kn.bands b 0 hbl
    refine ⟨m, ?_, h2, h3⟩
    simp [hj, h1]

/-- C68: an accepted configuration matches the target sensor: every band that is used is a band of the
target, and if the names are unique the two sets of bands are the same. -/
theorem c68_target (defs : String → Option SensorDef) (target : Option String) (sensors : List String)
    (r : Sen) (h : retrieveSensor defs false target sensors = .ok (some r)) :
    ∃ t l, target = some t ∧ BandsOf defs t l ∧ (∀ b ∈ r.bandNames, b ∈ l) ∧
      r.bandNames.length = l.length ∧ (r.bandNames.Nodup → ∀ b, b ∈ r.bandNames ↔ b ∈ l) := by
  obtain ⟨k, ks, hf, e1, _, e2, hc⟩ := retrieve_ok h
  unfold checkTarget at hc
  cases target with
  | none => simp at hc
  | some t =>
    simp only at hc
    cases hd : defs t with
    | none => rw [hd] at hc; simp at hc
    | some d =>
      rw [hd] at hc
      obtain ⟨n, hn, hc⟩ := bind_ok hc
      cases n with
      | none => simp at hc
      | some n =>
        simp only at hc
        split at hc
        · cases hc
        · obtain ⟨l, hl, hc⟩ := bind_ok hc
          cases l with
          | none => simp at hc
          | some l =>
            simp only at hc
            split at hc
            · cases hc
            · rename_i hlen
              simp only [Out.ok.injEq] at hc
              have hsub := (allContained_iff l r.bandNames).1 hc
              obtain ⟨g1, g2, _⟩ := getNames_ok hl
              have hll : r.bandNames.length = l.length := by
                simp only [ne_eq, not_not] at hlen
                omega
              refine ⟨t, l, rfl, ⟨d, hd, g1⟩, hsub, hll, fun hnd b => ⟨hsub b, fun hb => ?_⟩⟩
              have hp : r.bandNames.Subperm l := List.subperm_of_subset hnd hsub
              exact (hp.perm_of_length_le (by omega)).mem_iff.2 hb

theorem forall₂_length {α β : Type} {R : α → β → Prop} {l : List α} {m : List β}
    (h : List.Forall₂ R l m) : l.length = m.length := by
  induction h with
  | nil => rfl
  | cons _ _ ih => simp [ih]

/-- C68: a consistent configuration is accepted: all definitions are complete, there is a common band,
the target has as many bands as there are common ones, and has each of them. `common` are the bands of
the first sensor that all others have. -/
theorem c68_accept (defs : String → Option SensorDef) (t tname : String) (tbands : List String)
    (sensors : List String) (k : Known) (ks : List Known)
    (hv : List.Forall₂ (fun s k => Valid defs s k.name k.bands) sensors (k :: ks))
    (ht : Valid defs t tname tbands) (common : List String)
    (hcommon : common = k.bands.filter fun b => ks.all fun k' => decide (b ∈ k'.bands))
    (hne : common ≠ []) (hlen : tbands.length = common.length) (hsub : ∀ b ∈ common, b ∈ tbands) :
    ∃ r, retrieveSensor defs false (some t) sensors = .ok (some r) ∧ r.bandNames = common ∧
      r.sensors = (k :: ks).map (·.name) := by
  have hp : pick (ks.map (·.bands)) k.bands = common := by
    rw [hcommon, pick_eq]
    apply List.filter_congr
    intro b _
    rw [Bool.eq_iff_iff, inAll_iff]
    simp
  obtain ⟨d, e1, e2, e3, e4⟩ := valid_load ht
  have hload := loadAll_valid (cap := sensors.length) sensors (k :: ks) hv 0 [] (by omega) []
  rw [List.append_nil, loadAll, if_neg (by omega), List.nil_append] at hload
  have hc : checkTarget defs (some t) common = .ok true := by
    unfold checkTarget
    simp only [e1, e2, bind_eq, e3, Bool.not_true, Bool.false_eq_true, if_false, e4]
    rw [if_neg (by rw [hlen]; simp), (allContained_iff tbands common).2 hsub]
  refine ⟨⟨(k :: ks).map (·.name), common, bandNumbers common ((k :: ks).map (·.bands))⟩, ?_, rfl, rfl⟩
  · unfold retrieveSensor
    simp only [Bool.false_eq_true, if_false, Bool.not_false, if_true, hload, bind_eq, List.map_cons,
      bandIntersection, hp]
    rw [if_neg (by intro hl; exact hne (List.length_eq_zero_iff.1 (by omega)))]
    simp only [bind_eq, hc, Bool.not_true, Bool.false_eq_true, if_false]

/-- C69: without spectral adjustment and with a target sensor the configuration never leaves its
arrays, whatever the definition files contain. -/
theorem c69_safe_partial (defs : String → Option SensorDef) (t : String) (sensors : List String)
    (hs : sensors ≠ []) : retrieveSensor defs false (some t) sensors ≠ .ub := by
  unfold retrieveSensor
  simp only [Bool.false_eq_true, if_false, Bool.not_false, if_true]
  refine bind_ne_ub (loadAll_ne_ub _ _ _ _ _ _ (by omega)) fun o ho => ?_
  cases o with
  | none => exact fun h => by cases h
  | some known =>
    obtain ⟨_, ks, e, hf⟩ := loadAll_ok ho
    rw [List.nil_append] at e
    subst e
    cases known with
    | nil => cases hf; exact absurd rfl hs
    | cons k ks =>
      simp only
      refine bind_ne_ub ?_ fun b hb => ?_
      · simp only [List.map_cons, bandIntersection]
        split <;> exact fun h => by cases h
      · cases b with
        | none => exact fun h => by cases h
        | some bands =>
          simp only
          refine bind_ne_ub ?_ fun c _ => ?_
          · unfold checkTarget
            simp only
            split
            · exact fun h => by cases h
            · refine bind_ne_ub (getName_ne_ub _) fun n _ => ?_
              split
              · exact fun h => by cases h
              · split
                · exact fun h => by cases h
                · refine bind_ne_ub (getNames_ne_ub _ _) fun l _ => ?_
                  split
                  · exact fun h => by cases h
                  · split <;> exact fun h => by cases h
          · split <;> exact fun h => by cases h

/-- C69, violated: with SPECTRAL_ADJUST the sensor SEN2A is appended to the list after the arrays for
the band counts and names were allocated for the shorter list. For every valid combination of sensors
the program writes and reads behind the end of both arrays. -/
theorem c69_adjust_violated (defs : String → Option SensorDef) (target : Option String)
    (sensors : List String) (ks : List Known) (name : String) (bands : List String)
    (hv : List.Forall₂ (fun s k => Valid defs s k.name k.bands) sensors ks)
    (h2 : Valid defs "SEN2A" name bands) : retrieveSensor defs true target sensors = .ub := by
  unfold retrieveSensor
  simp only [if_true]
  rw [loadAll_valid (cap := sensors.length) sensors ks hv 0 [] (by omega) ["SEN2A"]]
  obtain ⟨d, e1, e2, e3, e4⟩ := valid_load h2
  rw [loadAll, e1]
  simp only [e2, bind_eq]
  rw [if_pos (by omega)]
  rfl

/-- C69, violated: the sensors of the low-resolution data of the Level 2 ImproPhe are configured
without a target sensor (only the first group of sensors has the parameter TARGET_SENSOR). Such a
configuration is never accepted, and a valid one reaches the use of a null pointer as file name. -/
theorem c69_lowres_violated (defs : String → Option SensorDef) (sensors : List String) :
    (∀ r, retrieveSensor defs false none sensors ≠ .ok (some r)) ∧
    ∀ (k : Known) (ks : List Known),
      List.Forall₂ (fun s k => Valid defs s k.name k.bands) sensors (k :: ks) →
      (∃ b ∈ k.bands, ∀ k' ∈ ks, b ∈ k'.bands) → retrieveSensor defs false none sensors = .ub := by
  refine ⟨fun r h => ?_, fun k ks hv ⟨b, hb, hall⟩ => ?_⟩
  · obtain ⟨_, _, _, _, _, _, hc⟩ := retrieve_ok h
    simp [checkTarget] at hc
  · have hload := loadAll_valid (cap := sensors.length) sensors (k :: ks) hv 0 [] (by omega) []
    rw [List.append_nil, loadAll, if_neg (by omega), List.nil_append] at hload
    have hmem : b ∈ pick (ks.map (·.bands)) k.bands := by
      rw [pick_eq, List.mem_filter, inAll_iff]
      refine ⟨hb, fun l hl => ?_⟩
      obtain ⟨k', hk', rfl⟩ := List.mem_map.1 hl
      exact hall k' hk'
    unfold retrieveSensor
    simp only [Bool.false_eq_true, if_false, Bool.not_false, if_true, hload, bind_eq, List.map_cons,
      bandIntersection]
    rw [if_neg (by have := List.length_pos_of_mem hmem; omega)]
    simp only [bind_eq, checkTarget]
    rfl

/-- C69: the union of the bands that spectral adjustment works with has every band of any sensor
exactly once. -/
theorem c69_union (L : List (List String)) (u : List String) (h : bandUnion L = .ok (some u)) :
    u.Nodup ∧ ∀ b, b ∈ u ↔ ∃ l ∈ L, b ∈ l := by
  unfold bandUnion at h
  simp only at h
  split at h
  · cases h
  · cases h
    have := union_spec L [] (by simp)
    refine ⟨this.1, fun b => ?_⟩
    rw [this.2 b]; simp

end Verif.Sensor

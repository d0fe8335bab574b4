import Mathlib.Data.List.Nodup
import Mathlib.Data.List.Infix
import Verif.Libc.Lemmas
import Verif.Season.Props
import Verif.Tsa.Dates

/-!
# Theorems about products and their names: C203, C204, C207
-/

namespace Verif.Tsa

open Spec

/-! ## Parameters -/

/-- What the consistency rules do to the parameters. -/
theorem normalise_fields (raw p : Par) (h : normalise raw = some p) :
    p.indices = raw.indices ∧ p.otss = raw.otss ∧
    p.orms = (raw.orms && raw.indices.contains "SMA") ∧
    p.onrt = (raw.onrt && decide (raw.method = .harmonic) && decide (raw.fitMin ≠ raw.fitMax)) ∧
    p.otsi = raw.otsi ∧ p.ostm = raw.ostm ∧
    (p.fby = raw.fby ∧ p.fbq = raw.fbq ∧ p.fbm = raw.fbm ∧ p.fbw = raw.fbw ∧ p.fbd = raw.fbd) ∧
    (p.opct = raw.opct ∧ p.opol = raw.opol ∧ p.otro = raw.otro ∧ p.ocao = raw.ocao ∧ p.pol = raw.pol) ∧
    p.pypOut = (raw.pypOut && raw.pypCode) ∧ p.rspOut = (raw.rspOut && raw.rspCode) ∧
    (p.pypCode = (raw.pypOut && raw.pypCode) ∧ p.rspCode = (raw.rspOut && raw.rspCode)) ∧
    p.stream = (raw.stream && !(raw.rspOut && raw.rspCode)) ∧ p.method = raw.method ∧
    (p.fitMin = if raw.fitMin = raw.fitMax then 693501 else raw.fitMin) ∧
    (p.fitMax = if raw.fitMin = raw.fitMax then 766865 else raw.fitMax) := by
  have e1 : Date.date2ce 1900 1 1 = 693501 := by decide
  have e2 : Date.date2ce 2100 12 31 = 766865 := by decide
  have f1 : ∀ q : Par, fixRms q = { q with orms := q.orms && q.indices.contains "SMA" } := by
    rintro ⟨⟩; unfold fixRms; dsimp only; split <;> simp_all
  have f2 : ∀ q : Par, fixNrt q = { q with onrt := q.onrt && decide (q.method = .harmonic) } := by
    rintro ⟨⟩; unfold fixNrt; dsimp only; split <;> simp_all
  have f3 : ∀ q : Par, fixForecast q = { q with onrt := q.onrt && decide (q.fitMin ≠ q.fitMax) } := by
    rintro ⟨⟩; unfold fixForecast; dsimp only; split <;> simp_all
  have f4 : ∀ q : Par, fixRange q = { q with
      fitMin := if q.fitMin = q.fitMax then 693501 else q.fitMin,
      fitMax := if q.fitMin = q.fitMax then 766865 else q.fitMax } := by
    rintro ⟨⟩; unfold fixRange; rw [e1, e2]; dsimp only; split <;> simp_all
  have f5 : ∀ q : Par, fixPyp q = { q with pypOut := q.pypOut && q.pypCode, pypCode := q.pypOut && q.pypCode } := by
    rintro ⟨_, _, _, _, _, _, _, _, _, _, _, _, _, _, _, _, o, c, _, _, _, _, _, _, _, _, _, _⟩
    cases o <;> cases c <;> rfl
  have f6 : ∀ q : Par, fixRsp q = { q with rspOut := q.rspOut && q.rspCode, rspCode := q.rspOut && q.rspCode } := by
    rintro ⟨_, _, _, _, _, _, _, _, _, _, _, _, _, _, _, _, _, _, o, c, _, _, _, _, _, _, _, _⟩
    cases o <;> cases c <;> rfl
  have f7 : ∀ q : Par, fixStream q = { q with stream := q.stream && !q.rspOut } := by
    rintro ⟨_, _, _, _, _, _, _, _, _, _, _, _, _, _, _, _, _, _, o, _, c, _, _, _, _, _, _, _⟩
    cases o <;> cases c <;> rfl
  simp only [normalise] at h
  split at h
  case isFalse => cases h
  split at h
  case isFalse => cases h
  rw [Option.some.injEq] at h
  obtain ⟨i, a1, a2, a3, a4, a5, a6, a7, a8, a9, b1, b2, b3, b4, b5, b6, b7, b8, b9, c1, c2, c3, c4, c5, c6, c7, c8, c9⟩ := raw
  rw [f1] at h
  dsimp only at h
  rw [f2] at h
  dsimp only at h
  rw [f3] at h
  dsimp only at h
  rw [f4] at h
  dsimp only at h
  rw [f5] at h
  dsimp only at h
  rw [f6] at h
  dsimp only at h
  rw [f7] at h
  dsimp only at h
  subst h
  exact ⟨rfl, rfl, rfl, rfl, rfl, rfl, ⟨rfl, rfl, rfl, rfl, rfl⟩, ⟨rfl, rfl, rfl, rfl, rfl⟩, rfl, rfl, ⟨rfl, rfl⟩, rfl,
    rfl, rfl, rfl⟩

/-- C207: for every parameter file, the run is refused if and only if the index SMA is requested without
endmembers or without any constraint, or polarmetrics are requested for less than two years or without
interpolation. -/
theorem c207_refused (raw : Par) :
    normalise raw = none ↔
      ("SMA" ∈ raw.indices ∧ (raw.emb = false ∨ (raw.pos = false ∧ raw.sto = false))) ∨
      ((raw.opct = true ∨ raw.opol = true ∨ raw.otro = true ∨ raw.ocao = true) ∧ (raw.ns < 1 ∨ raw.method = .none)) := by
  have hs : smaOk (fixRms raw) = smaOk raw := by unfold fixRms; split <;> rfl
  have hp : polOk (fixRange (fixForecast (fixNrt (fixRms raw)))) = polOk raw := by
    have a : ∀ p, polOk (fixRange p) = polOk p := fun p => by unfold fixRange; split <;> rfl
    have b : ∀ p, polOk (fixForecast p) = polOk p := fun p => by unfold fixForecast; split <;> rfl
    have c : ∀ p, polOk (fixNrt p) = polOk p := fun p => by unfold fixNrt; split <;> rfl
    have d : ∀ p, polOk (fixRms p) = polOk p := fun p => by unfold fixRms; split <;> rfl
    rw [a, b, c, d]
  have h1 : smaOk raw = false ↔ "SMA" ∈ raw.indices ∧ (raw.emb = false ∨ (raw.pos = false ∧ raw.sto = false)) := by
    have hc : raw.indices.contains "SMA" = true ↔ "SMA" ∈ raw.indices := List.contains_iff_mem
    rw [← hc]
    unfold smaOk
    cases raw.indices.contains "SMA" <;> cases raw.emb <;> cases raw.pos <;> cases raw.sto <;> simp
  have h2 : polOk raw = false ↔ (raw.opct = true ∨ raw.opol = true ∨ raw.otro = true ∨ raw.ocao = true) ∧
      (raw.ns < 1 ∨ raw.method = .none) := by
    unfold polOk
    by_cases hn : raw.ns < 1 <;> by_cases hm : raw.method = .none <;>
      cases raw.opct <;> cases raw.opol <;> cases raw.otro <;> cases raw.ocao <;> simp [hn, hm]
  rw [← h1, ← h2]
  unfold normalise
  simp only [hs, hp]
  cases smaOk raw <;> cases polOk raw <;> simp

/-- C207: without a fitting period exactly the observations of the years 1900 to 2100 are used; R code is only
run without streaming; user code is only run if its output is requested. -/
theorem c207_rules (raw p : Par) (h : normalise raw = some p) :
    (raw.fitMin = raw.fitMax → ∀ y m d : Int, Date.Spec.ValidMD m d →
      (p.fitMin ≤ Date.date2ce y m d ∧ Date.date2ce y m d ≤ p.fitMax ↔ 1900 ≤ y ∧ y ≤ 2100)) ∧
    (raw.fitMin ≠ raw.fitMax → p.fitMin = raw.fitMin ∧ p.fitMax = raw.fitMax) ∧
    (p.rspOut = true → p.stream = false) ∧
    (p.pypOut = p.pypCode ∧ p.rspOut = p.rspCode) := by
  obtain ⟨-, -, -, -, -, -, -, -, hpo, hro, ⟨hpc, hrc⟩, hst, -, hmin, hmax⟩ := normalise_fields raw p h
  refine ⟨?_, ?_, ?_, ?_, ?_⟩
  · intro he y m d hv
    have hd := Date.dayOfYear_range hv
    have hm := Date.md2doy_eq (d := d) hv.1 hv.2.1
    rw [hmin, hmax, if_pos he, if_pos he, Date.date2ce, hm]
    omega
  · intro he
    rw [hmin, hmax, if_neg he, if_neg he]
    exact ⟨rfl, rfl⟩
  · intro hr
    rw [hst, ← hro, hr]
    simp
  · rw [hpo, hpc]
  · rw [hro, hrc]

/-! ## C203 -/

/-- The names in the table of products. -/
def allNames : List String :=
  ["TSS", "NRT", "RMS", "TSI", "STM", "FBY", "TRY", "CAY", "FBQ", "TRQ", "CAQ", "FBM", "TRM", "CAM", "FBW", "TRW",
    "CAW", "FBD", "TRD", "CAD", "PCX", "PCY"] ++ (polTags.map fun l => l ++ "-POL") ++ (polTags.map fun l => l ++ "-TRO") ++
    (polTags.map fun l => l ++ "-CAO") ++ ["PYP", "RSP"]

theorem infos_names (p : Par) : (infos p).map Info.name = allNames := by
  simp only [infos, polInfos, foldInfos, allNames, List.map_append, List.map_map, List.map_cons, List.map_nil,
    List.append_assoc, List.cons_append, List.nil_append]
  rfl

theorem names_nodup : (allNames.map String.toList).Nodup := by decide +kernel

theorem names_plain : ∀ s ∈ allNames, '_' ∉ s.toList := by decide +kernel

/-- C203: the table of products has exactly the size that was allocated for it, whatever is
requested. -/
theorem c203_table (p : Par) : (infos p).length = nprod := by
  have := congrArg List.length (infos_names p)
  rw [List.length_map] at this
  rw [this]
  decide +kernel

theorem exists_product (P : Product → Prop) : (∃ x, P x) ↔
    P .tss ∨ P .nrt ∨ P .rms ∨ P .tsi ∨ P .stm ∨ P .pcx ∨ P .pcy ∨ P .pyp ∨ P .rsp ∨
    (∃ a, P (.fold a)) ∨ (∃ a, P (.trend a)) ∨ (∃ a, P (.change a)) ∨
    (∃ t, P (.polar t)) ∨ (∃ t, P (.polarTrend t)) ∨ (∃ t, P (.polarChange t)) := by
  constructor
  · rintro ⟨x, hx⟩
    cases x
    case tss => exact .inl hx
    case nrt => exact .inr (.inl hx)
    case rms => exact .inr (.inr (.inl hx))
    case tsi => exact .inr (.inr (.inr (.inl hx)))
    case stm => exact .inr (.inr (.inr (.inr (.inl hx))))
    all_goals refine .inr (.inr (.inr (.inr (.inr ?_))))
    case pcx => exact .inl hx
    case pcy => exact .inr (.inl hx)
    case pyp => exact .inr (.inr (.inl hx))
    case rsp => exact .inr (.inr (.inr (.inl hx)))
    all_goals refine .inr (.inr (.inr (.inr ?_)))
    case fold a => exact .inl ⟨a, hx⟩
    case trend a => exact .inr (.inl ⟨a, hx⟩)
    case change a => exact .inr (.inr (.inl ⟨a, hx⟩))
    all_goals refine .inr (.inr (.inr ?_))
    case polar a => exact .inl ⟨a, hx⟩
    case polarTrend a => exact .inr (.inl ⟨a, hx⟩)
    case polarChange a => exact .inr (.inr ⟨a, hx⟩)
  · intro h
    rcases h with h | h | h | h | h | h | h | h | h | ⟨a, h⟩ | ⟨a, h⟩ | ⟨a, h⟩ | ⟨a, h⟩ | ⟨a, h⟩ | ⟨a, h⟩ <;> exact ⟨_, h⟩

theorem exists_per (P : Per → Prop) : (∃ a, P a) ↔ P .year ∨ P .quarter ∨ P .month ∨ P .week ∨ P .day := by
  constructor
  · rintro ⟨x, hx⟩; cases x <;> simp_all
  · rintro (h | h | h | h | h) <;> exact ⟨_, h⟩

/-- What is written, by name. -/
theorem mem_written (p : Par) (n : String) : (∃ o ∈ written p, o.name = n) ↔
    (p.otss = true ∧ "TSS" = n) ∨ (p.onrt = true ∧ "NRT" = n) ∨ (p.orms = true ∧ "RMS" = n) ∨
    (p.otsi = true ∧ "TSI" = n) ∨ (p.ostm = true ∧ "STM" = n) ∨
    (p.fby.fb = true ∧ "FBY" = n) ∨ (p.fby.tr = true ∧ "TRY" = n) ∨ (p.fby.ca = true ∧ "CAY" = n) ∨
    (p.fbq.fb = true ∧ "FBQ" = n) ∨ (p.fbq.tr = true ∧ "TRQ" = n) ∨ (p.fbq.ca = true ∧ "CAQ" = n) ∨
    (p.fbm.fb = true ∧ "FBM" = n) ∨ (p.fbm.tr = true ∧ "TRM" = n) ∨ (p.fbm.ca = true ∧ "CAM" = n) ∨
    (p.fbw.fb = true ∧ "FBW" = n) ∨ (p.fbw.tr = true ∧ "TRW" = n) ∨ (p.fbw.ca = true ∧ "CAW" = n) ∨
    (p.fbd.fb = true ∧ "FBD" = n) ∨ (p.fbd.tr = true ∧ "TRD" = n) ∨ (p.fbd.ca = true ∧ "CAD" = n) ∨
    (p.opct = true ∧ "PCX" = n) ∨ (p.opct = true ∧ "PCY" = n) ∨
    (∃ l ∈ polTags, (l ∈ p.pol ∧ p.opol = true) ∧ l ++ "-POL" = n) ∨
    (∃ l ∈ polTags, (l ∈ p.pol ∧ p.otro = true) ∧ l ++ "-TRO" = n) ∨
    (∃ l ∈ polTags, (l ∈ p.pol ∧ p.ocao = true) ∧ l ++ "-CAO" = n) ∨
    (p.pypOut = true ∧ "PYP" = n) ∨ (p.rspOut = true ∧ "RSP" = n) := by
  have key : (∃ o ∈ written p, o.name = n) ↔ ∃ o ∈ infos p, (o.enable = true ∧ o.write = true) ∧ o.name = n := by
    simp only [written, computed, List.mem_filter]
    constructor
    · rintro ⟨o, ⟨⟨a, b⟩, c⟩, d⟩; exact ⟨o, a, ⟨b, c⟩, d⟩
    · rintro ⟨o, a, ⟨b, c⟩, d⟩; exact ⟨o, ⟨⟨a, b⟩, c⟩, d⟩
  have hmap : ∀ (l : List String) (f : String → Info) (P : Info → Prop),
      (∃ o ∈ l.map f, P o) ↔ ∃ s ∈ l, P (f s) := fun l f P => by simp
  rw [key]
  simp only [infos, polInfos, foldInfos, List.mem_append, or_and_right, exists_or, hmap, List.exists_mem_cons_iff,
    List.not_mem_nil, false_and, exists_false, or_false, or_assoc]
  simp only [Bool.or_eq_true, Bool.and_eq_true, List.contains_iff_mem, or_assoc, true_and, and_self]
  have e1 : ∀ (a b c : Prop) (q : Prop), ((a ∨ b ∨ c) ∧ a) ∧ q ↔ a ∧ q := fun a b c q => by tauto
  have e2 : ∀ (u a b c : Prop) (q : Prop), ((u ∧ (a ∨ b ∨ c)) ∧ u ∧ a) ∧ q ↔ (u ∧ a) ∧ q := fun u a b c q => by tauto
  simp only [e1, e2]

/-- C203 (partial: not for the error of the unmixing of other indices): for every accepted parameter
file, every index and every name, a product of that name is written for the index if and only if it is
the name of a product that was requested. -/
theorem c203_products_partial (raw p : Par) (h : normalise raw = some p) (index : String) (hi : index ∈ raw.indices)
    (n : String) (hn : n = "RMS" → index = "SMA") :
    (∃ o ∈ written p, o.name = n) ↔ ∃ x : Product, x.name = n ∧ Requested raw index x := by
  obtain ⟨-, h2, h3, h4, h5, h6, ⟨y, q, m, w, d⟩, ⟨p1, p2, p3, p4, p5⟩, hpo, hro, -, -, -, -, -⟩ := normalise_fields raw p h
  rw [mem_written, exists_product]
  simp only [exists_per, Product.name, Per.letter, Requested, Per.out, h2, h3, h4, h5, h6, y, q, m, w, d, p1, p2, p3, p4,
    p5, hpo, hro, Bool.and_eq_true, decide_eq_true_eq, List.contains_iff_mem]
  have hr : ("RMS" = n ∧ raw.orms = true ∧ index = "SMA") ↔ ((raw.orms = true ∧ "SMA" ∈ raw.indices) ∧ "RMS" = n) := by
    constructor
    · rintro ⟨a, b, c⟩; exact ⟨⟨b, c ▸ hi⟩, a⟩
    · rintro ⟨⟨a, _⟩, b⟩; exact ⟨b, a, hn b.symm⟩
  have s : ("FB" ++ "Y" = "FBY" ∧ "FB" ++ "Q" = "FBQ" ∧ "FB" ++ "M" = "FBM" ∧ "FB" ++ "W" = "FBW" ∧ "FB" ++ "D" = "FBD") ∧
      ("TR" ++ "Y" = "TRY" ∧ "TR" ++ "Q" = "TRQ" ∧ "TR" ++ "M" = "TRM" ∧ "TR" ++ "W" = "TRW" ∧ "TR" ++ "D" = "TRD") ∧
      ("CA" ++ "Y" = "CAY" ∧ "CA" ++ "Q" = "CAQ" ∧ "CA" ++ "M" = "CAM" ∧ "CA" ++ "W" = "CAW" ∧ "CA" ++ "D" = "CAD") := by
    decide
  simp only [s]
  rw [hr]
  have hpol : ∀ (t : String) (b : Bool), (∃ l, l ++ t = n ∧ l ∈ polTags ∧ l ∈ raw.pol ∧ b = true) ↔
      ∃ l ∈ polTags, (l ∈ raw.pol ∧ b = true) ∧ l ++ t = n := fun t b => by
    constructor
    · rintro ⟨l, a, b, c, d⟩; exact ⟨l, b, ⟨c, d⟩, a⟩
    · rintro ⟨l, b, ⟨c, d⟩, a⟩; exact ⟨l, a, b, c, d⟩
  rw [hpol, hpol, hpol]
  generalize (∃ l ∈ polTags, (l ∈ raw.pol ∧ raw.opol = true) ∧ l ++ "-POL" = n) = A
  generalize (∃ l ∈ polTags, (l ∈ raw.pol ∧ raw.otro = true) ∧ l ++ "-TRO" = n) = B
  generalize (∃ l ∈ polTags, (l ∈ raw.pol ∧ raw.ocao = true) ∧ l ++ "-CAO" = n) = C
  constructor
  · rintro (h | h | h | h | h | h | h | h | h | h | h | h | h | h | h | h | h | h | h | h | h | h | h | h | h | h | h) <;> simp [h]
  · rintro (h | h | h | h | h | h | h | h | h | (h | h | h | h | h) | (h | h | h | h | h) | (h | h | h | h | h) | h | h | h) <;> simp [h]

/-- C203, violated: if the error of the unmixing is requested, and SMA is one of several indices, an
error product is also written for every other index, although nothing was unmixed. -/
theorem c203_rms_violated (raw p : Par) (h : normalise raw = some p) (index : String) (hi : index ∈ raw.indices)
    (hs : "SMA" ∈ raw.indices) (hx : index ≠ "SMA") (ho : raw.orms = true) :
    (∃ o ∈ written p, o.name = "RMS") ∧ ¬ Requested raw index .rms ∧
    ∀ pre, fileName pre index.toList "RMS".toList ∈ files pre p := by
  obtain ⟨h1, -, h3, -⟩ := normalise_fields raw p h
  have hw : ∃ o ∈ written p, o.name = "RMS" := by
    rw [mem_written, h3]
    simp [ho, hs]
  refine ⟨hw, fun hr => hx hr.2, fun pre => ?_⟩
  obtain ⟨o, ho', hn⟩ := hw
  refine List.mem_flatMap.2 ⟨index, h1 ▸ hi, List.mem_map.2 ⟨o, ho', by rw [hn]⟩⟩

/-- C203: whatever a written product is computed from is computed as well, even if it is not requested:
the folded series for trend and change of a fold, the polarmetric for its trend and change. -/
theorem c203_inputs (p : Par) :
    (∀ a : Per, ((a.out p).tr = true ∨ (a.out p).ca = true) → ∃ o ∈ computed p, o.name = "FB" ++ a.letter) ∧
    (∀ t ∈ polTags, t ∈ p.pol → (p.otro = true ∨ p.ocao = true) → ∃ o ∈ computed p, o.name = t ++ "-POL") ∧
    (∃ o ∈ computed p, o.name = "TSS") ∧ (∃ o ∈ computed p, o.name = "TSI") := by
  have mem : ∀ o, o ∈ infos p → o.enable = true → o ∈ computed p := fun o h1 h2 => List.mem_filter.2 ⟨h1, h2⟩
  refine ⟨?_, ?_, ?_, ?_⟩
  · intro a h
    cases a
    · exact ⟨⟨"FBY", .year, p.fby.fb || p.fby.tr || p.fby.ca, p.fby.fb⟩, mem _ (by simp [infos, foldInfos])
        (by simpa [Per.out, or_assoc] using Or.inr h), rfl⟩
    · exact ⟨⟨"FBQ", .quarter, p.fbq.fb || p.fbq.tr || p.fbq.ca, p.fbq.fb⟩, mem _ (by simp [infos, foldInfos])
        (by simpa [Per.out, or_assoc] using Or.inr h), rfl⟩
    · exact ⟨⟨"FBM", .month, p.fbm.fb || p.fbm.tr || p.fbm.ca, p.fbm.fb⟩, mem _ (by simp [infos, foldInfos])
        (by simpa [Per.out, or_assoc] using Or.inr h), rfl⟩
    · exact ⟨⟨"FBW", .week, p.fbw.fb || p.fbw.tr || p.fbw.ca, p.fbw.fb⟩, mem _ (by simp [infos, foldInfos])
        (by simpa [Per.out, or_assoc] using Or.inr h), rfl⟩
    · exact ⟨⟨"FBD", .day, p.fbd.fb || p.fbd.tr || p.fbd.ca, p.fbd.fb⟩, mem _ (by simp [infos, foldInfos])
        (by simpa [Per.out, or_assoc] using Or.inr h), rfl⟩
  · intro t ht hp h
    refine ⟨⟨t ++ "-POL", .pol, p.pol.contains t && (p.opol || p.otro || p.ocao), p.pol.contains t && p.opol⟩, mem _ ?_ ?_, rfl⟩
    · simp only [infos, polInfos, List.mem_append]
      exact Or.inl (Or.inr (Or.inl (Or.inl (Or.inr (List.mem_map.2 ⟨t, ht, rfl⟩)))))
    · simpa [hp, or_assoc] using Or.inr h
  · exact ⟨⟨"TSS", .full, true, p.otss⟩, mem _ (by simp [infos]) rfl, rfl⟩
  · exact ⟨⟨"TSI", .inter, true, p.otsi⟩, mem _ (by simp [infos]) rfl, rfl⟩

/-- C203: each product has one entry in the table, and its bands are of the kind that the user guide says. -/
theorem c203_kinds (p : Par) (x : Product) (hx : x.Known) :
    (∃ o ∈ infos p, o.name = x.name ∧ o.kind = x.kind) ∧ ∀ o ∈ infos p, o.name = x.name → o.kind = x.kind := by
  have hex : ∃ o ∈ infos p, o.name = x.name ∧ o.kind = x.kind := by
    have hmap : ∀ (l : List String) (f : String → Info) (P : Info → Prop),
        (∃ o ∈ l.map f, P o) ↔ ∃ s ∈ l, P (f s) := fun l f P => by simp
    simp only [infos, polInfos, foldInfos, List.mem_append, or_and_right, exists_or, hmap, List.exists_mem_cons_iff,
      List.not_mem_nil, false_and, exists_false, or_false, or_assoc]
    cases x
    case fold a => cases a <;> simp [Product.name, Product.kind, Per.letter]
    case trend a => cases a <;> simp [Product.name, Product.kind, Per.letter]
    case change a => cases a <;> simp [Product.name, Product.kind, Per.letter]
    case polar t =>
      simp only [Product.name, Product.kind]
      simp
      exact hx
    case polarTrend t =>
      simp only [Product.name, Product.kind]
      simp
      exact .inr (.inr (.inr (.inr (.inr hx))))
    case polarChange t =>
      simp only [Product.name, Product.kind]
      simp
      exact .inr (.inr (.inr (.inr (.inr hx))))
    all_goals simp [Product.name, Product.kind]
  refine ⟨hex, fun o ho hn => ?_⟩
  obtain ⟨o', ho', hn', hk⟩ := hex
  have hnd : ((infos p).map Info.name).Nodup := by
    rw [infos_names]
    exact List.Nodup.of_map _ names_nodup
  rw [List.inj_on_of_nodup_map hnd ho ho' (hn.trans hn'.symm)]
  exact hk

end Verif.Tsa

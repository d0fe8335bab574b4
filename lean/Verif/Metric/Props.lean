import Verif.Metric.Model
import Mathlib.Data.List.Basic

/-!
# Products of texture and landscape metrics: C310
-/

namespace Verif.Metric

theorem select_table {α β : Type} (table : List (Text × β)) (q : Text → Bool) (f : β → α) :
    select (table.map (fun k => (k.1, q k.1, if q k.1 then some (f k.2) else none))) =
      (table.filter (fun k => q k.1)).map (fun k => (k.1, f k.2)) := by
  unfold select
  induction table with
  | nil => rfl
  | cons k l ih =>
    rw [List.map_cons, List.filterMap_cons, ih, List.filter_cons]
    cases h : q k.1 <;> simp

/-! ### Texture -/

/-- Specification: the products in the order in which they are written. -/
def Spec.txt : List (Text × TxtOp) :=
  [("ERO".toList, .ero), ("DIL".toList, .dil), ("OPN".toList, .opn), ("CLS".toList, .cls), ("GRD".toList, .grd), ("THT".toList, .tht), ("BHT".toList, .bht)]

theorem foldTxt (tags : List Text) (h : ∀ t ∈ tags, t ∈ Spec.txt.map (·.1)) (s : TxtFlags) :
    (tags.map (fun t => Verif.Param.parseEnum t txtTags)).foldl setTxt s =
      ⟨s.oero || decide ("ERO".toList ∈ tags),
        s.odil || decide ("DIL".toList ∈ tags),
        s.oopn || decide ("OPN".toList ∈ tags),
        s.ocls || decide ("CLS".toList ∈ tags),
        s.ogrd || decide ("GRD".toList ∈ tags),
        s.otht || decide ("THT".toList ∈ tags),
        s.obht || decide ("BHT".toList ∈ tags)⟩ := by
  induction tags generalizing s with
  | nil => cases s; simp
  | cons t ts ih =>
    have ht := h t List.mem_cons_self
    have i := ih (fun u hu => h u (List.mem_cons_of_mem _ hu))
    rw [List.map_cons, List.foldl_cons, i]
    simp only [Spec.txt, List.map_cons, List.map_nil, List.mem_cons, List.not_mem_nil, or_false] at ht
    cases s
    rcases ht with h | h | h | h | h | h | h <;>
      (subst h; simp [setTxt, Verif.Param.parseEnum, txtTags])

/-- C310, texture: whatever is asked for, in any order and with any repetitions, exactly these products are written, each one once
and with the image of its own metric. -/
theorem c310_txt {α : Type} (f : TxtOp → α) (tags : List Text) (h : ∀ t ∈ tags, t ∈ Spec.txt.map (·.1)) :
    runTxt f tags = (Spec.txt.filter (fun k => decide (k.1 ∈ tags))).map (fun k => (k.1, f k.2)) := by
  have e := foldTxt tags h ⟨false, false, false, false, false, false, false⟩
  simp only [Bool.false_or] at e
  unfold runTxt parseTxt
  rw [e]
  exact select_table Spec.txt (fun t => decide (t ∈ tags)) f

example (f : TxtOp → Nat) : runTxt f ["OPN".toList, "ERO".toList, "OPN".toList] =
    [("ERO".toList, f .ero), ("OPN".toList, f .opn)] := by
  rw [c310_txt f _ (by decide)]
  rfl

/-- C310, texture: the order and the repetitions in the parameter file do not matter. -/
theorem c310_txt_order {α : Type} (f : TxtOp → α) (a b : List Text) (h : ∀ t ∈ a, t ∈ Spec.txt.map (·.1))
    (e : ∀ t, t ∈ a ↔ t ∈ b) : runTxt f a = runTxt f b := by
  rw [c310_txt f a h, c310_txt f b (fun t ht => h t ((e t).2 ht))]
  simp only [e]

/-- C310, texture: a name that is not known is not given a product (it is rejected when the parameters are read). -/
theorem c310_txt_unknown {α : Type} (f : TxtOp → α) (pre post : List Text) (t : Text)
    (ht : t ∉ Spec.txt.map (·.1)) :
    runTxt f (pre ++ t :: post) = runTxt f (pre ++ post) := by
  have e : ∀ s, setTxt s (Verif.Param.parseEnum t txtTags) = s := by
    intro s
    simp only [Spec.txt, List.map_cons, List.map_nil, List.mem_cons, List.not_mem_nil, or_false, not_or] at ht
    have : Verif.Param.parseEnum t txtTags = 2147483647 := by
      unfold txtTags
      simp only [Verif.Param.parseEnum, ht, if_false]
    rw [this]
    rfl
  have e2 : parseTxt ((pre ++ t :: post).map (fun t => Verif.Param.parseEnum t txtTags)) =
      parseTxt ((pre ++ post).map (fun t => Verif.Param.parseEnum t txtTags)) := by
    unfold parseTxt
    rw [List.map_append, List.map_append, List.map_cons, List.foldl_append, List.foldl_append, List.foldl_cons, e]
  unfold runTxt
  rw [e2]

/-! ### Landscape metrics -/

/-- Specification: the products in the order in which they are written. -/
def Spec.lsm : List (Text × LsmOp) :=
  [("MPA".toList, .mpa), ("UCI".toList, .uci), ("FDI".toList, .fdi), ("EDD".toList, .edd), ("NBR".toList, .nbr), ("EMS".toList, .ems), ("AVG".toList, .avg), ("STD".toList, .std), ("GEO".toList, .geo), ("MAX".toList, .max), ("ARE".toList, .are)]

theorem foldLsm (tags : List Text) (h : ∀ t ∈ tags, t ∈ Spec.lsm.map (·.1)) (s : LsmFlags) :
    (tags.map (fun t => Verif.Param.parseEnum t lsmTags)).foldl setLsm s =
      ⟨s.ompa || decide ("MPA".toList ∈ tags),
        s.ouci || decide ("UCI".toList ∈ tags),
        s.ofdi || decide ("FDI".toList ∈ tags),
        s.oedd || decide ("EDD".toList ∈ tags),
        s.onbr || decide ("NBR".toList ∈ tags),
        s.oems || decide ("EMS".toList ∈ tags),
        s.oavg || decide ("AVG".toList ∈ tags),
        s.ostd || decide ("STD".toList ∈ tags),
        s.ogeo || decide ("GEO".toList ∈ tags),
        s.omax || decide ("MAX".toList ∈ tags),
        s.oare || decide ("ARE".toList ∈ tags)⟩ := by
  induction tags generalizing s with
  | nil => cases s; simp
  | cons t ts ih =>
    have ht := h t List.mem_cons_self
    have i := ih (fun u hu => h u (List.mem_cons_of_mem _ hu))
    rw [List.map_cons, List.foldl_cons, i]
    simp only [Spec.lsm, List.map_cons, List.map_nil, List.mem_cons, List.not_mem_nil, or_false] at ht
    cases s
    rcases ht with h | h | h | h | h | h | h | h | h | h | h <;>
      (subst h; simp [setLsm, Verif.Param.parseEnum, lsmTags])

/-- C310, landscape metrics: whatever is asked for, in any order and with any repetitions, exactly these products are written, each one once
and with the image of its own metric. -/
theorem c310_lsm {α : Type} (f : LsmOp → α) (tags : List Text) (h : ∀ t ∈ tags, t ∈ Spec.lsm.map (·.1)) :
    runLsm f tags = (Spec.lsm.filter (fun k => decide (k.1 ∈ tags))).map (fun k => (k.1, f k.2)) := by
  have e := foldLsm tags h ⟨false, false, false, false, false, false, false, false, false, false, false⟩
  simp only [Bool.false_or] at e
  unfold runLsm parseLsm
  rw [e]
  exact select_table Spec.lsm (fun t => decide (t ∈ tags)) f

example (f : LsmOp → Nat) : runLsm f ["FDI".toList, "MPA".toList, "FDI".toList] =
    [("MPA".toList, f .mpa), ("FDI".toList, f .fdi)] := by
  rw [c310_lsm f _ (by decide)]
  rfl

/-- C310, landscape metrics: the order and the repetitions in the parameter file do not matter. -/
theorem c310_lsm_order {α : Type} (f : LsmOp → α) (a b : List Text) (h : ∀ t ∈ a, t ∈ Spec.lsm.map (·.1))
    (e : ∀ t, t ∈ a ↔ t ∈ b) : runLsm f a = runLsm f b := by
  rw [c310_lsm f a h, c310_lsm f b (fun t ht => h t ((e t).2 ht))]
  simp only [e]

/-- C310, landscape metrics: a name that is not known is not given a product (it is rejected when the parameters are read). -/
theorem c310_lsm_unknown {α : Type} (f : LsmOp → α) (pre post : List Text) (t : Text)
    (ht : t ∉ Spec.lsm.map (·.1)) :
    runLsm f (pre ++ t :: post) = runLsm f (pre ++ post) := by
  have e : ∀ s, setLsm s (Verif.Param.parseEnum t lsmTags) = s := by
    intro s
    simp only [Spec.lsm, List.map_cons, List.map_nil, List.mem_cons, List.not_mem_nil, or_false, not_or] at ht
    have : Verif.Param.parseEnum t lsmTags = 2147483647 := by
      unfold lsmTags
      simp only [Verif.Param.parseEnum, ht, if_false]
    rw [this]
    rfl
  have e2 : parseLsm ((pre ++ t :: post).map (fun t => Verif.Param.parseEnum t lsmTags)) =
      parseLsm ((pre ++ post).map (fun t => Verif.Param.parseEnum t lsmTags)) := by
    unfold parseLsm
    rw [List.map_append, List.map_append, List.map_cons, List.foldl_append, List.foldl_append, List.foldl_cons, e]
  unfold runLsm
  rw [e2]

end Verif.Metric

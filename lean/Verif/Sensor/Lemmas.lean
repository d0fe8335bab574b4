import Mathlib.Data.List.Basic
import Verif.Sensor.Model
import Verif.Sensor.Spec

/-!
# Lemmas on the sensor and index configuration
-/

namespace Verif.Sensor

open Verif.Str (Out)
open Spec

theorem bind_ok {α β : Type} {o : Out α} {f : α → Out β} {b : β} (h : o.bind f = .ok b) :
    ∃ a, o = .ok a ∧ f a = .ok b := by
  cases o with
  | ok a => exact ⟨a, rfl, h⟩
  | exit => cases h
  | ub => cases h

theorem bind_ne_ub {α β : Type} {o : Out α} {f : α → Out β} (h1 : o ≠ .ub)
    (h2 : ∀ a, o = .ok a → f a ≠ .ub) : o.bind f ≠ .ub := by
  cases o with
  | ok a => exact h2 a rfl
  | exit => exact fun h => by cases h
  | ub => exact absurd rfl h1

theorem copy_ok {s t : String} (h : copy s = .ok t) : t = s ∧ s.length < 1024 := by
  unfold copy at h
  split at h
  · cases h; exact ⟨rfl, ‹_›⟩
  · cases h

theorem copy_of {s : String} (h : s.length < 1024) : copy s = .ok s := by simp [copy, h]

theorem copy_ne_ub (s : String) : copy s ≠ .ub := by
  unfold copy; split <;> exact fun h => by cases h

theorem contains_iff (l : List String) (x : String) : contains l x = true ↔ x ∈ l := by
  induction l with
  | nil => simp [contains]
  | cons v vs ih =>
    rw [contains]
    by_cases h : v = x
    · simp [h]
    · rw [if_neg h, ih]; simp [Ne.symm h]

theorem pos_spec (l : List String) (x : String) (i : Int) (h : x ∈ l) :
    ∃ k : Nat, pos l x i = i + k ∧ l[k]? = some x ∧ ∀ k' < k, l[k']? ≠ some x := by
  induction l generalizing i with
  | nil => cases h
  | cons v vs ih =>
    rw [pos]
    by_cases hv : v = x
    · exact ⟨0, by simp [hv], by simp [hv], fun k' hk => absurd hk (Nat.not_lt_zero _)⟩
    · rw [if_neg hv]
      rcases List.mem_cons.1 h with h | h
      · exact absurd h.symm hv
      · obtain ⟨k, h1, h2, h3⟩ := ih (i + 1) h
        refine ⟨k + 1, by rw [h1]; omega, by simpa using h2, fun k' hk => ?_⟩
        cases k' with
        | zero => simpa using hv
        | succ k' => simpa using h3 k' (by omega)

theorem pos_absent (l : List String) (x : String) (i : Int) (h : x ∉ l) : pos l x i = -1 := by
  induction l generalizing i with
  | nil => rfl
  | cons v vs ih =>
    rw [pos, if_neg (fun e => h (by simp [e])), ih _ (fun e => h (List.mem_cons_of_mem _ e))]

theorem copyNames_ok {l : List J} {r : List String} (h : copyNames l = .ok (some r)) :
    l = r.map .str ∧ ∀ b ∈ r, b.length < 1024 := by
  induction l generalizing r with
  | nil => rw [copyNames] at h; cases h; simp
  | cons j rest ih =>
    cases j with
    | str s =>
      rw [copyNames] at h
      obtain ⟨s', hs, h⟩ := bind_ok h
      obtain ⟨o, ho, h⟩ := bind_ok h
      obtain ⟨rfl, hlen⟩ := copy_ok hs
      cases o with
      | none => simp at h
      | some t =>
        simp only [Option.map_some, Out.ok.injEq, Option.some.injEq] at h
        subst h
        obtain ⟨e, hb⟩ := ih ho
        exact ⟨by simp [e], by simpa [hlen] using hb⟩
    | int n => simp [copyNames] at h
    | arr l => simp [copyNames] at h
    | other => simp [copyNames] at h

theorem copyNames_of {r : List String} (h : ∀ b ∈ r, b.length < 1024) :
    copyNames (r.map .str) = .ok (some r) := by
  induction r with
  | nil => rfl
  | cons b bs ih =>
    rw [List.map_cons, copyNames, copy_of (h b (by simp)), ih fun x hx => h x (by simp [hx])]
    rfl

theorem copyNames_ne_ub (l : List J) : copyNames l ≠ .ub := by
  induction l with
  | nil => exact fun h => by cases h
  | cons j rest ih =>
    cases j with
    | str s =>
      rw [copyNames]
      exact bind_ne_ub (copy_ne_ub _) fun a _ => bind_ne_ub ih fun b _ h => by cases h
    | int n => simp [copyNames]
    | arr l => simp [copyNames]
    | other => simp [copyNames]

theorem getName_ne_ub (d : SensorDef) : getName d ≠ .ub := by
  unfold getName
  split
  · exact bind_ne_ub (copy_ne_ub _) fun a _ h => by cases h
  · exact fun h => by cases h

theorem getNames_ne_ub (n : Int) (d : SensorDef) : getNames n d ≠ .ub := by
  unfold getNames
  split
  · exact fun h => by cases h
  · split
    · split
      · exact fun h => by cases h
      · exact copyNames_ne_ub _
    · exact fun h => by cases h

theorem getNames_ok {n : Int} {d : SensorDef} {l : List String} (h : getNames n d = .ok (some l)) :
    d.bandNames = some (.arr (l.map .str)) ∧ (l.length : Int) = n ∧ ∀ b ∈ l, b.length < 1024 := by
  unfold getNames at h
  split at h
  · cases h
  · split at h
    · split at h
      · cases h
      · rename_i js _ hn hj
        obtain ⟨e, hb⟩ := copyNames_ok h
        subst e
        refine ⟨hn, ?_, hb⟩
        simpa using hj
    · cases h

/-- What loading a valid definition gives. -/
theorem valid_load {defs : String → Option SensorDef} {s name : String} {l : List String}
    (h : Valid defs s name l) : ∃ d, defs s = some d ∧ getName d = .ok (some name) ∧
      getNumber d = ((l.length : Int), true) ∧ getNames l.length d = .ok (some l) := by
  obtain ⟨d, h1, h2, h3, h4, h5, h6, h7, h8⟩ := h
  refine ⟨d, h1, ?_, ?_, ?_⟩
  · simp [getName, h2, copy_of h7, Out.bind]
  · have : toInt (l.length : Int) = l.length := by unfold toInt; omega
    rw [getNumber, h3]
    simp only [this]
    rw [if_neg (by omega)]
  · rw [getNames, if_neg (by omega), h4]
    simp only [List.length_map, ne_eq, not_true_eq_false, if_false]
    exact copyNames_of h8

/-- Result of the loop over the sensors. -/
theorem loadAll_ok {defs : String → Option SensorDef} {cap : Nat} {sensors : List String} {s e : Nat}
    {acc known : List Known} (h : loadAll defs cap s sensors e acc = .ok (some known)) :
    e = 0 ∧ ∃ ks, known = acc ++ ks ∧ List.Forall₂ (fun s k => BandsOf defs s k.bands) sensors ks := by
  induction sensors generalizing s e acc with
  | nil =>
    rw [loadAll] at h
    split at h
    · cases h
    · cases h; exact ⟨by omega, [], by simp, .nil⟩
  | cons name rest ih =>
    rw [loadAll] at h
    cases hd : defs name with
    | none => rw [hd] at h; exact absurd (ih h).1 (by omega)
    | some d =>
      rw [hd] at h
      obtain ⟨n, hn, h⟩ := bind_ok h
      split at h
      · cases h
      · obtain ⟨l, hl, h⟩ := bind_ok h
        split at h
        · rename_i n' l' _ _
          obtain ⟨he, ks, e1, e2⟩ := ih h
          refine ⟨he, ⟨n', l'⟩ :: ks, by simp [e1], .cons ⟨d, hd, (getNames_ok hl).1⟩ e2⟩
        · exact absurd (ih h).1 (by omega)

theorem loadAll_valid {defs : String → Option SensorDef} {cap : Nat} (sensors : List String)
    (ks : List Known) (hv : List.Forall₂ (fun s k => Valid defs s k.name k.bands) sensors ks) (s : Nat)
    (acc : List Known) (hc : s + sensors.length ≤ cap) (more : List String) :
    loadAll defs cap s (sensors ++ more) 0 acc =
      loadAll defs cap (s + sensors.length) more 0 (acc ++ ks) := by
  induction hv generalizing s acc with
  | nil => simp
  | cons h1 h2 ih =>
    rename_i name k rest ks'
    obtain ⟨d, e1, e2, e3, e4⟩ := valid_load h1
    simp only [List.length_cons] at hc
    rw [List.cons_append, loadAll, e1]
    simp only [e2, Out.bind, e3]
    rw [if_neg (by omega)]
    simp only [e4]
    rw [ih _ _ (by omega)]
    congr 1
    · simp; omega
    · simp

theorem loadAll_ne_ub (defs : String → Option SensorDef) (cap : Nat) (sensors : List String) (s e : Nat)
    (acc : List Known) (hc : s + sensors.length ≤ cap) : loadAll defs cap s sensors e acc ≠ .ub := by
  induction sensors generalizing s e acc with
  | nil => rw [loadAll]; split <;> exact fun h => by cases h
  | cons name rest ih =>
    simp only [List.length_cons] at hc
    rw [loadAll]
    split
    · exact ih _ _ _ (by omega)
    · refine bind_ne_ub (getName_ne_ub _) fun n _ => ?_
      rw [if_neg (by omega)]
      refine bind_ne_ub (getNames_ne_ub _ _) fun l _ => ?_
      split
      · exact ih _ _ _ (by omega)
      · exact ih _ _ _ (by omega)

theorem inAll_iff (b : String) (ls : List (List String)) : inAll b ls = true ↔ ∀ l ∈ ls, b ∈ l := by
  induction ls with
  | nil => simp [inAll]
  | cons l rest ih =>
    rw [inAll]
    by_cases h : contains l b = true
    · simp [h, ih, (contains_iff l b).1 h]
    · have h' : b ∉ l := fun e => h ((contains_iff l b).2 e)
      simp [h, h']

theorem pick_eq (rest : List (List String)) (first : List String) :
    pick rest first = first.filter fun b => inAll b rest := by
  induction first with
  | nil => rfl
  | cons b bs ih => rw [pick, List.filter_cons, ih]

theorem allContained_iff (names bs : List String) :
    allContained names bs = true ↔ ∀ b ∈ bs, b ∈ names := by
  induction bs with
  | nil => simp [allContained]
  | cons b bs ih =>
    rw [allContained]
    by_cases h : contains names b = true
    · simp [h, ih, (contains_iff names b).1 h]
    · have h' : b ∉ names := fun e => h ((contains_iff names b).2 e)
      simp [h, h']

theorem unionLoop_spec (l buffer : List String) (hb : buffer.Nodup) :
    (unionLoop buffer l).Nodup ∧ ∀ b, b ∈ unionLoop buffer l ↔ b ∈ buffer ∨ b ∈ l := by
  induction l generalizing buffer with
  | nil => simp [unionLoop, hb]
  | cons x xs ih =>
    rw [unionLoop]
    by_cases h : contains buffer x = true
    · have hx := (contains_iff buffer x).1 h
      simp only [h, Bool.not_true, Bool.false_eq_true, if_false]
      refine ⟨(ih buffer hb).1, fun b => ?_⟩
      rw [(ih buffer hb).2 b, List.mem_cons]
      constructor
      · rintro (h | h)
        · exact .inl h
        · exact .inr (.inr h)
      · rintro (h | h | h)
        · exact .inl h
        · exact .inl (h ▸ hx)
        · exact .inr h
    · have hx : x ∉ buffer := fun e => h ((contains_iff buffer x).2 e)
      simp only [h, Bool.not_false, if_true]
      have hn : (buffer ++ [x]).Nodup := by
        rw [List.nodup_append]
        exact ⟨hb, by simp, fun a ha b hb' => by simp at hb'; subst hb'; exact fun e => hx (e ▸ ha)⟩
      refine ⟨(ih _ hn).1, fun b => ?_⟩
      rw [(ih _ hn).2 b]
      simp only [List.mem_append, List.mem_singleton, List.mem_cons]
      tauto

theorem union_spec (ls : List (List String)) (buffer : List String) (hb : buffer.Nodup) :
    (ls.foldl unionLoop buffer).Nodup ∧
      ∀ b, b ∈ ls.foldl unionLoop buffer ↔ b ∈ buffer ∨ ∃ l ∈ ls, b ∈ l := by
  induction ls generalizing buffer with
  | nil => simp [hb]
  | cons l rest ih =>
    obtain ⟨h1, h2⟩ := unionLoop_spec l buffer hb
    rw [List.foldl_cons]
    refine ⟨(ih _ h1).1, fun b => ?_⟩
    rw [(ih _ h1).2 b, h2 b]
    simp only [List.mem_cons, exists_eq_or_imp]
    tauto

/-! ## Removing bands -/

theorem shift_eq {α : Type} (k : Nat) : ∀ (i : Nat) (l : List α), i + k < l.length →
    shift k i l = l.take i ++ ((l.drop (i + 1)).take k ++ l.drop (i + k)) := by
  induction k with
  | zero => intro i l h; simp [shift]
  | succ k ih =>
    intro i l h
    rw [shift]
    have hi : i + 1 < l.length := by omega
    rw [List.getElem?_eq_getElem hi]
    rw [ih (i + 1) (l.set i l[i + 1]) (by simp; omega)]
    apply List.ext_getElem?
    intro n
    simp only [List.getElem?_append, List.length_take, List.getElem?_take, List.getElem?_drop,
      List.length_set, List.getElem?_set, List.length_drop]
    rcases Nat.lt_trichotomy n i with hn | hn | hn
    · grind
    · subst hn; grind
    · grind

theorem shift_length {α : Type} (k i : Nat) (l : List α) : (shift k i l).length = l.length := by
  induction k generalizing i l with
  | zero => rfl
  | succ k ih => rw [shift, ih]; split <;> simp

/-- The elements whose mark is set. -/
def keep {α : Type} : List Bool → List α → List α
  | u :: us, x :: xs => if u then x :: keep us xs else keep us xs
  | _, _ => []

theorem shift_window {α : Type} (l : List α) (b n : Nat) (hb : b < n) (hn : n ≤ l.length) :
    (shift (n - 1 - b) b l).take b = l.take b ∧
    ((shift (n - 1 - b) b l).drop b).take (n - 1 - b) = ((l.drop b).take (n - b)).drop 1 := by
  rw [shift_eq _ _ _ (by omega)]
  constructor
  · rw [List.take_append_of_le_length (by simp; omega), List.take_take, Nat.min_self]
  · rw [List.drop_append_of_le_length (by simp; omega)]
    rw [List.drop_eq_nil_of_le (by simp; omega), List.nil_append]
    rw [List.take_append_of_le_length (by simp; omega), List.take_take, Nat.min_self]
    rw [List.drop_take, List.drop_drop]
    congr 1
    omega

theorem keep_cons_split {α : Type} (use : List Bool) (l : List α) (hu : use.length = l.length)
    (hl : 0 < l.length) : ∃ (u : Bool) (x : α), use = u :: use.drop 1 ∧ l = x :: l.drop 1 ∧
      use[0]? = some u ∧ l[0]? = some x := by
  cases l with
  | nil => simp at hl
  | cons x xs =>
    cases use with
    | nil => simp at hu
    | cons u us => exact ⟨u, x, by simp, by simp, rfl, rfl⟩

/-- The window `[b, n)` of a list. -/
def win {α : Type} (b n : Nat) (l : List α) : List α := (l.drop b).take (n - b)

theorem keep_window {α : Type} (use : List Bool) (l : List α) (b n : Nat) (hb : b < n) (hn : n ≤ l.length)
    (hu : use.length = l.length) :
    (use[b]?.getD false = true → keep (win b n use) (win b n l) =
      (l.drop b).take 1 ++ keep (win (b + 1) n use) (win (b + 1) n l)) ∧
    (use[b]?.getD false = false → keep (win b n use) (win b n l) =
      keep (win (b + 1) n use) (win (b + 1) n l)) := by
  have hbl : b < l.length := by omega
  have hbu : b < use.length := by omega
  have e1 : win b n use = use[b] :: win (b + 1) n use := by
    unfold win
    rw [List.drop_eq_getElem_cons hbu]
    have : n - b = (n - (b + 1)) + 1 := by omega
    rw [this, List.take_succ_cons]
  have e2 : win b n l = l[b] :: win (b + 1) n l := by
    unfold win
    rw [List.drop_eq_getElem_cons hbl]
    have : n - b = (n - (b + 1)) + 1 := by omega
    rw [this, List.take_succ_cons]
  rw [e1, e2, List.getElem?_eq_getElem hbu]
  simp only [Option.getD_some]
  constructor
  · intro h
    rw [keep, if_pos h, List.drop_eq_getElem_cons hbl]
    rfl
  · intro h
    rw [keep, if_neg (by simp [h])]

theorem removeLoop_spec (fuel b n : Nat) (use : List Bool) (names : List String)
    (numbers : List (List Int)) (hf : n - b ≤ fuel) (hb : b ≤ n) (hn : n ≤ names.length)
    (hu : use.length = names.length) (hr : ∀ row ∈ numbers, row.length = names.length) :
    let r := removeLoop fuel b n use names numbers
    r.2.1.take r.1 = names.take b ++ keep (win b n use) (win b n names) ∧
    r.2.2.map (·.take r.1) =
      numbers.map (fun row => row.take b ++ keep (win b n use) (win b n row)) := by
  induction fuel generalizing b n use names numbers with
  | zero =>
    have : b = n := by omega
    subst this
    simp [removeLoop, win, keep]
  | succ fuel ih =>
    simp only [removeLoop]
    by_cases hbn : b < n
    · rw [if_pos hbn]
      cases hub : use[b]?.getD false with
      | true =>
        simp only [if_true]
        obtain ⟨h1, h2⟩ := ih (b + 1) n use names numbers (by omega) (by omega) hn hu hr
        refine ⟨?_, ?_⟩
        · rw [h1, (keep_window use names b n hbn hn hu).1 hub, ← List.append_assoc,
            List.take_add]
        · rw [h2]
          apply List.map_congr_left
          intro row hrow
          have hl := hr row hrow
          rw [(keep_window use row b n hbn (by omega) (by omega)).1 hub, ← List.append_assoc,
            List.take_add]
      | false =>
        simp only [Bool.false_eq_true, if_false]
        obtain ⟨h1, h2⟩ := ih b (n - 1) (shift (n - 1 - b) b use) (shift (n - 1 - b) b names)
          (numbers.map (shift (n - 1 - b) b)) (by omega) (by omega)
          (by rw [shift_length]; omega) (by rw [shift_length, shift_length, hu])
          (by intro row hrow
              obtain ⟨row', h', rfl⟩ := List.mem_map.1 hrow
              rw [shift_length, shift_length, hr row' h'])
        have hwin : ∀ {α : Type} (l : List α), n ≤ l.length →
            win b (n - 1) (shift (n - 1 - b) b l) = win (b + 1) n l := by
          intro α l hl
          unfold win
          have := (shift_window l b n hbn hl).2
          rw [show n - 1 - b = n - (b + 1) by omega] at this ⊢
          rw [this, List.drop_take, List.drop_drop]
          congr 1
        refine ⟨?_, ?_⟩
        · rw [h1, hwin use (by omega), hwin names hn, (shift_window names b n hbn hn).1,
            (keep_window use names b n hbn hn hu).2 hub]
        · rw [h2, List.map_map]
          apply List.map_congr_left
          intro row hrow
          have hl := hr row hrow
          simp only [Function.comp]
          rw [hwin use (by omega), hwin row (by omega), (shift_window row b n hbn (by omega)).1,
            (keep_window use row b n hbn (by omega) (by omega)).2 hub]
    · rw [if_neg hbn]
      have : b = n := by omega
      subst this
      simp [win, keep]

theorem removeUnused_eq (use : List Bool) (names : List String) (numbers : List (List Int))
    (hu : use.length = names.length) (hr : ∀ row ∈ numbers, row.length = names.length) :
    removeUnused use names numbers = (keep use names, numbers.map (keep use)) := by
  obtain ⟨h1, h2⟩ := removeLoop_spec names.length 0 names.length use names numbers (by omega) (by omega)
    (le_refl _) hu hr
  unfold removeUnused
  simp only
  rw [Prod.mk.injEq]
  refine ⟨?_, ?_⟩
  · rw [h1]
    have e : win 0 names.length names = names := by simp [win]
    have e' : win 0 names.length use = use := by simp [win, ← hu]
    rw [e, e']
    simp
  · rw [h2]
    apply List.map_congr_left
    intro row hrow
    have e : win 0 names.length row = row := by simp [win, ← hr row hrow]
    have e' : win 0 names.length use = use := by simp [win, ← hu]
    rw [e, e']
    simp

end Verif.Sensor

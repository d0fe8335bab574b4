import Verif.Qai.Lemmas

/-!
# Properties C07 (quality flags), C08 (merging), C09 (screening)
-/

namespace Verif.Qai
open Spec

/-! ## C07 -/

/-- C07: what a getter returns is the number in the documented bits. -/
theorem c07_get_documented_bits (f : Flag) (v : BitVec 16) : get f v = value f v :=
  get_eq_value f v

/-- C07: reading after writing: the written flag has the new state, all others are
unchanged. -/
theorem c07_get_set (f g : Flag) (v : BitVec 16) (x : Nat) (hx : x < states f) :
    value g (set f v x) = if g = f then x else value g v := by
  rw [← get_eq_value, ← get_eq_value]; exact get_set f g v x hx

/-- C07: writes to different flags commute, for any surrounding history (the value `v` is
arbitrary). -/
theorem c07_set_comm (f g : Flag) (v : BitVec 16) (x y : Nat) (hfg : f ≠ g) (hx : x < states f)
    (hy : y < states g) : set g (set f v x) y = set f (set g v y) x := by
  apply eq_of_flags
  · intro h
    rw [get_set _ _ _ _ hy, get_set _ _ _ _ hx, get_set _ _ _ _ hx, get_set _ _ _ _ hy]
    by_cases h1 : h = g
    · subst h1; simp [Ne.symm hfg]
    · simp [h1]
  · rw [set_msb _ _ _ hy, set_msb _ _ _ hx, set_msb _ _ _ hx, set_msb _ _ _ hy]

/-- C07: any sequence of writes: each flag holds the state of its last write, or the initial
state if it was not written. -/
theorem c07_write_history (ws : List (Flag × Nat)) (v : BitVec 16)
    (hw : ∀ w ∈ ws, w.2 < states w.1) (f : Flag) :
    value f (ws.foldl (fun v w => set w.1 v w.2) v) =
      match (ws.reverse.find? (fun w => w.1 == f)) with
      | some w => w.2
      | none => value f v := by
  induction ws generalizing v with
  | nil => rfl
  | cons w ws ih =>
    rw [List.foldl_cons, ih _ (fun w h => hw w (by simp [h])), List.reverse_cons,
      List.find?_append]
    cases hfind : ws.reverse.find? (fun w => w.1 == f) with
    | some w' => simp
    | none =>
      simp only [Option.none_or, List.find?_cons, List.find?_nil]
      rw [c07_get_set _ _ _ _ (hw w (by simp))]
      by_cases h : w.1 = f
      · simp [h]
      · have h' : ¬ f = w.1 := fun e => h e.symm
        have hb : (w.1 == f) = false := by simp [h]
        simp [hb, h']

/-- Limit of C07: the setters do not mask their argument; a state that does not fit spills into
the neighbouring flag. -/
theorem c07_unmasked_value_spills : value .snw (set .shd 0#16 2) = 1 := by decide

example : value .ill (set .ill (set .cld 0x7fff#16 1) 2) = 2 ∧ (2 : Nat) < states .ill := by decide

/-! ## C08 -/

theorem get_merge (f : Flag) (v q1 q2 : BitVec 16) :
    get f (mergeQai v q1 q2) =
      match f with
      | .off => land (get .off q1) (get .off q2)
      | .cld => larger (get .cld q1) (get .cld q2)
      | .aod => larger (get .aod q1) (get .aod q2)
      | .ill => smaller (get .ill q1) (get .ill q2)
      | f => lor (get f q1) (get f q2) := by
  have h2 : ∀ a b, land a b < 2 := by intro a b; unfold land; split <;> omega
  have h3 : ∀ a b, lor a b < 2 := by intro a b; unfold lor; split <;> omega
  have h4 : ∀ a b c, a < c → b < c → larger a b < c := by
    intro a b c ha hb; unfold larger; split <;> omega
  have h5 : ∀ a b c, a < c → b < c → smaller a b < c := by
    intro a b c ha hb; unfold smaller; split <;> omega
  unfold mergeQai
  dsimp only
  rw [get_set .wvp _ _ _ (h3 _ _), get_set .slp _ _ _ (h3 _ _),
    get_set .ill _ _ _ (h5 _ _ _ (get_lt _ _) (get_lt _ _)), get_set .sun _ _ _ (h3 _ _),
    get_set .sat _ _ _ (h3 _ _), get_set .sub _ _ _ (h3 _ _),
    get_set .aod _ _ _ (h4 _ _ _ (get_lt _ _) (get_lt _ _)), get_set .wtr _ _ _ (h3 _ _),
    get_set .snw _ _ _ (h3 _ _), get_set .shd _ _ _ (h3 _ _),
    get_set .cld _ _ _ (h4 _ _ _ (get_lt _ _) (get_lt _ _)), get_set .off _ _ _ (h2 _ _)]
  cases f <;> rfl

/-- C08 (partial): each flag of the merged value is the more restrictive one (the larger state;
nodata only if both are nodata) - for all flags but the illumination state, which the code
combines the other way round. -/
theorem c08_most_restrictive_partial (v q1 q2 : BitVec 16) :
    (∀ f, f ≠ .off → f ≠ .ill → value f (mergeQai v q1 q2) = max (value f q1) (value f q2)) ∧
    value .off (mergeQai v q1 q2) = min (value .off q1) (value .off q2) ∧
    value .ill (mergeQai v q1 q2) = min (value .ill q1) (value .ill q2) := by
  have one : ∀ f, states f = 2 → ∀ q, get f q = 0 ∨ get f q = 1 := by
    intro f hf q; have := get_lt f q; omega
  have lormax : ∀ f, states f = 2 → lor (get f q1) (get f q2) = max (get f q1) (get f q2) := by
    intro f hf
    rcases one f hf q1 with h | h <;> rcases one f hf q2 with h' | h' <;> simp [h, h', lor]
  refine ⟨?_, ?_, ?_⟩
  · intro f h1 h2
    rw [← get_eq_value, ← get_eq_value, ← get_eq_value, get_merge]
    cases f <;> simp only [ne_eq, not_true_eq_false, reduceCtorEq, not_false_eq_true] at h1 h2 ⊢
    case cld => unfold larger; split <;> omega
    case aod => unfold larger; split <;> omega
    case shd => exact lormax .shd rfl
    case snw => exact lormax .snw rfl
    case wtr => exact lormax .wtr rfl
    case sub => exact lormax .sub rfl
    case sat => exact lormax .sat rfl
    case sun => exact lormax .sun rfl
    case slp => exact lormax .slp rfl
    case wvp => exact lormax .wvp rfl
  · rw [← get_eq_value, ← get_eq_value, ← get_eq_value, get_merge]
    rcases one .off rfl q1 with h | h <;> rcases one .off rfl q2 with h' | h' <;>
      simp [h, h', land]
  · rw [← get_eq_value, ← get_eq_value, ← get_eq_value, get_merge]
    simp only [smaller]; split <;> omega

/-- C08: merging does not depend on the order of the scenes, merging a value with itself keeps
it, and repeated merging is associative - on all flags. -/
theorem c08_semilattice (a b c v : BitVec 16) :
    (∀ f, value f (mergeQai v a b) = value f (mergeQai v b a)) ∧
    mergeQai a a a = a ∧
    (∀ f, value f (mergeCall (mergeCall a b) c) = value f (mergeCall a (mergeCall b c))) := by
  have key : ∀ v a b f, value f (mergeQai v a b) =
      if f = .off ∨ f = .ill then min (value f a) (value f b) else max (value f a) (value f b) := by
    intro v a b f
    have h := c08_most_restrictive_partial v a b
    by_cases h1 : f = .off
    · subst h1; simpa using h.2.1
    · by_cases h2 : f = .ill
      · subst h2; simpa using h.2.2
      · rw [h.1 f h1 h2]; simp [h1, h2]
  refine ⟨?_, ?_, ?_⟩
  · intro f
    rw [key, key, Nat.min_comm, Nat.max_comm]
  · apply eq_of_flags
    · intro f
      rw [get_eq_value, get_eq_value, key]
      simp
    · have h2 : ∀ a b, land a b < 2 := by intro a b; unfold land; split <;> omega
      have h3 : ∀ a b, lor a b < 2 := by intro a b; unfold lor; split <;> omega
      have h4 : ∀ a b c, a < c → b < c → larger a b < c := by
        intro a b c ha hb; unfold larger; split <;> omega
      have h5 : ∀ a b c, a < c → b < c → smaller a b < c := by
        intro a b c ha hb; unfold smaller; split <;> omega
      unfold mergeQai
      dsimp only
      rw [set_msb .wvp _ _ (h3 _ _), set_msb .slp _ _ (h3 _ _),
        set_msb .ill _ _ (h5 _ _ _ (get_lt _ _) (get_lt _ _)), set_msb .sun _ _ (h3 _ _),
        set_msb .sat _ _ (h3 _ _), set_msb .sub _ _ (h3 _ _),
        set_msb .aod _ _ (h4 _ _ _ (get_lt _ _) (get_lt _ _)), set_msb .wtr _ _ (h3 _ _),
        set_msb .snw _ _ (h3 _ _), set_msb .shd _ _ (h3 _ _),
        set_msb .cld _ _ (h4 _ _ _ (get_lt _ _) (get_lt _ _)), set_msb .off _ _ (h2 _ _)]
  · intro f
    unfold mergeCall
    simp only [key]
    split
    · rw [Nat.min_assoc]
    · rw [Nat.max_assoc]

/-- C08 is violated: "using the most restrictive one" does not hold for the illumination state.
Two scenes, one of which is in terrain shadow at this pixel, give "good illumination". -/
theorem c08_illumination_violated : ∃ now old : BitVec 16,
    value .ill old = 3 ∧ value .ill (mergeCall now old) = 0 :=
  ⟨0#16, 0x1800#16, by decide⟩

example : value .cld (mergeCall 0x0002#16 0x0006#16) = 3 ∧
    value .off (mergeCall 0x0001#16 0x0000#16) = 0 := by decide

/-! ## C09 -/

/-- The switches of a rule, by enumerator. -/
def Rule.on (r : Rule) : QaiEnum → Bool
  | .off => r.off | .cldOpq => r.cldOpq | .cldUnc => r.cldUnc | .cldCir => r.cldCir
  | .shd => r.shd | .snw => r.snw | .wtr => r.wtr | .aodFill => r.aodFill | .aodHigh => r.aodHigh
  | .aodInt => r.aodInt | .sub => r.sub | .sat => r.sat | .sun => r.sun | .illShd => r.illShd
  | .illPoor => r.illPoor | .illLow => r.illLow | .slp => r.slp | .wvp => r.wvp

theorem parseStep_on (r : Rule) (e e' : QaiEnum) :
    (parseStep r e).on e' = (r.on e' || decide (e' = e)) := by
  cases e <;> cases e' <;> simp [parseStep, Rule.on]

theorem parseQuality_on (flags : List QaiEnum) (e : QaiEnum) :
    (parseQuality flags).on e = true ↔ e ∈ flags := by
  have key : ∀ (flags : List QaiEnum) (r : Rule), (flags.foldl parseStep r).on e = true ↔ r.on e = true ∨ e ∈ flags := by
    intro flags
    induction flags with
    | nil => intro r; simp
    | cons x xs ih =>
      intro r
      rw [List.foldl_cons, ih, parseStep_on]
      simp [or_assoc]
  unfold parseQuality
  rw [key]
  have : Rule.none.on e = false := by cases e <;> rfl
  simp [this]

/-- The documented condition behind an enumerator, via its name in the parameter file. -/
def cond (e : QaiEnum) : Option (Flag × Nat) :=
  ((tags.find? (fun t => t.1 == e)).map (·.2)).bind condition

theorem useThisPixel_iff (v : BitVec 16) (r : Rule) (isArd : Bool) :
    useThisPixel v r isArd = true ↔
      (isArd = false → value .off v = 0) ∧
      ∀ e f s, r.on e = true → cond e = some (f, s) → value f v ≠ s := by
  have one : ∀ f, states f = 2 → (value f v = 0 ∨ value f v = 1) := by
    intro f hf; have := get_lt f v; rw [get_eq_value] at this; omega
  have hoff := one .off rfl
  have hshd := one .shd rfl
  have hsnw := one .snw rfl
  have hwtr := one .wtr rfl
  have hsub := one .sub rfl
  have hsat := one .sat rfl
  have hsun := one .sun rfl
  have hslp := one .slp rfl
  have hwvp := one .wvp rfl
  have split : (∀ e f s, r.on e = true → cond e = some (f, s) → value f v ≠ s) ↔
      ((r.off = true → value .off v ≠ 1) ∧ (r.cldUnc = true → value .cld v ≠ 1) ∧
       (r.cldOpq = true → value .cld v ≠ 2) ∧ (r.cldCir = true → value .cld v ≠ 3) ∧
       (r.shd = true → value .shd v ≠ 1) ∧ (r.snw = true → value .snw v ≠ 1) ∧
       (r.wtr = true → value .wtr v ≠ 1) ∧ (r.aodInt = true → value .aod v ≠ 1) ∧
       (r.aodHigh = true → value .aod v ≠ 2) ∧ (r.aodFill = true → value .aod v ≠ 3) ∧
       (r.sub = true → value .sub v ≠ 1) ∧ (r.sat = true → value .sat v ≠ 1) ∧
       (r.sun = true → value .sun v ≠ 1) ∧ (r.illLow = true → value .ill v ≠ 1) ∧
       (r.illPoor = true → value .ill v ≠ 2) ∧ (r.illShd = true → value .ill v ≠ 3) ∧
       (r.slp = true → value .slp v ≠ 1) ∧ (r.wvp = true → value .wvp v ≠ 1)) := by
    constructor
    · intro h
      exact ⟨fun a => h .off _ _ a rfl, fun a => h .cldUnc _ _ a rfl, fun a => h .cldOpq _ _ a rfl,
        fun a => h .cldCir _ _ a rfl, fun a => h .shd _ _ a rfl, fun a => h .snw _ _ a rfl,
        fun a => h .wtr _ _ a rfl, fun a => h .aodInt _ _ a rfl, fun a => h .aodHigh _ _ a rfl,
        fun a => h .aodFill _ _ a rfl, fun a => h .sub _ _ a rfl, fun a => h .sat _ _ a rfl,
        fun a => h .sun _ _ a rfl, fun a => h .illLow _ _ a rfl, fun a => h .illPoor _ _ a rfl,
        fun a => h .illShd _ _ a rfl, fun a => h .slp _ _ a rfl, fun a => h .wvp _ _ a rfl⟩
    · rintro ⟨h1, h2, h3, h4, h5, h6, h7, h8, h9, h10, h11, h12, h13, h14, h15, h16, h17, h18⟩
        e f s hon hc
      have hc' : ∀ f' s', cond e = some (f', s') → f = f' ∧ s = s' := by
        intro f' s' h; rw [hc] at h; simpa using h
      cases e
      · obtain ⟨rfl, rfl⟩ := hc' .off 1 rfl; exact h1 hon
      · obtain ⟨rfl, rfl⟩ := hc' .cld 2 rfl; exact h3 hon
      · obtain ⟨rfl, rfl⟩ := hc' .cld 1 rfl; exact h2 hon
      · obtain ⟨rfl, rfl⟩ := hc' .cld 3 rfl; exact h4 hon
      · obtain ⟨rfl, rfl⟩ := hc' .shd 1 rfl; exact h5 hon
      · obtain ⟨rfl, rfl⟩ := hc' .snw 1 rfl; exact h6 hon
      · obtain ⟨rfl, rfl⟩ := hc' .wtr 1 rfl; exact h7 hon
      · obtain ⟨rfl, rfl⟩ := hc' .aod 3 rfl; exact h10 hon
      · obtain ⟨rfl, rfl⟩ := hc' .aod 2 rfl; exact h9 hon
      · obtain ⟨rfl, rfl⟩ := hc' .aod 1 rfl; exact h8 hon
      · obtain ⟨rfl, rfl⟩ := hc' .sub 1 rfl; exact h11 hon
      · obtain ⟨rfl, rfl⟩ := hc' .sat 1 rfl; exact h12 hon
      · obtain ⟨rfl, rfl⟩ := hc' .sun 1 rfl; exact h13 hon
      · obtain ⟨rfl, rfl⟩ := hc' .ill 3 rfl; exact h16 hon
      · obtain ⟨rfl, rfl⟩ := hc' .ill 2 rfl; exact h15 hon
      · obtain ⟨rfl, rfl⟩ := hc' .ill 1 rfl; exact h14 hon
      · obtain ⟨rfl, rfl⟩ := hc' .slp 1 rfl; exact h17 hon
      · obtain ⟨rfl, rfl⟩ := hc' .wvp 1 rfl; exact h18 hon
  rw [split]
  have ite_false : ∀ (c x : Bool), (if c = true then false else x) = (!c && x) := by
    intro c x; cases c <;> rfl
  unfold useThisPixel
  simp only [get_eq_value, ite_false]
  simp only [Bool.and_eq_true, Bool.not_eq_true', Bool.and_eq_false_imp,
    bne_eq_false_iff_eq, beq_eq_false_iff_ne, and_true, Bool.not_eq_true']
  have hb : ∀ f, (value f v = 0 ∨ value f v = 1) → (value f v = 0 ↔ value f v ≠ 1) := by
    intro f h; omega
  rw [hb _ hshd, hb _ hsnw, hb _ hwtr, hb _ hsub, hb _ hsat, hb _ hsun, hb _ hslp, hb _ hwvp,
    hb _ hoff]

/-- C09: for every user selection (list of screening names), input level, mask and schedule
that visits every pixel: an observation is used iff the processing mask allows the pixel, no
selected condition is present, and (for non-ARD input) it is not nodata. -/
theorem c09_screening (sel : List QaiEnum) (isArd : Bool) (qai : Nat → Nat → BitVec 16)
    (mask : Option (Nat → Bool)) (init : Nat → Nat → Bool) (schedule : List Nat) (t p : Nat)
    (hp : p ∈ schedule) :
    screenQai qai mask (parseQuality sel) isArd init schedule t p = true ↔
      (∀ m, mask = some m → m p = true) ∧
      (isArd = false → value .off (qai t p) = 0) ∧
      ∀ e ∈ sel, ∀ f s, cond e = some (f, s) → value f (qai t p) ≠ s := by
  have h1 : ∀ (sch : List Nat) (i : Nat → Nat → Bool), p ∈ sch →
      screenQai qai mask (parseQuality sel) isArd i sch t p =
        screenPixel qai mask (parseQuality sel) isArd i p t p := by
    intro sch
    have keep : ∀ (sch : List Nat) (i : Nat → Nat → Bool),
        i t p = screenPixel qai mask (parseQuality sel) isArd i p t p →
        screenQai qai mask (parseQuality sel) isArd i sch t p = i t p := by
      intro sch
      induction sch with
      | nil => intro i _; rfl
      | cons q qs ih =>
        intro i hi
        have hq : screenPixel qai mask (parseQuality sel) isArd i q t p = i t p := by
          by_cases hpq : p = q
          · subst hpq; exact hi.symm
          · simp [screenPixel, hpq]
        show screenQai _ _ _ _ (screenPixel qai mask (parseQuality sel) isArd i q) qs t p = _
        rw [ih _ (by rw [hq, hi]; simp [screenPixel]), hq]
    induction sch with
    | nil => intro i h; simp at h
    | cons q qs ih =>
      intro i h
      show screenQai _ _ _ _ (screenPixel qai mask (parseQuality sel) isArd i q) qs t p = _
      by_cases hpq : p = q
      · subst hpq
        rw [keep]
        simp [screenPixel]
      · rw [ih _ (by simpa [hpq] using h)]
        simp [screenPixel]
  rw [h1 schedule init hp]
  have hu := useThisPixel_iff (qai t p) (parseQuality sel) isArd
  have hsel : (∀ e f s, (parseQuality sel).on e = true → cond e = some (f, s) → value f (qai t p) ≠ s)
      ↔ ∀ e ∈ sel, ∀ f s, cond e = some (f, s) → value f (qai t p) ≠ s := by
    constructor
    · intro h e he f s hc; exact h e f s ((parseQuality_on sel e).2 he) hc
    · intro h e f s he hc; exact h e ((parseQuality_on sel e).1 he) f s hc
  rw [hsel] at hu
  cases mask with
  | none => simp [screenPixel, hu]
  | some m =>
    by_cases hm : m p = true
    · simp [screenPixel, hm, hu]
    · simp [screenPixel, hm]

/-- C09: each of the 18 names a user can give has a documented condition, and all names are
different. -/
theorem c09_every_name_has_condition :
    (∀ e, ∃ f s, cond e = some (f, s) ∧ 0 < s ∧ s < states f) ∧ (tags.map (·.2)).Nodup := by
  constructor
  · intro e
    cases e <;> exact ⟨_, _, rfl, by decide, by decide⟩
  · decide

/-- C09: selecting more conditions can only remove observations. -/
theorem c09_monotone (sel sel' : List QaiEnum) (h : ∀ e ∈ sel, e ∈ sel') (isArd : Bool)
    (qai : Nat → Nat → BitVec 16) (mask : Option (Nat → Bool)) (init : Nat → Nat → Bool)
    (schedule : List Nat) (t p : Nat) (hp : p ∈ schedule)
    (hu : screenQai qai mask (parseQuality sel') isArd init schedule t p = true) :
    screenQai qai mask (parseQuality sel) isArd init schedule t p = true := by
  rw [c09_screening _ _ _ _ _ _ _ _ hp] at hu ⊢
  exact ⟨hu.1, hu.2.1, fun e he => hu.2.2 e (h e he)⟩

/-- C09: the distribution of pixels to threads does not matter: any two schedules that visit
the pixel decide it equally, whatever the result array contained before. -/
theorem c09_schedule_independent (sel : List QaiEnum) (isArd : Bool)
    (qai : Nat → Nat → BitVec 16) (mask : Option (Nat → Bool)) (i i' : Nat → Nat → Bool)
    (s s' : List Nat) (t p : Nat) (hp : p ∈ s) (hp' : p ∈ s') :
    screenQai qai mask (parseQuality sel) isArd i s t p =
      screenQai qai mask (parseQuality sel) isArd i' s' t p := by
  rw [Bool.eq_iff_iff, c09_screening _ _ _ _ _ _ _ _ hp, c09_screening _ _ _ _ _ _ _ _ hp']

example : cond .illPoor = some (.ill, 2) ∧ cond .cldCir = some (.cld, 3) := ⟨rfl, rfl⟩
example : useThisPixel 0x0006#16 (parseQuality [.snw, .cldOpq]) true = true ∧
    useThisPixel 0x0006#16 (parseQuality [.snw, .cldCir]) true = false := by decide

end Verif.Qai

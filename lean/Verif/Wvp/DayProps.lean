import Verif.Wvp.DaySpec
import Verif.Libc.Lemmas
import Mathlib.Tactic.IntervalCases

/-!
# C140: every day of the period is processed once, in order
-/

namespace Verif.Wvp

open Verif.Wvp.Spec

theorem leap_iff (y : Int) : leap y = true ↔ Leap y := by
  unfold leap Leap
  simp only [Bool.or_eq_true, Bool.and_eq_true, decide_eq_true_eq]
  omega

theorem isDate_iff (a : Day) : IsDate a ↔ 1 ≤ a.m ∧ a.m ≤ 12 ∧ 1 ≤ a.d ∧ a.d ≤ dim a.y a.m := by
  have hl := leap_iff a.y
  unfold IsDate dim
  simp only [List.mem_cons, List.not_mem_nil, or_false]
  by_cases h2 : a.m = 2
  · rw [if_pos h2]
    by_cases h : leap a.y = true
    · have := hl.1 h
      rw [if_pos h]
      constructor
      · omega
      · intro h
        refine ⟨h.1, h.2.1, h.2.2.1, ?_⟩
        by_cases h3 : a.d ≤ 28
        · omega
        · right; right; right
          exact ⟨h2, by omega, this⟩
    · have hn : ¬ Leap a.y := fun h' => h (hl.2 h')
      rw [if_neg h]
      constructor
      · rintro ⟨h1, h3, h4, h5 | h5 | h5 | h5⟩
        · omega
        · omega
        · omega
        · exact absurd h5.2.2 hn
      · omega
  · rw [if_neg h2]
    split_ifs <;> constructor <;> intro h <;> omega

theorem dim_range (y m : Int) : 28 ≤ dim y m ∧ dim y m ≤ 31 := by
  unfold dim
  split_ifs <;> omega

theorem dim_12 (y : Int) : dim y 12 = 31 := by simp [dim]
theorem dim_1 (y : Int) : dim y 1 = 31 := by simp [dim]

/-- The day after an existing day. -/
theorem next_spec (a : Day) (h : IsDate a) :
    IsDate (carry { a with d := a.d + 1 }) ∧ Before a (carry { a with d := a.d + 1 }) ∧
      ∀ c, IsDate c → Before a c → ¬ Before c (carry { a with d := a.d + 1 }) := by
  rw [isDate_iff] at h
  obtain ⟨y, m, d⟩ := a
  simp only at h
  have hr := dim_range y m
  have hr1 := dim_range y (m + 1)
  have h12 := dim_12 y
  unfold carry
  simp only
  by_cases h1 : d + 1 > dim y m
  · rw [if_pos h1]
    have hd : d = dim y m := by omega
    by_cases h2 : m = 12
    · rw [if_pos h2]
      subst h2
      refine ⟨(isDate_iff _).2 ⟨by norm_num, by norm_num, by show 1 ≤ d + 1 - 31; omega, by show d + 1 - 31 ≤ dim (y + 1) 1; rw [dim_1]; omega⟩, Or.inl (by show y < y + 1; omega), ?_⟩
      intro c hc h3 h4
      rw [isDate_iff] at hc
      unfold Before at h3 h4
      simp only at h3 h4
      rcases h3 with h3 | ⟨h3, h3'⟩
      · rcases h4 with h4 | ⟨h4, h4'⟩ <;> omega
      · have : c.d ≤ 31 := le_trans hc.2.2.2 (dim_range c.y c.m).2
        omega
    · rw [if_neg h2]
      refine ⟨(isDate_iff _).2 ⟨by show 1 ≤ m + 1; omega, by show m + 1 ≤ 12; omega, by show 1 ≤ d + 1 - dim y m; omega, by show d + 1 - dim y m ≤ dim y (m + 1); omega⟩, Or.inr ⟨rfl, Or.inl (by show m < m + 1; omega)⟩, ?_⟩
      intro c hc h3 h4
      rw [isDate_iff] at hc
      unfold Before at h3 h4
      simp only at h3 h4
      have hle := hc.2.2.2
      rcases h3 with h3 | ⟨h3, h3'⟩
      · omega
      · rcases h3' with h3' | ⟨h3', h5⟩
        · omega
        · rw [← h3, ← h3'] at hle
          omega
  · rw [if_neg h1, if_neg (by omega)]
    refine ⟨(isDate_iff _).2 ⟨h.1, h.2.1, by show 1 ≤ d + 1; omega, by show d + 1 ≤ dim y m; omega⟩, Or.inr ⟨rfl, Or.inr ⟨rfl, by show d < d + 1; omega⟩⟩, ?_⟩
    intro c hc h3 h4
    unfold Before at h3 h4
    simp only at h3 h4
    omega

theorem carry_id (a : Day) (h : IsDate a) : carry a = a := by
  rw [isDate_iff] at h
  unfold carry
  rw [if_neg (by omega), if_neg (by omega)]

theorem carry_pred (a : Day) (h : IsDate a) : carry { carry { a with d := a.d - 1 } with d := (carry { a with d := a.d - 1 }).d + 1 } = a := by
  rw [isDate_iff] at h
  obtain ⟨y, m, d⟩ := a
  simp only at h
  have hr := dim_range y m
  have hr1 := dim_range y (m - 1)
  by_cases h1 : d = 1
  · subst h1
    by_cases hm : m = 1
    · subst hm
      simp [carry, dim_12, dim_1]
    · have e : carry { y := y, m := m, d := 1 - 1 } = ⟨y, m - 1, dim y (m - 1)⟩ := by
        unfold carry
        simp only
        rw [if_neg (by omega), if_pos (by omega), if_neg hm]
        simp
      rw [e]
      unfold carry
      simp only
      rw [if_pos (by omega), if_neg (by omega)]
      simp
  · have e : carry { y := y, m := m, d := d - 1 } = ⟨y, m, d - 1⟩ := by
      unfold carry
      simp only
      rw [if_neg (by omega), if_neg (by omega)]
    rw [e]
    unfold carry
    simp only
    rw [if_neg (by omega), if_neg (by omega)]
    simp

/-- The current time does not interfere with the calendar: either it is at least one hour
away from midnight, or there is no other time than the present one (no change between
standard and daylight saving time). -/
def SafeHour (dst : Day → Int → Bool) (now : Int × Bool) : Prop :=
  (1 ≤ now.1 ∧ now.1 ≤ 22) ∨ (0 ≤ now.1 ∧ now.1 ≤ 23 ∧ ∀ a h, dst a h = now.2)

theorem mktime_safe (dst : Day → Int → Bool) (a : Day) (h : Int) (s : Bool)
    (hs : (if s then h - 1 else h) ≥ 0) (h1 : ∀ b, (if dst b (if s then h - 1 else h) then (if s then h - 1 else h) + 1 else (if s then h - 1 else h)) < 24) :
    (mktime dst ⟨a, h, s⟩).day = carry a ∧ (mktime dst ⟨a, h, s⟩).isdst = dst (carry a) (if s then h - 1 else h) ∧
      (mktime dst ⟨a, h, s⟩).hour = if dst (carry a) (if s then h - 1 else h) then (if s then h - 1 else h) + 1 else (if s then h - 1 else h) := by
  unfold mktime
  simp only
  generalize (if s then h - 1 else h) = g at hs h1
  have hg : ¬ g < 0 := by omega
  simp only [hg, if_false]
  have := h1 (carry a)
  rw [if_neg (by omega)]
  exact ⟨rfl, rfl, rfl⟩

/-- C140: with a safe hour, `date_plus` of an existing date is the next day. -/
theorem datePlus_next (dst : Day → Int → Bool) (now : Int × Bool) (hn : SafeHour dst now) (a : Day) (ha : IsDate a) :
    datePlus dst now a = carry { a with d := a.d + 1 } := by
  obtain ⟨h, s⟩ := now
  unfold datePlus dateSet
  rcases hn with hn | ⟨h0, h23, hd⟩
  · simp only at hn
    have hs : (if s then h - 1 else h) ≥ 0 := by split_ifs <;> omega
    obtain ⟨e1, e2, e3⟩ := mktime_safe dst a h s hs (by intro b; split_ifs <;> omega)
    rw [carry_id a ha] at e1 e2 e3
    simp only
    rw [e1]
    have e2' : (mktime dst ⟨a, h, s⟩) = ⟨a, if dst a (if s then h - 1 else h) then (if s then h - 1 else h) + 1 else (if s then h - 1 else h), dst a (if s then h - 1 else h)⟩ := by
      cases hm : mktime dst ⟨a, h, s⟩
      rw [hm] at e1 e2 e3
      simp_all
    rw [e2']
    simp only
    generalize hg : (if s then h - 1 else h) = g at hs
    have hg' : g ≤ 22 := by rw [← hg]; split_ifs <;> omega
    refine (mktime_safe dst _ _ _ ?_ ?_).1
    · cases dst a g <;> simp <;> omega
    · intro b
      cases dst a g <;> simp <;> split_ifs <;> omega
  · simp only at h0 h23 hd
    unfold mktime
    cases s with
    | false =>
      simp only [hd]
      have : ¬ h < 0 := by omega
      have h2 : ¬ h ≥ 24 := by omega
      simp [this, h2, carry_id a ha]
    | true =>
      simp only [hd]
      by_cases hz : h = 0
      · subst hz
        have e1 := carry_pred a ha
        have e := carry_id a ha
        simp only [if_true]
        norm_num
        rw [e1]
        rw [show ({ y := a.y, m := a.m, d := a.d } : Day) = a from rfl, e]
      · have h1 : ¬ h - 1 < 0 := by omega
        have h2 : ¬ h - 1 + 1 ≥ 24 := by omega
        simp only [if_true, h1, if_false, h2, carry_id a ha]
        have h3 : ¬ h - 1 + 1 - 1 < 0 := by omega
        have h4 : ¬ h - 1 + 1 - 1 + 1 ≥ 24 := by omega
        simp only [h3, if_false, h4]

theorem before_trans {a b c : Day} (h : Before a b) (h' : Before b c) : Before a c := by
  unfold Before at *; omega

theorem before_total (a b : Day) : Before a b ∨ a = b ∨ Before b a := by
  obtain ⟨y, m, d⟩ := a
  obtain ⟨y', m', d'⟩ := b
  unfold Before
  simp only [Day.mk.injEq]
  omega

theorem before_irrefl (a : Day) : ¬ Before a a := by unfold Before; omega

/-- A number that grows with the date. -/
def key (a : Day) : Int := 372 * a.y + 31 * a.m + a.d

theorem key_lt {a b : Day} (ha : IsDate a) (hb : IsDate b) (h : Before a b) : key a < key b := by
  rw [isDate_iff] at ha hb
  have := dim_range a.y a.m
  have := dim_range b.y b.m
  unfold Before at h
  unfold key
  omega

/-- C140: the day after an existing day is found, whatever the time of the run, if it is not within an hour of midnight; also within an hour of midnight where the clock is never changed. -/
theorem c140_next_partial (dst : Day → Int → Bool) (now : Int × Bool)
    (hn : (1 ≤ now.1 ∧ now.1 ≤ 22) ∨ (0 ≤ now.1 ∧ now.1 ≤ 23 ∧ ∀ a h, dst a h = now.2)) (a : Day) (ha : IsDate a) :
    NextDay a (datePlus dst now a) := by
  rw [datePlus_next dst now hn a ha]
  obtain ⟨h1, h2, h3⟩ := next_spec a ha
  exact ⟨h1, h2, fun c hc h => h3 c hc h.1 h.2⟩

theorem loop_spec (dst : Day → Int → Bool) (now : Nat → Int × Bool) (hn : ∀ k, SafeHour dst (now k)) (b : Day) (hb : IsDate b) :
    ∀ (n f k : Nat) (a : Day), IsDate a → ¬ Before b a → (key b - key a).toNat ≤ n → n < f →
      ∃ l, loop dst now b f k a = some l ∧ AllDays a b l := by
  intro n
  induction n with
  | zero =>
    intro f k a ha hab hk hf
    have e : a = b := by
      rcases before_total a b with h | h | h
      · have := key_lt ha hb h; omega
      · exact h
      · exact absurd h hab
    obtain ⟨f, rfl⟩ : ∃ g, f = g + 1 := ⟨f - 1, by omega⟩
    refine ⟨[a], ?_, ?_⟩
    · unfold loop; rw [if_pos (by rw [e]; exact ⟨rfl, rfl, rfl⟩)]
    · subst e
      refine ⟨by simp, fun c => ?_⟩
      rw [List.mem_singleton]
      constructor
      · rintro rfl; exact ⟨ha, before_irrefl _, before_irrefl _⟩
      · rintro ⟨-, h1, h2⟩
        rcases before_total c a with h | h | h
        · exact absurd h h1
        · exact h
        · exact absurd h h2
  | succ n ih =>
    intro f k a ha hab hk hf
    obtain ⟨f, rfl⟩ : ∃ g, f = g + 1 := ⟨f - 1, by omega⟩
    by_cases e : a = b
    · refine ⟨[a], ?_, ?_⟩
      · unfold loop; rw [if_pos (by rw [e]; exact ⟨rfl, rfl, rfl⟩)]
      · subst e
        refine ⟨by simp, fun c => ?_⟩
        rw [List.mem_singleton]
        constructor
        · rintro rfl; exact ⟨ha, before_irrefl _, before_irrefl _⟩
        · rintro ⟨-, h1, h2⟩
          rcases before_total c a with h | h | h
          · exact absurd h h1
          · exact h
          · exact absurd h h2
    · have hlt : Before a b := by
        rcases before_total a b with h | h | h
        · exact h
        · exact absurd h e
        · exact absurd h hab
      have ed := datePlus_next dst (now k) (hn k) a ha
      obtain ⟨h1, h2, h3⟩ := next_spec a ha
      rw [← ed] at h1 h2 h3
      have hnb : ¬ Before b (datePlus dst (now k) a) := h3 b hb hlt
      have hkey := key_lt ha h1 h2
      obtain ⟨l, el, hp, hm⟩ := ih f (k + 1) (datePlus dst (now k) a) h1 hnb (by omega) (by omega)
      refine ⟨a :: l, ?_, ?_, ?_⟩
      · unfold loop
        rw [if_neg (by
          rintro ⟨h4, h5, h6⟩; apply e; cases a; cases b; simp_all), el]
        rfl
      · refine List.pairwise_cons.2 ⟨fun c hc => ?_, hp⟩
        have := ((hm c).1 hc).2.1
        rcases before_total c (datePlus dst (now k) a) with h | h | h
        · exact absurd h this
        · rw [h]; exact h2
        · exact before_trans h2 h
      · intro c
        rw [List.mem_cons, hm]
        constructor
        · rintro (rfl | ⟨h4, h5, h6⟩)
          · exact ⟨ha, before_irrefl _, hab⟩
          · refine ⟨h4, fun h => h5 (before_trans h h2), h6⟩
        · rintro ⟨h4, h5, h6⟩
          rcases before_total c a with h | h | h
          · exact absurd h h5
          · exact Or.inl h
          · exact Or.inr ⟨h4, h3 c h4 h, h6⟩

/-- C140: for every period of existing dates, every day from the first to the last is processed exactly once and in order, and the program then ends (if no run of `date_plus` falls within an hour of midnight, or the clock is never changed). -/
theorem c140_days_partial (dst : Day → Int → Bool) (now : Nat → Int × Bool)
    (hn : ∀ k, (1 ≤ (now k).1 ∧ (now k).1 ≤ 22) ∨ (0 ≤ (now k).1 ∧ (now k).1 ≤ 23 ∧ ∀ a h, dst a h = (now k).2))
    (a b : Day) (ha : IsDate a) (hb : IsDate b) (hab : ¬ Before b a) :
    ∃ l N, AllDays a b l ∧ ∀ f, N ≤ f → loop dst now b f 0 a = some l := by
  have hmono : ∀ (f g k : Nat) (a : Day) (l : List Day), loop dst now b f k a = some l → f ≤ g → loop dst now b g k a = some l := by
    intro f
    induction f with
    | zero => intro g k a l h; simp [loop] at h
    | succ f ih =>
      intro g k a l h hg
      obtain ⟨g, rfl⟩ : ∃ g', g = g' + 1 := ⟨g - 1, by omega⟩
      unfold loop at h ⊢
      split_ifs at h ⊢ with hc
      · exact h
      · rw [Option.map_eq_some_iff] at h
        obtain ⟨l', e1, e2⟩ := h
        rw [ih g _ _ _ e1 (by omega), ← e2]
        rfl
  obtain ⟨l, e, hl⟩ := loop_spec dst now hn b hb _ _ 0 a ha hab (le_refl _) (Nat.lt_succ_self _)
  exact ⟨l, _, hl, fun f hf => hmono _ f 0 a l e hf⟩

/-- If no day from `a` on is the last day, the loop never ends. -/
theorem loop_never (dst : Day → Int → Bool) (now : Nat → Int × Bool) (hn : ∀ k, SafeHour dst (now k)) (b : Day) :
    ∀ (f k : Nat) (a : Day), IsDate a → (¬ IsDate b ∨ Before b a) → loop dst now b f k a = none := by
  intro f
  induction f with
  | zero => intros; rfl
  | succ f ih =>
    intro k a ha hb
    have ed := datePlus_next dst (now k) (hn k) a ha
    obtain ⟨h1, h2, -⟩ := next_spec a ha
    rw [← ed] at h1 h2
    unfold loop
    rw [if_neg, ih (k + 1) _ h1]
    · rfl
    · rcases hb with hb | hb
      · exact Or.inl hb
      · exact Or.inr (before_trans hb h2)
    · rintro ⟨h3, h4, h5⟩
      have e : a = b := by cases a; cases b; simp_all
      rcases hb with hb | hb
      · exact hb (e ▸ ha)
      · rw [e] at hb; exact before_irrefl _ hb

theorem digits_num (k n : Nat) (t : List Char) (h : 0 < k) (hn : n < 10 ^ k) : Verif.Date.atoi ((Verif.Libc.padDigits k n ++ t).take k) = n := by
  have e : (Verif.Libc.padDigits k n ++ t).take k = Verif.Libc.padDigits k n := by
    rw [List.take_append_of_le_length (by rw [Verif.Libc.padDigits_length])]
    rw [List.take_of_length_le (by rw [Verif.Libc.padDigits_length])]
  rw [e]
  have := Verif.Libc.atoi_digits (Verif.Libc.padDigits k n) (Verif.Libc.padDigits_isDigit _ _) (by
    intro e
    have := congrArg List.length e
    rw [Verif.Libc.padDigits_length] at this
    simp at this; omega) [] (by simp)
  rw [List.append_nil] at this
  rw [show Verif.Date.atoi = Verif.Libc.atoi from rfl, this, Verif.Libc.natVal_padDigits, Nat.mod_eq_of_lt hn]

/-- What is read from two dates of eight digits and one character between them. -/
theorem parse_eight (today a b : Day) (c : Char) (ha : 0 ≤ a.y ∧ a.y < 10000 ∧ 0 ≤ a.m ∧ a.m < 100 ∧ 0 ≤ a.d ∧ a.d < 100)
    (hb : 0 ≤ b.y ∧ b.y < 10000 ∧ 0 ≤ b.m ∧ b.m < 100 ∧ 0 ≤ b.d ∧ b.d < 100) :
    parseRange today (eight a ++ c :: eight b) =
      if Verif.Date.date2ce a.y a.m a.d > Verif.Date.date2ce today.y today.m today.d ∨
          Verif.Date.date2ce b.y b.m b.d > Verif.Date.date2ce today.y today.m today.d ∨
          Verif.Date.date2ce a.y a.m a.d > Verif.Date.date2ce b.y b.m b.d then none else some (a, b) := by
  have hl : ∀ a, (eight a).length = 8 := by intro a; simp [eight, Verif.Libc.padDigits_length]
  unfold parseRange
  rw [if_neg (by simp [hl])]
  simp only
  have e0 : (eight a ++ c :: eight b).drop 0 = Verif.Libc.padDigits 4 a.y.toNat ++ (Verif.Libc.padDigits 2 a.m.toNat ++ (Verif.Libc.padDigits 2 a.d.toNat ++ c :: eight b)) := by
    simp [eight]
  have step : ∀ (k i n : Nat) (s t : List Char), s.drop i = Verif.Libc.padDigits k n ++ t → s.drop (i + k) = t := by
    intro k i n s t h
    rw [← List.drop_drop, h, List.drop_append_of_le_length (by rw [Verif.Libc.padDigits_length])]
    rw [List.drop_of_length_le (by rw [Verif.Libc.padDigits_length])]; rfl
  have e4 := step _ _ _ _ _ e0
  have e6 := step _ _ _ _ _ e4
  have e8 := step _ _ _ _ _ e6
  have e9 : (eight a ++ c :: eight b).drop 9 = Verif.Libc.padDigits 4 b.y.toNat ++ (Verif.Libc.padDigits 2 b.m.toNat ++ (Verif.Libc.padDigits 2 b.d.toNat ++ [])) := by
    have : (eight a ++ c :: eight b).drop (8 + 1) = eight b := by rw [← List.drop_drop, e8]; rfl
    rw [this]; simp [eight]
  have e13 := step _ _ _ _ _ e9
  have e15 := step _ _ _ _ _ e13
  simp only [Nat.zero_add, Nat.reduceAdd] at e4 e6 e13 e15
  rw [e0, e4, e6, e9, e13, e15]
  rw [digits_num _ _ _ (by norm_num) (by omega), digits_num _ _ _ (by norm_num) (by omega), digits_num _ _ _ (by norm_num) (by omega),
    digits_num _ _ _ (by norm_num) (by omega), digits_num _ _ _ (by norm_num) (by omega), digits_num _ _ _ (by norm_num) (by omega)]
  rw [Int.toNat_of_nonneg ha.1, Int.toNat_of_nonneg ha.2.2.1, Int.toNat_of_nonneg ha.2.2.2.2.1,
    Int.toNat_of_nonneg hb.1, Int.toNat_of_nonneg hb.2.2.1, Int.toNat_of_nonneg hb.2.2.2.2.1]
  simp only [Verif.Date.setDate, Verif.Date.setYear, Verif.Date.setMonthDay, Verif.Date.dateOrder, Verif.Date.doy2ce, Verif.Date.date2ce]
  by_cases h1 : a.y * 365 + Verif.Date.md2doy a.m a.d > today.y * 365 + Verif.Date.md2doy today.m today.d <;>
  by_cases h2 : b.y * 365 + Verif.Date.md2doy b.m b.d > today.y * 365 + Verif.Date.md2doy today.m today.d <;>
  by_cases h3 : a.y * 365 + Verif.Date.md2doy a.m a.d > b.y * 365 + Verif.Date.md2doy b.m b.d <;>
  simp [h1, h2, h3]

theorem ce_mono {a b : Day} (ha : IsDate a) (hb : IsDate b) (h : ¬ Before b a) :
    Verif.Date.date2ce a.y a.m a.d ≤ Verif.Date.date2ce b.y b.m b.d := by
  obtain ⟨y, m, d⟩ := a
  obtain ⟨y', m', d'⟩ := b
  rw [isDate_iff] at ha hb
  obtain ⟨h1, h2, h3, h4⟩ := ha
  obtain ⟨g1, g2, g3, g4⟩ := hb
  unfold Before at h
  simp only at h1 h2 h3 h4 g1 g2 g3 g4 h ⊢
  have k1 : Verif.Date.md2doy m d ≤ 365 ∧ 1 ≤ Verif.Date.md2doy m d := by
    have := dim_range y m
    unfold Verif.Date.md2doy
    interval_cases m <;> simp [dim] at h4 ⊢ <;> omega
  have k2 : Verif.Date.md2doy m' d' ≤ 365 ∧ 1 ≤ Verif.Date.md2doy m' d' := by
    have := dim_range y' m'
    unfold Verif.Date.md2doy
    interval_cases m' <;> simp [dim] at g4 ⊢ <;> omega
  unfold Verif.Date.date2ce
  by_cases hy : y < y'
  · omega
  · have e : y = y' := by omega
    subst e
    have hm : m ≤ m' := by omega
    have : Verif.Date.md2doy m d ≤ Verif.Date.md2doy m' d' := by
      by_cases e : m = m'
      · subst e
        have hd : d ≤ d' := by omega
        unfold Verif.Date.md2doy
        interval_cases m <;> simp <;> omega
      · have hf : (if leap y then (29 : Int) else 28) ≤ 29 := by split_ifs <;> omega
        unfold Verif.Date.md2doy
        interval_cases m <;> interval_cases m' <;> simp [dim] at h4 hm e ⊢ <;> omega
    omega

/-- C140: a period of two existing dates in order, not in the future, is accepted as given. -/
theorem c140_accepted (today a b : Day) (c : Char) (ht : IsDate today) (ha : IsDate a) (hb : IsDate b)
    (hy : 0 ≤ a.y) (h9 : today.y ≤ 9999) (hab : ¬ Before b a) (hbt : ¬ Before today b) :
    parseRange today (eight a ++ c :: eight b) = some (a, b) := by
  have m1 := ce_mono ha hb hab
  have m2 := ce_mono hb ht hbt
  have r : ∀ x : Day, IsDate x → 0 ≤ x.m ∧ x.m < 100 ∧ 0 ≤ x.d ∧ x.d < 100 := by
    intro x hx
    rw [isDate_iff] at hx
    have := dim_range x.y x.m
    omega
  have hyy : a.y ≤ b.y ∧ b.y ≤ today.y := by unfold Before at hab hbt; omega
  rw [parse_eight today a b c ⟨hy, by omega, r a ha⟩ ⟨by omega, by omega, r b hb⟩]
  rw [if_neg (by omega)]

/-- C140, violated: in every leap year, the period from 1 March to 29 February is accepted although it ends before it starts, and the program never ends. -/
theorem c140_leap_violated (today : Day) (y : Int) (c : Char) (hy : 0 ≤ y ∧ y < 10000) (ht : IsDate today) (h : Before ⟨y, 3, 1⟩ today)
    (dst : Day → Int → Bool) (now : Nat → Int × Bool) (hn : ∀ k, 1 ≤ (now k).1 ∧ (now k).1 ≤ 22) :
    parseRange today (eight ⟨y, 3, 1⟩ ++ c :: eight ⟨y, 2, 29⟩) = some (⟨y, 3, 1⟩, ⟨y, 2, 29⟩) ∧
      ∀ f, loop dst now ⟨y, 2, 29⟩ f 0 ⟨y, 3, 1⟩ = none := by
  have hx : IsDate ⟨y, 3, 1⟩ := (isDate_iff _).2 ⟨by norm_num, by norm_num, by norm_num, by simp [dim]⟩
  have hm := ce_mono hx ht (fun h' => before_irrefl _ (before_trans h h'))
  constructor
  · rw [parse_eight today ⟨y, 3, 1⟩ ⟨y, 2, 29⟩ c ⟨hy.1, hy.2, by norm_num, by norm_num, by norm_num, by norm_num⟩ ⟨hy.1, hy.2, by norm_num, by norm_num, by norm_num, by norm_num⟩]
    rw [if_neg]
    have e : Verif.Date.date2ce y 2 29 = Verif.Date.date2ce y 3 1 := by
      unfold Verif.Date.date2ce Verif.Date.md2doy; simp
    simp only at hm ⊢
    rw [e]
    omega
  · intro f
    exact loop_never dst now (fun k => Or.inl (hn k)) _ f 0 _ hx (Or.inr (Or.inr ⟨rfl, Or.inl (by show (2 : Int) < 3; norm_num)⟩))

/-- C140, violated: a period that ends on 30 February is accepted (in every year before the current one, with every first day of the same or an earlier year until 28 February), and the program never ends. -/
theorem c140_missing_day_violated (today a : Day) (y : Int) (c : Char) (hy : y < today.y) (h9 : today.y ≤ 9999) (ht : IsDate today)
    (ha : IsDate a) (h0 : 0 ≤ a.y) (hab : ¬ Before ⟨y, 2, 28⟩ a)
    (dst : Day → Int → Bool) (now : Nat → Int × Bool) (hn : ∀ k, 1 ≤ (now k).1 ∧ (now k).1 ≤ 22) :
    ¬ IsDate ⟨y, 2, 30⟩ ∧ parseRange today (eight a ++ c :: eight ⟨y, 2, 30⟩) = some (a, ⟨y, 2, 30⟩) ∧
      ∀ f, loop dst now ⟨y, 2, 30⟩ f 0 a = none := by
  have hx : IsDate ⟨y, 2, 28⟩ := (isDate_iff _).2 ⟨by norm_num, by norm_num, by norm_num, by
    unfold dim; simp; split_ifs <;> omega⟩
  have hx3 : IsDate ⟨y, 3, 2⟩ := (isDate_iff _).2 ⟨by norm_num, by norm_num, by norm_num, by simp [dim]⟩
  have hne : ¬ IsDate ⟨y, 2, 30⟩ := by
    rw [isDate_iff]; unfold dim; simp only; split_ifs <;> omega
  have m1 := ce_mono ha hx hab
  have m2 := ce_mono hx3 ht (by unfold Before; simp only; omega)
  have hya : a.y ≤ y := by unfold Before at hab; simp only at hab; omega
  refine ⟨hne, ?_, fun f => loop_never dst now (fun k => Or.inl (hn k)) _ f 0 _ ha (Or.inl hne)⟩
  have r : 0 ≤ a.m ∧ a.m < 100 ∧ 0 ≤ a.d ∧ a.d < 100 := by
    rw [isDate_iff] at ha
    have := dim_range a.y a.m
    omega
  rw [parse_eight today a ⟨y, 2, 30⟩ c ⟨h0, by omega, r⟩ ⟨by show 0 ≤ y; omega, by show y < 10000; omega, by norm_num, by norm_num, by norm_num, by norm_num⟩]
  rw [if_neg]
  have e1 : Verif.Date.date2ce y 2 28 = y * 365 + 59 := by unfold Verif.Date.date2ce Verif.Date.md2doy; simp
  have e2 : Verif.Date.date2ce y 2 30 = y * 365 + 61 := by unfold Verif.Date.date2ce Verif.Date.md2doy; simp
  have e3 : Verif.Date.date2ce y 3 2 = y * 365 + 61 := by unfold Verif.Date.date2ce Verif.Date.md2doy; simp
  simp only at m1 m2 ⊢
  rw [e2]; rw [e1] at m1; rw [e3] at m2
  omega

theorem next_carry (a b : Day) (ha : IsDate a) (h : NextDay a b) : carry { a with d := a.d + 1 } = b := by
  obtain ⟨e1, e2, e3⟩ := next_spec a ha
  rcases before_total (carry { a with d := a.d + 1 }) b with h' | h' | h'
  · exact absurd ⟨e2, h'⟩ (h.2.2 _ e1)
  · exact h'
  · exact absurd h' (e3 b h.1 h.2.1)

theorem prev_carry (a b : Day) (ha : IsDate a) (h : NextDay a b) : carry { b with d := b.d - 1 } = a := by
  rw [← next_carry a b ha h]
  rw [isDate_iff] at ha
  obtain ⟨y, m, d⟩ := a
  simp only at ha
  have := dim_range y m
  by_cases h1 : d + 1 > dim y m
  · have hd : d = dim y m := by omega
    by_cases h2 : m = 12
    · subst h2
      rw [dim_12] at hd
      subst hd
      simp [carry, dim_12, dim_1]
    · have e : carry { y := y, m := m, d := d + 1 } = ⟨y, m + 1, 1⟩ := by
        unfold carry
        simp only
        rw [if_pos h1, if_neg h2, hd]
        simp
      rw [e]
      unfold carry
      have := dim_range y (m + 1)
      simp only
      rw [if_neg (by omega), if_pos (by omega), if_neg (by omega), hd]
      simp
  · have e : carry { y := y, m := m, d := d + 1 } = ⟨y, m, d + 1⟩ := by
      unfold carry
      simp only
      rw [if_neg h1, if_neg (by omega)]
    rw [e]
    unfold carry
    simp only
    rw [if_neg (by omega), if_neg (by omega)]
    simp

/-- C140, violated: if the program runs in the last hour of a day in winter (standard time), it skips days: after a day with daylight saving time follows the day after the next one. -/
theorem c140_skipped_violated (dst : Day → Int → Bool) (a b c : Day) (ha : IsDate a) (h1 : NextDay a b) (h2 : NextDay b c)
    (hd : dst a 23 = true ∧ dst b 23 = true) : datePlus dst (23, false) a = c := by
  have k1 := next_carry a b ha h1
  have k2 := next_carry b c h1.1 h2
  have e1 : mktime dst ⟨a, 23, false⟩ = ⟨b, 0, true⟩ := by
    unfold mktime
    simp only
    norm_num
    rw [carry_id a ha, hd.1]
    simpa using k1
  unfold datePlus dateSet
  simp only [e1]
  unfold mktime
  simp only
  norm_num
  rw [show ({ y := b.y, m := b.m, d := b.d } : Day) = b from rfl, carry_id b h1.1, hd.2]
  simpa using k2

/-- C140, violated: if the program runs in the first hour of a day in summer (daylight saving time), it does not leave a day in winter: the same day follows. -/
theorem c140_repeated_violated (dst : Day → Int → Bool) (p a : Day) (hp : IsDate p) (h1 : NextDay p a)
    (hd : dst p 23 = false ∧ dst a 23 = false) : datePlus dst (0, true) a = a := by
  have k1 := prev_carry p a hp h1
  have k2 := next_carry p a hp h1
  have e1 : mktime dst ⟨a, 0, true⟩ = ⟨p, 23, false⟩ := by
    unfold mktime
    simp only
    norm_num
    rw [k1, hd.1]
    simp
  unfold datePlus dateSet
  simp only [e1]
  unfold mktime
  simp only
  norm_num
  rw [k2, hd.2]
  simp

/-- C140: a date range that has not the length of two dates and a separator is refused, whatever its characters. -/
theorem c140_format (today : Day) (s : List Char) (h : s.length ≠ 17) : parseRange today s = none := by
  unfold parseRange
  rw [if_pos h]

end Verif.Wvp

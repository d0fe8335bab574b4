import Verif.Wvp.Days

/-!
# Specification: Gregorian calendar
-/

namespace Verif.Wvp.Spec

open Verif.Wvp (Day)

/-- Leap years of the Gregorian calendar. -/
def Leap (y : Int) : Prop := 4 ∣ y ∧ (100 ∣ y → 400 ∣ y)

/-- The date exists. -/
def IsDate (a : Day) : Prop :=
  1 ≤ a.m ∧ a.m ≤ 12 ∧ 1 ≤ a.d ∧
    ((a.m ∈ [1, 3, 5, 7, 8, 10, 12] ∧ a.d ≤ 31) ∨ (a.m ∈ [4, 6, 9, 11] ∧ a.d ≤ 30) ∨
      (a.m = 2 ∧ a.d ≤ 28) ∨ (a.m = 2 ∧ a.d = 29 ∧ Leap a.y))

/-- Chronological order. -/
def Before (a b : Day) : Prop := a.y < b.y ∨ (a.y = b.y ∧ (a.m < b.m ∨ (a.m = b.m ∧ a.d < b.d)))

/-- `b` is the day after `a`: no existing date lies between them. -/
def NextDay (a b : Day) : Prop := IsDate b ∧ Before a b ∧ ∀ c, IsDate c → ¬ (Before a c ∧ Before c b)

/-- All days from `a` to `b`, in chronological order, each once. -/
def AllDays (a b : Day) (l : List Day) : Prop :=
  l.Pairwise Before ∧ ∀ c, c ∈ l ↔ IsDate c ∧ ¬ Before c a ∧ ¬ Before b c

/-- A date as eight digits. -/
def eight (a : Day) : List Char := Verif.Libc.padDigits 4 a.y.toNat ++ Verif.Libc.padDigits 2 a.m.toNat ++ Verif.Libc.padDigits 2 a.d.toNat

end Verif.Wvp.Spec

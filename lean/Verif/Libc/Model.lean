import Mathlib.Data.Rat.Floor
import Verif.Date.Model

/-!
# The parts of the C library used by the model

Strings are lists of characters other than NUL. These definitions describe libc
functions, not code of the repository; the calls modelled are cited where used.
-/

namespace Verif.Libc

/-- libc `atoi` (without overflow). -/
abbrev atoi := Verif.Date.atoi

/-- Repeated `fgets(buffer, size, fp)` until end of file: the strings stored in the
buffer. A string ends after a newline or after `size - 1` characters. -/
def fgetsGo (size : Nat) (acc : List Char) : List Char → List (List Char)
  | [] => if acc = [] then [] else [acc]
  | c :: cs =>
    if c = '\n' ∨ acc.length + 1 = size - 1 then (acc ++ [c]) :: fgetsGo size [] cs
    else fgetsGo size (acc ++ [c]) cs

def fgetsAll (size : Nat) (text : List Char) : List (List Char) := fgetsGo size [] text

/-- `buffer[strcspn(buffer, set)] = 0`. -/
def cutAt (set : Char → Bool) (s : List Char) : List Char := s.takeWhile (fun c => !set c)

/-- `strtok_r`: the token and the remaining string; `none` is the NULL pointer. -/
def strtok (sep : Char → Bool) (s : List Char) : Option (List Char × List Char) :=
  match s.dropWhile sep with
  | [] => none
  | c :: cs =>
    some ((c :: cs).takeWhile (fun c => !sep c), ((c :: cs).dropWhile (fun c => !sep c)).drop 1)

/-- Decimal digit. -/
def digit (n : Nat) : Char := Char.ofNat (48 + n % 10)

/-- Decimal digits of a number without leading zeros. -/
def decDigits (n : Nat) : List Char :=
  if n < 10 then [digit n] else decDigits (n / 10) ++ [digit n]
termination_by n

/-- Exactly `k` decimal digits (the last `k` ones). -/
def padDigits : Nat → Nat → List Char
  | 0, _ => []
  | k + 1, n => padDigits k (n / 10) ++ [digit n]

/-- `%0wd` for a natural number. -/
def fmtNat0 (w n : Nat) : List Char := if n < 10 ^ w then padDigits w n else decDigits n

/-- `printf("%0wd", v)`, `w > 0`: zero padded to width `w` including the sign. -/
def fmtInt0 (w : Nat) (v : ℤ) : List Char :=
  if v < 0 then '-' :: fmtNat0 (w - 1) v.natAbs else fmtNat0 w v.natAbs

/-- Rounding to the nearest integer, ties to even (glibc prints the exact value of the
double in the current rounding mode). -/
def roundEven (q : ℚ) : ℤ :=
  let m := ⌊q⌋
  let f := q - m
  if f < 1 / 2 then m else if f > 1 / 2 then m + 1 else if m % 2 = 0 then m else m + 1

/-- `printf("%f", v)`. -/
def fmtF (v : ℚ) : List Char :=
  let n := (roundEven (|v| * 1000000)).toNat
  (if v < 0 then ['-'] else []) ++ (decDigits (n / 1000000) ++ '.' :: padDigits 6 n)

/-- Value of a run of digits. -/
def natVal (s : List Char) : Nat := s.foldl (fun a c => a * 10 + (c.toNat - 48)) 0

/-- Exact value of a decimal number without sign: digits, optionally a point and more
digits; the rest of the text is ignored. Exponents, hexadecimal numbers, `inf` and `nan`
are not modelled. -/
def decVal (s : List Char) : ℚ :=
  let ip := s.takeWhile Char.isDigit
  match s.dropWhile Char.isDigit with
  | '.' :: r =>
    let fp := r.takeWhile Char.isDigit
    natVal ip + natVal fp / 10 ^ fp.length
  | _ => natVal ip

/-- libc `atof`: `rd` is the rounding of an exact decimal number to a double. -/
def atof (rd : ℚ → ℚ) (s : List Char) : ℚ :=
  match s.dropWhile Verif.Date.isSpace with
  | '-' :: cs => rd (-decVal cs)
  | '+' :: cs => rd (decVal cs)
  | cs => rd (decVal cs)

end Verif.Libc

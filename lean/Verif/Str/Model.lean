import Mathlib.Data.List.TakeWhile
import Mathlib.Data.Nat.Notation
import Verif.Date.Model

/-!
# Model of strings, arrays and paths

`src/modules/cross-level/string-cl.c`, `src/modules/cross-level/alloc-cl.c` and
`src/modules/cross-level/dir-cl.c`.

A buffer is the list of its bytes; '\x00' is NUL. Source strings are given without their NUL.
Lengths are below 2^31 (no overflow of `int`).
-/

namespace Verif.Str

/-- NUL. -/
abbrev nul : Char := '\x00'

/-- Outcome of a function: a value, the end of the program (`exit(1)`), or undefined behaviour. -/
inductive Out (α : Type) where
  | ok (a : α)
  | exit
  | ub
deriving DecidableEq, Repr

/-- Sequencing. -/
def Out.bind {α β : Type} (o : Out α) (f : α → Out β) : Out β :=
  match o with
  | .ok a => f a
  | .exit => .exit
  | .ub => .ub

/-- The C string that starts at the beginning of a buffer. -/
def cstr (buf : List Char) : List Char := buf.takeWhile (fun c => c ≠ nul)

/-! ## string-cl.c -/

/-- string-cl.c:42-51 `copy_string`; `strncpy` (libc) writes exactly `size` bytes, the text padded
with NUL. -/
def copyString (dst : List Char) (size : Nat) (src : List Char) : Out (List Char) :=
  if size > dst.length then .ub
  else
    let dst := (src ++ List.replicate size nul).take size ++ dst.drop size
    if size = 0 then .ub
    else if dst[size - 1]? ≠ some nul then .exit
    else .ok dst

/-- libc `snprintf(dst, size, "%s...", ...)` where `text` is the complete formatted text: at most
`size-1` characters and a NUL are written. Returns the buffer and the number of characters the
complete text has. -/
def snprintf (dst : List Char) (size : Nat) (text : List Char) : Out (List Char × Nat) :=
  if size > dst.length then .ub
  else if size = 0 then .ok (dst, text.length)
  else .ok (text.take (size - 1) ++ nul :: dst.drop ((text.take (size - 1)).length + 1), text.length)

/-- string-cl.c:64-74 `concat_string_2`. -/
def concat2 (dst : List Char) (size : Nat) (src1 src2 delim : List Char) : Out (List Char) :=
  (snprintf dst size (src1 ++ delim ++ src2)).bind fun r =>
    if r.2 ≥ size then .exit else .ok r.1

/-- string-cl.c:88-98 `concat_string_3`. -/
def concat3 (dst : List Char) (size : Nat) (src1 src2 src3 delim : List Char) : Out (List Char) :=
  (snprintf dst size (src1 ++ delim ++ src2 ++ delim ++ src3)).bind fun r =>
    if r.2 ≥ size then .exit else .ok r.1

/-- libc `strstr`: number of characters before the first occurrence. -/
def strstr : List Char → List Char → Option Nat
  | source, search =>
    if search.isPrefixOf source then some 0
    else match source with
      | [] => none
      | _ :: rest => (strstr rest search).map (· + 1)

/-- `size_t` arithmetic, modulo 2^64. -/
def sizeT (x : ℤ) : Nat := (x % 18446744073709551616).toNat

/-- string-cl.c:112-177 `replace_string`; `source` is the buffer, `buffer_len` its size. Copying
back with `strcpy` overwrites the start of the buffer. -/
def replaceString (source search replace : List Char) (bufferLen : Nat) : Out (List Char) :=
  let text := cstr source
  if sizeT ((text.length : ℤ) - search.length + replace.length) ≥ bufferLen then .exit
  else
    match strstr text search with
    | none => .ok source
    | some prefixLen =>
      let suffix := text.drop (prefixLen + search.length)
      let new := text.take prefixLen ++ replace ++ suffix ++ [nul]
      if new.length > source.length then .ub
      else .ok (new ++ source.drop new.length)

/-- string-cl.c:190-206 `overwrite_string_part`. -/
def overwritePart (source : List Char) (offset : Nat) (replace : List Char) (replaceLen : Nat) :
    Out (List Char) :=
  if replaceLen > replace.length then .exit
  else if offset + replaceLen > (cstr source).length then .exit
  else .ok (source.take offset ++ replace.take replaceLen ++ source.drop (offset + replaceLen))

/-- string-cl.c:252-259 `strings_equal`, 270-279 `vector_contains`. -/
def vectorContains (vector : List (List Char)) (target : List Char) : Bool :=
  match vector with
  | [] => false
  | v :: vs => if v = target then true else vectorContains vs target

/-- string-cl.c:290-299 `vector_contains_pos`, `i` is the loop counter. -/
def vectorContainsPos (vector : List (List Char)) (target : List Char) (i : ℤ := 0) : ℤ :=
  match vector with
  | [] => -1
  | v :: vs => if v = target then i else vectorContainsPos vs target (i + 1)

/-- libc: value of a digit in `strtol`, for any base up to 16. -/
def digitOf (c : Char) : Option Nat :=
  if '0' ≤ c ∧ c ≤ '9' then some (c.toNat - 48)
  else if 'a' ≤ c ∧ c ≤ 'z' then some (c.toNat - 87)
  else if 'A' ≤ c ∧ c ≤ 'Z' then some (c.toNat - 55)
  else none

/-- Is the character a digit of the base? -/
def isDigitIn (base : Nat) (c : Char) : Bool :=
  match digitOf c with
  | some d => decide (d < base)
  | none => false

/-- libc: value of the longest run of digits of the base, and the rest of the text; `none` if
there is no digit. -/
def runDigits (base : Nat) (s : List Char) : Option (Nat × List Char) :=
  match s.takeWhile (isDigitIn base) with
  | [] => none
  | ds => some (ds.foldl (fun a c => a * base + (digitOf c).getD 0) 0, s.dropWhile (isDigitIn base))

/-- libc `strtol(s, &end, 0)` after white space and sign: a leading `0x` selects base 16 (if a
hexadecimal digit follows), a leading `0` base 8, otherwise base 10. -/
def strtolDigits (s : List Char) : Option (Nat × List Char) :=
  match s with
  | '0' :: x :: rest =>
    if x = 'x' ∨ x = 'X' then
      match runDigits 16 rest with
      | some r => some r
      | none => some (0, x :: rest)
    else runDigits 8 ('0' :: x :: rest)
  | '0' :: [] => some (0, [])
  | _ => runDigits 10 s

/-- libc `strtol(s, &end, 0)` with an unbounded result: value and rest; `none` if nothing was
converted. -/
def strtol (s : List Char) : Option (ℤ × List Char) :=
  match s.dropWhile Date.isSpace with
  | '-' :: cs => (strtolDigits cs).map fun r => (-(r.1 : ℤ), r.2)
  | '+' :: cs => (strtolDigits cs).map fun r => ((r.1 : ℤ), r.2)
  | cs => (strtolDigits cs).map fun r => ((r.1 : ℤ), r.2)

/-- string-cl.c:209-226 `char_to_int`; `none` is FAILURE. Values outside of `long` (ERANGE) are
outside of `int` as well. -/
def charToInt (s : List Char) : Option ℤ :=
  match strtol s with
  | none => none
  | some (v, rest) =>
    if rest ≠ [] then none
    else if v < -2147483648 ∨ v > 2147483647 then none
    else some v

/-! ## alloc-cl.c -/

/-- alloc-cl.c:126-142 `re_alloc` of an array; `realloc(p, 0)` of glibc returns NULL, which ends
the program. -/
def reAlloc {V : Type} (zero : V) (arr : List V) (n : Nat) : Out (List V) :=
  if arr.length = n then .ok arr
  else if n = 0 then .exit
  else .ok (arr.take n ++ List.replicate (n - arr.length) zero)

/-- The loop of alloc-cl.c:171-182: rows that exist are re-allocated, others are allocated. -/
def reRows {V : Type} (zero : V) (n2 : Nat) : List (List V) → Nat → Out (List (List V))
  | _, 0 => .ok []
  | [], n + 1 => (reRows zero n2 [] n).bind fun rs => .ok (List.replicate n2 zero :: rs)
  | r :: rows, n + 1 => (reAlloc zero r n2).bind fun r' =>
      (reRows zero n2 rows n).bind fun rs => .ok (r' :: rs)

/-- alloc-cl.c:156-186 `re_alloc_2D`: `n2_now` is the current row length. -/
def reAlloc2D {V : Type} (zero : V) (n2_now : Nat) (arr : List (List V)) (n1 n2 : Nat) :
    Out (List (List V)) :=
  if arr.length = n1 ∧ n2_now = n2 then .ok arr
  else if arr.length ≠ n1 ∧ n1 = 0 then .exit
  else reRows zero n2 arr n1

/-- All elements through `f`, in order. -/
def mapOut {α β : Type} (f : α → Out β) : List α → Out (List β)
  | [] => .ok []
  | a :: as => (f a).bind fun b => (mapOut f as).bind fun bs => .ok (b :: bs)

/-- alloc-cl.c:231-260 `re_alloc_3D`. -/
def reAlloc3D {V : Type} (zero : V) (n2_now n3_now : Nat) (arr : List (List (List V)))
    (n1 n2 n3 : Nat) : Out (List (List (List V))) :=
  if arr.length = n1 ∧ n2_now = n2 ∧ n3_now = n3 then .ok arr
  else
    (if n2_now ≠ n2 ∨ n3_now ≠ n3 then mapOut (fun a => reAlloc2D zero n3_now a n2 n3) arr
     else .ok arr).bind fun arr =>
    if arr.length ≠ n1 ∧ n1 = 0 then .exit
    else .ok (arr.take n1 ++
      List.replicate (n1 - arr.length) (List.replicate n2 (List.replicate n3 zero)))

/-- alloc-cl.c:202-215 `re_alloc_2DC`: one block; element `(i, j)` is at `i*n2 + j`. Returns the
block. -/
def reAlloc2DC {V : Type} (zero : V) (block : List V) (n1_now n2_now n1 n2 : Nat) : Out (List V) :=
  if n1_now = n1 ∧ n2_now = n2 then .ok block
  else (reAlloc zero block (n1 * n2)).bind fun b =>
    if n1_now ≠ n1 ∧ n1 = 0 then .exit else .ok b

/-! ## String vectors -/

/-- string-cl.h `string_vector_t`: `number` rows of `length` bytes. -/
structure StrVec where
  number : Nat
  length : Nat
  rows : List (List Char)
deriving DecidableEq, Repr

/-- The empty vector (zeroed structure). -/
def StrVec.empty : StrVec := ⟨0, 0, []⟩

/-- The text of element `i`. -/
def StrVec.text (v : StrVec) (i : Nat) : Option (List Char) := v.rows[i]?.map cstr

/-- string-cl.c:386-408 `alloc_string_vector`. -/
def allocVec (number length : Nat) : Out StrVec :=
  if number = 0 then .exit
  else if length = 0 then .exit
  else .ok ⟨number, length + 1, List.replicate number (List.replicate (length + 1) nul)⟩

/-- string-cl.c:419-441 `re_alloc_string_vector`. -/
def reAllocVec (v : StrVec) (newNumber newLength : Nat) : Out StrVec :=
  if newNumber = 0 then .exit
  else if newLength = 0 then .exit
  else (reAlloc2D nul v.length v.rows newNumber (newLength + 1)).bind fun rows =>
    .ok ⟨newNumber, newLength + 1, rows⟩

/-- string-cl.c:486-507 `fill_string_vector`. -/
def fillVec (v : StrVec) (pos : Nat) (new : List Char) : Out StrVec :=
  (if pos ≥ v.number ∨ new.length ≥ v.length then
    let newNumber := if pos ≥ v.number then pos + 1 else v.number
    let newLength := if new.length ≥ v.length then new.length else v.length
    reAllocVec v newNumber newLength
  else .ok v).bind fun v =>
  match v.rows[pos]? with
  | none => .ub
  | some row => (copyString row v.length new).bind fun row' =>
    .ok { v with rows := v.rows.set pos row' }

/-- A sequence of calls. -/
def fillAll (v : StrVec) : List (Nat × List Char) → Out StrVec
  | [] => .ok v
  | f :: fs => (fillVec v f.1 f.2).bind fun v => fillAll v fs

/-- string-cl.c:362-375 `fill_string` with `alloc_string` (313-331); the buffer. -/
def fillString (src : List Char) : Out (List Char) :=
  if src.length = 0 then .exit
  else copyString (List.replicate (src.length + 1) nul) (src.length + 1) src

/-! ## dir-cl.c -/

/-- dir-cl.c:280-284: strips trailing slashes; a path that is empty or consists of slashes only
is read before its start. The path is modified in place. -/
def stripSlashes (path : List Char) : Out (List Char) :=
  if path.all (· = '/') then .ub
  else .ok (path.reverse.dropWhile (· = '/')).reverse

/-- The part of a text after its last slash (libc `strrchr`), the whole text if there is none. -/
def afterSlash (s : List Char) : List Char := (s.reverse.takeWhile (· ≠ '/')).reverse

/-- A buffer of `size` bytes filled by `copy_string`; its text. -/
def copyText (size : Nat) (src : List Char) : Out (List Char) :=
  (copyString (List.replicate size nul) size src).bind fun b => .ok (cstr b)

/-- dir-cl.c:268-297 `basename_with_ext`: the base name and the path afterwards. -/
def basenameWithExt (path : List Char) (size : Nat) : Out (List Char × List Char) :=
  (stripSlashes path).bind fun path =>
  (copyText size (afterSlash path)).bind fun b => .ok (b, path)

/-- dir-cl.c:248-258 `basename_without_ext`. -/
def basenameWithoutExt (path : List Char) (size : Nat) : Out (List Char × List Char) :=
  (basenameWithExt path size).bind fun r => .ok (r.1.takeWhile (· ≠ '.'), r.2)

/-- dir-cl.c:198-213 `extension`: from the first dot of the base name on. -/
def extension (path : List Char) (size : Nat) : Out (List Char × List Char) :=
  (basenameWithExt path 1024).bind fun r =>
    match r.1.dropWhile (· ≠ '.') with
    | [] => .ok ([], r.2)
    | dot => (copyText size dot).bind fun e => .ok (e, r.2)

/-- dir-cl.c:223-238 `extension2`: from the last dot of the base name on. -/
def extension2 (path : List Char) (size : Nat) : Out (List Char × List Char) :=
  (basenameWithExt path 1024).bind fun r =>
    if r.1.all (· ≠ '.') then .ok ([], r.2)
    else (copyText size ('.' :: (r.1.reverse.takeWhile (· ≠ '.')).reverse)).bind fun e => .ok (e, r.2)

/-- dir-cl.c:306-331 `directoryname`; `cwd` is the result of `getcwd` (`none`: failure). -/
def directoryname (cwd : Option (List Char)) (path : List Char) (size : Nat) : Out (List Char) :=
  (copyText size path).bind fun dirname =>
    if dirname.all (· ≠ '/') then
      match cwd with
      | none => .exit
      | some c => if c.length < size then .ok c else .exit
    else .ok ((dirname.reverse.dropWhile (· ≠ '/')).drop 1).reverse

end Verif.Str

import Verif.Libc.Model
import Verif.Str.Model

/-!
# Model of parameter parsing and checking

`src/modules/cross-level/param-cl.c`.

Texts are lists of characters other than NUL. Parameter names are shorter than 1024 characters.
The parameters' variables (`int_`, `int_vec_`, ...) are not shared between parameters. Decimal
exponents and hexadecimal numbers in `atof` are not modelled.
-/

namespace Verif.Param

open Verif.Str (Out)

/-! ## Values -/

/-- A floating point number. -/
inductive FVal where
  | num (q : ℚ)
  | posInf
  | negInf
  | nan
deriving DecidableEq, Repr

/-- C comparison `a < b`. -/
def FVal.lt : FVal → FVal → Bool
  | .num a, .num b => decide (a < b)
  | .negInf, .num _ => true
  | .negInf, .posInf => true
  | .num _, .posInf => true
  | _, _ => false

/-- A value of a parameter. -/
inductive Val where
  | int (v : ℤ)
  | float (v : FVal)
  | date (v : Date.DateT)
  | text (s : List Char)
deriving DecidableEq, Repr

/-- enum-cl.h:83-84 `_CHAR_TEST_*_`. -/
inductive CharTest where
  | nullOrExist
  | exist
  | notExist
  | nullOrBase
  | base
  | none
deriving DecidableEq, Repr

/-- Type and admissible values of a parameter, param-cl.h:48-66 (`type`, `enums`, `*_range`,
`char_test`). `float` and `double` have the same handling; they differ in the rounding `rd`. A
`_PAR_BOOL_` is an enumeration with the tags FALSE and TRUE (param-cl.c:701-704). -/
inductive Kind where
  | int (lo hi : ℤ)
  | enum (tags : List (List Char × ℤ))
  | float (rd : ℚ → ℚ) (lo hi : FVal)
  | date (lo hi : Date.DateT)
  | char (test : CharTest)

/-- A registered parameter, param-cl.h:48-66. `vector`: `length` is not NULL. `values` are the
elements of the variable(s) after parsing. -/
structure Par where
  name : List Char
  kind : Kind
  vector : Bool
  expected : ℤ
  set : Bool
  values : List Val

/-! ## Parsing -/

/-- The separator " =". -/
def isSep (c : Char) : Bool := c == ' ' || c == '='

/-- The characters of `strcspn(buffer, "\r\n#")`. -/
def isEnd (c : Char) : Bool := c == '\r' || c == '\n' || c == '#'

theorem strtok_length {sep : Char → Bool} {s t r : List Char} (h : Libc.strtok sep s = some (t, r)) :
    r.length < s.length := by
  unfold Libc.strtok at h
  have hs := (List.dropWhile_suffix (l := s) sep).length_le
  split at h
  · simp at h
  · rename_i c cs e
    have h2 := (Prod.mk.inj (Option.some.inj h)).2
    rw [← h2, List.length_drop]
    have h3 := (List.dropWhile_suffix (l := c :: cs) (fun c => !sep c)).length_le
    rw [e] at hs
    simp only [List.length_cons] at hs h3
    omega

/-- All results of repeated `strtok_r(.., sep, &saveptr)`. -/
def tokens (sep : Char → Bool) (s : List Char) : List (List Char) :=
  match h : Libc.strtok sep s with
  | none => []
  | some (t, r) => t :: tokens sep r
termination_by s.length
decreasing_by exact strtok_length h

/-- param-cl.c:121-130 `parse_enum`. -/
def parseEnum (str : List Char) : List (List Char × ℤ) → ℤ
  | [] => 2147483647
  | e :: enums => if str = e.1 then e.2 else parseEnum str enums

/-- param-cl.c:96-110 `parse_date`. Characters 4 and 7 are not looked at. A text shorter than
eight characters makes `str+5` or `str+8` point behind its end; the bytes there are unrelated. -/
def parseDate (str : List Char) : Out Date.DateT :=
  if str.length < 8 then .ub
  else .ok (Date.setDate Date.initDate (Libc.atoi (str.take 4)) (Libc.atoi ((str.drop 5).take 2))
    (Libc.atoi ((str.drop 8).take 2)))

/-- libc `atof` including infinity and NaN; any letter case, anything may follow. -/
def atofX (rd : ℚ → ℚ) (s : List Char) : FVal :=
  let s := s.dropWhile Date.isSpace
  let (neg, t) := match s with
    | '-' :: cs => (true, cs)
    | '+' :: cs => (false, cs)
    | cs => (false, cs)
  let word := (t.take 3).map Char.toLower
  if word = ['n', 'a', 'n'] then .nan
  else if word = ['i', 'n', 'f'] then (if neg then .negInf else .posInf)
  else .num (Libc.atof rd s)

/-- param-cl.c:840-862 / 879-901, conversion of one text by type. `copy_string` ends the program if
the text has 1024 or more characters. -/
def parseVal (k : Kind) (str : List Char) : Out Val :=
  match k with
  | .int _ _ => .ok (.int (Libc.atoi str))
  | .enum tags => .ok (.int (parseEnum str tags))
  | .float rd _ _ => .ok (.float (atofX rd str))
  | .date _ _ => (parseDate str).bind fun d => .ok (.date d)
  | .char _ => if str.length < 1024 then .ok (.text str) else .exit

/-- The `while` loop over the texts of a vector, param-cl.c:877-906. -/
def parseAll (k : Kind) : List (List Char) → Out (List Val)
  | [] => .ok []
  | t :: ts => (parseVal k t).bind fun v => (parseAll k ts).bind fun vs => .ok (v :: vs)

/-- param-cl.c:36-61 `length_par`. -/
def lengthPar (buf : List Char) : ℤ :=
  -1 + ((tokens isSep (Libc.cutAt isEnd buf)).length : ℤ)

/-- param-cl.c:823-914, the loop over the registered parameters. `rest` are the tokens that
`strtok_r(NULL, ...)` will deliver. -/
def parseLoop (buf tag : List Char) : List Par → List (List Char) → Out (List Par)
  | [], _ => .ok []
  | p :: ps, rest =>
    if p.set then (parseLoop buf tag ps rest).bind fun ps' => .ok (p :: ps')
    else if p.name = tag then
      match rest with
      | [] => .ok (p :: ps)
      | t :: rest' =>
        if p.vector = false then
          (parseVal p.kind t).bind fun v =>
            (parseLoop buf tag ps rest').bind fun ps' => .ok ({ p with set := true, values := [v] } :: ps')
        else if lengthPar buf < 1 then .ok ({ p with set := true, values := [] } :: ps)
        else
          (parseAll p.kind (tokens isSep (Libc.cutAt isEnd buf)).tail).bind fun vs =>
            (parseLoop buf tag ps []).bind fun ps' => .ok ({ p with set := true, values := vs } :: ps')
    else (parseLoop buf tag ps rest).bind fun ps' => .ok (p :: ps')

/-- param-cl.c:804-919 `parse_parameter`. -/
def parseParameter (params : List Par) (buf : List Char) : Out (List Par) :=
  if buf.length < 65536 then
    match tokens isSep (Libc.cutAt isEnd buf) with
    | [] => .ok params
    | tag :: rest => parseLoop buf tag params rest
  else .exit

/-- All lines, one after the other. -/
def parseLines (params : List Par) : List (List Char) → Out (List Par)
  | [] => .ok params
  | l :: ls => (parseParameter params l).bind fun ps => parseLines ps ls

/-- param-hl.c:973, param-ll.c:212: all lines of a file. -/
def parseFile (params : List Par) (text : List Char) : Out (List Par) :=
  parseLines params (Libc.fgetsAll 65536 text)

/-- param-cl.c:284-306 `prescreen_par`: number of lines with a tag; `none` is FAILURE. The buffer has
1024 bytes here. -/
def prescreenCount (tag : List Char) : List (List Char) → Nat
  | [] => 0
  | b :: bs =>
    match Libc.strtok isSep (Libc.cutAt isEnd b) with
    | none => prescreenCount tag bs
    | some (t, _) => if t = tag then prescreenCount tag bs + 1 else prescreenCount tag bs

def prescreen (text tag : List Char) : Option Nat :=
  let n := prescreenCount tag (Libc.fgetsAll 1024 text)
  if n = 0 then none else some n

/-! ## Checking -/

/-- param-cl.c:1150-1171 `check_int_par` (one value): is it out of bounds? -/
def intError (lo hi v : ℤ) : Bool := v < lo || v > hi

/-- param-cl.c:1189-1193, 1195-1200 `check_enum_par` (one value): the loop over the enums. -/
def enumOk (v : ℤ) : List (List Char × ℤ) → Bool → Bool
  | [], ok => ok
  | e :: es, ok => enumOk v es (if v = e.2 then true else ok)

/-- param-cl.c:1212-1233, 1240-1261 `check_float_par`, `check_double_par` (one value). -/
def floatError (lo hi v : FVal) : Bool := v.lt lo || hi.lt v

/-- param-cl.c:1268-1291 `check_date_par` (one value). -/
def dateError (lo hi v : Date.DateT) : Bool := v.ce < lo.ce || v.ce > hi.ce

/-- param-cl.c:1298-1382 `check_char_par` (one value). `fileexist` is the state of the file system;
`strstr` with a text of one character looks for this character. -/
def charError (fileexist : List Char → Bool) (test : CharTest) (s : List Char) : Bool :=
  match test with
  | .nullOrExist => s ≠ "NULL".toList && !fileexist s
  | .exist => !fileexist s
  | .notExist => fileexist s
  | .nullOrBase =>
    if s ≠ "NULL".toList then (if s.contains '/' then true else !s.contains '.') else false
  | .base => if s.contains '/' then true else !s.contains '.'
  | .none => false

/-- One value of a parameter. Values of another type do not occur. -/
def valError (fileexist : List Char → Bool) (k : Kind) (v : Val) : Bool :=
  match k, v with
  | .int lo hi, .int v => intError lo hi v
  | .enum tags, .int v => !enumOk v tags false
  | .float _ lo hi, .float v => floatError lo hi v
  | .date lo hi, .date v => dateError lo hi v
  | .char test, .text s => charError fileexist test s
  | _, _ => true

/-- The number of wrong values (`error`), loops in param-cl.c:1158, 1195, 1223, 1251, 1280. -/
def countErrors (fileexist : List Char → Bool) (k : Kind) : List Val → Nat
  | [] => 0
  | v :: vs => (if valError fileexist k v then 1 else 0) + countErrors fileexist k vs

/-- param-cl.c:1389-1446 `check_parameter`, the error count of one parameter. -/
def parError (fileexist : List Char → Bool) (p : Par) : Nat :=
  if p.set = false then 1
  else if p.vector && p.values.length == 0 then 1
  else if p.vector && decide (p.expected > 0) && decide ((p.values.length : ℤ) ≠ p.expected) then 1
  else if countErrors fileexist p.kind p.values > 0 then 1 else 0

def totalErrors (fileexist : List Char → Bool) : List Par → Nat
  | [] => 0
  | p :: ps => parError fileexist p + totalErrors fileexist ps

/-- param-cl.c:1389-1446 `check_parameter`: SUCCESS? -/
def checkParameter (fileexist : List Char → Bool) (params : List Par) : Bool :=
  !decide (totalErrors fileexist params > 0)

end Verif.Param

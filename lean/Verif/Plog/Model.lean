import Verif.Libc.Model
import Verif.Str.Model

/-!
# Model of the parameter log

`log_parameter` of `src/modules/cross-level/param-cl.c`: the text about all parameters that is written to the metadata of
the products.
-/

namespace Verif.Plog

open Verif.Str (Out)

/-- param-cl.h:48-66: a value of a parameter. Integers, enumerations and switches are printed in the same way, float and
double also. -/
inductive Val where
  | int (v : Int)
  | flt (v : ℚ)
  | date (y m d : Int)
  | str (s : List Char)
deriving DecidableEq

/-- param-cl.h:48-66: a registered parameter; `length` is NULL for scalars. -/
inductive Par where
  | scalar (name : List Char) (v : Val)
  | vector (name : List Char) (vs : List Val)
deriving DecidableEq

/-- The name. -/
def Par.name : Par → List Char
  | .scalar n _ => n
  | .vector n _ => n

/-- param-cl.c:1042-1077: the formats `%d`, `%f`, `%04d-%02d-%02d` and `%s`. -/
def text : Val → List Char
  | .int v => Libc.fmtInt0 1 v
  | .flt v => Libc.fmtF v
  | .date y m d => Libc.fmtInt0 4 y ++ '-' :: (Libc.fmtInt0 2 m ++ '-' :: Libc.fmtInt0 2 d)
  | .str s => s

/-- The buffer of 16384 characters (param-cl.c:145) and `cur` as an offset. -/
structure Log where
  text : List Char
  cur : Nat
deriving DecidableEq, Repr

/-- param-cl.c:1028-1030, as everywhere in `log_parameter`: `snprintf` stores what fits, with the final NUL, and returns
the full length. The difference `end-cur` is positive. -/
def put (s : List Char) (l : Log) : Out Log :=
  if l.cur < 16384 then .ok ⟨l.text ++ s.take (16384 - l.cur - 1), l.cur + s.length⟩ else .exit

/-- `%s` of an array: undefined if it has no NUL. -/
def readStr (buf : List Char) : Out (List Char) :=
  if Str.nul ∈ buf then .ok (Str.cstr buf) else .ub

/-- param-cl.c:1022 and 1090: `char eol[1]`, at an element that is the last one or not. -/
def eol (last : Bool) : List Char := [if last then Str.nul else ' ']

/-- param-cl.c:1088-1136: the elements of a vector, with `%s` of `eol` after each. -/
def elements : List Val → Log → Out Log
  | [], l => .ok l
  | v :: vs, l =>
    if l.cur < 16384 then
      (readStr (eol vs.isEmpty)).bind fun e => (put (text v ++ e) l).bind fun l => elements vs l
    else .exit

/-- param-cl.c:1038-1138: the value of a parameter. -/
def value : Par → Log → Out Log
  | .scalar _ v, l => put (text v) l
  | .vector _ vs, l => elements vs l

/-- param-cl.c:1025-1140: the parameters; `first`: `i` is 0. -/
def params : Bool → List Par → Log → Out Log
  | _, [], l => .ok l
  | first, p :: ps, l =>
    (if first then Out.ok l else put ", ".toList l).bind fun l =>
      (put (p.name ++ ": ".toList) l).bind fun l => (value p l).bind fun l => params false ps l

/-- param-cl.c:1018-1143 `log_parameter`: the text in the slot. -/
def logParameter (ps : List Par) : Out (List Char) :=
  (params true ps ⟨[], 0⟩).bind fun l => .ok l.text

end Verif.Plog

import Verif.Skel.Data
import Verif.Rules.Model

/-!
# Model of parameter file skeletons and of the programs that read them

`src/main/aux-level/force-parameter.c`, `src/modules/aux-level/param-aux.c` (writing),
`param-ll.c`, `param-hl.c`, `param-train-aux.c` (reading), `python/force-synthmix.py` (reading).
-/

namespace Verif.Skel

open Verif.Str (Out)

/-! ## Writing -/

/-- force-parameter.c:100-126: the modules of `force-parameter`, without SYNTHMIX. -/
inductive Mod where
  | level2 | level3 | tsa | cso | udf | cfimp | l2imp | ml | smp | txt | lsm | lib | train
deriving DecidableEq

/-- force-parameter.c:102-106 `module_tags`. -/
def Mod.tag : Mod → String
  | .level2 => "LEVEL2" | .level3 => "LEVEL3" | .tsa => "TSA" | .cso => "CSO" | .udf => "UDF" | .cfimp => "CFIMP"
  | .l2imp => "L2IMP" | .ml => "ML" | .smp => "SMP" | .txt => "TXT" | .lsm => "LSM" | .lib => "LIB" | .train => "TRAIN"

/-- force-parameter.c:217-223. -/
def hlCommon : List Entry := hlDirs ++ hlMask ++ hlOutput ++ hlThread ++ hlExtent

/-- force-parameter.c:225-232. -/
def hlArd : List Entry := hlPsf ++ hlImprophed ++ hlSensor ++ hlQai ++ hlNoise ++ hlTime

/-- force-parameter.c:234-238. -/
def hlQuality : List Entry := hlSensor ++ hlQai ++ hlTime

/-- force-parameter.c:217-324, `main`: the blocks of each module. -/
def entries : Mod → List Entry
  | .level2 => llDirs ++ llAoi ++ llDem ++ llCube ++ llAtcor ++ llWvp ++ llAod ++ llCloud ++ llResmerge ++ llCoreg ++
      llMisc ++ llTier ++ llThread ++ llOutput
  | .level3 => hlCommon ++ hlArd ++ hlBap ++ hlPac
  | .tsa => hlCommon ++ hlArd ++ hlIndex ++ hlSma ++ hlTsi ++ hlPyp ++ hlRsp ++ hlStm ++ hlFold ++ hlPol ++ hlTrend
  | .cso => hlCommon ++ hlQuality ++ hlCso
  | .udf => hlCommon ++ hlArd ++ hlPyp ++ hlRsp ++ hlUdf
  | .cfimp => hlCommon ++ hlArd ++ hlImp ++ hlCfi
  | .l2imp => hlCommon ++ hlArd ++ hlImp ++ hlL2i
  | .ml => hlCommon ++ hlFeature ++ hlMl
  | .smp => hlCommon ++ hlFeature ++ hlSmp
  | .txt => hlCommon ++ hlFeature ++ hlTxt
  | .lsm => hlCommon ++ hlFeature ++ hlLsm
  | .lib => hlCommon ++ hlFeature ++ hlLib
  | .train => auxTrain

/-- The line of an entry with the text of a value. -/
def line (e : Entry) (v : List Char) : List Char := e.key.toList ++ (e.sep.toList ++ v)

/-- The lines between start and end tag: before each entry and after the last one there are lines without
values (headings, descriptions and empty lines; `note`). `val`: the texts of the values. `i`: number of the first
entry. -/
def body (note : Nat → List (List Char)) (val : Nat → List Char) : Nat → List Entry → List (List Char)
  | i, [] => note i
  | i, e :: es => note i ++ line e (val i) :: body note val (i + 1) es

/-- force-parameter.c:215. -/
def startTag (tag : String) : List Char := "++PARAM_".toList ++ (tag.toList ++ "_START++".toList)

/-- force-parameter.c:326. -/
def endTag (tag : String) : List Char := "++PARAM_".toList ++ (tag.toList ++ "_END++".toList)

/-- force-parameter.c:215-328: the file, with the values `val`. The written texts of the comments are not modelled:
`note` is any choice of lines. -/
def fileLines (tag : String) (es : List Entry) (note : Nat → List (List Char)) (val : Nat → List Char) :
    List (List Char) :=
  startTag tag :: body note val 0 es ++ [[], endTag tag]

/-- The characters of the file. -/
def skeleton (tag : String) (es : List Entry) (note : Nat → List (List Char)) (val : Nat → List Char) : List Char :=
  (fileLines tag es note val).flatMap fun l => l ++ ['\n']

/-! ## Reading -/

/-- param-cl.c:477-502, 732-760 `register_date_par`, `register_datevec_par`: limits are dates in the form of parameters. -/
def dateOf (s : String) : Date.DateT := match Param.parseDate s.toList with
  | .ok d => d
  | _ => Date.initDate

/-- `f`, `d`: rounding to `float` and `double`. -/
def RKind.kind (f d : ℚ → ℚ) : RKind → Param.Kind
  | .int lo hi => .int lo hi
  | .enum tags => .enum (tags.map fun e => (e.1.toList, e.2))
  | .float lo hi => .float f (.num (f lo)) (.num (f hi))
  | .double lo hi => .float d (.num (d lo)) (.num (d hi))
  | .date lo hi => .date (dateOf lo) (dateOf hi)
  | .char t => .char t

/-- A freshly registered parameter, param-cl.c:317-795. -/
def Reg.par (f d : ℚ → ℚ) (r : Reg) : Param.Par := ⟨r.name.toList, r.kind.kind f d, r.vec, r.expected, false, []⟩

/-- param-hl.c:911-968: the registered parameters of a submodule. `n`, `k`: number of lines with features and models. -/
def registry (m : Rules.Module) (input : Rules.Input) (n k : Nat) : List Reg :=
  regHigher ++ (match input with
    | .qai => regArd1
    | .ard => regArd1 ++ regArd2
    | .ftr => regFtr n
    | _ => []) ++
  match m with
    | .bap => regBap
    | .tsa => regTsa
    | .cso => regCso
    | .cfi => regImp ++ regCfi
    | .l2i => regImp ++ regL2i
    | .ml => regMcl k
    | .smp => regSmp
    | .txt => regTxt
    | .lsm => regLsm
    | .lib => regLib
    | .udf => regUdf

/-- What comes after the word that `fscanf(fpar, "%s", buffer)` has read. -/
def behind (text : List Char) : List Char := (text.dropWhile Rules.isSpace).dropWhile fun c => !Rules.isSpace c

/-- `prescreen_par` (param-cl.c:284-306); `exit`: FAILURE. -/
def count (text : List Char) (tag : String) : Out Nat := match Param.prescreen text tag.toList with
  | some n => .ok n
  | none => .exit

/-- param-hl.c:849-974 `parse_param_higher`, up to the check of the parameters. `prescreen_par` goes back to the
beginning of the file. `exit`: FAILURE. -/
def readHigher (f d : ℚ → ℚ) (text : List Char) : Out (List Param.Par) :=
  (Rules.submodule text).bind fun x =>
    if x.2.1 = .ftr then
      (count (behind text) "INPUT_FEATURE").bind fun n =>
        (if x.1 = .ml then count text "FILE_MODEL" else .ok 0).bind fun k =>
          Param.parseFile ((registry x.1 x.2.1 n k).map (Reg.par f d)) text
    else Param.parseFile ((registry x.1 x.2.1 0 0).map (Reg.par f d)) (behind text)

/-- param-ll.c:196-215, param-train-aux.c:120-137: programs with one kind of parameter file. The first word may have
65535 characters. `exit`: FAILURE. -/
def readOne (tag : String) (regs : List Reg) (f d : ℚ → ℚ) (text : List Char) : Out (List Param.Par) :=
  if Rules.word text = [] then .exit
  else if (Rules.word text).length + 1 > 65536 then .ub
  else if Rules.word text = tag.toList then Param.parseFile (regs.map (Reg.par f d)) (behind text)
  else .exit

/-- param-ll.c:165-215 `parse_param_lower`, up to the check of the parameters. -/
def readLower := readOne "++PARAM_LEVEL2_START++" regLower

/-- param-train-aux.c:110-137 `parse_param_train`, up to the check of the parameters. -/
def readTrain := readOne "++PARAM_TRAIN_START++" regTrain

/-- force-parameter.c:331-348: the program for a module's parameter file. -/
def Mod.read : Mod → (ℚ → ℚ) → (ℚ → ℚ) → List Char → Out (List Param.Par)
  | .level2 => readLower
  | .train => readTrain
  | _ => readHigher

/-- Registered names and types of a module's program, if there are `n` lines with features and `k` with models. -/
def Mod.regs (n k : Nat) : Mod → List Reg
  | .level2 => regLower
  | .train => regTrain
  | .level3 => registry .bap .ard n k
  | .tsa => registry .tsa .ard n k
  | .cso => registry .cso .qai n k
  | .udf => registry .udf .ard n k
  | .cfimp => registry .cfi .ard n k
  | .l2imp => registry .l2i .ard n k
  | .ml => registry .ml .ftr n k
  | .smp => registry .smp .ftr n k
  | .txt => registry .txt .ftr n k
  | .lsm => registry .lsm .ftr n k
  | .lib => registry .lib .ftr n k

end Verif.Skel

import Verif.Halo.Model
import Verif.Qai.Model

/-!
# What a chunk is computed from: processing mask, features, continuous fields

Models `list_mask`, `read_mask`, `read_features` and `read_confield` in
`src/modules/higher-level/read-ard-hl.c`, and the decisions of `read_higher_level` and `compute_higher_level` in
`src/modules/higher-level/tasks-hl.c` on what is computed.

Simplifications: the pixels that `read_chunk` gives for a chunk (C25) and the halo that `add_chunks` adds (C83) are the
content of the file; memory does not run out, so that bricks can always be copied; the list of ARD datasets that `read_ard`
gives is a parameter; the noise filter (C10) and the spectral adjustment are left out. -/

namespace Verif.Input

/-- The bands of an image file as 16 bit numbers (read-ard-hl.c:1180-1183); a band is `none` if it cannot be read. -/
abbrev Image := List (Option (List Int))

/-- The files: `none` if there is no such file. -/
abbrev Disk := List Char → Option Image

/-- read-ard-hl.h:48-59 `ard_t`: the bands and the QAI band of a dataset. -/
structure Obs where
  bands : List (List Int)
  qai : List (BitVec 16)

/-- The parameters: DIR_MASK, BASE_MASK, DIR_LOWER, INPUT_FEATURE (file and band), FEATURE_NODATA, and the continuous fields. -/
structure Par where
  dMask : List Char
  bMask : List Char
  dLower : List Char
  ftr : List (List Char × Nat)
  ftrNodata : Int
  dCon : List Char
  con : List (List Char)

/-- read-ard-hl.c:589, 611, 692, 714: `"%s/X%04d_Y%04d/%s"`; 279 and 513 for the mask. -/
def path (d : List Char) (t : Int × Int) (b : List Char) : List Char :=
  d ++ '/' :: Halo.name t ++ '/' :: b

inductive Status where
  | success | failure | cancel
deriving DecidableEq

/-- read-ard-hl.c:1196-1197: the value is converted to `small`, an `unsigned char` (const-cl.h:39). -/
def small (x : Int) : Int := x % 256

/-- read-ard-hl.c:535-541: make binary. -/
def binary (v : List Int) : List Int := v.map fun x => if x = 1 then x else 0

/-- read-ard-hl.c:480-556 `read_mask` with 272-309 `list_mask`. `none`: the program ends, because the path is too long for
`concat_string_2` (513, string-cl.c:64-74). -/
def readMask (par : Par) (disk : Disk) (t : Int × Int) : Option (Status × Option (List Int)) :=
  if par.dMask = "NULL".toList then some (.success, none)
  else if (par.dMask ++ '/' :: Halo.name t).length ≥ 1024 then some (.cancel, none)
  else match disk (path par.dMask t par.bMask) with
    | none => some (.cancel, none)
    | some f =>
      if (path par.dMask t par.bMask).length ≥ 1024 then none
      else match f[0]?.join with
        | none => some (.failure, none)
        | some v =>
          if ((v.map small).filter fun x => x = 1).length = 0 then some (.cancel, none)
          else some (.success, some (binary (v.map small)))

/-- read-ard-hl.c:588-599, 691-702: the path does not fit, or the file does not exist. -/
def lacking (disk : Disk) (d : List Char) (t : Int × Int) (b : List Char) : Bool :=
  (path d t b).length ≥ 1024 || (disk (path d t b)).isNone

/-- read-ard-hl.c:609-640: one feature; the QAI is 0-filled (`copy_brick`), and off where there is no data. -/
def feature (disk : Disk) (d : List Char) (nodata : Int) (t : Int × Int) (f : List Char × Nat) : Option Obs := do
  let file ← disk (path d t f.1)
  let v ← if f.2 = 0 then none else file[f.2 - 1]?.join
  return ⟨[v], v.map fun x => if x = nodata then Qai.set .off 0#16 1 else 0#16⟩

/-- read-ard-hl.c:569-659 `read_features`: the number of features (-1: error), and the features. -/
def readFeatures (par : Par) (disk : Disk) (t : Int × Int) : Int × List Obs :=
  if par.ftr.any fun f => lacking disk par.dLower t f.1 then (0, [])
  else match par.ftr.mapM (feature disk par.dLower par.ftrNodata t) with
    | none => (-1, [])
    | some l => (par.ftr.length, l)

/-- read-ard-hl.c:712-737: all bands of one continuous field; the QAI is 0-filled. -/
def field (disk : Disk) (d : List Char) (t : Int × Int) (b : List Char) : Option Obs := do
  let file ← disk (path d t b)
  let v ← file.mapM id
  return ⟨v, (v.headD []).map fun _ => 0#16⟩

/-- read-ard-hl.c:672-756 `read_confield`. -/
def readConfield (par : Par) (disk : Disk) (t : Int × Int) : Int × List Obs :=
  if par.con.any fun f => lacking disk par.dCon t f then (0, [])
  else match par.con.mapM (field disk par.dCon t) with
    | none => (-1, [])
    | some l => (par.con.length, l)

/-- The modules of force-higher-level; `bap` with LSP_DO. -/
inductive Module where
  | bap (lsp : Bool) | tsa | cso | cfi | l2i | ml | smp | txt | lsm | lib | udf
deriving DecidableEq

inductive Level where
  | none | ftr | con | ard | qai
deriving DecidableEq

/-- param-hl.c:859-902: the primary input. -/
def level1 : Module → Level
  | .bap _ => .ard | .tsa => .ard | .cso => .qai | .cfi => .ard | .l2i => .ard | .ml => .ftr | .smp => .ftr
  | .txt => .ftr | .lsm => .ftr | .lib => .ftr | .udf => .ard

/-- param-hl.c:859-902 and 1191: the secondary input. -/
def level2 : Module → Level
  | .bap lsp => if lsp then .con else .none
  | .cfi => .con
  | .l2i => .ard
  | _ => .none

/-- tasks-hl.c:83-91, 101-109: `ard` is what `read_ard` gives. -/
def readLevel (l : Level) (par : Par) (disk : Disk) (t : Int × Int) (ard : Int × List Obs) : Int × List Obs :=
  match l with
  | .ftr => readFeatures par disk t
  | .con => readConfield par disk t
  | .ard => ard
  | .qai => ard
  | .none => (0, [])

/-- The slots of a processing unit (tasks-hl.c:59-63); an empty list is the NULL pointer. -/
structure Unit where
  mask : Option (List Int)
  nt1 : Int
  ard1 : List Obs
  nt2 : Int
  ard2 : List Obs

/-- tasks-hl.c:49-124 `read_higher_level`. `none`: the program ends. -/
def readUnit (m : Module) (par : Par) (disk : Disk) (t : Int × Int) (ard1 ard2 : Int × List Obs) : Option Unit := do
  let (status, mask) ← readMask par disk t
  if mask.isNone ∧ status ≠ .success then return ⟨none, 0, [], 0, []⟩
  let a := readLevel (level1 m) par disk t ard1
  if a.2.isEmpty ∧ a.1 < 0 then return ⟨mask, a.1, a.2, 0, []⟩
  let b := readLevel (level2 m) par disk t ard2
  return ⟨mask, a.1, a.2, b.1, b.2⟩

/-- tasks-hl.c:159-166: without primary data nothing is computed. level3-hl.c:244-248 and 274-279, cf-improphe-hl.c:201-204,
l2-improphe-hl.c:177-180: some modules need the secondary data. -/
def computes (m : Module) (u : Unit) : Bool :=
  u.nt1 > 0 &&
  match m with
  | .bap true => !u.ard2.isEmpty && u.nt2 ≥ 3
  | .cfi => !(u.nt1 < 1 || u.nt2 < 1)
  | .l2i => !(u.nt1 < 1 || u.nt2 < 1)
  | _ => true

/-- tasks-hl.c:160 with quality-hl.c:81-145 `screen_qai`: can pixel `p` of the `i`-th primary dataset be used? `rule`: the rules
of SCREEN_QAI, there are none for features (param-hl.c:1012-1013). -/
def usable (m : Module) (u : Unit) (rule : Qai.Rule) (init : Nat → Nat → Bool) (schedule : List Nat) (i p : Nat) : Bool :=
  Qai.screenQai (fun i p => (((u.ard1[i]?.map (·.qai)).getD [])[p]?).getD 0#16)
    (u.mask.map fun v p => decide (v.getD p 0 ≠ 0)) rule (level1 m = .ard || level1 m = .qai) init schedule i p

end Verif.Input

import Verif.Param.Model

/-!
# Products of texture and landscape metrics: model

`parse_txt` and `parse_lsm` of `src/modules/higher-level/param-hl.c`, the tables of `compile_txt` and `compile_lsm`, and which result is
stored in which product (`src/modules/higher-level/texture-hl.c`, `lsm-hl.c`). The images are values of any type: how they are
computed is the subject of Verif.Texture and Verif.Lsm.
-/

namespace Verif.Metric

abbrev Text := List Char

/-- texture-hl.c:73-98 and lsm-hl.c:74-99: a product that is enabled is compiled and written with its array; one that is not
enabled is NULL. -/
def select {α : Type} (l : List (Text × Bool × Option α)) : List (Text × α) :=
  l.filterMap (fun t => if t.2.1 then t.2.2.map (fun a => (t.1, a)) else none)

/-! ### Texture -/

/-- The operations (enum-cl.h:237-238). -/
inductive TxtOp where
  | ero
  | dil
  | opn
  | cls
  | grd
  | tht
  | bht
deriving DecidableEq, Repr

/-- enum-cl.c:152-154: the names in the parameter file, and their values. -/
def txtTags : List (Text × Int) :=
  [("ERO".toList, 0), ("DIL".toList, 1), ("OPN".toList, 2), ("CLS".toList, 3), ("GRD".toList, 4), ("THT".toList, 5), ("BHT".toList, 6)]

/-- param-hl.h:313-319: which products are asked for. -/
structure TxtFlags where
  oero : Bool
  odil : Bool
  oopn : Bool
  ocls : Bool
  ogrd : Bool
  otht : Bool
  obht : Bool
deriving DecidableEq, Repr

/-- param-hl.c:661-677: one entry of the list. An unknown value gives a warning only. -/
def setTxt (s : TxtFlags) (m : Int) : TxtFlags :=
  if m = 0 then { s with oero := true }
  else if m = 1 then { s with odil := true }
  else if m = 2 then { s with oopn := true }
  else if m = 3 then { s with ocls := true }
  else if m = 4 then { s with ogrd := true }
  else if m = 5 then { s with otht := true }
  else if m = 6 then { s with obht := true }
  else s

/-- param-hl.c:656-681 `parse_txt`; the parameters are allocated with zeros. -/
def parseTxt (metrics : List Int) : TxtFlags :=
  metrics.foldl setTxt ⟨false, false, false, false, false, false, false⟩

/-- The arrays of the products; none: not allocated. -/
structure TxtArrays (α : Type) where
  ero_ : Option α
  dil_ : Option α
  opn_ : Option α
  cls_ : Option α
  grd_ : Option α
  tht_ : Option α
  bht_ : Option α

/-- texture-hl.c:236-242 and 249-265: `f` computes the image of a product. -/
def computeTxt {α : Type} (f : TxtOp → α) (s : TxtFlags) : TxtArrays α :=
  { ero_ := if s.oero then some (f .ero) else none
    dil_ := if s.odil then some (f .dil) else none
    opn_ := if s.oopn then some (f .opn) else none
    cls_ := if s.ocls then some (f .cls) else none
    grd_ := if s.ogrd then some (f .grd) else none
    tht_ := if s.otht then some (f .tht) else none
    bht_ := if s.obht then some (f .bht) else none }

/-- texture-hl.c:58-68: names of the products, whether they are enabled, and their arrays; a product that is not enabled is not written. -/
def outputTxt {α : Type} (s : TxtFlags) (a : TxtArrays α) : List (Text × α) :=
  select [("ERO".toList, s.oero, a.ero_),
    ("DIL".toList, s.odil, a.dil_),
    ("OPN".toList, s.oopn, a.opn_),
    ("CLS".toList, s.ocls, a.cls_),
    ("GRD".toList, s.ogrd, a.grd_),
    ("THT".toList, s.otht, a.tht_),
    ("BHT".toList, s.obht, a.bht_)]

/-- The products of a run with this list in the parameter file. -/
def runTxt {α : Type} (f : TxtOp → α) (tags : List Text) : List (Text × α) :=
  let s := parseTxt (tags.map (fun t => Verif.Param.parseEnum t txtTags))
  outputTxt s (computeTxt f s)

/-! ### Landscape metrics -/

/-- The metrics (enum-cl.h:241-242). -/
inductive LsmOp where
  | mpa
  | uci
  | fdi
  | edd
  | nbr
  | ems
  | avg
  | std
  | geo
  | max
  | are
deriving DecidableEq, Repr

/-- enum-cl.c:160-164: the names in the parameter file, and their values. -/
def lsmTags : List (Text × Int) :=
  [("MPA".toList, 0), ("UCI".toList, 1), ("FDI".toList, 2), ("EDD".toList, 3), ("NBR".toList, 4), ("EMS".toList, 5), ("AVG".toList, 6), ("STD".toList, 7), ("GEO".toList, 8), ("MAX".toList, 9), ("ARE".toList, 10)]

/-- param-hl.h:333-343: which products are asked for. -/
structure LsmFlags where
  ompa : Bool
  ouci : Bool
  ofdi : Bool
  oedd : Bool
  onbr : Bool
  oems : Bool
  oavg : Bool
  ostd : Bool
  ogeo : Bool
  omax : Bool
  oare : Bool
deriving DecidableEq, Repr

/-- param-hl.c:694-718: one entry of the list. An unknown value gives a warning only. -/
def setLsm (s : LsmFlags) (m : Int) : LsmFlags :=
  if m = 0 then { s with ompa := true }
  else if m = 1 then { s with ouci := true }
  else if m = 2 then { s with ofdi := true }
  else if m = 3 then { s with oedd := true }
  else if m = 4 then { s with onbr := true }
  else if m = 5 then { s with oems := true }
  else if m = 6 then { s with oavg := true }
  else if m = 7 then { s with ostd := true }
  else if m = 8 then { s with ogeo := true }
  else if m = 9 then { s with omax := true }
  else if m = 10 then { s with oare := true }
  else s

/-- param-hl.c:689-722 `parse_lsm`; the parameters are allocated with zeros. -/
def parseLsm (metrics : List Int) : LsmFlags :=
  metrics.foldl setLsm ⟨false, false, false, false, false, false, false, false, false, false, false⟩

/-- The arrays of the products; none: not allocated. -/
structure LsmArrays (α : Type) where
  mpa_ : Option α
  uci_ : Option α
  fdi_ : Option α
  edd_ : Option α
  nbr_ : Option α
  ems_ : Option α
  avg_ : Option α
  std_ : Option α
  geo_ : Option α
  max_ : Option α
  are_ : Option α

/-- lsm-hl.c:269-279, 437-449, 463-472 and 490-494: `f` computes the image of a product. -/
def computeLsm {α : Type} (f : LsmOp → α) (s : LsmFlags) : LsmArrays α :=
  { mpa_ := if s.ompa then some (f .mpa) else none
    uci_ := if s.ouci then some (f .uci) else none
    fdi_ := if s.ofdi then some (f .fdi) else none
    edd_ := if s.oedd then some (f .edd) else none
    nbr_ := if s.onbr then some (f .nbr) else none
    ems_ := if s.oems then some (f .ems) else none
    avg_ := if s.oavg then some (f .avg) else none
    std_ := if s.ostd then some (f .std) else none
    geo_ := if s.ogeo then some (f .geo) else none
    max_ := if s.omax then some (f .max) else none
    are_ := if s.oare then some (f .are) else none }

/-- lsm-hl.c:59-69: names of the products, whether they are enabled, and their arrays; a product that is not enabled is not written. -/
def outputLsm {α : Type} (s : LsmFlags) (a : LsmArrays α) : List (Text × α) :=
  select [("MPA".toList, s.ompa, a.mpa_),
    ("UCI".toList, s.ouci, a.uci_),
    ("FDI".toList, s.ofdi, a.fdi_),
    ("EDD".toList, s.oedd, a.edd_),
    ("NBR".toList, s.onbr, a.nbr_),
    ("EMS".toList, s.oems, a.ems_),
    ("AVG".toList, s.oavg, a.avg_),
    ("STD".toList, s.ostd, a.std_),
    ("GEO".toList, s.ogeo, a.geo_),
    ("MAX".toList, s.omax, a.max_),
    ("ARE".toList, s.oare, a.are_)]

/-- The products of a run with this list in the parameter file. -/
def runLsm {α : Type} (f : LsmOp → α) (tags : List Text) : List (Text × α) :=
  let s := parseLsm (tags.map (fun t => Verif.Param.parseEnum t lsmTags))
  outputLsm s (computeLsm f s)

end Verif.Metric

import Verif.Rules.Model

/-!
# Specification of the rules for parameters
-/

namespace Verif.Rules.Spec

/-- A length is a multiple of the resolution. -/
def Multiple (x res : ℚ) : Prop := ∃ k : ℤ, x = k * res

/-- White space: blank, tabulator, line feed, carriage return, vertical tabulator, form feed. -/
def White (c : Char) : Prop := c = ' ' ∨ c = '\t' ∨ c = '\n' ∨ c = '\r' ∨ c.toNat = 11 ∨ c.toNat = 12

/-- The first words of the parameter files, and what is processed by the submodule. -/
def starts : List (String × Module × Input × Input) :=
  [("++PARAM_LEVEL3_START++", .bap, .ard, .none), ("++PARAM_TSA_START++", .tsa, .ard, .none),
   ("++PARAM_CSO_START++", .cso, .qai, .none), ("++PARAM_CFIMP_START++", .cfi, .ard, .con),
   ("++PARAM_L2IMP_START++", .l2i, .ard, .ard), ("++PARAM_ML_START++", .ml, .ftr, .none),
   ("++PARAM_SMP_START++", .smp, .ftr, .none), ("++PARAM_TXT_START++", .txt, .ftr, .none),
   ("++PARAM_LSM_START++", .lsm, .ftr, .none), ("++PARAM_LIB_START++", .lib, .ftr, .none),
   ("++PARAM_UDF_START++", .udf, .ard, .none)]

/-- The parameters of a submodule agree with each other. -/
def Consistent (m : Module) (p : Par) : Prop :=
  (p.dirMask = true → p.baseMask = true) ∧ (p.custom = true → p.optFile = true) ∧
  (m = .l2i ∨ m = .cfi → 2 ≤ p.windows) ∧
  (m = .cfi → ∀ y ∈ p.cfiYears, p.ymin ≤ y ∧ y ≤ p.ymax) ∧
  (m = .bap → (0 < p.wc ↔ "DST" ∈ p.aux) ∧ (0 < p.wh ↔ "HOT" ∈ p.aux) ∧ (0 < p.wv ↔ "VZN" ∈ p.aux)) ∧
  (m = .lsm → p.nthreshold = p.nfeature ∧ p.nquery = p.nfeature)

end Verif.Rules.Spec

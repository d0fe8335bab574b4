import Verif.Tsa.Model

/-!
# Specification of the time series products
-/

namespace Verif.Tsa.Spec

/-- The days for which interpolated values are requested: from the first day of the period, every
`step` days, up to its last day. -/
def Day (first last step d : Int) : Prop := first ≤ d ∧ d ≤ last ∧ step ∣ d - first

/-- Aggregation periods. -/
inductive Per where
  | year | quarter | month | week | day

/-- Their letter in product names. -/
def Per.letter : Per → String
  | .year => "Y" | .quarter => "Q" | .month => "M" | .week => "W" | .day => "D"

/-- The output requested for a period. -/
def Per.out (p : Par) : Per → Fold3
  | .year => p.fby | .quarter => p.fbq | .month => p.fbm | .week => p.fbw | .day => p.fbd

/-- The products of the user guide. -/
inductive Product where
  | tss | nrt | rms | tsi | stm | pcx | pcy | pyp | rsp
  | fold (a : Per) | trend (a : Per) | change (a : Per)
  | polar (tag : String) | polarTrend (tag : String) | polarChange (tag : String)

/-- Their names. -/
def Product.name : Product → String
  | .tss => "TSS" | .nrt => "NRT" | .rms => "RMS" | .tsi => "TSI" | .stm => "STM"
  | .pcx => "PCX" | .pcy => "PCY" | .pyp => "PYP" | .rsp => "RSP"
  | .fold a => "FB" ++ a.letter | .trend a => "TR" ++ a.letter | .change a => "CA" ++ a.letter
  | .polar t => t ++ "-POL" | .polarTrend t => t ++ "-TRO" | .polarChange t => t ++ "-CAO"

/-- Does the parameter file ask for the product of an index? Polarmetrics have to be in the list POL;
the near-real-time product needs harmonic interpolation with a fitting period; user code needs a file;
the error of the unmixing is a product of the index SMA. -/
def Requested (p : Par) (index : String) : Product → Prop
  | .tss => p.otss = true
  | .nrt => p.onrt = true ∧ p.method = .harmonic ∧ p.fitMin ≠ p.fitMax
  | .rms => p.orms = true ∧ index = "SMA"
  | .tsi => p.otsi = true
  | .stm => p.ostm = true
  | .pcx => p.opct = true
  | .pcy => p.opct = true
  | .pyp => p.pypOut = true ∧ p.pypCode = true
  | .rsp => p.rspOut = true ∧ p.rspCode = true
  | .fold a => (a.out p).fb = true
  | .trend a => (a.out p).tr = true
  | .change a => (a.out p).ca = true
  | .polar t => t ∈ polTags ∧ t ∈ p.pol ∧ p.opol = true
  | .polarTrend t => t ∈ polTags ∧ t ∈ p.pol ∧ p.otro = true
  | .polarChange t => t ∈ polTags ∧ t ∈ p.pol ∧ p.ocao = true

/-- What the bands of a product are: acquisitions, interpolation steps, statistics, years, quarters, ...,
parameters of a trend or of change and trend. -/
def Product.kind : Product → Kind
  | .tss => .full | .nrt => .nrt | .rms => .full | .tsi => .inter | .stm => .stats
  | .pcx => .inter | .pcy => .inter | .pyp => .udf | .rsp => .udf
  | .fold .year => .year | .fold .quarter => .quarter | .fold .month => .month | .fold .week => .week | .fold .day => .day
  | .trend _ => .trd | .change _ => .cat | .polar _ => .pol | .polarTrend _ => .trd | .polarChange _ => .cat

/-- Polarmetrics are those of the list. -/
def Product.Known : Product → Prop
  | .polar t => t ∈ polTags
  | .polarTrend t => t ∈ polTags
  | .polarChange t => t ∈ polTags
  | _ => True

/-- A harmonic function: level, trend, and waves of one, one half, one third of a year of 365 days. -/
noncomputable def curve (a b : ℝ) (waves : List (ℝ × ℝ)) (t : ℝ) : ℝ :=
  a + b * t + (waves.zipIdx.map fun w =>
    w.1.1 * Real.cos (2 * Real.pi * (w.2 + 1) * t / 365) + w.1.2 * Real.sin (2 * Real.pi * (w.2 + 1) * t / 365)).sum

/-- The valid observations of the fitting period. -/
def Usable (nodata first last : Int) (o : Int × Int) : Prop := o.2 ≠ nodata ∧ first ≤ o.1 ∧ o.1 ≤ last

instance (nodata first last : Int) (o : Int × Int) : Decidable (Usable nodata first last o) := by
  unfold Usable; infer_instance

end Verif.Tsa.Spec

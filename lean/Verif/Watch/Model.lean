import Verif.Float
import Verif.Pipeline.Model

/-!
# Model of time measurement, progress report and the success of a unit in force-higher-level

Models the stopwatch and the progress report of `/repo/src/modules/higher-level/progress-hl.c`,
and the handling of failures in `/repo/src/modules/higher-level/tasks-hl.c`.
Times are whole seconds: `time` and `difftime` of the C library give whole numbers, and doubles
add and subtract them exactly.
-/

namespace Verif.Watch

/-! ## The stopwatch -/

/-- enum-cl.h:263-264 `_TASK_*_`: the tasks whose time is measured. -/
inductive Task where
  | input | compute | output | all | runtime
  deriving DecidableEq, Repr

/-- progress-hl.h:55-63 `stopwatch_t`, without the broken down dates. -/
structure Clock where
  time : Task → Int
  secs : Task → Int
  total : Task → Int
  bound : Task → Int

/-- One array entry is changed. -/
def set (f : Task → Int) (t : Task) (v : Int) : Task → Int := fun u => if u = t then v else f u

/-- The calls of `measure_progress`; `now` is the reading of the clock. -/
inductive Ev where
  | null (t : Task)
  | tick (t : Task) (now : Int)
  | tock (t : Task) (now : Int)
  deriving DecidableEq, Repr

/-- progress-hl.c:51-63 `measure_progress`, with utils-cl.c:142-149 `proctime`. -/
def measure (c : Clock) : Ev → Clock
  | .null t => { c with secs := set c.secs t 0 }
  | .tick t now => { c with time := set c.time t now }
  | .tock t now => { c with secs := set c.secs t (now - c.time t) }

/-- progress-hl.c:244-278 `bound_time`. -/
def boundTime (c : Clock) : Clock :=
  let i := c.bound .input + max 0 (c.secs .input - max (c.secs .compute) (c.secs .output))
  let k := c.bound .compute + max 0 (c.secs .compute - max (c.secs .input) (c.secs .output))
  let o := c.bound .output + max 0 (c.secs .output - max (c.secs .input) (c.secs .compute))
  { c with bound := set (set (set c.bound .input i) .compute k) .output o }

/-- progress-hl.c:285-303 `add_time`. -/
def addTime (c : Clock) : Clock :=
  let t1 := set c.total .input (c.total .input + c.secs .input)
  let t2 := set t1 .compute (t1 .compute + c.secs .compute)
  let t3 := set t2 .output (t2 .output + c.secs .output)
  { c with total := set t3 .all (t3 .input + t3 .compute + t3 .output) }

/-- progress-hl.c:229-237 `reset_time`. -/
def resetTime (c : Clock) : Clock :=
  measure (measure (measure c (.null .input)) (.null .compute)) (.null .output)

/-- progress-hl.c:661-697 `progress`, where the loop goes on: 668-669 and 691. -/
def lap (c : Clock) : Clock := resetTime (addTime (boundTime c))

/-- progress-hl.c:110-116, in `init_progess`: everything is zero, and the runtime is started. -/
def start (t0 : Int) : Clock :=
  measure ⟨fun _ => 0, fun _ => 0, fun _ => 0, fun _ => 0⟩ (.tick .runtime t0)

/-- progress-hl.c:668-674 and 487, where the loop ends: the last times are added, and the runtime
is stopped and taken over. -/
def stop (c : Clock) (tend : Int) : Clock :=
  let c := measure (addTime (boundTime c)) (.tock .runtime tend)
  { c with total := set c.total .runtime (c.secs .runtime) }

/-- force-higher-level.c:216-241: `progress` is called before each execution of the loop body
and once more at the end. `bodies`: the measurements made in each execution of the body. -/
def run (t0 : Int) (bodies : List (List Ev)) (tend : Int) : Clock :=
  stop (bodies.foldl (fun c evs => evs.foldl measure (lap c)) (start t0)) tend

/-- The measurements of a stage function: tasks-hl.c:65 with 78, 96, 114 or 121 (input), 154 with
240 (compute), 272 with 322 (output). `none`: the function returns before it starts the clock
(53, 145, 263, 269). -/
def stage (t : Task) : Option (Int × Int) → List Ev
  | none => []
  | some (a, b) => [.tick t a, .tock t b]

/-- The numbers of seconds that are printed at the end. -/
structure Report where
  real : Int
  virt : Int
  saved : Int
  virtOf : Task → Int
  boundOf : Task → Int

/-- progress-hl.c:484-622 `print_progress_runtime`: the arguments of `set_secs` (490-535). Breaking
them down into years, months, … is `Date.setSecs`. -/
def report (c : Clock) : Report where
  real := c.total .runtime
  virt := c.total .all
  saved := c.total .all - c.total .runtime
  virtOf := fun t => c.total t
  boundOf := fun t => c.bound t

/-! ## Progress and remaining time -/

/-- progress-hl.c:335-352 `percent_done`. `rf`, `rd`: rounding to float and to double. -/
def percentDone (rf rd : ℚ → ℚ) (n : Nat) (now : Int) : ℚ :=
  if now ≥ 0 then rf (rd (rf (rf now / rf n) * 100)) else 0

/-- progress-hl.c:310-328 `eta`: the argument of `set_secs`. The value is not negative where the
function is called, hence the conversion to int is the floor. -/
def eta (rd : ℚ → ℚ) (n : Nat) (now : Int) (total : Int) : Int :=
  if now > 0 ∧ total > 0 then ⌊rd (((n : Int) - now : Int) * rd (total / now))⌋ else 0

/-! ## Success of a unit -/

/-- enum-cl.h:75-76 `_INP_*_`: the kind of the input. -/
inductive Level where
  | none | features | fields | images | quality
  deriving DecidableEq, Repr

/-- What happens when a unit is read: whether the mask is fine (none used, or read; else there is
no mask, or it could not be read), and the number of datasets in the primary and secondary input
(negative: failure). -/
structure Read where
  mask : Bool
  nt1 : Int
  nt2 : Int
  deriving DecidableEq, Repr

/-- tasks-hl.c:49-124 `read_higher_level`: the numbers of datasets of the unit after the function,
which start with 0 (62-63). The function returns early if the mask (71-80) or the primary input
(93-98) fails. `read_*` give no data if the number is negative (read-ard-hl.c:648, 745, 909). -/
def readUnit (r : Read) : Int × Int :=
  if !r.mask then (0, 0)
  else if r.nt1 < 0 then (r.nt1, 0)
  else (r.nt1, r.nt2)

/-- The outcomes of the functions that are called when a unit is computed: screening the primary
and the secondary input by quality and for noise, and the spectral adjustment. -/
structure Steps where
  quality1 : Bool
  noise1 : Bool
  quality2 : Bool
  noise2 : Bool
  adjust : Bool
  deriving DecidableEq, Repr

/-- tasks-hl.c:161, 170: noise is screened in these levels only. -/
def noisy (l : Level) : Bool := l = .images || l = .quality

/-- tasks-hl.c:159-178: `error`. -/
def failed (l1 l2 : Level) (nt1 nt2 : Int) (s : Steps) : Bool :=
  let e1 := if nt1 > 0 then !s.quality1 || (noisy l1 && !s.noise1) else true
  let e2 := if nt2 > 0 then e1 || !s.quality2 || (noisy l2 && !s.noise2) else e1
  if !e2 && l1 = .images then !s.adjust else e2

/-- The processing modules that use the secondary input; `composite lsp`: level3, with or without
the phenology-adaptive target. -/
inductive Module where
  | composite (lsp : Bool)
  | prediction
  | other
  deriving DecidableEq, Repr

/-- Whether the module goes on: level3-hl.c:244-248 and 276-279, l2-improphe-hl.c:177-180,
cf-improphe-hl.c:201-204. -/
def accepts (m : Module) (nt1 nt2 : Int) : Bool :=
  match m with
  | .composite lsp => !lsp || 3 ≤ nt2
  | .prediction => 1 ≤ nt1 && 1 ≤ nt2
  | .other => true

/-- tasks-hl.c:141-243 `compute_higher_level`: the number of products of the unit. `nprod`: what
the module delivers if it goes on. -/
def computeUnit (l1 l2 : Level) (m : Module) (r : Read) (s : Steps) (nprod : Nat) : Nat :=
  let nt := readUnit r
  if failed l1 l2 nt.1 nt.2 s then 0
  else if accepts m nt.1 nt.2 then nprod else 0

/-! ## Writing the products -/

/-- A product of a unit: whether it is to be written (`open` is not `OPEN_FALSE`), its size, and
whether `write_brick` succeeds. -/
structure Product where
  name : Nat
  active : Bool
  size : Nat
  writes : Bool
  deriving DecidableEq, Repr

/-- A unit that is put out: whether its directory can be locked, and its products. -/
structure Unit' where
  lock : Bool
  products : List Product
  deriving DecidableEq, Repr

/-- tasks-hl.c:278-310: the products that reach the disk. `write_brick` does nothing with products
that are not to be written (brick_io-cl.cpp:94). Its result is not looked at (301). -/
def written (u : Unit') : List Product :=
  if u.lock then u.products.filter (fun p => p.active && p.writes) else []

/-- tasks-hl.c:302-305 and 320: the number of bytes that are counted. -/
def bytes (u : Unit') : Nat :=
  if u.lock then ((u.products.filter (fun p => p.active)).map (fun p => p.size)).sum else 0

/-- force-higher-level.c:216-243, with streaming: what is on the disk, and whether the exit code
is FAILURE. `ibytes`: the bytes read. -/
def outputs (ibytes : Nat) (sampling failIfEmpty : Bool) (us : List Unit') :
    List Product × Bool :=
  ((us.map written).flatten,
    Pipeline.handleNoIo ibytes (Pipeline.bytesStream (us.map (fun u => some (bytes u)))) sampling
      failIfEmpty)

end Verif.Watch

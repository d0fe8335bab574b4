import Verif.Date.Model
import Verif.Libc.Model
import Verif.Param.Model
import Verif.Tile.Model
import Verif.Index.Model

/-!
# Model of the command lines of the tools

`parse_args` of `force-hist`, `force-stratified-sample`, `force-tile-finder` and `force-cube-init`, and the position
that is reported by `force-tile-finder`. `getopt` is the one of the GNU C library: it moves the arguments that
are no options to the end. Words of the command line contain no NUL.
-/

namespace Verif.Args

/-- A word of the command line. -/
abbrev Word := List Char

/-- What a call of `getopt` returns. -/
inductive Ev where
  | opt (c : Char) (arg : Option Word)
  | bad
deriving DecidableEq, Repr

/-- How a program ends its `parse_args`: it goes on, it exits with success or failure, it does not come back from
`konami_args`, or it has undefined behaviour. -/
inductive Res (σ : Type) where
  | ok (s : σ)
  | stop (success : Bool)
  | loop
  | ub
deriving DecidableEq, Repr

/-- libc `getopt`: is `c` an option in the option string, and does it take an argument? -/
def takes : Word → Char → Option Bool
  | [], _ => none
  | d :: ds, c => if c = d ∧ c ≠ ':' then some (ds.head? = some ':') else takes ds c

/-- libc `getopt`: the letters of a word after the dash; the rest are the following words. -/
def cluster (os : Word) : Word → List Word → List Ev × List Word
  | [], rest => ([], rest)
  | c :: cs, rest =>
    match takes os c with
    | none => let r := cluster os cs rest; (.bad :: r.1, r.2)
    | some false => let r := cluster os cs rest; (.opt c none :: r.1, r.2)
    | some true =>
      if cs ≠ [] then ([.opt c (some cs)], rest)
      else match rest with
        | [] => ([.bad], [])
        | a :: rest => ([.opt c (some a)], rest)

theorem cluster_length (os w : Word) (rest : List Word) : (cluster os w rest).2.length ≤ rest.length := by
  induction w with
  | nil => exact le_refl _
  | cons c cs ih =>
    unfold cluster
    split
    · exact ih
    · exact ih
    · split
      · exact le_refl _
      · cases rest with
        | nil => exact le_refl _
        | cons a r => simp

/-- libc `getopt`, called until it returns -1: what it returns, and the other arguments in their order. -/
def getopt (os : Word) : List Word → List Ev × List Word
  | [] => ([], [])
  | ('-' :: c :: cs) :: ws =>
    if c = '-' ∧ cs = [] then ([], ws)
    else
      let r := cluster os (c :: cs) ws
      let q := getopt os r.2
      (r.1 ++ q.1, q.2)
  | w :: ws => let q := getopt os ws; (q.1, w :: q.2)
termination_by l => l.length
decreasing_by
  · have := cluster_length os (c :: cs) ws
    simp only [List.length_cons]
    exact Nat.lt_succ_of_le this
  · simp

/-- The loop `while ((opt = getopt(...)) != -1)`, e.g. force-hist.c:87-118; `?` (107-113) exits with failure. -/
def run {σ : Type} (step : Char → Option Word → σ → Res σ) : List Ev → σ → Res σ
  | [], s => .ok s
  | .bad :: _, _ => .stop false
  | .opt c a :: es, s =>
    match step c a s with
    | .ok s => run step es s
    | r => r

/-- string-cl.c:42-51 `copy_string` into a buffer of 1024 characters (see C29): exits if the text does not fit. -/
def copy {σ : Type} (w : Word) (k : Word → Res σ) : Res σ := if w.length < 1024 then k w else .stop false

/-- konami-cl.c:53, and the non-optional arguments, e.g. force-hist.c:121-138: `n` is their number. -/
def positional {σ : Type} (n : Nat) (pos : List Word) (k : List Word → Res σ) : Res σ :=
  match pos with
  | [] => .stop false
  | p :: _ =>
    if p = "wwssadadBA".toList then .loop
    else if pos.length = n then k pos
    else .stop false

/-- force-hist.c:44-49 `args_t`. -/
structure Hist where
  input : Word
  output : Word
  band : Int
deriving DecidableEq, Repr

/-- force-hist.c:88-117: one option. -/
def histStep (c : Char) (a : Option Word) (s : Hist) : Res Hist :=
  match c, a with
  | 'h', _ => .stop true
  | 'v', _ => .stop true
  | 'i', _ => .stop true
  | 'o', some w => copy w fun w => .ok { s with output := w }
  | 'b', some w => if Date.atoi w < 1 then .stop false else .ok { s with band := Date.atoi w }
  | _, _ => .stop false

/-- force-hist.c:76-140 `parse_args`. -/
def hist (line : List Word) : Res Hist :=
  let g := getopt "hvio:b:".toList line
  match run histStep g.1 { input := [], output := "histogram.csv".toList, band := 1 } with
  | .ok s => positional 1 g.2 fun p => copy (p.getD 0 []) fun w => .ok { s with input := w }
  | r => r

/-- force-stratified-sample.c:49-57 `args_t`, and the local variables `o` and `f` of `parse_args`. -/
structure Sample where
  image : Word
  sizes : Word
  column : Word
  output : Word
  format : Word
  band : Int
  o : Bool
  f : Bool
deriving DecidableEq, Repr

/-- force-stratified-sample.c:99-103: the defaults. -/
def sampleDefault : Sample :=
  ⟨[], [], [], "sample.gpkg".toList, "GPKG".toList, 1, false, false⟩

/-- force-stratified-sample.c:107-140: one option. The option `-o` does not set `o`. -/
def sampleStep (c : Char) (a : Option Word) (s : Sample) : Res Sample :=
  match c, a with
  | 'h', _ => .stop true
  | 'v', _ => .stop true
  | 'i', _ => .stop true
  | 'o', some w => copy w fun w => .ok { s with output := w }
  | 'f', some w => copy w fun w => .ok { s with format := w, f := true }
  | 'b', some w => if Date.atoi w < 1 then .stop false else .ok { s with band := Date.atoi w }
  | _, _ => .stop false

/-- force-stratified-sample.c:92-173 `parse_args`; `exist`: does the file exist? -/
def sample (exist : Word → Bool) (line : List Word) : Res Sample :=
  let g := getopt "hvio:f:b:".toList line
  match run sampleStep g.1 sampleDefault with
  | .ok s =>
    match positional 3 g.2 fun p => copy (p.getD 0 []) fun a => copy (p.getD 1 []) fun b => copy (p.getD 2 []) fun c =>
        .ok { s with image := a, sizes := b, column := c } with
    | .ok s =>
      if (!s.o && s.f) || (!s.f && s.o) then .stop false
      else if exist s.output then .stop false
      else .ok s
    | r => r
  | r => r

/-- The separator of the lists of numbers. -/
def comma (c : Char) : Bool := c = ','

/-- force-tile-finder.c:42-47 `args_t`. -/
structure Finder where
  lon : ℚ
  lat : ℚ
  res : ℚ
  dcube : Word
deriving DecidableEq, Repr

/-- force-tile-finder.c:103-116 and force-cube-init.c:114-127: two numbers; only the first two items are stored. -/
def pair (rd : ℚ → ℚ) (w : Word) : Res (ℚ × ℚ) :=
  copy w fun w =>
    match Param.tokens comma w with
    | [a, b] => .ok (Libc.atof rd a, Libc.atof rd b)
    | _ => .stop false

/-- force-tile-finder.c:94-134: one option. -/
def finderStep (rd : ℚ → ℚ) (c : Char) (a : Option Word) (s : Finder) : Res Finder :=
  match c, a with
  | 'h', _ => .stop true
  | 'v', _ => .stop true
  | 'i', _ => .stop true
  | 'p', some w =>
    match pair rd w with
    | .ok p => .ok { s with lon := p.1, lat := p.2 }
    | .stop b => .stop b
    | .loop => .loop
    | .ub => .ub
  | 'r', some w => if Libc.atof rd w ≤ 0 then .stop false else .ok { s with res := Libc.atof rd w }
  | _, _ => .stop false

/-- force-tile-finder.c:76-157 `parse_args`; the defaults are decimal numbers here. -/
def finder (rd : ℚ → ℚ) (line : List Word) : Res Finder :=
  let g := getopt "hvip:r:".toList line
  match run (finderStep rd) g.1 { lon := 6675589 / 1000000, lat := 49748134 / 1000000, res := 10, dcube := [] } with
  | .ok s => positional 1 g.2 fun p => copy (p.getD 0 []) fun w => .ok { s with dcube := w }
  | r => r

/-- force-cube-init.c:42-48 `args_t`. -/
structure Init where
  lon : ℚ
  lat : ℚ
  sizeX : ℚ
  sizeY : ℚ
  dcube : Word
  proj : Word
deriving DecidableEq, Repr

/-- force-cube-init.c:128-140: the items from number `i` on. `tile_size[i]` is read for all items, and has two elements. -/
def sizes (rd : ℚ → ℚ) : Nat → List Word → ℚ × ℚ → Res (Nat × (ℚ × ℚ))
  | i, [], s => .ok (i, s)
  | 0, w :: ws, s => if Libc.atof rd w ≤ 0 then .stop false else sizes rd 1 ws (Libc.atof rd w, s.2)
  | 1, w :: ws, s => if Libc.atof rd w ≤ 0 then .stop false else sizes rd 2 ws (s.1, Libc.atof rd w)
  | _ + 2, _ :: _, _ => .ub

/-- force-cube-init.c:128-145: the option `-t`. -/
def tileSize (rd : ℚ → ℚ) (w : Word) (s : Init) : Res Init :=
  copy w fun w =>
    match sizes rd 0 (Param.tokens comma w) (s.sizeX, s.sizeY) with
    | .ok r => if r.1 ≠ 2 then .stop false else .ok { s with sizeX := r.2.1, sizeY := r.2.2 }
    | .stop b => .stop b
    | .loop => .loop
    | .ub => .ub

/-- force-cube-init.c:102-156: one option. -/
def initStep (rd : ℚ → ℚ) (c : Char) (a : Option Word) (s : Init) : Res Init :=
  match c, a with
  | 'h', _ => .stop true
  | 'v', _ => .stop true
  | 'i', _ => .stop true
  | 'd', some w => copy w fun w => .ok { s with dcube := w }
  | 'o', some w =>
    match pair rd w with
    | .ok p => .ok { s with lon := p.1, lat := p.2 }
    | .stop b => .stop b
    | .loop => .loop
    | .ub => .ub
  | 't', some w => tileSize rd w s
  | _, _ => .stop false

/-- force-cube-init.c:82-179 `parse_args`. -/
def init (rd : ℚ → ℚ) (line : List Word) : Res Init :=
  let g := getopt "hvid:o:t:".toList line
  match run (initStep rd) g.1 { lon := -25, lat := 60, sizeX := 30000, sizeY := 30000, dcube := ['.'], proj := [] } with
  | .ok s => positional 1 g.2 fun p => copy (p.getD 0 []) fun w => .ok { s with proj := w }
  | r => r

/-- force-tile-finder.c:180-185, in `main`: the tile, column and row that are printed for a point. -/
def report (cube : Tile.Cube) (x y : ℚ) : Option (Tile.Found × Int × Int) :=
  (Tile.tileFind cube x y).bind fun t =>
    some (t, Index.truncQ ((x - t.tilex) / cube.resolution), Index.truncQ ((t.tiley - y) / cube.resolution))

end Verif.Args

import Verif.Str.Model

/-!
# Level 2 processing of one image

Models the control flow of `main` of `src/main/lower-level/force-l2ps.c` and the checks of
`parse_param_lower` of `src/modules/lower-level/param-ll.c`.

Simplifications: what the single steps do is modelled elsewhere (L1, Sun, Cloud, Coreg, Merge, Radtran, L2tile, ...); here
each of them has a return code. Return codes other than SUCCESS, FAILURE and CANCEL do not occur. -/

namespace Verif.Ps

/-! ## Control flow -/

/-- Return codes: enum-cl.h:52. -/
inductive Code where
  | success | failure | cancel
deriving DecidableEq, Repr

/-- Before the loop: arguments (176), parameters (192-193), metadata (199-200), datacubes (203-204), threads (207-208). -/
inductive Init where
  | arguments | parameters | metadata | cubes | threads
deriving DecidableEq, Repr

/-- The steps for one datacube. -/
inductive Step where
  | read | atmosphere | bounds | aoi | geometry | reflectance | topography | clouds | coregistration
  | resolution | radiometry | output
deriving DecidableEq, Repr

/-- What the program has done: the steps it has started for the datacubes, whether the citations have been written, and the
exit code. -/
structure Run where
  trace : List (Nat × Step)
  cited : Bool
  code : Code
deriving DecidableEq, Repr

/-- force-l2ps.c:176-208, in this order; any failure ends the program. -/
def inits : List Init := [.arguments, .parameters, .metadata, .cubes, .threads]

/-- force-l2ps.c:222-294, the steps of one pass of the loop; the area of interest is rasterized only if it is given (237). -/
def steps (aoi : Bool) : List Step :=
  [.read, .atmosphere, .bounds] ++ (if aoi then [.aoi] else []) ++
    [.geometry, .reflectance, .topography, .clouds, .coregistration, .resolution, .radiometry, .output]

/-- Whether the return code of a step lets the program go on. 231, 244: only FAILURE ends it after the masks and the angles;
any other code than SUCCESS ends it after the other steps. 238: the area of interest has no return code,
`rasterize_vector_from_disc` (vector-cl.c:190-256) itself ends the program with FAILURE. -/
def goesOn : Step → Code → Bool
  | .bounds, c => c ≠ .failure
  | .geometry, c => c ≠ .failure
  | _, c => c = .success

/-- The exit code if a step does not let the program go on: 264-269, cancelling ends the program with SUCCESS. -/
def exitCode : Step → Code → Code
  | .clouds, .cancel => .success
  | _, _ => .failure

/-- One pass of the loop for datacube `c`: the steps that have been started, and the exit code if the program ends. -/
def pass (res : Nat → Step → Code) (c : Nat) : List Step → List (Nat × Step) × Option Code
  | [] => ([], none)
  | s :: r =>
    if goesOn s (res c s) then ((c, s) :: (pass res c r).1, (pass res c r).2)
    else ([(c, s)], some (exitCode s (res c s)))

/-- force-l2ps.c:215-296: all datacubes from `c` on, `cover` tells which ones are active (218). -/
def loop (res : Nat → Step → Code) (aoi : Bool) : Nat → List Bool → List (Nat × Step) × Option Code
  | _, [] => ([], none)
  | c, false :: r => loop res aoi (c + 1) r
  | c, true :: r =>
    match pass res c (steps aoi) with
    | (t, some e) => (t, some e)
    | (t, none) => (t ++ (loop res aoi (c + 1) r).1, (loop res aoi (c + 1) r).2)

/-- force-l2ps.c:222-310: an exit from within the loop skips the citations (298). -/
def finish : List (Nat × Step) × Option Code → Run
  | (t, some e) => ⟨t, false, e⟩
  | (t, none) => ⟨t, true, .success⟩

/-- force-l2ps.c:150-311 `main`. -/
def main (init : Init → Bool) (res : Nat → Step → Code) (aoi : Bool) (cover : List Bool) : Run :=
  if inits.all init then
    finish (loop res aoi 0 cover)
  else ⟨[], false, .failure⟩

/-! ## Parameters -/

/-- The parameters that are checked together. -/
structure Par where
  doAtmo : Bool
  doAod : Bool
  doBrdf : Bool
  doTopo : Bool
  doEnv : Bool
  useDemDatabase : Bool
  dirAod : List Char
  fileDem : List Char
  custom : Bool
  fileOptions : List Char
deriving DecidableEq

def null : List Char := "NULL".toList

/-- param-ll.c:247. -/
def switch (p : Par) : Par :=
  if !p.doAtmo then { p with doAod := false, doBrdf := false, doTopo := false, doEnv := false } else p

/-- param-ll.c:242-273, the checks that involve several parameters; `none`: FAILURE. `exist`: `fileexist`. -/
def check (exist : List Char → Bool) (p : Par) : Option Par :=
  if !p.doAod ∧ (p.dirAod = null ∨ !exist p.dirAod) then none else
  let p := switch p
  if p.doTopo ∧ !exist p.fileDem then none else
  if p.useDemDatabase ∧ p.fileDem = null then none else
  if p.useDemDatabase ∧ !exist p.fileDem then none else
  if p.custom ∧ (p.fileOptions = null ∨ !exist p.fileOptions) then none else some p

/-- param-ll.c:112-124 `parse_proj`: the words of the projection are joined by a blank in a buffer of `size` bytes;
`strncat` appends at most as many characters as are left. -/
def joinProj (size : Nat) : List (List Char) → List Char
  | [] => []
  | w :: ws => ws.foldl (fun acc x =>
      let acc := acc ++ [' '].take (size - acc.length - 1)
      acc ++ x.take (size - acc.length - 1)) w

end Verif.Ps

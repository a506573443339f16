import Verif.Model.ParamFile
import Verif.Model.Session
import Verif.Model.Binning
import Verif.Model.Output
/-
Model of the program `main/triumvirate.cpp:109-984` from its arguments to its exit status and
the files it writes, of the overriding environment variables (`parameters.cpp:1382-1414`), and
of the helpers `io.cpp:39-87`.

Simplifications: one task (`currTask` is 0); the program is built without HDF5; the disk is
given by what can be read, created and opened, and does not change but for the files the
program writes (it reads nothing it has written); the normalisation and the measurement
(`:490-900`), which read the aligned catalogues, lines of sight, binning and parameters, are
an arbitrary function which may throw; the line of sight to a position is the function `losf`
(`Trv.Cat.los` over the reals); logging and memory accounting are left out.
-/
namespace Trv.Prog

open Trv Trv.Par Trv.Mon Trv.Cat

/-! ### Overriding environment variables -/

/-- The values of `TRV_OVERRIDE_OUTPUT_TAG`, `TRV_OVERRIDE_FFTW_SCHEME`,
`TRV_OVERRIDE_USE_FFTW_WISDOM`, `TRV_OVERRIDE_VERBOSE` and `TRV_OVERRIDE_PROGBAR`. -/
structure Overrides where
  tag : Option Str := none
  scheme : Option String := none
  wisdom : Option Str := none
  verbose : Option Str := none
  progbar : Option Str := none

section
variable {K : Type} [Field K] [LinearOrder K] [FloorRing K]

/-- `parameters.cpp:1382-1411`: the parameters before they are validated.  `toInt` is
`std::stoi`, which throws a standard exception on what is not a number. -/
def overridden (e : Env K) (toInt : Str → Option ℤ) (o : Overrides) (p : Params K) :
    Except CppErr (Params K) :=
  let p := { p with tag := o.tag.getD p.tag }
  let p := if e.gpu then p else { p with scheme := o.scheme.getD p.scheme,
                                         wisdom := o.wisdom.getD p.wisdom }
  match o.verbose with
  | none => .ok { p with progbar := o.progbar.getD p.progbar }
  | some v =>
    match toInt v with
    | none => .error .runtimeError
    | some n => .ok { p with verbose := n, progbar := o.progbar.getD p.progbar }

/-- `parameters.cpp:1382-1414`: `override_paramset_by_envvars`. -/
def override (e : Env K) (toInt : Str → Option ℤ) (fuel : ℕ) (o : Overrides) (p : Params K) :
    Option (Except CppErr (Params K)) :=
  match overridden e toInt o p with
  | .error x => some (.error x)
  | .ok p => validate e fuel false p

/-! ### Paths -/

/-- `io.cpp:39-57`: `if_filepath_is_set`. -/
def pathSet (s : Str) : Bool := !(s = []) && !(s.getLast? = some '/') && !(blank s)

/-- `io.cpp:59-68`: the directory `make_write_dir` creates, if any. -/
def writeDir (s : Str) : Option Str :=
  if s = [] ∨ s = ['.'] ∨ s = ['.', '/'] ∨ s = ['/'] then none
  else some (s.reverse.dropWhile (· = '/')).reverse

/-- `parameters.cpp:1371-1380`: the path of the file of used parameters. -/
def usedPath (p : Params K) : Str := (p.measDir ++ "parameters_used".toList ++ p.tag).take 1023

/-- The parameters which enter the name of the file of measurements. -/
def outP (p : Params K) : Out.P :=
  { stat := p.statType, form := p.form, ell1 := p.ell1, ell2 := p.ell2, ELL := p.ELL,
    iWa := p.iWa, jWa := p.jWa, idxBin := some p.idxBin, tag := some p.tag, dir := some p.measDir }

end

/-- `particles.cpp:139-144`: the names between commas. -/
def commaNames : Str → List Str
  | [] => []
  | ',' :: s => [] :: commaNames s
  | c :: s =>
    match commaNames s with
    | [] => [[c]]
    | n :: l => (c :: n) :: l

/-! ### The disk and the outcome -/

/-- What the program finds: the lines of the parameter files and catalogue files which can be
opened, the directories which exist or can be created, the paths which can be opened for
writing. -/
structure Disk (K : Type) where
  params : Str → Option (List Str)
  cat : Str → Option (List (Line K))
  canMake : Str → Bool
  canOpen : Str → Bool

/-- How the program ends: `exit` with a status; by an exception nobody catches; in undefined
behaviour; or not at all. -/
inductive Outcome
  | exit (code : ℕ)
  | aborted (x : CppErr)
  | undefined
  | diverges
  deriving DecidableEq

/-- The end of the program at a C++ failure which is not caught. -/
def uncaught : CppErr → Outcome
  | .outOfBounds => .undefined
  | .undefined => .undefined
  | x => .aborted x

/-- A file written by the program. -/
inductive File (K α : Type)
  | used (path : Str) (p : Params K)
  | measured (path : Str) (p : Params K) (r : α)
  | vectors (path : Str) (p : Params K)

/-! ### Stages of the program -/

section
variable {K : Type} [Field K] [LinearOrder K] [IsStrictOrderedRing K] [FloorRing K]


/-- `triumvirate.cpp:111-129`: the options; the status of an early exit, if any.  The argument
list is without the program name. -/
def options (argv : List Str) : List Str → Option ℕ
  | [] => none
  | a :: as =>
    if a = "-h".toList ∨ a = "--help".toList then some 0
    else if a = "-V".toList ∨ a = "--version".toList then some 0
    else if 1 < argv.length ∧ a.head? = some '-' then some 1
    else options argv as

/-- `triumvirate.cpp:155-188`: the parameters, read and overridden. -/
def readParams (e : Env K) (ps : Parse K) (toInt : Str → Option ℤ) (o : Overrides) (fuel : ℕ)
    (D : Disk K) (argv : List Str) : Except Outcome (Params K) :=
  match argv with
  | [] => .error (.exit 1)
  | a :: _ =>
    match D.params a with
    | none => .error (.aborted .ioError)
    | some lines =>
      match readFile e ps fuel lines with
      | none => .error .diverges
      | some (.error .invalidParameter) => .error (.exit 1)
      | some (.error x) => .error (uncaught x)
      | some (.ok p) =>
        match override e toInt fuel o p with
        | none => .error .diverges
        | some (.error x) => .error (uncaught x)
        | some (.ok p) => .ok p

/-- The two catalogues of the program. -/
inductive Which | data | rand
  deriving DecidableEq

/-- A default-constructed catalogue. -/
def noCat : CppCat K :=
  { source := "", ntotal := 0, pdata := none, wtotal := 0, wstotal := 0, posMin := fun _ => 0,
    posMax := fun _ => 0, posSpan := fun _ => 0 }

/-- `triumvirate.cpp:219-252`, `:257-289`, `particles.cpp:94-132`: one catalogue.  Only
`IOError` is caught. -/
def loadOne (D : Disk K) (p : Params K) (i : Which) (path : Str) (w : World Which K) :
    Except Outcome (World Which K) :=
  if pathSet path = false then .error (.exit 1)
  else if hasExtension path ".h5".toList ∨ hasExtension path ".hdf5".toList then
    .error (.aborted .invalidData)
  else
    match w.loadFile i (String.ofList path) ((commaNames p.columns).map String.ofList)
      ((split path fnDelim).map D.cat) p.volume with
    | (w, none) => .ok w
    | (_, some .ioError) => .error (.exit 1)
    | (_, some x) => .error (uncaught x)

/-- `triumvirate.cpp:217-289`: the catalogues. -/
def loadCats (D : Disk K) (p : Params K) : Except Outcome (CStore Which K) := do
  let w : World Which K := { cats := fun _ => noCat, mem := 0, maxmem := 0 }
  let w ← if p.catType = "survey" ∨ p.catType = "sim" then loadOne D p .data p.dataFile w else .ok w
  let w ← if p.catType = "survey" ∨ p.catType = "random" then loadOne D p .rand p.randFile w else .ok w
  .ok w.cats

/-- The padding of the bins in units of the grid (`dataobjs.cpp:50-55`); `none` when it is not
a finite number. -/
def gridPad (pi : K) (p : Params K) : Option K :=
  let L := max (max (p.box 0) (p.box 1)) (p.box 2)
  if p.space = "config" then
    let n : ℤ := min (min (p.ngrid 0) (p.ngrid 1)) (p.ngrid 2)
    if n = 0 then none else some (1005 / 1000 * L / (n : K))
  else if L = 0 then none else some (1005 / 1000 * (2 * pi) / L)

/-- `triumvirate.cpp:318-323`, `dataobjs.cpp:42-56`: the binning; `none` when bin edges are not
finite numbers. -/
def binningOf (m : Binning.MathLib K) (p : Params K) :
    Except CppErr (Option (Binning.Cpp K)) :=
  let sp : Binning.Space := if p.space = "config" then .config else .fourier
  let B := Binning.Cpp.new sp p.binning p.binMin p.binMax p.numBins
  if (p.binning = "linpad" ∨ p.binning = "logpad") ∧ gridPad m.pi p = none then .ok none
  else
    let g := (gridPad m.pi p).getD 0
    let B := { B with padFourier := g, padConfig := g }
    match (if p.binning = "custom" then Binning.mainCustomBins m B else Binning.Cpp.reset m B) with
    | (_, some x) => .error x
    | (B, none) => .ok (some B)

/-- `triumvirate.cpp:338-399`: the lines of sight to the particles of a catalogue. -/
def losOf (losf : V3 K → V3 K) (c : CppCat K) : List (V3 K) := (c.pdata.getD []).map fun p => losf p.pos

/-- `triumvirate.cpp:412-417` (and the like): the box and the mesh when they are not given. -/
def deriveBox (e : Env K) (fuel : ℕ) (span : V3 K) (p : Params K) :
    Option (Except CppErr (Params K)) :=
  if p.volume = 0 then
    match validate e fuel false { p with box := boxFromExpand span p.expand } with
    | some (.ok p) =>
      if p.nmesh = 0 then
        match setNgrid e p with
        | .error x => some (.error x)
        | .ok p => validate e fuel false p
      else some (.ok p)
    | r => r
  else some (.ok p)

/-- The alignment options of the parameters. -/
def alignOf (p : Params K) : AlignParams K :=
  { alignment := p.alignment, padscale := p.padscale, padfactor := p.padfactor, boxsize := p.box,
    ngrid := fun i => (p.ngrid i).toNat }

/-- `triumvirate.cpp:458-485`: aligning the random catalogue. -/
def alignRand (σ : CStore Which K) (p : Params K) : Except CppErr (CStore Which K) :=
  if p.alignment = "pad" then
    if p.padscale = "grid" then
      padGrids1 σ .rand p.box (fun i => (p.ngrid i).toNat) fun _ => p.padfactor
    else if p.padscale = "box" then padInBox1 σ .rand p.box fun _ => p.padfactor
    else .ok σ
  else if p.alignment = "centre" then do
    let σ ← centreInBox1 σ .rand p.box
    let c ← (σ .rand).periodic p.box
    .ok (Function.update σ .rand c)
  else .ok σ

/-- `triumvirate.cpp:411-485` with the box given. -/
def alignCats (σ : CStore Which K) (p : Params K) : Except CppErr (CStore Which K) :=
  if p.catType = "survey" then alignBoth σ .data .rand (alignOf p)
  else if p.catType = "sim" then do
    let c ← (σ .data).periodic p.box
    .ok (Function.update σ .data c)
  else if p.catType = "random" then alignRand σ p
  else .ok σ

/-- `triumvirate.cpp:411-485`: box alignment. -/
def alignStage (e : Env K) (fuel : ℕ) (σ : CStore Which K) (p : Params K) :
    Except Outcome (Params K × CStore Which K) :=
  let span := if p.catType = "random" then (σ .rand).posSpan else (σ .data).posSpan
  match (if p.catType = "none" then some (.ok p) else deriveBox e fuel span p) with
  | none => .error .diverges
  | some (.error x) => .error (uncaught x)
  | some (.ok p) =>
    match alignCats σ p with
    | .error x => .error (uncaught x)
    | .ok σ => .ok (p, σ)

/-- What the measurement reads. -/
structure Input (K : Type) where
  p : Params K
  bins : Option (Binning.Cpp K)
  data : CppCat K
  rand : CppCat K
  losData : List (V3 K)
  losRand : List (V3 K)

/-- `triumvirate.cpp:295-485`: everything between the reading of the catalogues and the
measurement. -/
def prepare (losf : V3 K → V3 K) (e : Env K) (m : Binning.MathLib K) (fuel : ℕ) (D : Disk K) (p : Params K)
    (σ : CStore Which K) : Except Outcome (Input K) :=
  if p.wisdom ≠ [] ∧ (writeDir p.wisdom).any (fun d => !D.canMake d) then .error (.aborted .ioError)
  else
    match binningOf m p with
    | .error x => .error (uncaught x)
    | .ok bins =>
      match alignStage e fuel σ p with
      | .error o => .error o
      | .ok (q, τ) =>
        .ok { p := q, bins := bins, data := τ .data, rand := τ .rand, losData := losOf losf (σ .data),
              losRand := losOf losf (σ .rand) }

/-- `triumvirate.cpp:597-903`: the files of the measurement and of the binned vectors.  The
result of `fopen` is not tested. -/
def save {α : Type} (D : Disk K) (p : Params K) (r : α) : List (File K α) × Outcome :=
  let vec : List (File K α) × Outcome :=
    if p.saveBvec = [] then ([], .exit 0)
    else if D.canOpen p.saveBvec then ([.vectors p.saveBvec p], .exit 0)
    else ([], .undefined)
  match Out.cppPath (outP p) with
  | none => vec
  | some path =>
    if D.canOpen path then (.measured path p r :: vec.1, vec.2) else ([], .undefined)

/-- `triumvirate.cpp:109-984`: the program. -/
def run {α : Type} (losf : V3 K → V3 K) (e : Env K) (ps : Parse K) (toInt : Str → Option ℤ) (m : Binning.MathLib K)
    (alg : Input K → Except CppErr α) (o : Overrides) (fuel : ℕ) (D : Disk K) (argv : List Str) :
    List (File K α) × Outcome :=
  match options argv argv with
  | some c => ([], .exit c)
  | none =>
    match readParams e ps toInt o fuel D argv with
    | .error x => ([], x)
    | .ok p =>
      if (writeDir p.measDir).any (fun d => !D.canMake d) then ([], .aborted .ioError)
      else if D.canOpen (usedPath p) = false then ([], .aborted .ioError)
      else
        let used : List (File K α) := [.used (usedPath p) p]
        match loadCats D p with
        | .error x => (used, x)
        | .ok σ =>
          match prepare losf e m fuel D p σ with
          | .error x => (used, x)
          | .ok I =>
            match alg I with
            | .error x => (used, uncaught x)
            | .ok r => let s := save D I.p r; (used ++ s.1, s.2)

end
end Trv.Prog

import Verif.Model.Monitor
import Mathlib.Data.Fin.VecNotation
/-
Model of the C++ parameter set: `src/parameters.cpp`, `include/parameters.hpp`.
Floating-point numbers are replaced by an ordered field `K` (with a positive constant for
`M_PI`), machine integers by `ℤ`, paths by lists of characters.  Logging is left out.
-/
set_option linter.unusedSectionVars false
namespace Trv.Par
open Trv.Mon

/-- Character strings. -/
abbrev Str := List Char

/-- `parameters.hpp:60-240`: the members of `ParameterSet`. -/
structure Params (K : Type) where
  catDir : Str := []
  measDir : Str := []
  dataFile : Str := []
  randFile : Str := []
  columns : Str := []
  dataset : Str := []
  tag : Str := []
  box : Fin 3 → K
  ngrid : Fin 3 → ℤ := fun _ => 0
  expand : K
  cutoff : K
  alignment : String := "centre"
  padscale : String := "box"
  padfactor : K
  assignment : String := "tsc"
  interlace : String := "false"
  volume : K
  nmesh : ℤ := 0
  assignOrder : ℤ := 0
  catType : String := ""
  statType : String := ""
  npoint : String := ""
  space : String := ""
  ell1 : ℤ := 0
  ell2 : ℤ := 0
  ELL : ℤ := 0
  iWa : ℤ := 0
  jWa : ℤ := 0
  form : String := "diag"
  norm : String := "particle"
  shape : String := "diag"
  binning : String := "lin"
  binMin : K
  binMax : K
  numBins : ℤ := 0
  idxBin : ℤ := 0
  scheme : String := "measure"
  plannerFlag : ℤ := 0
  wisdom : Str := "false".toList
  wisdomF : Str := []
  wisdomB : Str := []
  saveBvec : Str := "false".toList
  verbose : ℤ := 20
  progbar : Str := "false".toList
  dataFiles : List Str := []
  randFiles : List Str := []

/-- The build and the environment: the value of `M_PI`, `getenv`, whether the library is
built for external calls (`TRV_EXTCALL`, as in the Python package), for GPUs, and with
multithreaded FFTW. -/
structure Env (K : Type) where
  pi : K
  getenv : Str → Option Str
  extcall : Bool
  gpu : Bool
  omp : Bool

/-- `parameters.hpp:60-240`: a default-constructed parameter set. -/
def Params.default {K : Type} [Field K] : Params K :=
  { box := fun _ => 0, expand := 1, cutoff := 0, padfactor := 0, volume := 0, binMin := 0,
    binMax := 0 }

/-- `parameters.cpp:36-93`: the copy constructor.  The member `shape` is not among the
copied ones and has its default initialiser. -/
def Params.copy {K : Type} [Field K] (o : Params K) : Params K :=
  { (Params.default : Params K) with
    catDir := o.catDir, measDir := o.measDir, dataFile := o.dataFile, randFile := o.randFile,
    columns := o.columns, dataset := o.dataset, tag := o.tag,
    box := o.box, ngrid := o.ngrid, expand := o.expand, alignment := o.alignment,
    padscale := o.padscale, padfactor := o.padfactor, assignment := o.assignment,
    interlace := o.interlace, volume := o.volume, nmesh := o.nmesh, assignOrder := o.assignOrder,
    catType := o.catType, statType := o.statType, npoint := o.npoint, space := o.space,
    ell1 := o.ell1, ell2 := o.ell2, ELL := o.ELL, iWa := o.iWa, jWa := o.jWa,
    form := o.form, norm := o.norm, binning := o.binning,
    binMin := o.binMin, binMax := o.binMax, numBins := o.numBins, idxBin := o.idxBin,
    cutoff := o.cutoff,
    scheme := o.scheme, plannerFlag := o.plannerFlag, wisdom := o.wisdom, wisdomF := o.wisdomF,
    wisdomB := o.wisdomB, saveBvec := o.saveBvec, verbose := o.verbose, progbar := o.progbar,
    dataFiles := o.dataFiles, randFiles := o.randFiles }

/-- `find_first_not_of(" \t\n\r\v\f") == npos`. -/
def blank (s : Str) : Bool :=
  s.all fun c => c = ' ' ∨ c = '\t' ∨ c = '\n' ∨ c = '\r' ∨ c = '\x0b' ∨ c = '\x0c'

/-- `monitor.hpp:208`: `trvs::fn_delimiter`. -/
def fnDelim : Str := [':', ':']

section
variable {K : Type} [Field K] [LinearOrder K]

/-- `parameters.cpp:469-486`: the directories. -/
def vDirs (e : Env K) (init : Bool) (p : Params K) : Params K :=
  let catDir := if ¬ blank p.catDir ∧ init then p.catDir ++ ['/'] else p.catDir
  let measDir := if blank p.measDir then ['.', '/']
    else if init then p.measDir ++ ['/'] else p.measDir
  { p with catDir := expandVars e.getenv catDir, measDir := expandVars e.getenv measDir }

/-- `parameters.cpp:488-503`: a delimiter after the last file name. -/
def endDelim (s : Str) : Str :=
  if ¬ blank s then (if hasExtension s fnDelim then s else s ++ fnDelim) else s

/-- `parameters.cpp:513-537` (and the like): the names up to the last delimiter, each
put in the catalogue directory if relative and expanded. -/
def filesOf (e : Env K) (init : Bool) (catDir s : Str) : List Str :=
  if s = [] then [] else
    (splitLoop fnDelim (by simp [fnDelim]) s).1.map fun f =>
      expandVars e.getenv (if f.head? ≠ some '/' ∧ init then catDir ++ f else f)

/-- `parameters.cpp:488-632`: the catalogue files. -/
def vFiles (e : Env K) (init : Bool) (p : Params K) : Except CppErr (Params K) :=
  let d := endDelim p.dataFile
  let r := endDelim p.randFile
  let fin (df rf : List Str) : Params K :=
    { p with dataFiles := df, randFiles := rf, dataFile := join fnDelim df,
             randFile := join fnDelim rf }
  if p.catType = "survey" then
    .ok (fin (filesOf e init p.catDir d) (filesOf e init p.catDir r))
  else if p.catType = "random" then .ok (fin [] (filesOf e init p.catDir r))
  else if p.catType = "sim" then .ok (fin (filesOf e init p.catDir d) [])
  else if p.catType = "none" then .ok (fin [] [])
  else if e.extcall then .ok (fin [] [])
  else .error .invalidParameter

/-- `parameters.cpp:659-689`: the order of the assignment scheme. -/
def orderOf (s : String) : Except CppErr ℤ :=
  if s = "ngp" then .ok 1
  else if s = "cic" then .ok 2
  else if s = "tsc" then .ok 3
  else if s = "pcs" then .ok 4
  else .error .invalidParameter

/-- `parameters.cpp:690-711`: the interlacing switch. -/
def interlaceOf (s : String) : Except CppErr String :=
  if s = "true" ∨ s = "on" then .ok "true"
  else if s = "false" ∨ s = "off" then .ok "false"
  else .error .invalidParameter

/-- `parameters.cpp:634-711`: alignment, padding scale, assignment, interlacing. -/
def vMesh (p : Params K) : Except CppErr (Params K) :=
  if ¬ (p.alignment = "centre" ∨ p.alignment = "pad") then .error .invalidParameter
  else if ¬ (p.padscale = "box" ∨ p.padscale = "grid") then .error .invalidParameter
  else do
    let o ← orderOf p.assignment
    let i ← interlaceOf p.interlace
    .ok { p with assignOrder := o, interlace := i }

/-- `parameters.cpp:713-827`: what the statistic type sets (number of points and space;
nothing for an unrecognised type in the external-call build). -/
def statOf (extcall : Bool) (st ct : String) : Except CppErr (Option (String × String)) :=
  if st = "powspec" then
    if ct = "random" ∨ ct = "none" then .error .invalidParameter else .ok (some ("2pt", "fourier"))
  else if st = "2pcf" then
    if ct = "random" ∨ ct = "none" then .error .invalidParameter else .ok (some ("2pt", "config"))
  else if st = "2pcf-win" then
    if ct ≠ "random" then .error .invalidParameter else .ok (some ("2pt", "config"))
  else if st = "bispec" then
    if ct = "random" ∨ ct = "none" then .error .invalidParameter else .ok (some ("3pt", "fourier"))
  else if st = "3pcf" then
    if ct = "random" ∨ ct = "none" then .error .invalidParameter else .ok (some ("3pt", "config"))
  else if st = "3pcf-win" ∨ st = "3pcf-win-wa" then
    if ct ≠ "random" then .error .invalidParameter else .ok (some ("3pt", "config"))
  else if st = "modes" then .ok (some ("none", "fourier"))
  else if st = "pairs" then .ok (some ("none", "config"))
  else if extcall then .ok none
  else .error .invalidParameter

/-- `parameters.cpp:713-827`: the statistic type. -/
def vStat (e : Env K) (p : Params K) : Except CppErr (Params K) :=
  match statOf e.extcall p.statType p.catType with
  | .error x => .error x
  | .ok none => .ok p
  | .ok (some (n, s)) => .ok { p with npoint := n, space := s }

/-- `parameters.cpp:828-901`: form, normalisation, binning. -/
def vForm (p : Params K) : Except CppErr (Params K) :=
  if ¬ (p.form = "full" ∨ p.form = "diag" ∨ p.form = "off-diag" ∨ p.form = "row") then
    .error .invalidParameter
  else
    let shape := if p.form = "full" ∧ p.ell1 = p.ell2 then "triu" else p.form
    if ¬ (p.norm = "none" ∨ p.norm = "particle" ∨ p.norm = "mesh" ∨ p.norm = "mesh-mixed") then
      .error .invalidParameter
    else if p.norm = "mesh-mixed" ∧ p.npoint ≠ "2pt" then .error .invalidParameter
    else if ¬ (p.binning = "lin" ∨ p.binning = "log" ∨ p.binning = "linpad" ∨
        p.binning = "logpad" ∨ p.binning = "custom") then .error .invalidParameter
    else .ok { p with shape := shape }

/-- `parameters.cpp:976-1001`: the wisdom file names, cut to the buffer length. -/
def wisdomName (e : Env K) (dir : Str) (dirn : Char) (n : Fin 3 → ℤ) : Str :=
  (dir ++ (if e.omp then "fftw_omp_ci".toList else "fftw_ci".toList) ++ [dirn, '_'] ++ toStr (n 0)
    ++ ['x'] ++ toStr (n 1) ++ ['x'] ++ toStr (n 2) ++ ".wisdom".toList).take 1023

/-- `parameters.cpp:903-935`: the planner scheme and flag (`FFTW_ESTIMATE` is 64,
`FFTW_MEASURE` 0, `FFTW_PATIENT` 32; unchanged for GPUs). -/
def schemeOf (gpu : Bool) (s : String) (flag : ℤ) : Except CppErr (String × ℤ) :=
  if ¬ gpu then
    if s = "estimate" then .ok (s, 64)
    else if s = "measure" then .ok (s, 0)
    else if s = "patient" then .ok (s, 32)
    else .error .invalidParameter
  else .ok ("", flag)

/-- `parameters.cpp:937-953`: the wisdom directory. -/
def wisdomOf (e : Env K) (init : Bool) (w : Str) : Str :=
  expandVars e.getenv
    (if e.gpu then [] else if w = "false".toList then [] else if init then w ++ ['/'] else w)

/-- `parameters.cpp:903-1005`: planner scheme and wisdom. -/
def vFftw (e : Env K) (init : Bool) (p : Params K) : Except CppErr (Params K) := do
  let sf ← schemeOf e.gpu p.scheme p.plannerFlag
  let w := wisdomOf e init p.wisdom
  if w = [] then .ok { p with scheme := sf.1, plannerFlag := sf.2, wisdom := w }
  else if sf.1 ≠ "measure" ∧ sf.1 ≠ "patient" then .error .invalidParameter
  else .ok { p with scheme := sf.1, plannerFlag := sf.2, wisdom := w,
                    wisdomF := wisdomName e w 'f' p.ngrid, wisdomB := wisdomName e w 'b' p.ngrid }

/-- `parameters.cpp:1007-1012`: the default path of the binned vectors. -/
def bvecDefault (p : Params K) : Str :=
  (p.measDir ++ "binned_vectors".toList ++ p.tag).take 1023

/-- `parameters.cpp:1013-1027`: the path of the binned vectors. -/
def vBvec (e : Env K) (init : Bool) (p : Params K) : Params K :=
  let s := if p.saveBvec = "false".toList then []
    else if p.saveBvec = "true".toList then bvecDefault p
    else if p.saveBvec ≠ [] ∧ p.saveBvec.head? ≠ some '/' ∧ init then p.measDir ++ p.saveBvec
    else p.saveBvec
  { p with saveBvec := expandVars e.getenv s }

/-- `parameters.cpp:1029-1066`: volume and mesh size; the expansion factor. -/
def vDerive (p : Params K) : Except CppErr (Params K) :=
  let v := p.box 0 * p.box 1 * p.box 2
  if v ≤ 0 ∧ p.expand < 1 then .error .invalidParameter
  else .ok { p with volume := v, nmesh := p.ngrid 0 * p.ngrid 1 * p.ngrid 2 }

/-- `parameters.cpp:465-1066`: validation up to the derivation of the mesh numbers. -/
def pre (e : Env K) (init : Bool) (p : Params K) : Except CppErr (Params K) := do
  let p ← vFiles e init (vDirs e init p)
  let p ← vMesh p
  let p ← vStat e p
  let p ← vForm p
  let p ← vFftw e init p
  vDerive (vBvec e init p)

/-- `parameters.cpp:1096-1140`: padding. -/
def padOk (p : Params K) : Prop :=
  p.alignment = "pad" →
    ¬ p.padfactor < 0 ∧ ¬ (p.padscale = "box" ∧ 1 ≤ p.padfactor) ∧
    ¬ (p.padscale = "grid" ∧ ((p.ngrid 0 : K) ≤ p.padfactor ∨ (p.ngrid 1 : K) ≤ p.padfactor ∨
        (p.ngrid 2 : K) ≤ p.padfactor))

instance (p : Params K) : Decidable (padOk p) := by unfold padOk; infer_instance

/-- `parameters.cpp:1096-1268`: the remaining checks. -/
def post (dflt : Str) (p : Params K) : Except CppErr (Params K) :=
  if ¬ padOk p then .error .invalidParameter
  else if p.binMin < 0 then .error .invalidParameter
  else if p.binMax ≤ p.binMin then .error .invalidParameter
  else if p.numBins < 2 then .error .invalidParameter
  else if p.idxBin < 0 ∧ p.npoint = "3pt" ∧ p.form = "row" then .error .invalidParameter
  else if (p.binning = "linpad" ∨ p.binning = "logpad") ∧ p.numBins < 5 + 2 then
    .error .invalidParameter
  else if p.numBins ≤ |p.idxBin| then .error .invalidParameter
  else
    let il := if p.npoint = "3pt" ∧ p.interlace = "true" then "false" else p.interlace
    let sb := if (p.statType = "modes" ∨ p.statType = "pairs") ∧ p.saveBvec = [] then dflt
      else p.saveBvec
    .ok { p with interlace := il, saveBvec := sb }

variable [FloorRing K]

/-- `parameters.cpp:1437-1452`: the number of grid cells for a box side and a cutoff. -/
def ngridCpp (pi : K) (space : String) (L c : K) : Except CppErr ℤ :=
  if space = "fourier" then
    let n := ⌈L * c / pi⌉
    .ok (n + n.tmod 2)
  else if space = "config" then
    if c = 0 then .error .undefined
    else
      let n := ⌈2 * L / c⌉
      .ok (n + n.tmod 2)
  else .error .invalidParameter

/-- `parameters.cpp:1434-1454`: `set_ngrid_from_cutoff` before it calls `validate`. -/
def setNgrid (e : Env K) (p : Params K) : Except CppErr (Params K) := do
  let n0 ← ngridCpp e.pi p.space (p.box 0) p.cutoff
  let n1 ← ngridCpp e.pi p.space (p.box 1) p.cutoff
  let n2 ← ngridCpp e.pi p.space (p.box 2) p.cutoff
  .ok { p with ngrid := ![n0, n1, n2] }

/-- `parameters.cpp:465-1276`: `validate`, which can call itself through
`set_ngrid_from_cutoff`.  `none` when the fuel runs out. -/
def validate (e : Env K) : ℕ → Bool → Params K → Option (Except CppErr (Params K))
  | 0, _, _ => none
  | fuel + 1, init, p =>
    match pre e init p with
    | .error x => some (.error x)
    | .ok q =>
      if q.nmesh ≤ 0 then
        if q.cutoff < 0 then some (.error .invalidParameter)
        else if 0 < q.volume then
          match setNgrid e q with
          | .error x => some (.error x)
          | .ok r =>
            match validate e fuel false r with
            | none => none
            | some (.error x) => some (.error x)
            | some (.ok r) => some (post (bvecDefault q) r)
        else some (post (bvecDefault q) q)
      else some (post (bvecDefault q) q)

/-- `parameters.pyx:866-895`: `_set_ngrid_from_cutoff`, for one axis. -/
def ngridPy (pi : K) (space : String) (L c : K) : Except PyErr ℤ :=
  if space = "fourier" then
    let n := ⌈L * c / pi⌉
    .ok (n + n % 2)
  else if space = "config" then
    if c = 0 then .error .valueError
    else
      let n := 2 * ⌈L / c⌉
      .ok (n + n % 2)
  else .error .valueError

end
end Trv.Par

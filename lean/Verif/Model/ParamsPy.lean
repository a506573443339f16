import Verif.Model.Params
/-
Model of the Python parameter set `ParameterSet` (`parameters.pyx`): a dictionary and the C++
parameters it wraps.  All top-level keys are taken to be present (possibly `None`) with values
of the documented types, except for those which are derived.  `str(x).lower()` of a Boolean is
kept as text.  The progress-bar entry is not fetched back (see `Model/ProgbarSetting.lean`), and the changes which a rejecting C++
validation has made before it throws are left out.
-/
set_option linter.unusedSectionVars false
namespace Trv.Par
open Trv.Mon

/-- The dictionary (`self._params`); `none` is `None` (or a missing key for the derived
`assignOrder`, `space` and `npoint`). -/
structure Dict (K : Type) where
  catDir : Option Str
  measDir : Option Str
  dataFile : Option Str
  randFile : Option Str
  tag : Option Str
  box : Fin 3 → Option K
  ngrid : Fin 3 → Option ℤ
  expand : Option K
  padfactor : Option K
  alignment : Option String
  padscale : Option String
  assignment : Option String
  interlace : Option String
  volume : K
  nmesh : ℤ
  ell1 : Option ℤ
  ell2 : Option ℤ
  ELL : Option ℤ
  iWa : Option ℤ
  jWa : Option ℤ
  binMin : Option K
  binMax : Option K
  numBins : Option ℤ
  idxBin : Option ℤ
  cutoff : Option K
  catType : Option String
  statType : Option String
  form : Option String
  norm : Option String
  binning : Option String
  assignOrder : Option ℤ
  space : Option String
  npoint : Option String
  scheme : Option String
  wisdom : Option Str
  verbose : Option ℤ
  progbar : Option Str

/-- The Python object. -/
structure PySet (K : Type) where
  d : Dict K
  c : Params K

/-- `str.lower` (for ASCII text). -/
def lowerS (s : Str) : Str := s.map Char.toLower
def lower (s : String) : String := String.ofList (lowerS s.toList)

/-- The three values, if all are set. -/
def all3 {α : Type} (f : Fin 3 → Option α) : Option (Fin 3 → α) :=
  match f 0, f 1, f 2 with
  | some a, some b, some c => some ![a, b, c]
  | _, _, _ => none

section
variable {K : Type} [Field K] [LinearOrder K]

/-- `parameters.pyx:310-367`: the paths. -/
def pPaths (s : PySet K) : PySet K :=
  { d := { s.d with catDir := some (s.d.catDir.getD []), measDir := some (s.d.measDir.getD []),
                    dataFile := some (s.d.dataFile.getD []), randFile := some (s.d.randFile.getD []),
                    tag := some (s.d.tag.getD []) },
    c := { s.c with catDir := s.d.catDir.getD [], measDir := s.d.measDir.getD [],
                    dataFile := s.d.dataFile.getD [], randFile := s.d.randFile.getD [],
                    tag := s.d.tag.getD [] } }

/-- `parameters.pyx:371-433`: the mesh parameters; unset ones leave the C++ values. -/
def pMesh (s : PySet K) : PySet K :=
  let vol := match all3 s.d.box with | some b => b 0 * b 1 * b 2 | none => 0
  let nm := match all3 s.d.ngrid with | some n => n 0 * n 1 * n 2 | none => 0
  { d := { s.d with volume := vol, nmesh := nm },
    c := { s.c with
      box := (all3 s.d.box).getD s.c.box, ngrid := (all3 s.d.ngrid).getD s.c.ngrid,
      expand := s.d.expand.getD s.c.expand, padfactor := s.d.padfactor.getD s.c.padfactor,
      alignment := (s.d.alignment.map lower).getD s.c.alignment,
      padscale := (s.d.padscale.map lower).getD s.c.padscale,
      assignment := (s.d.assignment.map lower).getD s.c.assignment,
      interlace := (s.d.interlace.map lower).getD s.c.interlace,
      volume := vol, nmesh := nm } }

/-- `parameters.pyx:440-461`: degrees and wide-angle orders. -/
def pDegrees (s : PySet K) : PySet K :=
  { s with c := { s.c with
      ell1 := s.d.ell1.getD s.c.ell1, ell2 := s.d.ell2.getD s.c.ell2, ELL := s.d.ELL.getD s.c.ELL,
      iWa := s.d.iWa.getD s.c.iWa, jWa := s.d.jWa.getD s.c.jWa } }

/-- `parameters.pyx:463-469`: the range. -/
def pRange (s : PySet K) : PySet K × Option PyErr :=
  match s.d.binMin, s.d.binMax with
  | some a, some b => ({ s with c := { s.c with binMin := a, binMax := b } }, none)
  | _, _ => (s, some .invalidParameterError)

/-- `parameters.pyx:471-476`: the bin numbers. -/
def pBins (s : PySet K) : PySet K × Option PyErr :=
  match s.d.numBins with
  | some n => ({ s with c := { s.c with numBins := n, idxBin := s.d.idxBin.getD s.c.idxBin } }, none)
  | none => (s, some .invalidParameterError)

variable [FloorRing K]

/-- `parameters.pyx:866-895`: `_set_ngrid_from_cutoff` on the dictionary. -/
def pNgrid (pi : K) (d : Dict K) (b : Fin 3 → K) (c : K) : Except PyErr (Dict K) :=
  match d.space with
  | none => .error .keyError
  | some sp => do
    let n0 ← ngridPy pi sp (b 0) c
    let n1 ← ngridPy pi sp (b 1) c
    let n2 ← ngridPy pi sp (b 2) c
    .ok { d with ngrid := ![some n0, some n1, some n2] }

/-- `parameters.pyx:478-488`: the cutoff, when there is no mesh.  The derived grid numbers
are stored in the dictionary only. -/
def pCutoff (e : Env K) (s : PySet K) : PySet K × Option PyErr :=
  if s.d.nmesh = 0 then
    match s.d.cutoff with
    | none => (s, some .invalidParameterError)
    | some c =>
      let s := { s with c := { s.c with cutoff := c } }
      match all3 s.d.box with
      | none => (s, none)
      | some b =>
        if 0 < s.d.volume then
          match pNgrid e.pi s.d b c with
          | .error x => (s, some x)
          | .ok d => ({ s with d := d }, none)
        else (s, none)
  else (s, none)

/-- `parameters.pyx:490-508`: types and form. -/
def pForm (s : PySet K) : PySet K × Option PyErr :=
  let s := { s with c := { s.c with
      catType := (s.d.catType.map lower).getD s.c.catType,
      statType := (s.d.statType.map lower).getD s.c.statType,
      form := (s.d.form.map lower).getD s.c.form } }
  if (s.d.form = some "off-diag" ∨ s.d.form = some "row") ∧ s.d.idxBin = none then
    (s, some .invalidParameterError)
  else (s, none)

/-- `parameters.pyx:510-543`: the remaining parameters. -/
def pMisc (s : PySet K) : PySet K :=
  let o := s.d.assignOrder.getD 0
  let sp := lower (s.d.space.getD "")
  let np := lower (s.d.npoint.getD "")
  { s with c := { s.c with
      norm := (s.d.norm.map lower).getD s.c.norm,
      binning := (s.d.binning.map lower).getD s.c.binning,
      assignOrder := if o ∈ [1, 2, 3, 4] then o else s.c.assignOrder,
      space := if sp ∈ ["fourier", "config"] then sp else s.c.space,
      npoint := if np ∈ ["2pt", "3pt"] then np else s.c.npoint,
      scheme := s.d.scheme.getD s.c.scheme,
      wisdom := (s.d.wisdom.map lowerS).getD s.c.wisdom,
      verbose := s.d.verbose.getD s.c.verbose,
      progbar := (s.d.progbar.map lowerS).getD s.c.progbar } }

/-- `parameters.pyx:560-582`: what is fetched from the validated C++ parameters. -/
def pFetch (s : PySet K) : PySet K :=
  { s with d := { s.d with
      assignOrder := some s.c.assignOrder, npoint := some s.c.npoint, space := some s.c.space,
      wisdom := some (if lowerS s.c.wisdom = "false".toList ∨ s.c.wisdom = [] then "False".toList
        else s.c.wisdom),
      interlace := some (if s.c.interlace = "true" then "True" else "False") } }

/-- `parameters.pyx:549-609`: `_validate`; a C++ exception becomes a `ValueError`.  `none` when
the C++ validation does not finish within the fuel. -/
def pValidate (e : Env K) (fuel : ℕ) (init : Bool) (s : PySet K) : Option (PySet K × Option PyErr) :=
  match validate e fuel init s.c with
  | none => none
  | some (.error _) => some (s, some .valueError)
  | some (.ok c) => some (pFetch { s with c := c }, none)

/-- `parameters.pyx:298-547`: `_parse_params`. -/
def pParse (e : Env K) (fuel : ℕ) (s : PySet K) : Option (PySet K × Option PyErr) :=
  match pRange (pDegrees (pMesh (pPaths s))) with
  | (s, some x) => some (s, some x)
  | (s, none) => match pBins s with
    | (s, some x) => some (s, some x)
    | (s, none) => match pCutoff e s with
      | (s, some x) => some (s, some x)
      | (s, none) => match pForm s with
        | (s, some x) => some (s, some x)
        | (s, none) => pValidate e fuel true (pMisc s)

/-- `parameters.pyx:168-181, 257-263`: an assignment or update, which changes the dictionary by
`f` and then parses it. -/
def assign (e : Env K) (fuel : ℕ) (f : Dict K → Dict K) (s : PySet K) :
    Option (PySet K × Option PyErr) :=
  pParse e fuel { s with d := f s.d }

/-- `parameters.pyx:114-139`: construction from a dictionary. -/
def construct (e : Env K) (fuel : ℕ) (d : Dict K) : Option (PySet K × Option PyErr) :=
  pParse e fuel { d := d, c := Params.default }

/-- A history of assignments, each accepted or rejected. -/
def history (e : Env K) (fuel : ℕ) : List (Dict K → Dict K) → PySet K → Option (PySet K × Option PyErr)
  | [], s => some (s, none)
  | [f], s => assign e fuel f s
  | f :: g :: l, s => match assign e fuel f s with
    | none => none
    | some (s, _) => history e fuel (g :: l) s

/-- `twopt.py:462-467` (and `twopt.py:997-1002`, `threept.py:540-545, 1441-1446`): the box size
from the catalogue, set in the nested dictionary, followed by `_validate()`.  The entry
`catalogue.bounds[ax]` is a tuple `(min, max)` (`catalogue.py:702-708`), and a tuple times a Python
float (or `None`) is a `TypeError` before the first entry is written.  (The entry `expand` is a
float here; a Python integer, for which the tuple is repeated, is not modelled.) -/
def deriveBox (_bounds : Fin 3 → K × K) (s : PySet K) : Option (PySet K × Option PyErr) :=
  if (∃ i, s.d.box i = none) then some (s, some .typeError) else some (s, none)

/-- The same step with the spans in place of the bounds, as the comment in the source intends:
this is not the code, it is used to show that `_validate()` alone would not carry the box over. -/
def deriveBoxSpans (e : Env K) (fuel : ℕ) (bounds : Fin 3 → K × K) (s : PySet K) :
    Option (PySet K × Option PyErr) :=
  if (∃ i, s.d.box i = none) then
    pValidate e fuel false
      { s with d := { s.d with box := fun i => some (((bounds i).2 - (bounds i).1) * s.d.expand.getD 1) } }
  else some (s, none)

end
end Trv.Par

import Verif.Model.ParamsPy
import Mathlib.Logic.Function.Basic
/-
Model of the overriding of parameters before a Python measurement:
`_modify_sampling_parameters` and `_modify_measurement_parameters`
(`/repo/src/triumvirate/parameters.pyx` 640-863), `_amalgamate_parameters` (`twopt.py` 59-155,
`threept.py` 57-197) and the parameters of `record_binned_vectors` (`fieldmesh.py` 25-89).

The target of the overrides is a plain dictionary, whose assignments never fail, or a
`ParameterSet`, each of whose top-level assignments parses and validates the whole set.  The list
of unchanged defaults, which is only used for a warning, is in `Model/Defaults.lean`.  Sequences have three entries
and overriding values have the documented types.
-/
set_option linter.unusedSectionVars false
namespace Trv.Par
open Trv.Mon

/-- The entries of `params_sampling`; `none` for an absent key. -/
structure Sampling (K : Type) where
  expand : Option K := none
  alignment : Option String := none
  boxpad : Option K := none
  gridpad : Option K := none
  boxsize : Option (Fin 3 → K) := none
  ngrid : Option (Fin 3 → ℤ) := none
  assignment : Option String := none
  interlace : Option String := none
  cutoff : Option K := none

/-- The entries of `params_measure`; `none` for an absent key. -/
structure Measure (K : Type) where
  ell1 : Option ℤ := none
  ell2 : Option ℤ := none
  ELL : Option ℤ := none
  iWa : Option ℤ := none
  jWa : Option ℤ := none
  idxBin : Option ℤ := none
  form : Option String := none
  binMin : Option K := none
  binMax : Option K := none
  numBins : Option ℤ := none

/-- What is overridden: an object with top-level assignments (`set`), assignments inside nested
entries (`nested`) and look-ups in its dictionary. -/
structure Target (K σ : Type) where
  dict : σ → Dict K
  nested : (Dict K → Dict K) → σ → σ
  set : (Dict K → Dict K) → σ → Option (σ × Option PyErr)

section
variable {K : Type} [Field K] [LinearOrder K] [FloorRing K]

/-- A plain dictionary. -/
def dictTarget : Target K (Dict K) := ⟨id, fun f d => f d, fun f d => some (f d, none)⟩

/-- A `ParameterSet` (`parameters.pyx:168-181`). -/
def setTarget (e : Env K) (fuel : ℕ) : Target K (PySet K) :=
  ⟨PySet.d, fun f s => { s with d := f s.d }, fun f s => assign e fuel f s⟩

variable {σ : Type}

/-- Top-level assignments one after the other; an exception ends them. -/
def Target.sets (t : Target K σ) : List (Dict K → Dict K) → σ → Option (σ × Option PyErr)
  | [], s => some (s, none)
  | f :: l, s => match t.set f s with
    | none => none
    | some (s, some x) => some (s, some x)
    | some (s, none) => t.sets l s

/-- An assignment, if the key is present. -/
def edit {α : Type} (o : Option α) (f : α → Dict K → Dict K) : List (Dict K → Dict K) :=
  match o with
  | none => []
  | some a => [f a]

/-- `parameters.pyx:725-731`: the first assignments. -/
def sampling1 (m : Sampling K) : List (Dict K → Dict K) :=
  edit m.expand (fun a d => { d with expand := some a }) ++
  edit m.alignment (fun a d => { d with alignment := some a })

/-- `parameters.pyx:739-774`: the other assignments, in their order. -/
def sampling2 (m : Sampling K) : List (Dict K → Dict K) :=
  edit m.boxpad (fun _ d => { d with padscale := some "box" }) ++
  edit m.boxpad (fun a d => { d with padfactor := some a }) ++
  edit m.gridpad (fun _ d => { d with padscale := some "grid" }) ++
  edit m.gridpad (fun a d => { d with padfactor := some a }) ++
  edit m.boxsize (fun a d => { d with box := fun i => some (a i) }) ++
  edit m.ngrid (fun a d => { d with ngrid := fun i => some (a i) }) ++
  edit m.assignment (fun a d => { d with assignment := some a }) ++
  edit m.interlace (fun a d => { d with interlace := some a }) ++
  edit m.cutoff (fun a d => { d with cutoff := some a })

/-- `parameters.pyx:669-779`: `_modify_sampling_parameters`. -/
def modifySampling (t : Target K σ) (m : Sampling K) (s : σ) : Option (σ × Option PyErr) :=
  match t.sets (sampling1 m) s with
  | none => none
  | some (s, some x) => some (s, some x)
  | some (s, none) =>
    if (t.dict s).alignment = some "pad" ∧ m.boxpad.isSome ∧ m.gridpad.isSome then
      some (s, some .valueError)
    else t.sets (sampling2 m) s

/-- `parameters.pyx:836-843`: degrees and orders, inside nested entries. -/
def measureNested (m : Measure K) (d : Dict K) : Dict K :=
  { d with ell1 := m.ell1.or d.ell1, ell2 := m.ell2.or d.ell2, ELL := m.ELL.or d.ELL,
           iWa := m.iWa.or d.iWa, jWa := m.jWa.or d.jWa }

/-- `parameters.pyx:853-856`: the range, inside a nested list. -/
def measureRange (m : Measure K) (d : Dict K) : Dict K :=
  { d with binMin := m.binMin.or d.binMin, binMax := m.binMax.or d.binMax }

/-- `parameters.pyx:782-863`: `_modify_measurement_parameters`. -/
def modifyMeasure (t : Target K σ) (m : Measure K) (s : σ) : Option (σ × Option PyErr) :=
  match t.sets (edit m.idxBin (fun a d => { d with idxBin := some a }) ++
      edit m.form (fun a d => { d with form := some a })) (t.nested (measureNested m) s) with
  | none => none
  | some (s, some x) => some (s, some x)
  | some (s, none) =>
    t.sets (edit m.numBins (fun a d => { d with numBins := some a })) (t.nested (measureRange m) s)

/-- `twopt.py:142`, `threept.py:182`: the types, in one update. -/
def setTypes (cat stat : Option String) (d : Dict K) : Dict K :=
  { d with catType := cat.or d.catType, statType := stat.or d.statType }

/-- `twopt.py:122-126`, `threept.py:149-153`: the sampling overrides, if given. -/
def optSampling (t : Target K σ) (m : Option (Sampling K)) (s : σ) : Option (σ × Option PyErr) :=
  match m with
  | none => some (s, none)
  | some m => modifySampling t m s

/-- `twopt.py:121-142`, `threept.py:147-182`: `_amalgamate_parameters` once its target is chosen.  -/
def amalgamate (t : Target K σ) (m : Option (Sampling K)) (q : Measure K) (cat stat : Option String)
    (s : σ) : Option (σ × Option PyErr) :=
  match optSampling t m s with
  | none => none
  | some (s, some x) => some (s, some x)
  | some (s, none) => match modifyMeasure t q s with
    | none => none
    | some (s, some x) => some (s, some x)
    | some (s, none) => t.set (setTypes cat stat) s

/-- The arguments `degree` and `binning` of a two-point measurement (`twopt.py:128-137`). -/
def measure2 (degree : Option ℤ) (bins : Option (K × K × ℤ)) : Measure K :=
  { ELL := degree, binMin := bins.map (·.1), binMax := bins.map (·.2.1), numBins := bins.map (·.2.2) }

/-- The arguments of a three-point measurement (`threept.py:155-175`). -/
def measure3 (degrees : Option (ℤ × ℤ × ℤ)) (wa : Option (ℤ × ℤ)) (bins : Option (K × K × ℤ))
    (form : Option String) (idx : Option ℤ) : Measure K :=
  { ell1 := degrees.map (·.1), ell2 := degrees.map (·.2.1), ELL := degrees.map (·.2.2),
    iWa := wa.map (·.1), jWa := wa.map (·.2), binMin := bins.map (·.1), binMax := bins.map (·.2.1),
    numBins := bins.map (·.2.2), form := form, idxBin := idx }

/-- `resources/params_template.yml`: the template.  (`interlace: off` is a Boolean for the YAML
reader; the range is a list of two `None`.) -/
def template : Dict K :=
  { catDir := none, measDir := none, dataFile := none, randFile := none, tag := none,
    box := fun _ => none, ngrid := fun _ => none, expand := some 1, padfactor := none,
    alignment := some "centre", padscale := some "box", assignment := some "tsc",
    interlace := some "False", volume := 0, nmesh := 0, ell1 := none, ell2 := none,
    ELL := none, iWa := none, jWa := none, binMin := none, binMax := none,
    numBins := none, idxBin := none, cutoff := none, catType := none,
    statType := none, form := some "diag", norm := some "particle", binning := some "lin",
    assignOrder := none, space := none, npoint := none, scheme := some "measure",
    wisdom := some "False".toList, verbose := some 20, progbar := some "False".toList }

/-- `twopt.py:104-126`: a two-point measurement without a parameter set. -/
def amalgamate2None (m : Option (Sampling K)) (degree : Option ℤ) (bins : Option (K × K × ℤ))
    (cat stat : Option String) : Option (Dict K × Option PyErr) :=
  if m.isNone ∨ degree.isNone ∨ bins.isNone then some (template, some .valueError)
  else amalgamate dictTarget m (measure2 degree bins) cat stat template

/-- `threept.py:121-153`: a three-point measurement without a parameter set. -/
def amalgamate3None (m : Option (Sampling K)) (degrees : Option (ℤ × ℤ × ℤ)) (wa : Option (ℤ × ℤ))
    (bins : Option (K × K × ℤ)) (form : Option String) (idx : Option ℤ)
    (cat stat : Option String) : Option (Dict K × Option PyErr) :=
  if m.isNone ∨ degrees.isNone ∨ bins.isNone ∨ form.isNone then some (template, some .valueError)
  else if (form = some "row" ∨ form = some "off-diag") ∧ idx.isNone then
    some (template, some .valueError)
  else amalgamate dictTarget m (measure3 degrees wa bins form idx) cat stat template

/-- `fieldmesh.py:60-87`: the parameter set of `record_binned_vectors` given the binning, the box
and the mesh, without a parameter set. -/
def recordParams (e : Env K) (fuel : ℕ) (bins : K × K × ℤ) (box : Option (Fin 3 → K))
    (ngrid : Option (Fin 3 → ℤ)) : Option (PySet K × Option PyErr) :=
  let d : Dict K := { template with binMin := some bins.1, binMax := some bins.2.1,
                                    numBins := some bins.2.2, ell1 := some 0, ell2 := some 0,
                                    ELL := some 0 }
  if box.isNone ∨ ngrid.isNone then some (⟨d, Params.default⟩, some .valueError)
  else match modifySampling dictTarget { boxsize := box, ngrid := ngrid } d with
    | none => none
    | some (d, some x) => some (⟨d, Params.default⟩, some x)
    | some (d, none) => construct e fuel d

/-- Dictionaries and the parameter sets which refer to them (`parameters.pyx:134-136`: the
dictionary passed by the caller is stored, not a copy). -/
structure Shared (K : Type) where
  dicts : ℕ → Dict K
  ref : ℕ → ℕ
  cpp : ℕ → Params K

/-- The parameter set `i`. -/
def Shared.get (st : Shared K) (i : ℕ) : PySet K := ⟨st.dicts (st.ref i), st.cpp i⟩

/-- The parameter set `i` after a method left it in the state `s`. -/
def Shared.put (st : Shared K) (i : ℕ) (s : PySet K) : Shared K :=
  { st with dicts := Function.update st.dicts (st.ref i) s.d, cpp := Function.update st.cpp i s.c }

/-- `parameters.pyx:114-139`: the parameter set `i` is constructed from the dictionary `r`. -/
def Shared.construct (e : Env K) (fuel : ℕ) (i r : ℕ) (st : Shared K) :
    Option (Shared K × Option PyErr) :=
  let st := { st with ref := Function.update st.ref i r, cpp := Function.update st.cpp i Params.default }
  (pParse e fuel (st.get i)).map fun (s, x) => (st.put i s, x)

/-- `parameters.pyx:168-181, 257-263`: an assignment in the parameter set `i`. -/
def Shared.assign (e : Env K) (fuel : ℕ) (i : ℕ) (f : Dict K → Dict K) (st : Shared K) :
    Option (Shared K × Option PyErr) :=
  (Par.assign e fuel f (st.get i)).map fun (s, x) => (st.put i s, x)

end
end Trv.Par

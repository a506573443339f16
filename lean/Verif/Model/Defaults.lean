import Verif.Model.ParamsMod
/-
Model of the template of parameters (`fetch_paramset_template`,
`/repo/src/triumvirate/parameters.pyx`, lines 612-666) and of the bookkeeping of its unchanged defaults in
`_modify_sampling_parameters`, `_modify_measurement_parameters` (669-863) and `_amalgamate_parameters`
(`twopt.py` 59-155, `threept.py` 57-197), which ends in a warning.

Simplifications: a template is given by its text and its parsed items; the values of the items are those
`YVal` tells apart; Booleans are text as in `ParamsMod.template`.
-/
set_option linter.unusedSectionVars false
namespace Trv.Par
open Trv.Mon

/-- A value in a template. -/
inductive YVal (K : Type)
  | null
  | container
  | num (x : K)
  | int (n : ℤ)
  | text (s : Str)

/-- What `fetch_paramset_template` returns. -/
inductive Fetched (K : Type)
  | text (t : Str)
  | dict (d : List (Str × YVal K))
  | textAnd (t : Str) (defaults : List (Str × YVal K))
  | dictAnd (d : List (Str × YVal K)) (defaults : List (Str × YVal K))

/-- `parameters.pyx:653-658`: whether an item is kept as a default. -/
def YVal.isDefault {K : Type} : YVal K → Bool
  | .null => false
  | .container => false
  | _ => true

/-- `parameters.pyx:653-658`: the defaults of a template. -/
def defaultsOf {K : Type} (items : List (Str × YVal K)) : List (Str × YVal K) :=
  items.filter fun p => p.2.isDefault

/-- `parameters.pyx:641-666`: `fetch_paramset_template` for a template file with given text and items. -/
def fetchTemplate {K : Type} (text : Str) (items : List (Str × YVal K)) (format : Str) (retDefaults : Bool) :
    Except PyErr (Fetched K) :=
  if retDefaults = false ∧ lowerS format = "text".toList then .ok (.text text)
  else if retDefaults = false ∧ lowerS format = "dict".toList then .ok (.dict items)
  else if lowerS format = "text".toList then .ok (.textAnd text (defaultsOf items))
  else if lowerS format = "dict".toList then .ok (.dictAnd items (defaultsOf items))
  else .error .valueError

section
variable {K : Type} [Field K] [LinearOrder K] [FloorRing K]

/-- `resources/params_template.yml`: the items, in their order. -/
def templateItems : List (Str × YVal K) :=
  [("directories".toList, .container), ("files".toList, .container), ("catalogue_columns".toList, .container),
   ("catalogue_dataset".toList, .null), ("tags".toList, .container), ("boxsize".toList, .container),
   ("ngrid".toList, .container), ("expand".toList, .num 1), ("cutoff_nyq".toList, .null),
   ("alignment".toList, .text "centre".toList), ("padscale".toList, .text "box".toList),
   ("padfactor".toList, .null), ("assignment".toList, .text "tsc".toList),
   ("interlace".toList, .text "False".toList), ("catalogue_type".toList, .null),
   ("statistic_type".toList, .null), ("degrees".toList, .container), ("wa_orders".toList, .container),
   ("form".toList, .text "diag".toList), ("norm_convention".toList, .text "particle".toList),
   ("binning".toList, .text "lin".toList), ("range".toList, .container), ("num_bins".toList, .null),
   ("idx_bin".toList, .null), ("fftw_scheme".toList, .text "measure".toList),
   ("use_fftw_wisdom".toList, .text "False".toList), ("save_binned_vectors".toList, .text "False".toList),
   ("verbose".toList, .int 20), ("progbar".toList, .text "False".toList)]

/-- The values of a dictionary under the keys of scalar entries.  (`save_binned_vectors` is not an entry
of `Dict`; no override touches it.) -/
def entries (d : Dict K) : List (Str × Option (YVal K)) :=
  [("expand".toList, d.expand.map .num), ("cutoff_nyq".toList, d.cutoff.map .num),
   ("alignment".toList, d.alignment.map fun s => .text s.toList),
   ("padscale".toList, d.padscale.map fun s => .text s.toList), ("padfactor".toList, d.padfactor.map .num),
   ("assignment".toList, d.assignment.map fun s => .text s.toList),
   ("interlace".toList, d.interlace.map fun s => .text s.toList),
   ("catalogue_type".toList, d.catType.map fun s => .text s.toList),
   ("statistic_type".toList, d.statType.map fun s => .text s.toList),
   ("form".toList, d.form.map fun s => .text s.toList), ("norm_convention".toList, d.norm.map fun s => .text s.toList),
   ("binning".toList, d.binning.map fun s => .text s.toList), ("num_bins".toList, d.numBins.map .int),
   ("idx_bin".toList, d.idxBin.map .int), ("fftw_scheme".toList, d.scheme.map fun s => .text s.toList),
   ("use_fftw_wisdom".toList, d.wisdom.map .text), ("save_binned_vectors".toList, some (.text "False".toList)),
   ("verbose".toList, d.verbose.map .int), ("progbar".toList, d.progbar.map .text)]

/-- The key of an override, if it is present. -/
def popIf {α : Type} (o : Option α) (key : String) : List Str := if o.isSome then [key.toList] else []

/-- `parameters.pyx:725-774`: the keys popped from the defaults with the sampling overrides. -/
def samplingPops (m : Sampling K) : List Str :=
  popIf m.expand "expand" ++ popIf m.alignment "alignment" ++ popIf m.boxpad "padscale" ++
  popIf m.boxpad "padfactor" ++ popIf m.gridpad "padscale" ++ popIf m.gridpad "padfactor" ++
  popIf m.boxsize "boxsize" ++ popIf m.ngrid "ngrid" ++ popIf m.assignment "assignment" ++
  popIf m.interlace "interlace" ++ popIf m.cutoff "cutoff_nyq"

/-- `parameters.pyx:845-859`: the keys popped with the measurement overrides. -/
def measurePops (m : Measure K) : List Str :=
  popIf m.idxBin "idx_bin" ++ popIf m.form "form" ++ popIf m.numBins "num_bins"

/-- `params_default.pop(key, None)` for several keys. -/
def pops (keys : List Str) (defaults : List (Str × YVal K)) : List (Str × YVal K) :=
  defaults.filter fun p => decide (p.1 ∉ keys)

/-- `params_default.items() <= paramset.items()`. -/
def SubDict (defaults : List (Str × YVal K)) (d : Dict K) : Prop :=
  ∀ p ∈ defaults, (p.1, some p.2) ∈ entries d

open Classical in
/-- `parameters.pyx:669-779` with `params_default` for a plain dictionary (`none`: no result, as in
`modifySampling`). -/
noncomputable def modifySamplingD (m : Sampling K) (d : Dict K) (defaults : List (Str × YVal K)) :
    Option (Except PyErr (Dict K × List (Str × YVal K))) :=
  if ¬ SubDict defaults d then some (.error .valueError)
  else
    match modifySampling dictTarget m d with
    | some (d, none) => some (.ok (d, pops (samplingPops m) defaults))
    | some (_, some e) => some (.error e)
    | none => none

open Classical in
/-- `parameters.pyx:782-863` with `params_default` for a plain dictionary. -/
noncomputable def modifyMeasureD (m : Measure K) (d : Dict K) (defaults : List (Str × YVal K)) :
    Option (Except PyErr (Dict K × List (Str × YVal K))) :=
  if ¬ SubDict defaults d then some (.error .valueError)
  else
    match modifyMeasure dictTarget m d with
    | some (d, none) => some (.ok (d, pops (measurePops m) defaults))
    | some (_, some e) => some (.error e)
    | none => none

/-- `twopt.py:117-153`, `threept.py:143-192` without a parameter set: the dictionary and the defaults
warned about (no warning if there are none). -/
noncomputable def amalgamateD (m : Sampling K) (q : Measure K) (cat stat : Option String) :
    Option (Except PyErr (Dict K × List (Str × YVal K))) :=
  match modifySamplingD m template (defaultsOf templateItems) with
  | none => none
  | some (.error e) => some (.error e)
  | some (.ok (d, defaults)) =>
    match modifyMeasureD q d defaults with
    | none => none
    | some (.error e) => some (.error e)
    | some (.ok (d, defaults)) => some (.ok (setTypes cat stat d, defaults))

end

end Trv.Par

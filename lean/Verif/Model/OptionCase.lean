import Verif.Model.Session
import Verif.Model.ParamsPy
import Verif.Model.Header
/-
Model of the use which the Python measurement functions make of the textual options of a parameter set.
The entries of the Python parameter set are as given by the user (`parameters.pyx:403-413, 489-513` send a
lower-case copy to the C++ parameters and keep the entry), and they are compared as they are:
`src/triumvirate/twopt.py:489-505, 564-587, 1084-1101, 1496-1513` and
`src/triumvirate/threept.py:215-240, 566-582, 638-661, 1528-1545, 2012-2029`.

Simplifications: the box size and mesh numbers are given (they are never derived successfully, C28); an entry
which is absent is taken as an entry which is `None`.
-/
namespace Trv.Par

open Trv Trv.Cat Trv.Out

/-- What is called to align a pair of survey catalogues. -/
inductive AlignCall (K : Type)
  | leave
  | centre
  | padBox (factor : Option K)
  | padGrid (factor : Option K)
  deriving DecidableEq

/-- `twopt.py:489-505`, `threept.py:566-582`: which call is made.  If neither scale is recognised, `kwargs` is
unbound (`UnboundLocalError`, a `NameError`). -/
def alignCall {K : Type} (d : Dict K) : Except PyErr (AlignCall K) :=
  if d.alignment = some "centre" then .ok .centre
  else if d.alignment = some "pad" then
    if d.padscale = some "box" then .ok (.padBox d.padfactor)
    else if d.padscale = some "grid" then .ok (.padGrid d.padfactor)
    else .error .nameError
  else .ok .leave

variable {ι : Type} [DecidableEq ι]

/-- The call of `ParticleCatalogue.centre` or `ParticleCatalogue.pad`. -/
noncomputable def AlignCall.run (σ : Cat.Store ι ℝ) (data rand : ι) (L : V3 ℝ) (ngrid : Fin 3 → ℕ) :
    AlignCall ℝ → Except PyErr (Cat.Store ι ℝ)
  | .leave => .ok σ
  | .centre => Cat.centre σ data L (some rand)
  | .padBox f => Cat.pad σ data L none (f.map .num) none (some rand)
  | .padGrid f => Cat.pad σ data L (some ngrid) none (f.map .num) (some rand)

/-- `twopt.py:435-545`, `threept.py:515-615`: a survey measurement up to what is handed over to the C++
algorithm (as `Meas.run`, with the options read from the Python entries). -/
noncomputable def surveyRun (σ : Cat.Store ι ℝ) (data rand : ι) (losData losRand : Option (List (V3 ℝ)))
    (L : V3 ℝ) (ngrid : Fin 3 → ℕ) (d : Dict ℝ) : Except PyErr (Cat.Store ι ℝ × Feed) := do
  let ld := losData.getD (computeLos (σ data))
  let lr := losRand.getD (computeLos (σ rand))
  let call ← alignCall d
  let σ ← call.run σ data rand L ngrid
  .ok (σ, ⟨[(σ data).sent, (σ rand).sent], [ld, lr]⟩)

/-- `twopt.py:564-587, 1084-1101, 1496-1513`, `threept.py:638-661, 1528-1545, 2012-2029`: the normalisation
factor used, by the entry `norm_convention`. -/
noncomputable def factorOf {K : Type} (k : Out.Kind) (d : Dict K) (n : Norms) : Except PyErr ℝ :=
  match d.norm with
  | some conv => pyUsed k conv n
  | none => .error .nameError

/-- The entries read by `_get_measurement_filename` (`twopt.py:158-193`, `threept.py:196-240`). -/
def nameEntries {K : Type} (d : Dict K) : P :=
  { stat := d.statType.getD "", form := d.form.getD "", ell1 := d.ell1.getD 0, ell2 := d.ell2.getD 0,
    ELL := d.ELL.getD 0, iWa := d.iWa.getD 0, jWa := d.jWa.getD 0, idxBin := d.idxBin, tag := d.tag }

end Trv.Par

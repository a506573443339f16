import Verif.Model.EndToEnd
/-
Model of the measurement of a simulation in a periodic box from the catalogue in memory to the file: by the
program (`main/triumvirate.cpp:444-454, 499-790`), and by the Python functions (`twopt.py:953-1175`,
`threept.py:1397-1620`).

Simplifications: those of `Verif/Model/EndToEnd.lean`.
-/
namespace Trv.E2E

open Trv Trv.Par Trv.Mon Trv.Cat Trv.Prog Trv.Out

/-- The C++ functions called for a simulation by both, with the alpha contrast one
(`triumvirate.cpp:499-504, 515-547, 616-620, 649-653, 722-726, 776-780`, `twopt.py:1077-1083, 1139`,
`threept.py:1520-1526`). -/
structure BoxKern where
  norms : CppCat ℝ → Params ℝ → Except CppErr Norms
  compute : CppCat ℝ → Params ℝ → ℝ → Except CppErr (Res × ℕ)

/-- `triumvirate.cpp:444-454, 499-790`: the file of a simulation. -/
noncomputable def programBox (F : Fmt) (f3 : ℝ → Str) (A : BoxKern) (σ : CStore Which ℝ) (p : Params ℝ) :
    Except CppErr (List Str) := do
  let σ ← alignCats σ p
  let n ← A.norms (bare (σ .data)) p
  let k := Out.Kind.box (infoCpp (σ .data))
  let r ← A.compute (bare (σ .data)) p (cppUsed (hpCpp p) (cppNorms k (hpCpp p) n))
  .ok (cppSaved F f3 k (hpCpp p) n r.2 fun _ => r.1)

variable {ι : Type} [DecidableEq ι]

/-- `twopt.py:1023-1175`, `threept.py:1467-1620`: the text file of a simulation. -/
noncomputable def pythonBox (F : Fmt) (f3 : ℝ → Str) (A : BoxKern) (three : Bool) (src : ι → Str) (τ : Cat.Store ι ℝ)
    (data : ι) (s : PySet ℝ) : Except Fault (List Str) := do
  let x ← ofPy ((Meas.sim data fun i => (s.d.box i).getD 0).run τ)
  let τ := x.1
  match x.2.cats with
  | [sd] => do
    let cd ← ofCpp (toCpp sd)
    let n ← ofCpp (A.norms (bare cd) s.c)
    let k := Out.Kind.box (infoPy (src data) (τ data))
    let f ← ofPy (factorOf k s.d (pyNorms k three n))
    let r ← ofCpp (A.compute (bare cd) s.c f)
    ofPy (pySaved F f3 k three (hpPy s.d) n fun _ => r.1)
  | _ => .error (.py .valueError)

end Trv.E2E

import Verif.Model.ThreePcf
/-
Model of the two-point window function: `twopt.cpp:795-901`.
-/
namespace Trv.Two
open Trv.Mesh Trv.Stats Trv.Win

/-- `twopt.cpp:795-901`: `compute_corrfunc_window`. -/
noncomputable def computeCorrfuncWindow (E : Env) (rand : List Part) (alpha norm : ℝ) : List (Row ℂ) :=
  let dn00 := fourier E.mesh (Zeta.nField E rand alpha 0 0)
  output E norm <| sumOrders E fun M m1 =>
    statsConfig E (fourier E.mesh (Zeta.nField E rand alpha E.ELL M)) dn00
      (shotAmp2One E rand alpha E.ELL M) E.ELL m1

end Trv.Two

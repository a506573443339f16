import Verif.Model.EndToEndBox
import Verif.Spec.EndToEnd
/-
Specification of the agreement of the program and the Python functions on simulations.
-/
namespace Trv.E2E

open Trv Trv.Cat Trv.Par

/-- The results have the arrays of the statistic, of the dimension returned. -/
def BoxKern.Fits (A : BoxKern) : Prop :=
  ∀ c p f r, A.compute c p f = .ok r → r.1.Fits p.statType r.2

/-- The particles surround the middle of the box and span less than three boxes. -/
def Centred (c : PyCat ℝ) (L : V3 ℝ) : Prop :=
  ∀ i, (c.bounds i).1 + (c.bounds i).2 = L i ∧ (c.bounds i).2 - (c.bounds i).1 < 3 * L i

/-- The sum in the normalisation from particles (`twopt.cpp:64-77`; the same with a cube for three points,
`threept.cpp:104-117`). -/
noncomputable def densitySum (n : ℕ) (c : CppCat ℝ) : ℝ :=
  (c.particles.map fun q => q.ws * q.nz ^ (n - 1) * q.wc ^ n).sum

/-- With these parameters the normalisation from particles throws if its sum is zero, whichever convention is
chosen (`twopt.cpp:79-92`, `threept.cpp:119-132`); nothing else fails. -/
structure BoxKern.Strict (A : BoxKern) (n : ℕ) (p : Params ℝ) : Prop where
  zero : ∀ c, densitySum n c = 0 → A.norms c p = .error .invalidData
  ok : ∀ c, densitySum n c ≠ 0 → ∃ x, A.norms c p = .ok x
  compute : ∀ c f, ∃ r, A.compute c p f = .ok r

end Trv.E2E

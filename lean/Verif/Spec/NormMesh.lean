import Verif.Model.Params
/-
Which accepted parameters can be used for a mixed-mesh normalisation.
-/
namespace Trv.Prog

open Trv.Par

/-- The least even number of cells which cover a length. -/
def LeastEvenCover {K : Type} [Field K] [LinearOrder K] (cell len : K) (n : ℤ) : Prop :=
  IsLeast {k : ℤ | 2 ∣ k ∧ len ≤ (k : K) * cell} n

/-- What the normalisation mesh of `n` cells asks of the parameters of the measurement: a planner
scheme which makes wisdom, although none is used, and a padding which fits the normalisation mesh,
although it is meant for another. -/
def Normalisable {K : Type} [Field K] [LinearOrder K] (p : Params K) (n : ℤ) : Prop :=
  p.scheme ≠ "estimate" ∧ (p.alignment = "pad" → p.padscale = "grid" → p.padfactor < (n : K))

end Trv.Prog

import Verif.Model.Bispec
import Verif.Spec.FieldStats
/-
Specification of the agreement of recorded vectors and measurements.
-/
namespace Trv.Two
open Trv.Mesh Trv.Stats Trv.Binning

/-- A binning object is that of a measurement: the same bins, ordered, up to its maximum. -/
structure SameBins (E : Env) (B : Cpp ℝ) (s : Space) : Prop where
  space : B.space = s
  num : B.numBins = E.numBins
  edges : B.edges = E.edges
  ordered : ∀ b, b < E.numBins → E.edges.getD b 0 ≤ E.edges.getD (b + 1) 0
  top : E.edges.getD E.numBins 0 ≤ B.binMax

/-- The recorded vectors of a bin. -/
def ofBin (vs : List (Rec ℝ)) (i : ℤ) : List (Rec ℝ) := vs.filter fun r => decide (r.idx = i)

/-- The mean length of recorded vectors, or a given value if there is none. -/
noncomputable def meanLength (vs : List (Rec ℝ)) (centre : ℝ) : ℝ :=
  if vs.length = 0 then centre else (vs.map fun r => mag r.vec).sum / (vs.length : ℝ)

/-- The edges of all bins are whole multiples of a length, up to a number of them. -/
def OnGrid (E : Env) (d : ℝ) (ns : ℕ) : Prop :=
  ∀ b, b ≤ E.numBins → ∃ k : ℕ, E.edges.getD b 0 = k * d ∧ k ≤ ns

end Trv.Two

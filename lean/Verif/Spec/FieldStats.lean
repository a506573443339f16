import Verif.Model.FieldStats
import Mathlib.Algebra.BigOperators.Group.List.Basic
/-
Specification of binned statistics.
-/
set_option linter.unusedSectionVars false
namespace Trv.Stats
variable {K : Type} [Field K] [LinearOrder K] [IsStrictOrderedRing K] [FloorRing K]

/-- A bin `[lower, upper)` contains a length. -/
def inBin (lower upper x : K) : Bool := decide (lower ≤ x ∧ x < upper)

/-- The statistics of a list of modes: number, mean length and mean value, or the bin centre if
there is none. -/
def IsStat {V : Type} [AddCommGroup V] [Module K V] (centre : K) (ms : List (Mode K V))
    (b : Bin K V) : Prop :=
  b.num = ms.length ∧
  (ms ≠ [] → (ms.length : K) * b.len = (ms.map Mode.len).sum ∧
    (ms.length : K) • b.val = (ms.map Mode.val).sum) ∧
  (ms = [] → b.len = centre ∧ b.val = 0)

/-- A record is right: it is the bin of its vector. -/
def Rec.Right (mag : (Fin 3 → K) → K) (edges : List K) (numBins : ℤ) (r : Rec K) : Prop :=
  0 ≤ r.idx ∧ r.idx < numBins ∧ r.lower = edges.getD r.idx.toNat 0 ∧
  r.upper = edges.getD (r.idx.toNat + 1) 0 ∧ r.lower ≤ mag r.vec ∧ mag r.vec < r.upper

/-- A length lies in some bin. -/
def inSomeBin (edges : List K) (numBins : ℤ) (x : K) : Bool :=
  (List.range numBins.toNat).any fun b => inBin (edges.getD b 0) (edges.getD (b + 1) 0) x

end Trv.Stats

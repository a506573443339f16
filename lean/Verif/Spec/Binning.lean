import Mathlib.Algebra.Order.Field.Basic
import Mathlib.Logic.ExistsUnique
/-
What a binning is, independently of how it is set up.
-/
namespace Trv.Binning

variable {K : Type} [Field K] [LinearOrder K]

/-- Edges, centres and widths describe `n` adjacent bins from `lo` to `hi`. -/
structure IsBinning (lo hi : K) (n : ℕ) (edges centres widths : List K) : Prop where
  edges_length : edges.length = n + 1
  centres_length : centres.length = n
  widths_length : widths.length = n
  first : edges[0]? = some lo
  last : edges[n]? = some hi
  increasing : edges.Pairwise (· < ·)
  centre : ∀ i a b, edges[i]? = some a → edges[i + 1]? = some b → centres[i]? = some ((a + b) / 2)
  width : ∀ i a b, edges[i]? = some a → edges[i + 1]? = some b → widths[i]? = some (b - a)

/-- Every value of the range is in exactly one bin. -/
def Partitions (lo hi : K) (n : ℕ) (edges : List K) : Prop :=
  ∀ x, lo ≤ x → x < hi → ∃! i : ℕ, i < n ∧ ∃ a b, edges[i]? = some a ∧ edges[i + 1]? = some b ∧
    a ≤ x ∧ x < b

end Trv.Binning

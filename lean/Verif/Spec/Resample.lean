import Verif.Model.Resample
/-
Specification vocabulary for resampling: points which are evenly spaced, linearly or logarithmically.
-/
namespace Trv.Wc

/-- Neighbouring points have the same difference, or the same ratio. -/
def Even (sp : Spacing) (y : List ℝ) : Prop :=
  match sp with
  | .lin => ∃ d, ∀ i, i + 1 < y.length → y.getD (i + 1) 0 = y.getD i 0 + d
  | .lglin => ∃ r, 0 < r ∧ ∀ i, i + 1 < y.length → y.getD (i + 1) 0 = y.getD i 0 * r

/-- Points which increase, and are positive for logarithmic spacing. -/
def Rising (sp : Spacing) (x : List ℝ) : Prop :=
  x.Pairwise (· < ·) ∧ match sp with
    | .lin => True
    | .lglin => ∀ v ∈ x, 0 < v

/-- The points `y` are `n` evenly spaced points from the first to the last of `x`. -/
def Respaced (sp : Spacing) (x y : List ℝ) (n : ℕ) : Prop :=
  y.length = n ∧ Rising sp y ∧ Even sp y ∧ y.head? = x.head? ∧ y.getLast? = x.getLast?

end Trv.Wc

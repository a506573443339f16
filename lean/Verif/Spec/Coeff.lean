import Verif.Model.Multipole
import Mathlib.Algebra.Group.Nat.Even
/-
Specification vocabulary for the coefficients of the three-point window convolution.
-/
namespace Trv.Wc

/-- The multipole of three degrees. -/
def mp (l : ℕ × ℕ × ℕ) : Multipole := ⟨[l.1, l.2.1, l.2.2]⟩

/-- Degrees which three spherical harmonics of orders zero can have for the integral of their product over the
sphere not to vanish: none exceeds the sum of the others, and their sum is even. -/
def Allowed (a b c : ℕ) : Prop := a ≤ b + c ∧ b ≤ c + a ∧ c ≤ a + b ∧ Even (a + b + c)

end Trv.Wc

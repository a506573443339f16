import Mathlib.MeasureTheory.Integral.IntervalIntegral.Basic
import Mathlib.Analysis.SpecialFunctions.Complex.Circle
/-
Specification of the spherical Bessel functions of the first kind.
-/
namespace Trv.Sbc

/-- Legendre polynomials, by Bonnet's recursion. -/
noncomputable def legendre : ℕ → ℝ → ℝ
  | 0, _ => 1
  | 1, x => x
  | l + 2, x => ((2 * l + 3) * x * legendre (l + 1) x - (l + 1) * legendre l x) / (l + 2)

/-- The spherical Bessel functions as Fourier transforms of Legendre polynomials,
`j_l(x) = (-i)^l / 2 ∫ e^{i x μ} P_l(μ) dμ` over `-1 ≤ μ ≤ 1`. -/
noncomputable def sphBessel (l : ℕ) (x : ℝ) : ℝ :=
  ((-Complex.I) ^ l * (1 / 2 * ∫ mu in (-1 : ℝ)..1, Complex.exp (Complex.I * x * mu) * (legendre l mu : ℂ))).re

end Trv.Sbc

import Verif.Model.Fftlog
import Mathlib.Analysis.SpecialFunctions.Gamma.Basic
import Mathlib.Analysis.SpecialFunctions.Pow.Complex
/-
Specification of the FFTLog transforms, independent of the code.
-/
namespace Trv.Fft

/-- The log-gamma function gives the modulus and phase of the gamma function away from its poles. -/
def LgOk (G : LnGamma) : Prop :=
  ∀ x y : ℝ, (∀ n : ℕ, (x : ℂ) + y * Complex.I ≠ -n) →
    (Real.exp (G x y).1 : ℂ) * Complex.exp ((G x y).2 * Complex.I) =
      Complex.Gamma (x + y * Complex.I)

/-- The Hankel transform `∫ x^ν J_μ(x) dx` of a power law, by analytic continuation. -/
noncomputable def powerLaw (mu : ℝ) (nu : ℂ) : ℂ :=
  2 ^ nu * Complex.Gamma ((mu + 1 + nu) / 2) / Complex.Gamma ((mu + 1 - nu) / 2)

/-- Logarithmically spaced points. -/
noncomputable def geometric (r0 d : ℝ) (N : ℕ) : List ℝ :=
  (List.range N).map fun j : ℕ => r0 * Real.exp (j * d)

end Trv.Fft

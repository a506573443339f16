import Verif.Model.WinConv
import Mathlib.Algebra.Polynomial.Eval.Defs
import Mathlib.MeasureTheory.Integral.IntervalIntegral.Basic
import Mathlib.Data.Real.Basic
/-
Specification vocabulary for the window convolution: Legendre multipoles, interpolation which
reproduces samples and constants.
-/
namespace Trv.Wc

open Polynomial

/-- Legendre polynomials, by the recurrence of Bonnet. -/
noncomputable def legendre : ℕ → ℝ[X]
  | 0 => 1
  | 1 => X
  | n + 2 => C (1 / ((n : ℝ) + 2)) * (C (2 * (n : ℝ) + 3) * X * legendre (n + 1) -
      C ((n : ℝ) + 1) * legendre n)

/-- Multipole of degree `l` of a function of the cosine of the angle to the line of sight. -/
noncomputable def multipole (l : ℕ) (f : ℝ → ℝ) : ℝ :=
  (2 * l + 1) / 2 * ∫ mu in (-1 : ℝ)..1, f mu * (legendre l).eval mu

/-- The function with given multipoles. -/
noncomputable def fromMultipoles (N : ℕ) (c : ℕ → ℝ) (mu : ℝ) : ℝ :=
  ∑ l ∈ Finset.range N, c l * (legendre l).eval mu

/-- Interpolation at increasing points reproduces the samples at the points and reproduces
constants. -/
structure Interp.Ok {K : Type} [Field K] [LinearOrder K] (I : Interp K) : Prop where
  knot : ∀ ext x, x.Pairwise (· < ·) → ∀ i j, i < x.length → j < x.length →
    I.uni ext x (x.getD j 0) i = if i = j then 1 else 0
  unit : ∀ ext x, x.Pairwise (· < ·) → x ≠ [] → ∀ p, ∑ i ∈ Finset.range x.length, I.uni ext x p i = 1
  knot2 : ∀ x, x.Pairwise (· < ·) → ∀ i j, i < x.length → j < x.length →
    I.biv x (x.getD j 0) i = if i = j then 1 else 0
  unit2 : ∀ x, x.Pairwise (· < ·) → x ≠ [] → ∀ p, ∑ i ∈ Finset.range x.length, I.biv x p i = 1

end Trv.Wc

import Verif.Model.Multipole
import Mathlib.MeasureTheory.Integral.IntervalIntegral.Basic
import Mathlib.Analysis.SpecialFunctions.Trigonometric.Basic
/-
Specification vocabulary for the three-point window convolution: functions of two directions and the
line of sight, their average over directions, the tripolar basis of Sugiyama et al. (2019) up to the
degrees which the built-in formula uses, and the multipoles of such a function.

A function of two directions and the line of sight which does not change under rotations of all three
is a function of the cosines `u` and `v` of the angles to the line of sight and of the difference `phi`
of the azimuths; the uniform measure on directions is `du dv dphi / (8 pi)`.
-/
namespace Trv.Wc

open Real

/-- Average over directions. -/
noncomputable def average (F : ℝ → ℝ → ℝ → ℝ) : ℝ :=
  1 / (8 * π) * ∫ u in (-1 : ℝ)..1, ∫ v in (-1 : ℝ)..1, ∫ phi in (0 : ℝ)..(2 * π), F u v phi

/-- Scalar product of the two directions. -/
noncomputable def dot (u v phi : ℝ) : ℝ := u * v + √(1 - u ^ 2) * √(1 - v ^ 2) * cos phi

/-- The tripolar basis functions: Legendre polynomials of the three scalar products for the
multipoles with one vanishing degree, and the remaining one of degrees (1, 1, 2). -/
noncomputable def tripole (m : Multipole) (u v phi : ℝ) : ℝ :=
  if m = m000 then 1
  else if m = m110 then dot u v phi
  else if m = m202 then (3 * u ^ 2 - 1) / 2
  else if m = m022 then (3 * v ^ 2 - 1) / 2
  else if m = m112 then 3 / 2 * u * v - 1 / 2 * dot u v phi
  else 0

/-- Multipole of a function of directions: its component along the basis function. -/
noncomputable def multipole3 (m : Multipole) (F : ℝ → ℝ → ℝ → ℝ) : ℝ :=
  average (fun u v phi => F u v phi * tripole m u v phi) /
    average (fun u v phi => tripole m u v phi * tripole m u v phi)

/-- The function with given multipoles. -/
noncomputable def fromTripoles (c : Multipole → ℝ) (u v phi : ℝ) : ℝ :=
  c m000 + c m110 * tripole m110 u v phi + c m022 * tripole m022 u v phi + c m112 * tripole m112 u v phi +
    c m202 * tripole m202 u v phi

end Trv.Wc

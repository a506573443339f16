import Verif.Model.Window
import Mathlib.MeasureTheory.Integral.IntervalIntegral.FundThmCalculus
/-
Specification of the shot-noise aliasing function, independent of the closed forms: the power of
the weights which the assignment gives to a single particle, averaged over its position in a cell.
-/
namespace Trv.Win
open Trv.Mesh

/-- The Fourier phase of cell `c` for the mode `k` on an axis with `n` cells. -/
noncomputable def phase (n k c : ℤ) : ℂ :=
  Complex.exp (((-(2 * Real.pi * k / n * c) : ℝ) : ℂ) * Complex.I)

/-- The discrete Fourier transform of the weights on one axis of a particle at `loc`. -/
noncomputable def weightTransform (sch : Scheme) (n k : ℤ) (loc : ℝ) : ℂ :=
  ((axisStencil sch n loc).map fun a => (a.2 : ℂ) * phase n k a.1).sum

/-- The power of the weights averaged over positions in the cell `l`. -/
noncomputable def meanPower (sch : Scheme) (n k l : ℤ) : ℝ :=
  ∫ s in (0 : ℝ)..1, Complex.normSq (weightTransform sch n k ((l : ℝ) + s))

/-- The explicit form of a reduced spherical harmonic, with the direction in the equatorial plane
as a complex number instead of an angle. -/
noncomputable def harmonic (P : ℕ → ℕ → ℝ → ℝ) (ell : ℕ) (m : ℤ) (x y z : ℝ) : ℂ :=
  let rxy := Real.sqrt (x * x + y * y)
  let e : ℂ := (x - y * Complex.I) / rxy
  (if m < 0 then (-1) ^ m.natAbs else 1) * (Real.sqrt (4 * Real.pi / (2 * ell + 1)) : ℂ) *
    (P ell m.natAbs (z / Real.sqrt (x * x + y * y + z * z)) : ℂ) * e ^ m

end Trv.Win

namespace Trv.Win
open Trv.Mesh

/-- The transform of the weights of a particle relative to its own position, averaged over
positions in the cell `l`: the damping of the mode `k` by the assignment. -/
noncomputable def meanWeight (sch : Scheme) (n k l : ℤ) : ℂ :=
  ∫ s in (0 : ℝ)..1, weightTransform sch n k ((l : ℝ) + s) *
    Complex.exp (((2 * Real.pi * k / n * ((l : ℝ) + s) : ℝ) : ℂ) * Complex.I)

end Trv.Win

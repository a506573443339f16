import Verif.Spec.ThreePcf
/-
Specification of the wide-angle corrections of the three-point window function: the field at the
vertex is weighted by a power of the distance of its cell.
-/
namespace Trv.Zeta
open Trv.Mesh Trv.Stats Trv.Win Trv.Two Trv.ThreePt Trv.Bis

/-- The weight `r^(-i-j)` of a cell at distance `r`; cells closer than `1e-6` are not weighted. -/
noncomputable def powerLaw (i j : ℕ) (r : ℝ) : ℝ := if r < 1 / 1000000 then 1 else 1 / r ^ (i + j)

/-- The field in configuration space, compensated for the assignment window. -/
noncomputable def restored (E : Env3) (f : ℤ → ℂ) (x : ℤ × ℤ × ℤ) : ℂ :=
  (∑ k ∈ allModes E.mesh.n, comp E f k * phase3 E.mesh.n 1 x k) / (vol E.mesh : ℂ)

/-- The Fourier modes of the restored field weighted by the power of the distance of its cells. -/
noncomputable def weighted (E : Env3) (i j : ℕ) (f : ℤ → ℂ) (k : ℤ × ℤ × ℤ) : ℂ :=
  (E.mesh.volCell : ℂ) * ∑ x ∈ allModes E.mesh.n,
    (powerLaw i j (mag (rvec E.mesh x)) : ℂ) * restored E f x * phase3 E.mesh.n (-1) k x

end Trv.Zeta

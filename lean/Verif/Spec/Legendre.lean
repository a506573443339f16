import Verif.Spec.TwoPtSums
import Verif.Spec.WinConv
import Mathlib.Algebra.Polynomial.Derivative
/-
Specification of multipoles with respect to lines of sight: Legendre polynomials of the angle
between a vector and a line of sight.
-/
namespace Trv.Two
open Trv.Mesh Trv.Stats Trv.Win Polynomial

/-- The normalised associated Legendre functions,
`(-1)^m sqrt((2l+1)/(4π) (l-m)!/(l+m)!) (1-μ^2)^(m/2) d^m L_l(μ)/dμ^m`. -/
noncomputable def sphP (l m : ℕ) (mu : ℝ) : ℝ :=
  (-1) ^ m * Real.sqrt ((2 * l + 1) / (4 * Real.pi) * ((l - m).factorial / (l + m).factorial)) *
    (Real.sqrt (1 - mu ^ 2) ^ m * (derivative^[m] (Wc.legendre l)).eval mu)

/-- The special functions return their values: the normalised associated Legendre functions, and
the Wigner symbols with a zero degree. -/
structure Special (E : Env) : Prop where
  legendre : ∀ (l m : ℕ) (mu : ℝ), m ≤ l → |mu| ≤ 1 → E.P l m mu = sphP l m mu
  wigner : ∀ m M : ℤ, |m| ≤ E.ELL → |M| ≤ E.ELL → E.w3j E.ELL 0 E.ELL m 0 M =
    if m + M = 0 then (-1) ^ (E.ELL + m.natAbs) / Real.sqrt (2 * E.ELL + 1) else 0

/-- The scalar product. -/
def dot (u v : Fin 3 → ℝ) : ℝ := u 0 * v 0 + u 1 * v 1 + u 2 * v 2

/-- The Legendre polynomial of the cosine of the angle between two vectors (no angle if either is
zero). -/
noncomputable def legAngle (ell : ℕ) (u v : Fin 3 → ℝ) : ℝ :=
  if ell = 0 then 1 else if u = 0 ∨ v = 0 then 0
  else (Wc.legendre ell).eval (dot u v / (mag u * mag v))

/-- A vector which is zero, along the `z` axis, or inclined, by more than the threshold `1e-9`. -/
def Resolved (v : Fin 3 → ℝ) : Prop :=
  v = 0 ∨ (v 0 = 0 ∧ v 1 = 0 ∧ (1 : ℝ) / 1000000000 ≤ |v 2|) ∨
    (1 : ℝ) / 1000000000 ≤ Real.sqrt (v 0 * v 0 + v 1 * v 1)

/-- The transform of a particle of unit weight, at a mode. -/
noncomputable def unitMode (E : Env) (x : Fin 3 → ℝ) (c : ℤ × ℤ × ℤ) : ℂ :=
  fourier E.mesh (assignField E.sch E.mesh E.interlace [⟨x, fun b => if b then 0 else 1⟩]) (gid E.mesh.n c)

/-- The fluctuations at a mode: the sum over the particles of data and (with weights multiplied by
`-alpha`) randoms, each given the factor `f` of its line of sight. -/
noncomputable def fluctuation (E : Env) (f : (Fin 3 → ℝ) → ℝ) (data rand : List Part) (alpha : ℝ)
    (c : ℤ × ℤ × ℤ) : ℂ :=
  (data.map fun p => ((f p.los * p.w : ℝ) : ℂ) * unitMode E p.pos c).sum -
    (alpha : ℂ) * (rand.map fun p => ((f p.los * p.w : ℝ) : ℂ) * unitMode E p.pos c).sum

/-- The self-contribution of the particles, each given the factor `f` of its line of sight. -/
noncomputable def selfNoise (f : (Fin 3 → ℝ) → ℝ) (data rand : List Part) (alpha : ℝ) : ℝ :=
  (data.map fun p => f p.los * p.w ^ 2).sum + alpha ^ 2 * (rand.map fun p => f p.los * p.w ^ 2).sum

/-- The points of a catalogue, with weights multiplied by `a` and, as first member of a pair, by the
Legendre polynomial of the angle between the separation and the line of sight. -/
noncomputable def pointsAngle (E : Env) (u : Fin 3 → ℝ) (a : ℝ) (ps : List Part) : List Zeta.Point :=
  ps.map fun p => ⟨Zeta.nearest E.mesh p.pos, ((a * (legAngle E.ELL u p.los * p.w) : ℝ) : ℂ), a * p.w⟩

/-- The upper edge of bin `i`, with the rounding of wavenumbers, is below the Nyquist wavenumber. -/
def BelowNyquist (E : Env) (i : ℕ) : Prop :=
  ∀ a, E.edges.getD (i + 1) 0 + 1 / 100000 ≤ Real.pi * E.mesh.n a / E.mesh.L a

end Trv.Two

import Verif.Spec.Legendre
import Verif.Spec.NoiseOrders
/-
Specification of three-point multipoles with a vanishing degree: Legendre moments of triangles.
-/
namespace Trv.Zeta
open Trv.Mesh Trv.Stats Trv.Win Trv.Two Trv.ThreePt Trv.Bis

/-- The special functions: the associated Legendre functions at their values; the Wigner symbols with their
symmetries, and with their values when a degree vanishes. -/
structure Special3 (E : Env3) : Prop where
  legendre : E.P = sphP
  symmetric : WignerLike E.w3j
  last : ∀ (l : ℕ) (m : ℤ), |m| ≤ l →
    E.w3j l l 0 m (-m) 0 = (-1) ^ (l + m.natAbs) / Real.sqrt (2 * l + 1)
  middle : ∀ (l : ℕ) (m : ℤ), |m| ≤ l →
    E.w3j l 0 l m 0 (-m) = (-1) ^ (l + m.natAbs) / Real.sqrt (2 * l + 1)

open Classical in
/-- The mean over pairs of modes in two bins of a function of the closed triangle which they span. -/
noncomputable def meanTriangles (E : Env3) (row col : ℤ) (g : ℤ × ℤ × ℤ → ℤ × ℤ × ℤ → ℤ × ℤ × ℤ → ℂ) : ℂ :=
  (∑ a ∈ binModes E row, ∑ b ∈ binModes E col, ∑ c ∈ (allModes E.mesh.n).filter (Closed E.mesh.n a b), g a b c) /
    ((binModes E row).card * (binModes E col).card : ℂ)

/-- The fluctuations at a mode, each particle given the factor `f` of its line of sight, compensated for the
assignment window. -/
noncomputable def delta (E : Env3) (data rand : List Part) (f : (Fin 3 → ℝ) → ℝ) (c : ℤ × ℤ × ℤ) : ℂ :=
  fluctuation E.toEnv f data rand (alphaOf data rand) c /
    (windowFresh E.mesh.n c.1 c.2.1 c.2.2 (orderOf E.sch) : ℂ)

/-- The fluctuations of a periodic box at a mode, compensated for the assignment window. -/
noncomputable def deltaBox (E : Env3) (pos : List (Fin 3 → ℝ)) (c : ℤ × ℤ × ℤ) : ℂ :=
  fourier E.mesh (fluctuations E.sch E.mesh E.interlace pos) (gid E.mesh.n c) /
    (windowFresh E.mesh.n c.1 c.2.1 c.2.2 (orderOf E.sch) : ℂ)

open Classical in
/-- The integral over non-zero separations of a correlation with two spherical Bessel functions. -/
noncomputable def overSeparations (E : Env3) (F : NoiseFields) (l : ℕ) (row col : ℤ) : ℂ :=
  (∑ c ∈ allModes E.mesh.n, if rvec E.mesh c = 0 then 0 else corr E.toEnv (F.fLM 0) F.q (F.s 0) c *
    ((E.sj l (meanWavenumber E row * mag (rvec E.mesh c)) * E.sj l (meanWavenumber E col * mag (rvec E.mesh c)) : ℝ) : ℂ)) *
    (E.mesh.volCell : ℂ)

end Trv.Zeta

import Verif.Spec.TwoPtSums
/-
Specification of the shot noise of the bispectrum: the contributions of one particle at three, or at
two, of the corners of a triangle.
-/
namespace Trv.Zeta
open Trv.Mesh Trv.Stats Trv.Win Trv.Two Trv.ThreePt Trv.Bis

/-- The fields of the shot noise: the fluctuations, the multipoles of the fluctuations, the
squared-weight density and its multipoles, and the cubed weights. -/
structure NoiseFields where
  f : ℤ → ℂ
  fLM : ℤ → ℤ → ℂ
  q : ℤ → ℂ
  qLM : ℤ → ℤ → ℂ
  s : ℤ → ℂ

/-- The mean over the modes of a bin of the power of two fields less its own shot noise, with the
harmonic of the mode: two corners coincide, away from the side of the bin. -/
noncomputable def pairNoise (E : Env3) (fa fb : ℤ → ℂ) (amp : ℂ) (ell : ℕ) (m b : ℤ) : ℂ :=
  meanOver (modesIn E.toEnv b.toNat) fun c =>
    (power E.toEnv fa fb c - amp * (E.alias_ c : ℂ) / (E.win c : ℂ)) * E.ylm ell m (kvec E.mesh c)

/-- The integral over separations of the correlation of two fields less its own shot noise, with two
harmonics and two spherical Bessel functions: the corners opposite to the two sides coincide. -/
noncomputable def sepNoise (E : Env3) (fa fb : ℤ → ℂ) (amp : ℂ) (t : Triplet) (ka kb : ℝ) : ℂ :=
  (∑ c ∈ allModes E.mesh.n, corr E.toEnv fa fb amp c *
    ((E.sj E.ell1 (ka * mag (rvec E.mesh c)) * E.sj E.ell2 (kb * mag (rvec E.mesh c)) : ℝ) : ℂ) *
    (E.ylm E.ell1 t.m1 (rvec E.mesh c) * E.ylm E.ell2 t.m2 (rvec E.mesh c))) * (E.mesh.volCell : ℂ)

/-- The mean wavenumber of the modes of a bin. -/
noncomputable def meanWavenumber (E : Env3) (b : ℤ) : ℝ :=
  (∑ c ∈ binModes E b, mag (kvec E.mesh c)) / (binModes E b).card

/-- The four contributions at a triplet of orders: all three corners coincide (without degrees at the
two sides); the corner between the second and the third side coincides with another (without a
degree at the second side), and likewise for the first side; the last two corners coincide. -/
noncomputable def noiseAt (E : Env3) (F : NoiseFields) (t : Triplet) (row col : ℤ) : ℂ :=
  (if E.ell1 = 0 ∧ E.ell2 = 0 then F.s t.M else 0) +
  (if E.ell2 = 0 then mirrored (fMirror E t) (pairNoise E F.f (F.qLM t.M) (F.s t.M) E.ell1 t.m1 row) else 0) +
  (if E.ell1 = 0 then mirrored (fMirror E t) (pairNoise E F.f (F.qLM t.M) (F.s t.M) E.ell2 t.m2 col) else 0) +
  Complex.I ^ (E.ell1 + E.ell2) * mirrored (fMirrorW3j t)
    (sepNoise E (F.fLM t.M) F.q (F.s t.M) t (meanWavenumber E row) (meanWavenumber E col))

/-- The fields of a survey. -/
noncomputable def surveyNoise (E : Env3) (data rand : List Part) : NoiseFields where
  f := fourier E.mesh (dnField E.toEnv data rand (alphaOf data rand) 0 0)
  fLM := fun M => fourier E.mesh (dnField E.toEnv data rand (alphaOf data rand) E.ELL M)
  q := fourier E.mesh (quadField E.toEnv data rand (alphaOf data rand) 0 0)
  qLM := fun M => fourier E.mesh (quadField E.toEnv data rand (alphaOf data rand) E.ELL M)
  s := fun M => shotAmp3 E.toEnv data rand (alphaOf data rand) E.ELL M

/-- The fields of a periodic box: fluctuations, counts and number of particles. -/
noncomputable def boxNoise (E : Env3) (pos : List (Fin 3 → ℝ)) : NoiseFields where
  f := fourier E.mesh (fluctuations E.sch E.mesh E.interlace pos)
  fLM := fun _ => fourier E.mesh (fluctuations E.sch E.mesh E.interlace pos)
  q := fourier E.mesh (assignField E.sch E.mesh E.interlace (unweighted pos))
  qLM := fun _ => fourier E.mesh (assignField E.sch E.mesh E.interlace (unweighted pos))
  s := fun _ => (pos.length : ℂ)

end Trv.Zeta

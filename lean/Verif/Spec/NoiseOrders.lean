import Verif.Spec.BispecNoise
/-
Specification of the shot noise as a sum over ALL spherical orders.
-/
namespace Trv.Zeta
open Trv.Mesh Trv.Stats Trv.Win Trv.Two Trv.ThreePt Trv.Bis

/-- The sum over all orders of couplings (taken as zero below the threshold) times components. -/
noncomputable def allOrders (E : Env3) (f : Triplet → ℂ) : ℂ :=
  ∑ m1 ∈ Finset.Icc (-(E.ell1 : ℤ)) E.ell1, ∑ m2 ∈ Finset.Icc (-(E.ell2 : ℤ)) E.ell2,
    ∑ M ∈ Finset.Icc (-(E.ELL : ℤ)) E.ELL,
      if epsCoupling < |coefficient E m1 m2 M| then (coefficient E m1 m2 M : ℂ) * f ⟨m1, m2, M⟩ else 0

/-- The same for a global line of sight: the third order vanishes. -/
noncomputable def planeOrders (E : Env3) (f : Triplet → ℂ) : ℂ :=
  ∑ m1 ∈ Finset.Icc (-(E.ell1 : ℤ)) E.ell1, ∑ m2 ∈ Finset.Icc (-(E.ell2 : ℤ)) E.ell2,
    if epsCoupling < |coefficient E m1 m2 0| then (coefficient E m1 m2 0 : ℂ) * f ⟨m1, m2, 0⟩ else 0

/-- The four contributions of coinciding corners at one triplet of orders. -/
noncomputable def noisePart (E : Env3) (F : NoiseFields) (row col : ℤ) (t : Triplet) : ℂ :=
  (if E.ell1 = 0 ∧ E.ell2 = 0 then F.s t.M else 0) +
  (if E.ell2 = 0 then pairNoise E F.f (F.qLM t.M) (F.s t.M) E.ell1 t.m1 row else 0) +
  (if E.ell1 = 0 then pairNoise E F.f (F.qLM t.M) (F.s t.M) E.ell2 t.m2 col else 0) +
  Complex.I ^ (E.ell1 + E.ell2) *
    sepNoise E (F.fLM t.M) F.q (F.s t.M) t (meanWavenumber E row) (meanWavenumber E col)

/-- The self-pair contribution at one triplet of orders. -/
noncomputable def selfPart (E : Env3) (F : NoiseFields) (b : ℤ) (t : Triplet) : ℂ :=
  selfPairs E (F.fLM t.M) F.q (F.s t.M) t b

/-- The fields of a random catalogue alone (the window). -/
noncomputable def windowNoise (E : Env3) (rand : List Part) (alpha : ℝ) : NoiseFields where
  f := fourier E.mesh (nField E.toEnv rand alpha 0 0)
  fLM := fun M => fourier E.mesh (nField E.toEnv rand alpha E.ELL M)
  q := fourier E.mesh (quadField1 E.toEnv rand alpha 0 0)
  qLM := fun M => fourier E.mesh (quadField1 E.toEnv rand alpha E.ELL M)
  s := fun M => shotAmp3One E.toEnv rand alpha E.ELL M

/-- The triangles of the compensated fluctuations in a periodic box at one triplet of orders. -/
noncomputable def boxTriangles (E : Env3) (pos : List (Fin 3 → ℝ)) (row col : ℤ) (t : Triplet) : ℂ :=
  triangleMean E (comp E (boxNoise E pos).f) (comp E (boxNoise E pos).f) t row col

/-- The modes of a bin are below the Nyquist wavenumber, with the rounding of the wavenumber. -/
def BelowRounded (E : Env3) (b : ℤ) : Prop :=
  ∀ a, upperEdge E b + 1 / 100000 ≤ Real.pi * E.mesh.n a / E.mesh.L a

end Trv.Zeta

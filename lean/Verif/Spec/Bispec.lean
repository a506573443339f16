import Verif.Model.Bispec
import Verif.Spec.Mesh
import Mathlib.Algebra.BigOperators.Group.Finset.Basic
import Mathlib.Order.Interval.Finset.Basic
import Mathlib.Data.Int.Interval
/-
Specification of the bispectrum: sums over closed triangles of Fourier modes.
-/
namespace Trv.Bis
open Trv.Mesh Trv.Stats Trv.Win Trv.Two Trv.ThreePt

/-- The Fourier modes of a mesh, by cell. -/
noncomputable def allModes (n : Fin 3 → ℤ) : Finset (ℤ × ℤ × ℤ) :=
  Finset.Ico 0 (n 0) ×ˢ (Finset.Ico 0 (n 1) ×ˢ Finset.Ico 0 (n 2))

open Classical in
/-- The modes whose wavenumber is in bin `b`, `edges[b] ≤ |k| < edges[b+1]`. -/
noncomputable def binModes (E : Env3) (b : ℤ) : Finset (ℤ × ℤ × ℤ) :=
  (allModes E.mesh.n).filter fun c =>
    E.edges.getD b.toNat 0 ≤ mag (kvec E.mesh c) ∧ mag (kvec E.mesh c) < E.edges.getD (b.toNat + 1) 0

/-- Three modes form a closed triangle (on the periodic mesh). -/
def Closed (n : Fin 3 → ℤ) (a b c : ℤ × ℤ × ℤ) : Prop :=
  n 0 ∣ a.1 + b.1 + c.1 ∧ n 1 ∣ a.2.1 + b.2.1 + c.2.1 ∧ n 2 ∣ a.2.2 + b.2.2 + c.2.2

open Classical in
/-- The mean over pairs of modes in two bins of the product of the (window-compensated) field `f`
at the two modes, weighted by harmonics, and the field `h` at the third side. -/
noncomputable def triangleMean (E : Env3) (f h : ℤ × ℤ × ℤ → ℂ) (t : Triplet) (row col : ℤ) : ℂ :=
  (∑ a ∈ binModes E row, ∑ b ∈ binModes E col, ∑ c ∈ (allModes E.mesh.n).filter (Closed E.mesh.n a b),
    E.ylm E.ell1 t.m1 (kvec E.mesh a) * E.ylm E.ell2 t.m2 (kvec E.mesh b) * (f a * f b * h c)) /
  ((binModes E row).card * (binModes E col).card : ℂ)

/-- The fluctuation field weighted by the harmonic of the line of sight, in Fourier space and
compensated for the assignment window. -/
noncomputable def compensated (E : Env3) (data rand : List Part) (ell : ℕ) (m : ℤ)
    (c : ℤ × ℤ × ℤ) : ℂ :=
  fourier E.mesh (dnField E.toEnv data rand (alphaOf data rand) ell m) (gid E.mesh.n c) /
    (windowFresh E.mesh.n c.1 c.2.1 c.2.2 (orderOf E.sch) : ℂ)

/-- The component of the bispectrum at a triplet of orders. -/
noncomputable def triangles (E : Env3) (data rand : List Part) (t : Triplet) (row col : ℤ) : ℂ :=
  triangleMean E (compensated E data rand 0 0) (compensated E data rand E.ELL t.M) t row col

/-- Parity of the associated Legendre functions, and their zeros at the poles. -/
structure LegendreLike (P : ℕ → ℕ → ℝ → ℝ) : Prop where
  parity : ∀ (l m : ℕ) (mu : ℝ), m ≤ l → P l m (-mu) = (-1) ^ (l + m) * P l m mu
  pole : ∀ l m : ℕ, 0 < m → m ≤ l → P l m 1 = 0

/-- Symmetries of the Wigner symbols: the sum of orders vanishes, reflection, and exchange of the
first two columns. -/
structure WignerLike (w : ℤ → ℤ → ℤ → ℤ → ℤ → ℤ → ℝ) : Prop where
  select : ∀ (a b c : ℕ) (m1 m2 m3 : ℤ), m1 + m2 + m3 ≠ 0 → w a b c m1 m2 m3 = 0
  reflect : ∀ (a b c : ℕ) (m1 m2 m3 : ℤ),
    w a b c (-m1) (-m2) (-m3) = (-1) ^ (a + b + c) * w a b c m1 m2 m3
  exchange : ∀ (a b c : ℕ) (m1 m2 m3 : ℤ),
    w b a c m2 m1 m3 = (-1) ^ (a + b + c) * w a b c m1 m2 m3

/-- A mesh of even sides, and such that the fundamental wavenumbers are not tiny. -/
structure GoodMesh (M : Mesh ℝ) : Prop where
  valid : M.Valid
  even : ∀ a, 2 ∣ M.n a
  resolved : ∀ a, (1 : ℝ) / 1000000000 ≤ 2 * Real.pi / M.L a

/-- Bins below the Nyquist wavenumber; with interlacing, the third side too. -/
def Below (E : Env3) (row col : ℤ) : Prop :=
  ∀ a, upperEdge E row ≤ Real.pi * E.mesh.n a / E.mesh.L a ∧
    upperEdge E col ≤ Real.pi * E.mesh.n a / E.mesh.L a ∧
    (E.interlace = true → upperEdge E row + upperEdge E col ≤ Real.pi * E.mesh.n a / E.mesh.L a)

/-- The coefficient of three spherical orders. -/
noncomputable def coefficient (E : Env3) (m1 m2 M : ℤ) : ℝ :=
  (2 * (E.ell1 : ℝ) + 1) * (2 * (E.ell2 : ℝ) + 1) * (2 * (E.ELL : ℝ) + 1) *
    E.w3j E.ell1 E.ell2 E.ELL 0 0 0 * E.w3j E.ell1 E.ell2 E.ELL m1 m2 M

/-- The bispectrum multipole: the sum over ALL orders of couplings times means over triangles (the
couplings below the threshold are taken as zero). -/
noncomputable def multipole (E : Env3) (data rand : List Part) (row col : ℤ) : ℂ :=
  ∑ m1 ∈ Finset.Icc (-(E.ell1 : ℤ)) E.ell1, ∑ m2 ∈ Finset.Icc (-(E.ell2 : ℤ)) E.ell2,
    ∑ M ∈ Finset.Icc (-(E.ELL : ℤ)) E.ELL,
      if epsCoupling < |coefficient E m1 m2 M| then
        (coefficient E m1 m2 M : ℂ) * triangles E data rand ⟨m1, m2, M⟩ row col else 0

end Trv.Bis

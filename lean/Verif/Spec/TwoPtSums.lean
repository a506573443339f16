import Verif.Spec.ThreePcf
/-
Specification of the two-point measurements: means over the modes, or separations, of each bin.
-/
namespace Trv.Two
open Trv.Mesh Trv.Stats Trv.Win Trv.Bis

open Classical in
/-- The modes counted in bin `i`: those whose wavenumber rounded down to a multiple of `1e-5` is
between the edges of the bin (and less than 10). -/
noncomputable def modesIn (E : Env) (i : ℕ) : Finset (ℤ × ℤ × ℤ) :=
  (allModes E.mesh.n).filter fun c => mag (kvec E.mesh c) < 10 ∧
    E.edges.getD i 0 ≤ (⌊mag (kvec E.mesh c) * 100000⌋ : ℝ) / 100000 ∧
    (⌊mag (kvec E.mesh c) * 100000⌋ : ℝ) / 100000 < E.edges.getD (i + 1) 0

open Classical in
/-- The separations counted in bin `i`: those whose length rounded down to a multiple of `0.1` is
between the edges of the bin (and less than 100000). -/
noncomputable def sepsIn (E : Env) (i : ℕ) : Finset (ℤ × ℤ × ℤ) :=
  (allModes E.mesh.n).filter fun c => mag (rvec E.mesh c) < 100000 ∧
    E.edges.getD i 0 ≤ (⌊mag (rvec E.mesh c) * 10⌋ : ℝ) / 10 ∧
    (⌊mag (rvec E.mesh c) * 10⌋ : ℝ) / 10 < E.edges.getD (i + 1) 0

/-- The mean of a quantity. -/
noncomputable def meanOver (S : Finset (ℤ × ℤ × ℤ)) (f : ℤ × ℤ × ℤ → ℂ) : ℂ := (∑ c ∈ S, f c) / (S.card : ℂ)

/-- The mean length, or the bin centre if there is nothing in the bin. -/
noncomputable def meanLen (S : Finset (ℤ × ℤ × ℤ)) (f : ℤ × ℤ × ℤ → ℝ) (centre : ℝ) : ℝ :=
  if S.card = 0 then centre else (∑ c ∈ S, f c) / (S.card : ℝ)

/-- The coupling of the orders `m` and `M` of multipoles of the same degree. -/
noncomputable def coupling (E : Env) (m M : ℤ) : ℝ :=
  (2 * (E.ELL : ℝ) + 1) ^ 2 * E.w3j E.ELL 0 E.ELL 0 0 0 * E.w3j E.ELL 0 E.ELL m 0 M

/-- The sum over both orders, with the couplings that are not negligible. -/
noncomputable def coupledSum (E : Env) (f : ℤ → ℤ → ℂ) : ℂ :=
  ∑ M ∈ Finset.Icc (-(E.ELL : ℤ)) E.ELL, ∑ m ∈ Finset.Icc (-(E.ELL : ℤ)) E.ELL,
    if |coupling E m M| < 1 / 1000000000 then 0 else (coupling E m M : ℂ) * f M m

/-- The power of two fields at a mode, compensated for the mesh. -/
noncomputable def power (E : Env) (fa fb : ℤ → ℂ) (c : ℤ × ℤ × ℤ) : ℂ :=
  fa (gid E.mesh.n c) * (starRingEnd ℂ) (fb (gid E.mesh.n c)) / (E.win c : ℂ)

end Trv.Two

import Verif.Model.Mesh
import Mathlib.Algebra.BigOperators.Finprod
/-
Specification of mesh assignment, independent of the stencil code: the sampling
kernel of each scheme as a function of the distance, and its periodised sum over
the integer lattice.
-/
set_option linter.unusedSectionVars false
set_option linter.unusedSimpArgs false

namespace Trv.Mesh

variable {K : Type} [Field K] [LinearOrder K] [IsStrictOrderedRing K] [FloorRing K]

/-- Sampling kernels (B-splines of order 1-4) of the signed distance in units of
the grid spacing. -/
def kernel : Scheme → K → K
  | .ngp, x => if -(1 / 2) ≤ x ∧ x < 1 / 2 then 1 else 0
  | .cic, x => if |x| ≤ 1 then 1 - |x| else 0
  | .tsc, x => if |x| ≤ 1 / 2 then 3 / 4 - x ^ 2
      else if |x| ≤ 3 / 2 then (3 / 2 - |x|) ^ 2 / 2 else 0
  | .pcs, x => if |x| ≤ 1 then (4 - 6 * x ^ 2 + 3 * |x| ^ 3) / 6
      else if |x| ≤ 2 then (2 - |x|) ^ 3 / 6 else 0

/-- Fraction of a particle at grid location `loc` deposited in cell `i` of a
periodic axis with `n` cells: the kernel summed over all lattice points
congruent to `i` modulo `n`. -/
noncomputable def deposit (sch : Scheme) (n : ℤ) (loc : K) (i : ℤ) : K :=
  ∑ᶠ j : ℤ, if j % n = i % n then kernel sch (loc - j) else 0

/-- A particle lies in the box `[0, L)` on each axis. -/
def InBox (M : Mesh K) (p : Particle K) : Prop := ∀ ax, 0 ≤ p.pos ax ∧ p.pos ax < M.L ax

/-- The mesh has positive grid numbers and box sizes. -/
def Mesh.Valid (M : Mesh K) : Prop := ∀ ax, 0 < M.n ax ∧ 0 < M.L ax

/-- The sum of a grid over all cells of the mesh. -/
def gridTotal (M : Mesh K) (f : Grid K) (c : Bool) : K :=
  ((List.range M.nmesh.toNat).map fun g : ℕ => f g c).sum

/-- Index triplets of cells of the mesh. -/
def InMesh (M : Mesh K) (i j k : ℤ) : Prop :=
  (0 ≤ i ∧ i < M.n 0) ∧ (0 ≤ j ∧ j < M.n 1) ∧ (0 ≤ k ∧ k < M.n 2)

end Trv.Mesh

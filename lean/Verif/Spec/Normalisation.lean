import Verif.Spec.ThreePcf
/-
Specification of the normalisation factors: sums over pairs and triples of particles.
-/
namespace Trv.Two
open Trv.Mesh Trv.Bis

/-- The fraction of a particle at `x` assigned to the cell `c`: the periodised sampling kernel on the
three axes. -/
noncomputable def share (E : Env) (x : Fin 3 → ℝ) (c : ℤ × ℤ × ℤ) : ℝ :=
  deposit E.sch (E.mesh.n 0) (E.mesh.n 0 * x 0 / E.mesh.L 0) c.1 *
    deposit E.sch (E.mesh.n 1) (E.mesh.n 1 * x 1 / E.mesh.L 1) c.2.1 *
    deposit E.sch (E.mesh.n 2) (E.mesh.n 2 * x 2 / E.mesh.L 2) c.2.2

/-- The volume of a cell. -/
noncomputable def cellVolume (M : Mesh ℝ) : ℝ := M.L 0 * M.L 1 * M.L 2 / (M.n 0 * M.n 1 * M.n 2)

/-- The pairs of particles of two catalogues (displaced by the two offsets), each with its weights and
the overlap of the particles on the mesh. -/
noncomputable def overlaps (E : Env) (oa ob : Fin 3 → ℝ) (a b : List Part) : ℝ :=
  (a.map fun p => (b.map fun q => p.ws * p.wc * (q.ws * q.wc) * ∑ c ∈ allModes E.mesh.n,
    share E (fun i => p.pos i - oa i) c * share E (fun i => q.pos i - ob i) c).sum).sum

/-- The triples of particles of a catalogue, with their weights and overlaps on the mesh. -/
noncomputable def overlaps3 (E : Env) (a : List Part) : ℝ :=
  (a.map fun p => (a.map fun q => (a.map fun r => p.ws * p.wc * (q.ws * q.wc) * (r.ws * r.wc) *
    ∑ c ∈ allModes E.mesh.n, share E p.pos c * share E q.pos c * share E r.pos c).sum).sum).sum

open Classical in
/-- The weight in the cell of a particle, per unit volume. -/
noncomputable def densityAt (M : Mesh ℝ) (c : List Part) (x : Fin 3 → ℝ) : ℝ :=
  (c.map fun q => if Zeta.nearest M q.pos = Zeta.nearest M x then q.ws * q.wc else 0).sum / cellVolume M

/-- The particles displaced by the offset are in the box of the mesh. -/
def InsideAfter (M : Mesh ℝ) (o : Fin 3 → ℝ) (c : List Part) : Prop :=
  ∀ p ∈ c, ∀ i, 0 ≤ p.pos i - o i ∧ p.pos i - o i < M.L i

end Trv.Two

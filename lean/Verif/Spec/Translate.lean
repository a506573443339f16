import Verif.Spec.FourierMesh
import Verif.Props.Mesh
/-
Specification of catalogues displaced by whole cells in the box.
-/
namespace Trv.Zeta
open Trv.Mesh Trv.Two

/-- The same particle (weights and line of sight) at a position moved by `d` cells. -/
def MovedPart (M : Mesh ℝ) (d : Fin 3 → ℤ) (p p' : Part) : Prop :=
  p' = { p with pos := p'.pos } ∧ Moved M d p.pos p'.pos

/-- The catalogue `ps'` is `ps` with all particles displaced by `d` cells, both in the box and, with
interlacing, outside the region in which the companion field is faulty (`C07`). -/
structure Displaced (E : Env) (d : Fin 3 → ℤ) (ps ps' : List Part) : Prop where
  moved : List.Forall₂ (MovedPart E.mesh d) ps ps'
  inBox : ∀ p ∈ ps, PosInBox E.mesh p.pos
  inBox' : ∀ p ∈ ps', PosInBox E.mesh p.pos
  good : E.interlace = true → ∀ p ∈ ps, ∀ ax, ¬ BadShift E.sch (E.mesh.n ax) (E.mesh.L ax) (p.pos ax)
  good' : E.interlace = true → ∀ p ∈ ps', ∀ ax, ¬ BadShift E.sch (E.mesh.n ax) (E.mesh.L ax) (p.pos ax)

/-- The same for positions in a periodic box. -/
structure DisplacedBox (E : Env) (d : Fin 3 → ℤ) (pos pos' : List (Fin 3 → ℝ)) : Prop where
  moved : List.Forall₂ (Moved E.mesh d) pos pos'
  inBox : ∀ x ∈ pos, PosInBox E.mesh x
  inBox' : ∀ x ∈ pos', PosInBox E.mesh x
  good : E.interlace = true → ∀ x ∈ pos, ∀ ax, ¬ BadShift E.sch (E.mesh.n ax) (E.mesh.L ax) (x ax)
  good' : E.interlace = true → ∀ x ∈ pos', ∀ ax, ¬ BadShift E.sch (E.mesh.n ax) (E.mesh.L ax) (x ax)

end Trv.Zeta

import Verif.Spec.BispecLegendre
import Verif.Spec.Translate
/-
Specification of measurements with the axes of space exchanged.
-/
namespace Trv.Zeta
open Trv.Mesh Trv.Two Trv.Bis

/-- The axes of the box exchanged: axis `a` is the former axis `s a`. -/
def turnMesh (s : Equiv.Perm (Fin 3)) (M : Mesh ℝ) : Mesh ℝ := ⟨fun a => M.n (s a), fun a => M.L (s a)⟩

/-- A vector with the axes exchanged. -/
def turnVec (s : Equiv.Perm (Fin 3)) (v : Fin 3 → ℝ) : Fin 3 → ℝ := fun a => v (s a)

/-- A particle with the axes of its position and of its line of sight exchanged. -/
def turnPart (s : Equiv.Perm (Fin 3)) (p : Part) : Part :=
  { p with pos := turnVec s p.pos, los := turnVec s p.los }

/-- The measurement on the exchanged mesh. -/
def turnEnv (s : Equiv.Perm (Fin 3)) (E : Two.Env) : Two.Env := { E with mesh := turnMesh s E.mesh }

/-- The three-point measurement on the exchanged mesh. -/
def turnEnv3 (s : Equiv.Perm (Fin 3)) (E : Env3) : Env3 := { E with toEnv := turnEnv s E.toEnv }

/-- Positions in the box and, with interlacing, outside the region in which the companion field is faulty
(`C07`). -/
structure Placed (E : Two.Env) (pos : List (Fin 3 → ℝ)) : Prop where
  inBox : ∀ x ∈ pos, PosInBox E.mesh x
  good : E.interlace = true → ∀ x ∈ pos, ∀ ax, ¬ BadShift E.sch (E.mesh.n ax) (E.mesh.L ax) (x ax)

end Trv.Zeta

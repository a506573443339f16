import Verif.Model.TwoPt
/-
Specification for transforms of mesh fields: mirror images and translations.
-/
namespace Trv.Two
open Trv.Mesh

/-- The mirror image of a mode on the periodic mesh. -/
def mirrorCell (n : Fin 3 → ℤ) (c : ℤ × ℤ × ℤ) : ℤ × ℤ × ℤ :=
  (-c.1 % n 0, -c.2.1 % n 1, -c.2.2 % n 2)

/-- A field is real in every cell of the mesh. -/
def IsReal (M : Mesh ℝ) (f : Grid ℝ) : Prop := ∀ g, 0 ≤ g → g < M.nmesh → f g true = 0

/-- Positions in the box. -/
def PosInBox (M : Mesh ℝ) (x : Fin 3 → ℝ) : Prop := ∀ ax, 0 ≤ x ax ∧ x ax < M.L ax

/-- A position moved by `d` cells on each axis, and by whole box lengths. -/
def Moved (M : Mesh ℝ) (d : Fin 3 → ℤ) (x x' : Fin 3 → ℝ) : Prop :=
  ∀ ax, ∃ m : ℤ, x' ax = x ax + d ax * (M.L ax / M.n ax) + m * M.L ax

end Trv.Two

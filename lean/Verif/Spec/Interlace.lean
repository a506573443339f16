import Verif.Spec.Translate
import Verif.Model.Bispec
/-
Specification of catalogues displaced by an odd number of half-cells on every axis.
-/
namespace Trv.Zeta
open Trv.Mesh Trv.Two Trv.Bis

/-- A position moved by `d` cells and a half on each axis, and by whole box lengths. -/
def HalfMoved (M : Mesh ℝ) (d : Fin 3 → ℤ) (x x' : Fin 3 → ℝ) : Prop :=
  ∀ ax, ∃ m : ℤ, x' ax = x ax + (d ax + 1 / 2) * (M.L ax / M.n ax) + m * M.L ax

/-- A position in the box and outside the region in which the companion field is faulty (`C07`). -/
structure Usable (E : Env) (x : Fin 3 → ℝ) : Prop where
  inBox : PosInBox E.mesh x
  good : ∀ ax, ¬ BadShift E.sch (E.mesh.n ax) (E.mesh.L ax) (x ax)

/-- The catalogue `ps'` is `ps` with all particles displaced by `d` cells and a half. -/
structure HalfDisplaced (E : Env) (d : Fin 3 → ℤ) (ps ps' : List Part) : Prop where
  moved : List.Forall₂ (fun p p' => p' = { p with pos := p'.pos } ∧ HalfMoved E.mesh d p.pos p'.pos) ps ps'
  use : ∀ p ∈ ps, Usable E p.pos
  use' : ∀ p ∈ ps', Usable E p.pos

/-- The same for positions in a periodic box. -/
structure HalfDisplacedBox (E : Env) (d : Fin 3 → ℤ) (pos pos' : List (Fin 3 → ℝ)) : Prop where
  moved : List.Forall₂ (HalfMoved E.mesh d) pos pos'
  use : ∀ x ∈ pos, Usable E x
  use' : ∀ x ∈ pos', Usable E x

/-- The upper edges of two bins add up to at most the Nyquist wavenumber (of the even part of the mesh). -/
def BelowNyquist (E : Env3) (row col : ℤ) : Prop :=
  ∀ ax, E.edges.getD (row.toNat + 1) 0 + E.edges.getD (col.toNat + 1) 0 ≤
    2 * Real.pi * ((E.mesh.n ax / 2 : ℤ) : ℝ) / E.mesh.L ax

end Trv.Zeta

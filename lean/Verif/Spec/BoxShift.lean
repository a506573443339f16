import Verif.Model.EndToEndBox
import Verif.Spec.EndToEnd
import Verif.Props.Mesh
/-
The positions at which the particles of a simulation reach the measurement, by the program and by Python.
-/
namespace Trv.E2E

open Trv Trv.Par Trv.Mon Trv.Cat Trv.Prog

/-- By the program (`triumvirate.cpp:444-454`). -/
noncomputable def programPos (σ : CStore Which ℝ) (p : Params ℝ) : Except CppErr (List (V3 ℝ)) :=
  match alignCats σ p with
  | .ok σ => .ok ((σ .data).particles.map fun q => q.pos)
  | .error x => .error x

/-- By the Python functions (`twopt.py:1023-1071`, `threept.py:1467-1515`). -/
noncomputable def pythonPos {ι : Type} [DecidableEq ι] (τ : Cat.Store ι ℝ) (data : ι) (L : V3 ℝ) :
    Except Fault (List (V3 ℝ)) :=
  match (Meas.sim data L).run τ with
  | .error x => .error (.py x)
  | .ok (_, f) =>
    match f.cats with
    | [s] =>
      match toCpp s with
      | .ok c => .ok (c.particles.map fun q => q.pos)
      | .error x => .error (.cpp x)
    | _ => .error (.py .valueError)

/-- The middle of the particles is `d` cells of the mesh below the middle of the box. -/
def CellsOff (c : PyCat ℝ) (L : V3 ℝ) (n d : Fin 3 → ℤ) : Prop :=
  ∀ i, L i / 2 - ((c.bounds i).1 + (c.bounds i).2) / 2 = d i * (L i / n i)

/-- The middle of the particles is `d` cells and half a cell below the middle of the box. -/
def HalfCellsOff (c : PyCat ℝ) (L : V3 ℝ) (n d : Fin 3 → ℤ) : Prop :=
  ∀ i, L i / 2 - ((c.bounds i).1 + (c.bounds i).2) / 2 = (d i + 1 / 2) * (L i / n i)

/-- No position is in the region in which the companion field of interlacing is faulty (`C07`). -/
def OffFault (sch : Mesh.Scheme) (M : Mesh.Mesh ℝ) (P : List (V3 ℝ)) : Prop :=
  ∀ x ∈ P, ∀ ax, ¬ Mesh.BadShift sch (M.n ax) (M.L ax) (x ax)

/-- No particle is at a negative multiple of the box size (which the program leaves at the upper end, `C25`). -/
def OffEdge (c : CppCat ℝ) (L : V3 ℝ) : Prop :=
  ∀ q ∈ c.particles, ∀ i (m : ℕ), 0 < m → q.pos i ≠ -(m * L i)

end Trv.E2E

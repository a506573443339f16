import Verif.Model.Program
import Verif.Spec.Catalogue
/-
Specification of the particles which the program and the Python package hand over to the
algorithms: the same columns.
-/
namespace Trv.Prog

open Trv Trv.Par Trv.Cat

/-- The C++ catalogue holds the particles of the columns, in their order. -/
structure Holding (c : CppCat ℝ) (s : Sent) : Prop where
  loaded : c.Loaded
  pos : ∀ i, s.pos i = c.particles.map fun p => p.pos i
  nz : s.nz = c.particles.map fun p => p.nz
  ws : s.ws = c.particles.map fun p => p.ws
  wc : s.wc = c.particles.map fun p => p.wc

/-- The alignment which the options of a parameter set stand for (`twopt.py:489-505`). -/
def pyAlign (p : Params ℝ) : PyAlign :=
  if p.alignment = "pad" then
    if p.padscale = "grid" then .padGrid p.padfactor else .padBox p.padfactor
  else .centre

/-- Two columns which differ by a translation of a periodic box. -/
def Translated (L t : ℝ) (l l' : List ℝ) : Prop :=
  List.Forall₂ (fun x y => ∃ k : ℤ, y = x + t + k * L) l l'

end Trv.Prog

import Verif.Model.BoxWarn
import Verif.Spec.Catalogue
/-
Specification of warnings about boxes.
-/
namespace Trv.Cat

variable {K : Type} [Field K] [LinearOrder K] [IsStrictOrderedRing K] [FloorRing K] {ι : Type}

/-- A particle of the catalogue is outside the (closed) box on the axis. -/
def Outside (c : PyCat K) (L : V3 K) (i : Fin 3) : Prop := ∃ x ∈ c.pos i, x < 0 ∨ L i < x

/-- A warning names the catalogue and the axis. -/
def Warned (ws : List (BoxWarn ι)) (j : ι) (i : Fin 3) : Prop := ∃ axes, .mayLieOutside j axes ∈ ws ∧ i ∈ axes

end Trv.Cat

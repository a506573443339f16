import Verif.Model.TwoPt
/-
Specification: catalogues with the same total sample weight wherever there are particles, however it is divided among
particles which are otherwise alike.
-/
namespace Trv.Two

/-- The particle but for its sample weight. -/
def Part.kind (p : Part) : Part := { p with ws := 1 }

/-- The total sample weight of the particles of a kind. -/
noncomputable def weightOf (c : List Part) (q : Part) : ℝ :=
  open Classical in ((c.filter fun p => p.kind = q).map Part.ws).sum

/-- The sample weight of each kind of particle is the same in total. -/
def SameDist (c c' : List Part) : Prop := ∀ q, weightOf c q = weightOf c' q

end Trv.Two

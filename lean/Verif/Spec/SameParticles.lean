import Verif.Model.TwoPt
/-
Specification: catalogues which hold the same particles, but for particles without sample weight.
-/
namespace Trv.Two

/-- The particles with a sample weight different from zero are the same, in any order. -/
def Same (c c' : List Part) : Prop :=
  open Classical in (c.filter fun p => p.ws ≠ 0).Perm (c'.filter fun p => p.ws ≠ 0)

end Trv.Two

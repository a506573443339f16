import Verif.Model.ProgressLine
/-
Specification of the progress line.
-/
namespace Trv.Pln

/-- A bar of `w` cells of which `k` are filled: the head is shown unless all of them are. -/
def drawn (w k : ℕ) : List Char :=
  List.replicate k '=' ++ (if k < w then '>' :: List.replicate (w - k - 1) ' ' else [])

end Trv.Pln

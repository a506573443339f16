import Verif.Model.BinnedFile
import Verif.Spec.Output
import Verif.Spec.FieldStats
/-
Specification of the file of binned vectors.
-/
namespace Trv.Out

open Trv Trv.Par Trv.Mon Trv.Stats

/-- Printed integers are read back. -/
def Fmt.Ints (F : Fmt) : Prop := ∀ i : ℤ, F.read (toStr i) = some (i : ℝ)

/-- A record as a row of numbers, with the floats rounded. -/
def recRow (rd : ℝ → ℝ) (r : Rec ℝ) : List ℝ :=
  [(r.idx : ℝ), rd r.lower, rd r.upper, rd (r.vec 0), rd (r.vec 1), rd (r.vec 2)]

/-- A row of the array of Python, with the floats rounded. -/
def tupRow (rd : ℝ → ℝ) (t : ℤ × ℝ × ℝ × ℝ × ℝ × ℝ) : List ℝ :=
  [(t.1 : ℝ), rd t.2.1, rd t.2.2.1, rd t.2.2.2.1, rd t.2.2.2.2.1, rd t.2.2.2.2.2]

end Trv.Out

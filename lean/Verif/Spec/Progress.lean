import Verif.Model.Progress
/-
Specification of the progress of three-point measurements, independent of the order of the
statements.
-/
namespace Trv.Prg
open Trv.ThreePt

/-- The transforms of one term without interlacing: each measurement transforms the field that
carries the line of sight there and back, two fields for each entry of the data vector (in the row
form of a bispectrum the first of them only once), and the fields of the shot noise. -/
def termTransforms (D : ℤ) (f : Form) : Routine → ℤ
  | .bispec => 2 + (match f with | .row _ => 1 + D | _ => 2 * D) + 2 + D
  | .bispecBox => 2 + (match f with | .row _ => 1 + D | _ => 2 * D) + D
  | .zeta | .window => 2 + 2 * D + 2
  | .zetaBox => 2 + 2 * D + 1

/-- A bispectrum in the row form. -/
def RowBispec (f : Form) (r : Routine) : Prop :=
  (∃ b, f = .row b) ∧ (r = .bispec ∨ r = .bispecBox)

/-- The settings that show progress. -/
def Shows {K : Type} [Field K] [LinearOrder K] : Switch K → Prop
  | .off => False
  | .on => True
  | .every x => 0 < x ∧ x < 100
  | .other => False

/-- The settings that are neither a plain switch nor an interval. -/
def Unreadable {K : Type} [Field K] [LinearOrder K] : Switch K → Prop
  | .off => False
  | .on => False
  | .every x => ¬ (0 < x ∧ x < 100)
  | .other => True

end Trv.Prg

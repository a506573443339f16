import Verif.Model.LogSetup
/-
Specification of the lines written after `setup_logger`.
-/
namespace Trv.Lset

/-- The lines which somebody can see. -/
def visible (l : List (Sink × Text)) : List (Sink × Text) := l.filter fun x => decide (x.1 ≠ .null)

/-- The application does not assign `warnings.showwarning` itself. -/
def Op.leavesShow : Op → Bool
  | .setShow _ => false
  | _ => true

/-- The operation attaches no handler. -/
def Op.attachesNone : Op → Bool
  | .addRoot _ => false
  | _ => true

end Trv.Lset

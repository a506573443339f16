import Verif.Model.OptionCase
/-
Specification: texts without capital letters, the letter case in which the options are documented.
-/
namespace Trv.Par

/-- A text without capital letters. -/
def LowerCase (s : String) : Prop := lower s = s

instance (s : String) : Decidable (LowerCase s) := inferInstanceAs (Decidable (lower s = s))

/-- An entry which is set, to a text without capital letters. -/
def LowerEntry (o : Option String) : Prop := ∃ s, o = some s ∧ LowerCase s

end Trv.Par

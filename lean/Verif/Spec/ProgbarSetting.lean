import Verif.Model.ProgbarSetting
/-
Specification of the progress-bar setting.
-/
namespace Trv.Pbs
open Trv Trv.Prg

/-- What a value asks for, in the words of the parameter template: a switch or an interval. -/
def asks {K : Type} [Field K] (num : List Char → Option K) : Val → Switch K
  | .none => .off
  | .bool true => .on
  | .bool false => .off
  | .int i => .every (i : K)
  | .float t => match num t with | some x => .every x | Option.none => .other
  | .str s => switchOf num (Par.lowerS s)

/-- `std::stof` reads whole numbers as Python's `int` does. -/
def ReadsInts {K : Type} [Field K] (num : List Char → Option K) : Prop :=
  ∀ t i, Wc.pyInt t = .ok i → num t = some (i : K)

/-- The text of a Python float, in lower case: it has a point, an exponent, or is `inf` or `nan`. -/
def FloatText (t : List Char) : Prop :=
  Par.lowerS t = t ∧ ('.' ∈ t ∨ 'e' ∈ t ∨ 'n' ∈ t) ∧ t ≠ "true".toList ∧ t ≠ "false".toList

end Trv.Pbs

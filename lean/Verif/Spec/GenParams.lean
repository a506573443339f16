import Verif.Model.GenParams
/-
What a reader of a parameter file sees: the last line of a parameter decides.
-/
namespace Trv.Gpf

/-- The value of `p` in a list of assignments, the last one deciding. -/
def last (p : String) : List Mod → Option String
  | [] => none
  | (q, v) :: M => (last p M).or (if q = p then some v else none)

/-- The value of `p` in a file. -/
def valueOf (L : List Line) (p : String) : Option String := last p (L.filterMap id)

/-- The names of the parameters of a file, in order. -/
def names (L : List Line) : List String := (L.filterMap id).map Prod.fst

/-- The entry at a chain of keys. -/
def get : List String → Node → Option Node
  | [], n => some n
  | _ :: _, .leaf _ => none
  | k :: ks, .dict l => match look k l with
    | none => none
    | some n => get ks n

end Trv.Gpf

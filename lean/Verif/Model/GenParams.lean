import Verif.Model.Common
import Mathlib.Data.List.Basic
/-
Model of the script `/repo/apps/io/gen_param_file.py`: a parameter file generated from a template and
a list of modified parameters.  A line of the template is reduced to `none` (blank or comment) or the
name before and the value after the first `=` (`gen_param_file.py:150-152`); texts are `String`s.
-/
namespace Trv.Gpf
open Trv

/-- A modified parameter: name and value. -/
abbrev Mod := String × String

/-- A line of the template. -/
abbrev Line := Option Mod

/-- `gen_param_file.py:153-156`: the loop over the modified parameters for the line of parameter
`p`, with the line `v` so far.  Entry `pidx` is deleted from the list being iterated, so the entry
after it takes its place and is not visited: the flag tells that the next entry is passed over. -/
def innerFrom (p : String) : Bool → String → List Mod → String × List Mod
  | _, v, [] => (v, [])
  | true, v, m :: M => ((innerFrom p false v M).1, m :: (innerFrom p false v M).2)
  | false, v, (q, w) :: M =>
    if p = q then innerFrom p true w M
    else ((innerFrom p false v M).1, (q, w) :: (innerFrom p false v M).2)

/-- The loop from the first entry. -/
def inner (p v : String) (M : List Mod) : String × List Mod := innerFrom p false v M

/-- `gen_param_file.py:148-156`: the loop over the lines; the lines and the modified parameters that
remain in the list of the caller. -/
def outer : List Line → List Mod → List Line × List Mod
  | [], M => ([], M)
  | none :: L, M => (none :: (outer L M).1, (outer L M).2)
  | some (p, v) :: L, M =>
    (some (p, (inner p v M).1) :: (outer L (inner p v M).2).1, (outer L (inner p v M).2).2)

/-- `gen_param_file.py:131-168`: the generated lines (a blank line and the remaining parameters at
the end, if any), and the list of the caller after the call. -/
def genCpp (L : List Line) (M : List Mod) : List Line × List Mod :=
  let r := outer L M
  (if r.2 = [] then r.1 else r.1 ++ none :: r.2.map some, r.2)

/-! ### Nested dictionaries -/

/-- Entries of the template of the Python parameters, with the type that `type(old)` gives. -/
inductive Entry
  | null
  | bool (b : Bool)
  | str (s : String)
  | int (n : Int)
  deriving DecidableEq, Repr

/-- `gen_param_file.py:123`: `type(old)(value)`; `parse` is Python's `int` of a text. -/
def convert (parse : String → Option Int) : Entry → String → Except PyErr Entry
  | .null, _ => .error .typeError
  | .bool _, v => .ok (.bool (decide (v ≠ "")))
  | .str _, v => .ok (.str v)
  | .int _, v => match parse v with
    | some n => .ok (.int n)
    | none => .error .valueError

/-- Assignment to a key of a dictionary, kept in order. -/
def setKey (d : List (String × Entry)) (k : String) (e : Entry) : List (String × Entry) :=
  if d.any (fun x => x.1 == k) then d.map fun x => if x.1 = k then (k, e) else x else d ++ [(k, e)]

/-- `gen_param_file.py:119-128, 187-207`: one modification of a flat dictionary (no parent keys); an
absent key is added as a text, with a warning. -/
def setItem (parse : String → Option Int) (d : List (String × Entry)) (k v : String) :
    Except PyErr (List (String × Entry)) :=
  match d.find? fun x => x.1 == k with
  | some x => (convert parse x.2 v).map (setKey d k)
  | none => .ok (setKey d k (.str v))

/-! ### Nested keys -/

/-- A parameter template: a nested dictionary. -/
inductive Node
  | leaf (e : Entry)
  | dict (l : List (String × Node))

/-- Failures of `setitem_nested_dict`: those of the conversion, a parent that is no dictionary (`TypeError`),
a dictionary as the entry to be set (`ValueError` of `dict(text)`), and a missing parent. -/
inductive NErr
  | py (e : PyErr)
  | parentKey
  deriving DecidableEq, Repr

/-- Look-up of a key. -/
def look (k : String) : List (String × Node) → Option Node
  | [] => none
  | (j, n) :: l => if j = k then some n else look k l

/-- Assignment to a key: in place, or at the end. -/
def put (k : String) (x : Node) : List (String × Node) → List (String × Node)
  | [] => [(k, x)]
  | (j, n) :: l => if j = k then (j, x) :: l else (j, n) :: put k x l

/-- `gen_param_file.py:94-128`: `setitem_nested_dict` with the chain of keys `k, ks`; a missing child is
added as a text (the `ChildKeyError` is turned into a warning at 199-205). -/
def setPath (parse : String → Option Int) (v : String) :
    String → List String → Node → Except NErr Node
  | _, _, .leaf _ => .error (.py .typeError)
  | k, [], .dict l => match look k l with
    | none => .ok (.dict (put k (.leaf (.str v)) l))
    | some (.dict _) => .error (.py .valueError)
    | some (.leaf e) => match convert parse e v with
      | .error x => .error (.py x)
      | .ok e' => .ok (.dict (put k (.leaf e') l))
  | k, j :: ks, .dict l => match look k l with
    | none => .error .parentKey
    | some n => match setPath parse v j ks n with
      | .error x => .error x
      | .ok n' => .ok (.dict (put k n' l))

end Trv.Gpf

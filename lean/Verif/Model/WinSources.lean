import Verif.Model.Output
/-
Model of the order in which `ThreePointWindow.load_from_textfiles` reads its files
(`/repo/src/triumvirate/winconv.py`, line 1000: `sorted(filepaths.items())`), which is the order of the attribute
`sources`.

Simplifications: keys of a dictionary differ, so that the items are compared by their keys; keys of different kinds
raise (`TypeError`; with a `Multipole` among them the class of the exception may differ).
-/
namespace Trv.Out

open Trv

/-- Python's `<` of two tuples of integers. -/
def tupleLt : List ℤ → List ℤ → Bool
  | _, [] => false
  | [], _ :: _ => true
  | a :: l, b :: k => if a = b then tupleLt l k else decide (a < b)

/-- Python's `<` of two strings. -/
def strLt : List Char → List Char → Bool
  | _, [] => false
  | [], _ :: _ => true
  | a :: l, b :: k => if a = b then strLt l k else decide (a.toNat < b.toNat)

/-- Python's `<` of two keys. -/
def keyLt : Wc.Key → Wc.Key → Except PyErr Bool
  | .mp a, .mp b => a.lt b
  | .ints a, .ints b => .ok (tupleLt a b)
  | .str a, .str b => .ok (strLt a b)
  | .int a, .int b => .ok (decide (a < b))
  | _, _ => .error .typeError

/-- Insertion into a sorted list, after the elements which are smaller. -/
def insertItem (x : Item) : List Item → Except PyErr (List Item)
  | [] => .ok [x]
  | y :: l =>
    match keyLt y.key x.key with
    | .error e => .error e
    | .ok true =>
      match insertItem x l with
      | .error e => .error e
      | .ok l => .ok (y :: l)
    | .ok false => .ok (x :: y :: l)

/-- `sorted(filepaths.items())`. -/
def sortItems : List Item → Except PyErr (List Item)
  | [] => .ok []
  | x :: l =>
    match sortItems l with
    | .error e => .error e
    | .ok l => insertItem x l

/-- `winconv.py:949-1031`: `load_from_textfiles` with the items of the dictionary in any order. -/
noncomputable def loadTextDict (F : Fmt) (I : Wc.Interp ℝ) (items : List Item) (sub : Bool)
    (usecols : List ℕ) (alpha : ℝ) (mk : Wc.MakeLog) : Except PyErr (Wc.Win ℝ) :=
  match sortItems items with
  | .error e => .error e
  | .ok s => loadFromTextfiles F I s sub usecols alpha mk

end Trv.Out

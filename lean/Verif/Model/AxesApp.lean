import Verif.Model.Common
import Mathlib.Algebra.Order.Field.Basic
/-
Model of the script `/repo/apps/io/exchange_coord_axes.py`: exchange of the two coordinate axes of a
saved three-point measurement.  Numbers are exact; `nan` entries, the header and the writing of the
file are not modelled.
-/
namespace Trv.Axa
open Trv

/-- A row of the data table: two coordinates of three columns each (bin centre, effective
coordinate, count), and the measurement columns. -/
structure Row (K : Type) where
  a : K × K × K
  b : K × K × K
  rest : List K
  deriving DecidableEq, Repr

/-- `exchange_coord_axes.py:133-142`: the coordinate columns exchanged. -/
def Row.swap {K : Type} (r : Row K) : Row K := { a := r.b, b := r.a, rest := r.rest }

section
variable {K : Type} [LinearOrder K]

/-- The order of `np.lexsort((secondary, primary))` (`exchange_coord_axes.py:144-151`): by the first
bin centre, then by the second. -/
def rowLe (r s : Row K) : Bool := decide (r.a.1 < s.a.1 ∨ (r.a.1 = s.a.1 ∧ r.b.1 ≤ s.b.1))

/-- `exchange_coord_axes.py:116-152`: `transpose_datatab`; `lexsort` is a stable sort. -/
def transposeTable (t : List (Row K)) : List (Row K) := (t.map Row.swap).mergeSort rowLe

end

/-! ### File names -/

/-- `re.findall(r'\d+', s)`: the runs of digits, with the run being read. -/
def digitRuns : List Char → List Char → List (List Char)
  | cur, [] => if cur = [] then [] else [cur]
  | cur, c :: s =>
    if c.isDigit then digitRuns (cur ++ [c]) s
    else (if cur = [] then [] else [cur]) ++ digitRuns [] s

/-- Python's `sep.join`. -/
def joinWith (sep : List Char) : List (List Char) → List Char
  | [] => []
  | [x] => x
  | x :: l => x ++ sep ++ joinWith sep l

/-- The exceptions, with their message. -/
inductive Err
  | attributeError
  | valueError (msg : String)
  deriving DecidableEq, Repr

/-- `exchange_coord_axes.py:82-106`: the first field of the file name with the first two multipole
indices exchanged. -/
def transposeStat (field : List Char) : Except Err (List Char) :=
  let ty := field.takeWhile fun c => !c.isDigit
  if ty = [] then .error .attributeError  -- `re.match` is `None`
  else
    let runs := digitRuns [] field
    let idx := match runs with | [r] => r.map fun c => [c] | rs => rs
    let sep := if ',' ∈ field then [','] else []
    match idx with
    | [x, y, z] =>
      if x = y then .error (.valueError "The first two multipole indices are the same.")
      else .ok (ty ++ joinWith sep [y, x, z])
    | _ => .error (.valueError
        ("The filename must start with the statistic type and multipole " ++
         "indices of length 3 before any underscores, e.g. 'bk000_' or 'bk0,0,0_'."))

/-- What the script does with a file. -/
inductive Outcome
  | transposed (field : List Char)
  | skipped
  | raised
  deriving DecidableEq, Repr

/-- Python's `sub in s`. -/
def contains (sub : List Char) : List Char → Bool
  | [] => sub.isEmpty
  | c :: s => sub.isPrefixOf (c :: s) || contains sub s

/-- `exchange_coord_axes.py:161-175`: the start of `main`. -/
def main (field : List Char) : Outcome :=
  match transposeStat field with
  | .ok f => .transposed f
  | .error .attributeError => .raised
  | .error (.valueError msg) =>
    if contains "The first two multipole indices the same.".toList msg.toList then .skipped else .raised

end Trv.Axa

import Verif.Model.Common
import Mathlib.Data.Nat.Notation
/-
Model of the script `/repo/apps/io/comb_data_vectors.py`: reading saved measurements (by the program or
the library, which write the same tables) and combining them into data vectors.  One file per component;
the search for files, their serial numbers and the check that bins of different files agree are not
modelled.  Numbers are exact and complex numbers are pairs.
-/
namespace Trv.Cmb
open Trv

/-- The statistics of `USECOLS` (`comb_data_vectors.py:151-156`). -/
inductive Stat | pk | xi | bk | zeta
  deriving DecidableEq, Repr

/-- The columns read (`comb_data_vectors.py:151-156`). -/
def useCols : Stat → List ℕ
  | .pk => [0, 1, 2, 3, 4, 5, 6]
  | .xi => [0, 1, 2, 3, 4]
  | .bk => [2, 3, 4, 5, 6, 7, 8]
  | .zeta => [2, 3, 4, 5, 6, 7, 8]

section
variable {K : Type}

/-- A numpy array of at most one dimension. -/
inductive Arr (α : Type)
  | scalar (x : α)
  | vec (l : List α)
  deriving DecidableEq, Repr

/-- The chosen entries of a row; a column that the row does not have is a `ValueError`. -/
def pick (row : List K) : List ℕ → Except PyErr (List K)
  | [] => .ok []
  | c :: cs => match row[c]? with
    | none => .error .valueError
    | some x => (pick row cs).map (x :: ·)

/-- The chosen entries of all rows. -/
def pickAll (cs : List ℕ) : List (List K) → Except PyErr (List (List K))
  | [] => .ok []
  | r :: rs => match pick r cs with
    | .error e => .error e
    | .ok x => (pickAll cs rs).map (x :: ·)

/-- `data_[j]` after `np.loadtxt(path, usecols=…, unpack=True)` (`comb_data_vectors.py:185`): a table of
a single row is squeezed, so that its columns are scalars. -/
def column (t : List (List K)) (j : ℕ) : Except PyErr (Arr K) :=
  match t with
  | [] => .error .indexError  -- a file without data; not reached by saved measurements
  | [r] => match r[j]? with
    | none => .error .indexError
    | some x => .ok (.scalar x)
  | rs => match pickAll [j] rs with
    | .error _ => .error .indexError
    | .ok c => .ok (.vec c.flatten)

/-- `x + 1j * y` of arrays of the same shape. -/
def complex : Arr K → Arr K → Except PyErr (Arr (K × K))
  | .scalar x, .scalar y => .ok (.scalar (x, y))
  | .vec x, .vec y => .ok (.vec (x.zip y))
  | _, _ => .error .valueError

/-- What is read from a file. -/
structure Read (K : Type) where
  bins : Arr K
  coords : Arr K
  counts : Arr K
  raw : Arr (K × K)
  shot : Arr (K × K)
  deriving DecidableEq, Repr

/-- `data_.shape[-1]`: the number of rows, or the number of columns of a squeezed table. -/
def lastDim (t : List (List K)) : ℕ :=
  match t with
  | [r] => r.length
  | rs => rs.length

/-- `comb_data_vectors.py:184-195`: the arrays of a file; without shot-noise columns the shot noise is
`np.zeros(data_.shape[-1])`. -/
def readFile [Zero K] (s : Stat) (rows : List (List K)) : Except PyErr (Read K) := do
  let t ← pickAll (useCols s) rows
  let b ← column t 0
  let c ← column t 1
  let n ← column t 2
  let r3 ← column t 3
  let r4 ← column t 4
  let raw ← complex r3 r4
  let shot ← match column t 5 with
    | .error .indexError => .ok (.vec (List.replicate (lastDim t) (0, 0)))
    | .error e => .error e
    | .ok r5 => match column t 6 with
      | .error .indexError => .ok (.vec (List.replicate (lastDim t) (0, 0)))
      | .error e => .error e
      | .ok r6 => complex r5 r6
  return ⟨b, c, n, raw, shot⟩

/-- `np.concatenate`: zero-dimensional arrays are refused. -/
def concatenate : List (Arr K) → Except PyErr (List K)
  | [] => .ok []
  | .scalar _ :: _ => .error .valueError
  | .vec l :: as => (concatenate as).map (l ++ ·)

/-- `comb_data_vectors.py:306-308`: combined centres, effective coordinates and counts. -/
def combine (rs : List (Read K)) : Except PyErr (List K × List K × List K) := do
  let b ← concatenate (rs.map Read.bins)
  let c ← concatenate (rs.map Read.coords)
  let n ← concatenate (rs.map Read.counts)
  return (b, c, n)

/-- `np.hstack` of two matrices: the same number of rows. -/
def hstack2 {α : Type} (A B : List (List α)) : Except PyErr (List (List α)) :=
  if A.length = B.length then .ok (List.zipWith (· ++ ·) A B) else .error .valueError

/-- `comb_data_vectors.py:309-310`: the matrices of the components side by side. -/
def hstack {α : Type} : List (List α) → List (List (List α)) → Except PyErr (List (List α))
  | A, [] => .ok A
  | A, B :: Bs => match hstack2 A B with
    | .error e => .error e
    | .ok C => hstack C Bs

end
end Trv.Cmb

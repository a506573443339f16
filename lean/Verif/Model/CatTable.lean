import Verif.Model.Common
import Mathlib.Algebra.Order.Field.Basic
/-
Model of the table behind a Python catalogue (`src/triumvirate/catalogue.py`): its columns have
names and data types, which decide what can be done with them.
`ParticleCatalogue.__init__` (105-148), `read_from_file` (150-392), `offset_coords` (678-690),
`_convert_to_cpp_catalogue` (760-782) and `_particles.pyx:15-29`.

The 'astropy' backend only.  Library functions are modelled by their documented behaviour:
`astropy.table.Table.rename_column` raises `KeyError` for a missing column or an existing
target; `Table.read` of a text file makes a column of integers of a column in which every entry
is an integer; in-place subtraction of a float from an array of integers raises a `TypeError`
(numpy's casting rule 'same_kind'); a Cython buffer argument `np.ndarray[double]` rejects an array
of integers with `ValueError`.  Warnings and log messages are dropped.
-/
namespace Trv.Cat

variable {K : Type} [Field K] [LinearOrder K]

/-- A column of integers (`int64`) or floats (`float64`). -/
inductive TCol (K : Type)
  | int (l : List ℤ)
  | flt (l : List K)

/-- The numbers in a column. -/
def TCol.vals : TCol K → List K
  | .int l => l.map fun z : ℤ => (z : K)
  | .flt l => l

/-- A table: named columns in order. -/
abbrev Table (K : Type) := List (String × TCol K)

/-- `astropy.table.Table.colnames`. -/
def Table.names (t : Table K) : List String := t.map fun p => p.1

/-- `table[name]`. -/
def Table.get (t : Table K) (name : String) : Option (TCol K) := t.lookup name

/-- The number of rows. -/
def Table.rows : Table K → ℕ
  | [] => 0
  | (_, c) :: _ => c.vals.length

/-- `astropy.table.Table.rename_column(name, new_name)`. -/
def Table.rename (t : Table K) (old new : String) : Except PyErr (Table K) :=
  if old ∉ t.names then .error .keyError
  else if old = new then .ok t
  else if new ∈ t.names then .error .keyError
  else .ok (t.map fun p => if p.1 = old then (new, p.2) else p)

/-- `catalogue.py:343-345`: renaming the columns, in the order of the dictionary. -/
def renameAll : List (String × String) → Table K → Except PyErr (Table K)
  | [], t => .ok t
  | (name, alt) :: m, t => do
      let t ← t.rename alt name
      renameAll m t

/-- `table[name] = value` for a column not yet in the table: broadcast to the number of rows. -/
def Table.addConst (t : Table K) (name : String) (v : K) : Table K :=
  t ++ [(name, .flt (List.replicate t.rows v))]

/-- `catalogue.py:359-377`: an optional column. -/
def withDefault (name : String) (v : K) (t : Table K) : Table K :=
  if name ∈ t.names then t else t.addConst name v

/-- `catalogue.py:330-377`: `read_from_file` from the table read to the validated table. -/
def readTable (mapping : List (String × String)) (file : Table K) : Except PyErr (Table K) := do
  let t ← renameAll mapping file
  if "x" ∉ t.names then .error .valueError
  else if "y" ∉ t.names then .error .valueError
  else if "z" ∉ t.names then .error .valueError
  else .ok (withDefault "wc" 1 (withDefault "ws" 1 (withDefault "nz" 0 t)))

/-- Keyword arguments: the column names, or another value. -/
inductive KwVal
  | names (l : Option (List String))
  | other (n : ℕ)
  deriving DecidableEq

/-- `dict.update(key=value)`: replaced in place, or appended. -/
def dictSet (d : List (String × KwVal)) (key : String) (v : KwVal) : List (String × KwVal) :=
  if d.any (fun p => p.1 = key) then d.map fun p => if p.1 = key then (key, v) else p
  else d ++ [(key, v)]

/-- `catalogue.py:330-341`: the keyword arguments passed to `Table.read`, and the dictionary of the
caller afterwards. -/
def readKwargs (format : String) (names : Option (List String))
    (tableKwargs : Option (List (String × KwVal))) :
    List (String × KwVal) × Option (List (String × KwVal)) :=
  let format := if format = "text" then "ascii" else format
  let kw := tableKwargs.getD []
  let kw := if format.startsWith "ascii" then dictSet kw "names" (.names names) else kw
  (kw, tableKwargs.map fun _ => kw)

/-- `catalogue.py:687-688`: `self._pdata[axis] -= coord`, the table and the exception, if any. -/
def Table.isub (t : Table K) (axis : String) (o : K) : Table K × Option PyErr :=
  match t.get axis with
  | none => (t, some .keyError)
  | some (.int _) => (t, some .typeError)
  | some (.flt l) =>
      (t.map fun p => if p.1 = axis then (axis, .flt (l.map fun x => x - o)) else p, none)

/-- `catalogue.py:678-690`: `offset_coords`, up to the bounds. -/
def Table.offset (t : Table K) : List (String × K) → Table K × Option PyErr
  | [] => (t, none)
  | (axis, o) :: rest =>
      match t.isub axis o with
      | (t', none) => Table.offset t' rest
      | (t', some e) => (t', some e)

/-- A Cython buffer argument of type `double`. -/
def bufferArg : TCol K → Except PyErr (List K)
  | .int _ => .error .valueError
  | .flt l => .ok l

/-- `_convert_to_cpp_catalogue` of one column (`catalogue.py:775-780`, `_particles.pyx:19-24`). -/
def Table.arg (t : Table K) (name : String) : Except PyErr (List K) :=
  match t.get name with
  | none => .error .keyError
  | some c => bufferArg c

/-- `catalogue.py:760-782`: `_convert_to_cpp_catalogue`: the arrays x, y, z, nz, ws, wc. -/
def Table.convert (t : Table K) : Except PyErr (List (List K)) :=
  ["x", "y", "z", "nz", "ws", "wc"].mapM t.arg

/-- A value assigned to a column: a number or an array, of integers or floats. -/
inductive ColVal (K : Type)
  | intNum (z : ℤ)
  | fltNum (v : K)
  | arr (c : TCol K)

/-- The column made of an assigned value in a table of `n` rows; an array must have `n` rows. -/
def ColVal.col (n : ℕ) : ColVal K → Except PyErr (TCol K)
  | .intNum z => .ok (.int (List.replicate n z))
  | .fltNum v => .ok (.flt (List.replicate n v))
  | .arr c => if c.vals.length = n then .ok c else .error .valueError

/-- `catalogue.py:105-128`: the table of `ParticleCatalogue(x, y, z, nz, ws, wc)`. -/
def newTable (x y z : TCol K) (nz : Option (ColVal K)) (ws wc : ColVal K) :
    Except PyErr (Table K) := do
  let n := x.vals.length
  let y ← (ColVal.arr y).col n
  let z ← (ColVal.arr z).col n
  let nz ← (nz.getD (.fltNum 0)).col n
  let ws ← ws.col n
  let wc ← wc.col n
  .ok [("x", x), ("y", y), ("z", z), ("nz", nz), ("ws", ws), ("wc", wc)]

/-- One column of a text file as read by `Table.read`: integers if every entry is written as
one. -/
inductive Entry (K : Type)
  | int (z : ℤ)
  | dec (v : K)

/-- The number written. -/
def Entry.num : Entry K → K
  | .int z => (z : K)
  | .dec v => v

/-- The column read from its entries. -/
def readColumn (es : List (Entry K)) : TCol K :=
  if es.all (fun e => match e with | .int _ => true | .dec _ => false) then
    .int (es.map fun e => match e with | .int z => z | .dec _ => 0)
  else .flt (es.map Entry.num)

end Trv.Cat

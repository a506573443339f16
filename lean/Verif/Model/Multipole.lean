import Verif.Model.Common
import Verif.Model.Monitor
import Mathlib.Data.Rat.Defs
/-
Model of the multipole indices and of the convolution formulae of
`/repo/src/triumvirate/winconv.py`, lines 107-820.

Simplifications: Python's `int` of a string is modelled for an optional sign followed by decimal
digits (no surrounding white space, no underscores, no other digits of Unicode); coefficients are
rational numbers (the `sympy` expressions and floats which can be given instead are not modelled).
-/
namespace Trv.Wc

open Trv

/-! ### Multipole indices -/

/-- `winconv.py:193-259`: a `Multipole`, by its attribute `index`. -/
structure Multipole where
  index : List ℤ
  deriving DecidableEq, Repr

/-- The values a multipole can be given as (`MultipoleLike`, `winconv.py:352-366`): a `Multipole`, a
sequence of integers, a string, an integer. -/
inductive Key
  | mp (m : Multipole)
  | ints (l : List ℤ)
  | str (s : List Char)
  | int (z : ℤ)
  deriving DecidableEq, Repr

/-- Value of a string of decimal digits. -/
def digitsVal (s : List Char) : ℕ := s.foldl (fun a c => 10 * a + (c.toNat - '0'.toNat)) 0

/-- Decimal digits, at least one. -/
def isDigits (s : List Char) : Bool := !s.isEmpty && s.all Char.isDigit

/-- Python's `int` of a string; a string which is not a number raises `ValueError`. -/
def pyInt (s : List Char) : Except PyErr ℤ :=
  match s with
  | '-' :: ds => if isDigits ds then .ok (-(digitsVal ds : ℤ)) else .error .valueError
  | '+' :: ds => if isDigits ds then .ok (digitsVal ds) else .error .valueError
  | ds => if isDigits ds then .ok (digitsVal ds) else .error .valueError

/-- Python's `s.split(',')`. -/
def splitComma : List Char → List (List Char)
  | [] => [[]]
  | c :: cs =>
    if c = ',' then [] :: splitComma cs
    else match splitComma cs with
      | [] => [[c]]
      | h :: t => (c :: h) :: t

/-- Python's `','.join`. -/
def joinComma : List (List Char) → List Char
  | [] => []
  | [s] => s
  | s :: t => s ++ ',' :: joinComma t

/-- Applying a function which may raise to each element in turn. -/
def traverse {ε α β : Type} (f : α → Except ε β) : List α → Except ε (List β)
  | [] => .ok []
  | a :: l =>
    match f a with
    | .error e => .error e
    | .ok b =>
      match traverse f l with
      | .error e => .error e
      | .ok bs => .ok (b :: bs)

/-- `winconv.py:239-243`: the strings converted by `int`; a string without commas is read character
by character. -/
def intPieces : List (List Char) → List (List Char)
  | [p] => p.map fun c => [c]
  | ps => ps

/-- `winconv.py:233-251`: `Multipole.__init__`. -/
def Multipole.ofKey : Key → Except PyErr Multipole
  | .mp m => .ok m
  | .ints l => .ok ⟨l⟩
  | .int z => .ok ⟨[z]⟩
  | .str s =>
    match traverse pyInt (intPieces (splitComma s)) with
    | .error e => .error e
    | .ok l => .ok ⟨l⟩

/-- `winconv.py:251`: the attribute `abstr`. -/
def Multipole.abstr (m : Multipole) : List Char := m.index.flatMap Mon.toStr

/-- `winconv.py:256-257`: `__str__`. -/
def Multipole.toStr (m : Multipole) : List Char := joinComma (m.index.map Mon.toStr)

/-- The loop of `winconv.py:275-279` over pairs of indices. -/
def lexLt : List ℤ → List ℤ → Bool
  | a :: l, b :: k => if a < b then true else if a > b then false else lexLt l k
  | _, _ => false

/-- The loop of `winconv.py:291-295`. -/
def lexGt : List ℤ → List ℤ → Bool
  | a :: l, b :: k => if a > b then true else if a < b then false else lexGt l k
  | _, _ => false

/-- Python's `l[:-2]`. -/
def dropLast2 (l : List ℤ) : List ℤ := l.dropLast.dropLast

/-- `winconv.py:267-281` with `_iscomp` (310-328): `__lt__`. -/
def Multipole.lt (a b : Multipole) : Except PyErr Bool :=
  if a.index.length ≠ b.index.length then .error .valueError
  else match a.index.getLast?, b.index.getLast? with
    | some x, some y =>
      if x < y then .ok true else if x > y then .ok false
      else .ok (lexLt (dropLast2 a.index) (dropLast2 b.index))
    | _, _ => .error .indexError

/-- `winconv.py:283-297`: `__gt__`. -/
def Multipole.gt (a b : Multipole) : Except PyErr Bool :=
  if a.index.length ≠ b.index.length then .error .valueError
  else match a.index.getLast?, b.index.getLast? with
    | some x, some y =>
      if x > y then .ok true else if x < y then .ok false
      else .ok (lexGt (dropLast2 a.index) (dropLast2 b.index))
    | _, _ => .error .indexError

/-- Insertion into a list sorted with respect to `lt`, after the elements which are not greater.
Python's `sorted` is stable, so that for a relation whose incomparability is transitive its result is
that of insertion sort. -/
def insertM (x : Multipole) : List Multipole → Except PyErr (List Multipole)
  | [] => .ok [x]
  | y :: l =>
    match y.lt x with
    | .error e => .error e
    | .ok true =>
      match insertM x l with
      | .error e => .error e
      | .ok l => .ok (y :: l)
    | .ok false => .ok (x :: y :: l)

/-- Python's `sorted` of a sequence of multipoles. -/
def sortM : List Multipole → Except PyErr (List Multipole)
  | [] => .ok []
  | x :: l =>
    match sortM l with
    | .error e => .error e
    | .ok l => insertM x l

/-! ### Formulae -/

/-- `winconv.py:491-551`: a `WinConvTerm`; `z = none` is the pseudo-index `'ic'`. -/
structure Term where
  q : Multipole
  z : Option Multipole
  coeff : ℚ
  deriving DecidableEq, Repr

/-- Assignment in a Python dictionary kept in insertion order. -/
def dictSet {κ α : Type} [DecidableEq κ] (d : List (κ × α)) (k : κ) (v : α) : List (κ × α) :=
  if d.any (fun p => p.1 = k) then d.map (fun p => if p.1 = k then (k, v) else p) else d ++ [(k, v)]

/-- A dictionary filled by successive assignments. -/
def dictOf {κ α : Type} [DecidableEq κ] (items : List (κ × α)) : List (κ × α) :=
  items.foldl (fun d p => dictSet d p.1 p.2) []

/-- Look-up in a dictionary. -/
def get? {κ α : Type} [DecidableEq κ] (d : List (κ × α)) (k : κ) : Option α :=
  (d.find? fun p => p.1 = k).map Prod.snd

/-- `winconv.py:723-757`: a `WinConvFormulae` object. -/
structure Formulae where
  dict : List (Multipole × List Term)
  multipoles : List Multipole
  multipolesQ : List Multipole
  zTrue : List Multipole
  needsIc : Bool
  deriving DecidableEq, Repr

/-- `winconv.py:723-757`: construction from the items of a dictionary whose keys and terms have
already been converted. -/
def Formulae.ofItems (items : List (Multipole × List Term)) : Except PyErr Formulae :=
  let d := dictOf items
  let terms := d.flatMap Prod.snd
  match sortM (d.map Prod.fst) with
  | .error e => .error e
  | .ok ms =>
    match sortM (terms.map Term.q).dedup with
    | .error e => .error e
    | .ok qs =>
      match sortM (terms.filterMap Term.z).dedup with
      | .error e => .error e
      | .ok zs => .ok ⟨d, ms, qs, zs, terms.any fun t => t.z.isNone⟩

/-- A term of a two-point formula. -/
def term2 (q z : ℤ) (c : ℚ) : Term := ⟨⟨[q]⟩, some ⟨[z]⟩, c⟩

/-- `winconv.py:109-135`: the formula `'wilson+16'`. -/
def wilson16 : List (Multipole × List Term) :=
  [(⟨[0]⟩, [term2 0 0 1, term2 2 2 (1 / 5), term2 4 4 (1 / 9)]),
   (⟨[2]⟩, [term2 2 0 1, term2 0 2 1, term2 2 2 (2 / 7), term2 4 2 (2 / 7), term2 2 4 (2 / 7),
      term2 4 4 (100 / 693), term2 6 4 (25 / 143)]),
   (⟨[4]⟩, [term2 4 0 1, term2 2 2 (18 / 35), term2 4 2 (20 / 77), term2 6 2 (45 / 143),
      term2 0 4 1, term2 2 4 (20 / 77), term2 4 4 (162 / 1001), term2 6 4 (20 / 143),
      term2 8 4 (490 / 2431)])]

/-- The multipoles of the three-point formula. -/
def m000 : Multipole := ⟨[0, 0, 0]⟩
@[inherit_doc m000] def m110 : Multipole := ⟨[1, 1, 0]⟩
@[inherit_doc m000] def m202 : Multipole := ⟨[2, 0, 2]⟩
@[inherit_doc m000] def m022 : Multipole := ⟨[0, 2, 2]⟩
@[inherit_doc m000] def m112 : Multipole := ⟨[1, 1, 2]⟩

/-- `winconv.py:137-164`: the formula `'sugiyama+19'`. -/
def sugiyama19 : List (Multipole × List Term) :=
  [(m000, [⟨m000, some m000, 1⟩, ⟨m000, none, -1⟩, ⟨m110, some m110, 1 / 3⟩]),
   (m110, [⟨m000, some m110, 1⟩, ⟨m110, some m000, 1⟩, ⟨m110, none, -1⟩]),
   (m202, [⟨m000, some m202, 1⟩, ⟨m202, some m000, 1⟩, ⟨m202, none, -1⟩,
      ⟨m110, some m112, 1 / 3⟩, ⟨m112, some m110, 1 / 3⟩]),
   (m112, [⟨m000, some m112, 1⟩, ⟨m112, some m000, 1⟩, ⟨m112, none, -1⟩,
      ⟨m022, some m110, 2 / 5⟩, ⟨m202, some m110, 2 / 5⟩, ⟨m110, some m022, 2 / 5⟩,
      ⟨m110, some m202, 2 / 5⟩])]

end Trv.Wc

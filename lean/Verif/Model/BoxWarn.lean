import Verif.Model.Catalogue
/-
Model of the warnings about boxes which do not hold the catalogues: `_check_bounds_in_boxsize`
(`/repo/src/triumvirate/catalogue.py` 737-758) and its use in `centre` (521-536), `pad` (589-597, 609-624, 639-646) and
`periodise` (660-666).

Simplifications: a warning is the catalogue and the axes it names (the text is fixed); warnings are not turned into exceptions.
-/
namespace Trv.Cat

variable {K : Type} [Field K] [LinearOrder K] [IsStrictOrderedRing K] [FloorRing K] {ι : Type} [DecidableEq ι]

/-- `catalogue.py:737-758`: `_check_bounds_in_boxsize`, the axes on which the extent exceeds the box. -/
def overflowAxes (c : PyCat K) (L : V3 K) : List (Fin 3) :=
  [0, 1, 2].filter fun i => decide (|(c.bounds i).2 - (c.bounds i).1| > L i)

/-- The warnings. -/
inductive BoxWarn (ι : Type)
  | mayLieOutside (cat : ι) (axes : List (Fin 3))
  | lieOutside (axis : Fin 3)
  | boxSmaller (axes : List (Fin 3))
  | noPadding
  deriving DecidableEq

/-- `catalogue.py:521-527`, `:609-615`: the warning for one catalogue. -/
def overflowWarn (σ : Store ι K) (j : ι) (L : V3 K) : List (BoxWarn ι) :=
  match overflowAxes (σ j) L with
  | [] => []
  | axes => [.mayLieOutside j axes]

/-- `catalogue.py:521-536`, `:609-624`: the warnings for both catalogues. -/
def alignWarn (σ : Store ι K) (me : ι) (L : V3 K) (ref : Option ι) : List (BoxWarn ι) :=
  overflowWarn σ me L ++
    match ref with
    | none => []
    | some r => overflowWarn σ r L

/-- `catalogue.py:490-545`: `centre` with its warnings. -/
def centreW (σ : Store ι K) (me : ι) (L : V3 K) (ref : Option ι) : List (BoxWarn ι) × Except PyErr (Store ι K) :=
  (alignWarn σ me L ref, centre σ me L ref)

/-- `catalogue.py:639-646`: the warnings after padding. -/
def afterWarn (σ : Store ι K) (me r : ι) (L : V3 K) : List (BoxWarn ι) :=
  ([0, 1, 2].filter fun i => decide (max ((σ me).bounds i).1 ((σ me).bounds i).2 > L i ∨
    max ((σ r).bounds i).1 ((σ r).bounds i).2 > L i)).map .lieOutside

/-- `catalogue.py:547-646`: `pad` with its warnings. -/
def padW (σ : Store ι K) (me : ι) (L : V3 K) (ngrid : Option (Fin 3 → ℕ)) (boxPad gridPad : Option (PadArg K))
    (ref : Option ι) : List (BoxWarn ι) × Except PyErr (Store ι K) :=
  match boxPad, gridPad with
  | none, none => ([.noPadding], .ok σ)
  | some _, some _ => ([], .error .valueError)
  | _, _ =>
    let w := alignWarn σ me L ref
    match pad σ me L ngrid boxPad gridPad ref with
    | .error e => (w, .error e)
    | .ok σ' => (w ++ afterWarn σ' me (ref.getD me) L, .ok σ')

/-- `catalogue.py:648-676`: `periodise` with its warnings. -/
def periodiseW (c : PyCat K) (L : V3 K) : List (BoxWarn ι) × Except PyErr (PyCat K) :=
  (match overflowAxes c L with
   | [] => []
   | axes => [.boxSmaller axes], c.periodise L)

end Trv.Cat

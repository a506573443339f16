import Verif.Model.Common
import Mathlib.Data.Prod.Lex
import Mathlib.Algebra.Order.Group.Defs
/-
Model of the script `/repo/apps/calculators/gen_wc_coeffs.py`: list of the window convolution terms of a
convolved multipole.  The coefficient is a given function of the two multipoles (see `Wc` for
`calc_threept_winconv_coeff`); indices are ordered as Python orders tuples of a type `ι`.
-/
namespace Trv.Cap
open Trv

/-- A term: window function multipole, unwindowed multipole, coefficient. -/
structure Term (ι K : Type) where
  q : ι
  z : ι
  c : K
  deriving DecidableEq, Repr

section
variable {ι K : Type} [LinearOrder ι] [LinearOrder K] [AddCommGroup K]

/-- `gen_wc_coeffs.py:86-93`: the terms with coefficients that are not zero, over the product of the two
lists. -/
def terms (coeff : ι → ι → K) (W U : List ι) : List (Term ι K) :=
  (W.flatMap fun w => U.map fun u => (w, u)).filterMap fun p =>
    if coeff p.1 p.2 ≠ 0 then some ⟨p.1, p.2, coeff p.1 p.2⟩ else none

/-- The options of `--sort`. -/
inductive SortBy | c | u | w
  deriving DecidableEq, Repr

/-- `gen_wc_coeffs.py:95-108`: the order of the terms by the key of the option. -/
def termLe (s : SortBy) (a b : Term ι K) : Bool :=
  match s with
  | .c => decide (toLex (-a.c, toLex (a.z, a.q)) ≤ toLex (-b.c, toLex (b.z, b.q)))
  | .u => decide (toLex (a.z, toLex (a.q, -a.c)) ≤ toLex (b.z, toLex (b.q, -b.c)))
  | .w => decide (toLex (a.q, toLex (a.z, -a.c)) ≤ toLex (b.q, toLex (b.z, -b.c)))

/-- What the script does: the terms saved, if asked for, and the printing. -/
structure Run (ι K : Type) where
  saved : Option (List (Term ι K))
  printed : Except PyErr (List (Term ι K))

/-- `gen_wc_coeffs.py:75-131`: the script; a list of multipoles that is not given is `None` and cannot be
iterated over; the width of the printed coefficients is the `max` over the terms, a `ValueError` without
terms. -/
def script (coeff : ι → ι → K) (W U : Option (List ι)) (s : SortBy) (save : Bool) : Run ι K :=
  match W, U with
  | some W, some U =>
    let t := (terms coeff W U).mergeSort (termLe s)
    { saved := if save then some t else none
      printed := if t.isEmpty then .error .valueError else .ok t }
  | _, _ => { saved := none, printed := .error .typeError }

end
end Trv.Cap

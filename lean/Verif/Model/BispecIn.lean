import Verif.Model.WinBuild
/-
Model of the input wavenumbers of `BispecWinConv` (`/repo/src/triumvirate/winconv.py`, lines 2489-2525) and
of the interpolation of its input at them (2630-2642).

Simplifications: exact real arithmetic; the warning is the flag returned; `np.log10` of a number which is
not positive (not a number in the code) is not modelled: see `logspace`; failures of the splines other
than for the shape of the samples are not modelled.
-/
namespace Trv.Wc

open Trv

/-- The loop of checks (`winconv.py:2510-2512`): the failure, with the array held by the loop variable
`k` when it happens. -/
noncomputable def firstBad : List (Option Multipole × List ℝ) → Option (Chk × List ℝ)
  | [] => none
  | p :: d => if checkLoglin p.2 = .ok then firstBad d else some (checkLoglin p.2, p.2)

/-- `winconv.py:2515-2520`: the new points of one multipole; `n` is `len(k)`. -/
noncomputable def respace (n : ℕ) (p : Option Multipole × List ℝ) : Except PyErr (Option Multipole × List ℝ) :=
  match p.2.head?, p.2.getLast? with
  | some a, some b => .ok (p.1, logspace a b n)
  | _, _ => .error .indexError

/-- `winconv.py:2489-2525`: the attributes `k_in` and `_k_in_orig`. -/
noncomputable def bispecIn (F : Formulae) (kIn : Pts ℝ) :
    Except PyErr (List (Option Multipole × List ℝ) × Option (List (Option Multipole × List ℝ))) :=
  match setRIn F kIn with
  | .error e => .error e
  | .ok d =>
    match firstBad d with
    | none => .ok (d, none)
    | some (.spacingError, k) =>
      match traverse (respace k.length) d with
      | .error e => .error e
      | .ok d' => .ok (d', some d)
    | some _ => .error .valueError

/-- The key under which an array of samples is looked up in a dictionary of multipoles. -/
def keyMult : Key → Except PyErr (Option Multipole)
  | .mp m => .ok (some m)
  | .str s => if s = "ic".toList then .ok none else .error .keyError
  | _ => .error .keyError

/-- `winconv.py:2630-2642`: interpolation of one array of samples. -/
noncomputable def reinterpOne (I : Interp ℝ) (new orig : List (Option Multipole × List ℝ)) (p : Key × Mat ℝ) :
    Except PyErr (Key × Mat ℝ) :=
  match keyMult p.1 with
  | .error e => .error e
  | .ok z =>
    match get orig z with
    | .error e => .error e
    | .ok x =>
      if p.2.rows ≠ x.length ∨ p.2.cols ≠ x.length then .error .valueError
      else
        match get new z with
        | .error e => .error e
        | .ok y => .ok (p.1, ⟨y.length, y.length, fun i j => I.spl2 x p.2.e (y.getD i 0) (y.getD j 0)⟩)

/-- `winconv.py:2629-2642`: the samples transformed by `convolve`. -/
noncomputable def bispecSamples (I : Interp ℝ)
    (k : List (Option Multipole × List ℝ) × Option (List (Option Multipole × List ℝ))) (B : List (Key × Mat ℝ)) :
    Except PyErr (List (Key × Mat ℝ)) :=
  match k.2 with
  | none => .ok B
  | some orig => traverse (reinterpOne I k.1 orig) B

end Trv.Wc

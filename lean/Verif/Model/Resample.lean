import Verif.Model.WinBuild
/-
Model of the resampling functions `resample_lglin` and `resample_lin`
(`/repo/src/triumvirate/transforms.py`, lines 526-704) and of `ThreePointWindow.resample`
(`/repo/src/triumvirate/winconv.py`, lines 1229-1264) with either spacing and any size.

Simplifications: exact real arithmetic; a logarithm of a number which is not positive (not a number in the
code) is not modelled: see `logspace`.  The splines are linear in the samples, with weights given by an `Interp`
(that of the degree asked for); the class of the exception for too few points is not modelled.
-/
namespace Trv.Wc

open Trv

/-- An array argument: a sequence of numbers, or of sequences of numbers. -/
inductive ArrIn
  | one (x : List ℝ)
  | two (l : List (List ℝ))

/-- An array without axes of length one. -/
inductive Sq
  | zero (v : ℝ)
  | one (x : List ℝ)
  | two (l : List (List ℝ))

/-- `np.squeeze` of a sequence of numbers. -/
def squeeze1 : List ℝ → Sq
  | [v] => .zero v
  | x => .one x

/-- `np.squeeze(…)` (`transforms.py:568-569`); sequences of different lengths are not an array. -/
def squeeze : ArrIn → Except PyErr Sq
  | .one x => .ok (squeeze1 x)
  | .two [] => .ok (.one [])
  | .two (r :: l) =>
    if l.any fun s => s.length ≠ r.length then .error .valueError
    else if l.isEmpty then .ok (squeeze1 r)
    else if r.length = 1 then .ok (.one (r :: l).flatten)
    else .ok (.two (r :: l))

/-- The argument `size`: absent, a number, or a sequence. -/
inductive ReSize
  | none
  | int (z : ℤ)
  | seq (l : List (Option ℤ))

/-- `size or len(sampts)` passed to `np.logspace` in one dimension: a sequence is not a number. -/
def ReSize.line (n : ℕ) : ReSize → Except PyErr ℕ
  | .none => sizeOr Option.none n
  | .int z => sizeOr (some z) n
  | .seq [] => .ok n
  | .seq _ => .error .typeError

/-- `transforms.py:596`: the sizes in two dimensions (`size[0]` and `size[-1]`). -/
def ReSize.plane : ReSize → Except PyErr (Option ℤ × Option ℤ)
  | .none => .ok (Option.none, Option.none)
  | .int z => .ok (some z, some z)
  | .seq l =>
    match l.head?, l.getLast? with
    | some a, some b => .ok (a, b)
    | _, _ => .error .indexError

/-- The argument `spacing`: which of the two functions. -/
inductive Spacing
  | lglin
  | lin

/-- `np.linspace(a, b, n)`. -/
noncomputable def linspace (a b : ℝ) (n : ℕ) : List ℝ :=
  (List.range n).map fun i : ℕ => if n = 1 then a else a + (b - a) * ((i : ℝ) / ((n : ℝ) - 1))

/-- The new sample points (`transforms.py:575-578`, `662-664`). -/
noncomputable def spaced : Spacing → ℝ → ℝ → ℕ → List ℝ
  | .lglin => logspace
  | .lin => linspace

/-- `RectBivariateSpline(x, x', M)(p, q)`. -/
def Interp.spl22 (I : Interp ℝ) (x x' : List ℝ) (M : ℕ → ℕ → ℝ) (p q : ℝ) : ℝ :=
  ∑ i ∈ Finset.range x.length, ∑ j ∈ Finset.range x'.length, I.biv x p i * I.biv x' q j * M i j

/-- The result: sample points and samples in one or two dimensions. -/
inductive ReOut
  | one (y t : List ℝ)
  | two (y y' : List ℝ) (t : List (List ℝ))

/-- What the splines require of the sample points of an axis: enough of them for the degree, increasing. -/
noncomputable def fits (k : ℕ) (x : List ℝ) : Bool :=
  decide (1 ≤ k) && decide (k ≤ 5) && decide (k < x.length) && Arr.allAdj (fun u v => u < v) x

open Classical in
/-- `transforms.py:571-583`, `658-669`: one dimension; `ext='raise'` rejects points outside the
range. -/
noncomputable def resample1 (sp : Spacing) (I : Interp ℝ) (k : ℕ) (x s : List ℝ) (size : ReSize) : Except PyErr ReOut :=
  match x.head?, x.getLast? with
  | some a, some b =>
    match size.line x.length with
    | .error e => .error e
    | .ok n =>
      let y := spaced sp a b n
      if ¬ (fits k x ∧ s.length = x.length) then .error .valueError
      else if ∃ p ∈ y, p < a ∨ b < p then .error .valueError
      else .ok (.one y (y.map (I.spl false x s)))
  | _, _ => .error .indexError

open Classical in
/-- `transforms.py:596-612`, `682-698`: two dimensions. -/
noncomputable def resample2 (sp : Spacing) (I : Interp ℝ) (k : ℕ) (x x' : List ℝ) (s : List (List ℝ)) (size : ReSize) :
    Except PyErr ReOut :=
  match size.plane with
  | .error e => .error e
  | .ok (n, n') =>
    match x.head?, x.getLast?, x'.head?, x'.getLast? with
    | some a, some b, some a', some b' =>
      match sizeOr n x.length with
      | .error e => .error e
      | .ok n =>
        match sizeOr n' x'.length with
        | .error e => .error e
        | .ok n' =>
          let y := spaced sp a b n
          let y' := spaced sp a' b' n'
          if ¬ (fits k x ∧ fits k x' ∧ s.length = x.length ∧ ∀ row ∈ s, row.length = x'.length) then .error .valueError
          else .ok (.two y y' (y.map fun p => y'.map fun q => I.spl22 x x' (fun i j => (s.getD i []).getD j 0) p q))
    | _, _, _, _ => .error .indexError

/-- `transforms.py:526-614` (`resample_lglin`), `617-704` (`resample_lin`). -/
noncomputable def resample (sp : Spacing) (I : Interp ℝ) (k : ℕ) (pts smp : ArrIn) (size : ReSize) : Except PyErr ReOut :=
  match squeeze pts, squeeze smp with
  | .error e, _ => .error e
  | _, .error e => .error e
  | .ok pts, .ok smp =>
    match smp, pts with
    | .zero _, _ => .error .valueError
    | .one s, .one x => resample1 sp I k x s size
    | .one _, _ => .error .valueError
    | .two _, .zero _ => .error .typeError
    | .two s, .one x => resample2 sp I k x x s size
    | .two s, .two [x, x'] => resample2 sp I k x x' s size
    | .two _, .two _ => .error .valueError

/-- `winconv.py:1252-1257`: one multipole; the separations kept are those of the first dimension.  The
samples of a multipole have as many rows as columns, so that one-dimensional results do not occur. -/
noncomputable def resampleOneAs (sp : Spacing) (I : Interp ℝ) (k : ℕ) (w : Win ℝ) (size : ReSize) (p : Multipole × List (List ℝ)) :
    Except PyErr (Multipole × List ℝ × List (List ℝ)) :=
  match w.r.at (.mp p.1) with
  | .error e => .error e
  | .ok x =>
    match resample sp I k (.one x) (.two p.2) size with
    | .error e => .error e
    | .ok (.one ..) => .error .valueError
    | .ok (.two y _ t) => .ok (p.1, y, t)

/-- `winconv.py:1229-1264`: `ThreePointWindow.resample` (`spacing` other than the two raises
`ValueError`). -/
noncomputable def Win.resampleAs (sp : Spacing) (I : Interp ℝ) (k : ℕ) (w : Win ℝ) (size : ReSize) : Except PyErr (Win ℝ) :=
  match traverse (resampleOneAs sp I k w size) w.Q with
  | .error e => .error e
  | .ok l =>
    let Q := l.map fun p => (p.1, p.2.2)
    .ok { w with r := .dict (l.map fun p => (p.1, p.2.1)), Q := Q, qDiag := diags Q }

end Trv.Wc

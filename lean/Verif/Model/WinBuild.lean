import Verif.Model.WinSelect
import Verif.Model.Layout
import Verif.Model.Fftlog
/-
Model of the construction and of the resampling of a `ThreePointWindow`
(`/repo/src/triumvirate/winconv.py`, lines 823-946 and 1229-1264), with `_check_1d_array` for
logarithmic spacing (`_arrayops.py`, lines 104-137) and the two-dimensional part of `resample_lglin`
(`transforms.py`, lines 566-614).

Simplifications: exact real arithmetic; resampled sample points are positive (a logarithm of another
number would give NaN).  `RectBivariateSpline` is linear in the samples, with weights given by an
`Interp`; it raises for fewer points than its degree plus one (the class of that exception is not
`ValueError`) and for points which do not increase.
-/
namespace Trv.Wc

open Trv

/-- Outcome of `_check_1d_array(a, check_loglin=True)`. -/
inductive Chk
  | ok
  | shapeError
  | mixedSignError
  | spacingError
  deriving DecidableEq

open Classical in
/-- `_arrayops.py:104-137`: `_check_1d_array(a, check_loglin=True)`.  A ratio which is not positive and
finite makes the comparison fail. -/
noncomputable def checkLoglin (a : List ℝ) : Chk :=
  if a.length < 2 then .shapeError
  else
    match Arr.front2 a, Arr.back2 a with
    | some (x0, x1), some (y0, y1) =>
      if ¬ (x0 * x1 > 0 ∧ y0 * y1 > 0) then .mixedSignError
      else
        match Fft.logDiffs a with
        | none => .spacingError
        | some d => if Fft.isclose d (Arr.mean d) then .ok else .spacingError
    | _, _ => .shapeError

/-- `np.logspace(np.log10(a), np.log10(b), n)` for positive `a` and `b`. -/
noncomputable def logspace (a b : ℝ) (n : ℕ) : List ℝ :=
  (List.range n).map fun i : ℕ =>
    if n = 1 then a else Real.exp (Real.log a + (Real.log b - Real.log a) * ((i : ℝ) / ((n : ℝ) - 1)))

/-- `size or len(sampts)`; a negative number is rejected by `np.logspace`. -/
def sizeOr (size : Option ℤ) (n : ℕ) : Except PyErr ℕ :=
  match size with
  | none => .ok n
  | some z => if z = 0 then .ok n else if z < 0 then .error .valueError else .ok z.toNat

/-- `transforms.py:566-614`: `resample_lglin` for a square array on common sample points.  An array of
one element is squeezed to dimension zero and rejected; `sampts[0]` of an empty array raises
`IndexError`. -/
noncomputable def resampleLglin (I : Interp ℝ) (x : List ℝ) (q : List (List ℝ)) (size : Option ℤ) :
    Except PyErr (List ℝ × List (List ℝ)) :=
  if q.length = 1 then .error .valueError
  else
    match x.head?, x.getLast? with
    | some a, some b =>
      match sizeOr size x.length with
      | .error e => .error e
      | .ok n =>
        if x.length < 4 ∨ ¬ Arr.allAdj (fun u v => u < v) x then .error .valueError
        else
          let y := logspace a b n
          .ok (y, y.map fun u => y.map fun v => I.spl2 x (fun i j => (q.getD i []).getD j 0) u v)
    | _, _ => .error .indexError

/-- `winconv.py:1252-1257`: one multipole in `resample`. -/
noncomputable def resampleOne (I : Interp ℝ) (w : Win ℝ) (size : Option ℤ) (p : Multipole × List (List ℝ)) :
    Except PyErr (Multipole × List ℝ × List (List ℝ)) :=
  match w.r.at (.mp p.1) with
  | .error e => .error e
  | .ok x =>
    match resampleLglin I x p.2 size with
    | .error e => .error e
    | .ok y => .ok (p.1, y)

/-- `winconv.py:1229-1264`: `resample` with logarithmic spacing. -/
noncomputable def Win.resample (I : Interp ℝ) (w : Win ℝ) (size : Option ℤ) : Except PyErr (Win ℝ) :=
  match traverse (resampleOne I w size) w.Q with
  | .error e => .error e
  | .ok l =>
    let Q := l.map fun p => (p.1, p.2.2)
    .ok { w with r := .dict (l.map fun p => (p.1, p.2.1)), Q := Q, qDiag := diags Q }

/-- The argument `make_loglin`. -/
inductive MakeLog
  | bool (b : Bool)
  | int (z : ℤ)

/-- Truth value of the argument. -/
def MakeLog.truthy : MakeLog → Bool
  | .bool b => b
  | .int z => z ≠ 0

/-- `make_loglin if isinstance(make_loglin, int) else None`: a Boolean is an integer. -/
def MakeLog.size : MakeLog → Option ℤ
  | .bool b => some (if b then 1 else 0)
  | .int z => some z

/-- The argument `paired_sampts`; `none` is not a 2-d array. -/
inductive Paired
  | all (rows : Option (List (ℝ × ℝ)))
  | dict (d : List (Key × Option (List (ℝ × ℝ))))

/-- `winconv.py:885-888`: the paired sample points of a key. -/
def Paired.at (p : Paired) (k : Key) : Except PyErr (Option (List (ℝ × ℝ))) :=
  match p with
  | .all rows => .ok rows
  | .dict d => get d k

/-- `winconv.py:326-335`: `_issym`. -/
def Multipole.issym (m : Multipole) : Except PyErr Bool :=
  match m.index with
  | [] => .error .indexError
  | [_] => .ok true
  | a :: b :: _ => .ok (a = b)

/-- `winconv.py:893-911`: the arrays of one multipole. -/
noncomputable def buildOne (paired : Paired) (alpha : ℝ) (p : Key × List ℝ) :
    Except PyErr (Multipole × List ℝ × List (List ℝ)) :=
  match Multipole.ofKey p.1 with
  | .error e => .error e
  | .ok m =>
    match m.issym with
    | .error e => .error e
    | .ok s =>
      match paired.at p.1 with
      | .error e => .error e
      | .ok rows =>
        match ThreePt.reshape rows p.2 (if s then "triu" else "full") with
        | .error e => .error e
        | .ok R => .ok (m, R.coords, (List.range R.n).map fun i => (List.range R.n).map fun j =>
            alpha ^ 2 * R.mat i j)

/-- `winconv.py:883-925`: the window before its spacing is checked. -/
noncomputable def buildRaw (paired : Paired) (flat : List (Key × List ℝ)) (alpha : ℝ) :
    Except PyErr (Win ℝ) :=
  match traverse (buildOne paired alpha) flat with
  | .error e => .error e
  | .ok l =>
    match sortM (l.map Prod.fst) with
    | .error e => .error e
    | .ok ms =>
      let Q := dictOf (l.map fun p => (p.1, p.2.2))
      .ok ⟨ms, .dict (dictOf (l.map fun p => (p.1, p.2.1))), Q, diags Q,
        List.replicate ms.length "array"⟩

/-- The first failing check over the sample points of a window. -/
noncomputable def firstFail : List (Multipole × List ℝ) → Chk
  | [] => .ok
  | p :: d => if checkLoglin p.2 = .ok then firstFail d else checkLoglin p.2

/-- `winconv.py:927-946`: the check of the spacing (`ShapeError` is not caught). -/
noncomputable def finish (I : Interp ℝ) (w : Win ℝ) (mk : MakeLog) : Except PyErr (Win ℝ) :=
  match w.r with
  | .arr _ => .error .attributeError
  | .dict d =>
    match firstFail d with
    | .ok => .ok w
    | .shapeError => .error .valueError
    | _ => if mk.truthy then w.resample I mk.size else .ok w

/-- `winconv.py:880-946`: `ThreePointWindow.__init__`. -/
noncomputable def buildWin (I : Interp ℝ) (paired : Paired) (flat : List (Key × List ℝ)) (alpha : ℝ)
    (mk : MakeLog) : Except PyErr (Win ℝ) :=
  match buildRaw paired flat alpha with
  | .error e => .error e
  | .ok w => finish I w mk

end Trv.Wc

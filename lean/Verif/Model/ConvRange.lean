import Verif.Model.PowWin
/-
Model of the checks of the range of convolution in `/repo/src/triumvirate/winconv.py`, lines 1268-1353
(`_check_conv_range`, `_find_conv_range`), and of `initialise_sampts` (1626-1771) with its warnings and
`enforce_coverage`.

Simplifications: exact real arithmetic; sample points are 1-d arrays.  The logarithm of a coordinate
which is not positive (not a number in the code) is not modelled: see `logspace`.  The loop over a set of
multipoles in `_check_conv_range` is in the order of the first dictionary.
-/
namespace Trv.Wc

open Trv

/-- `np.min` of an array which is not empty. -/
noncomputable def lo (x : List ℝ) : ℝ := x.foldr min (x.headD 0)

/-- `np.max` of an array which is not empty. -/
noncomputable def hi (x : List ℝ) : ℝ := x.foldr max (x.headD 0)

open Classical in
/-- `winconv.py:1294-1305`: `_check_coverage` for two arrays; the extrema of an empty array raise
`ValueError`. -/
noncomputable def checkCoverage (rc rs : List ℝ) : Except PyErr Bool :=
  if rs = [] then .error .valueError
  else if rc = [] then .error .valueError
  else .ok (decide ((1 - 1 / 100000) * lo rs ≤ lo rc) && decide (hi rc ≤ (1 + 1 / 100000) * hi rs))

/-- An argument of `_check_conv_range`. -/
inductive RangeArg
  | arr (x : List ℝ)
  | dict (d : List (Multipole × List ℝ))

/-- `all(f(x) for x in l)`, stopping at the first `False`. -/
def allM {α : Type} (f : α → Except PyErr Bool) : List α → Except PyErr Bool
  | [] => .ok true
  | a :: l =>
    match f a with
    | .error e => .error e
    | .ok false => .ok false
    | .ok true => allM f l

/-- `winconv.py:1268-1320`: `_check_conv_range`.  A dictionary has no attribute `min`, which is turned
into `ValueError`. -/
noncomputable def checkConvRange : RangeArg → RangeArg → Except PyErr Bool
  | .dict c, .dict s => allM (fun p : Multipole × List ℝ =>
      match get? s p.1 with
      | none => .ok true
      | some x => checkCoverage p.2 x) c
  | .dict c, .arr x => allM (fun p : Multipole × List ℝ => checkCoverage p.2 x) c
  | .arr c, .arr x => checkCoverage c x
  | .arr _, .dict _ => .error .valueError

/-- Which samples do not cover the range. -/
inductive Side
  | window
  | correlation
deriving DecidableEq

/-- A `ConvolutionRangeWarning`: the multipole, the term and the samples it is about. -/
structure Warn where
  m : Multipole
  t : Term
  side : Side
deriving DecidableEq

/-- The list of a warning issued unless the check passes. -/
def warnUnless (ok : Bool) (w : Warn) : List Warn := if ok then [] else [w]

/-- `winconv.py:1723-1771`: the coverage checks of one term. -/
noncomputable def termWarns (rQ : List (Multipole × List ℝ)) (rIn : List (Option Multipole × List ℝ))
    (rOut : List (Multipole × List ℝ)) (m : Multipole) (t : Term) : Except PyErr (List Warn) :=
  match get rOut m with
  | .error e => .error e
  | .ok rc =>
    match get rQ t.q with
    | .error e => .error e
    | .ok rs =>
      match checkConvRange (.arr rc) (.arr rs) with
      | .error e => .error e
      | .ok b =>
        match t.z with
        | none => .ok (warnUnless b ⟨m, t, .window⟩)
        | some z =>
          match get rIn (some z) with
          | .error e => .error e
          | .ok rs' =>
            match checkConvRange (.arr rc) (.arr rs') with
            | .error e => .error e
            | .ok b' => .ok (warnUnless b ⟨m, t, .window⟩ ++ warnUnless b' ⟨m, t, .correlation⟩)

/-- `winconv.py:1685-1690`: the sample points used for one term. -/
noncomputable def termCoords (rQ : List (Multipole × List ℝ)) (rIn : List (Option Multipole × List ℝ))
    (t : Term) : Except PyErr (List (List ℝ)) :=
  match get rQ t.q with
  | .error e => .error e
  | .ok x =>
    match t.z with
    | none => .ok [x]
    | some z =>
      match get rIn (some z) with
      | .error e => .error e
      | .ok y => .ok [x, y]

/-- An item of a dictionary comprehension. -/
def item {β : Type} (m : Multipole) : Except PyErr β → Except PyErr (Multipole × β)
  | .error e => .error e
  | .ok x => .ok (m, x)

/-- `winconv.py:1684-1691`: the output sample points of one multipole with `enforce_coverage`. -/
noncomputable def enforcePts (F : Formulae) (rQ : List (Multipole × List ℝ))
    (rIn : List (Option Multipole × List ℝ)) (m : Multipole) : Except PyErr (List ℝ) :=
  match traverse (termCoords rQ rIn) (F.terms m) with
  | .error e => .error e
  | .ok xs => convRange xs.flatten

/-- `winconv.py:1682-1691`: the output sample points with `enforce_coverage`. -/
noncomputable def enforceROut (F : Formulae) (rQ : List (Multipole × List ℝ))
    (rIn : List (Option Multipole × List ℝ)) : Except PyErr (List (Multipole × List ℝ)) :=
  traverse (fun m => item m (enforcePts F rQ rIn m)) F.multipoles

/-- `winconv.py:1681-1720`: the output sample points. -/
noncomputable def chooseROut (F : Formulae) (rQ : List (Multipole × List ℝ))
    (rIn : List (Option Multipole × List ℝ)) (rOut : Option (Pts ℝ)) (enforce : Bool) :
    Except PyErr (List (Multipole × List ℝ)) :=
  match rOut, enforce with
  | none, true => enforceROut F rQ rIn
  | rOut, _ => setROut F rIn rOut

/-- `winconv.py:1570-1771`: construction and `initialise_sampts`, with the warnings issued; `root` tells
whether the process issues them (`comm` is `None` or its rank is the one of the root). -/
noncomputable def initSampts {α : Type} (root : Bool) (F : Formulae) (sampts : Pts ℝ) (Q : List (Key × α))
    (rIn : Pts ℝ) (rOut : Option (Pts ℝ)) (enforce : Bool) : Except PyErr (Base ℝ α × List Warn) :=
  match initWindow F sampts Q with
  | .error e => .error e
  | .ok (rQ, Q) =>
    match setRIn F rIn with
    | .error e => .error e
    | .ok rIn =>
      match chooseROut F rQ rIn rOut enforce with
      | .error e => .error e
      | .ok rOut =>
        match traverse (fun m => traverse (termWarns rQ rIn rOut m) (F.terms m)) F.multipoles with
        | .error e => .error e
        | .ok ws => .ok (⟨F, rQ, Q, rIn, rOut⟩, if root then ws.flatten.flatten else [])

end Trv.Wc

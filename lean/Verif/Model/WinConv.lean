import Verif.Model.Multipole
import Mathlib.Algebra.BigOperators.Group.Finset.Basic
import Mathlib.Algebra.BigOperators.Group.List.Basic
import Mathlib.Algebra.Field.Basic
import Mathlib.Data.Rat.Cast.Defs
/-
Model of the window convolution of correlation functions in `/repo/src/triumvirate/winconv.py`,
lines 1379-1878 and 2133-2366 (`calc_threept_ic`, `WinConvBase`, `TwoPCFWinConv`,
`ThreePCFWinConv`).

Simplifications: floats are elements of a field.  Spline interpolation (`scipy.interpolate`) and
Simpson's rule are linear in the samples with weights which depend on the sample points only; these
weights are parameters of the model (`Interp`).  The coverage checks only warn; what is kept of them is
the look-ups which may raise; the checks themselves, and `enforce_coverage=True` (only used with its
default `False` in the repository), are in `Model/ConvRange.lean`.
-/
namespace Trv.Wc

open Trv

variable {K : Type} [Field K]

/-- Weights of the interpolation and of the integration: `uni ext x p i` is the weight of the sample
at `x[i]` in `InterpolatedUnivariateSpline(x, ·, k, ext)(p)`, `biv x p i` the one of
`RectBivariateSpline` in one dimension, `simp x i` the one of Simpson's rule; `h2 m` is
`float(_H_factor(*m.index)) ** 2`. -/
structure Interp (K : Type) where
  uni : Bool → List K → K → ℕ → K
  biv : List K → K → ℕ → K
  simp : List K → ℕ → K
  h2 : Multipole → K

/-- A 2-d array. -/
structure Mat (α : Type) where
  rows : ℕ
  cols : ℕ
  e : ℕ → ℕ → α

/-- `InterpolatedUnivariateSpline(x, y)(p)`. -/
def Interp.spl (I : Interp K) (ext : Bool) (x y : List K) (p : K) : K :=
  ∑ i ∈ Finset.range x.length, I.uni ext x p i * y.getD i 0

/-- `RectBivariateSpline(x, x, M)(p, q)`. -/
def Interp.spl2 (I : Interp K) (x : List K) (M : ℕ → ℕ → K) (p q : K) : K :=
  ∑ i ∈ Finset.range x.length, ∑ j ∈ Finset.range x.length, I.biv x p i * I.biv x q j * M i j

/-- Sample points given either for all multipoles or by a dictionary. -/
inductive Pts (K : Type)
  | all (x : List K)
  | dict (d : List (Key × List K))

/-- `{Multipole(key): val for key, val in d.items()}`. -/
def coerceDict {α : Type} (d : List (Key × α)) : Except PyErr (List (Multipole × α)) :=
  match traverse (fun p : Key × α =>
      match Multipole.ofKey p.1 with
      | .error e => Except.error e
      | .ok m => Except.ok (m, p.2)) d with
  | .error e => .error e
  | .ok l => .ok (dictOf l)

/-- `WinConvFormulae.multipoles_Z`; the pseudo-index `'ic'` is `none`. -/
def Formulae.multipolesZ (F : Formulae) : List (Option Multipole) :=
  F.zTrue.map some ++ if F.needsIc then [none] else []

/-- The formula of a multipole (an empty one if there is none; `Formulae.multipoles` lists the keys). -/
def Formulae.terms (F : Formulae) (m : Multipole) : List Term := (get? F.dict m).getD []

/-- A `WinConvBase` object after `initialise_sampts`. -/
structure Base (K α : Type) where
  F : Formulae
  rQ : List (Multipole × List K)
  Q : List (Multipole × α)
  rIn : List (Option Multipole × List K)
  rOut : List (Multipole × List K)

/-- `winconv.py:1570-1623`: `WinConvBase.__init__` (the part on formulae and window multipoles). -/
def initWindow {α : Type} (F : Formulae) (sampts : Pts K) (Q : List (Key × α)) :
    Except PyErr (List (Multipole × List K) × List (Multipole × α)) :=
  if F.zTrue.isEmpty then .error .valueError
  else
    let rQ := match sampts with
      | .dict d => coerceDict d
      | .all x => coerceDict (Q.map fun p : Key × α => (p.1, x))
    match rQ with
    | .error e => .error e
    | .ok rQ =>
      match coerceDict Q with
      | .error e => .error e
      | .ok Q =>
        if ¬ F.multipolesQ ⊆ rQ.map Prod.fst then .error .valueError
        else if ¬ F.multipolesQ ⊆ Q.map Prod.fst then .error .valueError
        else .ok (rQ, Q)

/-- `winconv.py:1662-1679`: the input sample points in `initialise_sampts`.  The check is that the
multipoles given are among those required. -/
def setRIn (F : Formulae) (rIn : Pts K) : Except PyErr (List (Option Multipole × List K)) :=
  match rIn with
  | .all x => .ok (F.multipolesZ.map fun z => (z, x))
  | .dict d =>
    match coerceDict d with
    | .error e => .error e
    | .ok l =>
      let l := l.map fun p => (some p.1, p.2)
      if ¬ l.map Prod.fst ⊆ F.multipolesZ then .error .valueError else .ok l

/-- `winconv.py:1681-1720`: the output sample points. -/
def setROut (F : Formulae) (rIn : List (Option Multipole × List K)) (rOut : Option (Pts K)) :
    Except PyErr (List (Multipole × List K)) :=
  match rOut with
  | none => traverse (fun m =>
      match get? rIn (some m) with
      | none => .error .valueError
      | some x => .ok (m, x)) F.multipoles
  | some (.dict d) => coerceDict d
  | some (.all x) => .ok (F.multipoles.map fun m => (m, x))

/-- `winconv.py:1722-1771`: the look-ups of the coverage checks for one term. -/
def lookups (rQ : List (Multipole × List K)) (rIn : List (Option Multipole × List K))
    (rOut : List (Multipole × List K)) (m : Multipole) (t : Term) : Bool :=
  (get? rOut m).isSome && (get? rQ t.q).isSome &&
    match t.z with
    | none => true
    | some z => (get? rIn (some z)).isSome

/-- `winconv.py:1570-1771`: construction with sample points. -/
def mkBase {α : Type} (F : Formulae) (sampts : Pts K) (Q : List (Key × α)) (rIn : Pts K)
    (rOut : Option (Pts K)) : Except PyErr (Base K α) :=
  match initWindow F sampts Q with
  | .error e => .error e
  | .ok (rQ, Q) =>
    match setRIn F rIn with
    | .error e => .error e
    | .ok rIn =>
      match setROut F rIn rOut with
      | .error e => .error e
      | .ok rOut =>
        if F.multipoles.all fun m => (F.terms m).all fun t => lookups rQ rIn rOut m t
        then .ok ⟨F, rQ, Q, rIn, rOut⟩ else .error .keyError

/-- Look-up raising `KeyError`. -/
def get {κ α : Type} [DecidableEq κ] (d : List (κ × α)) (k : κ) : Except PyErr α :=
  match get? d k with
  | none => .error .keyError
  | some a => .ok a

/-! ### Two-point convolution -/

/-- `winconv.py:1862-1875`: one summand of `TwoPCFWinConv.convolve` as a function of the output
point.  The samples are looked up under the `Multipole`; interpolation raises `ValueError` when the
numbers of points and samples differ.  For the pseudo-index the look-up of the samples raises. -/
def conv2Term (I : Interp K) (B : Base K (List K)) (xi : List (Key × List K)) (t : Term) :
    Except PyErr (K → K) :=
  match get B.rQ t.q, get B.Q t.q with
  | .error e, _ => .error e
  | _, .error e => .error e
  | .ok x, .ok y =>
    if x.length ≠ y.length then .error .valueError
    else match t.z with
      | none => .error .keyError
      | some z =>
        match get B.rIn (some z), get xi (.mp z) with
        | .error e, _ => .error e
        | _, .error e => .error e
        | .ok x', .ok y' =>
          if x'.length ≠ y'.length then .error .valueError
          else .ok fun p => (t.coeff : K) * I.spl true x y p * I.spl false x' y' p

/-- `winconv.py:1840-1878`: `TwoPCFWinConv.convolve`. -/
def conv2 (I : Interp K) (B : Base K (List K)) (xi : List (Key × List K)) :
    Except PyErr (List (Multipole × List K)) :=
  traverse (fun m =>
    match get B.rOut m, traverse (conv2Term I B xi) (B.F.terms m) with
    | .error e, _ => .error e
    | _, .error e => .error e
    | .ok out, .ok fs => .ok (m, out.map fun p => (fs.map fun f => f p).sum)) B.F.multipoles

/-! ### Three-point convolution -/

/-- `winconv.py:1356-1376`: `_integrate_2d_samples(x, x, z)`. -/
def Interp.integ (I : Interp K) (x : List K) (z : ℕ → ℕ → K) : K :=
  ∑ i ∈ Finset.range x.length, I.simp x i * (x.getD i 0 * x.getD i 0 *
    ∑ j ∈ Finset.range x.length, I.simp x j * (z i j * x.getD j 0 * x.getD j 0))

/-- `winconv.py:412-433`: `_N_prefactor`, for three degrees. -/
def prefactor (m : Multipole) : K :=
  match m.index with
  | [a, b, c] => ((((2 * a + 1) * (2 * b + 1) * (2 * c + 1) : ℤ)) : K)
  | _ => 0

/-- `winconv.py:1479-1525`: contribution of one common multipole to the nominator of the integral
constraint, with the common sample points those of the input. -/
def icTerm (I : Interp K) (rQ : List (Multipole × List K)) (Q : List (Multipole × Mat K))
    (r : List (Multipole × List K)) (zeta : List (Multipole × Mat (K × K))) (m : Multipole) : K :=
  let x := (get? r m).getD []
  let q := fun i j => I.spl2 ((get? rQ m).getD []) (((get? Q m).map Mat.e).getD fun _ _ => 0)
    (x.getD i 0) (x.getD j 0)
  let z := fun i j => I.spl2 x (fun a b => ((((get? zeta m).map Mat.e).getD fun _ _ => (0, 0)) a b).1)
    (x.getD i 0) (x.getD j 0)
  prefactor m * I.h2 m * I.integ x fun i j => q i j * z i j

/-- `winconv.py:1379-1525`: `calc_threept_ic` as called by `convolve` (`r_common=None`,
`approx=False`).  `rIn` is a dictionary; its key `'ic'` cannot be converted to a multipole.
`ZeroDivisionError` stands for the non-finite value of a division by zero. -/
def calcIc [DecidableEq K] (I : Interp K) (rQ : List (Multipole × List K))
    (Q : List (Multipole × Mat K)) (rIn : List (Option Multipole × List K))
    (zeta : List (Key × Mat (K × K))) : Except PyErr K :=
  match coerceDict zeta with
  | .error e => .error e
  | .ok zeta =>
    match traverse (fun p : Option Multipole × List K =>
        match p.1 with
        | none => Except.error PyErr.valueError
        | some m => Except.ok (m, p.2)) rIn with
    | .error e => .error e
    | .ok r =>
      let common := (Q.map Prod.fst).filter fun m => decide (m ∈ zeta.map Prod.fst)
      if ¬ m000 ∈ common then .error .valueError
      else if ¬ common ⊆ rQ.map Prod.fst then .error .valueError
      else if ¬ common ⊆ r.map Prod.fst then .error .valueError
      else
        let x := (get? r m000).getD []
        let denom := I.integ x fun i j =>
          I.spl2 ((get? rQ m000).getD []) (((get? Q m000).map Mat.e).getD fun _ _ => 0)
            (x.getD i 0) (x.getD j 0)
        if denom = 0 then .error .zeroDivisionError
        else .ok ((common.map (icTerm I rQ Q r zeta)).sum / denom)

/-- `winconv.py:2259-2289`: one summand of `ThreePCFWinConv.convolve`. -/
def conv3Term (I : Interp K) (B : Base K (Mat K)) (zeta : List (Key × Mat (K × K))) (ic : Option K)
    (t : Term) : Except PyErr (K → K → K) :=
  match get B.rQ t.q, get B.Q t.q with
  | .error e, _ => .error e
  | _, .error e => .error e
  | .ok x, .ok M =>
    if M.rows ≠ x.length ∨ M.cols ≠ x.length then .error .valueError
    else match t.z with
      | none =>
        match ic with
        | none => .error .typeError
        | some c => .ok fun p q => (t.coeff : K) * I.spl2 x M.e p q * c
      | some z =>
        match get B.rIn (some z), get zeta (.mp z) with
        | .error e, _ => .error e
        | _, .error e => .error e
        | .ok x', .ok Z =>
          if Z.rows ≠ x'.length ∨ Z.cols ≠ x'.length then .error .valueError
          else .ok fun p q =>
            (t.coeff : K) * I.spl2 x M.e p q * I.spl2 x' (fun i j => (Z.e i j).1) p q

/-- `winconv.py:2253-2292`: the convolution term by term. -/
def conv3Sum (I : Interp K) (B : Base K (Mat K)) (zeta : List (Key × Mat (K × K))) (ic : Option K) :
    Except PyErr (List (Multipole × List (List K))) :=
  traverse (fun m =>
    match get B.rOut m, traverse (conv3Term I B zeta ic) (B.F.terms m) with
    | .error e, _ => .error e
    | _, .error e => .error e
    | .ok out, .ok fs =>
      .ok (m, out.map fun p => out.map fun q => (fs.map fun f => f p q).sum)) B.F.multipoles

/-- `winconv.py:2203-2292`: `ThreePCFWinConv.convolve`. -/
def conv3 [DecidableEq K] (I : Interp K) (B : Base K (Mat K)) (zeta : List (Key × Mat (K × K)))
    (ic : Option K) : Except PyErr (List (Multipole × List (List K))) :=
  if B.F.needsIc ∧ ic = none then
    match calcIc I B.rQ B.Q B.rIn zeta with
    | .error e => .error e
    | .ok c => conv3Sum I B zeta (some c)
  else conv3Sum I B zeta ic

/-- `winconv.py:2329-2364`: one summand of `convolve_diag`. -/
def convDiagTerm (I : Interp K) (B : Base K (Mat K)) (zeta : List (Key × List K)) (ic : Option K)
    (t : Term) : Except PyErr (K → K) :=
  match get B.rQ t.q, get B.Q t.q with
  | .error e, _ => .error e
  | _, .error e => .error e
  | .ok x, .ok M =>
    if min M.rows M.cols ≠ x.length then .error .valueError
    else match t.z with
      | none =>
        match ic with
        | none => .error .typeError
        | some c => .ok fun p =>
            (t.coeff : K) * I.spl true x ((List.range x.length).map fun i => M.e i i) p * c
      | some z =>
        match get B.rIn (some z), get zeta (.mp z) with
        | .error e, _ => .error e
        | _, .error e => .error e
        | .ok x', .ok y' =>
          if x'.length ≠ y'.length then .error .valueError
          else .ok fun p => (t.coeff : K) *
            I.spl true x ((List.range x.length).map fun i => M.e i i) p * I.spl false x' y' p

/-- `winconv.py:2294-2366`: `ThreePCFWinConv.convolve_diag`. -/
def convDiag (I : Interp K) (B : Base K (Mat K)) (zeta : List (Key × List K)) (ic : Option K) :
    Except PyErr (List (Multipole × List K)) :=
  if B.F.needsIc ∧ ic.isNone then .error .valueError
  else traverse (fun m =>
    match get B.rOut m, traverse (convDiagTerm I B zeta ic) (B.F.terms m) with
    | .error e, _ => .error e
    | _, .error e => .error e
    | .ok out, .ok fs => .ok (m, out.map fun p => (fs.map fun f => f p).sum)) B.F.multipoles

end Trv.Wc

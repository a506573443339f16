import Verif.Model.WinConv
import Mathlib.Algebra.Order.Field.Basic
/-
Model of `ThreePointWindow.load_from_dict` and `ThreePointWindow.subselect`
(`/repo/src/triumvirate/winconv.py`, lines 1029-1068 and 1121-1227).

Simplifications: floats are elements of an ordered field (no NaN).  Dictionaries are association lists
with distinct keys.  The value a dictionary comprehension gives a key depends on the key only, so that
repeated keys are harmless and are kept.  If the attribute `r` is an array, indexing it with a
multipole raises `IndexError` (a plain integer would be accepted; it is not used as a multipole here).
-/
namespace Trv.Wc

open Trv

variable {K : Type} [Field K] [LinearOrder K]

/-- The attribute `r` of a window: a dictionary as documented, or an array. -/
inductive RAttr (K : Type)
  | dict (d : List (Multipole × List K))
  | arr (x : List K)

/-- A `ThreePointWindow` object; 2-d arrays are lists of rows. -/
structure Win (K : Type) where
  multipoles : List Multipole
  r : RAttr K
  Q : List (Multipole × List (List K))
  qDiag : List (Multipole × List K)
  sources : List String

/-- `self.r[key]`: a `Multipole` is equal to other multipoles only (`winconv.py:262-265`), so that
other keys are not found. -/
def RAttr.at (r : RAttr K) (k : Key) : Except PyErr (List K) :=
  match r with
  | .arr _ => .error .indexError
  | .dict d =>
    match k with
    | .mp m => get d m
    | _ => .error .keyError

/-- `a[mask]` for a boolean array: its length has to be that of the array. -/
def maskOf {α : Type} (mask : List Bool) (a : List α) : Except PyErr (List α) :=
  if mask.length ≠ a.length then .error .indexError
  else .ok ((a.zip mask).filterMap fun p : α × Bool => if p.2 then some p.1 else none)

/-- `Q[mask, :][:, mask]`. -/
def maskMat (mask : List Bool) (Q : List (List K)) : Except PyErr (List (List K)) :=
  match maskOf mask Q with
  | .error e => .error e
  | .ok rows => traverse (fun row => maskOf mask row) rows

/-- `np.diag` of a 2-d array. -/
def diagOf (Q : List (List K)) : List K := Q.zipIdx.filterMap fun p : List K × ℕ => p.1[p.2]?

/-! ### Ranges -/

/-- A pair of bounds which may be `None`. -/
abbrev Bounds (K : Type) := Option K × Option K

/-- The argument `rrange`. -/
inductive RRange (K : Type)
  | none
  | tuple (b : Bounds K)
  | dict (d : List (Key × Bounds K))

/-- The argument `idxrange`; a tuple holds the arguments of `slice`. -/
inductive IRange
  | none
  | tuple (a : List (Option ℤ))
  | dict (d : List (Key × List (Option ℤ)))

/-- `slice(*args)`: start, stop, step. -/
def mkSlice (a : List (Option ℤ)) : Except PyErr (Option ℤ × Option ℤ × Option ℤ) :=
  match a with
  | [stop] => .ok (none, stop, none)
  | [start, stop] => .ok (start, stop, none)
  | [start, stop, step] => .ok (start, stop, step)
  | _ => .error .typeError

/-- `PySlice_AdjustIndices`: a bound of a slice for a sequence of length `n`. -/
def adjust (n : ℤ) (neg : Bool) (x : ℤ) : ℤ :=
  if x < 0 then
    if x + n < 0 then (if neg then -1 else 0) else x + n
  else if n ≤ x then (if neg then n - 1 else n) else x

/-- The boolean array after `mask[slice] = True` on an array of `n` values `False`. -/
def sliceMask (n : ℕ) (s : Option ℤ × Option ℤ × Option ℤ) : Except PyErr (List Bool) :=
  let step := s.2.2.getD 1
  if step = 0 then .error .valueError
  else if 0 < step then
    let start := match s.1 with | none => 0 | some x => adjust n false x
    let stop := match s.2.1 with | none => (n : ℤ) | some x => adjust n false x
    .ok ((List.range n).map fun i : ℕ =>
      decide (start ≤ (i : ℤ) ∧ (i : ℤ) < stop ∧ ((i : ℤ) - start) % step = 0))
  else
    let start := match s.1 with | none => (n : ℤ) - 1 | some x => adjust n true x
    let stop := match s.2.1 with | none => -1 | some x => adjust n true x
    .ok ((List.range n).map fun i : ℕ =>
      decide ((i : ℤ) ≤ start ∧ stop < (i : ℤ) ∧ (start - (i : ℤ)) % (-step) = 0))

/-- `np.full_like(self.r[multipole], val, dtype=bool)` for every multipole. -/
def fullLike (w : Win K) (v : Bool) : Except PyErr (List (Multipole × List Bool)) :=
  traverse (fun m =>
    match w.r.at (.mp m) with
    | .error e => .error e
    | .ok x => .ok (m, List.replicate x.length v)) w.multipoles

/-- `v <= rmax`, where the upper bound may be `np.inf` (`none`). -/
def upOk (hi : Option K) (v : K) : Bool :=
  match hi with
  | none => true
  | some h => decide (v ≤ h)

/-- `np.logical_and(rmin <= x, x <= rmax)` for an array. -/
def rMask (lo : K) (hi : Option K) (x : List K) : List Bool :=
  x.map fun v => decide (lo ≤ v) && upOk hi v

/-- One entry of `select_range` in the dictionary form; comparing with `None` raises `TypeError`. -/
def rEntry (w : Win K) (p : Key × Bounds K) : Except PyErr (Multipole × List Bool) :=
  match Multipole.ofKey p.1 with
  | .error e => .error e
  | .ok m =>
    match w.r.at p.1 with
    | .error e => .error e
    | .ok x =>
      match p.2 with
      | (some lo, some hi) => .ok (m, rMask lo (some hi) x)
      | _ => .error .typeError

/-- `a or b` for a bound: `None` and zero are false. -/
def orElse (a : Option K) (b : Option K) : Option K :=
  match a with
  | none => b
  | some x => if x = 0 then b else some x

/-- `winconv.py:1147-1171`: `select_range`. -/
def selectRange (w : Win K) : RRange K → Except PyErr (List (Multipole × List Bool))
  | .none => fullLike w true
  | .dict d => traverse (rEntry w) d
  | .tuple (lo, hi) =>
    let lo := (orElse lo (some 0)).getD 0
    let hi := orElse hi none
    traverse (fun m =>
      match w.r.at (.mp m) with
      | .error e => .error e
      | .ok x => .ok (m, rMask lo hi x)) w.multipoles

/-- The loop of `winconv.py:1183-1187`.  Before version 3.12 of Python a slice is not hashable
(`TypeError`); afterwards `select_idx[slice(*val)] = True` adds an entry which is never read. -/
def selectIdxDict (hashable : Bool) (w : Win K) :
    List (Multipole × List Bool) → List (Key × List (Option ℤ)) →
      Except PyErr (List (Multipole × List Bool))
  | sel, [] => .ok sel
  | sel, (k, a) :: d =>
    match Multipole.ofKey k with
    | .error e => .error e
    | .ok m =>
      match w.r.at (.mp m) with
      | .error e => .error e
      | .ok x =>
        match mkSlice a with
        | .error e => .error e
        | .ok _ =>
          if hashable then selectIdxDict hashable w (dictSet sel m (List.replicate x.length false)) d
          else .error .typeError

/-- `winconv.py:1173-1194`: `select_idx`. -/
def selectIdx (hashable : Bool) (w : Win K) : IRange → Except PyErr (List (Multipole × List Bool))
  | .none => fullLike w true
  | .dict d =>
    match fullLike w true with
    | .error e => .error e
    | .ok sel => selectIdxDict hashable w sel d
  | .tuple a =>
    traverse (fun m =>
      match w.r.at (.mp m) with
      | .error e => .error e
      | .ok x =>
        match mkSlice a with
        | .error e => .error e
        | .ok s =>
          match sliceMask x.length s with
          | .error e => .error e
          | .ok b => .ok (m, b)) w.multipoles

/-- `winconv.py:1196-1201`: `selector`. -/
def selector (hashable : Bool) (w : Win K) (rr : RRange K) (ir : IRange) :
    Except PyErr (List (Multipole × List Bool)) :=
  match selectRange w rr with
  | .error e => .error e
  | .ok sr =>
    match selectIdx hashable w ir with
    | .error e => .error e
    | .ok si =>
      traverse (fun m =>
        match get sr m with
        | .error e => .error e
        | .ok a =>
          match get si m with
          | .error e => .error e
          | .ok b => .ok (m, List.zipWith (fun x y => x && y) a b)) w.multipoles

/-- The samples of all multipoles restricted to the selector (`winconv.py:1206-1213, 1221-1224`). -/
def maskQ (sel : List (Multipole × List Bool)) (Q : List (Multipole × List (List K))) :
    Except PyErr (List (Multipole × List (List K))) :=
  traverse (fun p : Multipole × List (List K) =>
    match get sel p.1 with
    | .error e => .error e
    | .ok b =>
      match maskMat b p.2 with
      | .error e => .error e
      | .ok q => .ok (p.1, q)) Q

/-- `{multipole: np.diag(Qpole) for …}`. -/
def diags (Q : List (Multipole × List (List K))) : List (Multipole × List K) :=
  Q.map fun p => (p.1, diagOf p.2)

/-- `winconv.py:1029-1068`: `load_from_dict` for keys which are multipoles already. -/
def loadFromDict (r : RAttr K) (Q : List (Multipole × List (List K))) (sources : Option (List String)) :
    Except PyErr (Win K) :=
  match sortM (Q.map Prod.fst) with
  | .error e => .error e
  | .ok ms => .ok ⟨ms, r, Q, diags Q, sources.getD (List.replicate ms.length "array")⟩

/-- The local variable `multipole` at line 1205: it is assigned only by the loop of line 1193. -/
def leaked (w : Win K) : IRange → Option Multipole
  | .tuple _ => w.multipoles.getLast?
  | _ => none

/-- `winconv.py:1203-1215`: the new object.  An unassigned variable raises `UnboundLocalError`, which
is a `NameError`. -/
def subselectNew (w : Win K) (ir : IRange) (sel : List (Multipole × List Bool)) :
    Except PyErr (Win K) :=
  match leaked w ir with
  | none => .error .nameError
  | some m =>
    match w.r.at (.mp m) with
    | .error e => .error e
    | .ok x =>
      match get sel m with
      | .error e => .error e
      | .ok b =>
        match maskOf b x with
        | .error e => .error e
        | .ok x =>
          match maskQ sel w.Q with
          | .error e => .error e
          | .ok Q =>
            match loadFromDict (.arr x) Q none with
            | .error e => .error e
            | .ok w' => .ok { w' with sources := w.sources }

/-- `winconv.py:1217-1220`: the new attribute `r`. -/
def maskR (w : Win K) (sel : List (Multipole × List Bool)) :
    Except PyErr (List (Multipole × List K)) :=
  traverse (fun m =>
    match w.r.at (.mp m) with
    | .error e => .error e
    | .ok x =>
      match get sel m with
      | .error e => .error e
      | .ok b =>
        match maskOf b x with
        | .error e => .error e
        | .ok x => .ok (m, x)) w.multipoles

/-- `winconv.py:1121-1228`: `subselect`: the object afterwards and the value returned. -/
def subselect (hashable : Bool) (w : Win K) (rr : RRange K) (ir : IRange) (inplace : Bool) :
    Win K × Except PyErr (Option (Win K)) :=
  match selector hashable w rr ir with
  | .error e => (w, .error e)
  | .ok sel =>
    if !inplace then
      match subselectNew w ir sel with
      | .error e => (w, .error e)
      | .ok w' => (w, .ok (some w'))
    else
      match maskR w sel with
      | .error e => (w, .error e)
      | .ok r =>
        match maskQ sel w.Q with
        | .error e => ({ w with r := .dict r }, .error e)
        | .ok Q => ({ w with r := .dict r, Q := Q, qDiag := diags Q }, .ok none)

end Trv.Wc

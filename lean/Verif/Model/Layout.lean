import Verif.Model.Common
import Mathlib.Algebra.Order.Field.Basic
import Mathlib.Analysis.Real.Sqrt
import Mathlib.Algebra.Order.Floor.Ring
import Mathlib.Data.Complex.Basic
/-
Model of the data-vector layout of three-point statistics
(`/repo/src/triumvirate/src/threept.cpp`) and of `reshape_threept_datatab`
(`/repo/src/triumvirate/_arrayops.py`).
-/
namespace Trv.ThreePt

open Trv

/-- The recognised values of `params.shape` (`threept.cpp:276-298`), with the
value of `params.idx_bin` where it is used. -/
inductive Form
  | diag
  | offDiag (k : ℤ)
  | row (b : ℤ)
  | full
  | triu
  deriving DecidableEq, Repr

/-- The index sequence of a loop `for (int i = a; i < b; i++)`. -/
def upto (a b : ℤ) : List ℤ := (List.range (b - a).toNat).map fun t : ℕ => a + (t : ℤ)

/-- `threept.cpp:275-290` (identical at 1043-1055, 1498-1510, 2217-2229,
2650-2662, 3110-3122): the data-vector dimension.  `n` is `num_bins`, assumed the
same in the binning and in the parameter set. -/
def dim (n : ℤ) : Form → ℤ
  | .diag => n
  | .row _ => n
  | .offDiag k => n - |k|
  | .full => n * n
  | .triu => Int.tdiv (n * (n + 1)) 2

/-- `threept.cpp:714-715`: the position of a pair in the upper-triangular form.
C++ integer division truncates. -/
def triuIdx (n row col : ℤ) : ℤ := Int.tdiv ((2 * n - row + 1) * row) 2 + (col - row)

/-- One assignment in a measurement loop: the bins read and the position written. -/
structure Entry where
  row : ℤ
  col : ℤ
  pos : ℤ
  deriving DecidableEq, Repr

/-- `threept.cpp:465-739` (and 1288-1375 for the 3PCF): entries of the data
vector written by the measurement loops, in loop order. -/
def measWrites (n : ℤ) : Form → List Entry
  | .diag => (upto 0 (dim n .diag)).map fun i => ⟨i, i, i⟩
  | .offDiag k => (upto 0 (dim n (.offDiag k))).map fun i =>
      if k ≥ 0 then ⟨i, i + |k|, i⟩ else ⟨i + |k|, i, i⟩
  | .row b => (upto 0 (dim n (.row b))).map fun i => ⟨b, i, i⟩
  | .full => (upto 0 n).flatMap fun r => (upto 0 n).map fun c => ⟨r, c, r * n + c⟩
  | .triu => (upto 0 n).flatMap fun r => (upto r n).map fun c => ⟨r, c, triuIdx n r c⟩

/-- `threept.cpp:807-876` (1990-2056, 3759-3827): entries written when `ell2 == 0`:
the bin of the two-point shot noise read and the position it is added to. -/
def noiseWritesRow (n : ℤ) : Form → List (ℤ × ℤ)
  | .diag => (upto 0 (dim n .diag)).map fun i => (i, i)
  | .offDiag k => (upto 0 (dim n (.offDiag k))).map fun i =>
      if k ≥ 0 then (i, i) else (i + |k|, i)
  | .row b => (upto 0 (dim n (.row b))).map fun i => (b, i)
  | .full => (upto 0 n).flatMap fun r => (upto 0 n).map fun c => (r, r * n + c)
  | .triu => (upto 0 n).flatMap fun r => (upto r n).map fun c => (r, triuIdx n r c)

/-- `threept.cpp:878-949` (2058-2125, 3829-3901): entries written when
`ell1 == 0`.  In the full form the row loop runs to `idx_row <= num_bins`
(lines 927, 2103, 3879). -/
def noiseWritesCol (n : ℤ) : Form → List (ℤ × ℤ)
  | .diag => (upto 0 (dim n .diag)).map fun i => (i, i)
  | .offDiag k => (upto 0 (dim n (.offDiag k))).map fun i =>
      if k ≥ 0 then (i + k, i) else (i, i)
  | .row b => (upto 0 (dim n (.row b))).map fun i => (i, i)
  | .full => (upto 0 n).flatMap fun c => (upto 0 (n + 1)).map fun r => (c, r * n + c)
  | .triu => (upto 0 n).flatMap fun c => (upto 0 (c + 1)).map fun r => (c, triuIdx n r c)

/-- `threept.cpp:798-967`: every position of `sn_dv` written for one spherical
order triplet of a bispectrum, in program order. -/
def noisePositions (n ell1 ell2 : ℤ) (f : Form) : List ℤ :=
  (if ell1 = 0 ∧ ell2 = 0 then upto 0 (dim n f) else []) ++
  (if ell2 = 0 then (noiseWritesRow n f).map Prod.snd else []) ++
  (if ell1 = 0 then (noiseWritesCol n f).map Prod.snd else []) ++
  upto 0 (dim n f)

/-- `threept.cpp:1236-1286` (2389-2437, 2838-2885): entries of `sn_dv` written for
a three-point correlation function (bin read, position). -/
def noiseWrites3pcf (n : ℤ) : Form → List (ℤ × ℤ)
  | .diag => (upto 0 (dim n .diag)).map fun i => (i, i)
  | .offDiag k => if k = 0 then (upto 0 (dim n (.offDiag k))).map fun i => (i, i) else []
  | .row b => [(b, b)]
  | .full => (upto 0 n).map fun r => (r, r * n + r)
  | .triu => (upto 0 n).map fun r => (r, Int.tdiv ((2 * n - r + 1) * r) 2)

/-! ### Spherical-order loop -/

/-- `SphericalOrderTriplet` (`threept.hpp`, `threept.cpp:40-58`). -/
structure Triplet where
  m1 : ℤ
  m2 : ℤ
  M : ℤ
  deriving DecidableEq, Repr

/-- `threept.cpp:49-51`. -/
def Triplet.isZeros (t : Triplet) : Bool := t.m1 = 0 && t.m2 = 0 && t.M = 0

/-- `threept.cpp:53-58`. -/
def Triplet.isInverse (t s : Triplet) : Bool :=
  t.m1 + s.m1 = 0 && t.m2 + s.m2 = 0 && t.M + s.M = 0

section
variable {K : Type} [Field K] [LinearOrder K]

/-- `threept.cpp:360-370`: not all couplings of the pair `(m1, m2)` vanish. -/
def rowLive (c : Triplet → K) (eps : K) (ELL m1 m2 : ℤ) : Bool :=
  (upto (-ELL) (ELL + 1)).any fun M => eps < |c ⟨m1, m2, M⟩|

/-- `threept.cpp:389-404, 969`: one pass of the innermost loop, acting on
`sph_orders_computed`. -/
def stepM (c : Triplet → K) (eps : K) (computed : List Triplet) (t : Triplet) : List Triplet :=
  if computed.any (fun s => t.isInverse s) then computed
  else if |c t| < eps then computed
  else computed ++ [t]

/-- `threept.cpp:358-970`: the list `sph_orders_computed` after the triple loop. -/
def computedOrders (c : Triplet → K) (eps : K) (ell1 ell2 ELL : ℤ) : List Triplet :=
  (upto (-ell1) (ell1 + 1)).foldl (fun acc m1 =>
    (upto (-ell2) (ell2 + 1)).foldl (fun acc m2 =>
      if rowLive c eps ELL m1 m2 then
        (upto (-ELL) (ELL + 1)).foldl (fun acc M => stepM c eps acc ⟨m1, m2, M⟩) acc
      else acc) acc) []

/-- `threept.cpp:1577-1601, 2291-2315`: the loop under the global plane-parallel
approximation, in which `M_ = 0` throughout. -/
def computedOrdersGpp (c : Triplet → K) (eps : K) (ell1 ell2 : ℤ) : List Triplet :=
  (upto (-ell1) (ell1 + 1)).foldl (fun acc m1 =>
    (upto (-ell2) (ell2 + 1)).foldl (fun acc m2 => stepM c eps acc ⟨m1, m2, 0⟩) acc) []

/-- `threept.cpp:416-417`: `factor_mirror`. -/
def factorMirror (ELL : ℤ) (t : Triplet) : ℤ := if t.isZeros then 0 else (-1) ^ ELL.toNat

end

/-- `threept.cpp:765-767` (and 515-517, 580-582, 645-647, 704-706) accumulated
over the spherical-order loop: one entry of `bk_dv`.  `B t` is `bk_component`. -/
noncomputable def bkTotal (c : Triplet → ℝ) (B : Triplet → ℂ) (vol eps : ℝ) (ell1 ell2 ELL : ℤ) : ℂ :=
  ((computedOrders c eps ell1 ell2 ELL).map fun t =>
    (c t : ℂ) * (vol : ℂ) * (B t + (factorMirror ELL t : ℂ) * (starRingEnd ℂ) (B t))).sum

/-! ### Reshaping (`_arrayops.py:742-821`) -/

/-- `np.isclose` with its default tolerances, `|x - y| ≤ 1e-8 + 1e-5 |y|`. -/
def IsClose (x y : ℝ) : Prop := |x - y| ≤ 1 / 10 ^ 8 + 1 / 10 ^ 5 * |y|

/-- `np.triu_indices(n)` in row-major order. -/
def triuIndices (n : ℕ) : List (ℕ × ℕ) :=
  (List.range n).flatMap fun r => (List.range' r (n - r)).map fun c => (r, c)

/-- Setting entries of a matrix one after the other. -/
def setAll {α : Type} (M : ℕ → ℕ → α) (ws : List ((ℕ × ℕ) × α)) : ℕ → ℕ → α :=
  ws.foldl (fun M w => fun r c => if r = w.1.1 ∧ c = w.1.2 then w.2 else M r c) M

/-- Transposition (`multipole.T`). -/
def tr {α : Type} (M : ℕ → ℕ → α) : ℕ → ℕ → α := fun r c => M c r

/-- A returned pair (`common_coords`, `multipole`): the matrix has size `n × n`. -/
structure Reshaped (α : Type) where
  n : ℕ
  coords : List α
  mat : ℕ → ℕ → α

open Classical in
/-- `_arrayops.py:742-821`: `reshape_threept_datatab`.  `rows` is `paired_coords`,
a 2-d array with two columns (`none`: not a 2-d array).  Assigning or reshaping an
array of the wrong size is a `ValueError`.  `int(x)` of a non-negative float is its
floor.  Simplification: exact square roots. -/
noncomputable def reshape {α : Type} [Zero α] (paired : Option (List (α × α))) (flat : List α)
    (shape : String) : Except PyErr (Reshaped α) :=
  match paired with
  | none => .error .valueError
  | some rows =>
    if rows.length ≠ flat.length then .error .valueError
    else if shape = "triu" then
      let nb : ℝ := (Real.sqrt (8 * (rows.length : ℝ) + 1) - 1) / 2
      if ¬ IsClose nb ⌊nb⌋₊ then .error .valueError
      else
        let n := ⌊nb⌋₊
        let common := (rows.take n).map Prod.snd
        let idx := triuIndices n
        if idx.length ≠ flat.length then .error .valueError
        else
          let M := setAll (fun _ _ => 0) (idx.zip flat)
          let M := tr (setAll (tr M) (idx.zip flat))
          .ok ⟨n, common, M⟩
    else if shape = "full" then
      let nb : ℝ := Real.sqrt (rows.length : ℝ)
      if ¬ IsClose nb ⌊nb⌋₊ then .error .valueError
      else
        let n := ⌊nb⌋₊
        let common := (rows.take n).map Prod.snd
        if n * n ≠ flat.length then .error .valueError
        else .ok ⟨n, common, fun r c => flat.getD (r * n + c) 0⟩
    else .error .valueError

end Trv.ThreePt

import Verif.Model.Common
import Mathlib.Analysis.SpecialFunctions.Log.Basic
import Mathlib.Algebra.Order.Field.Basic
import Mathlib.Data.Sign.Basic
/-
Model of `/repo/src/triumvirate/_arrayops.py` (checks and extrapolation) and of
`/repo/src/triumvirate/src/arrayops.cpp` (extrapolation and index sorting).

Simplifications: exact arithmetic; extension numbers are natural numbers; arrays
are given after `np.squeeze`; warnings are not modelled.
-/
namespace Trv.Arr

open Trv

section field
variable {K : Type} [Field K] [LinearOrder K]

/-! ### 1-d checks -/

/-- `_arrayops.py:104-107`: squeezing and the size check (`ShapeError` is a
`ValueError`). -/
def check1d (a : List K) : Except PyErr (List K) :=
  if a.length < 2 then .error .valueError else .ok a

/-- `np.all(a[:-1] <= a[1:])`, for any relation. -/
def allAdj (R : K → K → Prop) [DecidableRel R] : List K → Bool
  | [] => true
  | [_] => true
  | x :: y :: l => decide (R x y) && allAdj R (y :: l)

/-- `_arrayops.py:104-107, 124-126`: `_check_1d_array(a, check_sorted=True)`
(`OrderError` is a `ValueError`). -/
def checkSorted (a : List K) : Except PyErr (List K) :=
  match check1d a with
  | .error e => .error e
  | .ok a =>
    if !(allAdj (fun x y => x ≤ y) a) || !(allAdj (fun x y => x ≥ y) a) then .error .valueError
    else .ok a

/-- `_arrayops.py:114-115`: one end of the (non-strict) sign check; `x` is the end
sample and `y` the next one. -/
def epsign1 (x y : K) : Bool := decide (x * y > 0) || decide (x = 0)

/-- The first two samples of an array with at least two samples. -/
def front2 : List K → Option (K × K)
  | x :: y :: _ => some (x, y)
  | _ => none

/-- The last two samples (last, last but one). -/
def back2 (a : List K) : Option (K × K) := front2 a.reverse

/-! ### 1-d extrapolation, Python -/

/-- `_arrayops.py:249-273`: `extrap_pad`. -/
def pyPad (a : List K) (n : ℕ) (lo hi : K) : Except PyErr (List K) :=
  match check1d a with
  | .error e => .error e
  | .ok a => .ok (List.replicate n lo ++ a ++ List.replicate n hi)

/-- `_arrayops.py:276-301`: `extrap_lin`.  `np.arange(-n, 0)` is `i - n` for
`i = 0 … n-1`. -/
def pyLin (a : List K) (n : ℕ) : Except PyErr (List K) :=
  match check1d a with
  | .error e => .error e
  | .ok a =>
    match front2 a, back2 a with
    | some (x0, x1), some (y0, y1) =>
      .ok ((List.range n).map (fun i : ℕ => x0 + (x1 - x0) * ((i : K) - n)) ++ a ++
        (List.range n).map (fun i : ℕ => y0 + (y0 - y1) * ((i : K) + 1)))
    | _, _ => .error .valueError

/-- A floating-point sample: `none` is NaN. -/
abbrev Val (K : Type) := Option K

/-- `x * (x / y) ** k` with `0 / 0 = NaN`.  (`x / 0` with `x ≠ 0` is excluded by
the sign check.) -/
def ratioPow (x y : K) (k : ℕ) : Val K := if y = 0 then none else some (x * (x / y) ^ k)

/-- `_arrayops.py:304-329`: `extrap_loglin`.  `np.arange(n, 0, -1)` is `n - i` for
`i = 0 … n-1`. -/
def pyLoglin (a : List K) (n : ℕ) : Except PyErr (List (Val K)) :=
  match check1d a with
  | .error e => .error e
  | .ok a =>
    match front2 a, back2 a with
    | some (x0, x1), some (y0, y1) =>
      if !(epsign1 x0 x1 && epsign1 y0 y1) then .error .valueError
      else
        .ok ((List.range n).map (fun i : ℕ => ratioPow x0 x1 (n - i)) ++ a.map some ++
          (List.range n).map (fun i : ℕ => ratioPow y0 y1 (i + 1)))
    | _, _ => .error .valueError

/-! ### 1-d extrapolation, C++ -/

/-- The array filled by the three loops of an extrapolation routine
(`arrayops.cpp:94-203`): `a_ext[i]` is `lo i` for `i < N_ext`, `a[i - N_ext]` up to
`N_ext + N`, and `hi i` beyond. -/
def cppFill (a : List K) (n : ℕ) (lo hi : ℕ → K) : List K :=
  (List.range (n + a.length + n)).map fun i : ℕ =>
    if i < n then lo i
    else if i < n + a.length then a.getD (i - n) 0
    else hi i

/-- `arrayops.cpp:186-203`: `extrap_pad`. -/
def cppPad (a : List K) (n : ℕ) (lo hi : K) : List K := cppFill a n (fun _ => lo) (fun _ => hi)

/-- `arrayops.cpp:94-124`: `extrap_lin`.  Reading `a[1]`, `a[N - 2]` of a shorter
array is out of bounds. -/
def cppLin (a : List K) (n : ℕ) : Except CppErr (List K) :=
  match front2 a, back2 a with
  | some (x0, x1), some (y0, y1) =>
    .ok (cppFill a n (fun i : ℕ => x0 + ((i : K) - n) * (x1 - x0))
      (fun i : ℕ => y0 + ((i : K) - ((n : K) + (a.length : K) - 1)) * (y0 - y1)))
  | _, _ => .error .outOfBounds

end field

/-- `arrayops.cpp:82-88`: the sign check over all adjacent samples. -/
noncomputable def cppSignOk (a : List ℝ) : Bool := allAdj (fun x y => ¬ x * y ≤ 0) a

/-- `arrayops.cpp:126-184`: `extrap_loglin` (`std::invalid_argument` as
`invalidData`).  After the sign check all ratios are positive, so the NaN and
floating-point exception tests never fire in exact arithmetic. -/
noncomputable def cppLoglin (a : List ℝ) (n : ℕ) : Except CppErr (List ℝ) :=
  if !cppSignOk a then .error .invalidData
  else
    match front2 a, back2 a with
    | some (x0, x1), some (y0, y1) =>
      .ok (cppFill a n
        (fun i : ℕ => x0 * Real.exp (((i : ℝ) - n) * Real.log (x1 / x0)))
        (fun i : ℕ => y0 * Real.exp (((i : ℝ) - ((n : ℝ) + (a.length : ℝ) - 1)) *
          Real.log (y0 / y1))))
    | _, _ => .error .outOfBounds

/-! ### Oscillation-safe extrapolation (`_arrayops.py:332-488`)

Logarithms of zero samples give infinities and NaNs, which the code handles with
`np.nan_to_num`, so values are extended floats here. -/

/-- A float: NaN, an infinity, or a finite value. -/
inductive Flt
  | nan
  | ninf
  | pinf
  | fin (x : ℝ)

/-- `np.log(np.abs(x))`. -/
noncomputable def logAbs (x : ℝ) : Flt := if x = 0 then .ninf else .fin (Real.log |x|)

/-- Floating-point subtraction. -/
noncomputable def Flt.sub : Flt → Flt → Flt
  | .fin x, .fin y => .fin (x - y)
  | .fin _, .pinf => .ninf
  | .fin _, .ninf => .pinf
  | .pinf, .fin _ => .pinf
  | .pinf, .ninf => .pinf
  | .ninf, .fin _ => .ninf
  | .ninf, .pinf => .ninf
  | _, _ => .nan

/-- Floating-point addition. -/
noncomputable def Flt.add : Flt → Flt → Flt
  | .fin x, .fin y => .fin (x + y)
  | .fin _, .pinf => .pinf
  | .fin _, .ninf => .ninf
  | .pinf, .fin _ => .pinf
  | .pinf, .pinf => .pinf
  | .ninf, .fin _ => .ninf
  | .ninf, .ninf => .ninf
  | _, _ => .nan

/-- Division by a positive number. -/
noncomputable def Flt.divPos (n : ℝ) : Flt → Flt
  | .fin x => .fin (x / n)
  | x => x

/-- The largest finite float, `1.797…e308`. -/
noncomputable def maxFloat : ℝ := (2 - (1 / 2) ^ 52) * 2 ^ 1023

/-- `np.nan_to_num`. -/
noncomputable def Flt.toNum : Flt → ℝ
  | .nan => 0
  | .ninf => -maxFloat
  | .pinf => maxFloat
  | .fin x => x

/-- The interior of `np.gradient`: half the difference of the neighbours. -/
noncomputable def gradInner : List Flt → List Flt
  | x :: y :: z :: l => (z.sub x).divPos 2 :: gradInner (y :: z :: l)
  | _ => []

/-- `np.gradient` of a 1-d array with unit spacing: one-sided differences at the
ends; fewer than two samples are a `ValueError`. -/
noncomputable def gradient (l : List Flt) : Except PyErr (List Flt) :=
  match l, l.reverse with
  | x0 :: x1 :: _, y0 :: y1 :: _ => .ok ((x1.sub x0) :: gradInner l ++ [y0.sub y1])
  | _, _ => .error .valueError

/-- `np.mean` of floats (possibly infinite). -/
noncomputable def meanF (l : List Flt) : Flt := (l.foldl Flt.add (.fin 0)).divPos l.length

/-- `np.mean` of finite values. -/
noncomputable def mean (l : List ℝ) : ℝ := l.sum / l.length

/-- `np.nonzero(np.diff(np.sign(l)))[0]`: the positions of sign changes. -/
noncomputable def signChanges (l : List ℝ) : List ℕ :=
  (List.range (l.length - 1)).filter fun i =>
    SignType.sign (l.getD (i + 1) 0) ≠ SignType.sign (l.getD i 0)

/-- `a[:i]` for an integer `i`. -/
def sliceTo {α : Type} (a : List α) (i : ℤ) : List α :=
  if 0 ≤ i then a.take i.toNat else a.take (a.length - (-i).toNat)

/-- `a[i:]` for an integer `i`. -/
def sliceFrom {α : Type} (a : List α) (i : ℤ) : List α :=
  if 0 ≤ i then a.drop i.toNat else a.drop (a.length - (-i).toNat)

/-- `np.nan_to_num(np.gradient(np.log(np.abs(l))))`. -/
noncomputable def lngrad (l : List ℝ) : Except PyErr (List ℝ) :=
  match gradient (l.map logAbs) with
  | .ok g => .ok (g.map Flt.toNum)
  | .error e => .error e

/-- `np.nan_to_num(np.mean(np.gradient(np.log(np.abs(l)))))`. -/
noncomputable def meanLngrad (l : List ℝ) : Except PyErr ℝ :=
  match gradient (l.map logAbs) with
  | .ok g => .ok (meanF g).toNum
  | .error e => .error e

/-- `np.argmax(np.abs(a))`: the first position of the largest magnitude. -/
noncomputable def argmaxAbs (a : List ℝ) : ℕ :=
  (List.range a.length).foldl (fun b i => if |a.getD b 0| < |a.getD i 0| then i else b) 0

/-- `_arrayops.py:358-365`: the 'banks' of the first and last sign changes. -/
noncomputable def banks (a : List ℝ) : ℤ × ℤ :=
  match (signChanges a).head?, (signChanges a).getLast? with
  | some i, some j => (max ((i : ℤ) + 1) 3, min ((j : ℤ) + 1) ((a.length : ℤ) - 4))
  | _, _ => ((a.length : ℤ) - 1, 0)

/-- `_arrayops.py:370-375`: the left 'd-bank'. -/
noncomputable def ldBank (a : List ℝ) (g : List ℝ) : ℤ :=
  match (signChanges g).getLast? with
  | some i => max ((i : ℤ) + 1) 3
  | none => (a.length : ℤ) - 1

/-- `_arrayops.py:377-382`: the right 'd-bank'. -/
noncomputable def rdBank (a : List ℝ) (rb : ℤ) (g : List ℝ) : ℤ :=
  match (signChanges g).head? with
  | some i => min (rb + i) ((a.length : ℤ) - 4)
  | none => 0

/-- `_arrayops.py:386-390`: the 'quarters' (`//` of non-negative integers). -/
noncomputable def quarters (a : List ℝ) : ℤ × ℤ :=
  let p0 := argmaxAbs a
  let p : ℕ := if p0 = 0 ∨ p0 = a.length - 1 then a.length / 2 else p0
  (max (((p : ℤ) + 1) / 2 - 1) 3,
   min ((p : ℤ) + ((a.length : ℤ) - 1 - p) / 2) ((a.length : ℤ) - 4))

/-- `_arrayops.py:397-441`: the slope of the left tail; `g` is `lngrad_ltail`,
`x0`, `x1` are the first two samples, `q` is `a[:idx_lquater]`. -/
noncomputable def powLeft (g : List ℝ) (x0 x1 : ℝ) (q : List ℝ) : Except PyErr ℝ :=
  if signChanges g ≠ [] then
    if mean g ≥ 0 then .ok (-mean g) else .ok 0
  else if ((logAbs x1).sub (logAbs x0)).toNum ≥ 0 then
    .ok (-((logAbs x1).sub (logAbs x0)).toNum)
  else
    match meanLngrad q with
    | .error e => .error e
    | .ok m => if m ≥ 0 then .ok (-m) else .ok 0

/-- `_arrayops.py:443-482`: the slope of the right tail; `y0`, `y1` are the last
sample and the last but one. -/
noncomputable def powRight (g : List ℝ) (y0 y1 : ℝ) (q : List ℝ) : Except PyErr ℝ :=
  if signChanges g ≠ [] then
    if mean g ≤ 0 then .ok (mean g) else .ok 0
  else if ((logAbs y0).sub (logAbs y1)).toNum ≤ 0 then
    .ok ((logAbs y0).sub (logAbs y1)).toNum
  else
    match meanLngrad q with
    | .error e => .error e
    | .ok m => if m ≤ 0 then .ok m else .ok 0

/-- `_arrayops.py:332-488`: `extrap_loglin_oscil`. -/
noncomputable def pyOscil (a : List ℝ) (n : ℕ) : Except PyErr (List ℝ) := do
  let a ← check1d a
  let (lb, rb) := banks a
  let gl ← lngrad (sliceTo a lb)
  let ldb := ldBank a gl
  let gr ← lngrad (sliceFrom a rb)
  let rdb := rdBank a rb gr
  let (lq, rq) := quarters a
  let lt := min (min lb ldb) lq
  let rt := max (max rb rdb) rq
  let glt ← lngrad (sliceTo a lt)
  match front2 a, back2 a with
  | some (x0, x1), some (y0, y1) =>
    let pl ← powLeft glt x0 x1 (sliceTo a lq)
    let grt ← lngrad (sliceFrom a rt)
    let pr ← powRight grt y0 y1 (sliceFrom a rq)
    .ok ((List.range n).map (fun i : ℕ => x0 * Real.exp (pl * ((n : ℝ) - i))) ++ a ++
      (List.range n).map (fun i : ℕ => y0 * Real.exp (pr * ((i : ℝ) + 1))))
  | _, _ => .error .valueError

/-! ### 2-d extrapolation -/

/-- A 2-d array with `r` rows and `c` columns (values outside are irrelevant). -/
structure Mat (K : Type) where
  r : ℕ
  c : ℕ
  v : ℕ → ℕ → K

/-- Transposition. -/
def Mat.T {K : Type} (m : Mat K) : Mat K := ⟨m.c, m.r, fun i j => m.v j i⟩

section field2
variable {K : Type} [Field K] [LinearOrder K]

/-- `_arrayops.py:182-186`: squeezing (an axis of length one is dropped) and the
size check. -/
def check2d (m : Mat K) : Except PyErr (Mat K) :=
  if m.r = 1 ∨ m.c = 1 ∨ m.r * m.c < 4 then .error .valueError else .ok m

/-- The `n_ext` argument: an integer or a sequence of two. -/
inductive NExt
  | one (n : ℕ)
  | pair (nrow ncol : ℕ)

/-- `(nrow_ext, ncol_ext)` (`_arrayops.py:672-673`). -/
def NExt.get : NExt → ℕ × ℕ
  | .one n => (n, n)
  | .pair r c => (r, c)

/-- Concatenation of a left block, the array and a right block along rows
(`np.c_`). -/
def Mat.hcat (n : ℕ) (m : Mat K) (lo hi : ℕ → ℕ → K) : Mat K :=
  ⟨m.r, n + m.c + n, fun i j =>
    if j < n then lo i j else if j < n + m.c then m.v i (j - n) else hi i (j - (n + m.c))⟩

/-- `_arrayops.py:491-513`: `_extrap2d_row_lin`. -/
def rowLin (m : Mat K) (n : ℕ) : Mat K :=
  m.hcat n (fun i j => m.v i 0 + ((j : K) - n) * (m.v i 1 - m.v i 0))
    (fun i j => m.v i (m.c - 1) + ((j : K) + 1) * (m.v i (m.c - 1) - m.v i (m.c - 2)))

/-- `_arrayops.py:516-538`: `_extrap2d_row_loglin`.  Simplification: division is
that of the field; theorems assume the divisors non-zero. -/
def rowLoglin (m : Mat K) (n : ℕ) : Mat K :=
  m.hcat n (fun i j => m.v i 0 * (m.v i 0 / m.v i 1) ^ (n - j))
    (fun i j => m.v i (m.c - 1) * (m.v i (m.c - 1) / m.v i (m.c - 2)) ^ (j + 1))

/-- `_arrayops.py:654-679`: `extrap2d_lin`. -/
def ext2Lin (m : Mat K) (e : NExt) : Except PyErr (Mat K) :=
  match check2d m with
  | .error x => .error x
  | .ok m => .ok (rowLin (rowLin m e.get.2).T e.get.1).T

/-- `_arrayops.py:193-209`: the non-strict 2-d sign check. -/
def epsign2 (m : Mat K) : Bool :=
  (List.range m.r).all (fun i => epsign1 (m.v i 0) (m.v i 1)) &&
  (List.range m.r).all (fun i => epsign1 (m.v i (m.c - 1)) (m.v i (m.c - 2))) &&
  (List.range m.c).all (fun j => epsign1 (m.v 0 j) (m.v 1 j)) &&
  (List.range m.c).all (fun j => epsign1 (m.v (m.r - 1) j) (m.v (m.r - 2) j))

/-- `_arrayops.py:682-707`: `extrap2d_loglin`. -/
def ext2Loglin (m : Mat K) (e : NExt) : Except PyErr (Mat K) :=
  match check2d m with
  | .error x => .error x
  | .ok m =>
    if !epsign2 m then .error .valueError
    else .ok (rowLoglin (rowLoglin m e.get.2).T e.get.1).T

/-- A padding argument: a scalar or a sequence. -/
inductive Pad (K : Type)
  | scalar (x : K)
  | seq (l : List K)

/-- `np.full(len, x)` for a scalar (`_arrayops.py:606-613`). -/
def Pad.expand (len : ℕ) : Pad K → List K
  | .scalar x => List.replicate len x
  | .seq l => l

/-- `_arrayops.py:566-651`: `extrap2d_pad`.  Padding sequences of the wrong length
make the concatenations fail (`ValueError`); empty ones fail on `[0]`
(`IndexError`). -/
def ext2Pad (m : Mat K) (e : NExt) (crl cru ccl ccu : Pad K) : Except PyErr (Mat K) :=
  match check2d m with
  | .error x => .error x
  | .ok m =>
    let crl := crl.expand m.r
    let cru := cru.expand m.r
    let ccl := ccl.expand m.c
    let ccu := ccu.expand m.c
    match crl.head?, cru.head?, ccl.head?, ccu.head?,
        crl.getLast?, cru.getLast?, ccl.getLast?, ccu.getLast? with
    | some rl0, some ru0, some cl0, some cu0, some rl1, some ru1, some cl1, some cu1 =>
      if rl0 ≠ cl0 then .error .valueError
      else if ru0 ≠ cl1 then .error .valueError
      else if rl1 ≠ cu0 then .error .valueError
      else if ru1 ≠ cu1 then .error .valueError
      else if crl.length ≠ m.r ∨ cru.length ≠ m.r ∨ ccl.length ≠ m.c ∨ ccu.length ≠ m.c then
        .error .valueError
      else
        -- a_l = np.tile(crow_lower, (nrow_ext, 1)).T: nrow_ext columns
        let nr := e.get.1
        let nc := e.get.2
        let a1 := m.hcat nr (fun i _ => crl.getD i 0) (fun i _ => cru.getD i 0)
        -- the tiled column paddings, extended by the first (last) rows of a_l, a_r
        let ccl' := List.replicate nr rl0 ++ ccl ++ List.replicate nr ru0
        let ccu' := List.replicate nr rl1 ++ ccu ++ List.replicate nr ru1
        -- np.tile(ccol_lower, (ncol_ext, 1)): ncol_ext rows
        .ok (a1.T.hcat nc (fun j _ => ccl'.getD j 0) (fun j _ => ccu'.getD j 0)).T
    | _, _, _, _, _, _, _, _ => .error .indexError

end field2

/-- Stacking rows into an array (`np.array(a_out)`); the rows have equal lengths. -/
def Mat.ofRows (rows : List (List ℝ)) (c : ℕ) : Mat ℝ :=
  ⟨rows.length, c, fun i j => (rows.getD i []).getD j 0⟩

/-- The rows of an array. -/
def Mat.rows (m : Mat ℝ) : List (List ℝ) :=
  (List.range m.r).map fun i => (List.range m.c).map fun j => m.v i j

/-- `_arrayops.py:541-563`: `_extrap2d_row_loglin_oscil`. -/
noncomputable def rowOscil (m : Mat ℝ) (n : ℕ) : Except PyErr (Mat ℝ) :=
  match m.rows.mapM (fun a => pyOscil a n) with
  | .error e => .error e
  | .ok rows => .ok (Mat.ofRows rows (n + m.c + n))

/-- `_arrayops.py:710-735`: `extrap2d_loglin_oscil`. -/
noncomputable def ext2Oscil (m : Mat ℝ) (e : NExt) : Except PyErr (Mat ℝ) :=
  match check2d m with
  | .error x => .error x
  | .ok m =>
    match rowOscil m e.get.2 with
    | .error x => .error x
    | .ok a =>
      match rowOscil a.T e.get.1 with
      | .error x => .error x
      | .ok b => .ok b.T

/-! ### Index sorting (`arrayops.cpp:245-266`) -/

/-- Insertion into a list kept sorted by the comparator `lt`. -/
def insertBy (lt : ℕ → ℕ → Bool) (x : ℕ) : List ℕ → List ℕ
  | [] => [x]
  | y :: l => if lt x y then x :: y :: l else y :: insertBy lt x l

/-- `std::sort` with a comparator.  Simplification: insertion sort; which of
several equal keys comes first is unspecified in C++. -/
def sortBy (lt : ℕ → ℕ → Bool) (l : List ℕ) : List ℕ := l.foldl (fun acc x => insertBy lt x acc) []

/-- `arrayops.cpp:245-266`: `get_sorted_indices`. -/
def getSortedIndices (v : List ℤ) : List ℕ :=
  sortBy (fun a b => decide (v.getD a 0 < v.getD b 0)) (List.range v.length)

end Trv.Arr

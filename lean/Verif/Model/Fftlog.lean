import Verif.Model.Common
import Verif.Model.ArrayOps
import Mathlib.Analysis.SpecialFunctions.Trigonometric.Basic
import Mathlib.Analysis.SpecialFunctions.Complex.Log
import Mathlib.Analysis.SpecialFunctions.Log.Base
import Mathlib.Analysis.SpecialFunctions.Pow.Real
/-
Model of `/repo/src/triumvirate/src/fftlog.cpp` (`HankelTransform`, `SphericalBesselTransform`) and
of `/repo/src/triumvirate/transforms.py` (`SphericalBesselTransform`), over real and complex
numbers.

Simplifications: exact arithmetic; FFTW's transform is the finite sum it computes; the log-gamma
function of the GSL library is a parameter; plans, threads and GPU paths are left out.
-/
namespace Trv.Fft

open Trv Trv.Arr

/-- `gsl_sf_lngamma_complex_e(x, y)`: log-modulus and phase (`maths.cpp:122-128`). -/
abbrev LnGamma := ℝ → ℝ → ℝ × ℝ

/-- `maths.cpp:44-46`: `eval_complex_in_polar`. -/
noncomputable def polar (r theta : ℝ) : ℂ := r * (Complex.cos theta + Complex.I * Complex.sin theta)

/-- `fftlog.cpp:39-48`: the constructor's check of `mu` and `q`. -/
noncomputable def construct (mu q : ℝ) : Except CppErr Unit :=
  if (mu + 1 + q ≤ 0 ∧ (⌊mu + 1 + q⌋ : ℝ) = mu + 1 + q) ∨
      (mu + 1 - q ≤ 0 ∧ (⌊mu + 1 - q⌋ : ℝ) = mu + 1 - q) then .error .invalidParameter
  else .ok ()

/-- `arrayops.cpp:73-83`: the logarithms of adjacent ratios; `none` if a floating-point exception
is raised. -/
noncomputable def logDiffs : List ℝ → Option (List ℝ)
  | x :: y :: l =>
    if x = 0 ∨ y / x ≤ 0 then none
    else match logDiffs (y :: l) with
      | none => none
      | some d => some (Real.log (y / x) :: d)
  | _ => some []

/-- `arrayops.hpp:121-129`: `check_isclose` with the default tolerances. -/
noncomputable def isclose (l : List ℝ) (v : ℝ) : Prop :=
  ∀ e ∈ l, |e - v| ≤ 1 / 100000000 + 1 / 100000 * |v|

/-- `arrayops.cpp:60-92`: `check_1d_array(a, false, true, false) == 0`. -/
noncomputable def loglinOk (a : List ℝ) : Prop :=
  match logDiffs a with
  | none => False
  | some [] => True
  | some (d :: l) => isclose (d :: l) d

/-- `std::round`: half away from zero. -/
noncomputable def roundAway (x : ℝ) : ℤ := if 0 ≤ x then ⌊x + 1 / 2⌋ else ⌈x - 1 / 2⌉

/-- `maths.cpp:130-157`: `eval_gamma_lnratio`. -/
noncomputable def lnratio (G : LnGamma) (mu : ℝ) (nu : ℂ) : ℂ :=
  let xp : ℂ := (mu + 1 + nu) / 2
  let xm : ℂ := (mu + 1 - nu) / 2
  if nu.im < 100 then
    ⟨(G xp.re xp.im).1 - (G xm.re xm.im).1, (G xp.re xp.im).2 - (G xm.re xm.im).2⟩
  else
    -nu + (xp - 1 / 2) * Complex.log xp - (xm - 1 / 2) * Complex.log xm +
      1 / 12 * (1 / xp - 1 / xm) - 1 / 360 * (1 / xp ^ 3 - 1 / xm ^ 3) +
      1 / 1260 * (1 / xp ^ 5 - 1 / xm ^ 5)

/-- `fftlog.cpp:255-285`: `calc_lowring_pivot`. -/
noncomputable def lowringPivot (G : LnGamma) (mu q dL kr : ℝ) : ℝ :=
  let xp := (mu + 1 + q) / 2
  let xm := (mu + 1 - q) / 2
  let y := Real.pi / (2 * dL)
  if kr > 0 then
    let argphase := Real.log (2 / kr) / dL + ((G xp y).2 + (G xm y).2) / Real.pi
    kr * Real.exp (dL * (argphase - roundAway argphase))
  else
    let lnkr := Real.log 2 + (lnratio G mu ((q : ℂ) + (2 * y : ℝ) * Complex.I)).im / (2 * y)
    Real.exp (lnkr - ⌊lnkr / dL⌋ * dL)

/-- `fftlog.cpp:303-334`: the coefficient computed for `m ≤ N/2`. -/
noncomputable def kernelLow (G : LnGamma) (mu q dL kr : ℝ) (N m : ℕ) : ℂ :=
  let xp := (mu + 1 + q) / 2
  let xm := (mu + 1 - q) / 2
  let xeq := (mu + 1) / 2
  let y := Real.pi / (N * dL)
  let t := -2 * y * Real.log (kr / 2)
  if q = 0 then polar 1 (m * t + 2 * (G xeq (m * y)).2)
  else polar (Real.exp (q * Real.log 2 + (G xp (m * y)).1 - (G xm (m * y)).1))
    (m * t + (G xp (m * y)).2 + (G xm (m * y)).2)

/-- `fftlog.cpp:315-344`: the coefficients after the two loops and the mid-point rule. -/
noncomputable def kernelCoeff (G : LnGamma) (mu q dL kr : ℝ) (N m : ℕ) : ℂ :=
  if N % 2 = 0 ∧ m = N / 2 then ((kernelLow G mu q dL kr N m).re : ℂ)
  else if m ≤ N / 2 then kernelLow G mu q dL kr N m
  else (starRingEnd ℂ) (kernelLow G mu q dL kr N (N - m))

/-- `ExtrapOption`. -/
inductive Extrap
  | none | zero | pad | lin | loglin | other
  deriving DecidableEq, Repr

/-- An initialised transform. -/
structure Hankel where
  order : ℝ
  bias : ℝ
  pre : List ℝ
  nsamp : ℕ
  logres : ℝ
  extrap : Extrap
  nsampTrans : ℕ
  nExt : ℕ
  preExt : List ℝ
  pivot : ℝ
  kernel : ℕ → ℂ
  post : List ℝ
  /-- `post_sampts_extrap`; `none` is a value read outside the array. -/
  postExt : List (Option ℝ)

/-- `std::pow(2, std::ceil(std::log2(extrap_exp * nsamp)))` converted to an integer
(`fftlog.cpp:131-133`).  A non-positive argument of the logarithm gives zero (or an unspecified
conversion of NaN, taken as zero). -/
noncomputable def transSize (e : ℝ) (n : ℕ) : ℕ :=
  if e * n ≤ 0 then 0 else ⌊(2 : ℝ) ^ ⌈Real.logb 2 (e * n)⌉⌋₊

/-- `fftlog.cpp:121-145`: sample size, extension number and extended sample points. -/
noncomputable def extension (pts : List ℝ) (x : Extrap) (e : ℝ) :
    Except CppErr (ℕ × ℕ × List ℝ) :=
  if x = .none then .ok (pts.length, 0, [])
  else if pts.length % 2 ≠ 0 then .error .invalidParameter
  else
    let nt := transSize e pts.length
    if nt < pts.length then .error .invalidParameter
    else
      let n := (nt - pts.length) / 2
      match cppLoglin pts n with
      | .error err => .error err
      | .ok p => .ok (nt, n, p)

/-- `fftlog.cpp:102-244`: the constructor and `initialise`. -/
noncomputable def initialise (G : LnGamma) (mu q : ℝ) (pts : List ℝ) (kr : ℝ) (lowring : Bool)
    (x : Extrap) (e : ℝ) : Except CppErr Hankel :=
  match construct mu q with
  | .error err => .error err
  | .ok () =>
    open Classical in
    if pts.length < 2 then .error .invalidParameter
    else if ¬ loglinOk pts then .error .invalidParameter
    else
      let n := pts.length
      let logres := Real.log (pts.getLastD 0 / pts.headD 0) / ((n : ℝ) - 1)
      match extension pts x e with
      | .error err => .error err
      | .ok (nt, next, pext) =>
        if lowring = false ∧ kr ≤ 0 then .error .invalidParameter
        else
          let pivot := if lowring then lowringPivot G mu q logres kr else kr
          if nt ≤ 0 ∨ logres ≤ 0 ∨ pivot ≤ 0 then .error .runtimeError
          else
            let aprod := pivot * Real.exp (-logres)
            .ok { order := mu, bias := q, pre := pts, nsamp := n, logres := logres, extrap := x,
                  nsampTrans := nt, nExt := next, preExt := pext, pivot := pivot,
                  kernel := kernelCoeff G mu q logres pivot nt,
                  post := (List.range n).map fun j : ℕ => aprod / pts.getD (n - j - 1) 0,
                  postExt := if x = .none then [] else
                    (List.range nt).map fun j : ℕ => (pts[nt - j - 1]?).map (aprod / ·) }

/-- The unnormalised forward transform of FFTW. -/
noncomputable def dft (N : ℕ) (a : ℕ → ℂ) (m : ℕ) : ℂ :=
  ∑ j ∈ Finset.range N, a j * Complex.exp (-(2 * Real.pi * Complex.I * (m * j) / N))

/-- `fftlog.cpp:405-456`: forward transform, product with the kernel, forward transform. -/
noncomputable def convolve (N : ℕ) (u a : ℕ → ℂ) : ℕ → ℂ :=
  dft N fun m => dft N a m * u m / N

/-- `fftlog.cpp:359-403`: the samples in the buffer. -/
noncomputable def buffer (H : Hankel) (a : List ℂ) : Except CppErr (List ℂ) :=
  if a.length < H.nsamp then .error .outOfBounds
  else
    let re := (a.take H.nsamp).map Complex.re
    match H.extrap with
    | .none => .ok (a.take H.nsamp)
    | .zero => .ok ((cppPad re H.nExt 0 0).map fun x : ℝ => (x : ℂ))
    | .pad => .ok ((cppPad re H.nExt (re.headD 0) (re.getLastD 0)).map fun x : ℝ => (x : ℂ))
    | .lin => match cppLin re H.nExt with
      | .error e => .error e
      | .ok l => .ok (l.map fun x : ℝ => (x : ℂ))
    | .loglin => match cppLoglin re H.nExt with
      | .error e => .error e
      | .ok l => .ok (l.map fun x : ℝ => (x : ℂ))
    | .other => .error .invalidParameter

/-- `fftlog.cpp:346-475`: `HankelTransform::biased_transform`. -/
noncomputable def biased (H : Hankel) (a : List ℂ) : Except CppErr (List ℂ) :=
  if H.nsamp ≤ 2 ∨ H.nsampTrans ≤ 2 then .error .runtimeError
  else match buffer H a with
    | .error e => .error e
    | .ok buf =>
      .ok ((List.range H.nsamp).map fun j : ℕ =>
        convolve H.nsampTrans H.kernel (fun i => buf.getD i 0) (j + H.nExt))

/-- `fftlog.cpp:528-556`: `SphericalBesselTransform::biased_transform`.  The output vector is passed
by reference with `bsize` elements; it is resized under the condition already excluded above it
(543-545), so that writing to a shorter one is out of bounds. -/
noncomputable def sphBiased (H : Hankel) (a : List ℂ) (bsize : ℕ) : Except CppErr (List ℂ) :=
  if a.length ≠ H.nsamp then .error .invalidParameter
  else
    let bsize := if a.length ≠ H.nsamp then H.nsamp else bsize
    match biased H (List.zipWith (fun r x => ((r ^ (3 / 2 : ℝ) : ℝ) : ℂ) * x) H.pre a) with
    | .error e => .error e
    | .ok B =>
      if bsize < H.nsamp then .error .outOfBounds
      else .ok (List.zipWith (fun k x => (((2 * Real.pi / k) ^ (3 / 2 : ℝ) : ℝ) : ℂ) * x) H.post B)

/-- `fftlog.cpp:558-580`: `transform_cosmological_multipole`; `dir` is +1 or -1. -/
noncomputable def sphCosmo (H : Hankel) (degree : ℤ) (dir : ℤ) (a : List ℂ) (bsize : ℕ) :
    Except CppErr (List ℂ) :=
  if |dir| ≠ 1 then .error .invalidParameter
  else
    let pifactor : ℂ := if dir = -1 then (2 * Real.pi) ^ (-3 : ℤ) else 1
    let parity : ℂ := Complex.I ^ (-dir * degree)
    match sphBiased H a bsize with
    | .error e => .error e
    | .ok b => .ok (b.map (· * (pifactor * parity)))

/-! ### The Python class -/

/-- Array objects by identity. -/
structure Heap where
  arr : ℕ → List ℝ
  next : ℕ

/-- `np.asarray(...)[slice(n, -n)]`, or the whole array if `n` is zero
(`transforms.py:150-152, 202-203`). -/
def pySlice {α : Type} (n : ℤ) (l : List α) : List α :=
  if n = 0 then l
  else if 0 < n then (l.take (l.length - n.toNat)).drop n.toNat
  else (l.take (-n).toNat).drop (l.length - (-n).toNat)

/-- `transforms.py:125-143`: `_n_ext` and the sample points passed on, in the 'outer' layer;
`extrap_loglin` with a negative number extends nothing (its `np.arange` are empty). -/
noncomputable def outerExtension (pts : List ℝ) (e : ℝ) : Except PyErr (ℤ × List (Val ℝ)) :=
  if pts.length % 2 ≠ 0 then .error .valueError
  else
    let nt : ℕ := transSize e pts.length
    let n : ℤ := ((nt : ℤ) - pts.length) / 2
    match pyLoglin pts n.toNat with
    | .error err => .error err
    | .ok p => .ok (n, p)

/-- `transforms.py:106-158`: the attributes of an initialised `SphericalBesselTransform`.  `ext` is
what `_perform_extrap` (248-272) does to an array: `none` if it returns the array object itself
(`extrap == 0`), else the function giving a new array. -/
structure Sbt where
  fbht : Hankel
  outer : Bool
  nExt : ℤ
  ext : Option (List ℝ → Except PyErr (List ℝ))

/-- Failure of the Python layer or of the C++ layer below it. -/
abbrev Err := PyErr ⊕ CppErr

/-- `transforms.py:195-198`: the array object on which the transform works. -/
def Sbt.source (S : Sbt) (h : Heap) (id : ℕ) : Except PyErr (Heap × ℕ) :=
  if S.outer then
    match S.ext with
    | none => .ok (h, id)
    | some f => match f (h.arr id) with
      | .error e => .error e
      | .ok l => .ok (⟨fun i => if i = h.next then l else h.arr i, h.next + 1⟩, h.next)
  else .ok (h, id)

/-- `transforms.py:198-209`: the part of `transform` working on the array object `id`, which is
multiplied in place. -/
noncomputable def Sbt.work (S : Sbt) (h : Heap) (id : ℕ) : Heap × Except Err (List ℝ × List ℂ) :=
  if (h.arr id).length ≠ S.fbht.pre.length then (h, .error (.inl .valueError))
  else
    let l := List.zipWith (fun x r : ℝ => x * r ^ (3 / 2 : ℝ)) (h.arr id) S.fbht.pre
    (⟨fun i => if i = id then l else h.arr i, h.next⟩,
      match biased S.fbht (l.map fun x : ℝ => (x : ℂ)) with
      | .error e => .error (.inr e)
      | .ok B =>
        let k := pySlice S.nExt S.fbht.post
        .ok (k, List.zipWith
          (fun x k => x * (((2 * Real.pi / k) ^ (3 / 2 : ℝ) : ℝ) : ℂ)) (pySlice S.nExt B) k))

/-- `transforms.py:182-209`: `transform` of the array object `id`; the state of the array objects is
returned whether or not an exception is raised. -/
noncomputable def Sbt.transform (S : Sbt) (h : Heap) (id : ℕ) :
    Heap × Except Err (List ℝ × List ℂ) :=
  match S.source h id with
  | .error e => (h, .error (.inl e))
  | .ok (h, id) => S.work h id

end Trv.Fft

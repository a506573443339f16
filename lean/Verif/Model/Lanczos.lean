import Mathlib.Analysis.SpecialFunctions.Pow.Complex
import Mathlib.Analysis.SpecialFunctions.Trigonometric.Basic
/-
Model of the Lanczos approximation of the gamma function: `/repo/src/triumvirate/src/maths.cpp` 70-114
(`eval_lanczos_approx_series`, `eval_gamma_lanczos`; public functions of the C++ library, which its other functions do not use).

Simplifications: complex numbers without rounding, the coefficients being the decimal numbers of the source; a division by zero is
an outcome of its own.  The recursion is modelled with a limit on its depth, so that its termination is something to prove.
-/
namespace Trv.Lz

/-- What may go wrong: a division by zero, or the limit of depth. -/
inductive Fault
  | pole
  | deep
  deriving DecidableEq

/-- `maths.cpp:81-91`: `pcoeff_lanczos`. -/
def coeffs : List ℚ :=
  [999999999999809932277 / 10 ^ 21, 676520368121885098567 / 10 ^ 18, -125913921672240287047 / 10 ^ 17,
   771323428777653078849 / 10 ^ 18, -176615029162140599066 / 10 ^ 18, 125073432786869048145 / 10 ^ 19,
   -138571095265720116896 / 10 ^ 21, 998436957801957085956 / 10 ^ 26, 150563273514931155834 / 10 ^ 27]

/-- `maths.cpp:95`: one term of the series. -/
noncomputable def seriesTerm (z series : ℂ) (i : ℕ) : Except Fault ℂ :=
  open Classical in
  if z + i = 0 then .error .pole else .ok (series + (coeffs.getD i 0 : ℚ) / (z + i))

/-- `maths.cpp:76-99`: `eval_lanczos_approx_series`. -/
noncomputable def lanczosSeries (z : ℂ) : Except Fault ℂ :=
  [1, 2, 3, 4, 5, 6, 7, 8].foldlM (seriesTerm z) ((coeffs.getD 0 0 : ℚ) : ℂ)

/-- `maths.cpp:101-114`: `eval_gamma_lanczos`, with calls nested no deeper than `n`. -/
noncomputable def gammaRec : ℕ → ℂ → Except Fault ℂ
  | 0, _ => .error .deep
  | n + 1, z =>
    open Classical in
    if z.re < 1 / 2 then do
      let g ← gammaRec n (1 - z)
      if Complex.sin (Real.pi * z) * g = 0 then .error .pole
      else .ok (Real.pi / (Complex.sin (Real.pi * z) * g))
    else do
      let t := z - 1 + 7 + 1 / 2
      let series ← lanczosSeries (z - 1)
      .ok (Real.sqrt (2 * Real.pi) * t ^ (z - 1 + 1 / 2) * Complex.exp (-t) * series)

/-- `maths.cpp:101-114`: `eval_gamma_lanczos`.  Two nested calls are all there are (`C158_depth`). -/
noncomputable def gammaLanczos (z : ℂ) : Except Fault ℂ := gammaRec 2 z

end Trv.Lz

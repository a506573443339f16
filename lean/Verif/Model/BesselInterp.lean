import Mathlib.Data.Real.Basic
import Mathlib.Data.Nat.Find
import Mathlib.Algebra.Order.Floor.Semiring
import Mathlib.Algebra.Order.Archimedean.Basic
import Mathlib.Data.Real.Archimedean
/-
Model of `SphericalBesselCalculator` (`/repo/src/triumvirate/src/maths.cpp` 305-375,
`/repo/src/triumvirate/include/maths.hpp` 262-311), over the real numbers.

The cubic splines of the library (`gsl_interp_cspline`, natural boundary conditions) are given by
the steps which it performs: the tridiagonal system for the coefficients, its solution by forward
and backward substitution, and evaluation in the interval found by bisection.  The exact function
`gsl_sf_bessel_jl` is a parameter.  Not modelled: allocation, the accelerator (a cache of the last
interval), threads (the sample points are independent), rounding.
-/
namespace Trv.Sbc

/-! ### Splines -/

/-- The distance of a sample point to the next. -/
def gap (x : ℕ → ℝ) (i : ℕ) : ℝ := x (i + 1) - x i

/-- `cspline_init`: diagonal of the system; row `i` is for point `i + 1`. -/
def diag (x : ℕ → ℝ) (i : ℕ) : ℝ := 2 * (gap x i + gap x (i + 1))

/-- `cspline_init`: the element next to the diagonal, in rows `i` and `i + 1`. -/
def off (x : ℕ → ℝ) (i : ℕ) : ℝ := gap x (i + 1)

/-- `cspline_init`: the right-hand side. -/
noncomputable def rhs (x y : ℕ → ℝ) (i : ℕ) : ℝ :=
  3 * ((y (i + 2) - y (i + 1)) / gap x (i + 1) - (y (i + 1) - y i) / gap x i)

/-- `gsl_linalg_solve_symm_tridiag`: pivots. -/
noncomputable def piv (x : ℕ → ℝ) : ℕ → ℝ
  | 0 => diag x 0
  | i + 1 => diag x (i + 1) - off x i * (off x i / piv x i)

/-- `gsl_linalg_solve_symm_tridiag`: forward substitution. -/
noncomputable def fwd (x y : ℕ → ℝ) : ℕ → ℝ
  | 0 => rhs x y 0
  | i + 1 => rhs x y (i + 1) - off x i / piv x i * fwd x y i

/-- `gsl_linalg_solve_symm_tridiag`: backward substitution; the unknown `N - 1 - k` of `N`. -/
noncomputable def back (x y : ℕ → ℝ) (N : ℕ) : ℕ → ℝ
  | 0 => fwd x y (N - 1) / piv x (N - 1)
  | k + 1 => fwd x y (N - 2 - k) / piv x (N - 2 - k) - off x (N - 2 - k) / piv x (N - 2 - k) * back x y N k

/-- `cspline_init`: the coefficients, zero at both ends. -/
noncomputable def coef (n : ℕ) (x y : ℕ → ℝ) (i : ℕ) : ℝ :=
  if i = 0 ∨ n - 1 ≤ i then 0 else back x y (n - 2) (n - 2 - i)

open Classical in
/-- `gsl_interp_bsearch`: the last point (but the very last) which is not beyond `t`. -/
noncomputable def interval (n : ℕ) (x : ℕ → ℝ) (t : ℝ) : ℕ := Nat.findGreatest (fun i => x i ≤ t) (n - 2)

/-- `cspline_eval` in interval `i`, with coefficients `c`. -/
noncomputable def cubic (x y c : ℕ → ℝ) (i : ℕ) (t : ℝ) : ℝ :=
  let dx := gap x i
  let dy := y (i + 1) - y i
  let b := dy / dx - dx * (c (i + 1) + 2 * c i) / 3
  let d := (c (i + 1) - c i) / (3 * dx)
  let dt := t - x i
  y i + dt * (b + dt * (c i + dt * d))

/-! ### The calculator -/

/-- `maths.hpp:268-311`: the calculator with its spline (`size`, `x`, `y` and coefficients). -/
structure Calc where
  order : ℕ
  split : ℝ
  step : ℝ
  size : ℕ
  x : ℕ → ℝ
  y : ℕ → ℝ
  c : ℕ → ℝ

/-- `maths.cpp:309-341`: the constructor; defaults `split = 1000.`, `step = 0.05` (`maths.hpp:306-307`). -/
noncomputable def construct (jl : ℕ → ℝ → ℝ) (ell : ℕ) : Calc :=
  let split : ℝ := if (1000 : ℝ) ≥ (ell : ℝ) * ell then 1000 else (ell : ℝ) * ell
  let xmin : ℝ := 0
  let dx : ℝ := 1 / 20
  let n := ⌊(split - xmin) / dx⌋₊ + 1
  let x := fun i : ℕ => xmin + dx * i
  let y := fun i : ℕ => jl ell (x i)
  ⟨ell, split, dx, n, x, y, coef n x y⟩

/-- `maths.cpp:343-356`: the copy constructor, which initialises a new spline with the same samples. -/
noncomputable def copy (o : Calc) : Calc := ⟨o.order, o.split, o.step, o.size, o.x, o.y, coef o.size o.x o.y⟩

/-- `maths.cpp:368-375`: `eval`; `none` where the spline is evaluated out of range (a library error,
which ends the program). -/
noncomputable def eval (jl : ℕ → ℝ → ℝ) (o : Calc) (t : ℝ) : Option ℝ :=
  if t ≥ o.split then some (jl o.order t)
  else if t < o.x 0 ∨ o.x (o.size - 1) < t then none
  else some (cubic o.x o.y o.c (interval o.size o.x t) t)

end Trv.Sbc

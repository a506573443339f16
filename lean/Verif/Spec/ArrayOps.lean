import Verif.Model.ArrayOps
/-
Specification of extrapolation and sorting.
-/
namespace Trv.Arr

/-- `out` is `a` with `n` extra samples on either side. -/
def IsExtension {α : Type} (n : ℕ) (a out : List α) : Prop :=
  ∃ l r, out = l ++ a ++ r ∧ l.length = n ∧ r.length = n

/-- The samples `A + d i` for `i = s, s + 1, …` (`N` of them). -/
def linSeq {K : Type} [Field K] (A d : K) (s : ℤ) (N : ℕ) : List K :=
  (List.range N).map fun i : ℕ => A + d * ((s + (i : ℤ) : ℤ) : K)

/-- The samples `A rⁱ` for `i = s, s + 1, …` (`N` of them). -/
def geomSeq {K : Type} [Field K] (A r : K) (s : ℤ) (N : ℕ) : List K :=
  (List.range N).map fun i : ℕ => A * r ^ (s + (i : ℤ))

/-- Equality of 2-d arrays: same shape and same entries. -/
def Mat.Eq {K : Type} (x y : Mat K) : Prop :=
  x.r = y.r ∧ x.c = y.c ∧ ∀ i j, i < x.r → j < x.c → x.v i j = y.v i j

/-- `out` is `m` with `nr` extra rows and `nc` extra columns on either side. -/
def Mat.IsExtension {K : Type} (nr nc : ℕ) (m out : Mat K) : Prop :=
  out.r = nr + m.r + nr ∧ out.c = nc + m.c + nc ∧
  ∀ i j, i < m.r → j < m.c → out.v (nr + i) (nc + j) = m.v i j

/-- The `n` columns on either side of the `c` columns in the middle continue each row linearly. -/
def Mat.RowsLinear {K : Type} [Field K] (n c : ℕ) (out : Mat K) : Prop :=
  ∀ i j, i < out.r → j < n →
    out.v i j = out.v i n - ((n : K) - j) * (out.v i (n + 1) - out.v i n) ∧
    out.v i (n + c + j) = out.v i (n + c - 1)
      + ((j : K) + 1) * (out.v i (n + c - 1) - out.v i (n + c - 2))

/-- The `n` columns on either side of the `c` columns in the middle continue each row
geometrically. -/
def Mat.RowsGeometric {K : Type} [Field K] (n c : ℕ) (out : Mat K) : Prop :=
  ∀ i j, i < out.r → j < n →
    out.v i j = out.v i n * (out.v i n / out.v i (n + 1)) ^ (n - j) ∧
    out.v i (n + c + j) = out.v i (n + c - 1)
      * (out.v i (n + c - 1) / out.v i (n + c - 2)) ^ (j + 1)

/-- The `n` columns on either side of the `c` columns in the middle never exceed the first (last)
of these in magnitude. -/
def Mat.RowsBounded (n c : ℕ) (out : Mat ℝ) : Prop :=
  ∀ i j, i < out.r → j < n →
    |out.v i j| ≤ |out.v i n| ∧ |out.v i (n + c + j)| ≤ |out.v i (n + c - 1)|

end Trv.Arr

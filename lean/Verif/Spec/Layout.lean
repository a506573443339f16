import Verif.Model.Layout
/-
Specification of the three-point data-vector layout, independent of the loops.
-/
namespace Trv.ThreePt

/-- The pairs of bins that belong to a form. -/
def InForm (n : ℤ) : Form → ℤ → ℤ → Prop
  | .diag, r, c => 0 ≤ r ∧ r < n ∧ c = r
  | .offDiag k, r, c => 0 ≤ r ∧ r < n ∧ 0 ≤ c ∧ c < n ∧ c - r = k
  | .row b, r, c => r = b ∧ 0 ≤ c ∧ c < n
  | .full, r, c => 0 ≤ r ∧ r < n ∧ 0 ≤ c ∧ c < n
  | .triu, r, c => 0 ≤ r ∧ r ≤ c ∧ c < n

/-- The forms accepted for `n` bins. -/
def ValidForm (n : ℤ) : Form → Prop
  | .offDiag k => |k| ≤ n
  | .row b => 0 ≤ b ∧ b < n
  | _ => True

/-- Row-major (lexicographic) order of pairs. -/
def RowMajor (x y : ℤ × ℤ) : Prop := x.1 < y.1 ∨ (x.1 = y.1 ∧ x.2 < y.2)

/-- The opposite triplet of orders. -/
def Triplet.neg (t : Triplet) : Triplet := ⟨-t.m1, -t.m2, -t.M⟩

/-- The orders allowed by the degrees. -/
def Triplet.Allowed (ell1 ell2 ELL : ℤ) (t : Triplet) : Prop :=
  |t.m1| ≤ ell1 ∧ |t.m2| ≤ ell2 ∧ |t.M| ≤ ELL

/-- The row-major flattening of the upper triangle of a matrix. -/
def flattenUpper {α : Type} (n : ℕ) (M : ℕ → ℕ → α) : List α :=
  (List.range n).flatMap fun r => (List.range' r (n - r)).map fun c => M r c

/-- The row-major flattening of a matrix. -/
def flattenFull {α : Type} (n : ℕ) (M : ℕ → ℕ → α) : List α :=
  (List.range n).flatMap fun r => (List.range n).map fun c => M r c

end Trv.ThreePt

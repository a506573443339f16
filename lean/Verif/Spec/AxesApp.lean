import Verif.Model.AxesApp
/-
Specification of the exchange of axes.
-/
namespace Trv.Axa

/-- A table in the full form: the rows of `g` in row-major order. -/
def fullTable {K : Type} (n : ℕ) (g : ℕ → ℕ → Row K) : List (Row K) :=
  (List.range n).flatMap fun i => (List.range n).map fun j => g i j

/-- Row `(i, j)` has the bin centres `c i` and `c j`. -/
def Centred {K : Type} (n : ℕ) (c : ℕ → K) (g : ℕ → ℕ → Row K) : Prop :=
  ∀ i j, i < n → j < n → (g i j).a.1 = c i ∧ (g i j).b.1 = c j

end Trv.Axa

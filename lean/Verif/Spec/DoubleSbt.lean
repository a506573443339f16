import Verif.Model.DoubleSbt
import Verif.Spec.Fftlog
/-
Specification of the double spherical Bessel transform: tables of numbers and finite double sums.
-/
namespace Trv.Fft

/-- The square table of the values of a function. -/
def table {α : Type} (n : ℕ) (f : ℕ → ℕ → α) : List (List α) :=
  (List.range n).map fun i => (List.range n).map fun j => f i j

/-- The list of the values of a function. -/
def tabulate {α : Type} (n : ℕ) (f : ℕ → α) : List α := (List.range n).map f

/-- A one-dimensional transform of `n` samples is the matrix `A`. -/
def Acts (n : ℕ) (T : List ℂ → Except Err (List ℂ)) (A : ℕ → ℕ → ℂ) : Prop :=
  ∀ f : ℕ → ℂ, T (tabulate n f) = .ok (tabulate n fun i => ∑ p ∈ Finset.range n, A i p * f p)

end Trv.Fft

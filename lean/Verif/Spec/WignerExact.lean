import Verif.Spec.Wigner
import Verif.Spec.Coeff
import Verif.Spec.BispecLegendre
/-
Specification of measurements with exact special functions: the orders are summed without any threshold.
-/
namespace Trv.Zeta
open Trv.Mesh Trv.Stats Trv.Win Trv.Two Trv.ThreePt Trv.Bis

/-- The special functions return their exact values. -/
def Exact (E : Env3) : Prop := E.P = sphP ∧ E.w3j = Wc.wigner3j

/-- The coefficient of three spherical orders, from the Wigner symbols. -/
noncomputable def coeff3 (l1 l2 L : ℕ) (m1 m2 M : ℤ) : ℝ :=
  (2 * l1 + 1) * (2 * l2 + 1) * (2 * L + 1) * Wc.wigner3j l1 l2 L 0 0 0 * Wc.wigner3j l1 l2 L m1 m2 M

/-- The sum over all orders, no threshold. -/
noncomputable def everyOrder (l1 l2 L : ℕ) (f : Triplet → ℂ) : ℂ :=
  ∑ m1 ∈ Finset.Icc (-(l1 : ℤ)) l1, ∑ m2 ∈ Finset.Icc (-(l2 : ℤ)) l2, ∑ M ∈ Finset.Icc (-(L : ℤ)) L,
    (coeff3 l1 l2 L m1 m2 M : ℂ) * f ⟨m1, m2, M⟩

/-- The sum over all orders with a vanishing third order, no threshold. -/
noncomputable def everyPlaneOrder (l1 l2 L : ℕ) (f : Triplet → ℂ) : ℂ :=
  ∑ m1 ∈ Finset.Icc (-(l1 : ℤ)) l1, ∑ m2 ∈ Finset.Icc (-(l2 : ℤ)) l2,
    (coeff3 l1 l2 L m1 m2 0 : ℂ) * f ⟨m1, m2, 0⟩

end Trv.Zeta

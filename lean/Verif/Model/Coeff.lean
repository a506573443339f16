import Verif.Model.Multipole
import Mathlib.Data.Nat.Factorial.Basic
import Mathlib.Analysis.SpecialFunctions.Sqrt
/-
Model of `calc_threept_winconv_coeff` (`/repo/src/triumvirate/winconv.py`, lines 395-488).

Simplifications: exact arithmetic; degrees are not negative; the symbols of Wigner, computed by `sympy`, are
given by the formulae of Racah, which are those `sympy` evaluates (for integer degrees, and orders zero for the
3j symbol).
-/
namespace Trv.Wc

open Trv

/-- Reciprocal of the factorial, zero for negative numbers. -/
def rfact (z : ℤ) : ℚ := if z < 0 then 0 else ((z.toNat.factorial : ℕ) : ℚ)⁻¹

/-- The triangle condition. -/
def Tri (a b c : ℕ) : Prop := c ≤ a + b ∧ a ≤ b + c ∧ b ≤ a + c

instance (a b c : ℕ) : Decidable (Tri a b c) := inferInstanceAs (Decidable (_ ∧ _))

/-- The square of the triangle coefficient. -/
def delta2 (a b c : ℕ) : ℚ :=
  if Tri a b c then (((a + b - c).factorial * (a + c - b).factorial * (b + c - a).factorial : ℕ) : ℚ) /
    (((a + b + c + 1).factorial : ℕ) : ℚ) else 0

/-- The rational part of the 3j symbol of orders zero. -/
def core3 (a b c : ℕ) : ℚ :=
  (-1) ^ (a + b) * ((a.factorial * b.factorial * c.factorial : ℕ) : ℚ) *
    ∑ t ∈ Finset.range (a + b - c + 1), (-1) ^ t * rfact t * rfact ((c : ℤ) - b + t) * rfact ((c : ℤ) - a + t) *
      rfact ((a : ℤ) + b - c - t) * rfact ((a : ℤ) - t) * rfact ((b : ℤ) - t)

/-- `wigner_3j(a, b, c, 0, 0, 0)` (`winconv.py:419-433`: `_H_factor`). -/
noncomputable def hFactor (a b c : ℕ) : ℝ := Real.sqrt (delta2 a b c) * core3 a b c

/-- The rational part of the 6j symbol. -/
def core6 (a b c d e f : ℕ) : ℚ :=
  ∑ t ∈ Finset.range (a + b + d + e + 1), (-1) ^ t * (((t + 1).factorial : ℕ) : ℚ) *
    rfact ((t : ℤ) - a - b - c) * rfact ((t : ℤ) - a - e - f) * rfact ((t : ℤ) - d - b - f) * rfact ((t : ℤ) - d - e - c) *
    rfact ((a : ℤ) + b + d + e - t) * rfact ((b : ℤ) + c + e + f - t) * rfact ((a : ℤ) + c + d + f - t)

/-- The 6j symbol. -/
noncomputable def wigner6j (a b c d e f : ℕ) : ℝ :=
  Real.sqrt (delta2 a b c * delta2 a e f * delta2 d b f * delta2 d e c) * core6 a b c d e f

/-- `wigner_9j` (the phases of the three coefficients of Racah cancel for integer degrees). -/
noncomputable def wigner9j (a b c d e f g h i : ℕ) : ℝ :=
  ∑ k ∈ Finset.range (min (min (a + i) (b + f)) (d + h) + 1),
    (2 * k + 1) * wigner6j a b c f i k * wigner6j d f e b h k * wigner6j a d g h i k

/-- The three degrees of a multipole. -/
def degrees3 (m : Multipole) : Option (ℕ × ℕ × ℕ) :=
  match m.index with
  | [a, b, c] => if 0 ≤ a ∧ 0 ≤ b ∧ 0 ≤ c then some (a.toNat, b.toNat, c.toNat) else none
  | _ => none

/-- `winconv.py:395-416`: `_N_prefactor`. -/
def nPrefactor (a b c : ℕ) : ℕ := (2 * a + 1) * (2 * b + 1) * (2 * c + 1)

open Classical in
/-- `winconv.py:436-488`: `calc_threept_winconv_coeff`; `z = none` is 'ic'.  A number of degrees other than three
fails to be unpacked; a division by a 3j symbol which is zero does not give a number (`none`). -/
noncomputable def calcCoeff (m q : Multipole) (z : Option Multipole) : Except PyErr (Option ℝ) :=
  match z with
  | none => .ok (some (if q = m then -1 else 0))
  | some z =>
    match degrees3 m, degrees3 z, degrees3 q with
    | some (l1, l2, L), some (z1, z2, zL), some (q1, q2, qL) =>
      if hFactor z1 z2 zL = 0 ∨ hFactor q1 q2 qL = 0 then .ok none
      else
        let frac := hFactor l1 l2 L / hFactor z1 z2 zL / hFactor q1 q2 qL * hFactor l1 z1 q1 * hFactor l2 z2 q2 * hFactor L zL qL
        .ok (some (nPrefactor l1 l2 L * wigner9j q1 q2 qL z1 z2 zL l1 l2 L * frac))
    | _, _, _ => .error .valueError

end Trv.Wc

import Verif.Lemmas.Coeff
import Mathlib.Algebra.BigOperators.Intervals
/-
The 3j symbol of orders zero is not zero when the triangle condition holds and the sum of the degrees is even.
The alternating sum is that of Dixon's identity; it is positive by induction on one of the degrees, with a
telescoping sum.
-/
namespace Trv.Wc

open Trv

theorem rfact_pred (n : ℤ) : rfact (n - 1) = n * rfact n := by
  rcases lt_trichotomy n 0 with h | h | h
  · rw [rfact_neg h, rfact_neg (by omega)]; ring
  · subst h; rw [rfact_neg (by omega)]; simp
  · obtain ⟨m, rfl⟩ : ∃ m : ℕ, n = m + 1 := ⟨(n - 1).toNat, by omega⟩
    rw [show (m : ℤ) + 1 - 1 = m by ring, rfact_nat, rfact_eq (m + 1) (by push_cast; ring), Nat.factorial_succ]
    have := fact_ne m
    have h2 : ((m : ℚ) + 1) ≠ 0 := by positivity
    push_cast
    field_simp

/-- A term of the sum. -/
def dixT (x y z : ℤ) (s : ℚ) (k : ℤ) : ℚ :=
  s * (rfact (x + k) * rfact (x - k) * rfact (y + k) * rfact (y - k) * rfact (z + k) * rfact (z - k))

/-- The telescoping term. -/
def dixG (x y z : ℤ) (s : ℚ) (k : ℤ) : ℚ :=
  -(1 / 2) * s * (rfact (x + k - 1) * rfact (x - k) * rfact (y + k - 1) * rfact (y - k) * rfact (z + k) * rfact (z + 1 - k))

theorem dix_step (x y z : ℤ) (s : ℚ) (k : ℤ) :
    (z + 1) * (x + z + 1) * (y + z + 1) * dixT x y (z + 1) s k - (x + y + z + 1) * dixT x y z s k =
      dixG x y z (-s) (k + 1) - dixG x y z s k := by
  unfold dixT dixG
  rw [rfact_pred (x + k), rfact_pred (y + k), show z + k = z + 1 + k - 1 by ring, rfact_pred (z + 1 + k),
    show z - k = z + 1 - k - 1 by ring, rfact_pred (z + 1 - k),
    show x + (k + 1) - 1 = x + k by ring, show y + (k + 1) - 1 = y + k by ring, show x - (k + 1) = x - k - 1 by ring, rfact_pred (x - k),
    show y - (k + 1) = y - k - 1 by ring, rfact_pred (y - k), show z + (k + 1) = z + 1 + k by ring,
    show z + 1 - (k + 1) = z + 1 - k - 1 by ring, rfact_pred (z + 1 - k)]
  push_cast
  ring

/-- The sum. -/
def dixS (x y z : ℕ) : ℚ := ∑ t ∈ Finset.range (2 * z + 1), dixT x y z ((-1) ^ t) ((t : ℤ) - z)

theorem dixS_succ (x y z : ℕ) :
    ((z : ℚ) + 1) * (x + z + 1) * (y + z + 1) * dixS x y (z + 1) = -((x : ℚ) + y + z + 1) * dixS x y z := by
  have hz : ∑ t ∈ Finset.range (2 * (z + 1) + 1), dixT x y z ((-1) ^ t) ((t : ℤ) - (z + 1)) = - dixS x y z := by
    rw [show 2 * (z + 1) + 1 = (2 * z + 1) + 1 + 1 by ring, Finset.sum_range_succ, Finset.sum_range_succ']
    have e1 : dixT x y z ((-1) ^ 0) (((0 : ℕ) : ℤ) - (z + 1)) = 0 := by
      unfold dixT; rw [rfact_neg (z := (z : ℤ) + (((0 : ℕ) : ℤ) - (z + 1))) (by omega)]; ring
    have e2 : dixT x y z ((-1) ^ (2 * z + 1 + 1)) (((2 * z + 1 + 1 : ℕ) : ℤ) - (z + 1)) = 0 := by
      unfold dixT; rw [rfact_neg (z := (z : ℤ) - (((2 * z + 1 + 1 : ℕ) : ℤ) - (z + 1))) (by omega)]; ring
    rw [e1, e2, add_zero, add_zero, dixS, ← Finset.sum_neg_distrib]
    apply Finset.sum_congr rfl
    intro t _
    rw [show ((t + 1 : ℕ) : ℤ) - (z + 1) = t - z by omega]
    unfold dixT
    rw [pow_succ]; ring
  have tel := Finset.sum_range_sub (fun t : ℕ => dixG x y z ((-1) ^ t) ((t : ℤ) - (z + 1))) (2 * (z + 1) + 1)
  have g0 : dixG x y z ((-1) ^ 0) (((0 : ℕ) : ℤ) - (z + 1)) = 0 := by
    unfold dixG; rw [rfact_neg (z := (z : ℤ) + (((0 : ℕ) : ℤ) - (z + 1))) (by omega)]; ring
  have g1 : dixG x y z ((-1) ^ (2 * (z + 1) + 1)) (((2 * (z + 1) + 1 : ℕ) : ℤ) - (z + 1)) = 0 := by
    unfold dixG; rw [rfact_neg (z := (z : ℤ) + 1 - (((2 * (z + 1) + 1 : ℕ) : ℤ) - (z + 1))) (by omega)]; ring
  rw [g0, g1, sub_zero] at tel
  have st : ∀ t ∈ Finset.range (2 * (z + 1) + 1),
      dixG x y z ((-1) ^ (t + 1)) (((t + 1 : ℕ) : ℤ) - (z + 1)) - dixG x y z ((-1) ^ t) ((t : ℤ) - (z + 1)) =
      ((z : ℚ) + 1) * (x + z + 1) * (y + z + 1) * dixT x y ((z + 1 : ℕ) : ℤ) ((-1) ^ t) ((t : ℤ) - (z + 1 : ℕ)) -
        ((x : ℚ) + y + z + 1) * dixT x y z ((-1) ^ t) ((t : ℤ) - (z + 1)) := by
    intro t _
    have := dix_step x y z ((-1) ^ t) ((t : ℤ) - (z + 1))
    rw [show ((t + 1 : ℕ) : ℤ) - (z + 1) = (t : ℤ) - (z + 1) + 1 by omega, show (-1 : ℚ) ^ (t + 1) = - (-1) ^ t by rw [pow_succ]; ring]
    rw [← this]
    push_cast
    rfl
  rw [Finset.sum_congr rfl st, Finset.sum_sub_distrib, ← Finset.mul_sum, ← Finset.mul_sum, hz] at tel
  have : dixS x y (z + 1) = ∑ t ∈ Finset.range (2 * (z + 1) + 1), dixT x y ((z + 1 : ℕ) : ℤ) ((-1) ^ t) ((t : ℤ) - (z + 1 : ℕ)) := rfl
  rw [this]
  linarith

theorem dixS_ne (x y z : ℕ) : dixS x y z ≠ 0 := by
  induction z with
  | zero =>
    unfold dixS dixT
    have hx := fact_ne x
    have hy := fact_ne y
    simp [rfact_nat, rfact_eq 0 (z := 0) rfl, hx, hy]
  | succ z ih =>
    intro h
    have := dixS_succ x y z
    rw [h, mul_zero] at this
    have h1 : ((x : ℚ) + y + z + 1) ≠ 0 := by positivity
    exact mul_ne_zero (neg_ne_zero.mpr h1) ih this.symm

theorem core3_even {a b c : ℕ} (ht : Tri a b c) (he : (a + b + c) % 2 = 0) : core3 a b c ≠ 0 := by
  obtain ⟨h1, h2, h3⟩ := ht
  obtain ⟨x, y, z, rfl, rfl, rfl⟩ : ∃ x y z : ℕ, a = y + z ∧ b = x + z ∧ c = x + y :=
    ⟨(b + c - a) / 2, (a + c - b) / 2, (a + b - c) / 2, by omega, by omega, by omega⟩
  unfold core3
  have e : ∑ t ∈ Finset.range (y + z + (x + z) - (x + y) + 1), (-1 : ℚ) ^ t * rfact t * rfact (((x + y : ℕ) : ℤ) - (x + z : ℕ) + t) *
      rfact (((x + y : ℕ) : ℤ) - (y + z : ℕ) + t) * rfact (((y + z : ℕ) : ℤ) + (x + z : ℕ) - (x + y : ℕ) - t) *
      rfact (((y + z : ℕ) : ℤ) - t) * rfact (((x + z : ℕ) : ℤ) - t) = dixS x y z := by
    rw [show y + z + (x + z) - (x + y) + 1 = 2 * z + 1 by omega]
    unfold dixS
    apply Finset.sum_congr rfl
    intro t _
    unfold dixT
    rw [show (x : ℤ) + ((t : ℤ) - z) = ((x + y : ℕ) : ℤ) - (y + z : ℕ) + t by push_cast; ring,
      show (x : ℤ) - ((t : ℤ) - z) = ((x + z : ℕ) : ℤ) - t by push_cast; ring,
      show (y : ℤ) + ((t : ℤ) - z) = ((x + y : ℕ) : ℤ) - (x + z : ℕ) + t by push_cast; ring,
      show (y : ℤ) - ((t : ℤ) - z) = ((y + z : ℕ) : ℤ) - t by push_cast; ring,
      show (z : ℤ) + ((t : ℤ) - z) = t by ring,
      show (z : ℤ) - ((t : ℤ) - z) = ((y + z : ℕ) : ℤ) + (x + z : ℕ) - (x + y : ℕ) - t by push_cast; ring]
    ring
  rw [e]
  refine mul_ne_zero (mul_ne_zero (pow_ne_zero _ (by norm_num)) ?_) (dixS_ne x y z)
  exact_mod_cast Nat.mul_ne_zero (Nat.mul_ne_zero (Nat.factorial_ne_zero _) (Nat.factorial_ne_zero _)) (Nat.factorial_ne_zero _)

theorem val_iff (l : ℕ × ℕ × ℕ) : Val l ↔ Tri l.1 l.2.1 l.2.2 ∧ (l.1 + l.2.1 + l.2.2) % 2 = 0 := by
  constructor
  · rintro ⟨h1, h2⟩
    refine ⟨h1, ?_⟩
    by_contra h
    exact h2 (core3_odd h1 (by omega))
  · rintro ⟨h1, h2⟩
    exact ⟨h1, core3_even h1 h2⟩

end Trv.Wc

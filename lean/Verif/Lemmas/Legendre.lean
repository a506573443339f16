import Verif.Spec.WinConv
import Mathlib.Algebra.Polynomial.Derivative
import Mathlib.Analysis.Calculus.Deriv.Polynomial
import Mathlib.MeasureTheory.Integral.IntervalIntegral.FundThmCalculus
import Mathlib.Topology.Algebra.Polynomial
import Mathlib.Tactic.Ring
import Mathlib.Tactic.FieldSimp
import Mathlib.Tactic.LinearCombination
/-
Legendre polynomials: derivative identities, orthogonality, products.
-/
namespace Trv.Wc

open Polynomial

theorem bonnet (n : ℕ) : (C ((n : ℝ) + 2) : ℝ[X]) * legendre (n + 2) =
    C (2 * (n : ℝ) + 3) * X * legendre (n + 1) - C ((n : ℝ) + 1) * legendre n := by
  rw [legendre, ← mul_assoc, ← C_mul]
  have : ((n : ℝ) + 2) * (1 / ((n : ℝ) + 2)) = 1 := by
    have : (n : ℝ) + 2 ≠ 0 := by positivity
    field_simp
  rw [this]
  simp

/-- The two derivative identities, proved together. -/
theorem legendre_deriv (n : ℕ) :
    derivative (legendre (n + 1)) = X * derivative (legendre n) + C ((n : ℝ) + 1) * legendre n ∧
    X * derivative (legendre (n + 1)) - derivative (legendre n) = C ((n : ℝ) + 1) * legendre (n + 1) := by
  induction n with
  | zero => simp [legendre]
  | succ n ih =>
    obtain ⟨h1, h2⟩ := ih
    have hb := bonnet n
    have hd := congrArg derivative hb
    simp only [derivative_mul, derivative_sub, derivative_C, derivative_X, zero_mul, zero_add, mul_one] at hd
    have hne : (C ((n : ℝ) + 2) : ℝ[X]) ≠ 0 := by
      rw [Ne, C_eq_zero]
      positivity
    simp only [map_add, map_mul, map_one, map_ofNat] at h1 h2 hb hd hne ⊢
    push_cast
    simp only [map_add, map_mul, map_one, map_ofNat] at h1 h2 hb hd hne ⊢
    generalize (C (n : ℝ) : ℝ[X]) = c at *
    have a : derivative (legendre (n + 2)) =
        X * derivative (legendre (n + 1)) + (c + 1 + 1) * legendre (n + 1) := by
      apply mul_left_cancel₀ hne
      linear_combination hd + (c + 1) * h2
    refine ⟨a, ?_⟩
    rw [a]
    linear_combination X * h2 - h1 - hb

theorem legendre_one (n : ℕ) : (legendre n).eval 1 = 1 ∧ (legendre (n + 1)).eval 1 = 1 := by
  induction n with
  | zero => simp [legendre]
  | succ n ih =>
    refine ⟨ih.2, ?_⟩
    have := congrArg (eval 1) (bonnet n)
    simp only [eval_mul, eval_sub, eval_C, eval_X, ih.1, ih.2] at this
    have h0 : (n : ℝ) + 2 ≠ 0 := by positivity
    apply mul_left_cancel₀ h0
    rw [this]
    ring

theorem legendre_neg_one (n : ℕ) :
    (legendre n).eval (-1) = (-1) ^ n ∧ (legendre (n + 1)).eval (-1) = (-1) ^ (n + 1) := by
  induction n with
  | zero => simp [legendre]
  | succ n ih =>
    refine ⟨ih.2, ?_⟩
    have := congrArg (eval (-1)) (bonnet n)
    simp only [eval_mul, eval_sub, eval_C, eval_X, ih.1, ih.2] at this
    have h0 : (n : ℝ) + 2 ≠ 0 := by positivity
    apply mul_left_cancel₀ h0
    rw [this]
    ring

/-- Integral over the cosine. -/
noncomputable def ave (p : ℝ[X]) : ℝ := ∫ mu in (-1 : ℝ)..1, p.eval mu

theorem ave_add (p q : ℝ[X]) : ave (p + q) = ave p + ave q := by
  unfold ave
  rw [← intervalIntegral.integral_add (p.continuous.intervalIntegrable _ _)
    (q.continuous.intervalIntegrable _ _)]
  simp

theorem ave_C_mul (c : ℝ) (p : ℝ[X]) : ave (C c * p) = c * ave p := by
  unfold ave
  rw [← intervalIntegral.integral_const_mul]
  simp

theorem ave_sub (p q : ℝ[X]) : ave (p - q) = ave p - ave q := by
  have : p - q = p + C (-1) * q := by simp [sub_eq_add_neg]
  rw [this, ave_add, ave_C_mul]
  ring

theorem ave_derivative (p : ℝ[X]) : ave (derivative p) = p.eval 1 - p.eval (-1) := by
  unfold ave
  exact intervalIntegral.integral_eq_sub_of_hasDerivAt (fun x _ => p.hasDerivAt x)
    ((derivative p).continuous.intervalIntegrable _ _)

theorem ave_legendre_succ (n : ℕ) : ave (legendre (n + 1)) = 0 := by
  obtain ⟨h1, h2⟩ := legendre_deriv (n + 1)
  obtain ⟨g1, g2⟩ := legendre_deriv n
  have h : C (2 * (n : ℝ) + 3) * legendre (n + 1) =
      derivative (legendre (n + 2)) - derivative (legendre n) := by
    push_cast at h1
    simp only [map_add, map_mul, map_one, map_ofNat] at *
    linear_combination -h1 - g2
  have h' := congrArg ave h
  rw [ave_C_mul, ave_sub, ave_derivative, ave_derivative, (legendre_one _).1, (legendre_one _).1,
    (legendre_neg_one _).1, (legendre_neg_one _).1] at h'
  have h0 : 2 * (n : ℝ) + 3 ≠ 0 := by positivity
  apply mul_left_cancel₀ h0
  rw [h', pow_add]
  ring

/-- Orthogonality, with the induction over consecutive degrees. -/
theorem ortho_aux (n : ℕ) : ∀ m, ave (legendre n * legendre m) = (if n = m then 2 / (2 * (n : ℝ) + 1) else 0) ∧
    ave (legendre (n + 1) * legendre m) = (if n + 1 = m then 2 / (2 * ((n : ℝ) + 1) + 1) else 0) := by
  have zero : ∀ m, ave (legendre 0 * legendre m) = if 0 = m then 2 else 0 := by
    intro m
    rw [legendre, one_mul]
    cases m with
    | zero => simp [legendre, ave]; norm_num
    | succ m => rw [ave_legendre_succ]; simp
  -- multiplication by the cosine
  have hx : ∀ m : ℕ, C (2 * (m : ℝ) + 1) * (X * legendre m) =
      C ((m : ℝ) + 1) * legendre (m + 1) + C (m : ℝ) * legendre (m - 1) := by
    intro m
    cases m with
    | zero => simp [legendre]
    | succ m =>
      have := bonnet m
      push_cast
      simp only [map_add, map_mul, map_one, map_ofNat, Nat.add_sub_cancel] at *
      linear_combination -this
  induction n with
  | zero =>
    intro m
    refine ⟨by rw [zero]; norm_num, ?_⟩
    have h := hx m
    have h' := congrArg (fun p => ave p) h
    simp only [ave_add, ave_C_mul] at h'
    have z1 := zero (m + 1)
    have z2 := zero (m - 1)
    rw [legendre, one_mul] at z1 z2
    rw [z1, z2] at h'
    rw [show legendre (0 + 1) = X from rfl]
    have h0 : 2 * (m : ℝ) + 1 ≠ 0 := by positivity
    apply mul_left_cancel₀ h0
    rw [h']
    match m with
    | 0 => simp
    | 1 => norm_num
    | m + 2 => simp
  | succ n ih =>
    intro m
    refine ⟨by rw [(ih m).2]; push_cast; rfl, ?_⟩
    -- the two ways of multiplying by the cosine
    have e1 : ave (C ((n : ℝ) + 2) * legendre (n + 2) * legendre m) =
        (2 * (n : ℝ) + 3) * ave (X * legendre (n + 1) * legendre m) -
          ((n : ℝ) + 1) * ave (legendre n * legendre m) := by
      rw [bonnet, ← ave_C_mul, ← ave_C_mul, ← ave_sub]
      congr 1
      ring
    have e2 : (2 * (m : ℝ) + 1) * ave (X * legendre (n + 1) * legendre m) =
        ((m : ℝ) + 1) * ave (legendre (n + 1) * legendre (m + 1)) +
          m * ave (legendre (n + 1) * legendre (m - 1)) := by
      rw [← ave_C_mul, ← ave_C_mul, ← ave_C_mul, ← ave_add]
      congr 1
      linear_combination legendre (n + 1) * hx m
    rw [mul_assoc, ave_C_mul] at e1
    rw [(ih (m + 1)).2, (ih (m - 1)).2] at e2
    rw [(ih m).1] at e1
    have h0 : 2 * (m : ℝ) + 1 ≠ 0 := by positivity
    have h1 : (n : ℝ) + 2 ≠ 0 := by positivity
    have h2 : (n : ℝ) + 1 ≠ 0 := by positivity
    have h3 : 2 * (n : ℝ) + 1 ≠ 0 := by positivity
    have h4 : 2 * (n : ℝ) + 3 ≠ 0 := by positivity
    apply mul_left_cancel₀ (mul_ne_zero h0 h1)
    have e3 : (2 * (m : ℝ) + 1) * ((n : ℝ) + 2) * ave (legendre (n + 1 + 1) * legendre m) =
        (2 * (n : ℝ) + 3) * (((m : ℝ) + 1) * (if n + 1 = m + 1 then 2 / (2 * ((n : ℝ) + 1) + 1) else 0) +
          m * (if n + 1 = m - 1 then 2 / (2 * ((n : ℝ) + 1) + 1) else 0)) -
        (2 * (m : ℝ) + 1) * (((n : ℝ) + 1) * (if n = m then 2 / (2 * (n : ℝ) + 1) else 0)) := by
      linear_combination (2 * (m : ℝ) + 1) * e1 + (2 * (n : ℝ) + 3) * e2
    rw [e3]
    have h5 : 2 * ((n : ℝ) + 1) + 1 ≠ 0 := by positivity
    by_cases c1 : n = m
    · subst c1
      rw [if_pos rfl, if_neg (by omega), if_pos rfl, if_neg (by omega)]
      field_simp
      ring
    · by_cases c2 : n + 1 + 1 = m
      · subst c2
        rw [if_neg (by omega), if_pos (by omega), if_neg (by omega), if_pos rfl]
        push_cast
        have h6 : 2 * ((n : ℝ) + 1 + 1) + 1 ≠ 0 := by positivity
        field_simp
        ring
      · rw [if_neg (by omega), if_neg (by omega), if_neg c1, if_neg c2]
        ring

theorem ortho (n m : ℕ) : ave (legendre n * legendre m) = if n = m then 2 / (2 * (n : ℝ) + 1) else 0 :=
  (ortho_aux n m).1

end Trv.Wc

import Verif.Spec.TripoSH
import Mathlib.Analysis.SpecialFunctions.Integrals.Basic
import Mathlib.Tactic.LinearCombination
import Mathlib.Tactic.Continuity
/-
Averages of polynomials in the cosines to the line of sight and the transverse scalar product.
-/
namespace Trv.Wc

open Real

/-- A term of a polynomial: coefficient, powers of `u`, `v` and of the transverse scalar product. -/
abbrev Mono := ℝ × ℕ × ℕ × ℕ

/-- Value of a term. -/
noncomputable def Mono.val (m : Mono) (u v phi : ℝ) : ℝ :=
  m.1 * (u ^ m.2.1 * v ^ m.2.2.1 * (√(1 - u ^ 2) * √(1 - v ^ 2) * cos phi) ^ m.2.2.2)

/-- Value of a polynomial. -/
noncomputable def pval (l : List Mono) (u v phi : ℝ) : ℝ := (l.map fun m => m.val u v phi).sum

/-- Product of polynomials. -/
noncomputable def pmul (l k : List Mono) : List Mono :=
  l.flatMap fun a => k.map fun b => (a.1 * b.1, a.2.1 + b.2.1, a.2.2.1 + b.2.2.1, a.2.2.2 + b.2.2.2)

theorem pval_pmul (l k : List Mono) (u v phi : ℝ) : pval (pmul l k) u v phi = pval l u v phi * pval k u v phi := by
  unfold pval pmul
  induction l with
  | nil => simp
  | cons a l ih =>
    rw [List.flatMap_cons, List.map_append, List.sum_append, ih, List.map_cons, List.sum_cons, add_mul]
    congr 1
    rw [List.map_map, ← List.sum_map_mul_left]
    congr 1
    apply List.map_congr_left
    intro b _
    simp only [Function.comp_apply, Mono.val, pow_add, mul_pow]
    ring

/-- Integral of `u ^ a * sqrt (1 - u ^ 2) ^ k`. -/
noncomputable def mu1 (a k : ℕ) : ℝ := ∫ u in (-1 : ℝ)..1, u ^ a * √(1 - u ^ 2) ^ k

/-- Integral of `cos phi ^ k`. -/
noncomputable def ck (k : ℕ) : ℝ := ∫ phi in (0 : ℝ)..(2 * π), cos phi ^ k

/-- Average of a term with unit coefficient. -/
noncomputable def moment (a b k : ℕ) : ℝ := 1 / (8 * π) * (mu1 a k * mu1 b k * ck k)

theorem average_pval (l : List Mono) :
    average (pval l) = (l.map fun m : Mono => m.1 * moment m.2.1 m.2.2.1 m.2.2.2).sum := by
  have h1 : ∀ u v : ℝ, ∫ phi in (0 : ℝ)..(2 * π), pval l u v phi =
      (l.map fun m : Mono => m.1 * (u ^ m.2.1 * √(1 - u ^ 2) ^ m.2.2.2 *
        (v ^ m.2.2.1 * √(1 - v ^ 2) ^ m.2.2.2) * ck m.2.2.2)).sum := by
    intro u v
    unfold pval
    induction l with
    | nil => simp
    | cons m l ih =>
      simp only [List.map_cons, List.sum_cons]
      rw [intervalIntegral.integral_add, ih]
      · congr 1
        unfold Mono.val
        rw [intervalIntegral.integral_const_mul]
        congr 1
        simp only [mul_pow]
        unfold ck
        rw [← intervalIntegral.integral_const_mul]
        congr 1
        funext phi
        ring
      · apply Continuous.intervalIntegrable
        unfold Mono.val
        fun_prop
      · apply Continuous.intervalIntegrable
        clear ih
        induction l with
        | nil => simpa using continuous_const
        | cons m l ih =>
          simp only [List.map_cons, List.sum_cons]
          refine Continuous.add ?_ ih
          unfold Mono.val
          fun_prop
  have h2 : ∀ u : ℝ, ∫ v in (-1 : ℝ)..1, ∫ phi in (0 : ℝ)..(2 * π), pval l u v phi =
      (l.map fun m : Mono => m.1 * (u ^ m.2.1 * √(1 - u ^ 2) ^ m.2.2.2 *
        mu1 m.2.2.1 m.2.2.2 * ck m.2.2.2)).sum := by
    intro u
    simp only [h1]
    clear h1
    induction l with
    | nil => simp
    | cons m l ih =>
      simp only [List.map_cons, List.sum_cons]
      rw [intervalIntegral.integral_add, ih]
      · congr 1
        rw [intervalIntegral.integral_const_mul, intervalIntegral.integral_mul_const,
          intervalIntegral.integral_const_mul]
        rfl
      · apply Continuous.intervalIntegrable
        fun_prop
      · apply Continuous.intervalIntegrable
        clear ih
        induction l with
        | nil => simpa using continuous_const
        | cons m l ih =>
          simp only [List.map_cons, List.sum_cons]
          refine Continuous.add ?_ ih
          fun_prop
  unfold average
  simp only [h2]
  clear h1 h2
  induction l with
  | nil => simp
  | cons m l ih =>
    simp only [List.map_cons, List.sum_cons]
    rw [intervalIntegral.integral_add, mul_add, ih]
    · congr 1
      rw [intervalIntegral.integral_const_mul, intervalIntegral.integral_mul_const,
        intervalIntegral.integral_mul_const]
      unfold moment mu1
      ring
    · apply Continuous.intervalIntegrable
      fun_prop
    · apply Continuous.intervalIntegrable
      clear ih
      induction l with
      | nil => simpa using continuous_const
      | cons m l ih =>
        simp only [List.map_cons, List.sum_cons]
        refine Continuous.add ?_ ih
        fun_prop

theorem ck_zero : ck 0 = 2 * π := by simp [ck]

theorem ck_one : ck 1 = 0 := by simp [ck]

theorem ck_two : ck 2 = π := by
  unfold ck
  rw [integral_cos_sq]
  simp

theorem ck_three : ck 3 = 0 := by
  unfold ck
  rw [integral_cos_pow_three]
  simp

theorem mu1_zero (a : ℕ) : mu1 a 0 = (1 - (-1) ^ (a + 1)) / (a + 1) := by
  unfold mu1
  simp only [pow_zero, mul_one]
  rw [integral_pow]
  simp

theorem mu1_two (a : ℕ) : mu1 a 2 = mu1 a 0 - mu1 (a + 2) 0 := by
  unfold mu1
  rw [← intervalIntegral.integral_sub]
  · apply intervalIntegral.integral_congr
    intro u hu
    rw [Set.uIcc_of_le (by norm_num)] at hu
    have : 0 ≤ 1 - u ^ 2 := by nlinarith [hu.1, hu.2]
    simp only [pow_zero, mul_one]
    rw [Real.sq_sqrt this]
    ring
  · apply Continuous.intervalIntegrable
    fun_prop
  · apply Continuous.intervalIntegrable
    fun_prop

theorem moment_one (a b : ℕ) : moment a b 1 = 0 := by simp [moment, ck_one]

theorem moment_three (a b : ℕ) : moment a b 3 = 0 := by simp [moment, ck_three]

theorem moment_zero (a b : ℕ) : moment a b 0 = mu1 a 0 * mu1 b 0 / 4 := by
  rw [moment, ck_zero]
  have := Real.pi_ne_zero
  field_simp
  ring

theorem moment_two (a b : ℕ) : moment a b 2 = mu1 a 2 * mu1 b 2 / 8 := by
  rw [moment, ck_two]
  have := Real.pi_ne_zero
  field_simp

end Trv.Wc

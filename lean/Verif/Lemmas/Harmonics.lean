import Verif.Spec.Legendre
import Verif.Lemmas.Addition
import Verif.Lemmas.Mirror
/-
The sum over orders of products of two reduced spherical harmonics.
-/
namespace Trv.Two
open Trv.Mesh Trv.Stats Trv.Win Trv.Bis

theorem sum_orders (l : ℕ) (f : ℤ → ℂ) :
    ∑ M ∈ Finset.Icc (-(l : ℤ)) l, f M = f 0 + ∑ m ∈ Finset.range l, (f (m + 1) + f (-(m + 1))) := by
  induction l with
  | zero => simp
  | succ l ih =>
    rw [Finset.sum_range_succ, ← add_assoc, ← ih]
    have h : Finset.Icc (-((l + 1 : ℕ) : ℤ)) ((l + 1 : ℕ) : ℤ) =
        insert (-((l : ℤ) + 1)) (insert ((l : ℤ) + 1) (Finset.Icc (-(l : ℤ)) l)) := by
      ext x
      simp only [Finset.mem_Icc, Finset.mem_insert]
      push_cast
      omega
    rw [h, Finset.sum_insert, Finset.sum_insert]
    · ring
    · simp only [Finset.mem_Icc]; omega
    · simp only [Finset.mem_Icc, Finset.mem_insert]; omega

theorem sgn_sq (m : ℤ) : ((-1 : ℂ) ^ ((m - |m|) / 2)) * ((-1 : ℂ) ^ ((m - |m|) / 2)) = 1 := by
  rw [← mul_zpow]
  norm_num

/-- The product of two harmonics of the same order. -/
theorem ylm_mul (P : ℕ → ℕ → ℝ → ℝ) (l : ℕ) (hl : l ≠ 0) (m : ℤ) (x y z x' y' z' : ℝ)
    (h : (1 : ℝ) / 1000000000 ≤ Real.sqrt (x * x + y * y + z * z))
    (h' : (1 : ℝ) / 1000000000 ≤ Real.sqrt (x' * x' + y' * y' + z' * z')) :
    (starRingEnd ℂ) (reducedYlm P l m x y z) * reducedYlm P l m x' y' z' =
      ((4 * Real.pi / (2 * l + 1) * (P l m.natAbs (z / Real.sqrt (x * x + y * y + z * z)) *
        P l m.natAbs (z' / Real.sqrt (x' * x' + y' * y' + z' * z'))) : ℝ) : ℂ) *
      Complex.exp ((m * (azimuth x y - azimuth x' y') : ℝ) * Complex.I) := by
  unfold reducedYlm
  have h0 : ¬ (l = 0 ∧ m = 0) := fun h => hl h.1
  simp only [h0, if_false]
  rw [if_neg (by rw [abs_of_nonneg (Real.sqrt_nonneg _)]; exact not_lt.2 h),
    if_neg (by rw [abs_of_nonneg (Real.sqrt_nonneg _)]; exact not_lt.2 h')]
  have hs := sgn_sq m
  have hc : (starRingEnd ℂ) ((-1 : ℂ) ^ ((m - |m|) / 2)) = (-1 : ℂ) ^ ((m - |m|) / 2) := by
    rw [map_zpow₀, map_neg, map_one]
  have hN : ((Real.sqrt (4 * Real.pi / (2 * l + 1)) : ℝ) : ℂ) * ((Real.sqrt (4 * Real.pi / (2 * l + 1)) : ℝ) : ℂ) =
      ((4 * Real.pi / (2 * l + 1) : ℝ) : ℂ) := by
    rw [← Complex.ofReal_mul, Real.mul_self_sqrt (by positivity)]
  have he : Complex.exp (Complex.I * m * (azimuth x y : ℂ)) *
      Complex.exp (-(Complex.I * m * (azimuth x' y' : ℂ))) =
      Complex.exp ((m * (azimuth x y - azimuth x' y') : ℝ) * Complex.I) := by
    rw [← Complex.exp_add]
    congr 1
    push_cast
    ring
  have hx : (starRingEnd ℂ) (Complex.exp (Complex.I * m * (azimuth x' y' : ℂ))) =
      Complex.exp (-(Complex.I * m * (azimuth x' y' : ℂ))) := by
    rw [← Complex.exp_conj]
    congr 1
    simp
  simp only [map_mul, Complex.conj_conj, Complex.conj_ofReal, hc, hx]
  rw [← he]
  push_cast at hN ⊢
  rw [← hN]
  linear_combination (Complex.exp (Complex.I * m * (azimuth x y : ℂ)) *
    Complex.exp (-(Complex.I * m * (azimuth x' y' : ℂ))) *
    ((P l m.natAbs (z / Real.sqrt (x * x + y * y + z * z)) : ℝ) : ℂ) *
    ((P l m.natAbs (z' / Real.sqrt (x' * x' + y' * y' + z' * z')) : ℝ) : ℂ) *
    ((Real.sqrt (4 * Real.pi / (2 * l + 1)) : ℝ) : ℂ) * ((Real.sqrt (4 * Real.pi / (2 * l + 1)) : ℝ) : ℂ)) * hs

theorem sphP_mul (l m : ℕ) (a b : ℝ) :
    4 * Real.pi / (2 * l + 1) * (sphP l m a * sphP l m b) =
      ((l - m).factorial : ℝ) / ((l + m).factorial : ℝ) * (Real.sqrt (1 - a ^ 2) ^ m * Wc.dLeg l m a) *
        (Real.sqrt (1 - b ^ 2) ^ m * Wc.dLeg l m b) := by
  have hpi := Real.pi_pos
  have h1 : ((-1 : ℝ) ^ m) * (-1) ^ m = 1 := by rw [← mul_pow]; norm_num
  have h2 : Real.sqrt ((2 * l + 1) / (4 * Real.pi) * ((l - m).factorial / (l + m).factorial)) *
      Real.sqrt ((2 * l + 1) / (4 * Real.pi) * ((l - m).factorial / (l + m).factorial)) =
      (2 * l + 1) / (4 * Real.pi) * ((l - m).factorial / (l + m).factorial) :=
    Real.mul_self_sqrt (by positivity)
  have h3 : 4 * Real.pi / (2 * l + 1) * ((2 * (l : ℝ) + 1) / (4 * Real.pi) *
      ((l - m).factorial / (l + m).factorial)) = ((l - m).factorial : ℝ) / ((l + m).factorial : ℝ) := by
    have : (2 * (l : ℝ) + 1) ≠ 0 := by positivity
    field_simp
  rw [← h3, ← h2]
  unfold sphP Wc.dLeg
  generalize Real.sqrt ((2 * l + 1) / (4 * Real.pi) * ((l - m).factorial / (l + m).factorial)) = S
  linear_combination (4 * Real.pi / (2 * l + 1) * (S * S) *
    (Real.sqrt (1 - a ^ 2) ^ m * (Polynomial.derivative^[m] (Wc.legendre l)).eval a) *
    (Real.sqrt (1 - b ^ 2) ^ m * (Polynomial.derivative^[m] (Wc.legendre l)).eval b)) * h1

/-- The sum over orders is the Legendre polynomial of the angle, in spherical coordinates. -/
theorem orders_angle (P : ℕ → ℕ → ℝ → ℝ) (hP : ∀ (l m : ℕ) (mu : ℝ), m ≤ l → |mu| ≤ 1 → P l m mu = sphP l m mu)
    (l : ℕ) (hl : l ≠ 0) (x y z x' y' z' : ℝ)
    (h : (1 : ℝ) / 1000000000 ≤ Real.sqrt (x * x + y * y + z * z))
    (h' : (1 : ℝ) / 1000000000 ≤ Real.sqrt (x' * x' + y' * y' + z' * z'))
    (hm : |z / Real.sqrt (x * x + y * y + z * z)| ≤ 1)
    (hm' : |z' / Real.sqrt (x' * x' + y' * y' + z' * z')| ≤ 1) :
    ∑ M ∈ Finset.Icc (-(l : ℤ)) l, (starRingEnd ℂ) (reducedYlm P l M x y z) * reducedYlm P l M x' y' z' =
      (((Wc.legendre l).eval (z / Real.sqrt (x * x + y * y + z * z) * (z' / Real.sqrt (x' * x' + y' * y' + z' * z')) +
        Real.sqrt (1 - (z / Real.sqrt (x * x + y * y + z * z)) ^ 2) *
        Real.sqrt (1 - (z' / Real.sqrt (x' * x' + y' * y' + z' * z')) ^ 2) *
          Real.cos (azimuth x y - azimuth x' y')) : ℝ) : ℂ) := by
  rw [sum_orders]
  simp only [ylm_mul P l hl _ x y z x' y' z' h h']
  generalize z / Real.sqrt (x * x + y * y + z * z) = a at *
  generalize z' / Real.sqrt (x' * x' + y' * y' + z' * z') = b at *
  generalize azimuth x y - azimuth x' y' = d
  have ha : Real.sqrt (1 - a ^ 2) ^ 2 = 1 - a ^ 2 := Real.sq_sqrt (by nlinarith [abs_le.1 hm])
  have hb : Real.sqrt (1 - b ^ 2) ^ 2 = 1 - b ^ 2 := Real.sq_sqrt (by nlinarith [abs_le.1 hm'])
  rw [Wc.addition l a b _ _ d ha hb, Finset.sum_range_succ', add_comm]
  push_cast
  congr 1
  · apply Finset.sum_congr rfl
    intro m hmr
    have hml : m + 1 ≤ l := by have := Finset.mem_range.1 hmr; omega
    have e1 : ((m : ℤ) + 1).natAbs = m + 1 := by omega
    have e2 : (-((m : ℤ) + 1)).natAbs = m + 1 := by omega
    rw [e1, e2, hP l _ a hml hm, hP l _ b hml hm']
    have hc : Complex.exp (((m : ℂ) + 1) * d * Complex.I) + Complex.exp (-((m : ℂ) + 1) * d * Complex.I) =
        2 * Complex.cos (((m : ℂ) + 1) * d) := by
      rw [Complex.two_cos]
      congr 2
      ring
    have key := congrArg (fun t : ℝ => (t : ℂ)) (sphP_mul l (m + 1) a b)
    push_cast at key
    have ht : Wc.twice (m + 1) = 2 := by simp [Wc.twice]
    rw [ht]
    push_cast
    linear_combination (4 * (Real.pi : ℂ) / (2 * l + 1) * ((sphP l (m + 1) a : ℂ) * (sphP l (m + 1) b : ℂ))) * hc +
      2 * Complex.cos (((m : ℂ) + 1) * d) * key
  · have key := congrArg (fun t : ℝ => (t : ℂ)) (sphP_mul l 0 a b)
    push_cast at key
    simp only [Int.natAbs_zero, Int.cast_zero, zero_mul, Complex.exp_zero, mul_one, Nat.cast_zero, Complex.cos_zero]
    rw [hP l 0 a (Nat.zero_le _) hm, hP l 0 b (Nat.zero_le _) hm']
    have ht : Wc.twice 0 = 1 := by simp [Wc.twice]
    rw [ht]
    push_cast
    linear_combination key

/-- Spherical coordinates of a resolved vector. -/
theorem spherical {x y z : ℝ} (h : (x = 0 ∧ y = 0 ∧ (1 : ℝ) / 1000000000 ≤ |z|) ∨
    (1 : ℝ) / 1000000000 ≤ Real.sqrt (x * x + y * y)) :
    (1 : ℝ) / 1000000000 ≤ Real.sqrt (x * x + y * y + z * z) ∧
    |z / Real.sqrt (x * x + y * y + z * z)| ≤ 1 ∧
    Real.sqrt (1 - (z / Real.sqrt (x * x + y * y + z * z)) ^ 2) * Real.cos (azimuth x y) =
      x / Real.sqrt (x * x + y * y + z * z) ∧
    Real.sqrt (1 - (z / Real.sqrt (x * x + y * y + z * z)) ^ 2) * Real.sin (azimuth x y) =
      y / Real.sqrt (x * x + y * y + z * z) := by
  have hr : (1 : ℝ) / 1000000000 ≤ Real.sqrt (x * x + y * y + z * z) := by
    rcases h with ⟨rfl, rfl, h⟩ | h
    · rw [show (0 : ℝ) * 0 + 0 * 0 + z * z = z ^ 2 by ring, Real.sqrt_sq_eq_abs]
      exact h
    · exact le_trans h (Real.sqrt_le_sqrt (by nlinarith [mul_self_nonneg z]))
  have hrp : 0 < Real.sqrt (x * x + y * y + z * z) := lt_of_lt_of_le (by norm_num) hr
  have hrr : Real.sqrt (x * x + y * y + z * z) * Real.sqrt (x * x + y * y + z * z) = x * x + y * y + z * z :=
    Real.mul_self_sqrt (by nlinarith [mul_self_nonneg x, mul_self_nonneg y, mul_self_nonneg z])
  generalize Real.sqrt (x * x + y * y + z * z) = r at *
  have hs : Real.sqrt (1 - (z / r) ^ 2) = Real.sqrt (x * x + y * y) / r := by
    have : 1 - (z / r) ^ 2 = (x * x + y * y) / (r * r) := by
      rw [div_pow]
      field_simp
      nlinarith
    rw [this, Real.sqrt_div (by nlinarith [mul_self_nonneg x, mul_self_nonneg y]), Real.sqrt_mul_self hrp.le]
  refine ⟨hr, ?_, ?_⟩
  · rw [abs_div, abs_of_pos hrp, div_le_one hrp]
    apply abs_le_of_sq_le_sq _ hrp.le
    nlinarith [mul_self_nonneg x, mul_self_nonneg y]
  · rw [hs]
    rcases h with ⟨rfl, rfl, h⟩ | h
    · simp
    · have hp : 0 < Real.sqrt (x * x + y * y) := lt_of_lt_of_le (by norm_num) h
      have e := exp_azimuth h
      rw [Complex.exp_mul_I, ← Complex.ofReal_cos, ← Complex.ofReal_sin] at e
      have e1 := congrArg Complex.re e
      have e2 := congrArg Complex.im e
      rw [Complex.div_ofReal_re] at e1
      rw [Complex.div_ofReal_im] at e2
      simp at e1 e2
      rw [Complex.cos_ofReal_re] at e1
      rw [Complex.sin_ofReal_re] at e2
      rw [e1, e2]
      generalize Real.sqrt (x * x + y * y) = q at hp
      constructor <;> field_simp

theorem ylm_null (E : Env) {l : ℕ} (hl : l ≠ 0) (m : ℤ) : E.ylm l m 0 = 0 := by
  unfold Env.ylm reducedYlm
  have h0 : ¬ (l = 0 ∧ m = 0) := fun h => hl h.1
  simp [h0]

/-- The addition theorem for the harmonics of the code. -/
theorem ylm_addition (E : Env)
    (hP : ∀ (l m : ℕ) (mu : ℝ), m ≤ l → |mu| ≤ 1 → E.P l m mu = sphP l m mu) (l : ℕ)
    (u v : Fin 3 → ℝ) (hu : Resolved u) (hv : Resolved v) :
    ∑ M ∈ Finset.Icc (-(l : ℤ)) l, (starRingEnd ℂ) (E.ylm l M u) * E.ylm l M v = (legAngle l u v : ℂ) := by
  unfold legAngle
  by_cases hl : l = 0
  · subst hl
    simp [ylm_zero]
  rw [if_neg hl]
  by_cases hu0 : u = 0
  · rw [if_pos (Or.inl hu0), hu0]
    simp [ylm_null E hl]
  by_cases hv0 : v = 0
  · rw [if_pos (Or.inr hv0), hv0]
    simp [ylm_null E hl]
  rw [if_neg (by simp [hu0, hv0])]
  obtain ⟨h1, h2, h3, h4⟩ := spherical (z := u 2) (hu.resolve_left hu0)
  obtain ⟨k1, k2, k3, k4⟩ := spherical (z := v 2) (hv.resolve_left hv0)
  refine (orders_angle E.P hP l hl _ _ _ _ _ _ h1 k1 h2 k2).trans ?_
  congr 2
  have hmag : ∀ w : Fin 3 → ℝ, mag w = Real.sqrt (w 0 * w 0 + w 1 * w 1 + w 2 * w 2) := fun w => by
    unfold mag; simp only [sq]
  rw [hmag, hmag, Real.cos_sub]
  unfold dot
  have hup : 0 < Real.sqrt (u 0 * u 0 + u 1 * u 1 + u 2 * u 2) := lt_of_lt_of_le (by norm_num) h1
  have hvp : 0 < Real.sqrt (v 0 * v 0 + v 1 * v 1 + v 2 * v 2) := lt_of_lt_of_le (by norm_num) k1
  generalize Real.sqrt (u 0 * u 0 + u 1 * u 1 + u 2 * u 2) = r at *
  generalize Real.sqrt (v 0 * v 0 + v 1 * v 1 + v 2 * v 2) = r' at *
  have e : (u 0 * v 0 + u 1 * v 1 + u 2 * v 2) / (r * r') =
      u 0 / r * (v 0 / r') + u 1 / r * (v 1 / r') + u 2 / r * (v 2 / r') := by
    field_simp
  rw [e, ← h3, ← h4, ← k3, ← k4]
  ring

/-- The harmonic of order zero, along the `z` axis. -/
theorem ylm_axis (E : Env)
    (hP : ∀ (l m : ℕ) (mu : ℝ), m ≤ l → |mu| ≤ 1 → E.P l m mu = sphP l m mu) (l : ℕ)
    (u : Fin 3 → ℝ) (hu : Resolved u) :
    E.ylm l 0 u = (legAngle l u ![0, 0, 1] : ℂ) := by
  unfold legAngle
  by_cases hl : l = 0
  · subst hl
    simp [ylm_zero]
  rw [if_neg hl]
  by_cases hu0 : u = 0
  · rw [if_pos (Or.inl hu0), hu0, ylm_null E hl]
    rfl
  have hz : (![0, 0, 1] : Fin 3 → ℝ) ≠ 0 := by
    intro h
    have := congrFun h 2
    simp at this
  rw [if_neg (by simp [hu0])]
  obtain ⟨h1, h2, -, -⟩ := spherical (z := u 2) (hu.resolve_left hu0)
  unfold Env.ylm reducedYlm
  rw [if_neg (fun h => hl h.1)]
  simp only
  rw [if_neg (by rw [abs_of_nonneg (Real.sqrt_nonneg _)]; exact not_lt.2 h1)]
  have hmag : mag u = Real.sqrt (u 0 * u 0 + u 1 * u 1 + u 2 * u 2) := by unfold mag; simp only [sq]
  have hone : mag ![0, 0, 1] = 1 := by unfold mag; simp
  have hd : dot u ![0, 0, 1] = u 2 := by unfold dot; simp
  rw [hmag, hone, hd, mul_one]
  simp only [Int.natAbs_zero, Int.cast_zero, mul_zero, zero_mul, Complex.exp_zero, one_mul, abs_zero,
    sub_zero, Complex.conj_ofReal]
  rw [hP l 0 _ (Nat.zero_le _) h2]
  have hpi := Real.pi_pos
  have hl1 : (0 : ℝ) < 2 * l + 1 := by positivity
  have hf : ((l.factorial : ℕ) : ℝ) ≠ 0 := by exact_mod_cast l.factorial_ne_zero
  have e : sphP l 0 (u 2 / Real.sqrt (u 0 * u 0 + u 1 * u 1 + u 2 * u 2)) *
      Real.sqrt (4 * Real.pi / (2 * l + 1)) =
      (Wc.legendre l).eval (u 2 / Real.sqrt (u 0 * u 0 + u 1 * u 1 + u 2 * u 2)) := by
    unfold sphP
    simp only [pow_zero, one_mul, Nat.sub_zero, Nat.add_zero, Function.iterate_zero, id_eq, div_self hf, mul_one]
    rw [mul_right_comm, ← Real.sqrt_mul (by positivity),
      show (2 * (l : ℝ) + 1) / (4 * Real.pi) * (4 * Real.pi / (2 * l + 1)) = 1 by field_simp,
      Real.sqrt_one, one_mul]
  rw [← e]
  push_cast
  simp

end Trv.Two

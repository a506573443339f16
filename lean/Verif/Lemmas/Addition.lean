import Verif.Lemmas.Legendre
import Mathlib.Analysis.SpecialFunctions.Trigonometric.Basic
/-
The addition theorem of Legendre polynomials, for all degrees.
-/
namespace Trv.Wc
open Polynomial

/-- The `m`-th derivative of the Legendre polynomial of degree `l`. -/
noncomputable def dLeg (l m : ℕ) (a : ℝ) : ℝ := (derivative^[m] (legendre l)).eval a

theorem dLeg_zero (l : ℕ) (a : ℝ) : dLeg l 0 a = (legendre l).eval a := rfl

theorem raise_poly (n m : ℕ) : derivative^[m + 1] (legendre (n + 1)) =
    X * derivative^[m + 1] (legendre n) + C ((n : ℝ) + 1 + m) * derivative^[m] (legendre n) := by
  induction m with
  | zero =>
    have := (legendre_deriv n).1
    simpa using this
  | succ m ih =>
    rw [Function.iterate_succ_apply', ih]
    simp only [derivative_add, derivative_mul, derivative_X, derivative_C, zero_mul, zero_add,
      ← Function.iterate_succ_apply' (f := ⇑derivative)]
    push_cast
    simp only [map_add, map_one]
    ring

theorem lower_poly (n m : ℕ) : X * derivative^[m + 1] (legendre (n + 1)) - derivative^[m + 1] (legendre n) =
    C ((n : ℝ) + 1 - m) * derivative^[m] (legendre (n + 1)) := by
  induction m with
  | zero =>
    have := (legendre_deriv n).2
    simpa using this
  | succ m ih =>
    have h := congrArg derivative ih
    simp only [derivative_sub, derivative_mul, derivative_X, derivative_C, zero_mul, zero_add,
      ← Function.iterate_succ_apply' (f := ⇑derivative)] at h
    push_cast
    simp only [map_add, map_sub, map_one] at h ⊢
    linear_combination h

theorem raise (n m : ℕ) (a : ℝ) : dLeg (n + 1) (m + 1) a =
    a * dLeg n (m + 1) a + ((n : ℝ) + 1 + m) * dLeg n m a := by
  have := congrArg (eval a) (raise_poly n m)
  simpa [dLeg] using this

theorem lower (n m : ℕ) (a : ℝ) : a * dLeg (n + 1) (m + 1) a - dLeg n (m + 1) a =
    ((n : ℝ) + 1 - m) * dLeg (n + 1) m a := by
  have := congrArg (eval a) (lower_poly n m)
  simpa [dLeg] using this

theorem dLeg_above : ∀ (l m : ℕ), l < m → ∀ a, dLeg l m a = 0
  | 0, m + 1, _, a => by simp [dLeg, legendre]
  | l + 1, m + 1, h, a => by
    rw [raise, dLeg_above l (m + 1) (by omega), dLeg_above l m (by omega)]
    ring

/-- `(1 - a^2)` times the next derivative. -/
theorem dLeg_next (n m : ℕ) (a : ℝ) : (1 - a ^ 2) * dLeg (n + 1) (m + 1) a =
    ((n : ℝ) + 1 + m) * dLeg n m a - ((n : ℝ) + 1 - m) * (a * dLeg (n + 1) m a) := by
  linear_combination raise n m a - a * lower n m a

/-- The recurrence in the degree. -/
theorem dLeg_rec (n m : ℕ) (a : ℝ) : ((n : ℝ) + 1 - m) * dLeg (n + 2) (m + 1) a =
    (2 * (n : ℝ) + 3) * (a * dLeg (n + 1) (m + 1) a) - ((n : ℝ) + 2 + m) * dLeg n (m + 1) a := by
  have h1 := raise (n + 1) m a
  have h2 := lower n m a
  push_cast at h1
  linear_combination ((n : ℝ) + 1 - m) * h1 - ((n : ℝ) + 2 + m) * h2

theorem dLeg_rec_zero (n : ℕ) (a : ℝ) : ((n : ℝ) + 2) * dLeg (n + 2) 0 a =
    (2 * (n : ℝ) + 3) * (a * dLeg (n + 1) 0 a) - ((n : ℝ) + 1) * dLeg n 0 a := by
  have := congrArg (eval a) (bonnet n)
  simp only [eval_mul, eval_sub, eval_C, eval_X] at this
  rw [dLeg_zero, dLeg_zero, dLeg_zero]
  linear_combination this

/-- The homogeneous Chebyshev polynomials. -/
def cheb (w q : ℝ) : ℕ → ℝ
  | 0 => 1
  | 1 => w
  | m + 2 => 2 * w * cheb w q (m + 1) - q * cheb w q m

/-- Both signs of an order. -/
def twice (m : ℕ) : ℝ := if m = 0 then 1 else 2

/-- The coefficient of an order. -/
noncomputable def addCoeff (a b : ℝ) (l m : ℕ) : ℝ :=
  ((l - m).factorial : ℝ) / ((l + m).factorial : ℝ) * (dLeg l m a * dLeg l m b)

/-- The coefficients after multiplication by `w`. -/
noncomputable def shiftCoeff (q : ℝ) (g : ℕ → ℝ) : ℕ → ℝ
  | 0 => q * g 1
  | m + 1 => (g m + q * g (m + 2)) / 2

theorem shift_sum (w q : ℝ) (g : ℕ → ℝ) (N : ℕ) :
    w * ∑ m ∈ Finset.range (N + 1), twice m * g m * cheb w q m =
      ∑ m ∈ Finset.range (N + 1), twice m * shiftCoeff q g m * cheb w q m +
        (g N * cheb w q (N + 1) - q * g (N + 1) * cheb w q N) := by
  induction N with
  | zero => simp [twice, shiftCoeff, cheb]; ring
  | succ N ih =>
    rw [Finset.sum_range_succ, mul_add, ih, Finset.sum_range_succ _ (N + 1)]
    have h1 : twice (N + 1) = 2 := by simp [twice]
    rw [h1]
    simp only [shiftCoeff]
    rw [show cheb w q (N + 1 + 1) = 2 * w * cheb w q (N + 1) - q * cheb w q N from rfl]
    ring

theorem fact_succ (n : ℕ) : ((n + 1).factorial : ℝ) = ((n : ℝ) + 1) * (n.factorial : ℝ) := by
  rw [Nat.factorial_succ]; push_cast; ring

theorem addCoeff_above (a b : ℝ) {l m : ℕ} (h : l < m) : addCoeff a b l m = 0 := by
  unfold addCoeff
  rw [dLeg_above l m h]
  ring

theorem addCoeff_rec (a b : ℝ) (n m : ℕ) :
    ((n : ℝ) + 2) * addCoeff a b (n + 2) m =
      (2 * (n : ℝ) + 3) * (a * b * addCoeff a b (n + 1) m +
        shiftCoeff ((1 - a ^ 2) * (1 - b ^ 2)) (addCoeff a b (n + 1)) m) -
      ((n : ℝ) + 1) * addCoeff a b n m := by
  have hf : ∀ k : ℕ, ((k.factorial : ℕ) : ℝ) ≠ 0 := fun k => by exact_mod_cast k.factorial_ne_zero
  cases m with
  | zero =>
    have ra := dLeg_rec_zero n a
    have rb := dLeg_rec_zero n b
    have na := dLeg_next n 0 a
    have nb := dLeg_next n 0 b
    simp only [Nat.cast_zero, add_zero, sub_zero] at na nb
    simp only [shiftCoeff, addCoeff, Nat.sub_zero, Nat.add_zero]
    rw [div_self (hf _), div_self (hf _), div_self (hf _)]
    rw [show n + 1 - 1 = n by omega, fact_succ (n + 1), fact_succ n]
    push_cast
    have e : (1 - a ^ 2) * (1 - b ^ 2) * ((n.factorial : ℝ) / (((n : ℝ) + 1 + 1) * (((n : ℝ) + 1) *
        (n.factorial : ℝ))) * (dLeg (n + 1) 1 a * dLeg (n + 1) 1 b)) =
        1 / (((n : ℝ) + 2) * ((n : ℝ) + 1)) * (((1 - a ^ 2) * dLeg (n + 1) 1 a) * ((1 - b ^ 2) * dLeg (n + 1) 1 b)) := by
      have := hf n
      have h1 : (n : ℝ) + 1 ≠ 0 := by positivity
      have h2 : (n : ℝ) + 2 ≠ 0 := by positivity
      rw [show (n : ℝ) + 1 + 1 = n + 2 by ring]
      field_simp
    rw [e, na, nb]
    have h1 : (n : ℝ) + 1 ≠ 0 := by positivity
    have h2 : (n : ℝ) + 2 ≠ 0 := by positivity
    apply mul_left_cancel₀ h2
    have : ((n : ℝ) + 2) * (((n : ℝ) + 2) * (1 * (dLeg (n + 2) 0 a * dLeg (n + 2) 0 b))) =
        (((n : ℝ) + 2) * dLeg (n + 2) 0 a) * (((n : ℝ) + 2) * dLeg (n + 2) 0 b) := by ring
    rw [this, ra, rb]
    field_simp
    ring
  | succ k =>
    rcases Nat.lt_trichotomy k n with hk | hk | hk
    · obtain ⟨j, rfl⟩ : ∃ j, n = k + 1 + j := ⟨n - (k + 1), by omega⟩
      have ra := dLeg_rec (k + 1 + j) k a
      have rb := dLeg_rec (k + 1 + j) k b
      have na := dLeg_next (k + 1 + j) (k + 1) a
      have nb := dLeg_next (k + 1 + j) (k + 1) b
      have la := lower (k + 1 + j) k a
      have lb := lower (k + 1 + j) k b
      push_cast at ra rb na nb la lb
      simp only [shiftCoeff, addCoeff]
      rw [show k + 1 + j + 2 - (k + 1) = j + 2 by omega, show k + 1 + j + 1 - (k + 1) = j + 1 by omega,
        show k + 1 + j - (k + 1) = j by omega, show k + 1 + j + 1 - k = j + 2 by omega,
        show k + 1 + j + 1 - (k + 2) = j by omega,
        show k + 1 + j + 2 + (k + 1) = (2 * k + j + 2) + 1 + 1 by omega,
        show k + 1 + j + 1 + (k + 1) = (2 * k + j + 2) + 1 by omega,
        show k + 1 + j + (k + 1) = 2 * k + j + 2 by omega,
        show k + 1 + j + 1 + k = 2 * k + j + 2 by omega,
        show k + 1 + j + 1 + (k + 2) = (2 * k + j + 2) + 1 + 1 by omega]
      rw [fact_succ (2 * k + j + 2 + 1), fact_succ (2 * k + j + 2), fact_succ (j + 1), fact_succ j]
      have hj := hf j
      have hk2 := hf (2 * k + j + 2)
      generalize ((2 * k + j + 2).factorial : ℝ) = F at *
      generalize (j.factorial : ℝ) = G at *
      push_cast
      generalize dLeg (k + 1 + j + 2) (k + 1) a = xa at *
      generalize dLeg (k + 1 + j + 2) (k + 1) b = xb at *
      generalize dLeg (k + 1 + j + 1) (k + 1) a = ua at *
      generalize dLeg (k + 1 + j + 1) (k + 1) b = ub at *
      generalize dLeg (k + 1 + j) (k + 1) a = va at *
      generalize dLeg (k + 1 + j) (k + 1) b = vb at *
      generalize dLeg (k + 1 + j + 1) k a = za at *
      generalize dLeg (k + 1 + j + 1) k b = zb at *
      have na' : (1 - a ^ 2) * dLeg (k + 1 + j + 1) (k + 2) a = (2 * k + j + 3) * va - (j + 1) * (a * ua) := by
        linear_combination na
      have nb' : (1 - b ^ 2) * dLeg (k + 1 + j + 1) (k + 2) b = (2 * k + j + 3) * vb - (j + 1) * (b * ub) := by
        linear_combination nb
      generalize dLeg (k + 1 + j + 1) (k + 2) a = ya at *
      generalize dLeg (k + 1 + j + 1) (k + 2) b = yb at *
      clear na nb
      have hj1 : (j : ℝ) + 1 ≠ 0 := by positivity
      have hj2 : (j : ℝ) + 2 ≠ 0 := by positivity
      have hk3 : 2 * (k : ℝ) + j + 3 ≠ 0 := by positivity
      have hk4 : 2 * (k : ℝ) + j + 4 ≠ 0 := by positivity
      have hxa : xa = ((2 * (k : ℝ) + 2 * j + 5) * (a * ua) - (2 * k + j + 3) * va) / (j + 2) := by
        rw [eq_div_iff hj2]; linear_combination ra
      have hxb : xb = ((2 * (k : ℝ) + 2 * j + 5) * (b * ub) - (2 * k + j + 3) * vb) / (j + 2) := by
        rw [eq_div_iff hj2]; linear_combination rb
      have hza : za = (a * ua - va) / (j + 2) := by
        rw [eq_div_iff hj2]; linear_combination -la
      have hzb : zb = (b * ub - vb) / (j + 2) := by
        rw [eq_div_iff hj2]; linear_combination -lb
      have e : (1 - a ^ 2) * (1 - b ^ 2) * (G / ((2 * (k : ℝ) + j + 2 + 1 + 1) * ((2 * k + j + 2 + 1) * F)) * (ya * yb)) =
          G / ((2 * (k : ℝ) + j + 4) * ((2 * k + j + 3) * F)) * (((2 * k + j + 3) * va - (j + 1) * (a * ua)) *
            ((2 * k + j + 3) * vb - (j + 1) * (b * ub))) := by
        rw [← na', ← nb', show 2 * (k : ℝ) + j + 2 + 1 + 1 = 2 * k + j + 4 by ring,
          show 2 * (k : ℝ) + j + 2 + 1 = 2 * k + j + 3 by ring]
        ring
      rw [e, hxa, hxb, hza, hzb, show 2 * (k : ℝ) + j + 2 + 1 + 1 = 2 * k + j + 4 by ring,
          show 2 * (k : ℝ) + j + 2 + 1 = 2 * k + j + 3 by ring, show (j : ℝ) + 1 + 1 = j + 2 by ring]
      clear e hxa hxb hza hzb ra rb la lb na' nb'
      field_simp
      ring
    · subst hk
      have ra := dLeg_rec k k a
      have rb := dLeg_rec k k b
      have la := lower k k a
      have lb := lower k k b
      rw [dLeg_above k (k + 1) (by omega)] at ra rb la lb
      simp only [shiftCoeff]
      rw [addCoeff_above a b (show k < k + 1 by omega), addCoeff_above a b (show k + 1 < k + 2 by omega)]
      unfold addCoeff
      rw [show k + 2 - (k + 1) = 1 by omega, show k + 1 - (k + 1) = 0 by omega,
        show k + 1 - k = 1 by omega, show k + 2 + (k + 1) = (2 * k + 1) + 1 + 1 by omega,
        show k + 1 + (k + 1) = (2 * k + 1) + 1 by omega, show k + 1 + k = 2 * k + 1 by omega,
        fact_succ (2 * k + 1 + 1), fact_succ (2 * k + 1), Nat.factorial_one, Nat.factorial_zero]
      have hF := hf (2 * k + 1)
      generalize ((2 * k + 1).factorial : ℝ) = F at *
      have hxa : dLeg (k + 2) (k + 1) a = (2 * k + 3) * (a * dLeg (k + 1) (k + 1) a) := by linear_combination ra
      have hxb : dLeg (k + 2) (k + 1) b = (2 * k + 3) * (b * dLeg (k + 1) (k + 1) b) := by linear_combination rb
      have hza : dLeg (k + 1) k a = a * dLeg (k + 1) (k + 1) a := by linear_combination -la
      have hzb : dLeg (k + 1) k b = b * dLeg (k + 1) (k + 1) b := by linear_combination -lb
      rw [hxa, hxb, hza, hzb]
      push_cast
      have h2 : 2 * (k : ℝ) + 1 + 1 ≠ 0 := by positivity
      have h3 : 2 * (k : ℝ) + 1 + 1 + 1 ≠ 0 := by positivity
      field_simp
      ring
    · by_cases hk1 : k = n + 1
      · subst hk1
        simp only [shiftCoeff]
        rw [addCoeff_above a b (show n < n + 1 + 1 by omega), addCoeff_above a b (show n + 1 < n + 1 + 1 by omega),
          addCoeff_above a b (show n + 1 < n + 1 + 2 by omega)]
        have ha := raise (n + 1) (n + 1) a
        have hb := raise (n + 1) (n + 1) b
        rw [dLeg_above (n + 1) (n + 1 + 1) (by omega)] at ha hb
        unfold addCoeff
        rw [show n + 2 = n + 1 + 1 from rfl, ha, hb, Nat.sub_self, Nat.sub_self, Nat.factorial_zero,
          show n + 1 + 1 + (n + 1 + 1) = (n + 1 + (n + 1)) + 1 + 1 by omega, fact_succ (n + 1 + (n + 1) + 1),
          fact_succ (n + 1 + (n + 1))]
        have hF := hf (n + 1 + (n + 1))
        generalize ((n + 1 + (n + 1)).factorial : ℝ) = F at *
        push_cast
        have h2 : (n : ℝ) + 1 + (n + 1) + 1 ≠ 0 := by positivity
        have h3 : (n : ℝ) + 1 + (n + 1) + 1 + 1 ≠ 0 := by positivity
        field_simp
        ring
      · simp only [shiftCoeff]
        rw [addCoeff_above a b (show n + 2 < k + 1 by omega), addCoeff_above a b (show n + 1 < k + 1 by omega),
          addCoeff_above a b (show n < k + 1 by omega), addCoeff_above a b (show n + 1 < k by omega),
          addCoeff_above a b (show n + 1 < k + 2 by omega)]
        ring

/-- The addition theorem as an identity of polynomials. -/
theorem addition_poly (a b w : ℝ) : ∀ (l N : ℕ), l ≤ N → (legendre l).eval (a * b + w) =
    ∑ m ∈ Finset.range (N + 1), twice m * addCoeff a b l m * cheb w ((1 - a ^ 2) * (1 - b ^ 2)) m
  | 0, N, _ => by
    rw [Finset.sum_eq_single 0]
    · simp [twice, addCoeff, cheb, dLeg, legendre]
    · intro m _ hm
      rw [addCoeff_above a b (by omega)]
      ring
    · intro h
      simp at h
  | 1, N, hN => by
    rw [← Finset.sum_subset (Finset.range_mono (show 2 ≤ N + 1 by omega))]
    · rw [Finset.sum_range_succ, Finset.sum_range_one]
      simp [twice, addCoeff, cheb, dLeg, legendre]
    · intro m _ hm
      rw [addCoeff_above a b (by simpa using hm)]
      ring
  | n + 2, N, hN => by
    have h1 := addition_poly a b w (n + 1) N (by omega)
    have h0 := addition_poly a b w n N (by omega)
    have hs := shift_sum w ((1 - a ^ 2) * (1 - b ^ 2)) (addCoeff a b (n + 1)) N
    rw [addCoeff_above a b (show n + 1 < N by omega), addCoeff_above a b (show n + 1 < N + 1 by omega)] at hs
    have hb := dLeg_rec_zero n (a * b + w)
    rw [dLeg_zero, dLeg_zero, dLeg_zero] at hb
    have h2 : (n : ℝ) + 2 ≠ 0 := by positivity
    apply mul_left_cancel₀ h2
    have hs' : w * (legendre (n + 1)).eval (a * b + w) = ∑ m ∈ Finset.range (N + 1),
        twice m * shiftCoeff ((1 - a ^ 2) * (1 - b ^ 2)) (addCoeff a b (n + 1)) m *
          cheb w ((1 - a ^ 2) * (1 - b ^ 2)) m := by
      rw [h1, hs]; ring
    rw [hb, add_mul (a * b) w, hs', h1, h0, mul_add]
    simp only [Finset.mul_sum]
    rw [← Finset.sum_add_distrib, ← Finset.sum_sub_distrib]
    apply Finset.sum_congr rfl
    intro m _
    linear_combination (-twice m * cheb w ((1 - a ^ 2) * (1 - b ^ 2)) m) * addCoeff_rec a b n m

theorem cheb_cos (r phi : ℝ) : ∀ m : ℕ, cheb (r * Real.cos phi) (r ^ 2) m = r ^ m * Real.cos (m * phi)
  | 0 => by simp [cheb]
  | 1 => by simp [cheb]
  | m + 2 => by
    rw [cheb, cheb_cos r phi (m + 1), cheb_cos r phi m]
    have h : Real.cos (((m + 2 : ℕ) : ℝ) * phi) =
        2 * Real.cos phi * Real.cos (((m + 1 : ℕ) : ℝ) * phi) - Real.cos (m * phi) := by
      have e1 : ((m + 2 : ℕ) : ℝ) * phi = ((m + 1 : ℕ) : ℝ) * phi + phi := by push_cast; ring
      have e2 : (m : ℝ) * phi = ((m + 1 : ℕ) : ℝ) * phi - phi := by push_cast; ring
      rw [e1, e2, Real.cos_add, Real.cos_sub]
      ring
    rw [h]
    ring

/-- **The addition theorem.** -/
theorem addition (l : ℕ) (a b s t phi : ℝ) (hs : s ^ 2 = 1 - a ^ 2) (ht : t ^ 2 = 1 - b ^ 2) :
    (legendre l).eval (a * b + s * t * Real.cos phi) =
      ∑ m ∈ Finset.range (l + 1), twice m * (((l - m).factorial : ℝ) / ((l + m).factorial : ℝ)) *
        (s ^ m * dLeg l m a) * (t ^ m * dLeg l m b) * Real.cos (m * phi) := by
  rw [addition_poly a b _ l l le_rfl]
  apply Finset.sum_congr rfl
  intro m _
  rw [show (1 - a ^ 2) * (1 - b ^ 2) = (s * t) ^ 2 by rw [mul_pow, hs, ht], cheb_cos]
  unfold addCoeff
  ring

end Trv.Wc

import Verif.Spec.SphBessel
import Mathlib.Analysis.Calculus.ParametricIntervalIntegral
import Mathlib.Analysis.SpecialFunctions.Integrals.Basic
/-
Lemmas on spherical Bessel functions: bounds and derivatives.
-/
namespace Trv.Sbc
open Complex

theorem legendre_succ (l : ℕ) (x : ℝ) :
    ((l : ℝ) + 2) * legendre (l + 2) x = (2 * l + 3) * x * legendre (l + 1) x - (l + 1) * legendre l x := by
  rw [legendre]
  have : (l : ℝ) + 2 ≠ 0 := by positivity
  field_simp

theorem legendre_continuous : ∀ l : ℕ, Continuous (legendre l)
  | 0 => by
    rw [show legendre 0 = fun _ => 1 from funext fun x => legendre.eq_1 x]
    exact continuous_const
  | 1 => by
    rw [show legendre 1 = fun x => x from funext fun x => legendre.eq_2 x]
    exact continuous_id
  | l + 2 => by
    rw [show legendre (l + 2) = fun x => ((2 * l + 3) * x * legendre (l + 1) x - (l + 1) * legendre l x) / (l + 2) from
      funext fun x => legendre.eq_3 x l]
    have h1 := legendre_continuous l
    have h2 := legendre_continuous (l + 1)
    fun_prop

/-- The integrand of Laplace's formula. -/
noncomputable def lapW (x s : ℝ) (φ : ℝ) : ℂ := x + I * s * Real.cos φ

noncomputable def laplace (l : ℕ) (x s : ℝ) : ℂ := ∫ φ in (0 : ℝ)..Real.pi, lapW x s φ ^ l

theorem lapW_cont (x s : ℝ) : Continuous (lapW x s) := by
  unfold lapW
  fun_prop

theorem lapW_deriv (x s φ : ℝ) : HasDerivAt (lapW x s) (-(I * s * Real.sin φ)) φ := by
  unfold lapW
  have h := (Real.hasDerivAt_cos φ).ofReal_comp
  have := (h.const_mul (I * s : ℂ)).const_add (x : ℂ)
  refine this.congr_deriv ?_
  push_cast
  ring

theorem laplace_succ (l : ℕ) (x s : ℝ) (h : x ^ 2 + s ^ 2 = 1) :
    ((l : ℂ) + 2) * laplace (l + 2) x s = (2 * l + 3) * x * laplace (l + 1) x s - (l + 1) * laplace l x s := by
  have hd : ∀ φ ∈ Set.uIcc (0 : ℝ) Real.pi, HasDerivAt (fun φ => I * s * (Real.sin φ * lapW x s φ ^ (l + 1)))
      (I * s * (Real.cos φ * lapW x s φ ^ (l + 1) +
        Real.sin φ * (((l + 1 : ℕ) : ℂ) * lapW x s φ ^ l * (-(I * s * Real.sin φ))))) φ := by
    intro φ _
    have h1 := (Real.hasDerivAt_sin φ).ofReal_comp
    have h2 := (lapW_deriv x s φ).pow (l + 1)
    have := (h1.mul h2).const_mul (I * s : ℂ)
    exact this
  have hc := lapW_cont x s
  have hint := intervalIntegral.integral_eq_sub_of_hasDerivAt hd (by
    apply Continuous.intervalIntegrable
    fun_prop)
  rw [Real.sin_pi, Real.sin_zero] at hint
  simp only [ofReal_zero, zero_mul, mul_zero, sub_zero] at hint
  have e : ∀ φ : ℝ, I * s * (Real.cos φ * lapW x s φ ^ (l + 1) +
        Real.sin φ * (((l + 1 : ℕ) : ℂ) * lapW x s φ ^ l * (-(I * s * Real.sin φ)))) =
      ((l : ℂ) + 2) * lapW x s φ ^ (l + 2) - (2 * l + 3) * x * lapW x s φ ^ (l + 1) + (l + 1) * lapW x s φ ^ l := by
    intro φ
    have hs : (s : ℂ) ^ 2 * (Real.sin φ : ℂ) ^ 2 = 1 - 2 * x * lapW x s φ + lapW x s φ ^ 2 := by
      unfold lapW
      have p : ((Real.sin φ : ℝ) : ℂ) ^ 2 + ((Real.cos φ : ℝ) : ℂ) ^ 2 = 1 := by
        exact_mod_cast Real.sin_sq_add_cos_sq φ
      have q : (x : ℂ) ^ 2 + (s : ℂ) ^ 2 = 1 := by exact_mod_cast h
      linear_combination (s : ℂ) ^ 2 * p + q - (s : ℂ) ^ 2 * ((Real.cos φ : ℝ) : ℂ) ^ 2 * (I_sq)
    have hw : I * s * Real.cos φ = lapW x s φ - x := by unfold lapW; ring
    push_cast at hs hw ⊢
    rw [pow_succ, pow_succ]
    generalize lapW x s φ = w at *
    linear_combination (w ^ l * w) * hw - ((l : ℂ) + 1) * w ^ l * (s : ℂ) ^ 2 * Complex.sin φ ^ 2 * I_sq + ((l : ℂ) + 1) * w ^ l * hs
  simp only [e] at hint
  rw [intervalIntegral.integral_add, intervalIntegral.integral_sub, intervalIntegral.integral_const_mul, intervalIntegral.integral_const_mul, intervalIntegral.integral_const_mul] at hint
  · change ((l : ℂ) + 2) * laplace (l + 2) x s - (2 * l + 3) * x * laplace (l + 1) x s + (l + 1) * laplace l x s = 0 at hint
    linear_combination hint
  all_goals
    apply Continuous.intervalIntegrable
    fun_prop

theorem laplace_eq (x s : ℝ) (h : x ^ 2 + s ^ 2 = 1) : ∀ l : ℕ, laplace l x s = Real.pi * legendre l x
  | 0 => by
    unfold laplace
    simp [legendre]
  | 1 => by
    unfold laplace lapW
    simp only [pow_one, legendre]
    rw [intervalIntegral.integral_add, intervalIntegral.integral_const_mul]
    · have : ∫ φ in (0 : ℝ)..Real.pi, ((Real.cos φ : ℝ) : ℂ) = 0 := by
        rw [intervalIntegral.integral_ofReal, integral_cos]
        simp
      rw [this]
      simp
    all_goals
      apply Continuous.intervalIntegrable
      fun_prop
  | l + 2 => by
    have h0 : (l : ℂ) + 2 ≠ 0 := by exact_mod_cast (by positivity : (l : ℝ) + 2 ≠ 0)
    apply mul_left_cancel₀ h0
    rw [laplace_succ l x s h, laplace_eq x s h l, laplace_eq x s h (l + 1)]
    have := legendre_succ l x
    have this' : ((l : ℂ) + 2) * (legendre (l + 2) x : ℂ) = (2 * l + 3) * x * legendre (l + 1) x - (l + 1) * legendre l x := by
      exact_mod_cast this
    linear_combination (-(Real.pi : ℂ)) * this'

/-- Legendre polynomials are bounded by one. -/
theorem legendre_le (l : ℕ) {x : ℝ} (hx : |x| ≤ 1) : |legendre l x| ≤ 1 := by
  have hx2 : x ^ 2 ≤ 1 := by rw [← sq_abs]; nlinarith [abs_nonneg x]
  have h := laplace_eq x (Real.sqrt (1 - x ^ 2)) (by rw [Real.sq_sqrt (by linarith)]; ring) l
  have hb : ‖laplace l x (Real.sqrt (1 - x ^ 2))‖ ≤ 1 * |Real.pi - 0| := by
    unfold laplace
    apply intervalIntegral.norm_integral_le_of_norm_le_const
    intro φ _
    rw [norm_pow]
    apply pow_le_one₀ (norm_nonneg _)
    have hn : ‖lapW x (Real.sqrt (1 - x ^ 2)) φ‖ ^ 2 ≤ 1 := by
      rw [← Complex.normSq_eq_norm_sq]
      unfold lapW
      rw [Complex.normSq_apply]
      simp only [add_re, ofReal_re, mul_re, I_re, I_im, ofReal_im, add_im, mul_im]
      have p := Real.sin_sq_add_cos_sq φ
      have q : Real.sqrt (1 - x ^ 2) ^ 2 = 1 - x ^ 2 := Real.sq_sqrt (by linarith)
      nlinarith [sq_nonneg (Real.sin φ), sq_nonneg (Real.cos φ)]
    nlinarith [norm_nonneg (lapW x (Real.sqrt (1 - x ^ 2)) φ)]
  rw [h, norm_mul, Complex.norm_real, Complex.norm_real, sub_zero, one_mul, Real.norm_eq_abs, Real.norm_eq_abs] at hb
  have hp : 0 < |Real.pi| := abs_pos.2 Real.pi_ne_zero
  exact le_of_mul_le_mul_left (by linarith) hp

/-- The transform without its phase. -/
noncomputable def bigJ (l : ℕ) (x : ℝ) : ℂ :=
  1 / 2 * ∫ mu in (-1 : ℝ)..1, Complex.exp (Complex.I * x * mu) * (legendre l mu : ℂ)

theorem norm_exp (x mu : ℝ) : ‖Complex.exp (I * x * mu)‖ = 1 := by
  rw [show I * (x : ℂ) * mu = ((x * mu : ℝ) : ℂ) * I by push_cast; ring]
  exact norm_exp_ofReal_mul_I _

theorem bigJ_le (l : ℕ) (x : ℝ) : ‖bigJ l x‖ ≤ 1 := by
  have h : ‖∫ mu in (-1 : ℝ)..1, Complex.exp (Complex.I * x * mu) * (legendre l mu : ℂ)‖ ≤ 1 * |1 - (-1 : ℝ)| := by
    apply intervalIntegral.norm_integral_le_of_norm_le_const
    intro mu hmu
    rw [Set.uIoc_of_le (by norm_num)] at hmu
    rw [norm_mul, norm_exp, one_mul, Complex.norm_real, Real.norm_eq_abs]
    exact legendre_le l (abs_le.2 ⟨hmu.1.le, hmu.2⟩)
  unfold bigJ
  rw [norm_mul]
  norm_num at h ⊢
  linarith

theorem sphBessel_eq (l : ℕ) (x : ℝ) : sphBessel l x = ((-I) ^ l * bigJ l x).re := rfl

/-- Spherical Bessel functions are bounded by one. -/
theorem sphBessel_le (l : ℕ) (x : ℝ) : |sphBessel l x| ≤ 1 := by
  rw [sphBessel_eq]
  refine (Complex.abs_re_le_norm _).trans ?_
  rw [norm_mul, norm_pow, norm_neg, Complex.norm_I, one_pow, one_mul]
  exact bigJ_le l x

theorem bigJ_deriv (l : ℕ) (x : ℝ) : HasDerivAt (bigJ l)
    (1 / 2 * ∫ mu in (-1 : ℝ)..1, I * mu * Complex.exp (I * x * mu) * (legendre l mu : ℂ)) x := by
  apply HasDerivAt.const_mul
  have hl := legendre_continuous l
  refine (intervalIntegral.hasDerivAt_integral_of_dominated_loc_of_deriv_le (F := fun (x : ℝ) (mu : ℝ) => Complex.exp (I * x * mu) * (legendre l mu : ℂ))
    (F' := fun (x : ℝ) (mu : ℝ) => I * mu * Complex.exp (I * x * mu) * (legendre l mu : ℂ)) (bound := fun _ => (1 : ℝ)) (s := Set.univ) (x₀ := x) Filter.univ_mem ?_ ?_ ?_ ?_ ?_ ?_).2
  · apply Filter.Eventually.of_forall
    intro y
    apply Continuous.aestronglyMeasurable
    fun_prop
  · apply Continuous.intervalIntegrable
    fun_prop
  · apply Continuous.aestronglyMeasurable
    fun_prop
  · apply Filter.Eventually.of_forall
    intro mu hmu y _
    rw [Set.uIoc_of_le (by norm_num)] at hmu
    have h1 := legendre_le l (abs_le.2 ⟨hmu.1.le, hmu.2⟩)
    have h2 : |mu| ≤ 1 := abs_le.2 ⟨hmu.1.le, hmu.2⟩
    rw [norm_mul, norm_mul, norm_mul, norm_exp, Complex.norm_I, Complex.norm_real, Complex.norm_real, Real.norm_eq_abs, Real.norm_eq_abs]
    rw [one_mul, mul_one]
    exact mul_le_one₀ h2 (abs_nonneg _) h1
  · exact intervalIntegrable_const
  · apply Filter.Eventually.of_forall
    intro mu _ y _
    have h1 : HasDerivAt (fun y : ℝ => I * (y : ℂ) * mu) (I * mu) y := by
      have := ((Complex.ofRealCLM.hasDerivAt (x := y)).const_mul I).mul_const (mu : ℂ)
      refine this.congr_deriv ?_
      simp
    have := (h1.cexp).mul_const (legendre l mu : ℂ)
    refine this.congr_deriv ?_
    ring

/-- The derivative of a family of functions by the recursion of spherical Bessel functions. -/
noncomputable def der (u : ℕ → ℝ → ℝ) (l : ℕ) (x : ℝ) : ℝ :=
  (l * u (l - 1) x - (l + 1) * u (l + 1) x) / (2 * l + 1)

theorem mu_legendre (l : ℕ) (mu : ℝ) :
    mu * legendre l mu = (l * legendre (l - 1) mu + (l + 1) * legendre (l + 1) mu) / (2 * l + 1) := by
  have h0 : (2 * (l : ℝ) + 1) ≠ 0 := by positivity
  rw [eq_div_iff h0]
  cases l with
  | zero => simp [legendre]
  | succ l =>
    have := legendre_succ l mu
    rw [Nat.add_sub_cancel]
    push_cast
    linear_combination -this

theorem bigJ_der (l : ℕ) (x : ℝ) : HasDerivAt (bigJ l)
    (I * (l * bigJ (l - 1) x + (l + 1) * bigJ (l + 1) x) / (2 * l + 1)) x := by
  have h := bigJ_deriv l x
  have hl := legendre_continuous (l - 1)
  have hl' := legendre_continuous (l + 1)
  have h0 : (2 * (l : ℂ) + 1) ≠ 0 := by exact_mod_cast (by positivity : (2 * (l : ℝ) + 1) ≠ 0)
  refine h.congr_deriv ?_
  have e : ∀ mu : ℝ, I * mu * Complex.exp (I * x * mu) * (legendre l mu : ℂ) =
      I * l / (2 * l + 1) * (Complex.exp (I * x * mu) * (legendre (l - 1) mu : ℂ)) +
      I * (l + 1) / (2 * l + 1) * (Complex.exp (I * x * mu) * (legendre (l + 1) mu : ℂ)) := by
    intro mu
    have := mu_legendre l mu
    have this' : (mu : ℂ) * legendre l mu = (l * legendre (l - 1) mu + (l + 1) * legendre (l + 1) mu) / (2 * l + 1) := by
      exact_mod_cast congrArg (fun r : ℝ => (r : ℂ)) this
    linear_combination (I * Complex.exp (I * x * mu)) * this'
  simp only [e]
  rw [intervalIntegral.integral_add, intervalIntegral.integral_const_mul, intervalIntegral.integral_const_mul]
  · unfold bigJ
    ring
  all_goals
    apply Continuous.intervalIntegrable
    fun_prop

/-- The derivative of a spherical Bessel function. -/
theorem sphBessel_deriv (l : ℕ) (x : ℝ) : HasDerivAt (sphBessel l) (der sphBessel l x) x := by
  have h := (bigJ_der l x).const_mul ((-I) ^ l)
  have h2 := Complex.reCLM.hasFDerivAt.comp_hasDerivAt x h
  have e : ⇑Complex.reCLM ∘ (fun y => (-I) ^ l * bigJ l y) = sphBessel l := by
    funext y
    rw [sphBessel_eq]
    rfl
  rw [e] at h2
  refine h2.congr_deriv ?_
  unfold der
  rw [sphBessel_eq, sphBessel_eq]
  have h0 : (2 * (l : ℝ) + 1) ≠ 0 := by positivity
  have key : (-I) ^ l * (I * (l * bigJ (l - 1) x + (l + 1) * bigJ (l + 1) x) / (2 * l + 1)) =
      (l * ((-I) ^ (l - 1) * bigJ (l - 1) x) - (l + 1) * ((-I) ^ (l + 1) * bigJ (l + 1) x)) / ((2 * l + 1 : ℝ) : ℂ) := by
    push_cast
    cases l with
    | zero => simp
    | succ l =>
      rw [Nat.add_sub_cancel, pow_succ, pow_succ (-I) (l + 1), pow_succ]
      push_cast
      linear_combination (-(-I) ^ l * ((l : ℂ) + 1) * bigJ l x / (2 * (l + 1) + 1)) * I_sq
  show ((-I) ^ l * (I * (l * bigJ (l - 1) x + (l + 1) * bigJ (l + 1) x) / (2 * l + 1))).re = _
  rw [key, Complex.div_ofReal_re]
  congr 1
  simp [Complex.sub_re, Complex.mul_re]

theorem der_le {u : ℕ → ℝ → ℝ} (hu : ∀ l x, |u l x| ≤ 1) (l : ℕ) (x : ℝ) : |der u l x| ≤ 1 := by
  unfold der
  have h0 : (0 : ℝ) < 2 * l + 1 := by positivity
  rw [abs_div, abs_of_pos h0, div_le_one h0]
  refine (abs_sub _ _).trans ?_
  rw [abs_mul, abs_mul, abs_of_nonneg (by positivity : (0 : ℝ) ≤ l), abs_of_nonneg (by positivity : (0 : ℝ) ≤ (l : ℝ) + 1)]
  nlinarith [hu (l - 1) x, hu (l + 1) x, Nat.cast_nonneg (α := ℝ) l]

theorem der_deriv {u u' : ℕ → ℝ → ℝ} (hu : ∀ l x, HasDerivAt (u l) (u' l x) x) (l : ℕ) (x : ℝ) :
    HasDerivAt (der u l) (der u' l x) x := by
  unfold der
  exact (((hu (l - 1) x).const_mul _).sub ((hu (l + 1) x).const_mul _)).div_const _

end Trv.Sbc

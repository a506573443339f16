import Verif.Model.Fftlog
import Verif.Spec.Fftlog
import Mathlib.Analysis.SpecialFunctions.Stirling
import Mathlib.Analysis.SpecialFunctions.Gamma.Beta
import Mathlib.Analysis.SpecialFunctions.Complex.LogDeriv
import Mathlib.Analysis.SpecialFunctions.Complex.LogBounds
import Mathlib.Analysis.SpecialFunctions.Trigonometric.ArctanDeriv
import Mathlib.Analysis.Calculus.MeanValue
import Mathlib.Analysis.Real.Pi.Bounds
/-
The asymptotic series of the logarithm of the gamma function away from the real axis, with a bound
of its error.
-/
namespace Trv.Fft

open Filter Topology

/-- The series to the fifth inverse power, without its constant. -/
noncomputable def series (z : ℂ) : ℂ :=
  (z - 1 / 2) * Complex.log z - z + 1 / 12 * (1 / z) - 1 / 360 * (1 / z ^ 3) + 1 / 1260 * (1 / z ^ 5)

/-- What the series misses of the recursion of the gamma function. -/
noncomputable def miss (z : ℂ) : ℂ := series (z + 1) - series z - Complex.log z

/-- An antiderivative, made of the Bernoulli polynomials. -/
noncomputable def anti (z : ℂ) (t : ℝ) : ℂ :=
  (t ^ 8 - 4 * t ^ 7 + 14 / 3 * t ^ 6 - 7 / 3 * t ^ 4 + 2 / 3 * t ^ 2 : ℂ) / 56 * (z + t)⁻¹ ^ 7 +
  (t ^ 7 - 7 / 2 * t ^ 6 + 7 / 2 * t ^ 5 - 7 / 6 * t ^ 3 + t / 6 : ℂ) / 42 * (z + t)⁻¹ ^ 6 +
  (t ^ 6 - 3 * t ^ 5 + 5 / 2 * t ^ 4 - 1 / 2 * t ^ 2 + 1 / 42 : ℂ) / 30 * (z + t)⁻¹ ^ 5 +
  (t ^ 5 - 5 / 2 * t ^ 4 + 5 / 3 * t ^ 3 - t / 6 : ℂ) / 20 * (z + t)⁻¹ ^ 4 +
  (t ^ 4 - 2 * t ^ 3 + t ^ 2 - 1 / 30 : ℂ) / 12 * (z + t)⁻¹ ^ 3 +
  (t ^ 3 - 3 / 2 * t ^ 2 + 1 / 2 * t : ℂ) / 6 * (z + t)⁻¹ ^ 2 +
  (t ^ 2 - t + 1 / 6 : ℂ) / 2 * (z + t)⁻¹ -
  (t - 1 / 2 : ℂ) * Complex.log (z + t) + (z + t) * Complex.log (z + t) - (z + t)

theorem anti_ends (z : ℂ) : anti z 1 - anti z 0 = miss z := by
  unfold anti miss series
  simp only [Complex.ofReal_one, Complex.ofReal_zero, add_zero, one_div, inv_pow]
  generalize Complex.log (z + 1) = a
  generalize Complex.log z = b
  generalize ((z + 1) ^ 5)⁻¹ = c5
  generalize ((z + 1) ^ 3)⁻¹ = c3
  generalize (z + 1)⁻¹ = c1
  ring

theorem line_ne {z : ℂ} (hz : z.im ≠ 0) (t : ℝ) : z + t ≠ 0 := by
  intro h
  have := congrArg Complex.im h
  simp at this
  exact hz this

theorem line_slit {z : ℂ} (hz : z.im ≠ 0) (t : ℝ) : z + t ∈ Complex.slitPlane := by
  rw [Complex.mem_slitPlane_iff]
  right
  simpa using hz

theorem anti_deriv {z : ℂ} (hz : z.im ≠ 0) (t : ℝ) : HasDerivAt (anti z)
    (-(t ^ 8 - 4 * t ^ 7 + 14 / 3 * t ^ 6 - 7 / 3 * t ^ 4 + 2 / 3 * t ^ 2 : ℂ) / 8 * (z + t)⁻¹ ^ 8) t := by
  have ht : HasDerivAt (fun s : ℝ => (s : ℂ)) 1 t := Complex.ofRealCLM.hasDerivAt
  have hw : HasDerivAt (fun s : ℝ => z + (s : ℂ)) 1 t := ht.const_add z
  have hL : HasDerivAt (fun s : ℝ => Complex.log (z + (s : ℂ))) (1 / (z + t)) t := hw.clog_real (line_slit hz t)
  have hi : HasDerivAt (fun s : ℝ => (z + (s : ℂ))⁻¹) (-1 / (z + t) ^ 2) t := hw.inv (line_ne hz t)
  have hp : ∀ k : ℕ, HasDerivAt (fun s : ℝ => (s : ℂ) ^ k) ((k : ℂ) * (t : ℂ) ^ (k - 1) * 1) t := fun k => ht.pow k
  have hq : ∀ k : ℕ, HasDerivAt (fun s : ℝ => (z + (s : ℂ))⁻¹ ^ k) ((k : ℂ) * (z + (t : ℂ))⁻¹ ^ (k - 1) * (-1 / (z + t) ^ 2)) t :=
    fun k => hi.pow k
  have h7 := ((((((hp 8).sub ((hp 7).const_mul 4)).add ((hp 6).const_mul (14 / 3))).sub ((hp 4).const_mul (7 / 3))).add
    ((hp 2).const_mul (2 / 3))).div_const 56).mul (hq 7)
  have h6 := ((((((hp 7).sub ((hp 6).const_mul (7 / 2))).add ((hp 5).const_mul (7 / 2))).sub ((hp 3).const_mul (7 / 6))).add
    (ht.div_const 6)).div_const 42).mul (hq 6)
  have h5 := ((((((hp 6).sub ((hp 5).const_mul 3)).add ((hp 4).const_mul (5 / 2))).sub ((hp 2).const_mul (1 / 2))).add_const
    (1 / 42)).div_const 30).mul (hq 5)
  have h4 := (((((hp 5).sub ((hp 4).const_mul (5 / 2))).add ((hp 3).const_mul (5 / 3))).sub (ht.div_const 6)).div_const 20).mul
    (hq 4)
  have h3 := (((((hp 4).sub ((hp 3).const_mul 2)).add (hp 2)).sub_const (1 / 30)).div_const 12).mul (hq 3)
  have h2 := ((((hp 3).sub ((hp 2).const_mul (3 / 2))).add (ht.const_mul (1 / 2))).div_const 6).mul (hq 2)
  have h1 := ((((hp 2).sub ht).add_const (1 / 6)).div_const 2).mul hi
  have h := (((((((((h7.add h6).add h5).add h4).add h3).add h2).add h1).sub ((ht.sub_const (1 / 2)).mul hL)).add
    (hw.mul hL)).sub hw)
  refine HasDerivAt.congr_deriv (f := anti z) h ?_
  have hne := line_ne hz t
  clear h h1 h2 h3 h4 h5 h6 h7 hp hq hi hL hw ht
  simp only [Pi.add_apply, Pi.sub_apply]
  generalize hg : z + (t : ℂ) = w at *
  generalize Complex.log w = l at *
  generalize (t : ℂ) = s at *
  have e : -1 / w ^ 2 = -w⁻¹ ^ 2 := by field_simp
  have e' : (1 : ℂ) / w = w⁻¹ := one_div w
  have e2 : w * w⁻¹ = 1 := mul_inv_cancel₀ hne
  rw [e, e']
  generalize w⁻¹ = v at *
  push_cast
  norm_num
  linear_combination e2

theorem poly_bound {t : ℝ} (h0 : 0 ≤ t) (h1 : t ≤ 1) :
    ‖(-(t ^ 8 - 4 * t ^ 7 + 14 / 3 * t ^ 6 - 7 / 3 * t ^ 4 + 2 / 3 * t ^ 2 : ℂ) / 8)‖ ≤ 1 / 120 := by
  have hu0 : 0 ≤ t * (1 - t) := mul_nonneg h0 (by linarith)
  have hu1 : t * (1 - t) ≤ 1 / 4 := by nlinarith [sq_nonneg (t - 1 / 2)]
  have e : (-(t ^ 8 - 4 * t ^ 7 + 14 / 3 * t ^ 6 - 7 / 3 * t ^ 4 + 2 / 3 * t ^ 2 : ℂ) / 8) =
      ((-(2 / 3 * (t * (1 - t)) ^ 2 + 4 / 3 * (t * (1 - t)) ^ 3 + (t * (1 - t)) ^ 4) / 8 : ℝ) : ℂ) := by
    push_cast
    ring
  rw [e, Complex.norm_real]
  generalize t * (1 - t) = u at *
  have b2 : u ^ 2 ≤ (1 / 4) ^ 2 := pow_le_pow_left₀ hu0 hu1 2
  have b3 : u ^ 3 ≤ (1 / 4) ^ 3 := pow_le_pow_left₀ hu0 hu1 3
  have b4 : u ^ 4 ≤ (1 / 4) ^ 4 := pow_le_pow_left₀ hu0 hu1 4
  have c2 : 0 ≤ u ^ 2 := by positivity
  have c3 : 0 ≤ u ^ 3 := by positivity
  have c4 : 0 ≤ u ^ 4 := by positivity
  rw [Real.norm_eq_abs, abs_le]
  constructor <;> norm_num at * <;> linarith

/-- The bound of what is missed, as a function of the position along a line. -/
noncomputable def fence (z : ℂ) (t : ℝ) : ℝ := Real.arctan ((z.re + t) / |z.im|) / (120 * |z.im| ^ 7)

theorem fence_deriv {z : ℂ} (hz : z.im ≠ 0) (t : ℝ) :
    HasDerivAt (fence z) (1 / 120 / (|z.im| ^ 6 * ((z.re + t) ^ 2 + z.im ^ 2))) t := by
  have hy : 0 < |z.im| := abs_pos.2 hz
  have hw : HasDerivAt (fun s : ℝ => (z.re + s) / |z.im|) (1 / |z.im|) t := ((hasDerivAt_id t).const_add z.re).div_const _
  refine HasDerivAt.congr_deriv (f := fence z) (hw.arctan.div_const (120 * |z.im| ^ 7)) ?_
  rw [← sq_abs z.im]
  generalize |z.im| = y at *
  have : 0 < (z.re + t) ^ 2 + y ^ 2 := by positivity
  have h2 : 1 + ((z.re + t) / y) ^ 2 = ((z.re + t) ^ 2 + y ^ 2) / y ^ 2 := by field_simp; ring
  rw [h2]
  field_simp

theorem norm_line (z : ℂ) (t : ℝ) : ‖z + t‖ ^ 2 = (z.re + t) ^ 2 + z.im ^ 2 := by
  rw [← Complex.normSq_eq_norm_sq, Complex.normSq_apply]
  simp
  ring

theorem miss_bound {z : ℂ} (hz : z.im ≠ 0) : ‖miss z‖ ≤ fence z 1 - fence z 0 := by
  have key := image_norm_le_of_norm_deriv_right_le_deriv_boundary (f := fun t => anti z t - anti z 0) (a := 0) (b := 1)
    (B := fun t => fence z t - fence z 0) (fun t _ => ((anti_deriv hz t).sub_const _).continuousAt.continuousWithinAt)
    (fun t _ => ((anti_deriv hz t).sub_const _).hasDerivWithinAt) (by simp)
    (fun t => (fence_deriv hz t).sub_const _) ?_ (Set.right_mem_Icc.2 zero_le_one)
  · simp only [anti_ends] at key
    exact key
  · intro t ht
    rw [norm_mul, norm_pow, norm_inv]
    have hy : 0 < |z.im| := abs_pos.2 hz
    have hn := norm_line z t
    have hge : |z.im| ≤ ‖z + t‖ := by
      have := Complex.abs_im_le_norm (z + t)
      simpa using this
    have h8 : |z.im| ^ 6 * ((z.re + t) ^ 2 + z.im ^ 2) ≤ ‖z + t‖ ^ 8 := by
      rw [← hn, show (8 : ℕ) = 6 + 2 by norm_num, pow_add]
      exact mul_le_mul_of_nonneg_right (pow_le_pow_left₀ hy.le hge 6) (by positivity)
    have hpos : 0 < |z.im| ^ 6 * ((z.re + t) ^ 2 + z.im ^ 2) := by
      have : 0 < z.im ^ 2 := by positivity
      positivity
    rw [inv_pow, ← div_eq_mul_inv]
    exact div_le_div₀ (by norm_num) (poly_bound ht.1 ht.2.le) hpos h8

theorem fence_shift (z : ℂ) (k : ℕ) (t : ℝ) : fence (z + k) t = fence z (k + t) := by
  unfold fence
  simp [add_assoc]

/-- The sum of what is missed from a number on. -/
theorem miss_sum {z : ℂ} (hz : z.im ≠ 0) (n : ℕ) :
    ∑ k ∈ Finset.range n, ‖miss (z + k)‖ ≤ fence z n - fence z 0 := by
  induction n with
  | zero => simp
  | succ n ih =>
    rw [Finset.sum_range_succ]
    have := miss_bound (z := z + n) (by simpa using hz)
    rw [fence_shift, fence_shift, add_zero] at this
    push_cast
    linarith

theorem fence_le {z : ℂ} (s t : ℝ) : fence z s - fence z t ≤ Real.pi / (120 * |z.im| ^ 7) := by
  unfold fence
  rw [← sub_div]
  apply div_le_div_of_nonneg_right _ (by positivity)
  have h1 := Real.arctan_lt_pi_div_two ((z.re + s) / |z.im|)
  have h2 := Real.neg_pi_div_two_lt_arctan ((z.re + t) / |z.im|)
  linarith

/-- The error of the series. -/
noncomputable def rest (z : ℂ) : ℂ := ∑' k : ℕ, miss (z + k)

theorem miss_summable {z : ℂ} (hz : z.im ≠ 0) : Summable fun k : ℕ => ‖miss (z + k)‖ :=
  summable_of_sum_range_le (fun _ => norm_nonneg _) (fun n => (miss_sum hz n).trans (fence_le _ _))

theorem rest_bound {z : ℂ} (hz : z.im ≠ 0) : ‖rest z‖ ≤ Real.pi / (120 * |z.im| ^ 7) :=
  (norm_tsum_le_tsum_norm (miss_summable hz)).trans
    (Real.tsum_le_of_sum_range_le (fun _ => norm_nonneg _) (fun n => (miss_sum hz n).trans (fence_le _ _)))

/-- The product of the recursion, by the series. -/
theorem prod_series {z : ℂ} (hz : z.im ≠ 0) (n : ℕ) : ∏ k ∈ Finset.range n, (z + k) =
    Complex.exp (series (z + n) - series z - ∑ k ∈ Finset.range n, miss (z + k)) := by
  induction n with
  | zero => simp
  | succ n ih =>
    rw [Finset.prod_range_succ, ih, Finset.sum_range_succ]
    have hne : z + (n : ℂ) ≠ 0 := by simpa using line_ne hz n
    have hx := Complex.exp_log hne
    generalize hl : Complex.log (z + n) = l at *
    rw [show ∀ a : ℂ, a * (z + n) = a * Complex.exp l from fun a => by rw [hx], ← Complex.exp_add]
    congr 1
    have : miss (z + n) = series (z + n + 1) - series (z + n) - Complex.log (z + n) := rfl
    rw [this, hl]
    push_cast
    rw [← add_assoc]
    ring

theorem inv_limit (z : ℂ) : Tendsto (fun n : ℕ => 1 / (z + ((n : ℂ) + 1))) atTop (𝓝 0) := by
  have h : Tendsto (fun n : ℕ => ‖z + ((n : ℂ) + 1)‖) atTop atTop := by
    apply tendsto_atTop_mono (f := fun n : ℕ => (n : ℝ) + (1 - ‖z‖))
    · intro n
      have h1 := norm_sub_norm_le ((n : ℂ) + 1) (-z)
      have h2 : ‖(n : ℂ) + 1‖ = n + 1 := by
        have : ((n : ℂ) + 1) = ((n + 1 : ℝ) : ℂ) := by push_cast; rfl
        rw [this, Complex.norm_real, Real.norm_of_nonneg (by positivity)]
      rw [norm_neg, h2, sub_neg_eq_add, add_comm _ z] at h1
      linarith
    · exact tendsto_atTop_add_const_right _ _ tendsto_natCast_atTop_atTop
  rw [tendsto_zero_iff_norm_tendsto_zero]
  simp only [one_div, norm_inv]
  exact tendsto_inv_atTop_zero.comp h

theorem log_limit (z : ℂ) : Tendsto (fun n : ℕ => (z + n + 1 / 2) * Complex.log (1 + (z + 1) / n)) atTop (𝓝 (z + 1)) := by
  have hg : Tendsto (fun n : ℕ => (n : ℂ) * ((z + 1) / n)) atTop (𝓝 (z + 1)) := by
    apply tendsto_nhds_of_eventually_eq
    filter_upwards [eventually_ne_atTop 0] with n hn
    have : (n : ℂ) ≠ 0 := Nat.cast_ne_zero.2 hn
    field_simp
  have h1 := Complex.tendsto_nat_mul_log_one_add_of_tendsto hg
  have h0 : Tendsto (fun n : ℕ => (z + 1) / (n : ℂ)) atTop (𝓝 0) := tendsto_const_div_atTop_nhds_zero_nat (z + 1)
  have hl : Tendsto (fun n : ℕ => Complex.log (1 + (z + 1) / n)) atTop (𝓝 0) := by
    have hc : ContinuousAt Complex.log (1 + 0) := by
      apply continuousAt_clog
      simp
    have := hc.tendsto.comp (h0.const_add 1)
    rw [add_zero, Complex.log_one] at this
    exact this
  have h2 := (hl.const_mul (z + 1 / 2)).add h1
  rw [mul_zero, zero_add] at h2
  refine h2.congr fun n => ?_
  ring

theorem series_limit (z : ℂ) (hz : z.im ≠ 0) :
    Tendsto (fun n : ℕ => (z + n + 1 / 2) * (Real.log n : ℂ) - n - series (z + ((n : ℂ) + 1))) atTop (𝓝 0) := by
  have hi := inv_limit z
  have hl := log_limit z
  have h := ((((hl.const_sub (z + 1)).sub (hi.const_mul (1 / 12))).add ((hi.pow 3).const_mul (1 / 360))).sub
    ((hi.pow 5).const_mul (1 / 1260)))
  rw [sub_self] at h
  norm_num at h
  refine h.congr' ?_
  filter_upwards [eventually_ne_atTop 0] with n hn
  have hpos : (0 : ℝ) < n := Nat.cast_pos.2 (Nat.pos_of_ne_zero hn)
  have hnc : (n : ℂ) ≠ 0 := Nat.cast_ne_zero.2 hn
  have e : z + ((n : ℂ) + 1) = ((n : ℝ) : ℂ) * (1 + (z + 1) / n) := by
    push_cast
    field_simp
    ring
  have hne : z + ((n : ℂ) + 1) ≠ 0 := by
    have := line_ne hz (n + 1)
    push_cast at this
    exact this
  have hne' : (1 + (z + 1) / n) ≠ 0 := by
    intro h0
    rw [e, h0, mul_zero] at hne
    exact hne rfl
  have hlog : Complex.log (z + ((n : ℂ) + 1)) = (Real.log n : ℂ) + Complex.log (1 + (z + 1) / n) := by
    rw [e, Complex.log_ofReal_mul hpos hne']
  unfold series
  rw [hlog]
  simp only [one_div]
  generalize (z + ((n : ℂ) + 1))⁻¹ = a
  generalize Complex.log (1 + (z + 1) / n) = b
  ring

theorem head_limit (z : ℂ) (hz : z.im ≠ 0) :
    Tendsto (fun n : ℕ => (n : ℂ) ^ z * (n.factorial : ℂ) * Complex.exp (-series (z + ((n : ℂ) + 1)))) atTop
      (𝓝 (Real.sqrt (2 * Real.pi) : ℂ)) := by
  have h1 : Tendsto (fun n : ℕ => ((Stirling.stirlingSeq n : ℝ) : ℂ)) atTop (𝓝 (Real.sqrt Real.pi : ℂ)) :=
    (Complex.continuous_ofReal.tendsto _).comp Stirling.tendsto_stirlingSeq_sqrt_pi
  have h2 := (Complex.continuous_exp.tendsto _).comp (series_limit z hz)
  have h := (h1.mul_const (Real.sqrt 2 : ℂ)).mul h2
  rw [Complex.exp_zero, mul_one, ← Complex.ofReal_mul, mul_comm, ← Real.sqrt_mul (by norm_num)] at h
  refine h.congr' ?_
  filter_upwards [eventually_ne_atTop 0] with n hn
  have hpos : (0 : ℝ) < n := Nat.cast_pos.2 (Nat.pos_of_ne_zero hn)
  have hnc : (n : ℂ) ≠ 0 := Nat.cast_ne_zero.2 hn
  have hs : ((n.factorial : ℝ)) = Stirling.stirlingSeq n * Real.sqrt 2 * Real.exp (Real.log n / 2 + n * Real.log n - n) := by
    unfold Stirling.stirlingSeq
    have a1 : Real.sqrt (2 * n) = Real.sqrt 2 * Real.exp (Real.log n / 2) := by
      rw [Real.sqrt_mul (by norm_num), Real.exp_half, Real.exp_log hpos]
    have a2 : ((n : ℝ) / Real.exp 1) ^ n = Real.exp (n * Real.log n - n) := by
      have : (n : ℝ) / Real.exp 1 = Real.exp (Real.log n - 1) := by
        rw [Real.exp_sub, Real.exp_log hpos]
      rw [this, ← Real.exp_nat_mul]
      congr 1
      ring
    rw [a1, a2, add_sub_assoc, Real.exp_add]
    have e1 := Real.exp_pos (Real.log n / 2)
    have e2 := Real.exp_pos (n * Real.log n - n)
    have e3 : 0 < Real.sqrt 2 := by positivity
    field_simp
  have hf : ((n.factorial : ℂ)) = (Stirling.stirlingSeq n : ℂ) * (Real.sqrt 2 : ℂ) *
      Complex.exp ((Real.log n : ℂ) / 2 + n * (Real.log n : ℂ) - n) := by
    have := congrArg (fun x : ℝ => (x : ℂ)) hs
    push_cast at this
    push_cast
    exact this
  have hp : (n : ℂ) ^ z = Complex.exp ((Real.log n : ℂ) * z) := by
    rw [Complex.cpow_def_of_ne_zero hnc, Complex.ofReal_log hpos.le]
    push_cast
    rfl
  rw [hf, hp]
  simp only [Function.comp_apply]
  have hx : Complex.exp ((z + n + 1 / 2) * (Real.log n : ℂ) - n - series (z + ((n : ℂ) + 1))) =
      Complex.exp ((Real.log n : ℂ) * z) * Complex.exp ((Real.log n : ℂ) / 2 + n * (Real.log n : ℂ) - n) *
        Complex.exp (-series (z + ((n : ℂ) + 1))) := by
    rw [← Complex.exp_add, ← Complex.exp_add]
    congr 1
    ring
  rw [hx]
  ring

/-- **The gamma function by the asymptotic series**, with its error. -/
theorem gamma_series {z : ℂ} (hz : z.im ≠ 0) :
    Complex.Gamma z = Real.sqrt (2 * Real.pi) * Complex.exp (series z + rest z) := by
  have h1 := head_limit z hz
  have h2 : Tendsto (fun n : ℕ => ∑ k ∈ Finset.range (n + 1), miss (z + k)) atTop (𝓝 (rest z)) :=
    ((miss_summable hz).of_norm.hasSum.tendsto_sum_nat).comp (tendsto_add_atTop_nat 1)
  have h3 := h1.mul ((Complex.continuous_exp.tendsto _).comp (h2.const_add (series z)))
  refine tendsto_nhds_unique (Complex.GammaSeq_tendsto_Gamma z) (h3.congr fun n => ?_)
  unfold Complex.GammaSeq
  rw [prod_series hz, div_eq_mul_inv, ← Complex.exp_neg]
  simp only [Function.comp_apply]
  rw [mul_assoc _ (Complex.exp _) (Complex.exp _), ← Complex.exp_add]
  congr 2
  push_cast
  ring

/-! ### The ratio -/

theorem lnratio_series (G : LnGamma) (mu : ℝ) {nu : ℂ} (h : ¬ nu.im < 100) :
    lnratio G mu nu = series ((mu + 1 + nu) / 2) - series ((mu + 1 - nu) / 2) := by
  unfold lnratio
  rw [if_neg h]
  unfold series
  ring

theorem half_im (mu : ℝ) (nu : ℂ) : ((mu + 1 + nu) / 2 : ℂ).im = nu.im / 2 ∧ ((mu + 1 - nu) / 2 : ℂ).im = -(nu.im / 2) := by
  have e1 : ((mu + 1 + nu) / 2 : ℂ) = (((1 : ℝ) / 2 : ℝ) : ℂ) * (mu + 1 + nu) := by push_cast; ring
  have e2 : ((mu + 1 - nu) / 2 : ℂ) = (((1 : ℝ) / 2 : ℝ) : ℂ) * (mu + 1 - nu) := by push_cast; ring
  rw [e1, e2, Complex.im_ofReal_mul, Complex.im_ofReal_mul]
  constructor
  · simp; ring
  · simp; ring

theorem half_re (mu : ℝ) (nu : ℂ) : ((mu + 1 + nu) / 2 : ℂ).re = (mu + 1 + nu.re) / 2 ∧
    ((mu + 1 - nu) / 2 : ℂ).re = (mu + 1 - nu.re) / 2 := by
  have e1 : ((mu + 1 + nu) / 2 : ℂ) = (((1 : ℝ) / 2 : ℝ) : ℂ) * (mu + 1 + nu) := by push_cast; ring
  have e2 : ((mu + 1 - nu) / 2 : ℂ) = (((1 : ℝ) / 2 : ℝ) : ℂ) * (mu + 1 - nu) := by push_cast; ring
  rw [e1, e2, Complex.re_ofReal_mul, Complex.re_ofReal_mul]
  constructor
  · simp; ring
  · simp; ring

/-- Where the series is used. -/
theorem ratio_far (G : LnGamma) (mu : ℝ) {nu : ℂ} (h : 100 ≤ nu.im) :
    ∃ d : ℂ, ‖d‖ ≤ 7 / nu.im ^ 7 ∧
      Complex.exp (lnratio G mu nu) * Complex.exp d =
        Complex.Gamma ((mu + 1 + nu) / 2) / Complex.Gamma ((mu + 1 - nu) / 2) := by
  obtain ⟨i1, i2⟩ := half_im mu nu
  have hp : ((mu + 1 + nu) / 2 : ℂ).im ≠ 0 := by rw [i1]; linarith
  have hm : ((mu + 1 - nu) / 2 : ℂ).im ≠ 0 := by rw [i2]; linarith
  refine ⟨rest ((mu + 1 + nu) / 2) - rest ((mu + 1 - nu) / 2), ?_, ?_⟩
  · have b1 := rest_bound hp
    have b2 := rest_bound hm
    rw [i1, abs_of_pos (by linarith)] at b1
    rw [i2, abs_neg, abs_of_pos (by linarith)] at b2
    refine (norm_sub_le _ _).trans ((add_le_add b1 b2).trans ?_)
    have hpi := Real.pi_lt_d2
    have hy : 0 < nu.im := by linarith
    rw [div_pow, ← add_div, div_le_div_iff₀ (by positivity) (by positivity)]
    have h7 : 0 < nu.im ^ 7 := by positivity
    generalize nu.im ^ 7 = Y at *
    nlinarith
  · rw [gamma_series hp, gamma_series hm, lnratio_series G mu (not_lt.2 h)]
    have hs : ((Real.sqrt (2 * Real.pi) : ℝ) : ℂ) ≠ 0 := by
      have : 0 < Real.sqrt (2 * Real.pi) := Real.sqrt_pos.2 (by have := Real.pi_pos; positivity)
      exact_mod_cast this.ne'
    rw [mul_div_mul_left _ _ hs, ← Complex.exp_sub, ← Complex.exp_add]
    congr 1
    ring

/-- Where the log-gamma function is used. -/
theorem ratio_near {G : LnGamma} (hG : LgOk G) (mu : ℝ) {nu : ℂ} (h : nu.im < 100)
    (hp : ∀ n : ℕ, (mu + 1 + nu) / 2 ≠ -(n : ℂ)) (hm : ∀ n : ℕ, (mu + 1 - nu) / 2 ≠ -(n : ℂ)) :
    Complex.exp (lnratio G mu nu) = Complex.Gamma ((mu + 1 + nu) / 2) / Complex.Gamma ((mu + 1 - nu) / 2) := by
  unfold lnratio
  rw [if_pos h]
  generalize ((mu + 1 + nu) / 2 : ℂ) = a at *
  generalize ((mu + 1 - nu) / 2 : ℂ) = b at *
  have ha := hG a.re a.im (by intro n; rw [Complex.re_add_im]; exact hp n)
  have hb := hG b.re b.im (by intro n; rw [Complex.re_add_im]; exact hm n)
  rw [Complex.re_add_im] at ha hb
  rw [← ha, ← hb, Complex.ofReal_exp, Complex.ofReal_exp, ← Complex.exp_add, ← Complex.exp_add, ← Complex.exp_sub]
  congr 1
  apply Complex.ext <;> simp

end Trv.Fft

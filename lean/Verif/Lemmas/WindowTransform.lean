import Verif.Lemmas.Window
/-
Helper lemmas: the averaged transform of the assignment weights.
-/
namespace Trv.Win
open Trv.Mesh

/-- Cubic polynomial times an exponential. -/
theorem polyExpIntegral (x y : ℝ) (z a0 a1 a2 a3 : ℂ) (hz : z ≠ 0) :
    ∫ t in x..y, (a0 + a1 * (t : ℂ) + a2 * (t : ℂ) ^ 2 + a3 * (t : ℂ) ^ 3) * Complex.exp (z * t) =
    ((a0 + a1 * y + a2 * y ^ 2 + a3 * y ^ 3) / z - (a1 + 2 * a2 * y + 3 * a3 * y ^ 2) / z ^ 2 +
      (2 * a2 + 6 * a3 * y) / z ^ 3 - 6 * a3 / z ^ 4) * Complex.exp (z * y) -
    ((a0 + a1 * x + a2 * x ^ 2 + a3 * x ^ 3) / z - (a1 + 2 * a2 * x + 3 * a3 * x ^ 2) / z ^ 2 +
      (2 * a2 + 6 * a3 * x) / z ^ 3 - 6 * a3 / z ^ 4) * Complex.exp (z * x) := by
  have hc : Continuous fun t : ℝ =>
      (a0 + a1 * (t : ℂ) + a2 * (t : ℂ) ^ 2 + a3 * (t : ℂ) ^ 3) * Complex.exp (z * t) := by fun_prop
  rw [intervalIntegral.integral_eq_sub_of_hasDerivAt (f := fun t : ℝ =>
    ((a0 + a1 * t + a2 * t ^ 2 + a3 * t ^ 3) / z - (a1 + 2 * a2 * t + 3 * a3 * t ^ 2) / z ^ 2 +
      (2 * a2 + 6 * a3 * t) / z ^ 3 - 6 * a3 / z ^ 4) * Complex.exp (z * t)) ?_
    (hc.intervalIntegrable _ _)]
  intro t _
  have h1 : HasDerivAt (fun t : ℂ => Complex.exp (z * t)) (Complex.exp (z * t) * z) (t : ℂ) := by
    have := ((hasDerivAt_id (t : ℂ)).const_mul z).cexp
    simpa using this
  have h2 : HasDerivAt (fun t : ℂ => (a0 + a1 * t + a2 * t ^ 2 + a3 * t ^ 3) / z -
      (a1 + 2 * a2 * t + 3 * a3 * t ^ 2) / z ^ 2 + (2 * a2 + 6 * a3 * t) / z ^ 3 - 6 * a3 / z ^ 4)
      ((a1 + 2 * a2 * t + 3 * a3 * t ^ 2) / z - (2 * a2 + 6 * a3 * t) / z ^ 2 + 6 * a3 / z ^ 3) (t : ℂ) := by
    have p1 := hasDerivAt_id (t : ℂ)
    have p2 := hasDerivAt_pow 2 (t : ℂ)
    have p3 := hasDerivAt_pow 3 (t : ℂ)
    have q := ((((((p1.const_mul a1).const_add a0).add (p2.const_mul a2)).add (p3.const_mul a3)).div_const z).sub
      ((((p1.const_mul (2 * a2)).const_add a1).add (p2.const_mul (3 * a3))).div_const (z ^ 2))).add
      (((p1.const_mul (6 * a3)).const_add (2 * a2)).div_const (z ^ 3))
    have q2 := q.sub_const (6 * a3 / z ^ 4)
    refine q2.congr_deriv ?_
    push_cast
    norm_num
    ring
  have h3 := (h2.mul h1).comp_ofReal
  refine h3.congr_deriv ?_
  field_simp
  ring

/-- The position phase at `l + s`. -/
theorem phase_pos (n k l : ℤ) (s : ℝ) (a : ℤ) :
    phase n k (l + a) * Complex.exp (((2 * Real.pi * k / n * ((l : ℝ) + s) : ℝ) : ℂ) * Complex.I) =
    Complex.exp ((ang n k : ℂ) * Complex.I * s) * Complex.exp (-((ang n k : ℂ) * Complex.I)) ^ a := by
  unfold phase ang
  rw [← Complex.exp_int_mul, ← Complex.exp_add, ← Complex.exp_add]
  congr 1
  push_cast
  ring

/-- The window of an axis in terms of the exponential of half the angle. -/
theorem sinc_exp (n k : ℤ) (hn : n ≠ 0) (hk : k ≠ 0) :
    (sincAxis n k : ℂ) = (Complex.exp ((ang n k : ℂ) * Complex.I / 2) -
      (Complex.exp ((ang n k : ℂ) * Complex.I / 2))⁻¹) / ((ang n k : ℂ) * Complex.I) := by
  have hn' : (n : ℝ) ≠ 0 := by exact_mod_cast hn
  have hk' : (k : ℝ) ≠ 0 := by exact_mod_cast hk
  have hpi := Real.pi_ne_zero
  have hu : Real.pi * k / n ≠ 0 := by positivity
  have ha : (ang n k : ℂ) = 2 * ((Real.pi * k / n : ℝ) : ℂ) := by
    unfold ang; push_cast; ring
  unfold sincAxis
  simp only
  rw [if_pos hk, ha]
  generalize Real.pi * k / n = u at hu
  rw [← Complex.exp_neg, show 2 * (u : ℂ) * Complex.I / 2 = (u : ℂ) * Complex.I by ring,
    show -((u : ℂ) * Complex.I) = (-(u : ℂ)) * Complex.I by ring, Complex.exp_mul_I, Complex.exp_mul_I,
    Complex.cos_neg, Complex.sin_neg]
  have hu' : (u : ℂ) ≠ 0 := by exact_mod_cast hu
  push_cast
  field_simp
  ring

theorem meanWeight_of (sch : Scheme) (n k l : ℤ) (p q : ℝ → ℂ)
    (hp : Continuous p) (hq : Continuous q)
    (ep : ∀ s ∈ Set.Ioo (0 : ℝ) (1 / 2), weightTransform sch n k ((l : ℝ) + s) *
      Complex.exp (((2 * Real.pi * k / n * ((l : ℝ) + s) : ℝ) : ℂ) * Complex.I) = p s)
    (eq : ∀ s ∈ Set.Ioo (1 / 2 : ℝ) 1, weightTransform sch n k ((l : ℝ) + s) *
      Complex.exp (((2 * Real.pi * k / n * ((l : ℝ) + s) : ℝ) : ℂ) * Complex.I) = q s) :
    meanWeight sch n k l = (∫ s in (0 : ℝ)..(1 / 2), p s) + ∫ s in (1 / 2 : ℝ)..1, q s := by
  unfold meanWeight
  have ip : IntervalIntegrable (fun s : ℝ => weightTransform sch n k ((l : ℝ) + s) *
      Complex.exp (((2 * Real.pi * k / n * ((l : ℝ) + s) : ℝ) : ℂ) * Complex.I))
      MeasureTheory.volume 0 (1 / 2) := by
    refine (hp.intervalIntegrable 0 (1 / 2)).congr_uIoo ?_
    rw [Set.uIoo_of_le (by norm_num)]
    exact fun s hs => (ep s hs).symm
  have iq : IntervalIntegrable (fun s : ℝ => weightTransform sch n k ((l : ℝ) + s) *
      Complex.exp (((2 * Real.pi * k / n * ((l : ℝ) + s) : ℝ) : ℂ) * Complex.I))
      MeasureTheory.volume (1 / 2) 1 := by
    refine (hq.intervalIntegrable (1 / 2) 1).congr_uIoo ?_
    rw [Set.uIoo_of_le (by norm_num)]
    exact fun s hs => (eq s hs).symm
  rw [← intervalIntegral.integral_add_adjacent_intervals ip iq,
    intervalIntegral.integral_congr_Ioo_of_le (by norm_num) ep,
    intervalIntegral.integral_congr_Ioo_of_le (by norm_num) eq]

section
variable (n k l : ℤ) (hl : 0 ≤ l) (hn : l < n) (hk : k ≠ 0)
include hl hn hk

theorem ang_ne : (ang n k : ℂ) * Complex.I ≠ 0 := by
  have hn' : (n : ℝ) ≠ 0 := by exact_mod_cast (by omega : n ≠ 0)
  have hk' : (k : ℝ) ≠ 0 := by exact_mod_cast hk
  have : ang n k ≠ 0 := by unfold ang; have := Real.pi_ne_zero; positivity
  exact mul_ne_zero (by exact_mod_cast this) Complex.I_ne_zero

theorem meanWeight_ngp : meanWeight .ngp n k l = (sincAxis n k : ℂ) ^ 1 := by
  have hz := ang_ne n k l hl hn hk
  have hs := sinc_exp n k (by omega) hk
  set z := (ang n k : ℂ) * Complex.I with hzdef
  rw [meanWeight_of .ngp n k l
    (fun s => (1 + 0 * (s : ℂ) + 0 * (s : ℂ) ^ 2 + 0 * (s : ℂ) ^ 3) * Complex.exp (z * s))
    (fun s => (Complex.exp (-z) + 0 * (s : ℂ) + 0 * (s : ℂ) ^ 2 + 0 * (s : ℂ) ^ 3) * Complex.exp (z * s))
    (by fun_prop) (by fun_prop)]
  · rw [polyExpIntegral _ _ _ _ _ _ _ hz, polyExpIntegral _ _ _ _ _ _ _ hz, hs]
    have e1 : Complex.exp (z * ((1 / 2 : ℝ) : ℂ)) = Complex.exp (z / 2) := by
      congr 1; push_cast; ring
    have e2 : Complex.exp (z * ((1 : ℝ) : ℂ)) = Complex.exp (z / 2) ^ 2 := by
      rw [← Complex.exp_nat_mul]; congr 1; push_cast; ring
    have e3 : Complex.exp (-z) = (Complex.exp (z / 2) ^ 2)⁻¹ := by
      rw [← Complex.exp_nat_mul, ← Complex.exp_neg]; congr 1; push_cast; ring
    have e4 : Complex.exp (z * ((0 : ℝ) : ℂ)) = 1 := by simp
    rw [e1, e2, e3, e4]
    have hE := Complex.exp_ne_zero (z / 2)
    generalize Complex.exp (z / 2) = E at hE
    push_cast
    field_simp
    ring
  · intro s hs
    have hs1 : s < 1 := lt_trans hs.2 (by norm_num)
    have hns : ¬ s ≥ 1 / 2 := not_le.2 hs.2
    have h := phase_pos n k l s 0
    rw [add_zero, zpow_zero, mul_one] at h
    simp only [weightTransform, axisStencil, ngpAxis, trunc_cell hl hs.1 hs1, add_sub_cancel_left, hns,
      if_false, List.map_cons, List.map_nil, List.sum_cons, List.sum_nil, Complex.ofReal_one, one_mul,
      add_zero]
    rw [h]
    ring
  · intro s hs
    have hs0 : 0 < s := lt_trans (by norm_num) hs.1
    have hns : s ≥ 1 / 2 := hs.1.le
    have h := phase_pos n k l s 1
    rw [zpow_one] at h
    simp only [weightTransform, axisStencil, ngpAxis, trunc_cell hl hs0 hs.2, add_sub_cancel_left, hns,
      if_true, List.map_cons, List.map_nil, List.sum_cons, List.sum_nil, Complex.ofReal_one, one_mul,
      add_zero, phase_up k hl hn]
    rw [h]
    ring


theorem half_exp (z : ℂ) : Complex.exp (z * ((1 / 2 : ℝ) : ℂ)) = Complex.exp (z / 2) ∧
    Complex.exp (z * ((1 : ℝ) : ℂ)) = Complex.exp (z / 2) ^ 2 ∧
    Complex.exp (-z) = (Complex.exp (z / 2) ^ 2)⁻¹ ∧ Complex.exp (z * ((0 : ℝ) : ℂ)) = 1 := by
  refine ⟨?_, ?_, ?_, by simp⟩
  · congr 1; push_cast; ring
  · rw [← Complex.exp_nat_mul]; congr 1; push_cast; ring
  · rw [← Complex.exp_nat_mul, ← Complex.exp_neg]; congr 1; push_cast; ring

theorem meanWeight_whole (sch : Scheme) (a0 a1 a2 a3 : ℂ)
    (ep : ∀ s ∈ Set.Ioo (0 : ℝ) 1, weightTransform sch n k ((l : ℝ) + s) *
      Complex.exp (((2 * Real.pi * k / n * ((l : ℝ) + s) : ℝ) : ℂ) * Complex.I) =
      (a0 + a1 * (s : ℂ) + a2 * (s : ℂ) ^ 2 + a3 * (s : ℂ) ^ 3) *
        Complex.exp ((ang n k : ℂ) * Complex.I * s)) :
    meanWeight sch n k l =
      ((a0 + a1 + a2 + a3) / ((ang n k : ℂ) * Complex.I) -
        (a1 + 2 * a2 + 3 * a3) / ((ang n k : ℂ) * Complex.I) ^ 2 +
        (2 * a2 + 6 * a3) / ((ang n k : ℂ) * Complex.I) ^ 3 -
        6 * a3 / ((ang n k : ℂ) * Complex.I) ^ 4) * Complex.exp ((ang n k : ℂ) * Complex.I / 2) ^ 2 -
      (a0 / ((ang n k : ℂ) * Complex.I) - a1 / ((ang n k : ℂ) * Complex.I) ^ 2 +
        2 * a2 / ((ang n k : ℂ) * Complex.I) ^ 3 - 6 * a3 / ((ang n k : ℂ) * Complex.I) ^ 4) := by
  have hz := ang_ne n k l hl hn hk
  set z := (ang n k : ℂ) * Complex.I with hzdef
  unfold meanWeight
  obtain ⟨-, e2, -, e4⟩ := half_exp n k l hl hn hk z
  rw [intervalIntegral.integral_congr_Ioo_of_le zero_le_one ep, polyExpIntegral _ _ _ _ _ _ _ hz, e2, e4]
  push_cast
  ring

theorem meanWeight_cic : meanWeight .cic n k l = (sincAxis n k : ℂ) ^ 2 := by
  have hz := ang_ne n k l hl hn hk
  have hs := sinc_exp n k (by omega) hk
  have h0 := fun s => phase_pos n k l s 0
  have h1 := fun s => phase_pos n k l s 1
  rw [meanWeight_whole n k l hl hn hk .cic 1 (-1 + Complex.exp (-((ang n k : ℂ) * Complex.I))) 0 0, hs]
  · obtain ⟨-, -, e3, -⟩ := half_exp n k l hl hn hk ((ang n k : ℂ) * Complex.I)
    rw [e3]
    generalize (ang n k : ℂ) * Complex.I = z at hz
    have hE := Complex.exp_ne_zero (z / 2)
    generalize Complex.exp (z / 2) = E at hE
    field_simp
    ring
  · intro s hs
    have h0 := h0 s
    have h1 := h1 s
    simp only [weightTransform, axisStencil, cicAxis, trunc_cell hl hs.1 hs.2, List.map_cons,
      List.map_nil, List.sum_cons, List.sum_nil, phase_up k hl hn, add_sub_cancel_left, add_zero,
      zpow_zero, zpow_one, mul_one, add_mul, mul_assoc] at h0 h1 ⊢
    rw [h0, h1]
    push_cast
    ring

theorem meanWeight_pcs : meanWeight .pcs n k l = (sincAxis n k : ℂ) ^ 4 := by
  have hz := ang_ne n k l hl hn hk
  have hs := sinc_exp n k (by omega) hk
  have h0 := fun s => phase_pos n k l s (-1)
  have h1 := fun s => phase_pos n k l s 0
  have h2 := fun s => phase_pos n k l s 1
  have h3 := fun s => phase_pos n k l s 2
  set W := Complex.exp (-((ang n k : ℂ) * Complex.I)) with hW
  rw [meanWeight_whole n k l hl hn hk .pcs (W⁻¹ / 6 + 4 / 6 + W / 6) (-W⁻¹ / 2 + W / 2)
    (W⁻¹ / 2 - 1 + W / 2) (-W⁻¹ / 6 + 1 / 2 - W / 2 + W ^ 2 / 6), hs]
  · obtain ⟨-, -, e3, -⟩ := half_exp n k l hl hn hk ((ang n k : ℂ) * Complex.I)
    rw [hW, e3]
    clear hW h0 h1 h2 h3
    generalize (ang n k : ℂ) * Complex.I = z at hz
    have hE := Complex.exp_ne_zero (z / 2)
    generalize Complex.exp (z / 2) = E at hE
    field_simp
    ring
  · intro s hs
    have h0 := h0 s
    have h1 := h1 s
    have h2 := h2 s
    have h3 := h3 s
    rw [show W ^ (2 : ℤ) = W ^ 2 from zpow_ofNat W 2] at h3
    rw [← sub_eq_add_neg] at h0
    simp only [weightTransform, axisStencil, pcsAxis, trunc_cell hl hs.1 hs.2, List.map_cons,
      List.map_nil, List.sum_cons, List.sum_nil, phase_up k hl hn, phase_down k hl hn,
      phase_upup k hl hn, add_sub_cancel_left, add_zero,
      zpow_zero, zpow_one, zpow_neg, mul_one, add_mul, mul_assoc] at h0 h1 h2 h3 ⊢
    rw [h0, h1, h2, h3]
    push_cast
    ring

theorem meanWeight_tsc : meanWeight .tsc n k l = (sincAxis n k : ℂ) ^ 3 := by
  have hz := ang_ne n k l hl hn hk
  have hs := sinc_exp n k (by omega) hk
  have h0 := fun s => phase_pos n k l s (-1)
  have h1 := fun s => phase_pos n k l s 0
  have h2 := fun s => phase_pos n k l s 1
  have h3 := fun s => phase_pos n k l s 2
  have hh := half_exp n k l hl hn hk ((ang n k : ℂ) * Complex.I)
  set W := Complex.exp (-((ang n k : ℂ) * Complex.I)) with hW
  rw [meanWeight_of .tsc n k l
    (fun s => ((W⁻¹ / 8 + 3 / 4 + W / 8) + (-W⁻¹ / 2 + W / 2) * (s : ℂ) +
      (W⁻¹ / 2 - 1 + W / 2) * (s : ℂ) ^ 2 + 0 * (s : ℂ) ^ 3) *
        Complex.exp ((ang n k : ℂ) * Complex.I * s))
    (fun s => ((9 / 8 - W / 4 + W ^ 2 / 8) + (-3 / 2 + 2 * W - W ^ 2 / 2) * (s : ℂ) +
      (1 / 2 - W + W ^ 2 / 2) * (s : ℂ) ^ 2 + 0 * (s : ℂ) ^ 3) *
        Complex.exp ((ang n k : ℂ) * Complex.I * s))
    (by fun_prop) (by fun_prop)]
  · obtain ⟨e1, e2, e3, e4⟩ := hh
    rw [polyExpIntegral _ _ _ _ _ _ _ hz, polyExpIntegral _ _ _ _ _ _ _ hz, hs, e1, e2, e3, e4]
    clear hW h0 h1 h2 h3 e1 e2 e3 e4
    generalize (ang n k : ℂ) * Complex.I = z at hz
    have hE := Complex.exp_ne_zero (z / 2)
    generalize Complex.exp (z / 2) = E at hE
    push_cast
    field_simp
    ring
  · intro s hs
    have hs1 : s < 1 := lt_trans hs.2 (by norm_num)
    have h0 := h0 s
    have h1 := h1 s
    have h2 := h2 s
    rw [← sub_eq_add_neg] at h0
    simp only [weightTransform, axisStencil, tscAxis, tscWin, trunc_cell hl hs.1 hs1, List.map_cons,
      List.map_nil, List.sum_cons, List.sum_nil, phase_up k hl hn, phase_down k hl hn,
      hs.2, if_true, add_sub_cancel_left, add_zero,
      zpow_zero, zpow_one, zpow_neg, mul_one, add_mul, mul_assoc] at h0 h1 h2 ⊢
    rw [h0, h1, h2]
    push_cast
    ring
  · intro s hs
    have hs0 : 0 < s := lt_trans (by norm_num) hs.1
    have hns : ¬ s < 1 / 2 := not_lt.2 hs.1.le
    have h1 := h1 s
    have h2 := h2 s
    have h3 := h3 s
    rw [show W ^ (2 : ℤ) = W ^ 2 from zpow_ofNat W 2] at h3
    simp only [weightTransform, axisStencil, tscAxis, tscWin, trunc_cell hl hs0 hs.2, List.map_cons,
      List.map_nil, List.sum_cons, List.sum_nil, phase_up k hl hn, phase_upup k hl hn,
      hns, if_false, add_sub_cancel_left, add_zero,
      zpow_zero, zpow_one, zpow_neg, mul_one, add_mul, mul_assoc] at h1 h2 h3 ⊢
    rw [h1, h2, h3]
    push_cast
    ring

end
end Trv.Win

import Verif.Spec.Window
import Verif.Lemmas.Mesh
import Mathlib.Analysis.Calculus.Deriv.Pow
import Mathlib.Analysis.SpecialFunctions.Integrals.Basic
/-
Helper lemmas for the assignment window, aliasing and harmonics.
-/
namespace Trv.Win
open Trv.Mesh

/-! ### Phases -/

theorem phase_add (n k a b : ℤ) : phase n k (a + b) = phase n k a * phase n k b := by
  unfold phase
  rw [← Complex.exp_add]
  congr 1
  push_cast
  ring

theorem phase_period (n k q : ℤ) (hn : n ≠ 0) : phase n k (n * q) = 1 := by
  unfold phase
  have hn' : (n : ℝ) ≠ 0 := by exact_mod_cast hn
  have : (-(2 * Real.pi * k / n * ((n * q : ℤ) : ℝ)) : ℝ) = ((-(k * q) : ℤ) : ℝ) * (2 * Real.pi) := by
    push_cast
    field_simp
  rw [this]
  have h2 := Complex.exp_int_mul_two_pi_mul_I (-(k * q))
  rw [← h2]
  congr 1
  push_cast
  ring

theorem phase_emod (n k a : ℤ) (hn : n ≠ 0) : phase n k (a % n) = phase n k a := by
  conv_rhs => rw [← Int.emod_add_mul_ediv a n]
  rw [phase_add, phase_period n k _ hn, mul_one]

theorem phase_up {n i : ℤ} (k : ℤ) (h0 : 0 ≤ i) (h1 : i < n) :
    phase n k (if i = n - 1 then 0 else i + 1) = phase n k (i + 1) := by
  rw [wrapUp h0 h1, phase_emod _ _ _ (by omega)]

theorem phase_down {n i : ℤ} (k : ℤ) (h0 : 0 ≤ i) (h1 : i < n) :
    phase n k (if i = 0 then n - 1 else i - 1) = phase n k (i - 1) := by
  rw [wrapDown h0 h1, phase_emod _ _ _ (by omega)]

theorem phase_upup {n i : ℤ} (k : ℤ) (h0 : 0 ≤ i) (h1 : i < n) :
    phase n k (if (if i = n - 1 then 0 else i + 1) = n - 1 then 0
      else (if i = n - 1 then 0 else i + 1) + 1) = phase n k (i + 2) := by
  have hi : 0 ≤ (if i = n - 1 then 0 else i + 1) ∧ (if i = n - 1 then 0 else i + 1) < n := by
    split_ifs <;> omega
  rw [phase_up k hi.1 hi.2, phase_add, phase_up k h0 h1, ← phase_add]
  congr 1
  ring

/-- The angle per cell. -/
noncomputable def ang (n k : ℤ) : ℝ := 2 * Real.pi * k / n

theorem normSq4 (n k j : ℤ) (w0 w1 w2 w3 : ℝ) :
    Complex.normSq ((w0 : ℂ) * phase n k j + ((w1 : ℂ) * phase n k (j + 1) +
      ((w2 : ℂ) * phase n k (j + 2) + (w3 : ℂ) * phase n k (j + 3)))) =
    (w0 ^ 2 + w1 ^ 2 + w2 ^ 2 + w3 ^ 2) +
      2 * (w0 * w1 + w1 * w2 + w2 * w3) * Real.cos (ang n k) +
      2 * (w0 * w2 + w1 * w3) * Real.cos (2 * ang n k) + 2 * (w0 * w3) * Real.cos (3 * ang n k) := by
  have re : ∀ a : ℤ, (phase n k a).re = Real.cos (ang n k * a) := by
    intro a; unfold phase ang
    rw [Complex.exp_ofReal_mul_I_re, Real.cos_neg]
  have im : ∀ a : ℤ, (phase n k a).im = -Real.sin (ang n k * a) := by
    intro a; unfold phase ang
    rw [Complex.exp_ofReal_mul_I_im, Real.sin_neg]
  rw [Complex.normSq_apply]
  simp only [Complex.add_re, Complex.add_im, Complex.re_ofReal_mul, Complex.im_ofReal_mul, re, im]
  have hd : ∀ a b : ℝ, ∀ c : ℝ, b - a = c →
      Real.cos a * Real.cos b + Real.sin a * Real.sin b = Real.cos c := by
    intro a b c h
    rw [← h, Real.cos_sub]; ring
  have o : ∀ a : ℝ, Real.cos a * Real.cos a + Real.sin a * Real.sin a = 1 := by
    intro a
    have := Real.sin_sq_add_cos_sq a
    linarith
  have h00 := o (ang n k * (j : ℤ))
  have h11 := o (ang n k * ((j + 1 : ℤ) : ℝ))
  have h22 := o (ang n k * ((j + 2 : ℤ) : ℝ))
  have h33 := o (ang n k * ((j + 3 : ℤ) : ℝ))
  have h01 := hd (ang n k * (j : ℤ)) (ang n k * ((j + 1 : ℤ) : ℝ)) (ang n k) (by push_cast; ring)
  have h12 := hd (ang n k * ((j + 1 : ℤ) : ℝ)) (ang n k * ((j + 2 : ℤ) : ℝ)) (ang n k)
    (by push_cast; ring)
  have h23 := hd (ang n k * ((j + 2 : ℤ) : ℝ)) (ang n k * ((j + 3 : ℤ) : ℝ)) (ang n k)
    (by push_cast; ring)
  have h02 := hd (ang n k * (j : ℤ)) (ang n k * ((j + 2 : ℤ) : ℝ)) (2 * ang n k) (by push_cast; ring)
  have h13 := hd (ang n k * ((j + 1 : ℤ) : ℝ)) (ang n k * ((j + 3 : ℤ) : ℝ)) (2 * ang n k)
    (by push_cast; ring)
  have h03 := hd (ang n k * (j : ℤ)) (ang n k * ((j + 3 : ℤ) : ℝ)) (3 * ang n k) (by push_cast; ring)
  linear_combination w0 ^ 2 * h00 + w1 ^ 2 * h11 + w2 ^ 2 * h22 + w3 ^ 2 * h33 +
    2 * w0 * w1 * h01 + 2 * w1 * w2 * h12 + 2 * w2 * w3 * h23 + 2 * w0 * w2 * h02 +
    2 * w1 * w3 * h13 + 2 * w0 * w3 * h03

/-! ### Integrals of polynomials -/

theorem polyIntegral (x y a0 a1 a2 a3 a4 a5 a6 : ℝ) :
    ∫ t in x..y, (a0 + a1 * t + a2 * t ^ 2 + a3 * t ^ 3 + a4 * t ^ 4 + a5 * t ^ 5 + a6 * t ^ 6) =
    (a0 * y + a1 * y ^ 2 / 2 + a2 * y ^ 3 / 3 + a3 * y ^ 4 / 4 + a4 * y ^ 5 / 5 + a5 * y ^ 6 / 6 +
      a6 * y ^ 7 / 7) -
    (a0 * x + a1 * x ^ 2 / 2 + a2 * x ^ 3 / 3 + a3 * x ^ 4 / 4 + a4 * x ^ 5 / 5 + a5 * x ^ 6 / 6 +
      a6 * x ^ 7 / 7) := by
  have hc : Continuous fun t : ℝ =>
      a0 + a1 * t + a2 * t ^ 2 + a3 * t ^ 3 + a4 * t ^ 4 + a5 * t ^ 5 + a6 * t ^ 6 := by fun_prop
  rw [intervalIntegral.integral_eq_sub_of_hasDerivAt (f := fun t => a0 * t + a1 * t ^ 2 / 2 +
    a2 * t ^ 3 / 3 + a3 * t ^ 4 / 4 + a4 * t ^ 5 / 5 + a5 * t ^ 6 / 6 + a6 * t ^ 7 / 7) ?_
    (hc.intervalIntegrable _ _)]
  intro t _
  have h := (((((((hasDerivAt_id t).const_mul a0).add (((hasDerivAt_pow 2 t).const_mul a1).div_const 2)).add
    (((hasDerivAt_pow 3 t).const_mul a2).div_const 3)).add
    (((hasDerivAt_pow 4 t).const_mul a3).div_const 4)).add
    (((hasDerivAt_pow 5 t).const_mul a4).div_const 5)).add
    (((hasDerivAt_pow 6 t).const_mul a5).div_const 6)).add
    (((hasDerivAt_pow 7 t).const_mul a6).div_const 7)
  refine h.congr_deriv ?_
  push_cast
  norm_num
  ring

/-! ### The averaged power of each scheme -/

theorem trunc_cell {l : ℤ} (hl : 0 ≤ l) {s : ℝ} (h0 : 0 < s) (h1 : s < 1) :
    truncInt ((l : ℝ) + s) = l := by
  have : (0 : ℝ) ≤ l := by exact_mod_cast hl
  rw [truncInt_of_nonneg (by linarith), Int.floor_eq_iff]
  constructor <;> linarith

theorem meanPower_ngp (n k l : ℤ) (hl : 0 ≤ l) :
    meanPower .ngp n k l = 1 := by
  unfold meanPower
  rw [intervalIntegral.integral_congr_Ioo_of_le zero_le_one (g := fun _ => (1 : ℝ))]
  · simp
  · intro s hs
    simp only [weightTransform, axisStencil, ngpAxis, trunc_cell hl hs.1 hs.2, List.map_cons,
      List.map_nil, List.sum_cons, List.sum_nil, add_zero, Complex.ofReal_one, one_mul]
    unfold phase
    rw [Complex.normSq_eq_norm_sq, Complex.norm_exp_ofReal_mul_I]
    norm_num

theorem meanPower_cic (n k l : ℤ) (hl : 0 ≤ l) (hn : l < n) :
    meanPower .cic n k l = 2 / 3 + 1 / 3 * Real.cos (ang n k) := by
  unfold meanPower
  set C1 := Real.cos (ang n k)
  rw [intervalIntegral.integral_congr_Ioo_of_le zero_le_one
    (g := fun t => 1 + (-2 + 2 * C1) * t + (2 - 2 * C1) * t ^ 2 + 0 * t ^ 3 + 0 * t ^ 4 + 0 * t ^ 5 +
      0 * t ^ 6)]
  · rw [polyIntegral]; ring
  · intro s hs
    simp only [weightTransform, axisStencil, cicAxis, trunc_cell hl hs.1 hs.2, List.map_cons,
      List.map_nil, List.sum_cons, List.sum_nil, phase_up k hl hn]
    have h := normSq4 n k l (1 - s) s 0 0
    simp only [Complex.ofReal_zero, zero_mul, add_zero] at h
    rw [add_sub_cancel_left, add_zero, h]
    ring

theorem meanPower_pcs (n k l : ℤ) (hl : 0 ≤ l) (hn : l < n) :
    meanPower .pcs n k l = 151 / 315 + 397 / 840 * Real.cos (ang n k) +
      1 / 21 * Real.cos (2 * ang n k) + 1 / 2520 * Real.cos (3 * ang n k) := by
  unfold meanPower
  set C1 := Real.cos (ang n k)
  set C2 := Real.cos (2 * ang n k)
  set C3 := Real.cos (3 * ang n k)
  rw [intervalIntegral.integral_congr_Ioo_of_le zero_le_one
    (g := fun t => ((1/2) + (4/9) * C1 + (1/18) * C2) + 0 * t +
      ((-1/2) + (2/3) * C1 + (-1/6) * C2) * t ^ 2 + ((4/9) + (-1/2) * C1 + (1/18) * C3) * t ^ 3 +
      ((7/6) + (-11/6) * C1 + (5/6) * C2 + (-1/6) * C3) * t ^ 4 +
      ((-5/3) + (5/2) * C1 + (-1) * C2 + (1/6) * C3) * t ^ 5 +
      ((5/9) + (-5/6) * C1 + (1/3) * C2 + (-1/18) * C3) * t ^ 6)]
  · rw [polyIntegral]; ring
  · intro s hs
    simp only [weightTransform, axisStencil, pcsAxis, trunc_cell hl hs.1 hs.2, List.map_cons,
      List.map_nil, List.sum_cons, List.sum_nil, phase_up k hl hn, phase_down k hl hn,
      phase_upup k hl hn, add_sub_cancel_left, add_zero]
    have h := normSq4 n k (l - 1) (1 / 6 * (1 - s) * (1 - s) * (1 - s))
      (1 / 6 * (4 - 6 * s * s + 3 * s * s * s))
      (1 / 6 * (4 - 6 * (1 - s) * (1 - s) + 3 * (1 - s) * (1 - s) * (1 - s))) (1 / 6 * s * s * s)
    rw [show l - 1 + 1 = l by ring, show l - 1 + 2 = l + 1 by ring, show l - 1 + 3 = l + 2 by ring] at h
    rw [h]
    ring

theorem meanPower_tsc (n k l : ℤ) (hl : 0 ≤ l) (hn : l < n) :
    meanPower .tsc n k l = 11 / 20 + 13 / 30 * Real.cos (ang n k) +
      1 / 60 * Real.cos (2 * ang n k) := by
  unfold meanPower
  set C1 := Real.cos (ang n k)
  set C2 := Real.cos (2 * ang n k)
  set f : ℝ → ℝ := fun s => Complex.normSq (weightTransform .tsc n k ((l : ℝ) + s)) with hf
  set p : ℝ → ℝ := fun t => ((19/32) + (3/8) * C1 + (1/32) * C2) + 0 * t +
    ((-3/4) + (1) * C1 + (-1/4) * C2) * t ^ 2 + 0 * t ^ 3 + ((3/2) + (-2) * C1 + (1/2) * C2) * t ^ 4 +
    0 * t ^ 5 + 0 * t ^ 6 with hp
  set q : ℝ → ℝ := fun t => ((43/32) + (-5/8) * C1 + (9/32) * C2) +
    ((-9/2) + (6) * C1 + (-3/2) * C2) * t + ((33/4) + (-11) * C1 + (11/4) * C2) * t ^ 2 +
    ((-6) + (8) * C1 + (-2) * C2) * t ^ 3 + ((3/2) + (-2) * C1 + (1/2) * C2) * t ^ 4 +
    0 * t ^ 5 + 0 * t ^ 6 with hq
  have ep : Set.EqOn f p (Set.Ioo 0 (1 / 2)) := by
    intro s hs
    have hs1 : s < 1 := lt_trans hs.2 (by norm_num)
    simp only [hf, hp, weightTransform, axisStencil, tscAxis, tscWin, trunc_cell hl hs.1 hs1,
      add_sub_cancel_left, hs.2, if_true, List.map_cons,
      List.map_nil, List.sum_cons, List.sum_nil, phase_up k hl hn, phase_down k hl hn, add_zero]
    have h := normSq4 n k (l - 1) (1 / 2 * (1 / 2 - s) * (1 / 2 - s)) (3 / 4 - s * s)
      (1 / 2 * (1 / 2 + s) * (1 / 2 + s)) 0
    rw [show l - 1 + 1 = l by ring, show l - 1 + 2 = l + 1 by ring, Complex.ofReal_zero, zero_mul,
      add_zero] at h
    rw [h]
    ring
  have eq : Set.EqOn f q (Set.Ioo (1 / 2) 1) := by
    intro s hs
    have hs0 : 0 < s := lt_trans (by norm_num) hs.1
    have hns : ¬ s < 1 / 2 := not_lt.2 hs.1.le
    simp only [hf, hq, weightTransform, axisStencil, tscAxis, tscWin, trunc_cell hl hs0 hs.2,
      add_sub_cancel_left, hns, if_false, List.map_cons,
      List.map_nil, List.sum_cons, List.sum_nil, phase_up k hl hn, phase_upup k hl hn, add_zero]
    have h := normSq4 n k l (1 / 2 * (1 / 2 + (1 - s)) * (1 / 2 + (1 - s)))
      (3 / 4 - (1 - s) * (1 - s)) (1 / 2 * (1 / 2 - (1 - s)) * (1 / 2 - (1 - s))) 0
    rw [Complex.ofReal_zero, zero_mul, add_zero] at h
    rw [h]
    ring
  have cp : Continuous p := by rw [hp]; fun_prop
  have cq : Continuous q := by rw [hq]; fun_prop
  have ip : IntervalIntegrable f MeasureTheory.volume 0 (1 / 2) := by
    refine (cp.intervalIntegrable 0 (1 / 2)).congr_uIoo ?_
    rw [Set.uIoo_of_le (by norm_num)]
    exact ep.symm
  have iq : IntervalIntegrable f MeasureTheory.volume (1 / 2) 1 := by
    refine (cq.intervalIntegrable (1 / 2) 1).congr_uIoo ?_
    rw [Set.uIoo_of_le (by norm_num)]
    exact eq.symm
  rw [← intervalIntegral.integral_add_adjacent_intervals ip iq,
    intervalIntegral.integral_congr_Ioo_of_le (by norm_num) ep,
    intervalIntegral.integral_congr_Ioo_of_le (by norm_num) eq, hp, hq, polyIntegral, polyIntegral]
  ring

/-! ### Aliasing -/

theorem shift_cases (n i : ℤ) : shiftIndex n i = i ∨ shiftIndex n i = i - n := by
  unfold shiftIndex; split_ifs <;> simp

theorem cos_ang (n i : ℤ) (hn : n ≠ 0) : Real.cos (ang n i) = 1 - 2 * sin2Axis n i := by
  have hn' : (n : ℝ) ≠ 0 := by exact_mod_cast hn
  have h1 : Real.cos (ang n i) = Real.cos (2 * (Real.pi * (shiftIndex n i : ℤ) / n)) := by
    unfold ang
    rcases shift_cases n i with h | h <;> rw [h]
    · congr 1; ring
    · have : 2 * (Real.pi * ((i - n : ℤ) : ℝ) / n) = 2 * Real.pi * i / n - 2 * Real.pi := by
        push_cast; field_simp
      rw [this, Real.cos_sub_two_pi]
  rw [h1, Real.cos_two_mul]
  unfold sin2Axis
  simp only
  split_ifs with h
  · have := Real.sin_sq_add_cos_sq (Real.pi * (shiftIndex n i : ℤ) / n)
    linarith
  · push Not at h
    rw [h]; simp; norm_num

theorem sin2_range (n i : ℤ) : 0 ≤ sin2Axis n i ∧ sin2Axis n i ≤ 1 := by
  unfold sin2Axis
  simp only
  split_ifs with h
  · have := Real.sin_sq_add_cos_sq (Real.pi * (shiftIndex n i : ℤ) / n)
    have h2 := sq_nonneg (Real.cos (Real.pi * (shiftIndex n i : ℤ) / n))
    exact ⟨mul_self_nonneg _, by nlinarith⟩
  · exact ⟨le_refl _, zero_le_one⟩

theorem aliasAxis_range (sch : Scheme) {s : ℝ} (h0 : 0 ≤ s) (h1 : s ≤ 1) :
    0 < aliasAxis sch s ∧ aliasAxis sch s ≤ 1 := by
  cases sch <;> unfold aliasAxis <;> simp only
  · exact ⟨zero_lt_one, le_refl _⟩
  · exact ⟨by linarith, by linarith⟩
  · exact ⟨by nlinarith, by nlinarith⟩
  · have h2 : 0 ≤ s * s := mul_nonneg h0 h0
    have h3 : s * s ≤ s := by nlinarith
    have h4 : 0 ≤ s * s * s := by positivity
    have h5 : s * s * s ≤ s * s := by nlinarith
    exact ⟨by nlinarith [mul_nonneg (sub_nonneg.2 h1) (sub_nonneg.2 h1)], by nlinarith⟩

/-! ### Window -/

theorem sinc_neg (n i : ℤ) : sincAxis n (-i) = sincAxis n i := by
  unfold sincAxis
  simp only
  by_cases h : i = 0
  · subst h; simp
  · rw [if_pos h, if_pos (by omega)]
    have : Real.pi * ((-i : ℤ) : ℝ) / n = -(Real.pi * i / n) := by push_cast; ring
    rw [this, Real.sin_neg, neg_div_neg_eq]

theorem sinc_range_pos {n i : ℤ} (h0 : 0 < i) (h1 : i < n) : 0 < sincAxis n i ∧ sincAxis n i ≤ 1 := by
  have hi : (0 : ℝ) < i := by exact_mod_cast h0
  have hin : (i : ℝ) < n := by exact_mod_cast h1
  have hn : (0 : ℝ) < n := lt_trans hi hin
  have hu : 0 < Real.pi * i / n := by have := Real.pi_pos; positivity
  have hu2 : Real.pi * i / n < Real.pi := by
    rw [div_lt_iff₀ hn]
    exact mul_lt_mul_of_pos_left hin Real.pi_pos
  unfold sincAxis
  simp only
  rw [if_pos h0.ne']
  refine ⟨div_pos (Real.sin_pos_of_pos_of_lt_pi hu hu2) hu, ?_⟩
  rw [div_le_one hu]
  exact Real.sin_le hu.le

theorem sinc_range {n i : ℤ} (hn : 0 < n) (h : |i| < n) : 0 < sincAxis n i ∧ sincAxis n i ≤ 1 := by
  rcases lt_trichotomy i 0 with hi | hi | hi
  · rw [← sinc_neg]
    rw [abs_of_neg hi] at h
    exact sinc_range_pos (by omega) h
  · subst hi
    unfold sincAxis
    simp
  · rw [abs_of_pos hi] at h
    exact sinc_range_pos hi h

theorem shift_abs_lt {n i : ℤ} (hn : 2 ≤ n) (h0 : 0 ≤ i) (h1 : i < n) : |shiftIndex n i| < n := by
  unfold shiftIndex
  rw [abs_lt]
  split_ifs <;> omega

/-- The invariant of the cache: it is empty or holds the fresh values of its order. -/
def Cache.Good (n : Fin 3 → ℤ) (C : Cache) : Prop :=
  C.order = -1 ∨ (0 ≤ C.order ∧ ∀ c ∈ Stats.cells n,
    C.window (gridIndex n c.1 c.2.1 c.2.2) = windowFresh n c.1 c.2.1 c.2.2 C.order.toNat)

theorem fillWindow_ok (n : Fin 3 → ℤ) (order : ℤ) (ho : 0 ≤ order) (l : List (ℤ × ℤ × ℤ))
    (hl : ∀ c ∈ l, c ∈ Stats.cells n)
    (hinj : ∀ a ∈ Stats.cells n, ∀ b ∈ Stats.cells n,
      gridIndex n a.1 a.2.1 a.2.2 = gridIndex n b.1 b.2.1 b.2.2 → a = b)
    (C : Cache) (hC : C.order ≠ order) :
    ∃ C', fillWindow n order l C = .ok C' ∧ C'.order = C.order ∧
      (∀ c ∈ l, C'.window (gridIndex n c.1 c.2.1 c.2.2) =
        windowFresh n c.1 c.2.1 c.2.2 order.toNat) ∧
      (∀ c ∈ Stats.cells n, c ∉ l → C'.window (gridIndex n c.1 c.2.1 c.2.2) =
        C.window (gridIndex n c.1 c.2.1 c.2.2)) := by
  induction l generalizing C with
  | nil => exact ⟨C, rfl, rfl, by simp, fun c _ _ => rfl⟩
  | cons a l ih =>
    have hcalc : calcWindow n C a.1 a.2.1 a.2.2 order =
        .ok (windowFresh n a.1 a.2.1 a.2.2 order.toNat) := by
      unfold calcWindow
      rw [if_neg (by omega), if_neg (fun h => hC h.symm)]
    obtain ⟨C', h1, h2, h3, h4⟩ := ih (fun c hc => hl c (List.mem_cons_of_mem _ hc))
      { C with window := fun g => if g = gridIndex n a.1 a.2.1 a.2.2 then
        windowFresh n a.1 a.2.1 a.2.2 order.toNat else C.window g } hC
    refine ⟨C', ?_, h2, ?_, ?_⟩
    · unfold fillWindow
      rw [hcalc]
      exact h1
    · intro c hc
      by_cases hcl : c ∈ l
      · exact h3 c hcl
      · have hca : c = a := by
          rcases List.mem_cons.1 hc with h | h
          · exact h
          · exact absurd h hcl
        subst hca
        rw [h4 c (hl c hc) hcl]
        simp
    · intro c hc hcl
      rw [List.mem_cons, not_or] at hcl
      rw [h4 c hc hcl.2]
      simp only
      rw [if_neg]
      intro h
      exact hcl.1 (hinj c hc a (hl a (by simp)) h)

end Trv.Win

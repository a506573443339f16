import Verif.Spec.Fftlog
import Mathlib.Algebra.BigOperators.Intervals
import Mathlib.Algebra.Field.GeomSum
/-
Helper lemmas on finite Fourier sums and on the FFTLog kernel.
-/
namespace Trv.Fft

/-! ### Finite Fourier sums -/

/-- A root of unity. -/
noncomputable def ru (N : ℕ) (k : ℤ) : ℂ := Complex.exp (2 * Real.pi * Complex.I * k / N)

theorem ru_add (N : ℕ) (a b : ℤ) : ru N (a + b) = ru N a * ru N b := by
  unfold ru
  rw [← Complex.exp_add]
  congr 1
  push_cast
  ring

theorem ru_mul_self (N : ℕ) (hN : N ≠ 0) (q : ℤ) : ru N (N * q) = 1 := by
  unfold ru
  have h : (N : ℂ) ≠ 0 := by exact_mod_cast hN
  rw [Complex.exp_eq_one_iff]
  refine ⟨q, ?_⟩
  push_cast
  field_simp

theorem ru_emod (N : ℕ) (hN : N ≠ 0) (a : ℤ) : ru N (a % N) = ru N a := by
  conv_rhs => rw [← Int.emod_add_mul_ediv a N, ru_add, ru_mul_self N hN, mul_one]

theorem ru_eq_one (N : ℕ) (hN : N ≠ 0) (a : ℤ) : ru N a = 1 ↔ (N : ℤ) ∣ a := by
  constructor
  · intro h
    unfold ru at h
    obtain ⟨n, hn⟩ := Complex.exp_eq_one_iff.1 h
    have h1 : (N : ℂ) ≠ 0 := by exact_mod_cast hN
    have h2 : (2 * Real.pi * Complex.I : ℂ) ≠ 0 := Complex.two_pi_I_ne_zero
    refine ⟨n, ?_⟩
    have : (a : ℂ) = N * n := by
      rw [div_eq_iff h1] at hn
      apply mul_left_cancel₀ h2
      rw [hn]; ring
    exact_mod_cast this
  · rintro ⟨q, rfl⟩
    exact ru_mul_self N hN q

theorem ru_pow (N : ℕ) (a : ℤ) (j : ℕ) : ru N a ^ j = ru N (a * j) := by
  unfold ru
  rw [← Complex.exp_nat_mul]
  congr 1
  push_cast
  ring

theorem ru_conj (N : ℕ) (a : ℤ) : (starRingEnd ℂ) (ru N a) = ru N (-a) := by
  unfold ru
  rw [← Complex.exp_conj]
  congr 1
  simp only [map_div₀, map_mul, Complex.conj_I, Complex.conj_ofReal, map_intCast, map_natCast,
    map_ofNat]
  push_cast
  ring

theorem ru_sum (N : ℕ) (hN : N ≠ 0) (a : ℤ) :
    ∑ j ∈ Finset.range N, ru N (a * j) = if (N : ℤ) ∣ a then (N : ℂ) else 0 := by
  simp only [← ru_pow]
  split_ifs with h
  · rw [(ru_eq_one N hN a).2 h]
    simp
  · have h1 : ru N a ≠ 1 := fun e => h ((ru_eq_one N hN a).1 e)
    have h2 : ru N a ^ N = 1 := by
      rw [ru_pow, mul_comm, ru_mul_self N hN]
    rw [geom_sum_eq h1, h2, sub_self, zero_div]

theorem dft_ru (N : ℕ) (a : ℕ → ℂ) (m : ℕ) :
    dft N a m = ∑ j ∈ Finset.range N, a j * ru N (-(m * j)) := by
  unfold dft ru
  refine Finset.sum_congr rfl fun j _ => ?_
  congr 2
  push_cast
  ring

/-- Reversal of the indices modulo `N`. -/
def rev (N m : ℕ) : ℕ := (N - m) % N

theorem rev_lt {N : ℕ} (hN : N ≠ 0) (m : ℕ) : rev N m < N := Nat.mod_lt _ (Nat.pos_of_ne_zero hN)

theorem rev_rev {N m : ℕ} (hm : m < N) : rev N (rev N m) = m := by
  unfold rev
  by_cases h : m = 0
  · subst h; simp
  · rw [Nat.mod_eq_of_lt (by omega : N - m < N)]
    rw [show N - (N - m) = m by omega, Nat.mod_eq_of_lt hm]

theorem rev_cases {N m : ℕ} (hm : m < N) : (m = 0 ∧ rev N m = 0) ∨ (m ≠ 0 ∧ rev N m = N - m) := by
  by_cases h : m = 0
  · left; subst h; simp [rev]
  · right; exact ⟨h, Nat.mod_eq_of_lt (by omega)⟩

theorem dvd_add_iff_rev {N i p : ℕ} (hi : i < N) (hp : p < N) :
    ((N : ℤ) ∣ -((i : ℤ) + p)) ↔ i = rev N p := by
  rw [Int.dvd_neg]
  have : ((N : ℤ) ∣ (i : ℤ) + p) ↔ N ∣ i + p := by exact_mod_cast Iff.rfl
  rw [this]
  rcases rev_cases hp with ⟨h, e⟩ | ⟨h, e⟩
  · rw [e, h, add_zero]
    constructor
    · intro hd; exact Nat.eq_zero_of_dvd_of_lt hd hi
    · rintro rfl; exact dvd_zero _
  · rw [e]
    constructor
    · rintro ⟨c, hc⟩
      have : c < 2 := by
        by_contra hcon
        have : N * 2 ≤ N * c := Nat.mul_le_mul_left _ (by omega)
        omega
      interval_cases c <;> omega
    · rintro rfl
      exact ⟨1, by omega⟩

theorem dft_congr {N : ℕ} {a b : ℕ → ℂ} (h : ∀ j < N, a j = b j) (m : ℕ) : dft N a m = dft N b m := by
  unfold dft
  exact Finset.sum_congr rfl fun j hj => by rw [h j (Finset.mem_range.1 hj)]

theorem dft_smul (N : ℕ) (a : ℕ → ℂ) (c : ℂ) (m : ℕ) :
    dft N (fun j => c * a j) m = c * dft N a m := by
  unfold dft
  rw [Finset.mul_sum]
  exact Finset.sum_congr rfl fun j _ => by ring

/-- Two forward transforms reverse the samples. -/
theorem dft_dft {N : ℕ} (hN : N ≠ 0) (f : ℕ → ℂ) {p : ℕ} (hp : p < N) :
    dft N (dft N f) p = N * f (rev N p) := by
  rw [dft_ru]
  simp only [dft_ru N f, Finset.sum_mul]
  rw [Finset.sum_comm]
  have : ∀ i ∈ Finset.range N, ∑ j ∈ Finset.range N, f i * ru N (-((j : ℤ) * i)) * ru N (-((p : ℤ) * j)) =
      if i = rev N p then N * f i else 0 := by
    intro i hi
    have h1 : ∀ j ∈ Finset.range N, f i * ru N (-((j : ℤ) * i)) * ru N (-((p : ℤ) * j)) =
        f i * ru N (-((i : ℤ) + p) * j) := by
      intro j _
      rw [mul_assoc, ← ru_add]
      congr 2
      ring
    rw [Finset.sum_congr rfl h1, ← Finset.mul_sum, ru_sum N hN]
    by_cases hc : i = rev N p
    · rw [if_pos hc, if_pos ((dvd_add_iff_rev (Finset.mem_range.1 hi) hp).2 hc)]; ring
    · rw [if_neg hc, if_neg (fun h => hc ((dvd_add_iff_rev (Finset.mem_range.1 hi) hp).1 h)), mul_zero]
  rw [Finset.sum_congr rfl this, Finset.sum_ite_eq' (Finset.range N) (rev N p)]
  rw [if_pos (Finset.mem_range.2 (rev_lt hN p))]

/-- Convolution with a kernel and then with its reversed inverse. -/
theorem convolve_inverse {N : ℕ} (hN : N ≠ 0) (u u' a : ℕ → ℂ)
    (hu : ∀ m < N, u (rev N m) * u' m = 1) {j : ℕ} (hj : j < N) :
    convolve N u' (convolve N u a) j = a j := by
  have hNc : (N : ℂ) ≠ 0 := by exact_mod_cast hN
  unfold convolve
  have h1 : ∀ p < N, dft N (dft N fun m => dft N a m * u m / N) p * u' p / N =
      (1 / N ^ 2) * dft N (dft N (dft N a)) p := by
    intro p hp
    rw [dft_dft hN _ hp, dft_dft hN _ hp]
    have := hu p hp
    field_simp
    linear_combination (dft N a (rev N p)) * this
  rw [dft_congr h1, dft_smul, dft_congr (a := dft N (dft N (dft N a)))
    (b := fun p => N * dft N a (rev N p)) (fun p hp => dft_dft hN _ hp)]
  have h2 : ∀ p < N, (N : ℂ) * dft N a (rev N p) = dft N (dft N (dft N a)) p := by
    intro p hp; rw [dft_dft hN _ hp]
  rw [dft_congr h2, dft_dft hN _ hj, dft_dft hN _ (rev_lt hN j), rev_rev hj]
  field_simp

theorem sum_rev {N : ℕ} (hN : N ≠ 0) (F : ℕ → ℂ) :
    ∑ m ∈ Finset.range N, F (rev N m) = ∑ m ∈ Finset.range N, F m := by
  refine Finset.sum_nbij' (rev N) (rev N) ?_ ?_ ?_ ?_ ?_
  · intro m _; exact Finset.mem_range.2 (rev_lt hN m)
  · intro m _; exact Finset.mem_range.2 (rev_lt hN m)
  · intro m hm; exact rev_rev (Finset.mem_range.1 hm)
  · intro m hm; exact rev_rev (Finset.mem_range.1 hm)
  · intro m _; rfl

theorem ru_rev {N : ℕ} (hN : N ≠ 0) {m : ℕ} (hm : m < N) (j : ℕ) :
    ru N ((rev N m : ℕ) * (j : ℤ)) = ru N (-(m * j)) := by
  rcases rev_cases hm with ⟨h, e⟩ | ⟨h, e⟩
  · rw [e, h]; simp
  · rw [e, Nat.cast_sub (by omega : m ≤ N), sub_mul, sub_eq_add_neg, ru_add, ru_mul_self N hN, one_mul]

/-- The transform of conjugate-symmetric data is real. -/
theorem dft_real {N : ℕ} (hN : N ≠ 0) (g : ℕ → ℂ) (hg : ∀ m < N, (starRingEnd ℂ) (g m) = g (rev N m))
    (j : ℕ) : (starRingEnd ℂ) (dft N g j) = dft N g j := by
  rw [dft_ru, map_sum, ← sum_rev hN]
  refine Finset.sum_congr rfl fun m hm => ?_
  have hm' := Finset.mem_range.1 hm
  rw [map_mul, ru_conj, neg_neg, hg _ (rev_lt hN m), rev_rev hm']
  congr 1
  rw [show (j : ℤ) * (rev N m : ℕ) = (rev N m : ℕ) * (j : ℤ) by ring, ru_rev hN hm']
  congr 2
  ring

/-- The transform of real data is conjugate-symmetric. -/
theorem dft_conj {N : ℕ} (hN : N ≠ 0) (a : ℕ → ℂ) (ha : ∀ j < N, (starRingEnd ℂ) (a j) = a j)
    {m : ℕ} (hm : m < N) : (starRingEnd ℂ) (dft N a m) = dft N a (rev N m) := by
  rw [dft_ru, dft_ru, map_sum]
  refine Finset.sum_congr rfl fun j hj => ?_
  rw [map_mul, ru_conj, neg_neg, ha _ (Finset.mem_range.1 hj)]
  congr 1
  have := ru_rev hN (rev_lt hN m) j
  rw [rev_rev hm] at this
  rw [this]

theorem convolve_real {N : ℕ} (hN : N ≠ 0) (u a : ℕ → ℂ)
    (hu : ∀ m < N, (starRingEnd ℂ) (u m) = u (rev N m))
    (ha : ∀ j < N, (starRingEnd ℂ) (a j) = a j) (j : ℕ) :
    (starRingEnd ℂ) (convolve N u a j) = convolve N u a j := by
  unfold convolve
  refine dft_real hN _ (fun m hm => ?_) j
  rw [map_div₀, map_mul, dft_conj hN a ha hm, hu m hm, map_natCast]

/-! ### The kernel -/

theorem polar_exp (r theta : ℝ) : polar r theta = (r : ℂ) * Complex.exp (theta * Complex.I) := by
  unfold polar
  rw [Complex.exp_mul_I]
  ring

theorem construct_ok {mu q : ℝ} (h : construct mu q = .ok ()) :
    (∀ n : ℕ, (mu + 1 + q) / 2 ≠ -(n : ℝ)) ∧ (∀ n : ℕ, (mu + 1 - q) / 2 ≠ -(n : ℝ)) := by
  unfold construct at h
  split_ifs at h with hc
  rw [not_or] at hc
  refine ⟨fun n hn => hc.1 ?_, fun n hn => hc.2 ?_⟩
  all_goals
    rw [div_eq_iff (by norm_num)] at hn
    rw [hn]
    refine ⟨by have : (0 : ℝ) ≤ n := Nat.cast_nonneg n; linarith, ?_⟩
    rw [show -(n : ℝ) * 2 = ((-(n : ℤ) * 2 : ℤ) : ℝ) by push_cast; ring, Int.floor_intCast]

/-- The phase at a real argument is a sign. -/
theorem phase_real {G : LnGamma} (hG : LgOk G) {x : ℝ} (hx : ∀ n : ℕ, x ≠ -(n : ℝ)) :
    (starRingEnd ℂ) (Complex.exp ((G x 0).2 * Complex.I)) = Complex.exp ((G x 0).2 * Complex.I) := by
  have h := hG x 0 (by
    intro n hn
    apply hx n
    simp only [Complex.ofReal_zero, zero_mul, add_zero] at hn
    exact_mod_cast hn)
  simp only [Complex.ofReal_zero, zero_mul, add_zero] at h
  rw [Complex.Gamma_ofReal] at h
  have hr : (Real.exp (G x 0).1 : ℂ) ≠ 0 := by exact_mod_cast (Real.exp_pos _).ne'
  have h2 := congrArg (starRingEnd ℂ) h
  rw [map_mul, Complex.conj_ofReal, Complex.conj_ofReal] at h2
  exact mul_left_cancel₀ hr (h2.trans h.symm)

theorem exp_conj_mul (t : ℝ) : (starRingEnd ℂ) (Complex.exp (t * Complex.I)) * Complex.exp (t * Complex.I) = 1 := by
  rw [← Complex.exp_conj, map_mul, Complex.conj_ofReal, Complex.conj_I, ← Complex.exp_add]
  rw [show (t : ℂ) * -Complex.I + t * Complex.I = 0 by ring, Complex.exp_zero]

/-- The log-modulus of a coefficient. -/
noncomputable def lowMod (G : LnGamma) (mu q dL : ℝ) (N m : ℕ) : ℝ :=
  if q = 0 then 0 else
    q * Real.log 2 + (G ((mu + 1 + q) / 2) (m * (Real.pi / (N * dL)))).1 -
      (G ((mu + 1 - q) / 2) (m * (Real.pi / (N * dL)))).1

/-- The phase of a coefficient. -/
noncomputable def lowPhase (G : LnGamma) (mu q dL kr : ℝ) (N m : ℕ) : ℝ :=
  m * (-2 * (Real.pi / (N * dL)) * Real.log (kr / 2)) +
    (G ((mu + 1 + q) / 2) (m * (Real.pi / (N * dL)))).2 +
    (G ((mu + 1 - q) / 2) (m * (Real.pi / (N * dL)))).2

theorem kernelLow_eq (G : LnGamma) (mu q dL kr : ℝ) (N m : ℕ) :
    kernelLow G mu q dL kr N m = (Real.exp (lowMod G mu q dL N m) : ℂ) *
      Complex.exp (lowPhase G mu q dL kr N m * Complex.I) := by
  unfold kernelLow lowMod lowPhase
  simp only
  by_cases hq : q = 0
  · subst hq
    simp only [if_true, polar_exp, Real.exp_zero, add_zero, sub_zero]
    congr 4
    ring
  · simp only [if_neg hq, polar_exp]

theorem lowMod_neg (G : LnGamma) (mu q dL : ℝ) (N m : ℕ) :
    lowMod G mu (-q) dL N m = -lowMod G mu q dL N m := by
  unfold lowMod
  by_cases hq : q = 0
  · subst hq; simp
  · rw [if_neg hq, if_neg (by simpa using hq), ← sub_eq_add_neg, sub_neg_eq_add]
    ring

theorem lowPhase_neg (G : LnGamma) (mu q dL kr : ℝ) (N m : ℕ) :
    lowPhase G mu (-q) dL kr N m = lowPhase G mu q dL kr N m := by
  unfold lowPhase
  rw [← sub_eq_add_neg, sub_neg_eq_add]
  ring

theorem lowPhase_zero_real {G : LnGamma} (hG : LgOk G) {mu q : ℝ} (hc : construct mu q = .ok ())
    (dL kr : ℝ) (N : ℕ) :
    (starRingEnd ℂ) (Complex.exp (lowPhase G mu q dL kr N 0 * Complex.I)) =
      Complex.exp (lowPhase G mu q dL kr N 0 * Complex.I) := by
  obtain ⟨h1, h2⟩ := construct_ok hc
  have e : Complex.exp (lowPhase G mu q dL kr N 0 * Complex.I) =
      Complex.exp ((G ((mu + 1 + q) / 2) 0).2 * Complex.I) *
      Complex.exp ((G ((mu + 1 - q) / 2) 0).2 * Complex.I) := by
    rw [← Complex.exp_add]
    congr 1
    unfold lowPhase
    push_cast
    simp only [zero_mul, zero_add]
    ring
  rw [e, map_mul, phase_real hG h1, phase_real hG h2]

/-- The coefficients are conjugate-symmetric. -/
theorem kernel_symm {G : LnGamma} (hG : LgOk G) {mu q : ℝ} (hc : construct mu q = .ok ())
    (dL kr : ℝ) {N m : ℕ} (hm : m < N) :
    (starRingEnd ℂ) (kernelCoeff G mu q dL kr N m) = kernelCoeff G mu q dL kr N (rev N m) := by
  rcases rev_cases hm with ⟨h, e⟩ | ⟨h, e⟩
  · rw [e, h]
    unfold kernelCoeff
    split_ifs with h1
    · rw [Complex.conj_ofReal]
    · rw [kernelLow_eq, map_mul, Complex.conj_ofReal, lowPhase_zero_real hG hc]
    · omega
  · rw [e]
    unfold kernelCoeff
    by_cases hh : N % 2 = 0 ∧ m = N / 2
    · rw [if_pos hh, if_pos ⟨hh.1, by omega⟩, Complex.conj_ofReal, show N - m = m by omega]
    · have h2 : ¬ (N % 2 = 0 ∧ N - m = N / 2) := by omega
      rw [if_neg hh, if_neg h2]
      by_cases h3 : m ≤ N / 2
      · rw [if_pos h3, if_neg (by omega), show N - (N - m) = m by omega]
      · rw [if_neg h3, if_pos (by omega), Complex.conj_conj]

/-- The mid-point of an even number of samples has a real coefficient before its imaginary part is
dropped. -/
def MidReal (G : LnGamma) (mu q dL kr : ℝ) (N : ℕ) : Prop :=
  N % 2 = 0 → Complex.exp (lowPhase G mu q dL kr N (N / 2) * Complex.I) ^ 2 = 1

/-- Coefficients of opposite biases. -/
theorem kernel_inverse {G : LnGamma} (hG : LgOk G) {mu q : ℝ} (hc : construct mu q = .ok ())
    (dL kr : ℝ) {N m : ℕ} (hm : m < N) (hmid : MidReal G mu q dL kr N) :
    kernelCoeff G mu q dL kr N (rev N m) * kernelCoeff G mu (-q) dL kr N m = 1 := by
  have hR : ∀ m, (Real.exp (lowMod G mu q dL N m) : ℂ) * (Real.exp (-lowMod G mu q dL N m) : ℂ) = 1 := by
    intro m
    rw [← Complex.ofReal_mul, ← Real.exp_add, add_neg_cancel, Real.exp_zero, Complex.ofReal_one]
  rw [← kernel_symm hG hc dL kr hm]
  unfold kernelCoeff
  by_cases hh : N % 2 = 0 ∧ m = N / 2
  · rw [if_pos hh, if_pos hh, Complex.conj_ofReal, kernelLow_eq, kernelLow_eq, lowMod_neg, lowPhase_neg,
      Complex.re_ofReal_mul, Complex.re_ofReal_mul, Complex.exp_ofReal_mul_I_re]
    have h2 := hmid hh.1
    rw [← hh.2] at h2
    generalize lowPhase G mu q dL kr N m = t at h2
    have hcos : Real.cos t ^ 2 = 1 := by
      rw [← Complex.exp_nat_mul, show ((2 : ℕ) : ℂ) * ((t : ℂ) * Complex.I) = ((2 * t : ℝ) : ℂ) * Complex.I by
        push_cast; ring] at h2
      have h3 := congrArg Complex.re h2
      rw [Complex.exp_ofReal_mul_I_re, Complex.one_re, Real.cos_two_mul] at h3
      linarith
    push_cast
    have h4 : (Complex.cos t) ^ 2 = 1 := by
      rw [← Complex.ofReal_cos]; exact_mod_cast hcos
    have := hR m
    push_cast at this
    linear_combination (Complex.exp (lowMod G mu q dL N m) * Complex.exp (-(lowMod G mu q dL N m))) * h4 + this
  · rw [if_neg hh, if_neg hh]
    by_cases h3 : m ≤ N / 2
    · rw [if_pos h3, if_pos h3, kernelLow_eq, kernelLow_eq, lowMod_neg, lowPhase_neg, map_mul,
        Complex.conj_ofReal]
      linear_combination (Real.exp (lowMod G mu q dL N m) : ℂ) * (Real.exp (-lowMod G mu q dL N m) : ℂ) *
        exp_conj_mul (lowPhase G mu q dL kr N m) + hR m
    · rw [if_neg h3, if_neg h3, kernelLow_eq, kernelLow_eq, lowMod_neg, lowPhase_neg, Complex.conj_conj,
        map_mul, Complex.conj_ofReal]
      linear_combination (Real.exp (lowMod G mu q dL N (N - m)) : ℂ) *
        (Real.exp (-lowMod G mu q dL N (N - m)) : ℂ) *
        exp_conj_mul (lowPhase G mu q dL kr N (N - m)) + hR (N - m)

theorem exp_int_pi (k : ℤ) : Complex.exp (((Real.pi * k : ℝ) : ℂ) * Complex.I) ^ 2 = 1 := by
  rw [← Complex.exp_nat_mul, Complex.exp_eq_one_iff]
  exact ⟨k, by push_cast; ring⟩

/-- The mid-point phase. -/
theorem lowPhase_mid (G : LnGamma) (mu q : ℝ) {dL kr : ℝ} (hd : dL ≠ 0) {N : ℕ} (hN : N ≠ 0)
    (he : N % 2 = 0) : lowPhase G mu q dL kr N (N / 2) =
      -(Real.pi / dL) * Real.log (kr / 2) + (G ((mu + 1 + q) / 2) (Real.pi / (2 * dL))).2 +
        (G ((mu + 1 - q) / 2) (Real.pi / (2 * dL))).2 := by
  have h2 : ((N / 2 : ℕ) : ℝ) = N / 2 := by
    obtain ⟨k, hk⟩ : ∃ k, N = 2 * k := ⟨N / 2, by omega⟩
    rw [hk, Nat.mul_div_cancel_left _ (by norm_num)]
    push_cast; ring
  have hN' : (N : ℝ) ≠ 0 := by exact_mod_cast hN
  unfold lowPhase
  rw [h2, show (N : ℝ) / 2 * (Real.pi / (N * dL)) = Real.pi / (2 * dL) by field_simp]
  congr 2
  field_simp

/-- The mid-point phase in terms of the pivot. -/
noncomputable def midPhase (G : LnGamma) (mu q dL kr : ℝ) : ℝ :=
  -(Real.pi / dL) * Real.log (kr / 2) + (G ((mu + 1 + q) / 2) (Real.pi / (2 * dL))).2 +
    (G ((mu + 1 - q) / 2) (Real.pi / (2 * dL))).2

theorem midReal_of {G : LnGamma} {mu q dL kr : ℝ} (hd : dL ≠ 0) {N : ℕ} (hN : N ≠ 0)
    (h : ∃ k : ℤ, midPhase G mu q dL kr = Real.pi * k) : MidReal G mu q dL kr N := by
  intro he
  rw [lowPhase_mid G mu q hd hN he]
  obtain ⟨k, hk⟩ := h
  unfold midPhase at hk
  rw [hk]
  exact exp_int_pi k

/-- The low-ringing condition holds for the pivot computed from a positive one. -/
theorem lowring_pos (G : LnGamma) (mu q : ℝ) {dL kr : ℝ} (hd : dL ≠ 0) (hk : 0 < kr) :
    ∃ k : ℤ, midPhase G mu q dL (lowringPivot G mu q dL kr) = Real.pi * k := by
  unfold midPhase lowringPivot
  simp only [if_pos hk]
  generalize (G ((mu + 1 + q) / 2) (Real.pi / (2 * dL))).2 = P
  generalize (G ((mu + 1 - q) / 2) (Real.pi / (2 * dL))).2 = Q
  obtain ⟨A, hA⟩ : ∃ A, A = Real.log (2 / kr) / dL + (P + Q) / Real.pi := ⟨_, rfl⟩
  rw [← hA]
  have hpi := Real.pi_ne_zero
  refine ⟨roundAway A, ?_⟩
  rw [mul_div_right_comm, Real.log_mul (by positivity) (Real.exp_pos _).ne', Real.log_exp]
  have h1 : Real.log (2 / kr) = -Real.log (kr / 2) := by
    rw [← Real.log_inv, inv_div]
  rw [h1] at hA
  rw [hA]
  generalize (roundAway _ : ℝ) = R
  field_simp
  ring

theorem phase_conj {G : LnGamma} (hG : LgOk G) (x : ℝ) {y : ℝ} (hy : y ≠ 0) :
    ∃ k : ℤ, (G x (-y)).2 + (G x y).2 = 2 * Real.pi * k := by
  have him : ∀ y : ℝ, y ≠ 0 → ∀ n : ℕ, (x : ℂ) + y * Complex.I ≠ -n := by
    intro y hy n hn
    apply hy
    have := congrArg Complex.im hn
    simpa using this
  have h1 := hG x y (him y hy)
  have h2 := hG x (-y) (him (-y) (by simpa using hy))
  have hc : (x : ℂ) + ((-y : ℝ) : ℂ) * Complex.I = (starRingEnd ℂ) ((x : ℂ) + y * Complex.I) := by
    rw [map_add, map_mul, Complex.conj_ofReal, Complex.conj_ofReal, Complex.conj_I]
    push_cast; ring
  rw [hc, Complex.Gamma_conj, ← h1, map_mul, Complex.conj_ofReal] at h2
  have hn := congrArg (fun z : ℂ => ‖z‖) h2
  simp only [norm_mul, RCLike.norm_conj, Complex.norm_exp_ofReal_mul_I, mul_one, Complex.norm_real,
    Real.norm_eq_abs, abs_of_pos (Real.exp_pos _)] at hn
  rw [hn] at h2
  have hr : (Real.exp (G x y).1 : ℂ) ≠ 0 := by exact_mod_cast (Real.exp_pos _).ne'
  have h3 := mul_left_cancel₀ hr h2
  have h4 : Complex.exp ((G x (-y)).2 * Complex.I) * Complex.exp ((G x y).2 * Complex.I) = 1 := by
    rw [h3, exp_conj_mul]
  rw [← Complex.exp_add, Complex.exp_eq_one_iff] at h4
  obtain ⟨k, hk⟩ := h4
  refine ⟨k, ?_⟩
  have : (((G x (-y)).2 + (G x y).2 : ℝ) : ℂ) = ((2 * Real.pi * k : ℝ) : ℂ) := by
    apply mul_right_cancel₀ Complex.I_ne_zero
    push_cast
    linear_combination hk
  exact_mod_cast this

/-- The imaginary part of the ratio where the log-gamma function is used. -/
theorem lnratio_im (G : LnGamma) (mu q : ℝ) {y : ℝ} (hy : 2 * y < 100) :
    (lnratio G mu ((q : ℂ) + (2 * y : ℝ) * Complex.I)).im =
      (G ((mu + 1 + q) / 2) y).2 - (G ((mu + 1 - q) / 2) (-y)).2 := by
  unfold lnratio
  have e1 : ((mu : ℂ) + 1 + ((q : ℂ) + (2 * y : ℝ) * Complex.I)) / 2 = (((mu + 1 + q) / 2 : ℝ) : ℂ) + (y : ℂ) * Complex.I := by
    push_cast; ring
  have e2 : ((mu : ℂ) + 1 - ((q : ℂ) + (2 * y : ℝ) * Complex.I)) / 2 = (((mu + 1 - q) / 2 : ℝ) : ℂ) + ((-y : ℝ) : ℂ) * Complex.I := by
    push_cast; ring
  have e3 : ((q : ℂ) + (2 * y : ℝ) * Complex.I).im = 2 * y := by simp
  rw [e1, e2, e3, if_pos hy]
  simp

/-- The low-ringing condition holds for the pivot computed directly, unless the asymptotic series
is used. -/
theorem lowring_direct {G : LnGamma} (hG : LgOk G) (mu q : ℝ) {dL kr : ℝ} (hd : 0 < dL) (hk : kr ≤ 0)
    (hy : Real.pi / dL < 100) :
    ∃ k : ℤ, midPhase G mu q dL (lowringPivot G mu q dL kr) = Real.pi * k := by
  have hpi := Real.pi_pos
  obtain ⟨k, hk2⟩ := phase_conj hG ((mu + 1 - q) / 2) (y := Real.pi / (2 * dL)) (by positivity)
  unfold midPhase lowringPivot
  simp only [if_neg (not_lt.2 hk)]
  have e2 : 2 * (Real.pi / (2 * dL)) = Real.pi / dL := by field_simp
  rw [lnratio_im G mu q (by rw [e2]; exact hy), e2]
  generalize (G ((mu + 1 + q) / 2) (Real.pi / (2 * dL))).2 = P
  generalize (G ((mu + 1 - q) / 2) (Real.pi / (2 * dL))).2 = Q at *
  generalize (G ((mu + 1 - q) / 2) (-(Real.pi / (2 * dL)))).2 = Q' at *
  generalize ⌊(Real.log 2 + (P - Q') / (Real.pi / dL)) / dL⌋ = F
  refine ⟨2 * k + F, ?_⟩
  rw [Real.log_div (Real.exp_pos _).ne' (by norm_num), Real.log_exp]
  push_cast
  have hQ : Q' = 2 * Real.pi * k - Q := by linarith
  rw [hQ]
  field_simp
  ring

theorem roundAway_int (k : ℤ) : roundAway (k : ℝ) = k := by
  unfold roundAway
  split_ifs
  · rw [Int.floor_eq_iff]; constructor <;> linarith
  · rw [Int.ceil_eq_iff]; constructor <;> linarith

/-- A pivot meeting the low-ringing condition is kept, for the opposite bias as well. -/
theorem lowring_fix {G : LnGamma} {mu q dL kr : ℝ} (hk : 0 < kr)
    (h : ∃ k : ℤ, midPhase G mu q dL kr = Real.pi * k) : lowringPivot G mu (-q) dL kr = kr := by
  obtain ⟨k, hk2⟩ := h
  unfold lowringPivot
  simp only [if_pos hk]
  rw [← sub_eq_add_neg, sub_neg_eq_add]
  have hpi := Real.pi_ne_zero
  have : Real.log (2 / kr) / dL + ((G ((mu + 1 - q) / 2) (Real.pi / (2 * dL))).2 +
      (G ((mu + 1 + q) / 2) (Real.pi / (2 * dL))).2) / Real.pi = k := by
    have h1 : Real.log (2 / kr) = -Real.log (kr / 2) := by
      rw [← Real.log_inv, inv_div]
    unfold midPhase at hk2
    rw [h1]
    apply mul_left_cancel₀ hpi
    rw [← hk2]
    generalize (G ((mu + 1 + q) / 2) (Real.pi / (2 * dL))).2 = P
    generalize (G ((mu + 1 - q) / 2) (Real.pi / (2 * dL))).2 = Q
    field_simp
    ring
  rw [this, roundAway_int]
  simp

theorem lowringPivot_pos (G : LnGamma) (mu q dL kr : ℝ) : 0 < lowringPivot G mu q dL kr := by
  unfold lowringPivot
  simp only
  split_ifs with h
  · positivity
  · positivity

/-! ### Initialisation -/

/-- What an accepted initialisation gives. -/
structure Ready (G : LnGamma) (mu q : ℝ) (pts : List ℝ) (kr : ℝ) (lowring : Bool) (x : Extrap)
    (e : ℝ) (H : Hankel) : Prop where
  con : construct mu q = .ok ()
  len : 2 ≤ pts.length
  lin : loglinOk pts
  ext : extension pts x e = .ok (H.nsampTrans, H.nExt, H.preExt)
  kr0 : lowring = true ∨ 0 < kr
  hpivot : H.pivot = if lowring then lowringPivot G mu q H.logres kr else kr
  npos : 0 < H.nsampTrans
  lpos : 0 < H.logres
  ppos : 0 < H.pivot
  hpre : H.pre = pts
  hns : H.nsamp = pts.length
  hlog : H.logres = Real.log (pts.getLastD 0 / pts.headD 0) / ((pts.length : ℝ) - 1)
  hext : H.extrap = x
  hker : H.kernel = kernelCoeff G mu q H.logres H.pivot H.nsampTrans
  hpost : H.post = (List.range pts.length).map fun j : ℕ =>
    H.pivot * Real.exp (-H.logres) / pts.getD (pts.length - j - 1) 0
  hpostE : H.postExt = if x = .none then [] else (List.range H.nsampTrans).map fun j : ℕ =>
    (pts[H.nsampTrans - j - 1]?).map (H.pivot * Real.exp (-H.logres) / ·)

theorem init_ready {G : LnGamma} {mu q : ℝ} {pts : List ℝ} {kr : ℝ} {lowring : Bool} {x : Extrap}
    {e : ℝ} {H : Hankel} (h : initialise G mu q pts kr lowring x e = .ok H) :
    Ready G mu q pts kr lowring x e H := by
  unfold initialise at h
  cases hc : construct mu q with
  | error err => rw [hc] at h; cases h
  | ok u =>
    rw [hc] at h
    simp only at h
    by_cases h1 : pts.length < 2
    · rw [if_pos h1] at h; cases h
    rw [if_neg h1] at h
    by_cases h2 : loglinOk pts
    swap
    · rw [if_pos h2] at h; cases h
    rw [if_neg (not_not.2 h2)] at h
    cases he : extension pts x e with
    | error err => rw [he] at h; cases h
    | ok r =>
      obtain ⟨nt, nx, pe⟩ := r
      rw [he] at h
      simp only at h
      by_cases h3 : lowring = false ∧ kr ≤ 0
      · rw [if_pos h3] at h; cases h
      rw [if_neg h3] at h
      by_cases h4 : nt ≤ 0 ∨ Real.log (pts.getLastD 0 / pts.headD 0) / ((pts.length : ℝ) - 1) ≤ 0 ∨
          (if lowring then lowringPivot G mu q
            (Real.log (pts.getLastD 0 / pts.headD 0) / ((pts.length : ℝ) - 1)) kr else kr) ≤ 0
      · rw [if_pos h4] at h; cases h
      rw [if_neg h4] at h
      simp only [not_or, not_le] at h4
      cases h
      refine ⟨hc, by omega, h2, he, ?_, rfl, h4.1, h4.2.1, h4.2.2, rfl, rfl, rfl, rfl, rfl, rfl, rfl⟩
      by_cases hl : lowring = true
      · exact Or.inl hl
      · right
        by_contra hcon
        exact h3 ⟨by simpa using hl, not_lt.1 hcon⟩

end Trv.Fft

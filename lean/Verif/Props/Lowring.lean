import Verif.Props.Fftlog
import Verif.Lemmas.GammaStirling
/-
C121: the low-ringing pivot.
-/
namespace Trv.Fft

open Trv

/-- The low-ringing condition (Hamilton 2000, eq. 186): the coefficient of the kernel at the Nyquist
frequency is real. -/
def LowRinging (mu q dL kr : ℝ) : Prop :=
  (Complex.exp (-(Real.pi / dL * Real.log kr : ℝ) * Complex.I) *
    powerLaw mu ((q : ℂ) + (Real.pi / dL : ℝ) * Complex.I)).im = 0

theorem roundAway_near (x : ℝ) : |x - roundAway x| ≤ 1 / 2 := by
  unfold roundAway
  rw [abs_le]
  split_ifs
  · have h1 := Int.floor_le (x + 1 / 2)
    have h2 := Int.lt_floor_add_one (x + 1 / 2)
    constructor <;> linarith
  · have h1 := Int.le_ceil (x - 1 / 2)
    have h2 := Int.ceil_lt_add_one (x - 1 / 2)
    constructor <;> linarith

theorem roundAway_nearest (x : ℝ) (k : ℤ) : |x - roundAway x| ≤ |x - k| := by
  by_cases h : k = roundAway x
  · rw [h]
  · have h1 : (1 : ℤ) ≤ |k - roundAway x| := Int.one_le_abs (sub_ne_zero.2 h)
    have h2 : (1 : ℝ) ≤ |(k : ℝ) - roundAway x| := by exact_mod_cast h1
    have h3 := roundAway_near x
    have h4 : |(k : ℝ) - roundAway x| ≤ |x - k| + |x - roundAway x| := by
      have := abs_sub_le (k : ℝ) x (roundAway x)
      rwa [abs_sub_comm (k : ℝ) x] at this
    linarith

/-- The condition in terms of the phases of the log-gamma function. -/
theorem lowRinging_iff {G : LnGamma} (hG : LgOk G) (mu q : ℝ) {dL kr : ℝ} (hd : 0 < dL) (hk : 0 < kr) :
    LowRinging mu q dL kr ↔ ∃ k : ℤ, midPhase G mu q dL kr = Real.pi * k := by
  have hpi := Real.pi_pos
  obtain ⟨y, hy⟩ : ∃ y, y = Real.pi / (2 * dL) := ⟨_, rfl⟩
  have hy0 : 0 < y := by rw [hy]; positivity
  have e2 : Real.pi / dL = 2 * y := by rw [hy]; field_simp
  have him : ∀ x : ℝ, ∀ n : ℕ, (x : ℂ) + y * Complex.I ≠ -n := by
    intro x n hn
    have := congrArg Complex.im hn
    simp at this
    linarith
  have hp := hG ((mu + 1 + q) / 2) y (him _)
  have hm := hG ((mu + 1 - q) / 2) y (him _)
  have hphase : midPhase G mu q dL kr = -(2 * y * Real.log kr) + 2 * y * Real.log 2 +
      (G ((mu + 1 + q) / 2) y).2 + (G ((mu + 1 - q) / 2) y).2 := by
    unfold midPhase
    rw [Real.log_div hk.ne' (by norm_num), e2, ← hy]
    ring
  generalize G ((mu + 1 + q) / 2) y = gp at hp hphase
  generalize G ((mu + 1 - q) / 2) y = gm at hm hphase
  have hmc : Complex.Gamma (((mu + 1 - q) / 2 : ℝ) - y * Complex.I) =
      (Real.exp gm.1 : ℂ) * Complex.exp (-(gm.2 * Complex.I)) := by
    have hc : (((mu + 1 - q) / 2 : ℝ) : ℂ) - y * Complex.I =
        (starRingEnd ℂ) ((((mu + 1 - q) / 2 : ℝ) : ℂ) + y * Complex.I) := by
      rw [map_add, map_mul, Complex.conj_ofReal, Complex.conj_ofReal, Complex.conj_I]
      ring
    rw [hc, Complex.Gamma_conj, ← hm, map_mul, Complex.conj_ofReal, ← Complex.exp_conj, map_mul,
      Complex.conj_ofReal, Complex.conj_I]
    congr 2
    ring
  have hval : Complex.exp (-(Real.pi / dL * Real.log kr : ℝ) * Complex.I) *
      powerLaw mu ((q : ℂ) + (Real.pi / dL : ℝ) * Complex.I) =
      ((Real.exp (q * Real.log 2 + gp.1 - gm.1) : ℝ) : ℂ) *
        Complex.exp ((midPhase G mu q dL kr : ℝ) * Complex.I) := by
    unfold powerLaw
    have a1 : ((mu : ℂ) + 1 + ((q : ℂ) + (Real.pi / dL : ℝ) * Complex.I)) / 2 =
        (((mu + 1 + q) / 2 : ℝ) : ℂ) + y * Complex.I := by
      rw [e2]; push_cast; ring
    have a2 : ((mu : ℂ) + 1 - ((q : ℂ) + (Real.pi / dL : ℝ) * Complex.I)) / 2 =
        (((mu + 1 - q) / 2 : ℝ) : ℂ) - y * Complex.I := by
      rw [e2]; push_cast; ring
    rw [a1, a2, ← hp, hmc, Complex.cpow_def_of_ne_zero (by norm_num),
      show (2 : ℂ) = ((2 : ℝ) : ℂ) by norm_num, ← Complex.ofReal_log (by norm_num), hphase, e2,
      Complex.ofReal_exp, Complex.ofReal_exp, Complex.ofReal_exp, div_eq_mul_inv, mul_inv, ← Complex.exp_neg,
      ← Complex.exp_neg]
    simp only [← Complex.exp_add]
    congr 1
    push_cast
    ring
  unfold LowRinging
  rw [hval, Complex.im_ofReal_mul, Complex.exp_ofReal_mul_I_im, mul_eq_zero, Real.sin_eq_zero_iff]
  constructor
  · rintro (h | ⟨k, hk⟩)
    · exact absurd h (Real.exp_pos _).ne'
    · exact ⟨k, by rw [← hk]; ring⟩
  · rintro ⟨k, hk⟩
    exact Or.inr ⟨k, by rw [hk]; ring⟩

/-- Pivots meeting the condition are a whole number of logarithmic spacings apart. -/
theorem midPhase_log {G : LnGamma} {mu q dL kr kr' : ℝ} (hd : 0 < dL) (hk : 0 < kr) (hk' : 0 < kr') :
    Real.log (kr' / kr) = dL / Real.pi * (midPhase G mu q dL kr - midPhase G mu q dL kr') := by
  unfold midPhase
  have hpi := Real.pi_pos
  rw [Real.log_div hk'.ne' hk.ne', Real.log_div hk.ne' two_ne_zero, Real.log_div hk'.ne' two_ne_zero]
  field_simp
  ring

theorem init_lowring {G : LnGamma} {mu q : ℝ} {pts : List ℝ} {kr : ℝ} {x : Extrap} {e : ℝ} {H : Hankel}
    (h : initialise G mu q pts kr true x e = .ok H) :
    0 < H.logres ∧ 0 < H.pivot ∧ H.pivot = lowringPivot G mu q H.logres kr := by
  have R := init_ready h
  exact ⟨R.lpos, R.ppos, by rw [R.hpivot, if_pos rfl]⟩

/-- **C121, the low-ringing pivot nearest to the one given.** With the low-ringing condition asked for and a
positive pivot given, the pivot used meets the condition, is within half a logarithmic spacing of the pivot
given, and no pivot which meets the condition is nearer. -/
theorem C121_lowring_nearest {G : LnGamma} (hG : LgOk G) {mu q : ℝ} {pts : List ℝ} {kr : ℝ} {x : Extrap}
    {e : ℝ} {H : Hankel} (hk : 0 < kr) (h : initialise G mu q pts kr true x e = .ok H) :
    LowRinging mu q H.logres H.pivot ∧ |Real.log (H.pivot / kr)| ≤ H.logres / 2 ∧
    ∀ kr', 0 < kr' → LowRinging mu q H.logres kr' → |Real.log (H.pivot / kr)| ≤ |Real.log (kr' / kr)| := by
  obtain ⟨hd, hp, he⟩ := init_lowring h
  generalize H.logres = dL at *
  generalize H.pivot = p at *
  have hpi := Real.pi_pos
  obtain ⟨A, hA⟩ : ∃ A, A = midPhase G mu q dL kr / Real.pi := ⟨_, rfl⟩
  have hA' : Real.log (2 / kr) / dL + ((G ((mu + 1 + q) / 2) (Real.pi / (2 * dL))).2 +
      (G ((mu + 1 - q) / 2) (Real.pi / (2 * dL))).2) / Real.pi = A := by
    rw [hA]
    unfold midPhase
    have h1 : Real.log (2 / kr) = -Real.log (kr / 2) := by
      rw [← Real.log_inv, inv_div]
    rw [h1]
    field_simp
    ring
  have hlog : Real.log (p / kr) = dL * (A - roundAway A) := by
    rw [he]
    unfold lowringPivot
    simp only [if_pos hk]
    rw [hA', mul_div_assoc, mul_div_left_comm, div_self hk.ne', mul_one, Real.log_exp]
  refine ⟨(lowRinging_iff hG mu q hd hp).2 (by rw [he]; exact lowring_pos G mu q hd.ne' hk), ?_, ?_⟩
  · rw [hlog, abs_mul, abs_of_pos hd]
    have := roundAway_near A
    nlinarith
  · intro kr' hk' hl
    obtain ⟨k, hk2⟩ := (lowRinging_iff hG mu q hd hk').1 hl
    rw [hlog, midPhase_log (G := G) (mu := mu) (q := q) hd hk hk', hk2]
    have : dL / Real.pi * (midPhase G mu q dL kr - Real.pi * k) = dL * (A - k) := by
      rw [hA]; field_simp
    rw [this, abs_mul, abs_mul, abs_of_pos hd]
    exact mul_le_mul_of_nonneg_left (roundAway_nearest A k) hd.le

/-- **C121, the low-ringing pivot without one given, coarse spacing.** It is the one pivot which meets the
condition between 1 and the ratio of neighbouring points, for a logarithmic spacing above π/100. -/
theorem C121_lowring_default {G : LnGamma} (hG : LgOk G) {mu q : ℝ} {pts : List ℝ} {kr : ℝ}
    {x : Extrap} {e : ℝ} {H : Hankel} (hk : kr ≤ 0) (h : initialise G mu q pts kr true x e = .ok H)
    (hy : Real.pi / H.logres < 100) :
    ∀ kr', (LowRinging mu q H.logres kr' ∧ 1 ≤ kr' ∧ kr' < Real.exp H.logres) ↔ kr' = H.pivot := by
  obtain ⟨hd, hp, he⟩ := init_lowring h
  generalize H.logres = dL at *
  generalize H.pivot = p at *
  have hpi := Real.pi_pos
  have hl : ∃ k : ℤ, midPhase G mu q dL p = Real.pi * k := by
    rw [he]; exact lowring_direct hG mu q hd hk hy
  have hlog : 0 ≤ Real.log p ∧ Real.log p < dL := by
    rw [he]
    unfold lowringPivot
    simp only [if_neg (not_lt.2 hk)]
    rw [Real.log_exp]
    generalize Real.log 2 + _ = L
    have h1 := Int.floor_le (L / dL)
    have h2 := Int.lt_floor_add_one (L / dL)
    have h3 : L / dL * dL = L := by field_simp
    constructor <;> nlinarith
  have hb : ∀ z, 0 < z → ((1 ≤ z ∧ z < Real.exp dL) ↔ (0 ≤ Real.log z ∧ Real.log z < dL)) := by
    intro z hz
    rw [Real.log_nonneg_iff hz, Real.log_lt_iff_lt_exp hz]
  intro kr'
  constructor
  · rintro ⟨h1, h2, h3⟩
    have hk' : 0 < kr' := by linarith
    obtain ⟨k1, e1⟩ := hl
    obtain ⟨k2, e2⟩ := (lowRinging_iff hG mu q hd hk').1 h1
    have hm := midPhase_log (G := G) (mu := mu) (q := q) hd hp hk'
    rw [e1, e2] at hm
    have hz := (hb kr' hk').1 ⟨h2, h3⟩
    have hmm : Real.log kr' - Real.log p = dL * (k1 - k2 : ℤ) := by
      rw [← Real.log_div hk'.ne' hp.ne', hm]
      push_cast
      field_simp
    have hk0 : k1 - k2 = 0 := by
      have a1 : -dL < dL * (k1 - k2 : ℤ) := by rw [← hmm]; linarith [hlog.1, hlog.2, hz.1, hz.2]
      have a2 : dL * (k1 - k2 : ℤ) < dL := by rw [← hmm]; linarith [hlog.1, hlog.2, hz.1, hz.2]
      have b1 : (-1 : ℝ) < (k1 - k2 : ℤ) := by nlinarith
      have b2 : ((k1 - k2 : ℤ) : ℝ) < 1 := by nlinarith
      have c1 : (-1 : ℤ) < k1 - k2 := by exact_mod_cast b1
      have c2 : k1 - k2 < 1 := by exact_mod_cast b2
      omega
    rw [hk0] at hmm
    have : Real.log kr' = Real.log p := by simpa [sub_eq_zero] using hmm
    exact Real.log_injOn_pos (Set.mem_Ioi.2 hk') (Set.mem_Ioi.2 hp) this
  · rintro rfl
    exact ⟨(lowRinging_iff hG mu q hd hp).2 hl, (hb _ hp).2 hlog⟩

/-- The phase at the default pivot. -/
theorem lowring_phase {G : LnGamma} (hG : LgOk G) (mu q : ℝ) {dL kr : ℝ} (hd : 0 < dL) (hk : kr ≤ 0)
    (hy : 100 ≤ Real.pi / dL) : ∃ (k : ℤ) (d : ℝ), |d| ≤ 7 * (dL / Real.pi) ^ 7 ∧
      midPhase G mu q dL (lowringPivot G mu q dL kr) = Real.pi * k + d := by
  have hpi := Real.pi_pos
  obtain ⟨y, hyd⟩ : ∃ y, y = Real.pi / (2 * dL) := ⟨_, rfl⟩
  have e2 : 2 * y = Real.pi / dL := by rw [hyd]; field_simp
  have hy0 : 0 < y := by rw [hyd]; positivity
  have him : ((q : ℂ) + (2 * y : ℝ) * Complex.I).im = 2 * y := by simp
  obtain ⟨d, hb, hr⟩ := ratio_far G mu (nu := (q : ℂ) + (2 * y : ℝ) * Complex.I) (by rw [him, e2]; exact hy)
  have a1 : ((mu : ℂ) + 1 + ((q : ℂ) + (2 * y : ℝ) * Complex.I)) / 2 =
      (((mu + 1 + q) / 2 : ℝ) : ℂ) + (y : ℂ) * Complex.I := by push_cast; ring
  have a2 : ((mu : ℂ) + 1 - ((q : ℂ) + (2 * y : ℝ) * Complex.I)) / 2 =
      (starRingEnd ℂ) ((((mu + 1 - q) / 2 : ℝ) : ℂ) + (y : ℂ) * Complex.I) := by
    rw [map_add, map_mul, Complex.conj_ofReal, Complex.conj_ofReal, Complex.conj_I]
    push_cast
    ring
  have hne : ∀ x : ℝ, ∀ n : ℕ, (x : ℂ) + y * Complex.I ≠ -n := by
    intro x n hn
    have := congrArg Complex.im hn
    simp at this
    linarith
  rw [a1, a2, Complex.Gamma_conj, ← hG _ _ (hne _), ← hG _ _ (hne _)] at hr
  unfold midPhase lowringPivot
  simp only [if_neg (not_lt.2 hk)]
  rw [← hyd]
  generalize G ((mu + 1 + q) / 2) y = gp at *
  generalize G ((mu + 1 - q) / 2) y = gm at *
  generalize lnratio G mu ((q : ℂ) + (2 * y : ℝ) * Complex.I) = w at *
  obtain ⟨k, hJ⟩ : ∃ k : ℤ, w.im + d.im = gp.2 + gm.2 + 2 * Real.pi * k := by
    have hx : Complex.exp (w + d) = Complex.exp (((gp.1 - gm.1 : ℝ) : ℂ) + ((gp.2 + gm.2 : ℝ) : ℂ) * Complex.I) := by
      rw [Complex.exp_add, hr, map_mul, Complex.conj_ofReal, ← Complex.exp_conj, map_mul, Complex.conj_ofReal,
        Complex.conj_I, Complex.ofReal_exp, Complex.ofReal_exp, ← Complex.exp_add, ← Complex.exp_add, ← Complex.exp_sub]
      congr 1
      push_cast
      ring
    obtain ⟨k, hk⟩ := Complex.exp_eq_exp_iff_exists_int.1 hx
    refine ⟨k, ?_⟩
    have := congrArg Complex.im hk
    simp at this
    linarith
  rw [e2]
  generalize ⌊(Real.log 2 + w.im / (Real.pi / dL)) / dL⌋ = F
  refine ⟨F - 2 * k, d.im, ?_, ?_⟩
  · rw [him, e2] at hb
    refine (Complex.abs_im_le_norm d).trans (hb.trans (le_of_eq ?_))
    rw [div_pow, div_pow]
    field_simp
  · rw [Real.log_div (Real.exp_pos _).ne' (by norm_num), Real.log_exp]
    push_cast
    have : w.im = gp.2 + gm.2 + 2 * Real.pi * k - d.im := by linarith
    rw [this]
    field_simp
    ring

/-- **C121, the low-ringing pivot without one given, any spacing.** It is between 1 and the ratio of neighbouring
points, and meets the condition within rounding: a pivot which does meet it is at a relative distance of less
than `3 δ (δ/π)^7`, where `δ` is the logarithmic spacing (`10^{-15}` where the asymptotic series is used). -/
theorem C121_lowring_close {G : LnGamma} (hG : LgOk G) {mu q : ℝ} {pts : List ℝ} {kr : ℝ}
    {x : Extrap} {e : ℝ} {H : Hankel} (hk : kr ≤ 0) (h : initialise G mu q pts kr true x e = .ok H) :
    1 ≤ H.pivot ∧ H.pivot < Real.exp H.logres ∧
    ∃ kr', 0 < kr' ∧ LowRinging mu q H.logres kr' ∧
      |Real.log (kr' / H.pivot)| ≤ 3 * H.logres * (H.logres / Real.pi) ^ 7 ∧
      (100 ≤ Real.pi / H.logres → |Real.log (kr' / H.pivot)| ≤ 1 / 10 ^ 15) := by
  obtain ⟨hd, hp, he⟩ := init_lowring h
  generalize H.logres = dL at *
  generalize H.pivot = p at *
  have hpi := Real.pi_gt_three
  have hpi' := Real.pi_lt_d2
  have hlog : 0 ≤ Real.log p ∧ Real.log p < dL := by
    rw [he]
    unfold lowringPivot
    simp only [if_neg (not_lt.2 hk)]
    rw [Real.log_exp]
    generalize Real.log 2 + _ = L
    have h1 := Int.floor_le (L / dL)
    have h2 := Int.lt_floor_add_one (L / dL)
    have h3 : L / dL * dL = L := by field_simp
    constructor <;> nlinarith
  refine ⟨(Real.log_nonneg_iff hp).1 hlog.1, (Real.log_lt_iff_lt_exp hp).1 hlog.2, ?_⟩
  obtain ⟨k, d, hdb, hd0, hph⟩ : ∃ (k : ℤ) (d : ℝ), |d| ≤ 7 * (dL / Real.pi) ^ 7 ∧ (Real.pi / dL < 100 → d = 0) ∧
      midPhase G mu q dL p = Real.pi * k + d := by
    by_cases hy : Real.pi / dL < 100
    · obtain ⟨k, hk'⟩ := lowring_direct hG mu q hd hk hy
      refine ⟨k, 0, by rw [abs_zero]; positivity, fun _ => rfl, ?_⟩
      rw [he, hk', add_zero]
    · obtain ⟨k, d, h1, h2⟩ := lowring_phase hG mu q hd hk (not_lt.1 hy)
      exact ⟨k, d, h1, fun h => absurd h hy, by rw [he]; exact h2⟩
  have hk' : 0 < p * Real.exp (dL / Real.pi * d) := mul_pos hp (Real.exp_pos _)
  have hl : Real.log (p * Real.exp (dL / Real.pi * d) / p) = dL / Real.pi * d := by
    rw [mul_div_assoc, mul_div_left_comm, div_self hp.ne', mul_one, Real.log_exp]
  have hb : |dL / Real.pi * d| ≤ 3 * dL * (dL / Real.pi) ^ 7 := by
    rw [abs_mul, abs_of_pos (by positivity)]
    have : 0 ≤ (dL / Real.pi) ^ 7 := by positivity
    calc dL / Real.pi * |d| ≤ dL / Real.pi * (7 * (dL / Real.pi) ^ 7) := by gcongr
      _ = dL * (7 / Real.pi) * (dL / Real.pi) ^ 7 := by ring
      _ ≤ dL * 3 * (dL / Real.pi) ^ 7 := by
        gcongr
        rw [div_le_iff₀ (by positivity)]
        linarith
      _ = 3 * dL * (dL / Real.pi) ^ 7 := by ring
  refine ⟨_, hk', (lowRinging_iff hG mu q hd hk').2 ⟨k, ?_⟩, by rw [hl]; exact hb, ?_⟩
  · have hm := midPhase_log (G := G) (mu := mu) (q := q) hd hp hk'
    rw [hl, hph] at hm
    have hne : dL / Real.pi ≠ 0 := by positivity
    have := mul_left_cancel₀ hne hm
    linarith
  · intro hy
    rw [hl]
    refine hb.trans ?_
    have h1 : dL / Real.pi ≤ 1 / 100 := by
      rw [le_div_iff₀ (by positivity)] at hy
      rw [div_le_div_iff₀ (by positivity) (by norm_num)]
      linarith
    have h2 : (dL / Real.pi) ^ 7 ≤ (1 / 100) ^ 7 := pow_le_pow_left₀ (by positivity) h1 7
    have h3 : dL ≤ 315 / 10000 := by
      rw [div_le_iff₀ (by positivity)] at h1
      linarith
    have h4 : 0 ≤ (dL / Real.pi) ^ 7 := by positivity
    calc 3 * dL * (dL / Real.pi) ^ 7 ≤ 3 * (315 / 10000) * (1 / 100) ^ 7 := by gcongr
      _ ≤ 1 / 10 ^ 15 := by norm_num

/-! ### C141 -/

/-- **C141.** The exponential of the computed logarithm is the ratio of gamma functions: exactly where the log-gamma
function of the library is used, and with a relative error of at most `7 / y^7` (less than `10^{-13}`) where the
asymptotic series is, `y` being the imaginary part of the exponent, whatever the order and whatever the sign of the
real parts. -/
theorem C141_ratio {G : LnGamma} (hG : LgOk G) (mu : ℝ) (nu : ℂ)
    (hp : ∀ n : ℕ, (mu + 1 + nu) / 2 ≠ -(n : ℂ)) (hm : ∀ n : ℕ, (mu + 1 - nu) / 2 ≠ -(n : ℂ)) :
    ∃ d : ℂ, Complex.exp (lnratio G mu nu) * Complex.exp d =
        Complex.Gamma ((mu + 1 + nu) / 2) / Complex.Gamma ((mu + 1 - nu) / 2) ∧
      (nu.im < 100 → d = 0) ∧ (100 ≤ nu.im → ‖d‖ ≤ 7 / nu.im ^ 7 ∧ ‖d‖ < 1 / 10 ^ 13) := by
  by_cases h : nu.im < 100
  · refine ⟨0, ?_, fun _ => rfl, fun h' => absurd h (not_lt.2 h')⟩
    rw [Complex.exp_zero, mul_one]
    exact ratio_near hG mu h hp hm
  · obtain ⟨d, h1, h2⟩ := ratio_far G mu (not_lt.1 h)
    refine ⟨d, h2, fun h' => absurd h' h, fun _ => ⟨h1, h1.trans_lt ?_⟩⟩
    have : (100 : ℝ) ^ 7 ≤ nu.im ^ 7 := pow_le_pow_left₀ (by norm_num) (not_lt.1 h) 7
    rw [div_lt_div_iff₀ (by positivity) (by norm_num)]
    linarith

theorem init_geometric_lowring (G : LnGamma) {mu q : ℝ} (hc : construct mu q = .ok ()) {r0 d : ℝ} (hr : 0 < r0)
    (hd : 0 < d) {N : ℕ} (hN : 2 ≤ N) (kr e : ℝ) :
    ∃ H, initialise G mu q (geometric r0 d N) kr true .none e = .ok H := by
  unfold initialise
  rw [hc]
  simp only
  rw [if_neg (by rw [geometric_length]; omega), if_neg (not_not.2 (loglinOk_geometric hr d hN)),
    geometric_logres hr d hN]
  unfold extension
  simp only [if_true]
  rw [if_neg, if_neg]
  · exact ⟨_, rfl⟩
  · simp only [not_or, not_le, geometric_length]
    exact ⟨by omega, hd, lowringPivot_pos G mu q d kr⟩
  · rintro ⟨h, _⟩; simp at h

/-- The hypotheses are met: four points a factor e apart, a pivot of 1, or none given. -/
example : ∃ H H' : Hankel, initialise trueLg (0 + 1 / 2) 0 (geometric 1 1 4) 1 true .none 2 = .ok H ∧
    initialise trueLg (0 + 1 / 2) 0 (geometric 1 1 4) 0 true .none 2 = .ok H' ∧ Real.pi / H'.logres < 100 ∧
    LgOk trueLg := by
  have hc : construct (0 + 1 / 2) 0 = .ok () := by simpa using construct_half 0
  obtain ⟨H, hH⟩ := init_geometric_lowring trueLg hc (r0 := 1) (d := 1) one_pos one_pos (N := 4) (by norm_num) 1 2
  obtain ⟨H', hH'⟩ := init_geometric_lowring trueLg hc (r0 := 1) (d := 1) one_pos one_pos (N := 4)
    (by norm_num) 0 2
  have hd : H'.logres = 1 := by rw [(init_ready hH').hlog, geometric_logres one_pos 1 (by norm_num)]
  refine ⟨H, H', hH, hH', ?_, trueLg_ok⟩
  rw [hd]
  linarith [Real.pi_le_four]

/-- The hypotheses are met where the asymptotic series is used. -/
example : ∃ H : Hankel, initialise trueLg (0 + 1 / 2) 0 (geometric 1 (1 / 100) 4) 0 true .none 2 = .ok H ∧
    100 ≤ Real.pi / H.logres ∧ LgOk trueLg := by
  have hc : construct (0 + 1 / 2) 0 = .ok () := by simpa using construct_half 0
  obtain ⟨H, hH⟩ := init_geometric_lowring trueLg hc (r0 := 1) (d := 1 / 100) one_pos (by norm_num) (N := 4)
    (by norm_num) 0 2
  have hd : H.logres = 1 / 100 := by rw [(init_ready hH).hlog, geometric_logres one_pos (1 / 100) (by norm_num)]
  refine ⟨H, hH, ?_, trueLg_ok⟩
  rw [hd]
  have := Real.pi_gt_three
  rw [le_div_iff₀ (by norm_num)]
  linarith

/-- The hypotheses of C141 are met on either side of the threshold, and for negative real parts. -/
example : LgOk trueLg ∧ ∀ y : ℝ, 0 < y → ∀ n : ℕ,
    (((1 / 2 : ℝ) : ℂ) + 1 + ((7 : ℂ) + y * Complex.I)) / 2 ≠ -(n : ℂ) ∧
    (((1 / 2 : ℝ) : ℂ) + 1 - ((7 : ℂ) + y * Complex.I)) / 2 ≠ -(n : ℂ) := by
  refine ⟨trueLg_ok, fun y hy n => ⟨fun h => ?_, fun h => ?_⟩⟩
  · have := congrArg Complex.im h
    rw [(half_im _ _).1] at this
    simp at this
    linarith
  · have := congrArg Complex.im h
    rw [(half_im _ _).2] at this
    simp at this
    linarith

end Trv.Fft

import Verif.Lemmas.Fftlog
/-
Helper lemmas on the sample points of the FFTLog transform.
-/
namespace Trv.Fft

open Trv.Arr

/-! ### Logarithmically spaced points -/

theorem geometric_length (r0 d : ℝ) (N : ℕ) : (geometric r0 d N).length = N := by simp [geometric]

theorem geometric_getD (r0 d : ℝ) {N j : ℕ} (h : j < N) (x : ℝ) :
    (geometric r0 d N).getD j x = r0 * Real.exp (j * d) := by
  unfold geometric
  rw [List.getD_eq_getElem?_getD, List.getElem?_map, List.getElem?_range h]
  rfl

theorem geometric_succ (r0 d : ℝ) (N : ℕ) :
    geometric r0 d (N + 1) = r0 :: geometric (r0 * Real.exp d) d N := by
  unfold geometric
  rw [List.range_succ_eq_map, List.map_cons, List.map_map]
  congr 1
  · simp
  · apply List.map_congr_left
    intro j _
    simp only [Function.comp_apply, Nat.succ_eq_add_one]
    push_cast
    rw [mul_assoc, ← Real.exp_add]
    congr 2
    ring

theorem logDiffs_geometric {r0 : ℝ} (hr : 0 < r0) (d : ℝ) (N : ℕ) :
    logDiffs (geometric r0 d (N + 1)) = some (List.replicate N d) := by
  induction N generalizing r0 with
  | zero => rw [geometric_succ]; simp [geometric, logDiffs]
  | succ N ih =>
    have h2 := ih (mul_pos hr (Real.exp_pos d))
    rw [geometric_succ r0, geometric_succ]
    rw [geometric_succ] at h2
    have e : r0 * Real.exp d / r0 = Real.exp d := by field_simp
    unfold logDiffs
    rw [if_neg, h2]
    · simp only [e, Real.log_exp, List.replicate_succ]
    · rw [e, not_or, not_le]; exact ⟨hr.ne', Real.exp_pos d⟩

theorem loglinOk_geometric {r0 : ℝ} (hr : 0 < r0) (d : ℝ) {N : ℕ} (hN : 2 ≤ N) :
    loglinOk (geometric r0 d N) := by
  obtain ⟨M, rfl⟩ : ∃ M, N = M + 1 + 1 := ⟨N - 2, by omega⟩
  unfold loglinOk
  rw [logDiffs_geometric hr]
  simp only [List.replicate_succ]
  intro e he
  have : e = d := by
    rcases List.mem_cons.1 he with h | h
    · exact h
    · exact List.eq_of_mem_replicate h
  rw [this, sub_self, abs_zero]
  positivity

theorem geometric_ends {r0 : ℝ} (d : ℝ) {N : ℕ} (hN : 1 ≤ N) :
    (geometric r0 d N).headD 0 = r0 ∧
      (geometric r0 d N).getLastD 0 = r0 * Real.exp (((N : ℝ) - 1) * d) := by
  obtain ⟨M, rfl⟩ : ∃ M, N = M + 1 := ⟨N - 1, by omega⟩
  refine ⟨by rw [geometric_succ]; rfl, ?_⟩
  unfold geometric
  rw [List.range_succ, List.map_append]
  simp

theorem geometric_logres {r0 : ℝ} (hr : 0 < r0) (d : ℝ) {N : ℕ} (hN : 2 ≤ N) :
    Real.log ((geometric r0 d N).getLastD 0 / (geometric r0 d N).headD 0) /
      (((geometric r0 d N).length : ℝ) - 1) = d := by
  obtain ⟨h1, h2⟩ := geometric_ends (r0 := r0) d (by omega : 1 ≤ N)
  have hN' : ((N : ℝ) - 1) ≠ 0 := by
    have : (2 : ℝ) ≤ N := by exact_mod_cast hN
    linarith
  rw [h1, h2, geometric_length, mul_div_assoc, mul_comm, div_mul_cancel₀ _ hr.ne', Real.log_exp]
  field_simp

/-- Logarithmically spaced points with a positive pivot are accepted. -/
theorem init_geometric (G : LnGamma) {mu q : ℝ} (hc : construct mu q = .ok ()) {r0 d : ℝ} (hr : 0 < r0)
    (hd : 0 < d) {N : ℕ} (hN : 2 ≤ N) {kr : ℝ} (hk : 0 < kr) (lowring : Bool) (e : ℝ) :
    ∃ H, initialise G mu q (geometric r0 d N) kr lowring .none e = .ok H := by
  unfold initialise
  rw [hc]
  simp only
  rw [if_neg (by rw [geometric_length]; omega), if_neg (not_not.2 (loglinOk_geometric hr d hN)),
    geometric_logres hr d hN]
  unfold extension
  simp only [if_true]
  rw [if_neg, if_neg]
  · exact ⟨_, rfl⟩
  · simp only [not_or, not_le, geometric_length]
    refine ⟨by omega, hd, ?_⟩
    cases lowring
    · exact hk
    · exact lowringPivot_pos G mu q d kr
  · rintro ⟨_, h⟩; linarith

/-! ### Points accepted by the check -/

theorem logDiffs_ne_zero {l : List ℝ} {d : List ℝ} (h : logDiffs l = some d) (hl : 2 ≤ l.length) :
    ∀ x ∈ l, x ≠ 0 := by
  induction l generalizing d with
  | nil => simp at hl
  | cons x l ih =>
    cases l with
    | nil => simp at hl
    | cons y l =>
      unfold logDiffs at h
      split_ifs at h with hx
      rw [not_or, not_le] at hx
      have hy : y ≠ 0 := by rintro rfl; simp at hx
      cases hd : logDiffs (y :: l) with
      | none => rw [hd] at h; cases h
      | some d' =>
        intro z hz
        rcases List.mem_cons.1 hz with rfl | hz
        · exact hx.1
        · cases l with
          | nil => rw [List.mem_singleton] at hz; rw [hz]; exact hy
          | cons w l => exact ih hd (by simp) z hz

theorem loglinOk_ne_zero {l : List ℝ} (h : loglinOk l) (hl : 2 ≤ l.length) : ∀ x ∈ l, x ≠ 0 := by
  unfold loglinOk at h
  cases hd : logDiffs l with
  | none => rw [hd] at h; exact h.elim
  | some d => exact logDiffs_ne_zero hd hl

theorem getD_mem {l : List ℝ} {j : ℕ} (h : j < l.length) : l.getD j 0 ∈ l := by
  rw [List.getD_eq_getElem?_getD, List.getElem?_eq_getElem h]
  exact List.getElem_mem h

/-! ### Transform size -/

theorem transSize_spec {e : ℝ} {n : ℕ} (h : 2 ≤ transSize e n) :
    ∃ k : ℕ, transSize e n = 2 ^ k ∧ e * n ≤ 2 ^ k ∧ ∀ j : ℕ, e * n ≤ 2 ^ j → k ≤ j := by
  unfold transSize at h ⊢
  split_ifs at h ⊢ with h0
  · omega
  rw [not_le] at h0
  obtain ⟨c, hc⟩ : ∃ c, c = ⌈Real.logb 2 (e * n)⌉ := ⟨_, rfl⟩
  rw [← hc] at h ⊢
  have hc0 : 0 ≤ c := by
    by_contra hcon
    rw [not_le] at hcon
    have h1 : (2 : ℝ) ^ c < 1 := zpow_lt_one_of_neg₀ (by norm_num) hcon
    have h2 : ⌊(2 : ℝ) ^ c⌋₊ = 0 := Nat.floor_eq_zero.2 h1
    omega
  obtain ⟨k, rfl⟩ := Int.eq_ofNat_of_zero_le hc0
  have hp : ⌊(2 : ℝ) ^ ((k : ℕ) : ℤ)⌋₊ = 2 ^ k := by
    rw [zpow_natCast, show (2 : ℝ) ^ k = ((2 ^ k : ℕ) : ℝ) by push_cast; rfl, Nat.floor_natCast]
  refine ⟨k, hp, ?_, ?_⟩
  · have h1 : Real.logb 2 (e * n) ≤ (k : ℤ) := by rw [hc]; exact Int.le_ceil _
    rw [Real.logb_le_iff_le_rpow (by norm_num) h0] at h1
    simpa using h1
  · intro j hj
    have h1 : Real.logb 2 (e * n) ≤ (j : ℝ) := by
      rw [Real.logb_le_iff_le_rpow (by norm_num) h0]; simpa using hj
    have h2 : ⌈Real.logb 2 (e * n)⌉ ≤ (j : ℤ) := Int.ceil_le.2 (by simpa using h1)
    rw [← hc] at h2
    exact_mod_cast h2

theorem cppFill_length (a : List ℝ) (n : ℕ) (lo hi : ℕ → ℝ) :
    (cppFill a n lo hi).length = n + a.length + n := by simp [cppFill]

theorem cppFill_centre (a : List ℝ) (n : ℕ) (lo hi : ℕ → ℝ) :
    ((cppFill a n lo hi).drop n).take a.length = a := by
  apply List.ext_getElem?
  intro i
  unfold cppFill
  by_cases h : i < a.length
  · rw [List.getElem?_take_of_lt h, List.getElem?_drop, List.getElem?_map,
      List.getElem?_range (by omega)]
    simp only [Option.map_some]
    rw [if_neg (by omega), if_pos (by omega), Nat.add_sub_cancel_left,
      List.getD_eq_getElem?_getD, List.getElem?_eq_getElem h]
    rfl
  · rw [List.getElem?_take, if_neg h, List.getElem?_eq_none (by omega)]

theorem cppLoglin_centre {a out : List ℝ} {n : ℕ} (h : cppLoglin a n = .ok out) :
    out.length = n + a.length + n ∧ (out.drop n).take a.length = a := by
  unfold cppLoglin at h
  split_ifs at h
  cases hf : front2 a with
  | none => rw [hf] at h; cases h
  | some p =>
    cases hb : back2 a with
    | none => rw [hf, hb] at h; cases h
    | some r =>
      rw [hf, hb] at h
      cases h
      exact ⟨cppFill_length _ _ _ _, cppFill_centre _ _ _ _⟩

theorem cppLin_centre {a out : List ℝ} {n : ℕ} (h : cppLin a n = .ok out) :
    out.length = n + a.length + n ∧ (out.drop n).take a.length = a := by
  unfold cppLin at h
  cases hf : front2 a with
  | none => rw [hf] at h; cases h
  | some p =>
    cases hb : back2 a with
    | none => rw [hf, hb] at h; cases h
    | some r =>
      rw [hf, hb] at h
      cases h
      exact ⟨cppFill_length _ _ _ _, cppFill_centre _ _ _ _⟩

/-! ### Pure modes -/

theorem dft_mode {N : ℕ} (hN : N ≠ 0) (m : ℤ) (p : ℕ) :
    dft N (fun i => ru N (m * i)) p = if (N : ℤ) ∣ m - p then (N : ℂ) else 0 := by
  rw [dft_ru, ← ru_sum N hN]
  refine Finset.sum_congr rfl fun j _ => ?_
  rw [← ru_add]
  congr 1
  ring

theorem convolve_mode {N : ℕ} (hN : N ≠ 0) (u : ℕ → ℂ) (m : ℤ) {p : ℕ} (hp : p < N)
    (hd : (N : ℤ) ∣ m - p) (j : ℕ) :
    convolve N u (fun i => ru N (m * i)) j = u p * ru N (-((p : ℤ) * j)) := by
  have hNc : (N : ℂ) ≠ 0 := by exact_mod_cast hN
  unfold convolve
  rw [dft_ru, Finset.sum_eq_single p]
  · rw [dft_mode hN, if_pos hd, mul_div_right_comm, div_self hNc, one_mul]
    congr 2
    ring
  · intro k hk hkp
    rw [dft_mode hN, if_neg]
    · simp
    · intro hdk
      apply hkp
      have hk' := Finset.mem_range.1 hk
      obtain ⟨c, hc⟩ := dvd_sub hdk hd
      have h1 : (p : ℤ) - k = N * c := by linarith
      have hb : |(p : ℤ) - k| < N := by rw [abs_lt]; omega
      have hc0 : c = 0 := by
        by_contra hcon
        rw [h1, abs_mul, abs_of_nonneg (by omega : (0 : ℤ) ≤ (N : ℤ))] at hb
        have : 1 ≤ |c| := Int.one_le_abs hcon
        nlinarith
      rw [hc0, mul_zero] at h1
      omega
  · intro h
    exact absurd (Finset.mem_range.2 hp) h

theorem cpow_exp (t : ℝ) (z : ℂ) : ((Real.exp t : ℝ) : ℂ) ^ z = Complex.exp (t * z) := by
  rw [Complex.cpow_def_of_ne_zero (by exact_mod_cast (Real.exp_pos t).ne'), ← Complex.ofReal_log
    (Real.exp_pos t).le, Real.log_exp]

theorem powerLaw_conj (mu : ℝ) (nu : ℂ) :
    (starRingEnd ℂ) (powerLaw mu nu) = powerLaw mu ((starRingEnd ℂ) nu) := by
  unfold powerLaw
  rw [map_div₀, map_mul, ← Complex.Gamma_conj, ← Complex.Gamma_conj]
  simp only [map_div₀, map_add, map_sub, Complex.conj_ofReal, map_one, map_ofNat]
  congr 2
  have h2 : ∀ z : ℂ, (2 : ℂ) ^ z = Complex.exp (Real.log 2 * z) := by
    intro z
    rw [Complex.cpow_def_of_ne_zero (by norm_num)]
    congr 1
    rw [← Complex.ofReal_ofNat, ← Complex.ofReal_log (by norm_num)]
  rw [h2, h2, ← Complex.exp_conj, map_mul, Complex.conj_ofReal]

theorem lowMod_eq (G : LnGamma) (mu q dL : ℝ) (N m : ℕ) : lowMod G mu q dL N m =
    q * Real.log 2 + (G ((mu + 1 + q) / 2) (m * (Real.pi / (N * dL)))).1 -
      (G ((mu + 1 - q) / 2) (m * (Real.pi / (N * dL)))).1 := by
  unfold lowMod
  split_ifs with h
  · subst h; simp
  · rfl

theorem kernelLow_powerLaw {G : LnGamma} (hG : LgOk G) {mu q : ℝ} (hc : construct mu q = .ok ())
    {d kr : ℝ} (hk : 0 < kr) {N : ℕ} (m : ℕ) :
    kernelLow G mu q d kr N m =
      powerLaw mu (q + ((2 * Real.pi * (m : ℝ) / (N * d) : ℝ) : ℂ) * Complex.I) *
      Complex.exp (-(((2 * Real.pi * (m : ℝ) / (N * d) : ℝ) : ℂ) * Complex.I * (Real.log kr : ℝ))) := by
  obtain ⟨h1, h2⟩ := construct_ok hc
  obtain ⟨y, hy⟩ : ∃ y : ℝ, y = m * (Real.pi / (N * d)) := ⟨_, rfl⟩
  have hnp : ∀ x : ℝ, (∀ n : ℕ, x ≠ -(n : ℝ)) → ∀ n : ℕ, (x : ℂ) + y * Complex.I ≠ -n := by
    intro x hx n hn
    apply hx n
    have := congrArg Complex.re hn
    simpa using this
  have g1 := hG _ y (hnp _ h1)
  have g2 := hG _ y (hnp _ h2)
  have hy2 : 2 * Real.pi * (m : ℝ) / (N * d) = 2 * y := by rw [hy]; ring
  rw [kernelLow_eq, hy2, lowMod_eq]
  unfold lowPhase powerLaw
  rw [← hy]
  have e1 : ((mu : ℂ) + 1 + (q + ((2 * y : ℝ) : ℂ) * Complex.I)) / 2 =
      (((mu + 1 + q) / 2 : ℝ) : ℂ) + y * Complex.I := by push_cast; ring
  have e2 : ((mu : ℂ) + 1 - (q + ((2 * y : ℝ) : ℂ) * Complex.I)) / 2 =
      (starRingEnd ℂ) ((((mu + 1 - q) / 2 : ℝ) : ℂ) + y * Complex.I) := by
    rw [map_add, map_mul, Complex.conj_ofReal, Complex.conj_ofReal, Complex.conj_I]
    push_cast; ring
  have e3 : ∀ z : ℂ, (2 : ℂ) ^ z = Complex.exp (Real.log 2 * z) := by
    intro z
    rw [Complex.cpow_def_of_ne_zero (by norm_num)]
    congr 1
    rw [← Complex.ofReal_ofNat, ← Complex.ofReal_log (by norm_num)]
  rw [e1, e2, e3, Complex.Gamma_conj, ← g1, ← g2, map_mul, Complex.conj_ofReal, ← Complex.exp_conj,
    map_mul, Complex.conj_ofReal, Complex.conj_I, Complex.ofReal_exp, Complex.ofReal_exp,
    Complex.ofReal_exp, ← Complex.exp_add, ← Complex.exp_add, ← Complex.exp_add, ← Complex.exp_add,
    ← Complex.exp_sub, ← Complex.exp_add]
  congr 1
  rw [Real.log_div hk.ne' (by norm_num)]
  have hm : ((m : ℝ) * (-2 * (Real.pi / (N * d)) * (Real.log kr - Real.log 2)) : ℝ) =
      -2 * y * (Real.log kr - Real.log 2) := by rw [hy]; ring
  rw [hm]
  push_cast
  ring

end Trv.Fft

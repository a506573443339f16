import Verif.Lemmas.ArrayOps
import Verif.Lemmas.ArrayPower
/-
C40-C44 (and C61): array extrapolation, checks and index sorting.
-/
set_option linter.unusedSectionVars false
namespace Trv.Arr

open Trv

section
variable {K : Type} [Field K] [LinearOrder K] [IsStrictOrderedRing K]

/-! ### C40 -/

/-- **C40 (linear).** Every array with at least two samples is accepted; the
input is kept in the middle of an array longer by twice the extension; a linear
sequence is continued as the same linear sequence; and the C++ routine returns
the same array. -/
theorem C40_linear (a : List K) (n : ℕ) (ha : 2 ≤ a.length) :
    ∃ out, pyLin a n = .ok out ∧ IsExtension n a out ∧ cppLin a n = .ok out ∧
      ∀ A d s, a = linSeq A d s a.length → out = linSeq A d (s - n) (n + a.length + n) := by
  unfold pyLin cppLin
  simp only [check1d_ok ha, front2_eq ha, back2_eq ha]
  refine ⟨_, rfl, ⟨_, _, rfl, by simp, by simp⟩, ?_, ?_⟩
  · rw [cppFill_eq]
    congr 1; congr 1
    · congr 1
      apply List.map_congr_left
      intro i _; ring
    · apply List.map_congr_left
      intro i _; push_cast; ring
  · intro A d s h
    have e0 : a.getD 0 0 = A + d * ((s + ((0 : ℕ) : ℤ) : ℤ) : K) := by
      rw [h]; exact linSeq_getD A d s _ 0 (by omega)
    have e1 : a.getD 1 0 = A + d * ((s + ((1 : ℕ) : ℤ) : ℤ) : K) := by
      rw [h]; exact linSeq_getD A d s _ 1 (by omega)
    have e2 : a.getD (a.length - 1) 0 = A + d * ((s + ((a.length - 1 : ℕ) : ℤ) : ℤ) : K) := by
      conv_lhs => rw [h]
      simp only [linSeq, List.length_map, List.length_range]
      exact linSeq_getD A d s _ _ (by omega)
    have e3 : a.getD (a.length - 2) 0 = A + d * ((s + ((a.length - 2 : ℕ) : ℤ) : ℤ) : K) := by
      conv_lhs => rw [h]
      simp only [linSeq, List.length_map, List.length_range]
      exact linSeq_getD A d s _ _ (by omega)
    obtain ⟨N, hN⟩ : ∃ N, a.length = N + 2 := ⟨a.length - 2, by omega⟩
    rw [e0, e1, e2, e3]
    conv_rhs => rw [linSeq, range_split]
    congr 1
    · congr 1
      · apply List.map_congr_left
        intro i _; push_cast; ring
      · conv_lhs => rw [h]
        rw [linSeq]
        apply List.map_congr_left
        intro i _; push_cast; ring
    · rw [hN]
      apply List.map_congr_left
      intro i _
      rw [show N + 2 - 1 = N + 1 by omega, show N + 2 - 2 = N by omega]
      push_cast; ring

example : ([3, 5, 7, 9] : List ℚ) = linSeq 3 2 0 4 ∧
    pyLin ([3, 5, 7, 9] : List ℚ) 2 = .ok [-1, 1, 3, 5, 7, 9, 11, 13] := by decide +kernel

/-- **C40 (constant padding).** -/
theorem C40_padding (a : List K) (n : ℕ) (lo hi : K) (ha : 2 ≤ a.length) :
    pyPad a n lo hi = .ok (List.replicate n lo ++ a ++ List.replicate n hi) ∧
    cppPad a n lo hi = List.replicate n lo ++ a ++ List.replicate n hi := by
  constructor
  · unfold pyPad; rw [check1d_ok ha]
  · unfold cppPad; rw [cppFill_eq]; simp

/-- **C40 (log-linear, partial: apart from zero samples at the ends).** Every
array with two samples of equal sign at either end is accepted; the input is kept
in the middle; no NaN appears; a geometric sequence is continued as the same
geometric sequence. -/
theorem C40_log_linear_partial (a : List K) (n : ℕ) (ha : 2 ≤ a.length)
    (h0 : 0 < a.getD 0 0 * a.getD 1 0)
    (h1 : 0 < a.getD (a.length - 1) 0 * a.getD (a.length - 2) 0) :
    ∃ out : List K, pyLoglin a n = .ok (out.map some) ∧ IsExtension n a out ∧
      ∀ A r s, 0 < r → a = geomSeq A r s a.length →
        out = geomSeq A r (s - n) (n + a.length + n) := by
  have hx1 : a.getD 1 0 ≠ 0 := by intro h; rw [h, mul_zero] at h0; exact lt_irrefl _ h0
  have hy1 : a.getD (a.length - 2) 0 ≠ 0 := by
    intro h; rw [h, mul_zero] at h1; exact lt_irrefl _ h1
  unfold pyLoglin
  simp only [check1d_ok ha, front2_eq ha, back2_eq ha]
  have hs1 : epsign1 (a.getD 0 0) (a.getD 1 0) = true := by
    unfold epsign1; rw [decide_eq_true h0]; rfl
  have hs2 : epsign1 (a.getD (a.length - 1) 0) (a.getD (a.length - 2) 0) = true := by
    unfold epsign1; rw [decide_eq_true h1]; rfl
  rw [if_neg (by rw [hs1, hs2]; decide)]
  refine ⟨(List.range n).map (fun i : ℕ => a.getD 0 0 * (a.getD 0 0 / a.getD 1 0) ^ (n - i)) ++ a ++
      (List.range n).map (fun i : ℕ => a.getD (a.length - 1) 0 *
        (a.getD (a.length - 1) 0 / a.getD (a.length - 2) 0) ^ (i + 1)), ?_, ?_, ?_⟩
  · simp only [List.map_append, List.map_map, ratioPow, hx1, hy1, if_false]
    rfl
  · exact ⟨_, _, rfl, by simp, by simp⟩
  · intro A r s hr h
    have hr' : r ≠ 0 := hr.ne'
    have e0 : a.getD 0 0 = A * r ^ (s + ((0 : ℕ) : ℤ)) := by
      rw [h]; exact geomSeq_getD A r s _ 0 (by omega)
    have e1 : a.getD 1 0 = A * r ^ (s + ((1 : ℕ) : ℤ)) := by
      rw [h]; exact geomSeq_getD A r s _ 1 (by omega)
    have e2 : a.getD (a.length - 1) 0 = A * r ^ (s + ((a.length - 1 : ℕ) : ℤ)) := by
      conv_lhs => rw [h]
      simp only [geomSeq, List.length_map, List.length_range]
      exact geomSeq_getD A r s _ _ (by omega)
    have e3 : a.getD (a.length - 2) 0 = A * r ^ (s + ((a.length - 2 : ℕ) : ℤ)) := by
      conv_lhs => rw [h]
      simp only [geomSeq, List.length_map, List.length_range]
      exact geomSeq_getD A r s _ _ (by omega)
    have hA : A ≠ 0 := by
      intro hA; rw [e1, hA, zero_mul] at hx1; exact hx1 rfl
    obtain ⟨N, hN⟩ : ∃ N, a.length = N + 2 := ⟨a.length - 2, by omega⟩
    have q0 : a.getD 0 0 / a.getD 1 0 = r ^ (-1 : ℤ) := by
      rw [e0, e1, mul_div_mul_left _ _ hA, ← zpow_sub₀ hr']; congr 1; push_cast; ring
    have q1 : a.getD (a.length - 1) 0 / a.getD (a.length - 2) 0 = r ^ (1 : ℤ) := by
      rw [e2, e3, mul_div_mul_left _ _ hA, ← zpow_sub₀ hr', hN]; congr 1
      rw [show N + 2 - 1 = N + 1 by omega, show N + 2 - 2 = N by omega]; push_cast; ring
    rw [q0, q1, e0, e2]
    conv_rhs => rw [geomSeq, range_split]
    congr 1
    · congr 1
      · apply List.map_congr_left
        intro i hi
        rw [List.mem_range] at hi
        rw [← zpow_natCast, ← zpow_mul, mul_assoc, ← zpow_add₀ hr']
        congr 2
        rw [Nat.cast_sub hi.le]; push_cast; ring
      · conv_lhs => rw [h]
        rw [geomSeq]
        apply List.map_congr_left
        intro i _; congr 2; push_cast; ring
    · rw [hN]
      apply List.map_congr_left
      intro i _
      rw [show N + 2 - 1 = N + 1 by omega, ← zpow_natCast, ← zpow_mul, mul_assoc, ← zpow_add₀ hr']
      congr 2
      push_cast; ring

example : pyLoglin ([2, 4, 8] : List ℚ) 2 = .ok ([1 / 2, 1, 2, 4, 8, 16, 32].map some) ∧
    (0 : ℚ) < ([2, 4, 8] : List ℚ).getD 0 0 * ([2, 4, 8] : List ℚ).getD 1 0 := by decide +kernel

/-- **C40 is violated for zeros at an end**: an array beginning with two zero
samples passes the end-point check and its extension consists of NaNs. -/
theorem C40_zero_ends_nan_violated (l : List K) (n : ℕ) :
    ∃ r : List (Val K), pyLoglin (0 :: 0 :: (l ++ [1, 1])) (n + 1) = .ok (none :: r) := by
  have hl : 2 ≤ (0 :: 0 :: (l ++ [1, 1]) : List K).length := by simp
  unfold pyLoglin
  have hb : back2 (0 :: 0 :: (l ++ [1, 1]) : List K) = some (1, 1) := by
    simp [back2, front2]
  simp only [check1d_ok hl, hb, front2, epsign1]
  rw [if_neg (by simp)]
  rw [List.range_succ_eq_map]
  simp [ratioPow]

end

/-- **C40 (C++ log-linear).** The C++ routine, where it accepts the array, returns
the same extension as the Python one. -/
theorem C40_log_linear_agree_partial (a : List ℝ) (n : ℕ) (ha : 2 ≤ a.length) (out : List ℝ)
    (h : cppLoglin a n = .ok out) : pyLoglin a n = .ok (out.map some) := by
  unfold cppLoglin at h
  split_ifs at h with hs
  have hs' : cppSignOk a = true := by simpa using hs
  unfold cppSignOk at hs'
  rw [allAdj_getElem] at hs'
  simp only [not_le] at hs'
  have hg : ∀ i, i < a.length → a.getD i 0 = a[i]! := by
    intro i hi; rw [List.getD_eq_getElem?_getD, List.getElem?_eq_getElem hi]; simp [hi]
  have h0 : 0 < a.getD 0 0 * a.getD 1 0 := by
    have := hs' 0 (by omega)
    rw [List.getD_eq_getElem?_getD, List.getD_eq_getElem?_getD, List.getElem?_eq_getElem (by omega),
      List.getElem?_eq_getElem (by omega)]
    exact this
  have h1 : 0 < a.getD (a.length - 1) 0 * a.getD (a.length - 2) 0 := by
    have := hs' (a.length - 2) (by omega)
    rw [List.getD_eq_getElem?_getD, List.getD_eq_getElem?_getD, List.getElem?_eq_getElem (by omega),
      List.getElem?_eq_getElem (by omega)]
    simp only [show a.length - 2 + 1 = a.length - 1 by omega] at this
    rw [mul_comm]; exact this
  have hx1 : a.getD 1 0 ≠ 0 := by intro h; rw [h, mul_zero] at h0; exact lt_irrefl _ h0
  have hx0 : a.getD 0 0 ≠ 0 := by intro h; rw [h, zero_mul] at h0; exact lt_irrefl _ h0
  have hy1 : a.getD (a.length - 2) 0 ≠ 0 := by
    intro h; rw [h, mul_zero] at h1; exact lt_irrefl _ h1
  have hq0 : 0 < a.getD 1 0 / a.getD 0 0 := by
    have := div_pos h0 (mul_self_pos.2 hx0)
    rwa [mul_div_mul_left _ _ hx0] at this
  have hq1 : 0 < a.getD (a.length - 1) 0 / a.getD (a.length - 2) 0 := by
    have := div_pos h1 (mul_self_pos.2 hy1)
    rwa [mul_div_mul_right _ _ hy1] at this
  simp only [front2_eq ha, back2_eq ha, Except.ok.injEq] at h
  rw [cppFill_eq] at h
  unfold pyLoglin
  simp only [check1d_ok ha, front2_eq ha, back2_eq ha]
  have hs1 : epsign1 (a.getD 0 0) (a.getD 1 0) = true := by
    unfold epsign1; rw [decide_eq_true h0]; rfl
  have hs2 : epsign1 (a.getD (a.length - 1) 0) (a.getD (a.length - 2) 0) = true := by
    unfold epsign1; rw [decide_eq_true h1]; rfl
  rw [if_neg (by rw [hs1, hs2]; decide)]
  rw [← h]
  simp only [List.map_append, List.map_map, ratioPow, hx1, hy1, if_false]
  congr 2
  · congr 1
    apply List.map_congr_left
    intro i hi
    rw [List.mem_range] at hi
    simp only [Function.comp, Option.some.injEq]
    congr 1
    have : ((i : ℝ) - n) * Real.log (a.getD 1 0 / a.getD 0 0)
        = ((n - i : ℕ) : ℝ) * Real.log (a.getD 0 0 / a.getD 1 0) := by
      rw [← inv_div, Real.log_inv, Nat.cast_sub hi.le]; ring
    rw [this, ← Real.log_pow, Real.exp_log (by rw [← inv_div]; positivity)]
  · apply List.map_congr_left
    intro i _
    simp only [Function.comp, Option.some.injEq]
    congr 1
    have : (((n + a.length + i : ℕ) : ℝ) - ((n : ℝ) + (a.length : ℝ) - 1))
        = ((i + 1 : ℕ) : ℝ) := by push_cast; ring
    rw [this, ← Real.log_pow, Real.exp_log (by positivity)]

/-- **C40 is violated for the agreement of the two versions**: an array with a
zero end sample is extrapolated by the Python routine but rejected by the C++
one. -/
theorem C40_versions_disagree_violated (n : ℕ) :
    (∃ out, pyLoglin ([0, 1, 2] : List ℝ) n = .ok out) ∧
    cppLoglin ([0, 1, 2] : List ℝ) n = .error .invalidData := by
  constructor
  · unfold pyLoglin
    simp only [check1d, front2, back2, epsign1]
    exact ⟨_, by norm_num; rfl⟩
  · unfold cppLoglin cppSignOk
    rw [if_pos]; simp [allAdj]

/-! ### C41 -/

/-- **C41.** Whenever the oscillation-safe extrapolation returns, the result keeps
the input in the middle, the added samples on the left are never larger in
magnitude than the first sample and never grow away from it, and likewise on the
right. -/
theorem C41_never_diverges (a : List ℝ) (n : ℕ) (out : List ℝ) (h : pyOscil a n = .ok out) :
    ∃ (ne : a ≠ []) (l r : List ℝ), out = l ++ a ++ r ∧ l.length = n ∧ r.length = n ∧
      (∀ x ∈ l, |x| ≤ |a.head ne|) ∧ (∀ x ∈ r, |x| ≤ |a.getLast ne|) ∧
      l.Pairwise (fun x y => |x| ≤ |y|) ∧ r.Pairwise (fun x y => |y| ≤ |x|) := by
  obtain ⟨hl, pl, pr, h1, h2, rfl⟩ := pyOscil_ok h
  have ne : a ≠ [] := by rintro rfl; simp at hl
  have e0 : a.getD 0 0 = a.head ne := by
    rw [List.getD_eq_getElem?_getD, List.getElem?_eq_getElem (by omega)]
    simp [List.head_eq_getElem]
  have e1 : a.getD (a.length - 1) 0 = a.getLast ne := by
    rw [List.getD_eq_getElem?_getD, List.getElem?_eq_getElem (by omega)]
    simp [List.getLast_eq_getElem]
  rw [e0, e1]
  refine ⟨ne, _, _, rfl, by simp, by simp, ?_, ?_, ?_, ?_⟩
  · intro x hx
    obtain ⟨i, hi, rfl⟩ := List.mem_map.1 hx
    rw [List.mem_range] at hi
    have hi' : (i : ℝ) ≤ n := by exact_mod_cast hi.le
    rw [abs_mul, abs_of_pos (Real.exp_pos _)]
    have : Real.exp (pl * ((n : ℝ) - i)) ≤ 1 := by
      rw [Real.exp_le_one_iff]
      exact mul_nonpos_of_nonpos_of_nonneg h1 (by linarith)
    nlinarith [abs_nonneg (a.head ne)]
  · intro x hx
    obtain ⟨i, hi, rfl⟩ := List.mem_map.1 hx
    rw [abs_mul, abs_of_pos (Real.exp_pos _)]
    have : Real.exp (pr * ((i : ℝ) + 1)) ≤ 1 := by
      rw [Real.exp_le_one_iff]
      exact mul_nonpos_of_nonpos_of_nonneg h2 (by positivity)
    nlinarith [abs_nonneg (a.getLast ne)]
  · rw [List.pairwise_map]
    refine List.pairwise_lt_range.imp ?_
    intro i j hij
    have hij' : (i : ℝ) < j := by exact_mod_cast hij
    rw [abs_mul, abs_mul, abs_of_pos (Real.exp_pos _), abs_of_pos (Real.exp_pos _)]
    apply mul_le_mul_of_nonneg_left _ (abs_nonneg _)
    rw [Real.exp_le_exp]; nlinarith
  · rw [List.pairwise_map]
    refine List.pairwise_lt_range.imp ?_
    intro i j hij
    have hij' : (i : ℝ) < j := by exact_mod_cast hij
    rw [abs_mul, abs_mul, abs_of_pos (Real.exp_pos _), abs_of_pos (Real.exp_pos _)]
    apply mul_le_mul_of_nonneg_left _ (abs_nonneg _)
    rw [Real.exp_le_exp]; nlinarith

example : ∃ out, pyOscil [1, -2, 3, 5, 0, 7] 3 = .ok out := pyOscil_total _ _ (by simp)

/-! ### C61 -/

/-- **C61 (partial: at least four samples).** The oscillation-safe extrapolation
accepts every array of at least four samples. -/
theorem C61_accepts_arrays_partial (a : List ℝ) (n : ℕ) (h : 4 ≤ a.length) :
    ∃ out, pyOscil a n = .ok out := pyOscil_total a n h

/-- **C61 is violated for two samples**: two samples of equal sign, a shape
accepted by the size check and by every other extrapolation routine, are always
rejected. -/
theorem C61_two_samples_rejected_violated (x y : ℝ) (n : ℕ)
    (h : SignType.sign x = SignType.sign y) :
    pyOscil [x, y] n = .error .valueError ∧ (∃ out, pyLin [x, y] n = .ok out) := by
  constructor
  · have hs : signChanges [x, y] = [] := by
      unfold signChanges
      simp only [List.length_cons, List.length_nil, List.filter_eq_nil_iff, List.mem_range]
      intro i hi
      have : i = 0 := by omega
      subst this
      simp [h]
    have hb : banks [x, y] = (1, 0) := by
      unfold banks; rw [hs]; rfl
    have hg : lngrad (sliceTo [x, y] 1) = .error .valueError := by
      simp [sliceTo, lngrad, gradient]
    unfold pyOscil
    simp only [check1d, bind, Except.bind]
    rw [if_neg (by simp)]
    simp only [hb, hg]
  · obtain ⟨out, h1, _⟩ := C40_linear [x, y] n (by simp)
    exact ⟨out, h1⟩

/-- **C41 (power laws).** A power law is continued exactly on the side where it decays, and by a
constant on the side where it grows. -/
theorem C41_power_law (A r : ℝ) (hA : A ≠ 0) (hr : 0 < r) (N n : ℕ) (hN : 4 ≤ N) :
    (1 ≤ r → pyOscil (geomSeq A r 0 N) n = .ok (geomSeq A r (-n) n ++ geomSeq A r 0 N ++
      List.replicate n (A * r ^ (N - 1)))) ∧
    (r ≤ 1 → pyOscil (geomSeq A r 0 N) n = .ok (List.replicate n A ++ geomSeq A r 0 N ++
      geomSeq A r N n)) := by
  have hc : ∀ x : ℝ, (List.range n).map (fun _ => x) = List.replicate n x := by
    intro x
    rw [List.map_const', List.length_range]
  have hone : r = 1 → Real.log r = 0 := by rintro rfl; exact Real.log_one
  have hleft : (List.range n).map (fun i : ℕ => A * Real.exp (-Real.log r * ((n : ℝ) - i)))
      = geomSeq A r (-n) n := by
    refine List.map_congr_left ?_
    intro i _
    rw [← exp_pow r hr]
    congr 2
    push_cast
    ring
  have hright : (List.range n).map (fun i : ℕ => A * r ^ (N - 1) *
      Real.exp (Real.log r * ((i : ℝ) + 1))) = geomSeq A r N n := by
    refine List.map_congr_left ?_
    intro i _
    have e1 : ((i : ℝ) + 1) = (((i : ℤ) + 1 : ℤ) : ℝ) := by push_cast; rfl
    rw [e1, exp_pow r hr, mul_assoc, ← zpow_natCast, ← zpow_add₀ hr.ne']
    congr 2
    omega
  have h := pyOscil_gp A r hA hr N n hN
  rw [gp_eq] at h
  constructor
  · intro h1
    rw [h, if_pos h1, hleft]
    congr 2
    rw [← hc]
    refine List.map_congr_left ?_
    intro i _
    by_cases h2 : r ≤ 1
    · rw [if_pos h2, hone (le_antisymm h2 h1)]; simp
    · rw [if_neg h2]; simp
  · intro h1
    rw [h, if_pos h1, hright]
    congr 3
    rw [← hc]
    refine List.map_congr_left ?_
    intro i _
    by_cases h2 : 1 ≤ r
    · rw [if_pos h2, hone (le_antisymm h1 h2)]; simp
    · rw [if_neg h2]; simp

/-- Samples of `1, 2, 4, 8` are extended to `1/2, 1, 2, 4, 8, 8`. -/
example : pyOscil [1, 2, 4, 8] 1 = .ok [1 / 2, 1, 2, 4, 8, 8] := by
  have := (C41_power_law 1 2 one_ne_zero (by norm_num) 4 1 le_rfl).1 (by norm_num)
  norm_num [geomSeq, List.range_succ] at this
  rw [this]

/-! ### C42 -/

section
variable {K : Type} [Field K] [LinearOrder K] [IsStrictOrderedRing K]

/-- Every array of at least 2 × 2 samples is enlarged by exactly
the requested rows and columns, with the input in the middle; extrapolating the
columns first gives the same array. -/
theorem ext2Lin_either_way (m : Mat K) (e : NExt) (hr : 2 ≤ m.r) (hc : 2 ≤ m.c) :
    ∃ out, ext2Lin m e = .ok out ∧ Mat.IsExtension e.get.1 e.get.2 m out ∧
      Mat.Eq out (rowLin (rowLin m.T e.get.1).T e.get.2) := by
  unfold ext2Lin
  simp only [check2d_ok hr hc]
  obtain ⟨p, hp⟩ : ∃ p, p = e.get.1 := ⟨_, rfl⟩
  obtain ⟨q, hq⟩ : ∃ q, q = e.get.2 := ⟨_, rfl⟩
  rw [← hp, ← hq]
  refine ⟨_, rfl, ⟨rfl, rfl, ?_⟩, rfl, rfl, ?_⟩
  · intro i j hi hj
    simp only [Mat.T, rowLin, Mat.hcat]
    rw [if_neg (by omega), if_pos (by omega), if_neg (by omega), if_pos (by omega)]
    rw [Nat.add_sub_cancel_left, Nat.add_sub_cancel_left]
  · intro i j hi hj
    simp only [Mat.T, rowLin, Mat.hcat]
    have z1 : ¬ (q + m.c ≤ 0) := by omega
    by_cases hi1 : i < p
    · by_cases hj1 : j < q
      · simp only [hi1, hj1, if_true]; ring
      · by_cases hj2 : j < q + m.c
        · simp only [hi1, hj1, hj2, if_true, if_false]
        · simp only [hi1, hj1, hj2, if_true, if_false]; ring
    · by_cases hi2 : i < p + m.r
      · simp only [hi1, hi2, if_true, if_false]
      · by_cases hj1 : j < q
        · simp only [hi1, hi2, hj1, if_true, if_false]; ring
        · by_cases hj2 : j < q + m.c
          · simp only [hi1, hi2, hj1, hj2, if_true, if_false]
          · simp only [hi1, hi2, hj1, hj2, if_false]; ring

theorem rowLin_law (m : Mat K) (n : ℕ) (hc : 2 ≤ m.c) : Mat.RowsLinear n m.c (rowLin m n) := by
  intro i j _ hj
  simp only [rowLin, Mat.hcat]
  constructor
  · rw [if_pos hj, if_neg (by omega), if_pos (by omega), if_neg (by omega), if_pos (by omega),
      Nat.sub_self, Nat.add_sub_cancel_left]
    ring
  · rw [if_neg (by omega), if_neg (by omega), if_neg (by omega), if_pos (by omega),
      if_neg (by omega), if_pos (by omega), Nat.add_sub_cancel_left,
      show n + m.c - 1 - n = m.c - 1 by omega, show n + m.c - 2 - n = m.c - 2 by omega]

theorem RowsLinear.congr {x y : Mat K} {n c : ℕ} (h : Mat.Eq x y) (hx : x.c = n + c + n)
    (hc : 2 ≤ c) (hy : Mat.RowsLinear n c y) : Mat.RowsLinear n c x := by
  obtain ⟨h1, h2, h3⟩ := h
  intro i j hi hj
  rw [h3 i j hi (by omega), h3 i n hi (by omega), h3 i (n + 1) hi (by omega),
    h3 i (n + c + j) hi (by omega), h3 i (n + c - 1) hi (by omega), h3 i (n + c - 2) hi (by omega)]
  exact hy i j (by omega) hj

/-- **C42 (linear).** Every array of at least 2 × 2 samples is enlarged by exactly
the requested rows and columns, with the input in the middle, and every row and every column of the
result is a linear continuation; smaller arrays are rejected. -/
theorem C42_linear (m : Mat K) (e : NExt) :
    (2 ≤ m.r ∧ 2 ≤ m.c → ∃ out, ext2Lin m e = .ok out ∧ Mat.IsExtension e.get.1 e.get.2 m out ∧
      Mat.RowsLinear e.get.2 m.c out ∧ Mat.RowsLinear e.get.1 m.r out.T) ∧
    (¬ (2 ≤ m.r ∧ 2 ≤ m.c) → ext2Lin m e = .error .valueError) := by
  constructor
  · rintro ⟨hr, hc⟩
    obtain ⟨out, h1, h2, h3⟩ := ext2Lin_either_way m e hr hc
    refine ⟨out, h1, h2, ?_, ?_⟩
    · exact RowsLinear.congr h3 h2.2.1 hc (rowLin_law (rowLin m.T e.get.1).T e.get.2 hc)
    · have : out = (rowLin (rowLin m e.get.2).T e.get.1).T := by
        unfold ext2Lin at h1
        simp only [check2d_ok hr hc, Except.ok.injEq] at h1
        exact h1.symm
      rw [this]
      exact rowLin_law (rowLin m e.get.2).T e.get.1 hr
  · intro h
    unfold ext2Lin
    rw [check2d_err h]

/-- Likewise for arrays passing the sign check. -/
theorem ext2Loglin_either_way (m : Mat K) (e : NExt) (out : Mat K) (h : ext2Loglin m e = .ok out) :
    Mat.IsExtension e.get.1 e.get.2 m out ∧
    Mat.Eq out (rowLoglin (rowLoglin m.T e.get.1).T e.get.2) := by
  unfold ext2Loglin at h
  cases hm : check2d m with
  | error x => rw [hm] at h; simp at h
  | ok m' =>
    obtain ⟨rfl, hr, hc⟩ := check2d_inv hm
    rw [hm] at h
    simp only at h
    split_ifs at h
    simp only [Except.ok.injEq] at h
    subst h
    obtain ⟨p, hp⟩ : ∃ p, p = e.get.1 := ⟨_, rfl⟩
    obtain ⟨q, hq⟩ : ∃ q, q = e.get.2 := ⟨_, rfl⟩
    rw [← hp, ← hq]
    refine ⟨⟨rfl, rfl, ?_⟩, rfl, rfl, ?_⟩
    · intro i j hi hj
      simp only [Mat.T, rowLoglin, Mat.hcat]
      rw [if_neg (by omega), if_pos (by omega), if_neg (by omega), if_pos (by omega)]
      rw [Nat.add_sub_cancel_left, Nat.add_sub_cancel_left]
    · intro i j hi hj
      simp only [Mat.T, rowLoglin, Mat.hcat]
      by_cases hi1 : i < p
      · by_cases hj1 : j < q
        · simp only [hi1, hj1, if_true]
          simp only [div_eq_mul_inv, mul_pow, mul_inv, inv_pow, ← pow_mul, inv_inv]
          ring
        · by_cases hj2 : j < q + m'.c
          · simp only [hi1, hj1, hj2, if_true, if_false]
          · simp only [hi1, hj1, hj2, if_true, if_false]
            simp only [div_eq_mul_inv, mul_pow, mul_inv, inv_pow, ← pow_mul, inv_inv]
            ring
      · by_cases hi2 : i < p + m'.r
        · simp only [hi1, hi2, if_true, if_false]
        · by_cases hj1 : j < q
          · simp only [hi1, hi2, hj1, if_true, if_false]
            simp only [div_eq_mul_inv, mul_pow, mul_inv, inv_pow, ← pow_mul, inv_inv]
            ring
          · by_cases hj2 : j < q + m'.c
            · simp only [hi1, hi2, hj1, hj2, if_true, if_false]
            · simp only [hi1, hi2, hj1, hj2, if_false]
              simp only [div_eq_mul_inv, mul_pow, mul_inv, inv_pow, ← pow_mul, inv_inv]
              ring

theorem rowLoglin_law (m : Mat K) (n : ℕ) (hc : 2 ≤ m.c) : Mat.RowsGeometric n m.c (rowLoglin m n) := by
  intro i j _ hj
  simp only [rowLoglin, Mat.hcat]
  constructor
  · rw [if_pos hj, if_neg (by omega), if_pos (by omega), if_neg (by omega), if_pos (by omega),
      Nat.sub_self, Nat.add_sub_cancel_left]
  · rw [if_neg (by omega), if_neg (by omega), if_neg (by omega), if_pos (by omega),
      if_neg (by omega), if_pos (by omega), Nat.add_sub_cancel_left,
      show n + m.c - 1 - n = m.c - 1 by omega, show n + m.c - 2 - n = m.c - 2 by omega]

theorem RowsGeometric.congr {x y : Mat K} {n c : ℕ} (h : Mat.Eq x y) (hx : x.c = n + c + n)
    (hc : 2 ≤ c) (hy : Mat.RowsGeometric n c y) : Mat.RowsGeometric n c x := by
  obtain ⟨h1, h2, h3⟩ := h
  intro i j hi hj
  rw [h3 i j hi (by omega), h3 i n hi (by omega), h3 i (n + 1) hi (by omega),
    h3 i (n + c + j) hi (by omega), h3 i (n + c - 1) hi (by omega), h3 i (n + c - 2) hi (by omega)]
  exact hy i j (by omega) hj

/-- **C42 (log-linear).** Likewise, with geometric continuation of rows and columns, for arrays
passing the sign check at all four margins; all others are rejected. -/
theorem C42_log_linear (m : Mat K) (e : NExt) :
    (2 ≤ m.r ∧ 2 ≤ m.c ∧ epsign2 m → ∃ out, ext2Loglin m e = .ok out ∧
      Mat.IsExtension e.get.1 e.get.2 m out ∧
      Mat.RowsGeometric e.get.2 m.c out ∧ Mat.RowsGeometric e.get.1 m.r out.T) ∧
    (¬ (2 ≤ m.r ∧ 2 ≤ m.c ∧ epsign2 m) → ext2Loglin m e = .error .valueError) := by
  constructor
  · rintro ⟨hr, hc, hs⟩
    have h1 : ext2Loglin m e = .ok (rowLoglin (rowLoglin m e.get.2).T e.get.1).T := by
      unfold ext2Loglin
      simp only [check2d_ok hr hc, hs, Bool.not_true, Bool.false_eq_true, if_false]
    obtain ⟨h2, h3⟩ := ext2Loglin_either_way m e _ h1
    refine ⟨_, h1, h2, ?_, rowLoglin_law (rowLoglin m e.get.2).T e.get.1 hr⟩
    exact RowsGeometric.congr h3 h2.2.1 hc (rowLoglin_law (rowLoglin m.T e.get.1).T e.get.2 hc)
  · intro h
    unfold ext2Loglin
    by_cases h' : 2 ≤ m.r ∧ 2 ≤ m.c
    · have hs : epsign2 m = false := by
        by_contra hs
        exact h ⟨h'.1, h'.2, by simpa using hs⟩
      simp only [check2d_ok h'.1 h'.2, hs, Bool.not_false, if_true]
    · rw [check2d_err h']

/-- The margins which the sign check admits. -/
theorem C42_sign_check (m : Mat K) : epsign2 m ↔
    (∀ i, i < m.r → (0 < m.v i 0 * m.v i 1 ∨ m.v i 0 = 0) ∧
      (0 < m.v i (m.c - 1) * m.v i (m.c - 2) ∨ m.v i (m.c - 1) = 0)) ∧
    (∀ j, j < m.c → (0 < m.v 0 j * m.v 1 j ∨ m.v 0 j = 0) ∧
      (0 < m.v (m.r - 1) j * m.v (m.r - 2) j ∨ m.v (m.r - 1) j = 0)) := by
  simp only [epsign2, epsign1, Bool.and_eq_true, List.all_eq_true, List.mem_range, Bool.or_eq_true,
    decide_eq_true_eq, gt_iff_lt]
  constructor
  · rintro ⟨⟨⟨a, b⟩, c⟩, d⟩
    exact ⟨fun i hi => ⟨a i hi, b i hi⟩, fun j hj => ⟨c j hj, d j hj⟩⟩
  · rintro ⟨a, b⟩
    exact ⟨⟨⟨fun i hi => (a i hi).1, fun i hi => (a i hi).2⟩, fun j hj => (b j hj).1⟩,
      fun j hj => (b j hj).2⟩

/-- **C42 is violated by constant padding**: for unequal row and column
extensions the two are interchanged, so the result never has the requested
shape. -/
theorem C42_padding_shape_violated (m : Mat K) (hr : 2 ≤ m.r) (hc : 2 ≤ m.c) (p q : ℕ) (x : K)
    (hpq : p ≠ q) :
    ∃ out, ext2Pad m (.pair p q) (.scalar x) (.scalar x) (.scalar x) (.scalar x) = .ok out ∧
      out.r = q + m.r + q ∧ out.c = p + m.c + p ∧ ¬ Mat.IsExtension p q m out := by
  obtain ⟨r, hr'⟩ : ∃ r, m.r = r + 2 := ⟨m.r - 2, by omega⟩
  obtain ⟨c, hc'⟩ : ∃ c, m.c = c + 2 := ⟨m.c - 2, by omega⟩
  unfold ext2Pad
  simp only [check2d_ok hr hc, Pad.expand, List.head?_replicate, List.getLast?_replicate,
    show m.r ≠ 0 by omega, show m.c ≠ 0 by omega, if_false, ne_eq, not_true_eq_false,
    List.length_replicate, or_self]
  refine ⟨_, rfl, rfl, rfl, ?_⟩
  intro h
  have := h.1
  simp only [Mat.T, Mat.hcat, NExt.get] at this
  omega

/-- **C42 (constant padding, partial: equal extensions).** -/
theorem C42_padding_partial (m : Mat K) (n : ℕ) (crl cru ccl ccu : Pad K) (out : Mat K)
    (h : ext2Pad m (.one n) crl cru ccl ccu = .ok out) :
    Mat.IsExtension n n m out ∧
    (∀ i j, i < m.r → j < n → out.v (n + i) j = (crl.expand m.r).getD i 0 ∧
      out.v (n + i) (n + m.c + j) = (cru.expand m.r).getD i 0) ∧
    (∀ i j, i < n → j < m.c → out.v i (n + j) = (ccl.expand m.c).getD j 0 ∧
      out.v (n + m.r + i) (n + j) = (ccu.expand m.c).getD j 0) ∧
    (∀ i j, i < n → j < n →
      (some (out.v i j) = (crl.expand m.r).head? ∧ some (out.v i j) = (ccl.expand m.c).head?) ∧
      (some (out.v i (n + m.c + j)) = (cru.expand m.r).head? ∧
        some (out.v i (n + m.c + j)) = (ccl.expand m.c).getLast?) ∧
      (some (out.v (n + m.r + i) j) = (crl.expand m.r).getLast? ∧
        some (out.v (n + m.r + i) j) = (ccu.expand m.c).head?) ∧
      (some (out.v (n + m.r + i) (n + m.c + j)) = (cru.expand m.r).getLast? ∧
        some (out.v (n + m.r + i) (n + m.c + j)) = (ccu.expand m.c).getLast?)) := by
  unfold ext2Pad at h
  cases hm : check2d m with
  | error x => rw [hm] at h; simp at h
  | ok m' =>
    obtain ⟨rfl, hr, hc⟩ := check2d_inv hm
    rw [hm] at h
    simp only at h
    split at h
    · rename_i r1 r2 r3 r4 r5 r6 r7 r8 g1 g2 g3 g4 g5 g6 g7 g8
      split_ifs at h with h1 h2 h3 h4 h5
      push Not at h1 h2 h3 h4 h5
      obtain ⟨hl1, hl2, hl3, hl4⟩ := h5
      simp only [Except.ok.injEq, NExt.get] at h
      subst h
      refine ⟨⟨rfl, rfl, ?_⟩, ?_, ?_, ?_⟩
      · intro i j hi hj
        simp only [Mat.T, Mat.hcat]
        rw [if_neg (by omega), if_pos (by omega), if_neg (by omega), if_pos (by omega)]
        rw [Nat.add_sub_cancel_left, Nat.add_sub_cancel_left]
      · intro i j hi hj
        simp only [Mat.T, Mat.hcat]
        rw [if_neg (by omega), if_pos (by omega), if_pos hj, if_neg (by omega), if_pos (by omega),
          if_neg (by omega), if_neg (by omega), Nat.add_sub_cancel_left]
        exact ⟨rfl, rfl⟩
      · intro i j hi hj
        simp only [Mat.T, Mat.hcat]
        rw [if_pos hi, if_neg (by omega), if_neg (by omega)]
        constructor
        · rw [List.getD_eq_getElem?_getD, List.append_assoc, List.getElem?_append_right (by simp),
            List.length_replicate, Nat.add_sub_cancel_left, List.getElem?_append_left (by omega),
            ← List.getD_eq_getElem?_getD]
        · rw [List.getD_eq_getElem?_getD, List.append_assoc, List.getElem?_append_right (by simp),
            List.length_replicate, Nat.add_sub_cancel_left, List.getElem?_append_left (by omega),
            ← List.getD_eq_getElem?_getD]
      · intro i j hi hj
        have q1 : ∀ (x y : K) (l : List K), (List.replicate n x ++ l ++ List.replicate n y).getD j 0 = x := by
          intro x y l
          rw [List.getD_eq_getElem?_getD, List.append_assoc, List.getElem?_append_left (by simpa using hj),
            List.getElem?_replicate, if_pos hj]
          rfl
        have q2 : ∀ (x y : K) (l : List K), l.length = m'.c →
            (List.replicate n x ++ l ++ List.replicate n y).getD (n + m'.c + j) 0 = y := by
          intro x y l hl
          rw [List.getD_eq_getElem?_getD, List.getElem?_append_right (by simp [hl]),
            List.getElem?_replicate, if_pos (by simp [hl]; omega)]
          rfl
        simp only [Mat.T, Mat.hcat]
        rw [if_pos hi, if_pos hi, if_neg (by omega), if_neg (by omega), if_neg (by omega),
          if_neg (by omega), q1, q2 _ _ _ hl3, q1, q2 _ _ _ hl4]
        subst h1 h2 h3 h4
        exact ⟨⟨g1.symm, g3.symm⟩, ⟨g2.symm, g7.symm⟩, ⟨g5.symm, g4.symm⟩, ⟨g6.symm, g8.symm⟩⟩
    · simp at h

example : ∃ out, ext2Lin (⟨2, 3, fun i j => (i : ℚ) * j⟩) (.pair 1 2) = .ok out ∧ out.r = 4 ∧
    out.c = 7 ∧ out.v 0 0 = 2 := ⟨_, rfl, rfl, rfl, by decide +kernel⟩

/-- **C42 (oscillation-safe).** The input is in the middle, its rows are continued without growth,
and then every column of the result is. -/
theorem C42_oscillation_safe (m : Mat ℝ) (e : NExt) (out : Mat ℝ) (h : ext2Oscil m e = .ok out) :
    Mat.IsExtension e.get.1 e.get.2 m out ∧ Mat.RowsBounded e.get.1 m.r out.T ∧
    (∀ i j, i < m.r → j < e.get.2 →
      |out.v (e.get.1 + i) j| ≤ |m.v i 0| ∧
      |out.v (e.get.1 + i) (e.get.2 + m.c + j)| ≤ |m.v i (m.c - 1)|) := by
  unfold ext2Oscil at h
  cases hm : check2d m with
  | error x => rw [hm] at h; simp at h
  | ok m' =>
    obtain ⟨rfl, hr, hc⟩ := check2d_inv hm
    rw [hm] at h
    simp only at h
    cases ha : rowOscil m' e.get.2 with
    | error x => rw [ha] at h; simp at h
    | ok a =>
      rw [ha] at h
      simp only at h
      cases hb : rowOscil a.T e.get.1 with
      | error x => rw [hb] at h; simp at h
      | ok b =>
        rw [hb] at h
        simp only [Except.ok.injEq] at h
        subst h
        obtain ⟨a1, a2, a3⟩ := rowOscil_ok ha
        obtain ⟨b1, b2, b3⟩ := rowOscil_ok hb
        have ab := rowOscil_bounded ha
        have bb := rowOscil_bounded hb
        refine ⟨?_, ?_, ?_⟩
        · simp only [Mat.T] at b1 b2 b3 ⊢
          refine ⟨by simp only; omega, by simp only; omega, ?_⟩
          intro i j hi hj
          simp only
          rw [b3 _ _ (by omega) (by omega), a3 _ _ hi hj]
        · have : a.T.c = m'.r := a1
          rw [this] at bb
          exact bb
        · intro i j hi hj
          simp only [Mat.T] at b1 b2 b3 ⊢
          rw [b3 _ _ (by omega) (by omega), b3 _ _ (by omega) (by omega)]
          have h0 := a3 i 0 hi (by omega)
          have h1 := a3 i (m'.c - 1) hi (by omega)
          have := ab i j (by omega) hj
          rw [show e.get.2 + m'.c - 1 = e.get.2 + (m'.c - 1) by omega, h1] at this
          rw [Nat.add_zero] at h0
          rw [h0] at this
          exact this

/-! ### C43 -/

/-- **C43 is violated**: every strictly increasing or strictly decreasing array of
at least two samples is rejected by the sortedness check. -/
theorem C43_sorted_rejected_violated (a : List K) (ha : 2 ≤ a.length)
    (h : a.Pairwise (· < ·) ∨ a.Pairwise (· > ·)) : checkSorted a = .error .valueError := by
  unfold checkSorted
  rw [check1d_ok ha]
  simp only
  rw [if_pos]
  match a, ha with
  | x :: y :: l, _ =>
    rcases h with h | h
    · have := (List.pairwise_cons.1 h).1 y (by simp)
      simp [allAdj, this]
    · have := (List.pairwise_cons.1 h).1 y (by simp)
      simp only [gt_iff_lt] at this
      simp [allAdj, this]

/-- The check accepts exactly the constant arrays. -/
theorem C43_accepts_exactly_constant_violated (a : List K) :
    checkSorted a = .ok a ↔ 2 ≤ a.length ∧ ∀ x ∈ a, ∀ y ∈ a, x = y := by
  unfold checkSorted
  by_cases ha : 2 ≤ a.length
  · rw [check1d_ok ha]
    simp only [ha, true_and]
    rw [ite_eq_iff]
    simp only [reduceCtorEq, and_false, false_or, and_true, Bool.or_eq_true, Bool.not_eq_true',
      not_or, Bool.not_eq_false]
    rw [allAdj_iff (fun x y => x ≤ y) (fun x y z h1 h2 => le_trans h1 h2),
      allAdj_iff (fun x y => x ≥ y) (fun x y z h1 h2 => ge_trans h1 h2)]
    constructor
    · rintro ⟨h1, h2⟩ x hx y hy
      have h3 : a.Pairwise (fun u v => u = v) :=
        (h1.and h2).imp (fun h => le_antisymm h.1 h.2)
      exact List.Pairwise.forall_of_forall (fun _ _ => rfl) h3 hx hy
    · intro h
      constructor
      · rw [List.pairwise_iff_forall_sublist]
        intro x y hs
        exact (h x (hs.subset (by simp)) y (hs.subset (by simp))).le
      · rw [List.pairwise_iff_forall_sublist]
        intro x y hs
        exact (h x (hs.subset (by simp)) y (hs.subset (by simp))).ge
  · rw [check1d_err ha]; simp [ha]

/-- **C43 (partial: no unsorted array is accepted).** -/
theorem C43_unsorted_rejected_partial (a : List K) (h : checkSorted a = .ok a) :
    a.Pairwise (· ≤ ·) := by
  obtain ⟨_, h2⟩ := (C43_accepts_exactly_constant_violated a).1 h
  rw [List.pairwise_iff_forall_sublist]
  intro x y hs
  exact (h2 x (hs.subset (by simp)) y (hs.subset (by simp))).le

example : checkSorted ([1, 2, 3] : List ℚ) = .error .valueError ∧
    checkSorted ([2, 2] : List ℚ) = .ok [2, 2] := by decide +kernel

end

/-! ### C44 -/

/-- **C44.** Index sorting returns a permutation of all indices that puts the data
in non-decreasing order. -/
theorem C44_sorting_permutation (v : List ℤ) :
    (getSortedIndices v).Perm (List.range v.length) ∧
    ((getSortedIndices v).map fun i => v.getD i 0).Pairwise (· ≤ ·) ∧
    ((getSortedIndices v).map fun i => v.getD i 0).Perm v := by
  have hp : (getSortedIndices v).Perm (List.range v.length) := sortBy_perm _ _
  refine ⟨hp, ?_, ?_⟩
  · rw [List.pairwise_map]; exact sortBy_sorted (fun i => v.getD i 0) _
  · refine (hp.map _).trans (List.Perm.of_eq ?_)
    apply List.ext_getElem
    · simp
    · intro i h1 h2
      simp [List.getD_eq_getElem?_getD, List.getElem?_eq_getElem h2]

example : getSortedIndices [5, -1, 3, 3] = [1, 2, 3, 0] := by decide +kernel

end Trv.Arr

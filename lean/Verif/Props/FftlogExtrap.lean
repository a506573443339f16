import Verif.Props.Fftlog
import Verif.Lemmas.ArrayOps
/-
C122: the transform of extrapolated samples.
-/
namespace Trv.Fft

open Trv Trv.Arr

/-- The value `j` points beyond an end, of which `e0` is the last sample and `e1` the one next to it. -/
noncomputable def law (x : Extrap) (e0 e1 : ℝ) (j : ℕ) : ℝ :=
  match x with
  | .pad => e0
  | .lin => e0 + j * (e0 - e1)
  | .loglin => e0 * (e0 / e1) ^ j
  | _ => 0

/-- The samples continued by `n` points at both ends: by zeros, by the last sample, linearly or as a power
law. -/
noncomputable def continued (x : Extrap) (n : ℕ) (a : List ℝ) : List ℝ :=
  (List.range n).map (fun i => law x (a.getD 0 0) (a.getD 1 0) (n - i)) ++ a ++
    (List.range n).map fun i => law x (a.getD (a.length - 1) 0) (a.getD (a.length - 2) 0) (i + 1)

/-- Samples which the extrapolation accepts: for a power law all have the same sign. -/
def Acceptable (x : Extrap) (a : List ℝ) : Prop :=
  x = .loglin → ∀ i, i + 1 < a.length → 0 < a.getD i 0 * a.getD (i + 1) 0

theorem continued_length (x : Extrap) (n : ℕ) (a : List ℝ) : (continued x n a).length = n + a.length + n := by
  simp [continued, Nat.add_assoc]

theorem front2_getD {a : List ℝ} (ha : 2 ≤ a.length) : front2 a = some (a.getD 0 0, a.getD 1 0) := by
  match a, ha with
  | x :: y :: l, _ => rfl

theorem back2_getD {a : List ℝ} (ha : 2 ≤ a.length) :
    back2 a = some (a.getD (a.length - 1) 0, a.getD (a.length - 2) 0) := by
  unfold back2
  rw [front2_getD (by simpa using ha)]
  simp only [List.getD_eq_getElem?_getD]
  rw [List.getElem?_reverse (by omega), List.getElem?_reverse (by omega)]
  simp [Nat.sub_sub]

theorem exp_log_pow {u v : ℝ} (h : 0 < u * v) (j : ℕ) (t : ℝ) (ht : t = -(j : ℝ)) :
    Real.exp (t * Real.log (v / u)) = (u / v) ^ j := by
  have hv : v ≠ 0 := by rintro rfl; simp at h
  have hu : u ≠ 0 := by rintro rfl; simp at h
  have hpos : 0 < u / v := by
    rw [div_eq_mul_inv, ← mul_inv_cancel_right₀ hv (u * v⁻¹)]
    have h2 : 0 < v⁻¹ * v⁻¹ := mul_self_pos.2 (inv_ne_zero hv)
    have : u * v⁻¹ * v * v⁻¹ = u * v * (v⁻¹ * v⁻¹) := by ring
    rw [this]
    exact mul_pos h h2
  have hl : Real.log (v / u) = -Real.log (u / v) := by rw [← Real.log_inv, inv_div]
  rw [ht, hl, neg_mul_neg, mul_comm, Real.exp_mul, Real.exp_log hpos, Real.rpow_natCast]

/-- The samples in the buffer. -/
theorem buffer_continued {H : Hankel} {a : List ℝ} (hn : H.nsamp = a.length) (ha : 2 ≤ a.length)
    (hx : H.extrap ≠ .none) (ho : H.extrap ≠ .other) (hl : Acceptable H.extrap a) :
    buffer H (a.map fun v : ℝ => (v : ℂ)) = .ok ((continued H.extrap H.nExt a).map fun v : ℝ => (v : ℂ)) := by
  have hre : (((a.map fun v : ℝ => (v : ℂ)).take H.nsamp).map Complex.re) = a := by
    rw [hn, List.take_of_length_le (by simp), List.map_map]
    simp [Function.comp_def]
  have hne : a ≠ [] := by rintro rfl; simp at ha
  have hhead : a.headD 0 = a.getD 0 0 := by
    match a, ha with
    | x :: y :: l, _ => rfl
  have hlast : a.getLastD 0 = a.getD (a.length - 1) 0 := by
    rw [List.getLastD_eq_getLast?, List.getLast?_eq_getElem?, List.getD_eq_getElem?_getD]
  unfold buffer
  rw [if_neg (by rw [hn]; simp)]
  simp only [hre]
  cases hH : H.extrap with
  | none => exact absurd hH hx
  | other => exact absurd hH ho
  | zero =>
    simp only [continued, law]
    unfold cppPad
    rw [cppFill_eq]
  | pad =>
    simp only [continued, law]
    unfold cppPad
    rw [cppFill_eq, hhead, hlast]
  | lin =>
    simp only [cppLin, front2_getD ha, back2_getD ha]
    rw [cppFill_eq]
    simp only [continued, law]
    have e1 : (List.range H.nExt).map (fun i : ℕ => a.getD 0 0 + ((i : ℝ) - H.nExt) * (a.getD 1 0 - a.getD 0 0)) =
        (List.range H.nExt).map fun i => a.getD 0 0 + ((H.nExt - i : ℕ) : ℝ) * (a.getD 0 0 - a.getD 1 0) := by
      apply List.map_congr_left
      intro i hi
      rw [Nat.cast_sub (List.mem_range.1 hi).le]
      ring
    have e2 : (List.range H.nExt).map (fun i : ℕ => a.getD (a.length - 1) 0 + (((H.nExt + a.length + i : ℕ) : ℝ) -
        ((H.nExt : ℝ) + (a.length : ℝ) - 1)) * (a.getD (a.length - 1) 0 - a.getD (a.length - 2) 0)) =
        (List.range H.nExt).map fun i => a.getD (a.length - 1) 0 + ((i + 1 : ℕ) : ℝ) *
          (a.getD (a.length - 1) 0 - a.getD (a.length - 2) 0) := by
      apply List.map_congr_left
      intro i _
      push_cast
      ring
    rw [e1, e2]
  | loglin =>
    have hs := hl hH
    have hok : cppSignOk a = true := by
      unfold cppSignOk
      rw [allAdj_getElem]
      intro i hi
      have := hs i hi
      simpa [List.getD_eq_getElem?_getD, List.getElem?_eq_getElem, hi, Nat.lt_of_succ_lt hi] using this
    simp only [cppLoglin, hok, front2_getD ha, back2_getD ha]
    rw [cppFill_eq]
    simp only [continued, law, Bool.not_true, Bool.false_eq_true, if_false]
    have h0 := hs 0 (by omega)
    have h1 := hs (a.length - 2) (by omega)
    rw [show a.length - 2 + 1 = a.length - 1 by omega, mul_comm] at h1
    have e1 : (List.range H.nExt).map (fun i : ℕ => a.getD 0 0 * Real.exp (((i : ℝ) - H.nExt) *
        Real.log (a.getD 1 0 / a.getD 0 0))) =
        (List.range H.nExt).map fun i => a.getD 0 0 * (a.getD 0 0 / a.getD 1 0) ^ (H.nExt - i) := by
      apply List.map_congr_left
      intro i hi
      rw [exp_log_pow h0 (H.nExt - i)]
      rw [Nat.cast_sub (List.mem_range.1 hi).le]
      ring
    have e2 : (List.range H.nExt).map (fun i : ℕ => a.getD (a.length - 1) 0 *
        Real.exp ((((H.nExt + a.length + i : ℕ) : ℝ) - ((H.nExt : ℝ) + (a.length : ℝ) - 1)) *
          Real.log (a.getD (a.length - 1) 0 / a.getD (a.length - 2) 0))) =
        (List.range H.nExt).map fun i => a.getD (a.length - 1) 0 *
          (a.getD (a.length - 1) 0 / a.getD (a.length - 2) 0) ^ (i + 1) := by
      apply List.map_congr_left
      intro i _
      have hr : Real.log (a.getD (a.length - 1) 0 / a.getD (a.length - 2) 0) =
          -Real.log (a.getD (a.length - 2) 0 / a.getD (a.length - 1) 0) := by
        rw [← Real.log_inv, inv_div]
      rw [hr, mul_neg, ← neg_mul, exp_log_pow h1 (i + 1)]
      push_cast
      ring
    rw [e1, e2]

/-- **C122, extrapolation.** The transform with extrapolation is the part at the original points of the
transform without extrapolation of the continued samples at the continued points, about the same pivot. -/
theorem C122_extrapolated {G : LnGamma} {mu q : ℝ} {r0 d : ℝ} (hr : 0 < r0) (hd : 0 < d) {N : ℕ} (hN : 3 ≤ N)
    {kr : ℝ} {lowring : Bool} {x : Extrap} {e : ℝ} {H : Hankel} (hx : x ≠ .none) (ho : x ≠ .other)
    (h : initialise G mu q (geometric r0 d N) kr lowring x e = .ok H) :
    ∃ H', initialise G mu q (geometric (r0 * Real.exp (-(H.nExt * d))) d (H.nExt + N + H.nExt)) H.pivot false .none e
        = .ok H' ∧
      H.post = (H'.post.drop H.nExt).take N ∧
      ∀ a : List ℝ, a.length = N → Acceptable x a → ∃ b,
        biased H' ((continued x H.nExt a).map fun v : ℝ => (v : ℂ)) = .ok b ∧
        biased H (a.map fun v : ℝ => (v : ℂ)) = .ok ((b.drop H.nExt).take N) := by
  have R := init_ready h
  have hlen := R.hns
  rw [geometric_length] at hlen
  have hext := (C45_transform_size hx h).2.1
  rw [geometric_length] at hext
  have hlog : H.logres = d := by rw [R.hlog, geometric_logres hr d (by omega)]
  have hr' : 0 < r0 * Real.exp (-(H.nExt * d)) := mul_pos hr (Real.exp_pos _)
  obtain ⟨H', h'⟩ := init_geometric G R.con hr' hd (N := H.nExt + N + H.nExt) (by omega) R.ppos false e
  have R' := init_ready h'
  have hlog' : H'.logres = d := by rw [R'.hlog, geometric_logres hr' d (by omega)]
  have hns' := R'.hns
  rw [geometric_length] at hns'
  have hpiv' : H'.pivot = H.pivot := by rw [R'.hpivot]; simp
  have hx' : H'.nsampTrans = H.nExt + N + H.nExt ∧ H'.nExt = 0 := by
    have := R'.ext
    unfold extension at this
    rw [if_pos rfl, geometric_length] at this
    simp only [Except.ok.injEq, Prod.mk.injEq] at this
    exact ⟨this.1.symm, this.2.1.symm⟩
  refine ⟨H', h', ?_, ?_⟩
  · rw [R.hpost, R'.hpost, hpiv', hlog, hlog', geometric_length, geometric_length]
    apply List.ext_getElem
    · simp
    · intro j hj hj'
      have hj2 : j < N := by simpa using hj
      rw [List.getElem_take, List.getElem_drop]
      simp only [List.getElem_map, List.getElem_range]
      rw [geometric_getD _ _ (by omega), geometric_getD _ _ (by omega), mul_assoc, ← Real.exp_add]
      congr 3
      have a1 : N - j - 1 = N - (j + 1) := by omega
      have a2 : H.nExt + N + H.nExt - (H.nExt + j) - 1 = N + H.nExt - (j + 1) := by omega
      rw [a1, a2, Nat.cast_sub (by omega), Nat.cast_sub (by omega)]
      push_cast
      ring
  · intro a ha hacc
    have hb := buffer_continued (H := H) (a := a) (by rw [hlen, ha]) (by omega) (by rw [R.hext]; exact hx)
      (by rw [R.hext]; exact ho) (by rw [R.hext]; exact hacc)
    rw [R.hext] at hb
    have hb' : buffer H' ((continued x H.nExt a).map fun v : ℝ => (v : ℂ)) =
        .ok ((continued x H.nExt a).map fun v : ℝ => (v : ℂ)) := by
      unfold buffer
      rw [if_neg (by rw [hns', List.length_map, continued_length, ha]; omega), R'.hext]
      simp only
      rw [List.take_of_length_le (by rw [hns', List.length_map, continued_length, ha])]
    refine ⟨_, by
      unfold biased
      rw [if_neg (by rw [hns', hx'.1]; omega), hb'], ?_⟩
    unfold biased
    rw [if_neg (by rw [hlen, ← hext]; omega), hb]
    simp only
    rw [R.hker, R'.hker, hlog, hlog', hpiv', hx'.1, hx'.2, ← hext, hns', hlen]
    congr 1
    apply List.ext_getElem
    · simp
    · intro j hj hj'
      rw [List.getElem_take, List.getElem_drop]
      simp only [List.getElem_map, List.getElem_range]
      rw [Nat.add_zero, Nat.add_comm j]

theorem transSize_eight : transSize 2 4 = 8 := by
  unfold transSize
  rw [if_neg (by norm_num)]
  have h : Real.logb 2 (2 * ((4 : ℕ) : ℝ)) = 3 := by
    rw [show (2 * ((4 : ℕ) : ℝ)) = (2 : ℝ) ^ (3 : ℝ) by norm_num]
    exact Real.logb_rpow (by norm_num) (by norm_num)
  rw [h, show ⌈(3 : ℝ)⌉ = 3 by norm_num]
  norm_num

theorem extension_four (x : Extrap) (hx : x ≠ .none) : ∃ p, extension (geometric 1 1 4) x 2 = .ok (8, 2, p) := by
  unfold extension
  rw [if_neg hx, geometric_length, if_neg (by norm_num), transSize_eight]
  simp only
  rw [if_neg (by norm_num), show (8 - 4) / 2 = 2 by norm_num]
  have hok : cppSignOk (geometric 1 1 4) = true := by
    unfold cppSignOk
    rw [allAdj_getElem]
    intro i hi
    rw [geometric_length] at hi
    simp only [geometric, List.getElem_map, not_le, decide_eq_true_eq, one_mul]
    positivity
  unfold cppLoglin
  rw [hok, front2_getD (by rw [geometric_length]; norm_num), back2_getD (by rw [geometric_length]; norm_num)]
  exact ⟨_, rfl⟩

/-- The hypotheses are met: four points a factor e apart, continued as a power law to eight. -/
example : (∃ H, initialise trueLg (0 + 1 / 2) 0 (geometric 1 1 4) 1 true .loglin 2 = .ok H) ∧
    Acceptable .loglin [1, 2, 3, 4] := by
  have hc : construct (0 + 1 / 2) 0 = .ok () := by simpa using construct_half 0
  obtain ⟨p, hp⟩ := extension_four .loglin (by decide)
  constructor
  · unfold initialise
    rw [hc]
    simp only
    rw [if_neg (by rw [geometric_length]; omega), if_neg (not_not.2 (loglinOk_geometric one_pos 1 (by norm_num))),
      geometric_logres one_pos 1 (by norm_num), hp]
    simp only [if_true]
    rw [if_neg (by simp), if_neg]
    · exact ⟨_, rfl⟩
    · simp only [not_or, not_le]
      exact ⟨by norm_num, by norm_num, lowringPivot_pos _ _ _ _ _⟩
  · intro _ i hi
    have hi' : i + 1 < 4 := by simpa using hi
    have hi2 : i < 3 := by omega
    interval_cases i <;> norm_num

end Trv.Fft

import Verif.Props.Units
import Verif.Model.TwoPtWindow
/-
C155 for the window functions.
-/
namespace Trv.Unit
open Trv.Mesh Trv.Stats Trv.Win Trv.Two Trv.Bis

variable {u : ℝ}

theorem fieldIn_mul (s a : ℝ) (F : MeshField ℝ) :
    ({ fieldIn s F with field := fun g c => (fieldIn s F).field g c * a } : MeshField ℝ) =
      fieldIn s { F with field := fun g c => F.field g c * a } := by
  unfold fieldIn
  simp only [mul_assoc]

theorem nField_in (hu : u ≠ 0) (v : ℝ) (E : Two.Env) (rand : List Part) (alpha : ℝ) (ell : ℕ) (m : ℤ) :
    fourier (meshIn u E.mesh) (Zeta.nField (envIn u v E) (rand.map (partIn u)) alpha ell m) =
      fourier E.mesh (Zeta.nField E rand alpha ell m) := by
  unfold Zeta.nField
  rw [ylmWeights_in]
  show fourier (meshIn u E.mesh) (ylmFieldOne E.sch (meshIn u E.mesh) E.interlace _ alpha) = _
  unfold ylmFieldOne
  rw [assignField_in hu, fieldIn_mul, fourier_in hu]

theorem quadField1_in (hu : u ≠ 0) (v : ℝ) (E : Two.Env) (rand : List Part) (alpha : ℝ) (ell : ℕ) (m : ℤ) :
    fourier (meshIn u E.mesh) (Zeta.quadField1 (envIn u v E) (rand.map (partIn u)) alpha ell m) =
      fourier E.mesh (Zeta.quadField1 E rand alpha ell m) := by
  unfold Zeta.quadField1
  rw [ylmWeightsQuad_in]
  show fourier (meshIn u E.mesh) (quadFieldOne E.sch (meshIn u E.mesh) E.interlace _ alpha) = _
  unfold quadFieldOne
  rw [assignField_in hu, fieldIn_mul, fourier_in hu]

/-- **C155 (two-point window), partial.** In another unit of length the separations of the two-point window are converted and
its counts and values are the same, for edges on the grid of the fine sampling in both units. -/
theorem C155_two_point_window_partial (hu : 0 < u) (E : Two.Env) (hn : ∀ a, 0 < E.mesh.n a) (hr : ResolvedR E.mesh)
    (hr' : ResolvedR (meshIn u E.mesh)) (hg : OnGrid E (1 / 10) 1000000)
    (hg' : OnGrid (envIn u u E) (1 / 10) 1000000) (rand : List Part) (alpha norm : ℝ) :
    computeCorrfuncWindow (envIn u u E) (rand.map (partIn u)) alpha (u ^ 3 * norm) =
      (computeCorrfuncWindow E rand alpha norm).map (rowIn u 1) := by
  have h3 : u ^ 3 * (1 / u ^ 3) = 1 := mul_one_div_cancel (pow_ne_zero 3 hu.ne')
  unfold computeCorrfuncWindow
  simp only
  rw [output_in u u (1 / u ^ 3) (u ^ 3) norm E _ _ (sumOrders_in u u u (1 / u ^ 3) E _ _ fun M m i => ?_), h3]
  rw [← statsConfig_in hu hn hr hr' hg hg']
  unfold shotAmp2One
  rw [ylmSum_in]
  show (statsConfig _ (fourier (meshIn u E.mesh) (Zeta.nField _ _ _ E.ELL M))
    (fourier (meshIn u E.mesh) (Zeta.nField _ _ _ 0 0)) _ _ _).getD i _ = _
  rw [nField_in hu.ne', nField_in hu.ne']
  rfl

/-- **C155 (three-point window), partial.** Likewise for the three-point window without wide-angle corrections. -/
theorem C155_three_point_window_partial (hu : 0 < u) (E : Env3) (hn : ∀ a, 0 < E.mesh.n a) (hk : ResolvedK E.mesh)
    (hk' : ResolvedK (meshIn u E.mesh)) (hr : ResolvedR E.mesh)
    (hr' : ResolvedR (meshIn u E.mesh)) (hg : OnGrid E.toEnv 1 100000) (hg' : OnGrid (envIn u u E.toEnv) 1 100000)
    (rand : List Part) (alpha norm : ℝ) :
    Zeta.compute3pcfWindow (envIn3 u u E) (rand.map (partIn u)) alpha none (u ^ 6 * norm) =
      (Zeta.compute3pcfWindow E rand alpha none norm).map (List.map (rowInZ u)) := by
  unfold Zeta.compute3pcfWindow
  apply measure_in hu hn hk hk' hr hr' hg hg'
  · exact nField_in hu.ne' _ _ _ _ _ _
  · exact quadField1_in hu.ne' _ _ _ _ _ _
  · funext M
    exact nField_in hu.ne' _ _ _ _ _ _
  · funext M
    show shotAmp3One (envIn u u E.toEnv) _ _ _ _ = _
    unfold shotAmp3One
    rw [ylmSum_in]
    rfl
  · intro M g
    unfold Zeta.windowFields Zeta.wideAngle
    simp only [window_in]
    show invFourier (meshIn u E.mesh) (fun g => fourier (meshIn u E.mesh)
      (Zeta.nField (envIn u u E.toEnv) _ alpha E.ELL M) g / (window E g : ℂ)) g = _
    rw [invFourier_in, nField_in hu.ne']

/-- **C155 (wide-angle corrections), partial.** In another unit the correction of order `i`, `j` changes by a factor, at the
separations which are not taken for zero in either. -/
theorem C155_wide_angle_partial (hu : 0 < u) (v : ℝ) (E : Env3) (i j : ℕ) (f : ℤ → ℂ) (g : ℤ)
    (h : Zeta.epsR ≤ mag (rvec E.mesh (cellOf E.mesh.n g))) (h' : Zeta.epsR ≤ u * mag (rvec E.mesh (cellOf E.mesh.n g))) :
    Zeta.wideAngle (envIn3 u v E) (some (i, j)) f g = ((u ^ (-(i : ℤ) - (j : ℤ)) : ℝ) : ℂ) * Zeta.wideAngle E (some (i, j)) f g := by
  have e : mag (rvec (envIn3 u v E).mesh (cellOf (envIn3 u v E).mesh.n g)) = u * mag (rvec E.mesh (cellOf E.mesh.n g)) := by
    show mag (rvec (meshIn u E.mesh) (cellOf E.mesh.n g)) = _
    rw [rvec_in, mag_in hu.le]
  unfold Zeta.wideAngle
  simp only [e]
  rw [if_neg (not_lt.2 h), if_neg (not_lt.2 h'), mul_zpow]
  push_cast
  ring

theorem exE_origin : mag (rvec Bis.exE.mesh (cellOf Bis.exE.mesh.n 0)) = 0 := by
  have : rvec Bis.exE.mesh (cellOf Bis.exE.mesh.n 0) = fun _ => 0 := by
    funext a
    unfold rvec gridVec cellOf Bis.exE
    fin_cases a <;> norm_num
  rw [this]
  unfold mag
  norm_num

theorem exE_next : mag (rvec Bis.exE.mesh (cellOf Bis.exE.mesh.n 1)) = 100 / 8 := by
  unfold rvec gridVec cellOf Bis.exE mag
  norm_num
  rw [show (625 : ℝ) = 25 ^ 2 by norm_num, show (4 : ℝ) = 2 ^ 2 by norm_num, Real.sqrt_sq (by norm_num), Real.sqrt_sq (by norm_num)]

/-- **C155, violated.** At no separation the wide-angle correction is left out, whatever its order: in another unit the corrected
field is not a multiple of what it was, so that the window depends on the unit. -/
theorem C155_wide_angle_violated (f : ℤ → ℂ) (h0 : f 0 ≠ 0) (h1 : f 1 ≠ 0) (v : ℝ) :
    ¬ ∃ s : ℂ, ∀ g, Zeta.wideAngle (envIn3 2 v Bis.exE) (some (1, 0)) f g = s * Zeta.wideAngle Bis.exE (some (1, 0)) f g := by
  rintro ⟨s, hs⟩
  have a := hs 0
  have b := hs 1
  rw [C155_wide_angle_partial (by norm_num) v Bis.exE 1 0 f 1 (by rw [exE_next, Zeta.epsR]; norm_num)
    (by rw [exE_next, Zeta.epsR]; norm_num)] at b
  have e : mag (rvec (envIn3 2 v Bis.exE).mesh (cellOf (envIn3 2 v Bis.exE).mesh.n 0)) = 0 := by
    show mag (rvec (meshIn 2 Bis.exE.mesh) (cellOf Bis.exE.mesh.n 0)) = _
    rw [rvec_in, mag_in (by norm_num), exE_origin, mul_zero]
  have hp : (0 : ℝ) < Zeta.epsR := by rw [Zeta.epsR]; norm_num
  have a1 : Zeta.wideAngle (envIn3 2 v Bis.exE) (some (1, 0)) f 0 = f 0 := by
    unfold Zeta.wideAngle
    simp only [e, if_pos hp]
  have a2 : Zeta.wideAngle Bis.exE (some (1, 0)) f 0 = f 0 := by
    unfold Zeta.wideAngle
    simp only [exE_origin, if_pos hp]
  rw [a1, a2] at a
  have hs1 : s = 1 := by
    have : (1 - s) * f 0 = 0 := by linear_combination a
    rcases mul_eq_zero.1 this with h | h
    · linear_combination -h
    · exact absurd h h0
  have hw : Zeta.wideAngle Bis.exE (some (1, 0)) f 1 ≠ 0 := by
    unfold Zeta.wideAngle
    simp only [exE_next]
    rw [if_neg (by rw [Zeta.epsR]; norm_num)]
    refine mul_ne_zero h1 ?_
    norm_num
  rw [hs1] at b
  have := mul_right_cancel₀ hw b
  norm_num at this

end Trv.Unit

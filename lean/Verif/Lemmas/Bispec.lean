import Verif.Model.Bispec
import Verif.Lemmas.TwoPt
/-
Lemmas on the bispectrum measurement: homogeneity in the weights.
-/
namespace Trv.Bis
open Trv.Mesh Trv.Stats Trv.Win Trv.Two Trv.ThreePt

/-- An addition with its value multiplied. -/
def Add.scale (c : ℂ) (u : Add) : Add := ⟨u.idx, c * u.val⟩

theorem runAdds_scale (c : ℂ) (l : List Add) :
    runAdds (l.map (Add.scale c)) = fun i => c * runAdds l i := by
  have h : ∀ (l : List Add) (a : ℤ → ℂ),
      (l.map (Add.scale c)).foldl (fun a u i => if i = u.idx then a i + u.val else a i)
        (fun i => c * a i) =
      fun i => c * l.foldl (fun (a : ℤ → ℂ) u i => if i = u.idx then a i + u.val else a i) a i := by
    intro l
    induction l with
    | nil => intro a; rfl
    | cons u l ih =>
      intro a
      rw [List.map_cons, List.foldl_cons, List.foldl_cons, ← ih]
      congr 1
      funext i
      simp only [Add.scale]
      by_cases hi : i = u.idx
      · simp [hi, mul_add]
      · simp [hi]
  have := h l (fun _ => 0)
  simp only [mul_zero] at this
  exact this

theorem bandLimited_scale (c : ℂ) (E : Env3) (fk : ℤ → ℂ) (ell : ℕ) (m : ℤ) (lo up : ℝ) :
    bandLimited E (fun g => c * fk g) ell m lo up = fun g => c * bandLimited E fk ell m lo up g := by
  funext g
  unfold bandLimited
  rw [mul_div_assoc']
  congr 1
  have := congrFun (dft_smul E.mesh.n 1 c (fun g =>
    if inBand E lo up (cellOf E.mesh.n g) then
      E.ylm ell m (kvec E.mesh (cellOf E.mesh.n g)) * (fk g / (window E g : ℂ)) else 0)) g
  rw [← this]
  congr 1
  funext g
  simp only
  split_ifs
  · ring
  · rw [mul_zero]

theorem gField_scale (c : ℝ) (E : Env3) (d r : List Part) (alpha : ℝ) (M : ℤ) :
    gField E (scaleWc c d) (scaleWc c r) alpha M = fun g => (c : ℂ) * gField E d r alpha M g := by
  unfold gField invFourier
  simp only [dnField_scale, fourier_scale]
  rw [← dft_smul]
  congr 1
  funext g
  ring

theorem bkComponent_scale (a b : ℂ) (E : Env3) (dn00 G : ℤ → ℂ) (t : Triplet) (row col : ℤ) :
    bkComponent E (fun g => a * dn00 g) (fun g => b * G g) t row col =
      a * a * b * bkComponent E dn00 G t row col := by
  unfold bkComponent
  simp only [bandLimited_scale]
  rw [← List.sum_map_mul_left]
  congr 1
  apply List.map_congr_left
  intro g _
  ring

theorem mirrored_scale (f c : ℝ) (x : ℂ) : mirrored f ((c : ℂ) * x) = (c : ℂ) * mirrored f x := by
  unfold mirrored
  rw [map_mul, Complex.conj_ofReal]
  ring

theorem bkAdds_scale (c : ℝ) (E : Env3) (d r : List Part) (alpha : ℝ) (dn00 : ℤ → ℂ) (t : Triplet) :
    bkAdds E (scaleWc c d) (scaleWc c r) alpha (fun g => (c : ℂ) * dn00 g) t =
      (bkAdds E d r alpha dn00 t).map (Add.scale ((c ^ 3 : ℝ) : ℂ)) := by
  unfold bkAdds
  simp only [gField_scale, List.map_map]
  apply List.map_congr_left
  intro e _
  simp only [Function.comp, Add.scale, Add.mk.injEq, true_and]
  rw [bkComponent_scale, show (c : ℂ) * c * c = ((c ^ 3 : ℝ) : ℂ) by push_cast; ring, mirrored_scale]
  ring

theorem uncoupled_scale (a b : ℝ) (E : Env3) (fa fb : ℤ → ℂ) (amp : ℂ) (t : Triplet) (ka kb : ℝ) :
    uncoupled E (fun g => (a : ℂ) * fa g) (fun g => (b : ℂ) * fb g) (((a * b : ℝ) : ℂ) * amp) t ka kb =
      ((a * b : ℝ) : ℂ) * uncoupled E fa fb amp t ka kb := by
  unfold uncoupled
  simp only
  rw [twopt3d_scale, dft_smul, ← mul_assoc, ← List.sum_map_mul_left]
  congr 2
  apply List.map_congr_left
  intro c _
  ring

theorem pairShot_scale (c : ℝ) (E : Env3) (t : Triplet) (bins : List (Bin ℝ (ℂ × ℂ))) (b : ℤ) :
    pairShot E t (bins.map (Bin.scale c)) b = (c : ℂ) * pairShot E t bins b := by
  unfold pairShot
  rw [getD_scale]
  simp only [Bin.scale, Prod.smul_fst, Prod.smul_snd, Complex.real_smul]
  ring

theorem snAdds_scale (c : ℝ) (E : Env3) (d r : List Part) (alpha : ℝ) (dn00 : ℤ → ℂ) (t : Triplet) :
    snAdds E (scaleWc c d) (scaleWc c r) alpha (fun g => (c : ℂ) * dn00 g) t =
      (snAdds E d r alpha dn00 t).map (Add.scale ((c ^ 3 : ℝ) : ℂ)) := by
  unfold snAdds
  simp only [dnField_scale, quadField_scale, fourier_scale, shotAmp3_scale]
  rw [show ((c ^ 3 : ℝ) : ℂ) = ((c * c ^ 2 : ℝ) : ℂ) by push_cast; ring]
  simp only [statsFourier_scale, uncoupled_scale, pairShot_scale, mirrored_scale]
  simp only [List.map_append]
  congr 1
  · congr 1
    · congr 1
      · split_ifs
        · rw [List.map_map]
          apply List.map_congr_left
          intro i _
          simp only [Function.comp, Add.scale, Add.mk.injEq, true_and]
          ring
        · rfl
      · split_ifs
        · rw [List.map_map]
          rfl
        · rfl
    · split_ifs
      · rw [List.map_map]
        rfl
      · rfl
  · rw [List.map_map]
    apply List.map_congr_left
    intro i _
    simp only [Function.comp, Add.scale, Add.mk.injEq, true_and]
    ring

theorem adds_idx (c : ℂ) (l : List Add) (p : ℤ → Bool) :
    (l.map (Add.scale c)).all (fun u => p u.idx) = l.all fun u => p u.idx := by
  rw [List.all_map]
  rfl

/-- Multiplying all clustering weights by `c` is the same as multiplying the normalisation by
`c^3`. -/
theorem computeBispec_scale (c : ℝ) (hc : c ≠ 0) (E : Env3) (d r : List Part) (norm : ℝ) :
    computeBispec E (scaleWc c d) (scaleWc c r) (norm / c ^ 3) = computeBispec E d r norm := by
  unfold computeBispec
  simp only [alpha_scale, dnField_scale, fourier_scale]
  have e1 : bkAdds E (scaleWc c d) (scaleWc c r) (alphaOf d r)
      (fun g => (c : ℂ) * fourier E.mesh (dnField E.toEnv d r (alphaOf d r) 0 0) g) = fun t =>
      (bkAdds E d r (alphaOf d r) (fourier E.mesh (dnField E.toEnv d r (alphaOf d r) 0 0)) t).map
        (Add.scale ((c ^ 3 : ℝ) : ℂ)) := by
    funext t; exact bkAdds_scale _ _ _ _ _ _ _
  have e2 : snAdds E (scaleWc c d) (scaleWc c r) (alphaOf d r)
      (fun g => (c : ℂ) * fourier E.mesh (dnField E.toEnv d r (alphaOf d r) 0 0) g) = fun t =>
      (snAdds E d r (alphaOf d r) (fourier E.mesh (dnField E.toEnv d r (alphaOf d r) 0 0)) t).map
        (Add.scale ((c ^ 3 : ℝ) : ℂ)) := by
    funext t; exact snAdds_scale _ _ _ _ _ _ _
  rw [e1, e2, ← List.map_flatMap, ← List.map_flatMap]
  generalize List.flatMap (bkAdds E d r _ _) _ = bk
  generalize List.flatMap (snAdds E d r _ _) _ = sn
  have e3 := adds_idx ((c ^ 3 : ℝ) : ℂ) (bk ++ sn)
    (fun i => decide (0 ≤ i ∧ i < dim E.numBins E.form))
  rw [← List.map_append]
  simp only [e3, runAdds_scale]
  have hc3 : ((c ^ 3 : ℝ) : ℂ) ≠ 0 := by exact_mod_cast pow_ne_zero 3 hc
  have e4 : ∀ x : ℂ, ((norm / c ^ 3 : ℝ) : ℂ) * (((c ^ 3 : ℝ) : ℂ) * x) = (norm : ℂ) * x := by
    intro x
    rw [Complex.ofReal_div, ← mul_assoc, div_mul_cancel₀ _ hc3]
  simp only [e4]

theorem normParticles3_scale (c : ℝ) (hc : c ≠ 0) (l : List Part) (alpha : ℝ) :
    normParticles3 (scaleWc c l) alpha = (normParticles3 l alpha).map (· / c ^ 3) := by
  have e : ((scaleWc c l).map fun p => p.ws * p.nz ^ 2 * p.wc ^ 3).sum =
      c ^ 3 * (l.map fun p => p.ws * p.nz ^ 2 * p.wc ^ 3).sum := by
    unfold scaleWc
    rw [List.map_map, ← List.sum_map_mul_left]
    congr 1
    apply List.map_congr_left
    intro p _
    simp only [Function.comp]
    ring
  unfold normParticles3
  simp only
  rw [e]
  generalize (l.map fun p => p.ws * p.nz ^ 2 * p.wc ^ 3).sum = N
  have hcc : c ^ 3 ≠ 0 := pow_ne_zero 3 hc
  by_cases h : N = 0
  · rw [if_pos (by rw [h, mul_zero]), if_pos h]; rfl
  · rw [if_neg (mul_ne_zero hcc h), if_neg h]
    simp only [Except.map]
    congr 1
    rw [div_div]
    congr 1
    ring

theorem normMesh3_scale (c : ℝ) (E : Two.Env) (l : List Part) (alpha : ℝ) :
    normMesh3 E (scaleWc c l) alpha = normMesh3 E l alpha / c ^ 3 := by
  unfold normMesh3
  rw [powlawNorm_scale]
  rw [div_div, div_div, mul_comm]

end Trv.Bis

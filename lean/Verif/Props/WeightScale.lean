import Verif.Props.TwoPt
import Verif.Model.ThreePcf
import Verif.Model.TwoPtWindow
/-
C58 and C89 for the three-point correlation function and the window functions.
-/
namespace Trv.Zeta
open Trv.Mesh Trv.Stats Trv.Win Trv.Two Trv.ThreePt Trv.Bis

/-- The fields with all clustering weights multiplied by `c`. -/
noncomputable def Fields.scale (c : ℝ) (F : Fields) : Fields :=
  { f00 := fun g => (c : ℂ) * F.f00 g
    n00 := fun g => ((c ^ 2 : ℝ) : ℂ) * F.n00 g
    fLM := fun M g => (c : ℂ) * F.fLM M g
    G := fun M g => (c : ℂ) * F.G M g
    sbar := fun M => ((c ^ 3 : ℝ) : ℂ) * F.sbar M }

theorem sjlField_scale (c : ℂ) (E : Env3) (fk : ℤ → ℂ) (ell : ℕ) (m : ℤ) (r : ℝ) :
    sjlField E (fun g => c * fk g) ell m r = fun g => c * sjlField E fk ell m r g := by
  unfold sjlField
  rw [← dft_smul]
  funext g
  congr 1
  funext g
  ring

theorem normalise3_scale (c : ℝ) (E : Env3) (b : Bin ℝ ℂ) :
    normalise3 E (Bin.scale c b) = Bin.scale c (normalise3 E b) := by
  unfold normalise3 Bin.scale
  simp only
  split_ifs
  · simp [mul_assoc]
  · rfl

theorem pairs3_scale (a b : ℝ) (E : Env3) (fa fb : ℤ → ℂ) (amp : ℂ) (t : Triplet) :
    pairs3 E (fun g => (a : ℂ) * fa g) (fun g => (b : ℂ) * fb g) (((a * b : ℝ) : ℂ) * amp) t =
      (pairs3 E fa fb amp t).map (Mode.scale (a * b)) := by
  unfold pairs3
  simp only
  rw [twopt3d_scale, dft_smul, List.map_map]
  apply List.map_congr_left
  intro c _
  simp only [Function.comp, Mode.scale, Mode.mk.injEq, true_and]
  rw [mul_assoc]
  rfl

theorem stats3_scale (c : ℝ) (E : Env3) (F : Fields) (t : Triplet) :
    stats3 E (F.scale c) t = (stats3 E F t).map (Bin.scale (c ^ 3)) := by
  unfold stats3 uncoupled3 Fields.scale
  simp only
  rw [show ((c ^ 3 : ℝ) : ℂ) = ((c * c ^ 2 : ℝ) : ℂ) by push_cast; ring, pairs3_scale, binStats_scale,
    List.map_map, List.map_map, show c ^ 3 = c * c ^ 2 by ring]
  apply List.map_congr_left
  intro b _
  exact normalise3_scale _ _ _

theorem recBin_scale (c : ℝ) (E : Env3) (F : Fields) (ts : List Triplet) (side : Entry → ℤ) (i : ℤ) :
    recBin E (F.scale c) ts side i = Bin.scale (c ^ 3) (recBin E F ts side i) := by
  unfold recBin
  cases ts with
  | nil => simp [Bin.scale]
  | cons t ts =>
    cases recorded E i with
    | none => simp [Bin.scale]
    | some e =>
      simp only
      rw [stats3_scale, getD_scale]

theorem noiseAdds_scale (c : ℝ) (E : Env3) (F : Fields) (t : Triplet) :
    noiseAdds E (F.scale c) t = (noiseAdds E F t).map (Add.scale ((c ^ 3 : ℝ) : ℂ)) := by
  unfold noiseAdds
  rw [List.map_map]
  apply List.map_congr_left
  intro w _
  simp only [Function.comp, Add.scale, Add.mk.injEq, true_and]
  rw [stats3_scale, getD_scale]
  simp only [Bin.scale, Complex.real_smul]
  rw [mirrored_scale]
  ring

theorem zetaComponent_scale (c : ℝ) (E : Env3) (F : Fields) (t : Triplet) (ra rb : ℝ) :
    zetaComponent E (F.scale c) t ra rb = ((c ^ 3 : ℝ) : ℂ) * zetaComponent E F t ra rb := by
  unfold zetaComponent Fields.scale
  simp only [sjlField_scale]
  rw [← List.sum_map_mul_left]
  congr 1
  apply List.map_congr_left
  intro g _
  push_cast
  ring

theorem zetaAdds_scale (c : ℝ) (E : Env3) (F : Fields) (ts : List Triplet) (t : Triplet) :
    zetaAdds E (F.scale c) ts t = (zetaAdds E F ts t).map (Add.scale ((c ^ 3 : ℝ) : ℂ)) := by
  unfold zetaAdds
  rw [List.map_map]
  apply List.map_congr_left
  intro i _
  simp only [Function.comp, Add.scale, Add.mk.injEq, true_and]
  rw [recBin_scale, recBin_scale, zetaComponent_scale, mirrored_scale]
  simp only [Bin.scale]
  ring

theorem measure_scale (c : ℝ) (hc : c ≠ 0) (E : Env3) (F : Fields) (ts : List Triplet) (norm : ℝ) :
    measure E (F.scale c) ts (norm / c ^ 3) = measure E F ts norm := by
  have e1 : zetaAdds E (F.scale c) ts = fun t => (zetaAdds E F ts t).map (Add.scale ((c ^ 3 : ℝ) : ℂ)) := by
    funext t; exact zetaAdds_scale _ _ _ _ _
  have e2 : noiseAdds E (F.scale c) = fun t => (noiseAdds E F t).map (Add.scale ((c ^ 3 : ℝ) : ℂ)) := by
    funext t; exact noiseAdds_scale _ _ _ _
  have hc3 : ((c ^ 3 : ℝ) : ℂ) ≠ 0 := by exact_mod_cast pow_ne_zero 3 hc
  have e4 : ∀ x : ℂ, ((norm / c ^ 3 : ℝ) : ℂ) * (((c ^ 3 : ℝ) : ℂ) * x) = (norm : ℂ) * x := by
    intro x
    rw [Complex.ofReal_div, ← mul_assoc, div_mul_cancel₀ _ hc3]
  unfold measure
  rw [e1, e2, ← List.map_flatMap, ← List.map_flatMap]
  simp only [runAdds_scale, e4, recBin_scale]
  rfl

theorem surveyFields_scale (c : ℝ) (E : Env3) (d r : List Part) :
    surveyFields E (scaleWc c d) (scaleWc c r) = (surveyFields E d r).scale c := by
  unfold surveyFields Fields.scale
  simp only [alpha_scale, dnField_scale, quadField_scale, fourier_scale, shotAmp3_scale, gField_scale]

theorem nField_scale (c : ℝ) (E : Two.Env) (r : List Part) (alpha : ℝ) (ell : ℕ) (m : ℤ) :
    nField E (scaleWc c r) alpha ell m = scaleF c (nField E r alpha ell m) := by
  unfold nField ylmFieldOne
  rw [ylmWeights_scale, assignField_scale]
  simp only [scaleF, mul_assoc]

theorem quadField1_scale (c : ℝ) (E : Two.Env) (r : List Part) (alpha : ℝ) (ell : ℕ) (m : ℤ) :
    quadField1 E (scaleWc c r) alpha ell m = scaleF (c ^ 2) (quadField1 E r alpha ell m) := by
  unfold quadField1 quadFieldOne
  rw [ylmWeightsQuad_scale, assignField_scale]
  simp only [scaleF, mul_assoc]

theorem wideAngle_scale (c : ℂ) (E : Env3) (wa : Option (ℕ × ℕ)) (f : ℤ → ℂ) :
    wideAngle E wa (fun g => c * f g) = fun g => c * wideAngle E wa f g := by
  funext g
  unfold wideAngle
  cases wa with
  | none => rfl
  | some p =>
    simp only
    split_ifs
    · rfl
    · ring

theorem invFourier_scale (c : ℂ) (M : Mesh ℝ) (f : ℤ → ℂ) :
    invFourier M (fun g => c * f g) = fun g => c * invFourier M f g := by
  unfold invFourier
  rw [← dft_smul]
  congr 1
  funext g
  ring

theorem windowFields_scale (c : ℝ) (E : Env3) (r : List Part) (alpha : ℝ) (wa : Option (ℕ × ℕ)) :
    windowFields E (scaleWc c r) alpha wa = (windowFields E r alpha wa).scale c := by
  have h2 : ∀ M, ((alpha ^ 3 : ℝ) : ℂ) * (((c ^ 3 : ℝ) : ℂ) * ylmSum E.toEnv 3 E.ELL M r) =
      ((c ^ 3 : ℝ) : ℂ) * (((alpha ^ 3 : ℝ) : ℂ) * ylmSum E.toEnv 3 E.ELL M r) := fun M => by ring
  unfold windowFields Fields.scale shotAmp3One
  simp only [nField_scale, quadField1_scale, fourier_scale, ylmSum_scale, h2, mul_div_assoc, invFourier_scale,
    wideAngle_scale]

/-! ### C58 -/

/-- **C58.** The same for the three-point correlation function and its shot noise. -/
theorem C58_three_point_correlation (c : ℝ) (hc : c ≠ 0) (E : Env3) (conv : Convention)
    (hconv : conv ≠ .none) (data rand : List Part) :
    (driverNorm3 E.toEnv conv (scaleWc c data) (scaleWc c rand)).bind
        (compute3pcf E (scaleWc c data) (scaleWc c rand)) =
      (driverNorm3 E.toEnv conv data rand).bind (compute3pcf E data rand) := by
  rw [driverNorm3_scale c hc E.toEnv conv hconv]
  apply map_bind_eq
  intro norm
  unfold compute3pcf
  rw [surveyFields_scale]
  exact measure_scale c hc E _ _ norm

/-- **C58.** The same for the two-point window function, normalised by particles or on the mesh, with any ratio `alpha`. -/
theorem C58_two_point_window (c : ℝ) (hc : c ≠ 0) (E : Two.Env) (rand : List Part) (alpha : ℝ) :
    (normParticles (scaleWc c rand) alpha).map (computeCorrfuncWindow E (scaleWc c rand) alpha) =
      (normParticles rand alpha).map (computeCorrfuncWindow E rand alpha) ∧
    computeCorrfuncWindow E (scaleWc c rand) alpha (normMesh E (scaleWc c rand) alpha) =
      computeCorrfuncWindow E rand alpha (normMesh E rand alpha) := by
  have h : ∀ norm, computeCorrfuncWindow E (scaleWc c rand) alpha (norm / (c * c)) =
      computeCorrfuncWindow E rand alpha norm := by
    intro norm
    unfold computeCorrfuncWindow shotAmp2One
    simp only [nField_scale, fourier_scale, ylmSum_scale]
    have h2 : ∀ M, ((alpha ^ 2 : ℝ) : ℂ) * (((c ^ 2 : ℝ) : ℂ) * ylmSum E 2 E.ELL M rand) =
      ((c * c : ℝ) : ℂ) * (((alpha ^ 2 : ℝ) : ℂ) * ylmSum E 2 E.ELL M rand) := fun M => by push_cast; ring
    simp only [h2, statsConfig_scale, sumOrders_scale]
    rw [output_scale _ _ (mul_ne_zero hc hc)]
  constructor
  · rw [normParticles_scale c hc]
    exact map_map_eq _ _ _ _ h
  · rw [normMesh_scale, h]

/-- **C58.** The same for the three-point window function, of any wide-angle order. -/
theorem C58_three_point_window (c : ℝ) (hc : c ≠ 0) (E : Env3) (rand : List Part) (alpha : ℝ)
    (wa : Option (ℕ × ℕ)) :
    (normParticles3 (scaleWc c rand) alpha).bind (compute3pcfWindow E (scaleWc c rand) alpha wa) =
      (normParticles3 rand alpha).bind (compute3pcfWindow E rand alpha wa) ∧
    compute3pcfWindow E (scaleWc c rand) alpha wa (normMesh3 E.toEnv (scaleWc c rand) alpha) =
      compute3pcfWindow E rand alpha wa (normMesh3 E.toEnv rand alpha) := by
  have h : ∀ norm, compute3pcfWindow E (scaleWc c rand) alpha wa (norm / c ^ 3) =
      compute3pcfWindow E rand alpha wa norm := by
    intro norm
    unfold compute3pcfWindow
    rw [windowFields_scale]
    exact measure_scale c hc E _ _ norm
  constructor
  · rw [normParticles3_scale c hc]
    exact map_bind_eq _ _ _ _ h
  · rw [normMesh3_scale, h]

/-- A case: the normalisation of the three-point statistics, and with the weights doubled. -/
example : normParticles3 [exPart 1 1, exPart 2 3] 1 = .ok (1 / 220) ∧
    normParticles3 (scaleWc 2 [exPart 1 1, exPart 2 3]) 1 = .ok (1 / 1760) := by
  constructor
  · unfold normParticles3 exPart; norm_num
  · unfold normParticles3 scaleWc exPart; norm_num

/-! ### C89 -/

/-- **C89.** Likewise the raw three-point correlation function, in every form and at every multipole. -/
theorem C89_raw_3pcf_zero (E : Env3) (cat : List Part) (hw : wsTotal cat ≠ 0) (norm : ℝ)
    (rows : List RowZ) (h : compute3pcf E cat cat norm = .ok rows) : ∀ r ∈ rows, r.raw = 0 := by
  unfold compute3pcf measure at h
  split_ifs at h
  injection h with h
  subst h
  intro r hr
  obtain ⟨i, _, rfl⟩ := List.mem_map.1 hr
  simp only
  rw [runAdds_zero, mul_zero]
  intro u hu
  obtain ⟨t, _, hu⟩ := List.mem_flatMap.1 hu
  unfold zetaAdds at hu
  obtain ⟨e, _, rfl⟩ := List.mem_map.1 hu
  simp only
  have h0 : (surveyFields E cat cat).f00 = fun g => (0 : ℂ) * (0 : ℂ) := by
    simp only [mul_zero]
    exact fourier_same E.toEnv cat hw 0 0
  have hz : ∀ ra rb, zetaComponent E (surveyFields E cat cat) t ra rb = 0 := by
    intro ra rb
    unfold zetaComponent
    simp only
    apply List.sum_eq_zero
    intro x hx
    obtain ⟨g, _, rfl⟩ := List.mem_map.1 hx
    rw [h0, sjlField_scale 0 E (fun _ => 0)]
    ring
  rw [hz]
  unfold mirrored
  simp

end Trv.Zeta

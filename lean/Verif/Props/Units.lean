import Verif.Lemmas.Units
/-
C155: measurements do not depend on the unit of length.
-/
namespace Trv.Unit
open Trv.Mesh Trv.Stats Trv.Win Trv.Two Trv.Bis

variable {u : ℝ}

/-! ### Normalisation -/

theorem sum_scaled {α : Type} (c : List α) (s : ℝ) (f g : α → ℝ) (h : ∀ x, f x = s * g x) :
    (c.map f).sum = s * (c.map g).sum := by
  rw [← List.sum_map_mul_left]
  congr 1
  exact List.map_congr_left fun x _ => h x

theorem norm_scaled {s : ℝ} (hs : s ≠ 0) (alpha x : ℝ) :
    (if s * x = 0 then (Except.error CppErr.invalidData : Except CppErr ℝ) else .ok (1 / (alpha * (s * x)))) =
      (if x = 0 then (Except.error CppErr.invalidData : Except CppErr ℝ) else .ok (1 / (alpha * x))).map (1 / s * ·) := by
  by_cases hx : x = 0
  · rw [if_pos hx, if_pos (by rw [hx, mul_zero])]
    rfl
  · rw [if_neg hx, if_neg (mul_ne_zero hs hx)]
    show Except.ok _ = Except.ok _
    congr 1
    show 1 / (alpha * (s * x)) = 1 / s * (1 / (alpha * x))
    rw [div_mul_div_comm, one_mul]
    congr 1
    ring

/-- **C155 (normalisation from particles).** The two-point factor has the unit of a volume, and the three-point factor that
of a volume squared; a catalogue for which they fail fails in every unit. -/
theorem C155_norm_particles (hu : u ≠ 0) (c : List Part) (alpha : ℝ) :
    normParticles (c.map (partIn u)) alpha = (normParticles c alpha).map (u ^ 3 * ·) ∧
    normParticles3 (c.map (partIn u)) alpha = (normParticles3 c alpha).map (u ^ 6 * ·) := by
  constructor
  · unfold normParticles
    simp only [List.map_map]
    rw [sum_scaled c (1 / u ^ 3) _ (fun p => p.ws * p.nz * p.wc ^ 2) (by intro p; simp only [Function.comp, partIn]; ring),
      norm_scaled (one_div_ne_zero (pow_ne_zero 3 hu)), one_div_one_div]
  · unfold normParticles3
    simp only [List.map_map]
    rw [sum_scaled c (1 / u ^ 6) _ (fun p => p.ws * p.nz ^ 2 * p.wc ^ 3) (by
        intro p; simp only [Function.comp, partIn]; ring),
      norm_scaled (one_div_ne_zero (pow_ne_zero 6 hu)), one_div_one_div]

theorem realWeights_in (u : ℝ) (off : Fin 3 → ℝ) (c : List Part) :
    realWeights (posIn u off) (c.map (partIn u)) = (realWeights off c).map (mpIn u) := by
  unfold realWeights
  rw [List.map_map, List.map_map]
  apply List.map_congr_left
  intro p _
  simp only [Function.comp, mpIn, partIn, Part.w]
  congr 1
  funext a
  simp only [posIn]
  ring

theorem powlaw_in (hu : u ≠ 0) (v : ℝ) (E : Two.Env) (c : List Part) (n : ℕ) :
    powlawNorm (envIn u v E) (c.map (partIn u)) (n + 1) = u ^ (3 * n) * powlawNorm E c (n + 1) := by
  unfold powlawNorm
  dsimp only
  have e0 : (0 : Fin 3 → ℝ) = posIn u 0 := by
    funext a
    simp [posIn]
  have e1 : realWeights 0 (c.map (partIn u)) = (realWeights 0 c).map (mpIn u) := by
    conv_lhs => rw [e0]
    rw [realWeights_in]
  have e2 : (envIn u v E).mesh = meshIn u E.mesh := rfl
  rw [e1, e2, volCell_in]
  show 1 / (((gids E.mesh).map fun g => assign E.sch (meshIn u E.mesh) ((realWeights 0 c).map (mpIn u)) g false ^ (n + 1)).sum *
    (u ^ 3 * E.mesh.volCell)) = _
  rw [sum_scaled _ ((1 / u ^ 3) ^ (n + 1)) _ (fun g => assign E.sch E.mesh (realWeights 0 c) g false ^ (n + 1)) (by
    intro g; rw [assign_in hu, mul_pow])]
  generalize (List.map (fun g => assign E.sch E.mesh (realWeights 0 c) g false ^ (n + 1)) (gids E.mesh)).sum = S
  have h3 : (1 / u ^ 3) ^ (n + 1) * u ^ 3 = 1 / u ^ (3 * n) := by
    rw [one_div_pow, ← pow_mul, show 3 * (n + 1) = 3 * n + 3 by ring, pow_add]
    have := pow_ne_zero 3 hu
    have := pow_ne_zero (3 * n) hu
    field_simp
  rw [show (1 / u ^ 3) ^ (n + 1) * S * (u ^ 3 * E.mesh.volCell) = (1 / u ^ 3) ^ (n + 1) * u ^ 3 * (S * E.mesh.volCell) by ring,
    h3, one_div, mul_inv, one_div, inv_inv, one_div]

/-- **C155 (normalisation from the mesh).** So have the factors from one and from two meshes. -/
theorem C155_norm_mesh (hu : u ≠ 0) (v : ℝ) (E : Two.Env) (offD offR : Fin 3 → ℝ) (data rand : List Part) (alpha : ℝ) :
    normMesh (envIn u v E) (rand.map (partIn u)) alpha = u ^ 3 * normMesh E rand alpha ∧
    normMesh3 (envIn u v E) (rand.map (partIn u)) alpha = u ^ 6 * normMesh3 E rand alpha ∧
    normMeshes (envIn u v E) (posIn u offD) (posIn u offR) (data.map (partIn u)) (rand.map (partIn u)) alpha =
      u ^ 3 * normMeshes E offD offR data rand alpha := by
  refine ⟨?_, ?_, ?_⟩
  · unfold normMesh
    rw [powlaw_in hu v E rand 1, mul_div_assoc]
  · unfold normMesh3
    rw [powlaw_in hu v E rand 2, mul_div_assoc]
  · unfold normMeshes
    dsimp only
    have e2 : (envIn u v E).mesh = meshIn u E.mesh := rfl
    rw [realWeights_in, realWeights_in, e2, volCell_in]
    show 1 / (alpha * (u ^ 3 * E.mesh.volCell) * ((gids E.mesh).map fun g =>
      assign E.sch (meshIn u E.mesh) ((realWeights offD data).map (mpIn u)) g false *
      assign E.sch (meshIn u E.mesh) ((realWeights offR rand).map (mpIn u)) g false).sum) = _
    rw [sum_scaled _ (1 / u ^ 3 * (1 / u ^ 3)) _ (fun g => assign E.sch E.mesh (realWeights offD data) g false *
      assign E.sch E.mesh (realWeights offR rand) g false) (by
        intro g; rw [assign_in hu, assign_in hu]; ring)]
    generalize (List.map (fun g => assign E.sch E.mesh (realWeights offD data) g false *
      assign E.sch E.mesh (realWeights offR rand) g false) (gids E.mesh)).sum = S
    have h3 : 1 / u ^ 3 * (1 / u ^ 3) * u ^ 3 = 1 / u ^ 3 := by
      have := pow_ne_zero 3 hu
      field_simp
    rw [show alpha * (u ^ 3 * E.mesh.volCell) * (1 / u ^ 3 * (1 / u ^ 3) * S) =
      1 / u ^ 3 * (1 / u ^ 3) * u ^ 3 * (alpha * E.mesh.volCell * S) by ring, h3, one_div, mul_inv, one_div, inv_inv, one_div]

theorem driver_key (hu : u ≠ 0) (v : ℝ) (E : Two.Env) (conv : Convention) (cat : List Part) (alpha m m' : ℝ)
    (hm : m' = u ^ 3 * m) :
    conv ≠ .none → (match normParticles (cat.map (partIn u)) alpha with
      | .error e => (.error e : Except CppErr ℝ)
      | .ok part => .ok (match conv with
        | .none => 1 | .particle => part | .mesh => normMesh (envIn u v E) (cat.map (partIn u)) alpha
        | .meshMixed => m')) =
    (match normParticles cat alpha with
      | .error e => (.error e : Except CppErr ℝ)
      | .ok part => .ok (match conv with
        | .none => 1 | .particle => part | .mesh => normMesh E cat alpha | .meshMixed => m)).map (u ^ 3 * ·) := by
  rw [(C155_norm_particles hu cat alpha).1, (C155_norm_mesh hu v E 0 0 [] cat alpha).1, hm]
  intro hc
  cases normParticles cat alpha with
  | error e => rfl
  | ok p => cases conv with
    | none => exact absurd rfl hc
    | particle => rfl
    | mesh => rfl
    | meshMixed => rfl

/-- **C155 (normalisation of the program).** With any convention but `none` the factor used by the program has the unit of a
volume (two-point measurements) or of a volume squared (three-point measurements), or is refused in every unit. -/
theorem C155_driver (hu : u ≠ 0) (v v' : ℝ) (E En : Two.Env) (offD offR : Fin 3 → ℝ) (t : CatType) (conv : Convention)
    (hc : conv ≠ .none) (data rand : List Part) :
    driverNorm (envIn u v E) (envIn u v' En) (posIn u offD) (posIn u offR) t conv (data.map (partIn u)) (rand.map (partIn u)) =
      (driverNorm E En offD offR t conv data rand).map (u ^ 3 * ·) ∧
    driverNorm3 (envIn u v E) conv (data.map (partIn u)) (rand.map (partIn u)) =
      (driverNorm3 E conv data rand).map (u ^ 6 * ·) := by
  constructor
  · unfold driverNorm
    cases t with
    | survey =>
      simp only [alpha_in]
      exact driver_key hu v E conv rand (alphaOf data rand) _ _ (C155_norm_mesh hu v' En offD offR data rand _).2.2 hc
    | random => exact driver_key hu v E conv rand 1 0 0 (by ring) hc
    | sim => exact driver_key hu v E conv data 1 0 0 (by ring) hc
  · unfold driverNorm3
    simp only [alpha_in]
    rw [(C155_norm_particles hu rand _).2, (C155_norm_mesh hu v E 0 0 [] rand _).2.1]
    cases normParticles3 rand (alphaOf data rand) with
    | error e => rfl
    | ok p => cases conv with
      | none => exact absurd rfl hc
      | particle => rfl
      | mesh => rfl
      | meshMixed => rfl

/-! ### Two-point measurements -/

/-- **C155 (power spectrum).** In another unit of length the bins and effective wavenumbers of the power spectrum are
converted, the numbers of modes are the same, and the values have the unit of a volume: for surveys and boxes, if the edges of
the bins are on the fine sampling in both units.  (Partial: for other edges see `C155_fine_bin_violated`.) -/
theorem C155_power_spectrum_partial (hu : 0 < u) (E : Two.Env) (hk : ResolvedK E.mesh) (hk' : ResolvedK (meshIn u E.mesh))
    (hg : OnGrid E (1 / 100000) 1000000) (hg' : OnGrid (envIn u (1 / u) E) (1 / 100000) 1000000) (norm : ℝ) :
    (∀ data rand : List Part,
      computePowspec (envIn u (1 / u) E) (data.map (partIn u)) (rand.map (partIn u)) (u ^ 3 * norm) =
        (computePowspec E data rand norm).map (rowIn (1 / u) (u ^ 3))) ∧
    ∀ pos : List (Fin 3 → ℝ), computePowspecBox (envIn u (1 / u) E) (pos.map (posIn u)) (u ^ 3 * norm) =
      (computePowspecBox E pos norm).map (rowIn (1 / u) (u ^ 3)) := by
  constructor
  · intro data rand
    unfold computePowspec
    simp only [alpha_in]
    rw [output_in u (1 / u) 1 (u ^ 3) norm E _ _ (sumOrders_in u (1 / u) (1 / u) 1 E _ _ fun M m i => ?_), mul_one]
    rw [← statsFourier_in hu hk hk' hg hg']
    rw [shotAmp2_in]
    show (statsFourier _ (fourier (meshIn u E.mesh) (dnField _ _ _ _ E.ELL M))
      (fourier (meshIn u E.mesh) (dnField _ _ _ _ 0 0)) _ _ _).getD i _ = _
    rw [dn_in hu.ne', dn_in hu.ne']
    rfl
  · intro pos
    unfold computePowspecBox
    simp only [List.length_map]
    rw [output_in u (1 / u) 1 (u ^ 3) norm E _ _ fun i => ?_, mul_one]
    have e : (envIn u (1 / u) E).mesh = meshIn u E.mesh := rfl
    have e1 : (envIn u (1 / u) E).sch = E.sch := rfl
    have e2 : (envIn u (1 / u) E).interlace = E.interlace := rfl
    have e3 : (envIn u (1 / u) E).ELL = E.ELL := rfl
    rw [e, e1, e2, e3, box_in hu.ne', statsFourier_in hu hk hk' hg hg']
    unfold binIn
    simp only [one_smul]

/-- **C155 (correlation function).** Likewise for the correlation function, whose values have no unit: they are the same.
(Partial: for other edges see `C155_fine_bin_violated`.) -/
theorem C155_correlation_partial (hu : 0 < u) (E : Two.Env) (hn : ∀ a, 0 < E.mesh.n a) (hr : ResolvedR E.mesh)
    (hr' : ResolvedR (meshIn u E.mesh)) (hg : OnGrid E (1 / 10) 1000000)
    (hg' : OnGrid (envIn u u E) (1 / 10) 1000000) (norm : ℝ) :
    (∀ data rand : List Part,
      computeCorrfunc (envIn u u E) (data.map (partIn u)) (rand.map (partIn u)) (u ^ 3 * norm) =
        (computeCorrfunc E data rand norm).map (rowIn u 1)) ∧
    ∀ pos : List (Fin 3 → ℝ), computeCorrfuncBox (envIn u u E) (pos.map (posIn u)) (u ^ 3 * norm) =
      (computeCorrfuncBox E pos norm).map (rowIn u 1) := by
  have h3 : u ^ 3 * (1 / u ^ 3) = 1 := mul_one_div_cancel (pow_ne_zero 3 hu.ne')
  constructor
  · intro data rand
    unfold computeCorrfunc
    simp only [alpha_in]
    rw [output_in u u (1 / u ^ 3) (u ^ 3) norm E _ _ (sumOrders_in u u u (1 / u ^ 3) E _ _ fun M m i => ?_), h3]
    rw [← statsConfig_in hu hn hr hr' hg hg']
    rw [shotAmp2_in]
    show (statsConfig _ (fourier (meshIn u E.mesh) (dnField _ _ _ _ E.ELL M))
      (fourier (meshIn u E.mesh) (dnField _ _ _ _ 0 0)) _ _ _).getD i _ = _
    rw [dn_in hu.ne', dn_in hu.ne']
    rfl
  · intro pos
    unfold computeCorrfuncBox
    simp only [List.length_map]
    rw [output_in u u (1 / u ^ 3) (u ^ 3) norm E _ _ fun i => ?_, h3]
    have e : (envIn u u E).mesh = meshIn u E.mesh := rfl
    have e1 : (envIn u u E).sch = E.sch := rfl
    have e2 : (envIn u u E).interlace = E.interlace := rfl
    have e3 : (envIn u u E).ELL = E.ELL := rfl
    rw [e, e1, e2, e3, box_in hu.ne', statsConfig_in hu hn hr hr' hg hg']
    unfold binIn
    simp only [smul_smul, mul_comm]

/-! ### The bispectrum -/

/-- The lines of a bispectrum without the shot noise. -/
def noShot (r : Row3) : Row3 := { r with shot := 0 }

theorem all_idx {l l' : List Add} (h : l.map Add.idx = l'.map Add.idx) (d : ℤ) :
    (l.all fun a => decide (0 ≤ a.idx ∧ a.idx < d)) = l'.all fun a => decide (0 ≤ a.idx ∧ a.idx < d) := by
  have : ∀ l : List Add, (l.all fun a => decide (0 ≤ a.idx ∧ a.idx < d)) =
      (l.map Add.idx).all fun i => decide (0 ≤ i ∧ i < d) := by
    intro l
    rw [List.all_map]
    rfl
  rw [this, this, h]

theorem flatMap_idx {l : List ThreePt.Triplet} {f g : ThreePt.Triplet → List Add}
    (h : ∀ t, (f t).map Add.idx = (g t).map Add.idx) : (l.flatMap f).map Add.idx = (l.flatMap g).map Add.idx := by
  rw [List.map_flatMap, List.map_flatMap]
  simp only [h]

theorem snAdds_idx (u v : ℝ) (E : Env3) (data rand data' rand' : List Part) (alpha : ℝ) (dn dn' : ℤ → ℂ)
    (t : ThreePt.Triplet) :
    (snAdds (envIn3 u v E) data' rand' alpha dn' t).map Add.idx = (snAdds E data rand alpha dn t).map Add.idx := by
  have h1 : (envIn3 u v E).ell1 = E.ell1 := rfl
  have h2 : (envIn3 u v E).ell2 = E.ell2 := rfl
  unfold snAdds
  have h3 : (envIn3 u v E).numBins = E.numBins := rfl
  have h4 : (envIn3 u v E).form = E.form := rfl
  simp only [h1, h2, h3, h4, List.map_append]
  simp only [List.map_map, Function.comp_def, apply_ite (List.map Add.idx), List.map_nil]

theorem snAddsBox_idx (u v : ℝ) (E : Env3) (pos pos' : List (Fin 3 → ℝ)) (t : ThreePt.Triplet) :
    (Zeta.snAddsBox (envIn3 u v E) pos' t).map Add.idx = (Zeta.snAddsBox E pos t).map Add.idx := by
  have h1 : (envIn3 u v E).ell1 = E.ell1 := rfl
  have h2 : (envIn3 u v E).ell2 = E.ell2 := rfl
  unfold Zeta.snAddsBox
  have h3 : (envIn3 u v E).numBins = E.numBins := rfl
  have h4 : (envIn3 u v E).form = E.form := rfl
  simp only [h1, h2, h3, h4, List.map_append]
  simp only [List.map_map, Function.comp_def, apply_ite (List.map Add.idx), List.map_nil]

theorem norm6 (u norm : ℝ) (x : ℂ) : ((u ^ 6 * norm : ℝ) : ℂ) * x = ((u ^ 6 : ℝ) : ℂ) * ((norm : ℂ) * x) := by
  push_cast
  ring

/-- **C155 (bispectrum).** In another unit of length the effective wavenumbers of the bispectrum are converted, the numbers of
modes are the same and the values have the unit of a volume squared, whatever the bins; a measurement that is refused is
refused in every unit. -/
theorem C155_bispectrum (hu : 0 < u) (E : Env3) (hk : ResolvedK E.mesh) (hk' : ResolvedK (meshIn u E.mesh)) (norm : ℝ) :
    (∀ data rand : List Part,
      (computeBispec (envIn3 u (1 / u) E) (data.map (partIn u)) (rand.map (partIn u)) (u ^ 6 * norm)).map (List.map noShot) =
        (computeBispec E data rand norm).map (List.map (noShot ∘ rowIn3 (1 / u) (u ^ 6)))) ∧
    ∀ pos : List (Fin 3 → ℝ),
      (Zeta.computeBispecBox (envIn3 u (1 / u) E) (pos.map (posIn u)) (u ^ 6 * norm)).map (List.map noShot) =
        (Zeta.computeBispecBox E pos norm).map (List.map (noShot ∘ rowIn3 (1 / u) (u ^ 6))) := by
  constructor
  · intro data rand
    have hbk : ((triplets E).flatMap (bkAdds (envIn3 u (1 / u) E) (data.map (partIn u)) (rand.map (partIn u))
        (alphaOf data rand) (fourier (envIn3 u (1 / u) E).mesh (dnField (envIn3 u (1 / u) E).toEnv (data.map (partIn u))
          (rand.map (partIn u)) (alphaOf data rand) 0 0)))) =
        (triplets E).flatMap (bkAdds E data rand (alphaOf data rand)
          (fourier E.mesh (dnField E.toEnv data rand (alphaOf data rand) 0 0))) := by
      congr 1
      funext t
      rw [bkAdds_in hu E hk hk']
      congr 1
      exact dn_in hu.ne' _ _ _ _ _ _ _
    unfold computeBispec
    have e1 : (envIn3 u (1 / u) E).w3j (envIn3 u (1 / u) E).ell1 (envIn3 u (1 / u) E).ell2 (envIn3 u (1 / u) E).ELL 0 0 0 =
      E.w3j E.ell1 E.ell2 E.ELL 0 0 0 := rfl
    have e2 : ThreePt.dim (envIn3 u (1 / u) E).numBins (envIn3 u (1 / u) E).form = ThreePt.dim E.numBins E.form := rfl
    by_cases hc : |E.w3j E.ell1 E.ell2 E.ELL 0 0 0| < epsCoupling
    · rw [if_pos hc, if_pos (by rw [e1]; exact hc)]
      rfl
    · rw [if_neg hc, if_neg (by rw [e1]; exact hc)]
      simp only [alpha_in, triplets_in, hbk, e2]
      have hidx := flatMap_idx (l := triplets E) fun t => snAdds_idx u (1 / u) E data rand (data.map (partIn u))
        (rand.map (partIn u)) (alphaOf data rand) (fourier E.mesh (dnField E.toEnv data rand (alphaOf data rand) 0 0))
        (fourier (envIn3 u (1 / u) E).mesh (dnField (envIn3 u (1 / u) E).toEnv (data.map (partIn u))
          (rand.map (partIn u)) (alphaOf data rand) 0 0)) t
      generalize (triplets E).flatMap (snAdds (envIn3 u (1 / u) E) _ _ _ _) = sn' at hidx ⊢
      generalize (triplets E).flatMap (snAdds E _ _ _ _) = sn at hidx ⊢
      generalize (triplets E).flatMap (bkAdds E _ _ _ _) = bk
      simp only [all_idx (show (bk ++ sn').map Add.idx = (bk ++ sn).map Add.idx by
        rw [List.map_append, hidx, List.map_append])]
      split_ifs
      · simp only [Except.map, List.map_map]
        congr 1
        apply List.map_congr_left
        intro i _
        simp only [Function.comp, noShot, rowIn3, k1eff_in hu, k2eff_in hu, entryAt_in, lowerEdge_in,
          upperEdge_in, nmodesBand_in hu, norm6]
      · rfl
  · intro pos
    have hbk : ((Zeta.tripletsGpp E).flatMap (Zeta.bkAddsBox (envIn3 u (1 / u) E) (pos.map (posIn u)))) =
        (Zeta.tripletsGpp E).flatMap (Zeta.bkAddsBox E pos) := by
      congr 1
      funext t
      rw [bkAddsBox_in hu E hk hk']
    unfold Zeta.computeBispecBox
    have e1 : (envIn3 u (1 / u) E).w3j (envIn3 u (1 / u) E).ell1 (envIn3 u (1 / u) E).ell2 (envIn3 u (1 / u) E).ELL 0 0 0 =
      E.w3j E.ell1 E.ell2 E.ELL 0 0 0 := rfl
    have e2 : ThreePt.dim (envIn3 u (1 / u) E).numBins (envIn3 u (1 / u) E).form = ThreePt.dim E.numBins E.form := rfl
    have e3 : Zeta.tripletsGpp (envIn3 u (1 / u) E) = Zeta.tripletsGpp E := rfl
    by_cases hc : |E.w3j E.ell1 E.ell2 E.ELL 0 0 0| < epsCoupling
    · rw [if_pos hc, if_pos (by rw [e1]; exact hc)]
      rfl
    · rw [if_neg hc, if_neg (by rw [e1]; exact hc)]
      simp only [e3, hbk, e2]
      have hidx := flatMap_idx (l := Zeta.tripletsGpp E) fun t => snAddsBox_idx u (1 / u) E pos (pos.map (posIn u)) t
      generalize (Zeta.tripletsGpp E).flatMap (Zeta.snAddsBox (envIn3 u (1 / u) E) _) = sn' at hidx ⊢
      generalize (Zeta.tripletsGpp E).flatMap (Zeta.snAddsBox E _) = sn at hidx ⊢
      generalize (Zeta.tripletsGpp E).flatMap (Zeta.bkAddsBox E _) = bk
      simp only [all_idx (show (bk ++ sn').map Add.idx = (bk ++ sn).map Add.idx by
        rw [List.map_append, hidx, List.map_append])]
      split_ifs
      · simp only [Except.map, List.map_map]
        congr 1
        apply List.map_congr_left
        intro i _
        simp only [Function.comp, noShot, rowIn3, keffBox_in hu, nmodesBox_in hu, norm6]
      · rfl

/-- **C155 (bispectrum with shot noise).** The shot noise of the bispectrum too is converted, if the edges of the bins are on
the fine sampling of the power spectra it is made of, in both units.  (Partial: for other edges see
`C155_fine_bin_violated`.) -/
theorem C155_bispectrum_noise_partial (hu : 0 < u) (E : Env3) (hk : ResolvedK E.mesh) (hk' : ResolvedK (meshIn u E.mesh))
    (hr : ResolvedR E.mesh) (hr' : ResolvedR (meshIn u E.mesh)) (hg : OnGrid E.toEnv (1 / 100000) 1000000)
    (hg' : OnGrid (envIn u (1 / u) E.toEnv) (1 / 100000) 1000000) (norm : ℝ) :
    (∀ data rand : List Part,
      computeBispec (envIn3 u (1 / u) E) (data.map (partIn u)) (rand.map (partIn u)) (u ^ 6 * norm) =
        (computeBispec E data rand norm).map (List.map (rowIn3 (1 / u) (u ^ 6)))) ∧
    ∀ pos : List (Fin 3 → ℝ),
      Zeta.computeBispecBox (envIn3 u (1 / u) E) (pos.map (posIn u)) (u ^ 6 * norm) =
        (Zeta.computeBispecBox E pos norm).map (List.map (rowIn3 (1 / u) (u ^ 6))) := by
  constructor
  · intro data rand
    have hdn : fourier (envIn3 u (1 / u) E).mesh (dnField (envIn3 u (1 / u) E).toEnv (data.map (partIn u))
        (rand.map (partIn u)) (alphaOf data rand) 0 0) = fourier E.mesh (dnField E.toEnv data rand (alphaOf data rand) 0 0) :=
      dn_in hu.ne' _ _ _ _ _ _ _
    unfold computeBispec
    have e1 : (envIn3 u (1 / u) E).w3j (envIn3 u (1 / u) E).ell1 (envIn3 u (1 / u) E).ell2 (envIn3 u (1 / u) E).ELL 0 0 0 =
      E.w3j E.ell1 E.ell2 E.ELL 0 0 0 := rfl
    have e2 : ThreePt.dim (envIn3 u (1 / u) E).numBins (envIn3 u (1 / u) E).form = ThreePt.dim E.numBins E.form := rfl
    by_cases hc : |E.w3j E.ell1 E.ell2 E.ELL 0 0 0| < epsCoupling
    · rw [if_pos hc, if_pos (by rw [e1]; exact hc)]
      rfl
    · rw [if_neg hc, if_neg (by rw [e1]; exact hc)]
      have hbk : bkAdds (envIn3 u (1 / u) E) (data.map (partIn u)) (rand.map (partIn u)) (alphaOf data rand)
          (fourier E.mesh (dnField E.toEnv data rand (alphaOf data rand) 0 0)) =
          bkAdds E data rand (alphaOf data rand) (fourier E.mesh (dnField E.toEnv data rand (alphaOf data rand) 0 0)) := by
        funext t
        exact bkAdds_in hu E hk hk' _ _ _ _ _
      have hsn : snAdds (envIn3 u (1 / u) E) (data.map (partIn u)) (rand.map (partIn u)) (alphaOf data rand)
          (fourier E.mesh (dnField E.toEnv data rand (alphaOf data rand) 0 0)) =
          snAdds E data rand (alphaOf data rand) (fourier E.mesh (dnField E.toEnv data rand (alphaOf data rand) 0 0)) := by
        funext t
        exact snAdds_in hu E hk hk' hr hr' hg hg' _ _ _ _ _
      simp only [alpha_in, triplets_in, hdn, hbk, hsn, e2]
      split_ifs
      · simp only [Except.map, List.map_map]
        congr 1
        apply List.map_congr_left
        intro i _
        simp only [Function.comp, rowIn3, k1eff_in hu, k2eff_in hu, entryAt_in, lowerEdge_in, upperEdge_in,
          nmodesBand_in hu, norm6]
      · rfl
  · intro pos
    unfold Zeta.computeBispecBox
    have e1 : (envIn3 u (1 / u) E).w3j (envIn3 u (1 / u) E).ell1 (envIn3 u (1 / u) E).ell2 (envIn3 u (1 / u) E).ELL 0 0 0 =
      E.w3j E.ell1 E.ell2 E.ELL 0 0 0 := rfl
    have e2 : ThreePt.dim (envIn3 u (1 / u) E).numBins (envIn3 u (1 / u) E).form = ThreePt.dim E.numBins E.form := rfl
    have e3 : Zeta.tripletsGpp (envIn3 u (1 / u) E) = Zeta.tripletsGpp E := rfl
    by_cases hc : |E.w3j E.ell1 E.ell2 E.ELL 0 0 0| < epsCoupling
    · rw [if_pos hc, if_pos (by rw [e1]; exact hc)]
      rfl
    · rw [if_neg hc, if_neg (by rw [e1]; exact hc)]
      have hbk : Zeta.bkAddsBox (envIn3 u (1 / u) E) (pos.map (posIn u)) = Zeta.bkAddsBox E pos := by
        funext t
        exact bkAddsBox_in hu E hk hk' _ _
      have hsn : Zeta.snAddsBox (envIn3 u (1 / u) E) (pos.map (posIn u)) = Zeta.snAddsBox E pos := by
        funext t
        exact snAddsBox_in hu E hk hk' hr hr' hg hg' _ _
      simp only [e3, hbk, hsn, e2]
      split_ifs
      · simp only [Except.map, List.map_map]
        congr 1
        apply List.map_congr_left
        intro i _
        simp only [Function.comp, rowIn3, keffBox_in hu, nmodesBox_in hu, norm6]
      · rfl

/-! ### The three-point correlation function -/

theorem flatMap_scaled (a : ℂ) (l : List ThreePt.Triplet) (f g : ThreePt.Triplet → List Add)
    (h : ∀ t, f t = (g t).map fun x => ⟨x.idx, a * x.val⟩) :
    l.flatMap f = (l.flatMap g).map fun x => ⟨x.idx, a * x.val⟩ := by
  rw [List.map_flatMap]
  congr 1
  funext t
  exact h t

theorem measure_in (hu : 0 < u) {E : Env3} (hn : ∀ a, 0 < E.mesh.n a) (hk : ResolvedK E.mesh)
    (hk' : ResolvedK (meshIn u E.mesh)) (hr : ResolvedR E.mesh)
    (hr' : ResolvedR (meshIn u E.mesh)) (hg : OnGrid E.toEnv 1 100000) (hg' : OnGrid (envIn u u E.toEnv) 1 100000)
    (F F' : Zeta.Fields) (h0 : F'.f00 = F.f00) (h1 : F'.n00 = F.n00) (h2 : F'.fLM = F.fLM) (h3 : F'.sbar = F.sbar)
    (h4 : ∀ M g, F'.G M g = ((1 / u ^ 3 : ℝ) : ℂ) * F.G M g) (ts : List ThreePt.Triplet) (norm : ℝ) :
    Zeta.measure (envIn3 u u E) F' ts (u ^ 6 * norm) = (Zeta.measure E F ts norm).map (List.map (rowInZ u)) := by
  have e1 : (envIn3 u u E).w3j (envIn3 u u E).ell1 (envIn3 u u E).ell2 (envIn3 u u E).ELL 0 0 0 =
    E.w3j E.ell1 E.ell2 E.ELL 0 0 0 := rfl
  have e2 : ThreePt.dim (envIn3 u u E).numBins (envIn3 u u E).form = ThreePt.dim E.numBins E.form := rfl
  have e3 : Zeta.accessOk (envIn3 u u E) ts = Zeta.accessOk E ts := rfl
  have e6 : ∀ side i, Zeta.recCentre (envIn3 u u E) ts side i = u * Zeta.recCentre E ts side i := by
    intro side i
    unfold Zeta.recCentre
    have e : Zeta.recorded (envIn3 u u E) i = Zeta.recorded E i := rfl
    rw [e]
    cases ts with
    | nil => simp
    | cons t ts =>
      cases Zeta.recorded E i with
      | none => simp
      | some en => exact getD_scaled _ _ _
  have hz : ts.flatMap (Zeta.zetaAdds (envIn3 u u E) F' ts) = _ :=
    flatMap_scaled ((1 / u ^ 6 : ℝ) : ℂ) ts _ _ (zetaAdds_in hu hn hk hk' hr hr' hg hg' F F' h0 h1 h2 h3 h4 ts)
  have hs : ts.flatMap (Zeta.noiseAdds (envIn3 u u E) F') = _ :=
    flatMap_scaled ((1 / u ^ 6 : ℝ) : ℂ) ts _ _ (noiseAdds_in hu hn hr hr' hg hg' F F' h1 h2 h3)
  have e7 : ∀ x : ℂ, ((u ^ 6 * norm : ℝ) : ℂ) * (((1 / u ^ 6 : ℝ) : ℂ) * x) = (norm : ℂ) * x := by
    intro x
    have h : (u : ℂ) ≠ 0 := by exact_mod_cast hu.ne'
    push_cast
    field_simp
  unfold Zeta.measure
  by_cases hc : |E.w3j E.ell1 E.ell2 E.ELL 0 0 0| < epsCoupling
  · rw [if_pos hc, if_pos (by rw [e1]; exact hc)]
    rfl
  · rw [if_neg hc, if_neg (by rw [e1]; exact hc)]
    by_cases ha : Zeta.accessOk E ts
    · rw [if_pos ha, if_pos (by rw [e3]; exact ha), e2]
      simp only [Except.map, List.map_map]
      congr 1
      apply List.map_congr_left
      intro i _
      simp only [Function.comp, rowInZ, recBin_in hu hn hr hr' hg hg' F F' h1 h2 h3, binIn, e6, hz, hs, runAdds_in, e7]
    · rw [if_neg ha, if_neg (by rw [e3]; exact ha)]
      rfl

/-- **C155 (three-point correlation function).** Likewise for the three-point correlation function of a survey or of a box,
whose values have no unit: they and the shot noise are the same.  (Partial: for edges that are not whole numbers in both units
see `C155_fine_bin_violated`.) -/
theorem C155_3pcf_partial (hu : 0 < u) (E : Env3) (hn : ∀ a, 0 < E.mesh.n a) (hk : ResolvedK E.mesh)
    (hk' : ResolvedK (meshIn u E.mesh)) (hr : ResolvedR E.mesh)
    (hr' : ResolvedR (meshIn u E.mesh)) (hg : OnGrid E.toEnv 1 100000) (hg' : OnGrid (envIn u u E.toEnv) 1 100000)
    (norm : ℝ) :
    (∀ data rand : List Part,
      Zeta.compute3pcf (envIn3 u u E) (data.map (partIn u)) (rand.map (partIn u)) (u ^ 6 * norm) =
        (Zeta.compute3pcf E data rand norm).map (List.map (rowInZ u))) ∧
    ∀ pos : List (Fin 3 → ℝ), Zeta.compute3pcfBox (envIn3 u u E) (pos.map (posIn u)) (u ^ 6 * norm) =
      (Zeta.compute3pcfBox E pos norm).map (List.map (rowInZ u)) := by
  constructor
  · intro data rand
    unfold Zeta.compute3pcf
    apply measure_in hu hn hk hk' hr hr' hg hg'
    · unfold Zeta.surveyFields
      simp only [alpha_in]
      exact dn_in hu.ne' _ _ _ _ _ _ _
    · unfold Zeta.surveyFields
      simp only [alpha_in]
      exact quad_in hu.ne' _ _ _ _ _ _ _
    · unfold Zeta.surveyFields
      simp only [alpha_in]
      funext M
      exact dn_in hu.ne' _ _ _ _ _ _ _
    · unfold Zeta.surveyFields
      simp only [alpha_in]
      funext M
      exact shotAmp3_in _ _ _ _ _ _ _ _
    · intro M g
      unfold Zeta.surveyFields
      simp only [alpha_in]
      exact gField_in hu.ne' u E data rand _ M g
  · intro pos
    unfold Zeta.compute3pcfBox
    have h1 : Zeta.boxDn (envIn3 u u E) (pos.map (posIn u)) = Zeta.boxDn E pos := box_in hu.ne' E.toEnv pos
    have h2 : Zeta.boxN (envIn3 u u E) (pos.map (posIn u)) = Zeta.boxN E pos := boxCounts_in hu.ne' E.toEnv pos
    apply measure_in hu hn hk hk' hr hr' hg hg'
    · exact h1
    · exact h2
    · funext M
      exact h1
    · funext M
      unfold Zeta.boxFields
      simp only [List.length_map]
    · intro M g
      unfold Zeta.boxFields Zeta.boxG
      simp only [h1]
      exact invFourier_in u E.mesh _ g

/-! ### Where the unit matters -/

theorem exFine_scaled_mag : mag (rvec (envIn 2 2 exFine).mesh (1, 0, 0)) = 1 / 2 := by
  show mag (rvec (meshIn 2 exFine.mesh) (1, 0, 0)) = 1 / 2
  rw [rvec_in, mag_in (by norm_num), exFine_mag]
  norm_num

theorem exFine_scaled_seps : (1, 0, 0) ∈ sepsIn (envIn 2 2 exFine) 0 := by
  unfold sepsIn
  rw [Finset.mem_filter, allModes_eq, mem_box, exFine_scaled_mag]
  refine ⟨⟨⟨by decide, show (1 : ℤ) < 4 by norm_num⟩, ⟨le_rfl, show (0 : ℤ) < 2 by norm_num⟩, le_rfl,
    show (0 : ℤ) < 2 by norm_num⟩, by norm_num, ?_, ?_⟩
  · show (2 * (1 / 4) : ℝ) ≤ _
    norm_num
  · show _ < (2 * (3 / 10) : ℝ)
    norm_num

theorem exFine_resolved : ResolvedR exFine.mesh ∧ ResolvedR (meshIn 2 exFine.mesh) := by
  constructor
  · intro a
    match a with
    | 0 => show (1 : ℝ) / 1000000000 ≤ 1 / ((4 : ℤ) : ℝ); norm_num
    | 1 => show (1 : ℝ) / 1000000000 ≤ 2 / ((2 : ℤ) : ℝ); norm_num
    | 2 => show (1 : ℝ) / 1000000000 ≤ 2 / ((2 : ℤ) : ℝ); norm_num
  · intro a
    match a with
    | 0 => show (1 : ℝ) / 1000000000 ≤ 2 * 1 / ((4 : ℤ) : ℝ); norm_num
    | 1 => show (1 : ℝ) / 1000000000 ≤ 2 * 2 / ((2 : ℤ) : ℝ); norm_num
    | 2 => show (1 : ℝ) / 1000000000 ≤ 2 * 2 / ((2 : ℤ) : ℝ); norm_num

/-- **C155, violated.**  The fine sampling is a fixed number whatever the unit: a bin of the correlation function in which no
separation is counted counts some if the same lengths are given in a unit half as long. -/
theorem C155_fine_bin_violated : ∃ E : Two.Env, E.mesh.Valid ∧ ResolvedR E.mesh ∧ ResolvedR (meshIn 2 E.mesh) ∧
    ∀ (pos : List (Fin 3 → ℝ)) (norm : ℝ), ∃ r r', (computeCorrfuncBox E pos norm)[0]? = some r ∧
      (computeCorrfuncBox (envIn 2 2 E) (pos.map (posIn 2)) (2 ^ 3 * norm))[0]? = some r' ∧ r.num = 0 ∧ 0 < r'.num := by
  refine ⟨exFine, exFine_valid, exFine_resolved.1, exFine_resolved.2, ?_⟩
  intro pos norm
  obtain ⟨-, ⟨r, h1, -, a1, -⟩⟩ := C107_box exFine (fun a => (exFine_valid a).1) pos norm 0 (show 0 < 1 by norm_num)
  obtain ⟨-, ⟨r', h1', -, a1', -⟩⟩ := C107_box (envIn 2 2 exFine) (fun a => (exFine_valid a).1) (pos.map (posIn 2))
    (2 ^ 3 * norm) 0 (show 0 < 1 by norm_num)
  refine ⟨r, r', h1, h1', by rw [a1, exFine_seps]; rfl, ?_⟩
  rw [a1']
  exact Finset.card_pos.2 ⟨_, exFine_scaled_seps⟩

/-- **C155, violated.**  A vector shorter than `1e-9` in the unit used has no harmonics, though it has in a smaller unit. -/
theorem C155_direction_violated : ∃ (P : ℕ → ℕ → ℝ → ℝ) (v : Fin 3 → ℝ) (u : ℝ), 0 < u ∧
    reducedYlm P 1 0 (v 0) (v 1) (v 2) = 0 ∧ reducedYlm P 1 0 (posIn u v 0) (posIn u v 1) (posIn u v 2) ≠ 0 := by
  refine ⟨fun _ _ _ => 1, fun _ => 1 / 10000000000, 10000000000, by norm_num, ?_, ?_⟩
  · unfold reducedYlm
    rw [if_neg (by norm_num)]
    have : |Real.sqrt ((1 / 10000000000 : ℝ) * (1 / 10000000000) + 1 / 10000000000 * (1 / 10000000000) +
        1 / 10000000000 * (1 / 10000000000))| < 1 / 1000000000 := by
      rw [abs_of_nonneg (Real.sqrt_nonneg _), Real.sqrt_lt' (by norm_num)]
      norm_num
    simp only [if_pos this]
  · unfold reducedYlm posIn
    rw [if_neg (by norm_num)]
    have e : (10000000000 : ℝ) * (1 / 10000000000) = 1 := by norm_num
    have : ¬ |Real.sqrt ((1 : ℝ) * 1 + 1 * 1 + 1 * 1)| < 1 / 1000000000 := by
      rw [abs_of_nonneg (Real.sqrt_nonneg _), not_lt]
      exact Real.le_sqrt_of_sq_le (by norm_num)
    simp only [e, if_neg this]
    have h4 : Real.sqrt (4 * Real.pi / (2 * ((1 : ℕ) : ℝ) + 1)) ≠ 0 := by
      rw [Real.sqrt_ne_zero']
      have := Real.pi_pos
      positivity
    simp only [Int.cast_zero, mul_zero, zero_mul, Complex.exp_zero, Complex.ofReal_one, mul_one, map_one, abs_zero, sub_zero,
      EuclideanDomain.zero_div, zpow_zero, one_mul]
    exact_mod_cast h4

/-- The hypotheses are met: the bispectrum of the example in a unit half as long. -/
example (data rand : List Part) (norm : ℝ) :
    (computeBispec (envIn3 2 (1 / 2) exE) (data.map (partIn 2)) (rand.map (partIn 2)) (2 ^ 6 * norm)) =
      (computeBispec exE data rand norm).map (List.map (rowIn3 (1 / 2) (2 ^ 6))) := by
  have hpi := Real.pi_gt_three
  refine (C155_bispectrum_noise_partial (by norm_num) exE ?_ ?_ ?_ ?_ ?_ ?_ norm).1 data rand
  · intro a
    show (1 : ℝ) / 1000000000 ≤ 2 * Real.pi / 100
    linarith
  · intro a
    show (1 : ℝ) / 1000000000 ≤ 2 * Real.pi / (2 * 100)
    linarith
  · intro a
    show (1 : ℝ) / 1000000000 ≤ 100 / ((8 : ℤ) : ℝ)
    norm_num
  · intro a
    show (1 : ℝ) / 1000000000 ≤ 2 * 100 / ((8 : ℤ) : ℝ)
    norm_num
  · intro b hb
    have hb' : b ≤ 2 := hb
    interval_cases b
    · exact ⟨0, show (0 : ℝ) = _ by norm_num, by norm_num⟩
    · exact ⟨10000, show (1 / 10 : ℝ) = _ by norm_num, by norm_num⟩
    · exact ⟨20000, show (1 / 5 : ℝ) = _ by norm_num, by norm_num⟩
  · intro b hb
    have hb' : b ≤ 2 := hb
    interval_cases b
    · exact ⟨0, show (1 / 2 * 0 : ℝ) = _ by norm_num, by norm_num⟩
    · exact ⟨5000, show (1 / 2 * (1 / 10) : ℝ) = _ by norm_num, by norm_num⟩
    · exact ⟨10000, show (1 / 2 * (1 / 5) : ℝ) = _ by norm_num, by norm_num⟩

end Trv.Unit

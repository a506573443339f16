import Verif.Model.TwoPt
import Verif.Lemmas.Mesh
import Verif.Lemmas.FieldStats
/-
Lemmas on the two-point measurements: closed form of the bins, homogeneity in the weights.
-/
namespace Trv.Two
open Trv.Mesh Trv.Stats Trv.Win

/-! ### Bins -/

section
variable {V : Type} [AddCommGroup V] [Module ℝ V]

/-- The statistics of a list of modes. -/
noncomputable def binOf (centre : ℝ) (l : List (Mode ℝ V)) : Bin ℝ V :=
  if l.length = 0 then ⟨0, centre, 0⟩
  else ⟨l.length, (l.map Mode.len).sum / (l.length : ℝ), ((l.length : ℝ)⁻¹) • (l.map Mode.val).sum⟩

theorem coarse_eq (ns : ℕ) (d lower upper centre : ℝ) (ms : List (Mode ℝ V)) :
    coarse ns d lower upper centre (fine ns d ms) =
      binOf centre (ms.filter (sel ns d lower upper)) := by
  obtain ⟨h1, h2, h3⟩ := coarse_fine ns d lower upper centre ms
  generalize ms.filter (sel ns d lower upper) = l at *
  generalize coarse ns d lower upper centre (fine ns d ms) = b at *
  obtain ⟨n, x, v⟩ := b
  simp only at h1 h2 h3
  unfold binOf
  by_cases hl : l.length = 0
  · rw [if_pos hl]
    obtain ⟨a, b⟩ := h3 (List.length_eq_zero_iff.1 hl)
    rw [h1, hl, a, b]
  · rw [if_neg hl]
    obtain ⟨a, b⟩ := h2 (fun h => hl (by rw [h]; rfl))
    have hne : (l.length : ℝ) ≠ 0 := by exact_mod_cast hl
    rw [h1]
    congr 1
    · rw [eq_div_iff hne, ← a]; ring
    · rw [← b, smul_smul, inv_mul_cancel₀ hne, one_smul]

theorem binStats_eq (ns : ℕ) (d : ℝ) (edges centres : List ℝ) (nb : ℕ) (ms : List (Mode ℝ V)) :
    binStats ns d edges centres nb ms = (List.range nb).map fun b =>
      binOf (centres.getD b 0) (ms.filter (sel ns d (edges.getD b 0) (edges.getD (b + 1) 0))) := by
  unfold binStats
  simp only [coarse_eq]

/-- A bin or mode with its value multiplied. -/
def Bin.scale (c : ℝ) (b : Bin ℝ V) : Bin ℝ V := ⟨b.num, b.len, c • b.val⟩
def Mode.scale (c : ℝ) (m : Mode ℝ V) : Mode ℝ V := ⟨m.len, c • m.val⟩

theorem sum_smul_map (c : ℝ) (l : List V) : (l.map (c • ·)).sum = c • l.sum := by
  induction l with
  | nil => simp
  | cons a l ih => rw [List.map_cons, List.sum_cons, ih, List.sum_cons, smul_add]

theorem binOf_scale (c centre : ℝ) (l : List (Mode ℝ V)) :
    binOf centre (l.map (Mode.scale c)) = Bin.scale c (binOf centre l) := by
  unfold binOf
  rw [List.length_map]
  split_ifs
  · simp [Bin.scale]
  · simp only [Bin.scale, List.map_map]
    congr 1
    have : (Mode.val ∘ Mode.scale c) = ((c • ·) ∘ Mode.val : Mode ℝ V → V) := rfl
    rw [this, ← List.map_map, sum_smul_map, smul_comm]

theorem filter_scale (c : ℝ) (ns : ℕ) (d lo up : ℝ) (l : List (Mode ℝ V)) :
    (l.map (Mode.scale c)).filter (sel ns d lo up) = (l.filter (sel ns d lo up)).map (Mode.scale c) := by
  rw [List.filter_map]
  rfl

theorem binStats_scale (c : ℝ) (ns : ℕ) (d : ℝ) (edges centres : List ℝ) (nb : ℕ)
    (ms : List (Mode ℝ V)) :
    binStats ns d edges centres nb (ms.map (Mode.scale c)) =
      (binStats ns d edges centres nb ms).map (Bin.scale c) := by
  simp only [binStats_eq, filter_scale, binOf_scale, List.map_map]
  rfl

/-- Saved values multiplied. -/
def Saved.scale (c : ℝ) (s : Saved V) : Saved V := ⟨s.num, s.len, c • s.val⟩

theorem getD_scale (c : ℝ) (l : List (Bin ℝ V)) (i : ℕ) :
    (l.map (Bin.scale c)).getD i ⟨0, 0, 0⟩ = Bin.scale c (l.getD i ⟨0, 0, 0⟩) := by
  rw [List.getD_eq_getElem?_getD, List.getD_eq_getElem?_getD, List.getElem?_map]
  cases l[i]? with
  | none => simp [Bin.scale]
  | some x => rfl

theorem accumulate_scale (c cpl : ℝ) (M m1 : ℤ) (st : ℕ → Saved V) (bins : List (Bin ℝ V)) :
    accumulate cpl M m1 (fun i => (st i).scale c) (bins.map (Bin.scale c)) =
      fun i => (accumulate cpl M m1 st bins i).scale c := by
  unfold accumulate
  by_cases h : |cpl| < epsCoupling
  · simp only [if_pos h]
  · simp only [if_neg h]
    funext i
    simp only [getD_scale]
    have e : (Saved.scale c (st i)).val + cpl • (Bin.scale c (bins.getD i ⟨0, 0, 0⟩)).val =
        c • ((st i).val + cpl • (bins.getD i ⟨0, 0, 0⟩).val) := by
      simp only [Saved.scale, Bin.scale]
      rw [smul_add, smul_comm]
    rw [e]
    split_ifs <;> rfl

theorem foldl_hom {α β : Type} (f g : α → β → α) (h : α → α)
    (hh : ∀ a b, g (h a) b = h (f a b)) : ∀ (l : List β) (a : α), l.foldl g (h a) = h (l.foldl f a)
  | [], _ => rfl
  | b :: l, a => by rw [List.foldl_cons, hh, foldl_hom f g h hh l, List.foldl_cons]

theorem sumOrders_scale (c : ℝ) (E : Env) (bins : ℤ → ℤ → List (Bin ℝ V)) :
    sumOrders E (fun M m1 => (bins M m1).map (Bin.scale c)) =
      fun i => (sumOrders E bins i).scale c := by
  unfold sumOrders
  have h0 : (fun _ => (⟨0, 0, 0⟩ : Saved V)) = (fun _ : ℕ => (⟨0, 0, 0⟩ : Saved V).scale c) := by
    simp [Saved.scale]
  refine Eq.trans (congrArg (fun z => List.foldl _ z (orders E.ELL)) h0) ?_
  refine foldl_hom _ _ (fun (st : ℕ → Saved V) i => (st i).scale c) ?_ _ (fun _ => ⟨0, 0, 0⟩)
  intro st M
  refine foldl_hom _ _ (fun (st : ℕ → Saved V) i => (st i).scale c) ?_ _ st
  intro st m1
  exact accumulate_scale _ _ _ _ _ _

theorem output_scale (c norm : ℝ) (hc : c ≠ 0) (E : Env) (st : ℕ → Saved V) :
    output E (norm / c) (fun i => (st i).scale c) = output E norm st := by
  unfold output
  simp only [Saved.scale, smul_smul, div_mul_cancel₀ _ hc]

end

/-! ### Fields -/

/-- A weighted particle with its weight multiplied. -/
def scaleP (c : ℝ) (p : Particle ℝ) : Particle ℝ := ⟨p.pos, fun b => c * p.w b⟩

/-- A field multiplied by a number. -/
def scaleF (c : ℝ) (F : MeshField ℝ) : MeshField ℝ :=
  ⟨fun g b => c * F.field g b, F.fieldS.map fun s g b => c * s g b⟩

theorem updates_scale (c : ℝ) (M : Mesh ℝ) (sx sy sz : List (ℤ × ℝ)) (w : Bool → ℝ) :
    updatesOfStencils M sx sy sz (fun b => c * w b) =
      (updatesOfStencils M sx sy sz w).map fun u => ⟨u.gid, u.comp, c * u.val⟩ := by
  unfold updatesOfStencils
  simp only [List.map_flatMap]
  congr 1; funext a
  congr 1; funext b
  congr 1; funext d
  split_ifs
  · simp only [List.map_cons, List.map_nil]
    simp only [List.cons.injEq, Update.mk.injEq, true_and, and_true]
    constructor <;> ring
  · rfl

theorem run_scale (c : ℝ) (us : List (Update ℝ)) (g : ℤ) (b : Bool) :
    runUpdates (us.map fun u => ⟨u.gid, u.comp, c * u.val⟩) g b = c * runUpdates us g b := by
  rw [runUpdates_apply, runUpdates_apply, List.map_map, ← List.sum_map_mul_left]
  congr 1
  apply List.map_congr_left
  intro u _
  simp only [Function.comp, Update.at]
  split_ifs <;> ring

theorem assign_scale (c : ℝ) (sch : Scheme) (M : Mesh ℝ) (ps : List (Particle ℝ)) :
    assign sch M (ps.map (scaleP c)) = fun g b => c * assign sch M ps g b := by
  funext g b
  unfold assign allUpdates
  rw [← run_scale, List.flatMap_map, List.map_flatMap]
  congr 2
  funext p
  exact updates_scale c M _ _ _ _

theorem assignShifted_scale (c : ℝ) (sch : Scheme) (M : Mesh ℝ) (ps : List (Particle ℝ)) :
    assignShifted sch M (ps.map (scaleP c)) = fun g b => c * assignShifted sch M ps g b := by
  funext g b
  unfold assignShifted allUpdatesShifted
  rw [← run_scale, List.flatMap_map, List.map_flatMap]
  congr 2
  funext p
  exact updates_scale c M _ _ _ _

theorem assignField_scale (c : ℝ) (sch : Scheme) (M : Mesh ℝ) (il : Bool) (ps : List (Particle ℝ)) :
    assignField sch M il (ps.map (scaleP c)) = scaleF c (assignField sch M il ps) := by
  unfold assignField scaleF
  rw [assign_scale, assignShifted_scale]
  cases il <;> rfl

theorem ylmFieldTwo_scale (c : ℝ) (sch : Scheme) (M : Mesh ℝ) (il : Bool)
    (data rand : List (Particle ℝ)) (alpha : ℝ) :
    ylmFieldTwo sch M il (data.map (scaleP c)) (rand.map (scaleP c)) alpha =
      scaleF c (ylmFieldTwo sch M il data rand alpha) := by
  unfold ylmFieldTwo
  simp only [assignField_scale]
  unfold scaleF assignField
  cases il
  · simp only [Option.map, MeshField.mk.injEq]
    refine ⟨?_, rfl⟩
    funext g b; ring
  · simp only [Option.map, MeshField.mk.injEq, if_true]
    refine ⟨?_, congrArg some ?_⟩
    · funext g b; ring
    · funext g b; ring

theorem quadFieldTwo_scale (c : ℝ) (sch : Scheme) (M : Mesh ℝ) (il : Bool)
    (data rand : List (Particle ℝ)) (alpha : ℝ) :
    quadFieldTwo sch M il (data.map (scaleP c)) (rand.map (scaleP c)) alpha =
      scaleF c (quadFieldTwo sch M il data rand alpha) := by
  unfold quadFieldTwo
  simp only [assignField_scale]
  unfold scaleF assignField
  cases il
  · simp only [Option.map, MeshField.mk.injEq]
    refine ⟨?_, rfl⟩
    funext g b; ring
  · simp only [Option.map, MeshField.mk.injEq, if_true]
    refine ⟨?_, congrArg some ?_⟩
    · funext g b; ring
    · funext g b; ring

theorem dft_smul (n : Fin 3 → ℤ) (s : ℤ) (c : ℂ) (f : ℤ → ℂ) :
    dft n s (fun g => c * f g) = fun g => c * dft n s f g := by
  funext g
  unfold dft
  rw [← List.sum_map_mul_left]
  congr 1
  apply List.map_congr_left
  intro x _
  ring

theorem cplx_scale (c : ℝ) (f : Grid ℝ) (g : ℤ) :
    cplx (fun g b => c * f g b) g = (c : ℂ) * cplx f g := by
  apply Complex.ext <;> simp [cplx]

theorem fourier_scale (c : ℝ) (M : Mesh ℝ) (F : MeshField ℝ) :
    fourier M (scaleF c F) = fun g => (c : ℂ) * fourier M F g := by
  have h : ∀ f : Grid ℝ, dft M.n (-1) (fun g => cplx (fun g b => c * f g b) g * (M.volCell : ℂ)) =
      fun g => (c : ℂ) * dft M.n (-1) (fun g => cplx f g * (M.volCell : ℂ)) g := by
    intro f
    rw [← dft_smul]
    simp only [cplx_scale, mul_assoc]
  obtain ⟨f, fs⟩ := F
  unfold fourier scaleF
  cases fs with
  | none => exact h f
  | some s =>
    simp only [Option.map]
    funext g
    rw [h f, h s]
    ring

/-! ### Catalogues -/

/-- All clustering weights of a catalogue multiplied by a common factor. -/
def scaleWc (c : ℝ) (l : List Part) : List Part := l.map fun p => { p with wc := c * p.wc }

theorem wsTotal_scale (c : ℝ) (l : List Part) : wsTotal (scaleWc c l) = wsTotal l := by
  unfold wsTotal scaleWc
  rw [List.map_map]
  rfl

theorem alpha_scale (c : ℝ) (d r : List Part) : alphaOf (scaleWc c d) (scaleWc c r) = alphaOf d r := by
  unfold alphaOf
  rw [wsTotal_scale, wsTotal_scale]

theorem ylmWeights_scale (c : ℝ) (E : Env) (ell : ℕ) (m : ℤ) (l : List Part) :
    ylmWeights E ell m (scaleWc c l) = (ylmWeights E ell m l).map (scaleP c) := by
  unfold ylmWeights scaleWc
  rw [List.map_map, List.map_map]
  apply List.map_congr_left
  intro p _
  simp only [Function.comp, scaleP, Part.w, Particle.mk.injEq, true_and]
  funext b
  split_ifs <;> ring

theorem ylmWeightsQuad_scale (c : ℝ) (E : Env) (ell : ℕ) (m : ℤ) (l : List Part) :
    ylmWeightsQuad E ell m (scaleWc c l) = (ylmWeightsQuad E ell m l).map (scaleP (c ^ 2)) := by
  unfold ylmWeightsQuad scaleWc
  rw [List.map_map, List.map_map]
  apply List.map_congr_left
  intro p _
  simp only [Function.comp, scaleP, Part.w, Particle.mk.injEq, true_and]
  funext b
  split_ifs <;> ring

theorem realWeights_scale (c : ℝ) (off : Fin 3 → ℝ) (l : List Part) :
    realWeights off (scaleWc c l) = (realWeights off l).map (scaleP c) := by
  unfold realWeights scaleWc
  rw [List.map_map, List.map_map]
  apply List.map_congr_left
  intro p _
  simp only [Function.comp, scaleP, Part.w, Particle.mk.injEq, true_and]
  funext b
  split_ifs <;> ring

theorem ylmSum_scale (c : ℝ) (E : Env) (n ell : ℕ) (m : ℤ) (l : List Part) :
    ylmSum E n ell m (scaleWc c l) = ((c ^ n : ℝ) : ℂ) * ylmSum E n ell m l := by
  unfold ylmSum scaleWc
  rw [List.map_map, ← List.sum_map_mul_left]
  congr 1
  apply List.map_congr_left
  intro p _
  simp only [Function.comp, Part.w]
  rw [show p.ws * (c * p.wc) = c * (p.ws * p.wc) by ring, mul_pow]
  push_cast
  ring

theorem shotAmp2_scale (c : ℝ) (E : Env) (d r : List Part) (alpha : ℝ) (ell : ℕ) (m : ℤ) :
    shotAmp2 E (scaleWc c d) (scaleWc c r) alpha ell m =
      ((c ^ 2 : ℝ) : ℂ) * shotAmp2 E d r alpha ell m := by
  unfold shotAmp2
  rw [ylmSum_scale, ylmSum_scale]
  ring

theorem shotAmp3_scale (c : ℝ) (E : Env) (d r : List Part) (alpha : ℝ) (ell : ℕ) (m : ℤ) :
    shotAmp3 E (scaleWc c d) (scaleWc c r) alpha ell m =
      ((c ^ 3 : ℝ) : ℂ) * shotAmp3 E d r alpha ell m := by
  unfold shotAmp3
  rw [ylmSum_scale, ylmSum_scale]
  ring

theorem dnField_scale (c : ℝ) (E : Env) (d r : List Part) (alpha : ℝ) (ell : ℕ) (m : ℤ) :
    dnField E (scaleWc c d) (scaleWc c r) alpha ell m = scaleF c (dnField E d r alpha ell m) := by
  unfold dnField
  rw [ylmWeights_scale, ylmWeights_scale, ylmFieldTwo_scale]

theorem quadField_scale (c : ℝ) (E : Env) (d r : List Part) (alpha : ℝ) (ell : ℕ) (m : ℤ) :
    quadField E (scaleWc c d) (scaleWc c r) alpha ell m = scaleF (c ^ 2) (quadField E d r alpha ell m) := by
  unfold quadField
  rw [ylmWeightsQuad_scale, ylmWeightsQuad_scale, quadFieldTwo_scale]

/-! ### Statistics -/

theorem modePower_scale (a b : ℝ) (fa fb : ℂ) (w : ℝ) (y : ℂ) :
    modePower ((a : ℂ) * fa) ((b : ℂ) * fb) w y = ((a * b : ℝ) : ℂ) * modePower fa fb w y := by
  unfold modePower
  rw [map_mul, Complex.conj_ofReal]
  push_cast
  ring

theorem modeShot_scale (a : ℝ) (amp : ℂ) (al w : ℝ) (y : ℂ) :
    modeShot ((a : ℂ) * amp) al w y = (a : ℂ) * modeShot amp al w y := by
  unfold modeShot
  ring

theorem modes2_scale (a b : ℝ) (E : Env) (fa fb : ℤ → ℂ) (amp : ℂ) (ell : ℕ) (m : ℤ) :
    modes2 E (fun g => (a : ℂ) * fa g) (fun g => (b : ℂ) * fb g) (((a * b : ℝ) : ℂ) * amp) ell m =
      (modes2 E fa fb amp ell m).map (Mode.scale (a * b)) := by
  unfold modes2
  rw [List.map_map]
  apply List.map_congr_left
  intro c _
  simp only [Function.comp, Mode.scale, modePower_scale, modeShot_scale]
  rfl

theorem statsFourier_scale (a b : ℝ) (E : Env) (fa fb : ℤ → ℂ) (amp : ℂ) (ell : ℕ) (m : ℤ) :
    statsFourier E (fun g => (a : ℂ) * fa g) (fun g => (b : ℂ) * fb g) (((a * b : ℝ) : ℂ) * amp) ell m =
      (statsFourier E fa fb amp ell m).map (Bin.scale (a * b)) := by
  unfold statsFourier
  rw [modes2_scale, binStats_scale]

theorem twopt3d_scale (a b : ℝ) (E : Env) (fa fb : ℤ → ℂ) (amp : ℂ) :
    twopt3d E (fun g => (a : ℂ) * fa g) (fun g => (b : ℂ) * fb g) (((a * b : ℝ) : ℂ) * amp) =
      fun g => ((a * b : ℝ) : ℂ) * twopt3d E fa fb amp g := by
  funext g
  unfold twopt3d
  simp only [modePower_scale, modeShot_scale]
  ring

theorem statsConfig_scale (a b : ℝ) (E : Env) (fa fb : ℤ → ℂ) (amp : ℂ) (ell : ℕ) (m : ℤ) :
    statsConfig E (fun g => (a : ℂ) * fa g) (fun g => (b : ℂ) * fb g) (((a * b : ℝ) : ℂ) * amp) ell m =
      (statsConfig E fa fb amp ell m).map (Bin.scale (a * b)) := by
  unfold statsConfig
  simp only
  rw [twopt3d_scale, dft_smul, ← binStats_scale, List.map_map]
  congr 1
  apply List.map_congr_left
  intro c _
  simp only [Function.comp, Mode.scale, Mode.mk.injEq, true_and]
  rw [mul_assoc]
  rfl

/-- Multiplying all clustering weights by `c` is the same as dividing the normalisation by
`1 / c^2`. -/
theorem computePowspec_scale (c : ℝ) (hc : c ≠ 0) (E : Env) (d r : List Part) (norm : ℝ) :
    computePowspec E (scaleWc c d) (scaleWc c r) (norm / (c * c)) = computePowspec E d r norm := by
  unfold computePowspec
  simp only [alpha_scale, dnField_scale, fourier_scale, shotAmp2_scale]
  rw [show ((c ^ 2 : ℝ) : ℂ) = ((c * c : ℝ) : ℂ) by rw [pow_two]]
  simp only [statsFourier_scale, sumOrders_scale]
  rw [output_scale _ _ (mul_ne_zero hc hc)]

theorem computeCorrfunc_scale (c : ℝ) (hc : c ≠ 0) (E : Env) (d r : List Part) (norm : ℝ) :
    computeCorrfunc E (scaleWc c d) (scaleWc c r) (norm / (c * c)) = computeCorrfunc E d r norm := by
  unfold computeCorrfunc
  simp only [alpha_scale, dnField_scale, fourier_scale, shotAmp2_scale]
  rw [show ((c ^ 2 : ℝ) : ℂ) = ((c * c : ℝ) : ℂ) by rw [pow_two]]
  simp only [statsConfig_scale, sumOrders_scale]
  rw [output_scale _ _ (mul_ne_zero hc hc)]

/-! ### Normalisation -/

theorem normParticles_scale (c : ℝ) (hc : c ≠ 0) (l : List Part) (alpha : ℝ) :
    normParticles (scaleWc c l) alpha = (normParticles l alpha).map (· / (c * c)) := by
  have e : ((scaleWc c l).map fun p => p.ws * p.nz * p.wc ^ 2).sum =
      c * c * (l.map fun p => p.ws * p.nz * p.wc ^ 2).sum := by
    unfold scaleWc
    rw [List.map_map, ← List.sum_map_mul_left]
    congr 1
    apply List.map_congr_left
    intro p _
    simp only [Function.comp]
    ring
  unfold normParticles
  simp only
  rw [e]
  generalize (l.map fun p => p.ws * p.nz * p.wc ^ 2).sum = N
  have hcc : c * c ≠ 0 := mul_ne_zero hc hc
  by_cases h : N = 0
  · rw [if_pos (by rw [h, mul_zero]), if_pos h]; rfl
  · rw [if_neg (mul_ne_zero hcc h), if_neg h]
    simp only [Except.map]
    congr 1
    rw [div_div]
    congr 1
    ring

theorem powlawNorm_scale (c : ℝ) (E : Env) (l : List Part) (order : ℕ) :
    powlawNorm E (scaleWc c l) order = powlawNorm E l order / c ^ order := by
  unfold powlawNorm
  simp only [realWeights_scale, assign_scale, mul_pow]
  rw [List.sum_map_mul_left]
  rw [div_div]
  congr 1
  ring

theorem normMesh_scale (c : ℝ) (E : Env) (l : List Part) (alpha : ℝ) :
    normMesh E (scaleWc c l) alpha = normMesh E l alpha / (c * c) := by
  unfold normMesh
  rw [powlawNorm_scale, pow_two c]
  rw [div_div, div_div, mul_comm]

theorem normMeshes_scale (c : ℝ) (E : Env) (oD oR : Fin 3 → ℝ) (d r : List Part) (alpha : ℝ) :
    normMeshes E oD oR (scaleWc c d) (scaleWc c r) alpha = normMeshes E oD oR d r alpha / (c * c) := by
  unfold normMeshes
  simp only [realWeights_scale, assign_scale]
  rw [div_div]
  congr 1
  have : ∀ a b : ℝ, c * a * (c * b) = c * c * (a * b) := fun a b => by ring
  simp only [this]
  rw [List.sum_map_mul_left]
  ring

end Trv.Two

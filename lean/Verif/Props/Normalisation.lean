import Verif.Spec.Normalisation
import Verif.Lemmas.PairCount
import Verif.Lemmas.PairWitness
import Verif.Props.FourierMesh
/-
Property theorems on the normalisation factors and the shot noise of the two- and three-point
measurements (C113).
-/
namespace Trv.Two
open Trv.Mesh Trv.Stats Trv.Win Trv.Bis Trv.Zeta

/-! ### Helper lemmas -/

theorem cellVolume_eq (M : Mesh ℝ) : M.volCell = cellVolume M := by
  unfold Mesh.volCell cellVolume Mesh.nmesh
  push_cast
  rfl

theorem assign_share (E : Env) (hM : E.mesh.Valid) (o : Fin 3 → ℝ) (c : List Part)
    (hc : InsideAfter E.mesh o c) {x : ℤ × ℤ × ℤ} (hx : x ∈ box E.mesh.n) :
    assign E.sch E.mesh (realWeights o c) (gid E.mesh.n x) false * cellVolume E.mesh =
      (c.map fun p => p.ws * p.wc * share E (fun i => p.pos i - o i) x).sum := by
  have hv := volCell_pos E.mesh hM
  have := C05_assignment_is_kernel_sum E.sch E.mesh hM (realWeights o c) (by
    intro p hp
    unfold realWeights at hp
    obtain ⟨q, hq, rfl⟩ := List.mem_map.1 hp
    exact hc q hq) x.1 x.2.1 x.2.2 (mem_box.1 hx) false
  unfold gid
  rw [this, ← cellVolume_eq, ← List.sum_map_mul_right]
  unfold realWeights
  rw [List.map_map]
  congr 1
  apply List.map_congr_left
  intro p _
  simp only [Function.comp, Bool.false_eq_true, if_false]
  unfold share Part.w
  field_simp

theorem sum_sums {α β : Type} (s : Finset α) (l : List β) (f : β → α → ℝ) :
    ∑ x ∈ s, (l.map fun b => f b x).sum = (l.map fun b => ∑ x ∈ s, f b x).sum := by
  induction l with
  | nil => simp
  | cons b l ih => simp only [List.map_cons, List.sum_cons]; rw [Finset.sum_add_distrib, ih]

theorem overlaps_eq (E : Env) (oa ob : Fin 3 → ℝ) (a b : List Part) :
    overlaps E oa ob a b = ∑ x ∈ box E.mesh.n,
      (a.map fun p => p.ws * p.wc * share E (fun i => p.pos i - oa i) x).sum *
      (b.map fun p => p.ws * p.wc * share E (fun i => p.pos i - ob i) x).sum := by
  unfold overlaps
  simp only [← List.sum_map_mul_right, sum_sums]
  congr 1
  apply List.map_congr_left
  intro p _
  simp only [← List.sum_map_mul_left, sum_sums]
  congr 1
  apply List.map_congr_left
  intro q _
  rw [allModes_eq, Finset.mul_sum]
  apply Finset.sum_congr rfl
  intro x _
  ring

theorem overlaps3_eq (E : Env) (a : List Part) :
    overlaps3 E a = ∑ x ∈ box E.mesh.n,
      (a.map fun p => p.ws * p.wc * share E p.pos x).sum ^ 3 := by
  have h : ∀ x, (a.map fun p => p.ws * p.wc * share E p.pos x).sum ^ 3 =
      (a.map fun p => (a.map fun q => (a.map fun r => p.ws * p.wc * share E p.pos x *
        (q.ws * q.wc * share E q.pos x * (r.ws * r.wc * share E r.pos x))).sum).sum).sum := by
    intro x
    simp only [List.sum_map_mul_left, List.sum_map_mul_right]
    ring
  unfold overlaps3
  simp only [h, sum_sums]
  congr 1
  apply List.map_congr_left
  intro p _
  congr 1
  apply List.map_congr_left
  intro q _
  congr 1
  apply List.map_congr_left
  intro r _
  rw [allModes_eq, Finset.mul_sum]
  apply Finset.sum_congr rfl
  intro x _
  ring

theorem inside_zero {M : Mesh ℝ} {c : List Part} (hc : AllInside M c) : InsideAfter M 0 c := by
  intro p hp i
  rw [Pi.zero_apply, sub_zero]
  exact hc p hp i

theorem sub_zero_fun (x : Fin 3 → ℝ) : (fun i => x i - (0 : Fin 3 → ℝ) i) = x := by
  funext i; rw [Pi.zero_apply, sub_zero]

/-! ### C113 -/

/-- **C113 (power spectrum).** For every assignment scheme the mesh normalisation is one over the
pairs of particles, weighted by their overlap on the mesh, per cell volume. -/
theorem C113_mesh_pairs (E : Env) (hM : E.mesh.Valid) (c : List Part) (hc : AllInside E.mesh c) (alpha : ℝ) :
    normMesh E c alpha = cellVolume E.mesh / (alpha ^ 2 * overlaps E 0 0 c c) := by
  have hv : cellVolume E.mesh ≠ 0 := by rw [← cellVolume_eq]; exact (volCell_pos E.mesh hM).ne'
  unfold normMesh powlawNorm
  simp only
  rw [gids_sum E.mesh fun a => (hM a).1, overlaps_eq, cellVolume_eq]
  have : ∑ x ∈ box E.mesh.n, assign E.sch E.mesh (realWeights 0 c) (gid E.mesh.n x) false ^ 2 =
      (∑ x ∈ box E.mesh.n,
      (c.map fun p => p.ws * p.wc * share E (fun i => p.pos i - (0 : Fin 3 → ℝ) i) x).sum *
      (c.map fun p => p.ws * p.wc * share E (fun i => p.pos i - (0 : Fin 3 → ℝ) i) x).sum) /
        cellVolume E.mesh ^ 2 := by
    rw [Finset.sum_div]
    apply Finset.sum_congr rfl
    intro x hx
    rw [← assign_share E hM 0 c (inside_zero hc) hx]
    field_simp
  rw [this]
  generalize (∑ x ∈ box E.mesh.n, _ : ℝ) = S
  field_simp

/-- **C113 (bispectrum).** The same with triples of particles, per cell volume squared. -/
theorem C113_mesh_triples (E : Env) (hM : E.mesh.Valid) (c : List Part) (hc : AllInside E.mesh c) (alpha : ℝ) :
    normMesh3 E c alpha = cellVolume E.mesh ^ 2 / (alpha ^ 3 * overlaps3 E c) := by
  have hv : cellVolume E.mesh ≠ 0 := by rw [← cellVolume_eq]; exact (volCell_pos E.mesh hM).ne'
  unfold normMesh3 powlawNorm
  simp only
  rw [gids_sum E.mesh fun a => (hM a).1, overlaps3_eq, cellVolume_eq]
  have : ∑ x ∈ box E.mesh.n, assign E.sch E.mesh (realWeights 0 c) (gid E.mesh.n x) false ^ 3 =
      (∑ x ∈ box E.mesh.n, (c.map fun p => p.ws * p.wc * share E p.pos x).sum ^ 3) /
        cellVolume E.mesh ^ 3 := by
    rw [Finset.sum_div]
    apply Finset.sum_congr rfl
    intro x hx
    have := assign_share E hM 0 c (inside_zero hc) hx
    simp only [sub_zero_fun] at this
    rw [← this]
    field_simp
  rw [this]
  generalize (∑ x ∈ box E.mesh.n, _ : ℝ) = S
  field_simp

/-- **C113 (mixed meshes).** The mixed-mesh normalisation is one over the pairs of one data and one
random particle, displaced by the alignment of their catalogues. -/
theorem C113_mixed_pairs (E : Env) (hM : E.mesh.Valid) (oD oR : Fin 3 → ℝ) (data rand : List Part)
    (hd : InsideAfter E.mesh oD data) (hr : InsideAfter E.mesh oR rand) (alpha : ℝ) :
    normMeshes E oD oR data rand alpha = cellVolume E.mesh / (alpha * overlaps E oD oR data rand) := by
  have hv : cellVolume E.mesh ≠ 0 := by rw [← cellVolume_eq]; exact (volCell_pos E.mesh hM).ne'
  unfold normMeshes
  simp only
  rw [gids_sum E.mesh fun a => (hM a).1, overlaps_eq, cellVolume_eq]
  have : ∑ x ∈ box E.mesh.n, assign E.sch E.mesh (realWeights oD data) (gid E.mesh.n x) false *
      assign E.sch E.mesh (realWeights oR rand) (gid E.mesh.n x) false =
      (∑ x ∈ box E.mesh.n,
      (data.map fun p => p.ws * p.wc * share E (fun i => p.pos i - oD i) x).sum *
      (rand.map fun p => p.ws * p.wc * share E (fun i => p.pos i - oR i) x).sum) /
        cellVolume E.mesh ^ 2 := by
    rw [Finset.sum_div]
    apply Finset.sum_congr rfl
    intro x hx
    rw [← assign_share E hM oD data hd hx, ← assign_share E hM oR rand hr hx]
    field_simp
  rw [this]
  generalize (∑ x ∈ box E.mesh.n, _ : ℝ) = S
  field_simp

/-- **C113 (uniform catalogues).** For every scheme, the mesh normalisation is at most that of the
uniform density `V / (alpha W)²`, and equal to it only if the density is the same in every cell. -/
theorem C113_mesh_bound (E : Env) (hM : E.mesh.Valid) (c : List Part) (hc : AllInside E.mesh c) (alpha : ℝ)
    (ha : alpha ≠ 0) (hW : (c.map fun p => p.ws * p.wc).sum ≠ 0) :
    normMesh E c alpha ≤ E.mesh.L 0 * E.mesh.L 1 * E.mesh.L 2 / (alpha * (c.map fun p => p.ws * p.wc).sum) ^ 2 ∧
    (normMesh E c alpha =
        E.mesh.L 0 * E.mesh.L 1 * E.mesh.L 2 / (alpha * (c.map fun p => p.ws * p.wc).sum) ^ 2 ↔
      ∀ x ∈ allModes E.mesh.n, (c.map fun p => p.ws * p.wc * share E p.pos x).sum =
        (c.map fun p => p.ws * p.wc).sum / (E.mesh.n 0 * E.mesh.n 1 * E.mesh.n 2)) := by
  have hv := volCell_pos E.mesh hM
  obtain ⟨W, hWe⟩ : ∃ W, W = (c.map fun p => p.ws * p.wc).sum := ⟨_, rfl⟩
  obtain ⟨N, hN⟩ : ∃ N : ℝ, N = (E.mesh.n 0 : ℝ) * E.mesh.n 1 * E.mesh.n 2 := ⟨_, rfl⟩
  have hNpos : 0 < N := by
    rw [hN]
    exact_mod_cast mul_pos (mul_pos (hM 0).1 (hM 1).1) (hM 2).1
  obtain ⟨d, hd⟩ : ∃ d : ℤ × ℤ × ℤ → ℝ, d = fun x => (c.map fun p => p.ws * p.wc * share E p.pos x).sum :=
    ⟨_, rfl⟩
  have hVol : E.mesh.L 0 * E.mesh.L 1 * E.mesh.L 2 = cellVolume E.mesh * N := by
    unfold cellVolume
    rw [← hN]
    field_simp
  have hcv : 0 < cellVolume E.mesh := by rw [← cellVolume_eq]; exact hv
  have hcard : ((box E.mesh.n).card : ℝ) = N := by
    unfold box
    rw [Finset.card_product, Finset.card_product, Int.card_Ico, Int.card_Ico, Int.card_Ico, hN]
    push_cast
    have : ∀ a, (((E.mesh.n a - 0).toNat : ℕ) : ℝ) = (E.mesh.n a : ℝ) := by
      intro a
      rw [sub_zero]
      exact_mod_cast congrArg (Int.cast : ℤ → ℝ) (Int.toNat_of_nonneg (hM a).1.le)
    rw [this, this, this]
    ring
  have htot : ∑ x ∈ box E.mesh.n, d x = W := by
    have h1 := (C05_conserves_weight_in_bounds E.sch E.mesh hM (realWeights 0 c) (by
      intro p hp
      unfold realWeights at hp
      obtain ⟨q, hq, rfl⟩ := List.mem_map.1 hp
      exact inside_zero hc q hq) false).1
    rw [← gids_total, gids_sum E.mesh fun a => (hM a).1, cellVolume_eq, Finset.sum_mul,
      Finset.sum_congr rfl fun x hx => assign_share E hM 0 c (inside_zero hc) hx] at h1
    simp only [sub_zero_fun] at h1
    rw [hd, h1, hWe]
    unfold realWeights
    rw [List.map_map]
    rfl
  have hvar : ∑ x ∈ box E.mesh.n, (d x - W / N) ^ 2 = ∑ x ∈ box E.mesh.n, d x * d x - W ^ 2 / N := by
    have : ∀ x, (d x - W / N) ^ 2 = d x * d x - 2 * (W / N) * d x + (W / N) ^ 2 := fun x => by ring
    simp only [this]
    rw [Finset.sum_add_distrib, Finset.sum_sub_distrib, ← Finset.mul_sum, htot, Finset.sum_const,
      nsmul_eq_mul, hcard]
    field_simp
    ring
  have hnn : 0 ≤ ∑ x ∈ box E.mesh.n, (d x - W / N) ^ 2 := Finset.sum_nonneg fun x _ => sq_nonneg _
  have hS : normMesh E c alpha = cellVolume E.mesh / (alpha ^ 2 * ∑ x ∈ box E.mesh.n, d x * d x) := by
    rw [C113_mesh_pairs E hM c hc, overlaps_eq]
    simp only [sub_zero_fun]
    rw [hd]
  rw [← hWe] at hW ⊢
  have hW2 : 0 < W ^ 2 := by positivity
  have ha2 : 0 < alpha ^ 2 := by positivity
  obtain ⟨S, hSe⟩ : ∃ S, S = ∑ x ∈ box E.mesh.n, d x * d x := ⟨_, rfl⟩
  rw [← hSe] at hvar hS
  have hSge : W ^ 2 / N ≤ S := by linarith
  have hSpos : 0 < S := lt_of_lt_of_le (by positivity) hSge
  have hR : E.mesh.L 0 * E.mesh.L 1 * E.mesh.L 2 / (alpha * W) ^ 2 =
      cellVolume E.mesh / (alpha ^ 2 * (W ^ 2 / N)) := by
    rw [hVol]; field_simp
  rw [hS, hR]
  constructor
  · apply div_le_div_of_nonneg_left hcv.le (by positivity)
    exact mul_le_mul_of_nonneg_left hSge ha2.le
  · rw [allModes_eq, ← hN]
    have e1 : (∀ x ∈ box E.mesh.n, (c.map fun p => p.ws * p.wc * share E p.pos x).sum = W / N) ↔
        ∑ x ∈ box E.mesh.n, (d x - W / N) ^ 2 = 0 := by
      rw [Finset.sum_eq_zero_iff_of_nonneg fun x _ => sq_nonneg _]
      apply forall_congr'
      intro x
      apply imp_congr_right
      intro _
      rw [sq_eq_zero_iff, sub_eq_zero, hd]
    rw [e1, hvar, sub_eq_zero]
    constructor
    · intro h
      rw [div_eq_div_iff (by positivity) (by positivity)] at h
      have := mul_left_cancel₀ hcv.ne' h
      exact (mul_left_cancel₀ ha2.ne' this).symm
    · intro h
      rw [h]

theorem mesh_density (E : Env) (hM : E.mesh.Valid) (hs : E.sch = .ngp) (c : List Part)
    (hc : AllInside E.mesh c) (x : Fin 3 → ℝ) :
    assign E.sch E.mesh (realWeights 0 c) (gid E.mesh.n (nearest E.mesh x)) false =
      densityAt E.mesh c x := by
  classical
  have hv := volCell_pos E.mesh hM
  have h := assign_ngp E.mesh hM (realWeights 0 c) (by
    intro p hp
    unfold realWeights at hp
    obtain ⟨q, hq, rfl⟩ := List.mem_map.1 hp
    exact inside_zero hc q hq) (nearest_mem E.mesh hM x)
  have h' := congrArg Complex.re h
  rw [Complex.re_mul_ofReal] at h'
  have hr : ∀ l : List (Particle ℝ), ((l.map fun p => if nearest E.mesh p.pos = nearest E.mesh x then cw p
      else 0).sum).re = (l.map fun p => if nearest E.mesh p.pos = nearest E.mesh x then p.w false else 0).sum := by
    intro l
    induction l with
    | nil => rfl
    | cons p l ih =>
      simp only [List.map_cons, List.sum_cons, Complex.add_re]
      rw [ih]
      congr 1
      split_ifs
      · rfl
      · rfl
  rw [hr] at h'
  unfold densityAt
  rw [← cellVolume_eq, eq_div_iff hv.ne', hs]
  rw [show assign Scheme.ngp E.mesh (realWeights 0 c) (gid E.mesh.n (nearest E.mesh x)) false =
    (cplx (assign Scheme.ngp E.mesh (realWeights 0 c)) (gid E.mesh.n (nearest E.mesh x))).re from rfl, h']
  unfold realWeights
  rw [List.map_map]
  congr 1
  apply List.map_congr_left
  intro q _
  simp only [Function.comp, sub_zero_fun, Bool.false_eq_true, if_false]
  unfold Part.w
  congr

theorem mesh_powers (E : Env) (hM : E.mesh.Valid) (hs : E.sch = .ngp) (c : List Part)
    (hc : AllInside E.mesh c) (k : ℕ) :
    (∑ x ∈ box E.mesh.n, assign E.sch E.mesh (realWeights 0 c) (gid E.mesh.n x) false ^ (k + 1)) *
      E.mesh.volCell = (c.map fun p => p.ws * p.wc * densityAt E.mesh c p.pos ^ k).sum := by
  classical
  have hcell : ∀ x ∈ box E.mesh.n,
      assign E.sch E.mesh (realWeights 0 c) (gid E.mesh.n x) false * E.mesh.volCell =
        (c.map fun p => if nearest E.mesh p.pos = x then p.ws * p.wc else 0).sum := by
    intro x hx
    have h := congrArg Complex.re (assign_ngp E.mesh hM (realWeights 0 c) (by
      intro p hp
      unfold realWeights at hp
      obtain ⟨q, hq, rfl⟩ := List.mem_map.1 hp
      exact inside_zero hc q hq) hx)
    rw [Complex.re_mul_ofReal] at h
    rw [hs, show assign Scheme.ngp E.mesh (realWeights 0 c) (gid E.mesh.n x) false =
      (cplx (assign Scheme.ngp E.mesh (realWeights 0 c)) (gid E.mesh.n x)).re from rfl, h]
    clear h hc
    unfold realWeights
    rw [List.map_map]
    induction c with
    | nil => rfl
    | cons p l ih =>
      simp only [List.map_cons, List.sum_cons, Complex.add_re, Function.comp]
      rw [ih]
      congr 1
      simp only [sub_zero_fun]
      split_ifs
      · rfl
      · rfl
  have : ∀ x ∈ box E.mesh.n,
      assign E.sch E.mesh (realWeights 0 c) (gid E.mesh.n x) false ^ (k + 1) * E.mesh.volCell =
      (c.map fun p => if nearest E.mesh p.pos = x then p.ws * p.wc * densityAt E.mesh c p.pos ^ k else 0).sum := by
    intro x hx
    rw [pow_succ, mul_assoc, hcell x hx, ← List.sum_map_mul_left]
    congr 1
    apply List.map_congr_left
    intro p _
    by_cases h : nearest E.mesh p.pos = x
    · rw [if_pos h, if_pos h, ← mesh_density E hM hs c hc p.pos, h]
      ring
    · rw [if_neg h, if_neg h, mul_zero]
  rw [Finset.sum_mul, Finset.sum_congr rfl this, sum_sums]
  congr 1
  apply List.map_congr_left
  intro p _
  rw [Finset.sum_ite_eq, if_pos (nearest_mem E.mesh hM p.pos)]

/-- **C113 (agreement).** If the density recorded with each particle is that of the catalogue on the
mesh, the normalisation from particles is that from the mesh, for both statistics. -/
theorem C113_particles_agree (E : Env) (hM : E.mesh.Valid) (hs : E.sch = .ngp) (c : List Part)
    (hc : AllInside E.mesh c) (alpha : ℝ)
    (hnz : ∀ p ∈ c, p.nz * p.wc = alpha * densityAt E.mesh c p.pos) :
    (∀ x, normParticles c alpha = .ok x → normMesh E c alpha = x) ∧
    ∀ x, normParticles3 c alpha = .ok x → normMesh3 E c alpha = x := by
  constructor
  · intro x hx
    unfold normParticles at hx
    simp only at hx
    have e : (c.map fun p => p.ws * p.nz * p.wc ^ 2).sum =
        alpha * (c.map fun p => p.ws * p.wc * densityAt E.mesh c p.pos ^ 1).sum := by
      rw [← List.sum_map_mul_left]
      congr 1
      apply List.map_congr_left
      intro p hp
      linear_combination p.ws * p.wc * hnz p hp
    rw [e] at hx
    split_ifs at hx with h0
    injection hx with hx
    rw [← hx]
    unfold normMesh powlawNorm
    simp only
    rw [gids_sum E.mesh fun a => (hM a).1, mesh_powers E hM hs c hc 1]
    rw [div_div]
    congr 1
    ring
  · intro x hx
    unfold normParticles3 at hx
    simp only at hx
    have e : (c.map fun p => p.ws * p.nz ^ 2 * p.wc ^ 3).sum =
        alpha ^ 2 * (c.map fun p => p.ws * p.wc * densityAt E.mesh c p.pos ^ 2).sum := by
      rw [← List.sum_map_mul_left]
      congr 1
      apply List.map_congr_left
      intro p hp
      have := hnz p hp
      linear_combination p.ws * p.wc * (p.nz * p.wc + alpha * densityAt E.mesh c p.pos) * this
    rw [e] at hx
    split_ifs at hx with h0
    injection hx with hx
    rw [← hx]
    unfold normMesh3 powlawNorm
    simp only
    rw [gids_sum E.mesh fun a => (hM a).1, mesh_powers E hM hs c hc 2]
    rw [div_div]
    congr 1
    ring

/-- **C113 (shot noise).** The shot noise from particles is the monopole of the amplitudes weighted by
harmonics, of each catalogue, and the number of particles if they have unit weights. -/
theorem C113_shot_noise (E : Env) (data rand : List Part) (alpha : ℝ) :
    shotAmp2 E data rand alpha 0 0 = ((shotParticles data + alpha ^ 2 * shotParticles rand : ℝ) : ℂ) ∧
    shotAmp2One E rand alpha 0 0 = ((alpha ^ 2 * shotParticles rand : ℝ) : ℂ) ∧
    ((∀ p ∈ data, p.ws = 1 ∧ p.wc = 1) → shotParticles data = data.length) := by
  have h : ∀ l : List Part, ylmSum E 2 0 0 l = ((shotParticles l : ℝ) : ℂ) := by
    intro l
    unfold ylmSum shotParticles
    induction l with
    | nil => simp
    | cons p l ih =>
      simp only [List.map_cons, List.sum_cons]
      rw [ih, ylm_zero]
      unfold Part.w
      push_cast
      ring
  refine ⟨?_, ?_, ?_⟩
  · unfold shotAmp2
    rw [h, h]
    push_cast
    ring
  · unfold shotAmp2One
    rw [h]
    push_cast
    ring
  · intro hu
    unfold shotParticles
    rw [List.map_congr_left (g := fun _ => (1 : ℝ)) fun p hp => by rw [(hu p hp).1, (hu p hp).2]; norm_num]
    simp

/-- Two particles in one cell and one in another: hypotheses met, with a mesh normalisation below that
of the uniform density. -/
example : AllInside (exZ 0 0 0 0 1).mesh [exPart 2 1, exPart 2 1, exPart 1 1] ∧
    (exZ 0 0 0 0 1).mesh.Valid ∧ (exZ 0 0 0 0 1).sch = .ngp ∧
    normMesh (exZ 0 0 0 0 1).toEnv [exPart 2 1, exPart 2 1, exPart 1 1] 1 = 1000 / 5 := by
  have hin : AllInside (exZ 0 0 0 0 1).mesh [exPart 2 1, exPart 2 1, exPart 1 1] := by
    intro p hp
    simp only [List.mem_cons, List.not_mem_nil, or_false] at hp
    rcases hp with rfl | rfl | rfl
    · exact exZ_inside 0 0 0 0 1 2 1 (by norm_num) (by norm_num) _ List.mem_cons_self
    · exact exZ_inside 0 0 0 0 1 2 1 (by norm_num) (by norm_num) _ List.mem_cons_self
    · exact exZ_inside 0 0 0 0 1 1 1 (by norm_num) (by norm_num) _ List.mem_cons_self
  refine ⟨hin, exZ_valid 0 0 0 0 1, rfl, ?_⟩
  have hv : (exZ 0 0 0 0 1).toEnv.mesh.volCell = 1000 := by
    unfold Mesh.volCell Mesh.nmesh exZ
    simp
    norm_num
  have hn : ∀ z l : ℝ, nearest (exZ 0 0 0 0 1).mesh (exPart z l).pos = (0, 0, ⌊z + 1 / 2⌋ % 4) := by
    intro z l
    unfold nearest exZ exPart
    simp
    norm_num
  have h2 : ⌊(2 : ℝ) + 1 / 2⌋ % 4 = 2 := by
    rw [show ⌊(2 : ℝ) + 1 / 2⌋ = 2 by rw [Int.floor_eq_iff]; norm_num]; rfl
  have h1 : ⌊(1 : ℝ) + 1 / 2⌋ % 4 = 1 := by
    rw [show ⌊(1 : ℝ) + 1 / 2⌋ = 1 by rw [Int.floor_eq_iff]; norm_num]; rfl
  unfold normMesh powlawNorm
  simp only
  rw [gids_sum _ fun a => (exZ_valid 0 0 0 0 1 a).1]
  have := mesh_powers (exZ 0 0 0 0 1).toEnv (exZ_valid 0 0 0 0 1) rfl _ hin 1
  rw [this]
  simp only [List.map_cons, List.map_nil, List.sum_cons, List.sum_nil]
  unfold densityAt
  simp only [List.map_cons, List.map_nil, List.sum_cons, List.sum_nil, hn, h1, h2, ← cellVolume_eq, hv]
  unfold exPart
  norm_num

end Trv.Two

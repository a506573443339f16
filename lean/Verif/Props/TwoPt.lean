import Verif.Lemmas.TwoPtProps
/-
Property theorems on the two-point and bispectrum measurements: C58, C87, C88, C89, C94.
-/
namespace Trv.Two
open Trv.Mesh Trv.Stats Trv.Win

/-! ### C58 -/

/-- **C58.** Multiplying all clustering weights of both catalogues by a common non-zero factor
leaves the power spectrum (raw power, shot noise, effective wavenumbers and mode numbers), or the
failure, unchanged under each of the normalisation conventions, for every scheme, mesh, interlacing
and multipole. -/
theorem C58_power_spectrum (c : ℝ) (hc : c ≠ 0) (E En : Env) (oD oR : Fin 3 → ℝ)
    (conv : Convention) (hconv : conv ≠ .none) (data rand : List Part) :
    (driverNorm E En oD oR .survey conv (scaleWc c data) (scaleWc c rand)).map
        (computePowspec E (scaleWc c data) (scaleWc c rand)) =
      (driverNorm E En oD oR .survey conv data rand).map (computePowspec E data rand) := by
  rw [driverNorm_scale c hc E En oD oR conv hconv]
  exact map_map_eq _ _ _ _ (computePowspec_scale c hc E data rand)

/-- **C58.** The same for the two-point correlation function. -/
theorem C58_correlation_function (c : ℝ) (hc : c ≠ 0) (E En : Env) (oD oR : Fin 3 → ℝ)
    (conv : Convention) (hconv : conv ≠ .none) (data rand : List Part) :
    (driverNorm E En oD oR .survey conv (scaleWc c data) (scaleWc c rand)).map
        (computeCorrfunc E (scaleWc c data) (scaleWc c rand)) =
      (driverNorm E En oD oR .survey conv data rand).map (computeCorrfunc E data rand) := by
  rw [driverNorm_scale c hc E En oD oR conv hconv]
  exact map_map_eq _ _ _ _ (computeCorrfunc_scale c hc E data rand)

/-- **C58.** The same for the bispectrum and its shot noise, in every form of the data vector. -/
theorem C58_bispectrum (c : ℝ) (hc : c ≠ 0) (E : Bis.Env3) (conv : Convention)
    (hconv : conv ≠ .none) (data rand : List Part) :
    (Bis.driverNorm3 E.toEnv conv (scaleWc c data) (scaleWc c rand)).bind
        (Bis.computeBispec E (scaleWc c data) (scaleWc c rand)) =
      (Bis.driverNorm3 E.toEnv conv data rand).bind (Bis.computeBispec E data rand) := by
  rw [driverNorm3_scale c hc E.toEnv conv hconv]
  exact map_bind_eq _ _ _ _ (Bis.computeBispec_scale c hc E data rand)

/-- A particle. -/
def exPart (ws wc : ℝ) : Part := ⟨fun _ => 1, fun _ => 1, 2, ws, wc⟩

/-- A case: the particle normalisation of a catalogue, and of the catalogue with weights tripled. -/
example : normParticles [exPart 1 1, exPart 2 3] 1 = .ok (1 / 38) ∧
    normParticles (scaleWc 3 [exPart 1 1, exPart 2 3]) 1 = .ok (1 / 342) := by
  constructor
  · unfold normParticles exPart; norm_num
  · unfold normParticles scaleWc exPart; norm_num

/-! ### C87 -/

/-- **C87 (power spectrum).** The shot noise amplitude is the self-contribution of the particles to
the square of the fluctuation field. -/
theorem C87_two_point (E : Env) (data rand : List Part) (alpha : ℝ) (ell : ℕ) (m : ℤ) :
    shotAmp2 E data rand alpha ell m = selfTerm 2 (tracers E ell m data rand alpha) := by
  unfold shotAmp2 selfTerm tracers ylmSum
  rw [List.map_append, List.sum_append, List.map_map, List.map_map, ← List.sum_map_mul_left]
  congr 2
  apply List.map_congr_left
  intro p _
  simp only [Function.comp, Part.w]
  push_cast
  ring

/-- **C87 (bispectrum, part).** The bispectrum shot noise amplitude differs from the
self-contribution to the cube by twice the contribution of the random catalogue: the code adds what
the documentation subtracts. -/
theorem C87_three_point_partial (E : Env) (data rand : List Part) (alpha : ℝ) (ell : ℕ) (m : ℤ) :
    shotAmp3 E data rand alpha ell m = selfTerm 3 (tracers E ell m data rand alpha) +
      2 * ((alpha ^ 3 : ℝ) : ℂ) * (rand.map fun p => E.ylm ell m p.los *
        (((p.ws * p.wc) ^ 3 : ℝ) : ℂ)).sum := by
  unfold shotAmp3 selfTerm tracers ylmSum
  rw [List.map_append, List.sum_append, List.map_map, List.map_map]
  have : (List.map ((fun t : ℂ × ℝ => t.1 * ((t.2 ^ 3 : ℝ) : ℂ)) ∘
      fun p : Part => (E.ylm ell m p.los, -alpha * (p.ws * p.wc))) rand).sum =
      (-((alpha ^ 3 : ℝ) : ℂ)) * (rand.map fun p => E.ylm ell m p.los *
        (((p.ws * p.wc) ^ 3 : ℝ) : ℂ)).sum := by
    rw [← List.sum_map_mul_left]
    congr 1
    apply List.map_congr_left
    intro p _
    simp only [Function.comp]
    push_cast
    ring
  rw [this]
  have e : (fun p : Part => E.ylm ell m p.los * ((p.w ^ 3 : ℝ) : ℂ)) =
      (fun p : Part => E.ylm ell m p.los * (((p.ws * p.wc) ^ 3 : ℝ) : ℂ)) := rfl
  have e' : ((fun t : ℂ × ℝ => t.1 * ((t.2 ^ 3 : ℝ) : ℂ)) ∘
      fun p : Part => (E.ylm ell m p.los, p.ws * p.wc)) =
      (fun p : Part => E.ylm ell m p.los * (((p.ws * p.wc) ^ 3 : ℝ) : ℂ)) := rfl
  rw [e, e']
  ring

/-- **C87 (bispectrum, violated).** For the monopole, whenever the random catalogue is not empty and
all weights are positive, the amplitude is not the self-contribution. -/
theorem C87_three_point_violated (E : Env) (data rand : List Part) (hd : data ≠ [])
    (hr : rand ≠ []) (hw : ∀ p ∈ data ++ rand, 0 < p.ws ∧ 0 < p.wc) :
    shotAmp3 E data rand (alphaOf data rand) 0 0 ≠
      selfTerm 3 (tracers E 0 0 data rand (alphaOf data rand)) := by
  rw [C87_three_point_partial]
  have pos : ∀ (l : List Part) (f : Part → ℝ), l ≠ [] → (∀ p ∈ l, 0 < f p) → 0 < (l.map f).sum := by
    intro l f hl hf
    apply List.sum_pos
    · intro x hx
      obtain ⟨p, hp, rfl⟩ := List.mem_map.1 hx
      exact hf p hp
    · simpa using hl
  have hy : ∀ v, E.ylm 0 0 v = 1 := by
    intro v
    unfold Env.ylm reducedYlm
    rw [if_pos ⟨rfl, rfl⟩]
  have ha : 0 < alphaOf data rand := by
    unfold alphaOf wsTotal
    exact div_pos (pos _ _ hd fun p hp => (hw p (List.mem_append_left _ hp)).1)
      (pos _ _ hr fun p hp => (hw p (List.mem_append_right _ hp)).1)
  have hS := pos rand (fun p => (p.ws * p.wc) ^ 3) hr fun p hp =>
    pow_pos (mul_pos (hw p (List.mem_append_right _ hp)).1 (hw p (List.mem_append_right _ hp)).2) 3
  simp only [hy, one_mul]
  have e : (rand.map fun p => (((p.ws * p.wc) ^ 3 : ℝ) : ℂ)).sum =
      (((rand.map fun p => (p.ws * p.wc) ^ 3).sum : ℝ) : ℂ) := by
    clear hS hr hw ha
    induction rand with
    | nil => simp
    | cons p l ih => rw [List.map_cons, List.sum_cons, ih, List.map_cons, List.sum_cons]; push_cast; rfl
  rw [e]
  intro h
  rw [add_eq_left] at h
  have h' : 2 * alphaOf data rand ^ 3 * (rand.map fun p => (p.ws * p.wc) ^ 3).sum = 0 := by
    exact_mod_cast h
  have := mul_pos (mul_pos (by norm_num : (0 : ℝ) < 2) (pow_pos ha 3)) hS
  linarith

/-- A case: one galaxy and two random particles. -/
example (E : Env) : shotAmp3 E [exPart 1 1] [exPart 1 1, exPart 1 2] (1 / 2) 0 0 = 17 / 8 ∧
    selfTerm 3 (tracers E 0 0 [exPart 1 1] [exPart 1 1, exPart 1 2] (1 / 2)) = -1 / 8 := by
  have hy : ∀ v, E.ylm 0 0 v = 1 := by
    intro v
    unfold Env.ylm reducedYlm
    rw [if_pos ⟨rfl, rfl⟩]
  constructor
  · unfold shotAmp3 ylmSum exPart Part.w
    simp only [hy]
    norm_num
  · unfold selfTerm tracers exPart
    simp only [hy]
    norm_num

/-! ### C88 -/

/-- **C88.** With a non-negative normalisation the raw monopole power and its shot noise, from
survey-type catalogues, are real and non-negative in every bin; on every mesh with at least two
cells on each axis (otherwise the window may vanish, `C11`), for each scheme, with or without
interlacing. -/
theorem C88_monopole_nonneg (E : Env) (hn : ∀ a, 2 ≤ E.mesh.n a) (hL : E.ELL = 0)
    (data rand : List Part) (norm : ℝ) (hnorm : 0 ≤ norm) :
    ∀ r ∈ computePowspec E data rand norm, RealNonneg r.val.1 ∧ RealNonneg r.val.2 := by
  unfold computePowspec
  simp only
  apply output_cone NN_cone E hnorm
  intro i
  unfold sumOrders
  have ho : orders E.ELL = [0] := by rw [hL]; decide
  rw [ho]
  simp only [List.foldl_cons, List.foldl_nil]
  apply accumulate_cone NN_cone
  · rw [hL]
    unfold coupling2
    rw [mul_assoc]
    exact mul_nonneg (by norm_num) (mul_self_nonneg _)
  · intro _; exact NN_cone.zero
  · intro i
    rw [hL]
    exact statsFourier_nn E hn _ (shotAmp2_nn E data rand _) i

/-- **C88.** The same for the monopole in a periodic box. -/
theorem C88_monopole_nonneg_box (E : Env) (hn : ∀ a, 2 ≤ E.mesh.n a) (hL : E.ELL = 0)
    (pos : List (Fin 3 → ℝ)) (norm : ℝ) (hnorm : 0 ≤ norm) :
    ∀ r ∈ computePowspecBox E pos norm, RealNonneg r.val.1 ∧ RealNonneg r.val.2 := by
  unfold computePowspecBox
  simp only
  apply output_cone NN_cone E hnorm
  intro i
  simp only
  apply NN_cone.smul (by positivity)
  rw [hL]
  refine statsFourier_nn E hn _ ?_ i
  have := RealNonneg.ofReal (r := (pos.length : ℝ)) (Nat.cast_nonneg _)
  rwa [Complex.ofReal_natCast] at this

/-- A case: for one particle in a box there is a mode with non-zero shot noise. -/
example : RealNonneg (modeShot 1 (aliasing .cic (fun _ => 4) 1 2 3) (aliasing .cic (fun _ => 4) 1 2 3) 1)
    ∧ modeShot 1 (aliasing .cic (fun _ => 4) 1 2 3) (aliasing .cic (fun _ => 4) 1 2 3) 1 ≠ 0 := by
  rw [C12_shotnoise_mode, one_mul]
  exact ⟨⟨rfl, by norm_num⟩, one_ne_zero⟩

/-! ### C89 -/

/-- **C89.** If the data and random catalogues are identical (with a non-zero total weight) the raw
power is zero in every bin, for every multipole. -/
theorem C89_raw_power_zero (E : Env) (cat : List Part) (hw : wsTotal cat ≠ 0) (norm : ℝ) :
    ∀ r ∈ computePowspec E cat cat norm, r.val.1 = 0 := by
  intro r hr
  unfold computePowspec at hr
  simp only at hr
  have hC : Cone (fun v : ℂ × ℂ => v.1 = 0) := first_zero_cone
  unfold output at hr
  obtain ⟨i, _, rfl⟩ := List.mem_map.1 hr
  have key := sumOrders_sub (fun v : ℂ × ℂ => v.1 = 0) first_zero_cone (fun h => by simp [h]) E
    (fun M m1 => statsFourier E (fourier E.mesh (dnField E cat cat (alphaOf cat cat) E.ELL M))
      (fourier E.mesh (dnField E cat cat (alphaOf cat cat) 0 0))
      (shotAmp2 E cat cat (alphaOf cat cat) E.ELL M) E.ELL m1) (by
    intro M m1 i
    unfold statsFourier
    apply binStats_cone hC
    intro x hx
    unfold modes2 at hx
    obtain ⟨c, _, rfl⟩ := List.mem_map.1 hx
    show modePower _ _ _ _ = 0
    rw [fourier_same E cat hw]
    unfold modePower
    simp) i
  show (norm • (_ : ℂ × ℂ)).1 = 0
  rw [Prod.smul_fst, key, smul_zero]

/-- **C89.** Likewise the raw bispectrum, in every form and at every multipole. -/
theorem C89_raw_bispectrum_zero (E : Bis.Env3) (cat : List Part) (hw : wsTotal cat ≠ 0) (norm : ℝ)
    (rows : List Bis.Row3) (h : Bis.computeBispec E cat cat norm = .ok rows) :
    ∀ r ∈ rows, r.raw = 0 := by
  unfold Bis.computeBispec at h
  by_cases h1 : |E.w3j E.ell1 E.ell2 E.ELL 0 0 0| < epsCoupling
  · rw [if_pos h1] at h; cases h
  rw [if_neg h1] at h
  simp only at h
  split_ifs at h
  injection h with h
  subst h
  intro r hr
  obtain ⟨i, _, rfl⟩ := List.mem_map.1 hr
  simp only
  rw [Bis.runAdds_zero, mul_zero]
  intro u hu
  obtain ⟨t, _, hu⟩ := List.mem_flatMap.1 hu
  unfold Bis.bkAdds at hu
  obtain ⟨e, _, rfl⟩ := List.mem_map.1 hu
  simp only
  have : fourier E.mesh (dnField E.toEnv cat cat (alphaOf cat cat) 0 0) = fun _ => 0 :=
    fourier_same E.toEnv cat hw 0 0
  rw [this, Bis.bkComponent_zero]
  unfold Bis.mirrored
  simp

/-- A case: a catalogue whose total weight is not zero, and whose field is not. -/
example : wsTotal [exPart 1 1, exPart 2 3] ≠ 0 ∧
    (realWeights 0 [exPart 1 1, exPart 2 3]).length = 2 := by
  constructor
  · unfold wsTotal exPart; norm_num
  · rfl

/-! ### C94 -/

/-- **C94 (violated).** A normalisation that does not use the redshift number densities still fails
without them: if all are zero the driver stops, under every convention (`none` included) and for
every type of catalogue. -/
theorem C94_nz_violated (E En : Env) (oD oR : Fin 3 → ℝ) (t : CatType) (conv : Convention)
    (data rand : List Part) (hd : ∀ p ∈ data, p.nz = 0) (hr : ∀ p ∈ rand, p.nz = 0) :
    driverNorm E En oD oR t conv data rand = .error .invalidData := by
  unfold driverNorm
  simp only
  have key : ∀ (l : List Part) (a : ℝ), (∀ p ∈ l, p.nz = 0) →
      normParticles l a = .error .invalidData := by
    intro l a hl
    unfold normParticles
    simp only
    rw [if_pos]
    apply List.sum_eq_zero
    intro x hx
    obtain ⟨p, hp, rfl⟩ := List.mem_map.1 hx
    rw [hl p hp]; ring
  cases t <;> simp only <;> rw [key _ _ (by assumption)]

/-- **C94 (violated).** With `mesh-mixed` and a simulation-like or random catalogue the factor is
zero, so the power spectrum written is zero in every bin. -/
theorem C94_mixed_violated (E En : Env) (oD oR : Fin 3 → ℝ) (t : CatType) (ht : t ≠ .survey)
    (data rand : List Part) (norm : ℝ)
    (h : driverNorm E En oD oR t .meshMixed data rand = .ok norm) :
    norm = 0 ∧ ∀ pos, ∀ r ∈ computePowspecBox E pos norm, r.val = 0 := by
  have h0 : norm = 0 := by
    unfold driverNorm at h
    simp only at h
    cases t with
    | survey => exact absurd rfl ht
    | random =>
      simp only at h
      generalize normParticles rand 1 = x at h
      cases x with
      | error e => cases h
      | ok v => exact (Except.ok.inj h).symm
    | sim =>
      simp only at h
      generalize normParticles data 1 = x at h
      cases x with
      | error e => cases h
      | ok v => exact (Except.ok.inj h).symm
  refine ⟨h0, ?_⟩
  intro pos r hr
  unfold computePowspecBox output at hr
  obtain ⟨i, _, rfl⟩ := List.mem_map.1 hr
  simp only [h0, zero_smul]

/-- A case: the driver accepts such a configuration. -/
example (E En : Env) : driverNorm E En 0 0 .sim .meshMixed [exPart 1 1] [] = .ok 0 := by
  have h : normParticles [exPart 1 1] 1 = .ok (1 / 2) := by
    unfold normParticles exPart; norm_num
  unfold driverNorm
  simp only
  rw [h]

/-- Two particles are alike but for the redshift number density. -/
def alike (p q : Part) : Prop := p.pos = q.pos ∧ p.los = q.los ∧ p.ws = q.ws ∧ p.wc = q.wc

/-- **C94 (part).** When the driver does not stop, the factor under a convention other than
`particle` does not depend on the redshift number densities. -/
theorem C94_independence_partial (E En : Env) (oD oR : Fin 3 → ℝ) (t : CatType) (conv : Convention)
    (hconv : conv ≠ .particle) (data rand data' rand' : List Part)
    (hd : List.Forall₂ alike data data') (hr : List.Forall₂ alike rand rand') (x y : ℝ)
    (hx : driverNorm E En oD oR t conv data rand = .ok x)
    (hy : driverNorm E En oD oR t conv data' rand' = .ok y) : x = y := by
  have hw : ∀ {l l' : List Part}, List.Forall₂ alike l l' → wsTotal l = wsTotal l' := by
    intro l l' h
    unfold wsTotal
    induction h with
    | nil => rfl
    | cons a _ ih => rw [List.map_cons, List.map_cons, List.sum_cons, List.sum_cons, ih, a.2.2.1]
  have hre : ∀ (off : Fin 3 → ℝ) {l l' : List Part}, List.Forall₂ alike l l' →
      realWeights off l = realWeights off l' := by
    intro off l l' h
    unfold realWeights
    induction h with
    | nil => rfl
    | cons a _ ih =>
      rw [List.map_cons, List.map_cons, ih]
      unfold Part.w
      rw [a.1, a.2.2.1, a.2.2.2]
  have ha : alphaOf data rand = alphaOf data' rand' := by unfold alphaOf; rw [hw hd, hw hr]
  have hm : ∀ {l l' : List Part} (a : ℝ), List.Forall₂ alike l l' →
      normMesh E l a = normMesh E l' a := by
    intro l l' a h
    unfold normMesh powlawNorm
    rw [hre 0 h]
  have hms : ∀ a, normMeshes En oD oR data rand a = normMeshes En oD oR data' rand' a := by
    intro a
    unfold normMeshes
    rw [hre oD hd, hre oR hr]
  unfold driverNorm at hx hy
  simp only at hx hy
  have m1 := hm (alphaOf data rand) hr
  have m2 := hm 1 hr
  have m3 := hm 1 hd
  have m4 := hms (alphaOf data rand)
  rw [ha] at hx m1 m4
  clear hm hms hre hw
  cases t <;> simp only at hx hy
  · rw [m1, m4] at hx
    generalize normParticles rand (alphaOf data' rand') = u at hx
    generalize normParticles rand' (alphaOf data' rand') = v at hy
    cases u with
    | error e => cases hx
    | ok u =>
      cases v with
      | error e => cases hy
      | ok v => cases conv <;> first | exact absurd rfl hconv | exact (Except.ok.inj hx).symm.trans (Except.ok.inj hy)
  · rw [m2] at hx
    generalize normParticles rand 1 = u at hx
    generalize normParticles rand' 1 = v at hy
    cases u with
    | error e => cases hx
    | ok u =>
      cases v with
      | error e => cases hy
      | ok v => cases conv <;> first | exact absurd rfl hconv | exact (Except.ok.inj hx).symm.trans (Except.ok.inj hy)
  · rw [m3] at hx
    generalize normParticles data 1 = u at hx
    generalize normParticles data' 1 = v at hy
    cases u with
    | error e => cases hx
    | ok u =>
      cases v with
      | error e => cases hy
      | ok v => cases conv <;> first | exact absurd rfl hconv | exact (Except.ok.inj hx).symm.trans (Except.ok.inj hy)

end Trv.Two

import Verif.Lemmas.Reality
/-
Property theorems on two-point multipoles as Legendre moments about lines of sight (C126), and on their
parity (C127).
-/
namespace Trv.Two
open Trv.Mesh Trv.Stats Trv.Win Trv.Bis

/-! ### C126 -/

/-- **C126 (power spectrum).** With the special functions at their values, the multipole of degree
`ELL` of `compute_powspec` is `2 ELL + 1` times the mean over the modes `k` of the bin of the product
of the fluctuations, each particle of the first given the Legendre polynomial of the angle between
`k` and its OWN line of sight, compensated for the mesh; and the shot noise is the same mean of the
sum over particles of squared weights with that Legendre polynomial. -/
theorem C126_power_spectrum (E : Env) (hE : Special E)
    (hk : ∀ a, (1 : ℝ) / 1000000000 ≤ 2 * Real.pi / E.mesh.L a) (data rand : List Part)
    (hd : ∀ p ∈ data, Resolved p.los) (hr : ∀ p ∈ rand, Resolved p.los) (norm : ℝ) (i : ℕ)
    (hi : i < E.numBins) :
    ∃ r, (computePowspec E data rand norm)[i]? = some r ∧ r.num = (modesIn E i).card ∧
      r.val.1 = (norm : ℂ) * ((2 * E.ELL + 1) * meanOver (modesIn E i) fun c =>
        fluctuation E (legAngle E.ELL (kvec E.mesh c)) data rand (alphaOf data rand) c *
          (starRingEnd ℂ) (fluctuation E (fun _ => 1) data rand (alphaOf data rand) c) / (E.win c : ℂ)) ∧
      r.val.2 = (norm : ℂ) * ((2 * E.ELL + 1) * meanOver (modesIn E i) fun c =>
        (selfNoise (legAngle E.ELL (kvec E.mesh c)) data rand (alphaOf data rand) : ℂ) *
          (E.alias_ c : ℂ) / (E.win c : ℂ)) := by
  obtain ⟨r, h, -, hnum, h1, h2⟩ := C107_power_spectrum E data rand norm i hi
  have hc : 1 / 1000000000 ≤ |coupling E 0 0| := by
    rw [coupling_value E hE (by simp) (by simp)]
    simp only [add_zero, if_true, Int.natAbs_zero, pow_zero, mul_one]
    rw [abs_of_nonneg (by positivity)]
    have : (0 : ℝ) ≤ E.ELL := Nat.cast_nonneg _
    norm_num
    linarith
  refine ⟨r, h, (hnum hc).1, ?_, ?_⟩
  · rw [h1, coupled_mean E hE]
    congr 2
    apply meanOver_congr
    intro c _
    rw [← orders_fluctuation E hE.legendre E.ELL _ (kvec_resolved _ hk c) data rand hd hr,
      ← fourier_dnField_zero, Finset.sum_mul, Finset.sum_div]
    apply Finset.sum_congr rfl
    intro M _
    unfold power
    ring
  · rw [h2, coupled_mean E hE]
    congr 2
    apply meanOver_congr
    intro c _
    rw [← orders_noise E hE.legendre E.ELL _ (kvec_resolved _ hk c) data rand hd hr,
      Finset.sum_mul, Finset.sum_div]
    apply Finset.sum_congr rfl
    intro M _
    ring

/-- **C126 (box).** In a periodic box the multipoles are the Legendre moments about the `z` axis. -/
theorem C126_box (E : Env) (hE : Special E) (hn : ∀ a, 0 < E.mesh.n a)
    (hk : ∀ a, (1 : ℝ) / 1000000000 ≤ 2 * Real.pi / E.mesh.L a)
    (hx : ∀ a, (1 : ℝ) / 1000000000 ≤ E.mesh.L a / E.mesh.n a) (pos : List (Fin 3 → ℝ)) (norm : ℝ) (i : ℕ)
    (hi : i < E.numBins) :
    (∃ r, (computePowspecBox E pos norm)[i]? = some r ∧
      r.val.1 = (norm : ℂ) * ((2 * E.ELL + 1) * meanOver (modesIn E i) fun c =>
        power E (fourier E.mesh (fluctuations E.sch E.mesh E.interlace pos))
          (fourier E.mesh (fluctuations E.sch E.mesh E.interlace pos)) c *
            (legAngle E.ELL (kvec E.mesh c) ![0, 0, 1] : ℂ)) ∧
      r.val.2 = (norm : ℂ) * ((2 * E.ELL + 1) * meanOver (modesIn E i) fun c =>
        (pos.length : ℂ) * (E.alias_ c : ℂ) / (E.win c : ℂ) *
          (legAngle E.ELL (kvec E.mesh c) ![0, 0, 1] : ℂ))) ∧
    ∃ r, (computeCorrfuncBox E pos norm)[i]? = some r ∧
      r.val = (norm : ℂ) * ((2 * E.ELL + 1) * meanOver (sepsIn E i) fun c =>
        Zeta.corr E (fourier E.mesh (fluctuations E.sch E.mesh E.interlace pos))
          (fourier E.mesh (fluctuations E.sch E.mesh E.interlace pos)) (pos.length : ℂ) c *
          (legAngle E.ELL (rvec E.mesh c) ![0, 0, 1] : ℂ)) := by
  obtain ⟨⟨r, h, -, -, -, h1, h2⟩, r', h', -, -, -, h3⟩ := C107_box E hn pos norm i hi
  refine ⟨⟨r, h, ?_, ?_⟩, r', h', ?_⟩
  · rw [h1]
    rw [meanOver_congr fun c _ => by rw [ylm_axis E hE.legendre _ _ (kvec_resolved _ hk c)]]
  · rw [h2]
    rw [meanOver_congr fun c _ => by rw [ylm_axis E hE.legendre _ _ (kvec_resolved _ hk c)]]
  · rw [h3]
    rw [meanOver_congr fun c _ => by rw [ylm_axis E hE.legendre _ _ (rvec_resolved _ hx c)]]

/-- **C126 (plane-parallel lines of sight).** When all lines of sight are along the `z` axis, the
multipoles of a survey are the Legendre moments of the power of the fluctuations about that axis. -/
theorem C126_plane_parallel (E : Env) (hE : Special E)
    (hk : ∀ a, (1 : ℝ) / 1000000000 ≤ 2 * Real.pi / E.mesh.L a) (data rand : List Part)
    (hd : ∀ p ∈ data, p.los = ![0, 0, 1]) (hr : ∀ p ∈ rand, p.los = ![0, 0, 1]) (norm : ℝ) (i : ℕ)
    (hi : i < E.numBins) :
    ∃ r, (computePowspec E data rand norm)[i]? = some r ∧
      r.val.1 = (norm : ℂ) * ((2 * E.ELL + 1) * meanOver (modesIn E i) fun c =>
        (legAngle E.ELL (kvec E.mesh c) ![0, 0, 1] : ℂ) *
          (Complex.normSq (fluctuation E (fun _ => 1) data rand (alphaOf data rand) c) : ℂ) / (E.win c : ℂ)) := by
  have hz : Resolved ![0, 0, 1] := Or.inr (Or.inl ⟨by simp, by simp, by simp; norm_num⟩)
  obtain ⟨r, h, -, h1, -⟩ := C126_power_spectrum E hE hk data rand (fun p hp => by rw [hd p hp]; exact hz)
    (fun p hp => by rw [hr p hp]; exact hz) norm i hi
  refine ⟨r, h, ?_⟩
  rw [h1]
  congr 2
  apply meanOver_congr
  intro c _
  have hf : fluctuation E (legAngle E.ELL (kvec E.mesh c)) data rand (alphaOf data rand) c =
      (legAngle E.ELL (kvec E.mesh c) ![0, 0, 1] : ℂ) *
        fluctuation E (fun _ => 1) data rand (alphaOf data rand) c := by
    have key : ∀ ps : List Part, (∀ p ∈ ps, p.los = ![0, 0, 1]) →
        (ps.map fun p => ((legAngle E.ELL (kvec E.mesh c) p.los * p.w : ℝ) : ℂ) * unitMode E p.pos c).sum =
        (legAngle E.ELL (kvec E.mesh c) ![0, 0, 1] : ℂ) *
          (ps.map fun p => ((1 * p.w : ℝ) : ℂ) * unitMode E p.pos c).sum := by
      intro ps hps
      rw [← List.sum_map_mul_left]
      congr 1
      apply List.map_congr_left
      intro p hp
      rw [hps p hp]
      push_cast
      ring
    unfold fluctuation
    rw [key data hd, key rand hr]
    ring
  rw [hf, mul_assoc, Complex.mul_conj]

/-- **C126 (correlation function).** The multipole of degree `ELL` of `compute_corrfunc` is `2 ELL + 1`
times the mean over the separations of the bin of the number of pairs of different particles, each
weighted by the Legendre polynomial of the angle between the separation and the line of sight of its
first particle (nearest-grid-point assignment, no interlacing). -/
theorem C126_correlation_function (E : Env) (hE : Special E) (hM : E.mesh.Valid) (hs : E.sch = .ngp)
    (hI : E.interlace = false) (hx : ∀ a, (1 : ℝ) / 1000000000 ≤ E.mesh.L a / E.mesh.n a)
    (data rand : List Part) (hd : Zeta.AllInside E.mesh data) (hr : Zeta.AllInside E.mesh rand)
    (hd' : ∀ p ∈ data, Resolved p.los) (hr' : ∀ p ∈ rand, Resolved p.los)
    (norm : ℝ) (i : ℕ) (hi : i < E.numBins) :
    ((computeCorrfunc E data rand norm)[i]?).map Row.val =
      some ((norm : ℂ) * ((2 * E.ELL + 1) * meanOver (sepsIn E i) fun c =>
        Zeta.pairCount E.mesh.n (pointsAngle E (rvec E.mesh c) 1 data ++
          pointsAngle E (rvec E.mesh c) (-(alphaOf data rand)) rand) c / (E.mesh.volCell : ℂ))) := by
  rw [C108_correlation_pairs E hM hs hI data rand hd hr norm i hi, coupled_mean E hE]
  congr 3
  apply meanOver_congr
  intro c _
  rw [← pairs_orders E hE _ (rvec_resolved _ hx c) data rand hd' hr', Finset.sum_div]
  apply Finset.sum_congr rfl
  intro M _
  ring

/-! ### C127 -/

/-- **C127 (survey).** In bins below the Nyquist wavenumber, survey multipoles of even degree are
real and those of odd degree imaginary, and the shot noise of odd degrees vanishes. -/
theorem C127_survey_partial (E : Env) (hE : Special E) (hM : GoodMesh E.mesh) (data rand : List Part)
    (hd : ∀ p ∈ data, Resolved p.los) (hr : ∀ p ∈ rand, Resolved p.los) (norm : ℝ) (i : ℕ)
    (hi : i < E.numBins) (hb : BelowNyquist E i) :
    ∃ r, (computePowspec E data rand norm)[i]? = some r ∧
      (Even E.ELL → r.val.1.im = 0 ∧ r.val.2.im = 0) ∧ (Odd E.ELL → r.val.1.re = 0 ∧ r.val.2 = 0) := by
  have hn := fun a => (hM.valid a).1
  obtain ⟨r, h, -, h1, h2⟩ := C126_power_spectrum E hE hM.resolved data rand hd hr norm i hi
  refine ⟨r, h, ?_⟩
  rw [h1, h2]
  have e1 := meanOver_opposite E hM hb fun c =>
    fluctuation E (legAngle E.ELL (kvec E.mesh c)) data rand (alphaOf data rand) c *
      (starRingEnd ℂ) (fluctuation E (fun _ => 1) data rand (alphaOf data rand) c) / (E.win c : ℂ)
  have e2 := meanOver_opposite E hM hb fun c =>
    (selfNoise (legAngle E.ELL (kvec E.mesh c)) data rand (alphaOf data rand) : ℂ) *
      (E.alias_ c : ℂ) / (E.win c : ℂ)
  have f1 : ∀ c ∈ modesIn E i,
      fluctuation E (legAngle E.ELL (kvec E.mesh (mirrorCell E.mesh.n c))) data rand (alphaOf data rand)
        (mirrorCell E.mesh.n c) * (starRingEnd ℂ) (fluctuation E (fun _ => 1) data rand (alphaOf data rand)
        (mirrorCell E.mesh.n c)) / (E.win (mirrorCell E.mesh.n c) : ℂ) =
      (-1) ^ E.ELL * (starRingEnd ℂ) (fluctuation E (legAngle E.ELL (kvec E.mesh c)) data rand
        (alphaOf data rand) c * (starRingEnd ℂ) (fluctuation E (fun _ => 1) data rand (alphaOf data rand) c) /
        (E.win c : ℂ)) := by
    intro c hc
    obtain ⟨hc1, hq⟩ := modesIn_below E hM hb hc
    rw [fluctuation_opposite E hM (legAngle E.ELL (kvec E.mesh c)) _ ((-1) ^ E.ELL)
        (fun v => legAngle_neg E.ELL (kvec_mirror E.mesh hn hM.even hc1 hq) v) data rand _ hc1 hq,
      fluctuation_opposite E hM (fun _ => 1) (fun _ => 1) 1 (fun _ => by norm_num) data rand _ hc1 hq,
      win_opposite E hn hM.even hc1 hq]
    simp only [map_div₀, map_mul, Complex.conj_ofReal, Complex.conj_conj]
    push_cast
    ring
  have f2 : ∀ c ∈ modesIn E i,
      (selfNoise (legAngle E.ELL (kvec E.mesh (mirrorCell E.mesh.n c))) data rand (alphaOf data rand) : ℂ) *
        (E.alias_ (mirrorCell E.mesh.n c) : ℂ) / (E.win (mirrorCell E.mesh.n c) : ℂ) =
      (-1) ^ E.ELL * ((selfNoise (legAngle E.ELL (kvec E.mesh c)) data rand (alphaOf data rand) : ℂ) *
        (E.alias_ c : ℂ) / (E.win c : ℂ)) := by
    intro c hc
    obtain ⟨hc1, hq⟩ := modesIn_below E hM hb hc
    rw [selfNoise_mul (legAngle E.ELL (kvec E.mesh c)) _ ((-1) ^ E.ELL)
        (fun v => legAngle_neg E.ELL (kvec_mirror E.mesh hn hM.even hc1 hq) v) data rand _,
      win_opposite E hn hM.even hc1 hq, alias_opposite E hn hM.even hc1 hq]
    push_cast
    ring
  rw [meanOver_congr f1, meanOver_conj] at e1
  rw [meanOver_congr f2, meanOver_mul] at e2
  have hreal : ∀ c ∈ modesIn E i,
      (selfNoise (legAngle E.ELL (kvec E.mesh c)) data rand (alphaOf data rand) : ℂ) *
        (E.alias_ c : ℂ) / (E.win c : ℂ) = 1 * (starRingEnd ℂ)
      ((selfNoise (legAngle E.ELL (kvec E.mesh c)) data rand (alphaOf data rand) : ℂ) *
        (E.alias_ c : ℂ) / (E.win c : ℂ)) := by
    intro c _
    simp only [map_div₀, map_mul, Complex.conj_ofReal, one_mul]
  have e3 := meanOver_congr hreal
  rw [meanOver_conj, one_mul] at e3
  obtain ⟨p1, p2⟩ := parity_scaled norm e1
  refine ⟨fun he => ⟨p1 he, ?_⟩, fun ho => ⟨p2 ho, ?_⟩⟩
  · refine (parity_scaled (L := E.ELL) norm ?_).1 he
    rw [he.neg_one_pow, one_mul]
    exact e3
  · rw [ho.neg_one_pow] at e2
    have : meanOver (modesIn E i) (fun c =>
        (selfNoise (legAngle E.ELL (kvec E.mesh c)) data rand (alphaOf data rand) : ℂ) *
        (E.alias_ c : ℂ) / (E.win c : ℂ)) = 0 := by
      linear_combination (1 / 2 : ℂ) * e2
    rw [this]
    ring

/-- **C127 (box).** In bins below the Nyquist wavenumber the odd multipoles in a box, and their shot
noise, are zero. -/
theorem C127_box_partial (E : Env) (hE : Special E) (hM : GoodMesh E.mesh)
    (hx : ∀ a, (1 : ℝ) / 1000000000 ≤ E.mesh.L a / E.mesh.n a) (pos : List (Fin 3 → ℝ)) (norm : ℝ) (i : ℕ)
    (hi : i < E.numBins) (hb : BelowNyquist E i) (ho : Odd E.ELL) :
    ((computePowspecBox E pos norm)[i]?).map Row.val = some (0, 0) := by
  have hn := fun a => (hM.valid a).1
  obtain ⟨⟨r, h, h1, h2⟩, -⟩ := C126_box E hE hn hM.resolved hx pos norm i hi
  rw [h, Option.map_some]
  have hz : ∀ f : ℤ × ℤ × ℤ → ℂ, (∀ c ∈ modesIn E i, f (mirrorCell E.mesh.n c) = -1 * f c) →
      meanOver (modesIn E i) f = 0 := by
    intro f hf
    have := meanOver_opposite E hM hb f
    rw [meanOver_congr hf, meanOver_mul] at this
    linear_combination (1 / 2 : ℂ) * this
  congr 1
  apply Prod.ext
  · rw [h1, hz]
    · simp
    · intro c hc
      obtain ⟨hc1, hq⟩ := modesIn_below E hM hb hc
      unfold power
      rw [fluctuations_opposite E hM pos hc1 hq, win_opposite E hn hM.even hc1 hq,
        legAngle_neg E.ELL (kvec_mirror E.mesh hn hM.even hc1 hq), ho.neg_one_pow, Complex.conj_conj]
      push_cast
      ring
  · rw [h2, hz]
    · simp
    · intro c hc
      obtain ⟨hc1, hq⟩ := modesIn_below E hM hb hc
      rw [alias_opposite E hn hM.even hc1 hq, win_opposite E hn hM.even hc1 hq,
        legAngle_neg E.ELL (kvec_mirror E.mesh hn hM.even hc1 hq), ho.neg_one_pow]
      push_cast
      ring

/-- **C127 (correlation function).** The multipoles of the correlation function are real at every
degree. -/
theorem C127_correlation_real (E : Env) (hE : Special E) (hM : E.mesh.Valid) (hs : E.sch = .ngp)
    (hI : E.interlace = false) (hx : ∀ a, (1 : ℝ) / 1000000000 ≤ E.mesh.L a / E.mesh.n a)
    (data rand : List Part) (hd : Zeta.AllInside E.mesh data) (hr : Zeta.AllInside E.mesh rand)
    (hd' : ∀ p ∈ data, Resolved p.los) (hr' : ∀ p ∈ rand, Resolved p.los)
    (norm : ℝ) (i : ℕ) (hi : i < E.numBins) :
    ∃ r, (computeCorrfunc E data rand norm)[i]? = some r ∧ r.val.im = 0 := by
  have h := C126_correlation_function E hE hM hs hI hx data rand hd hr hd' hr' norm i hi
  cases hr : (computeCorrfunc E data rand norm)[i]? with
  | none => rw [hr] at h; simp at h
  | some r =>
    refine ⟨r, rfl, ?_⟩
    rw [hr, Option.map_some, Option.some.injEq] at h
    rw [h]
    have hpc : ∀ c, (starRingEnd ℂ) (Zeta.pairCount E.mesh.n (pointsAngle E (rvec E.mesh c) 1 data ++
          pointsAngle E (rvec E.mesh c) (-(alphaOf data rand)) rand) c) =
        Zeta.pairCount E.mesh.n (pointsAngle E (rvec E.mesh c) 1 data ++
          pointsAngle E (rvec E.mesh c) (-(alphaOf data rand)) rand) c := by
      intro c
      have hw : ∀ q ∈ pointsAngle E (rvec E.mesh c) 1 data ++
          pointsAngle E (rvec E.mesh c) (-(alphaOf data rand)) rand, (starRingEnd ℂ) q.w = q.w := by
        intro q hq
        unfold pointsAngle at hq
        rw [List.mem_append, List.mem_map, List.mem_map] at hq
        rcases hq with ⟨p, -, rfl⟩ | ⟨p, -, rfl⟩ <;> exact Complex.conj_ofReal _
      unfold Zeta.pairCount
      rw [map_sum]
      apply Finset.sum_congr rfl
      intro a _
      rw [map_sum]
      apply Finset.sum_congr rfl
      intro b _
      split_ifs
      · rw [map_mul, Complex.conj_ofReal, hw _ (List.get_mem _ a)]
      · simp
    have e := meanOver_conj (sepsIn E i) (fun c => Zeta.pairCount E.mesh.n
      (pointsAngle E (rvec E.mesh c) 1 data ++
          pointsAngle E (rvec E.mesh c) (-(alphaOf data rand)) rand) c / (E.mesh.volCell : ℂ)) 1
    simp only [map_div₀, hpc, Complex.conj_ofReal, one_mul] at e
    apply Complex.conj_eq_iff_im.1
    rw [map_mul, map_mul, ← e]
    simp only [map_add, map_mul, map_ofNat, map_natCast, map_one, Complex.conj_ofReal]

/-! ### Cases -/

/-- A configuration with the special functions at their values: a mesh of `N` cells of unit size per
axis, nearest-grid-point assignment, one bin. -/
noncomputable def exL (N : ℤ) (ell : ℕ) (lo hi : ℝ) : Env where
  mesh := ⟨fun _ => N, fun _ => N⟩
  sch := .ngp
  interlace := false
  P := sphP
  w3j := fun a _ _ m _ M => if m + M = 0 then (-1) ^ (a.natAbs + m.natAbs) / Real.sqrt (2 * a + 1) else 0
  ELL := ell
  edges := [lo, hi]
  centres := [(lo + hi) / 2]
  numBins := 1

theorem exL_special (N : ℤ) (ell : ℕ) (lo hi : ℝ) : Special (exL N ell lo hi) where
  legendre := fun _ _ _ _ _ => rfl
  wigner := fun m M _ _ => by simp [exL]

theorem exL_valid {N : ℤ} (hN : 0 < N) (ell : ℕ) (lo hi : ℝ) : (exL N ell lo hi).mesh.Valid :=
  fun _ => ⟨hN, by show (0 : ℝ) < (N : ℝ); exact_mod_cast hN⟩

/-- Four cells per axis, the quadrupole, and a bin from 1 to 2, which holds the six modes along the
axes; the Nyquist wavenumber is `π`. -/
theorem exL_good : GoodMesh (exL 4 2 1 2).mesh where
  valid := exL_valid (by norm_num) _ _ _
  even := fun _ => ⟨2, rfl⟩
  resolved := fun _ => by
    show (1 : ℝ) / 1000000000 ≤ 2 * Real.pi / ((4 : ℤ) : ℝ)
    have := Real.pi_gt_three
    push_cast
    linarith

theorem exL_below (ell : ℕ) : BelowNyquist (exL 4 ell 1 2) 0 := by
  intro a
  show (2 : ℝ) + 1 / 100000 ≤ Real.pi * ((4 : ℤ) : ℝ) / ((4 : ℤ) : ℝ)
  have := Real.pi_gt_three
  push_cast
  linarith

theorem exL_mode (ell : ℕ) : ((0, 0, 1) : ℤ × ℤ × ℤ) ∈ modesIn (exL 4 ell 1 2) 0 := by
  have hm : mag (kvec (exL 4 ell 1 2).mesh (0, 0, 1)) = Real.pi / 2 := by
    have h0 : kvec (exL 4 ell 1 2).mesh (0, 0, 1) 0 = 0 := by simp [kvec, gridVec, exL]
    have h1 : kvec (exL 4 ell 1 2).mesh (0, 0, 1) 1 = 0 := by simp [kvec, gridVec, exL]
    have h2 : kvec (exL 4 ell 1 2).mesh (0, 0, 1) 2 = Real.pi / 2 := by
      simp only [kvec, gridVec, exL]
      norm_num
      ring
    unfold mag
    rw [h0, h1, h2]
    have : (0 : ℝ) ^ 2 + 0 ^ 2 + (Real.pi / 2) ^ 2 = (Real.pi / 2) ^ 2 := by ring
    rw [this, Real.sqrt_sq (by have := Real.pi_pos; linarith)]
  have hp := Real.pi_gt_three
  have hp' := Real.pi_le_four
  unfold modesIn
  rw [Finset.mem_filter, allModes_eq, hm]
  refine ⟨mem_box.2 (by simp [exL]), by linarith, ?_, ?_⟩
  · show (1 : ℝ) ≤ _
    have : (100000 : ℤ) ≤ ⌊Real.pi / 2 * 100000⌋ := Int.le_floor.2 (by push_cast; linarith)
    have : (100000 : ℝ) ≤ (⌊Real.pi / 2 * 100000⌋ : ℝ) := by exact_mod_cast this
    linarith
  · show _ < (2 : ℝ)
    have := Int.floor_le (Real.pi / 2 * 100000)
    have := Real.pi_lt_d2
    linarith

/-- The hypotheses of `C126` and `C127` in the configuration above, with particles seen along the
`z` axis and obliquely. -/
example : ∃ r, (computePowspec (exL 4 2 1 2) [⟨![0, 0, 0], ![0, 0, 1], 1, 1, 1⟩,
      ⟨![1, 0, 0], ![3, 0, 4], 1, 2, 1⟩] [⟨![2, 1, 0], ![0, 0, 2], 1, 1, 1⟩] 1)[0]? = some r ∧
    (Even 2 → r.val.1.im = 0 ∧ r.val.2.im = 0) ∧ (Odd 2 → r.val.1.re = 0 ∧ r.val.2 = 0) :=
  C127_survey_partial (exL 4 2 1 2) (exL_special _ _ _ _) exL_good _ _
    (by
      intro p hp
      rcases List.mem_cons.1 hp with rfl | hp
      · exact Or.inr (Or.inl ⟨by simp, by simp, by simp; norm_num⟩)
      · rw [List.mem_singleton.1 hp]
        refine Or.inr (Or.inr ?_)
        apply Real.le_sqrt_of_sq_le
        simp
        norm_num)
    (by
      intro p hp
      rw [List.mem_singleton.1 hp]
      exact Or.inr (Or.inl ⟨by simp, by simp, by simp; norm_num⟩)) 1 0 (by simp [exL]) (exL_below 2)

/-- The hypotheses of `C126_correlation_function`: two particles in neighbouring cells. -/
example : ((computeCorrfunc (exL 4 2 1 2) [⟨![0, 0, 0], ![0, 0, 1], 1, 1, 1⟩, ⟨![0, 0, 1], ![0, 0, 1], 1, 2, 1⟩]
      [⟨![2, 1, 0], ![0, 0, 2], 1, 1, 1⟩] 1)[0]?).isSome := by
  have h := C126_correlation_function (exL 4 2 1 2) (exL_special _ _ _ _) (exL_valid (by norm_num) _ _ _) rfl rfl
    (fun _ => by show (1 : ℝ) / 1000000000 ≤ ((4 : ℤ) : ℝ) / ((4 : ℤ) : ℝ); norm_num)
    [⟨![0, 0, 0], ![0, 0, 1], 1, 1, 1⟩, ⟨![0, 0, 1], ![0, 0, 1], 1, 2, 1⟩] [⟨![2, 1, 0], ![0, 0, 2], 1, 1, 1⟩]
    (by
      intro p hp a
      show _ ∧ _ < ((4 : ℤ) : ℝ)
      rcases List.mem_cons.1 hp with rfl | hp
      · fin_cases a <;> norm_num
      · rw [List.mem_singleton.1 hp]
        fin_cases a <;> norm_num)
    (by
      intro p hp a
      show _ ∧ _ < ((4 : ℤ) : ℝ)
      rw [List.mem_singleton.1 hp]
      fin_cases a <;> norm_num)
    (by
      intro p hp
      rcases List.mem_cons.1 hp with rfl | hp
      · exact Or.inr (Or.inl ⟨by simp, by simp, by simp; norm_num⟩)
      · rw [List.mem_singleton.1 hp]
        exact Or.inr (Or.inl ⟨by simp, by simp, by simp; norm_num⟩))
    (by
      intro p hp
      rw [List.mem_singleton.1 hp]
      exact Or.inr (Or.inl ⟨by simp, by simp, by simp; norm_num⟩)) 1 0 (by simp [exL])
  rw [← Option.isSome_map (f := Row.val), h]
  rfl

theorem exL_modes : modesIn (exL 2 1 3 4) 0 = {(1, 0, 0), (0, 1, 0), (0, 0, 1)} := by
  have hk : ∀ c : ℤ × ℤ × ℤ, kvec (exL 2 1 3 4).mesh c 0 = (if c.1 < 1 then c.1 else (c.1 - 2 : ℤ)) * Real.pi ∧
      kvec (exL 2 1 3 4).mesh c 1 = (if c.2.1 < 1 then c.2.1 else (c.2.1 - 2 : ℤ)) * Real.pi ∧
      kvec (exL 2 1 3 4).mesh c 2 = (if c.2.2 < 1 then c.2.2 else (c.2.2 - 2 : ℤ)) * Real.pi := by
    intro c
    unfold kvec gridVec exL
    refine ⟨?_, ?_, ?_⟩ <;> (simp only; norm_num)
  have hp := Real.pi_gt_three
  have hp' := Real.pi_lt_d2
  have in1 : ∀ x : ℝ, x ^ 2 = Real.pi ^ 2 → 0 ≤ x → x < 10 ∧ (3 : ℝ) ≤ (⌊x * 100000⌋ : ℝ) / 100000 ∧
      (⌊x * 100000⌋ : ℝ) / 100000 < 4 := by
    intro x hx h0
    have : x = Real.pi := by nlinarith
    subst this
    have h1 : (300000 : ℤ) ≤ ⌊Real.pi * 100000⌋ := Int.le_floor.2 (by push_cast; linarith)
    have h2 : (300000 : ℝ) ≤ (⌊Real.pi * 100000⌋ : ℝ) := by exact_mod_cast h1
    have h3 := Int.floor_le (Real.pi * 100000)
    refine ⟨by linarith, by linarith, by linarith⟩
  have out0 : ¬ (3 : ℝ) ≤ (⌊(0 : ℝ) * 100000⌋ : ℝ) / 100000 := by simp
  have out2 : ∀ x : ℝ, 2 * Real.pi ^ 2 ≤ x ^ 2 → 0 ≤ x → ¬ (⌊x * 100000⌋ : ℝ) / 100000 < 4 := by
    intro x hx h0 hlt
    have h4 : 4.1 ≤ x := by nlinarith
    have := Int.lt_floor_add_one (x * 100000)
    linarith
  have hmag : ∀ c : ℤ × ℤ × ℤ, mag (kvec (exL 2 1 3 4).mesh c) ^ 2 =
      ((if c.1 < 1 then c.1 else (c.1 - 2 : ℤ)) * Real.pi) ^ 2 +
      ((if c.2.1 < 1 then c.2.1 else (c.2.1 - 2 : ℤ)) * Real.pi) ^ 2 +
      ((if c.2.2 < 1 then c.2.2 else (c.2.2 - 2 : ℤ)) * Real.pi) ^ 2 := by
    intro c
    unfold mag
    rw [Real.sq_sqrt (by positivity), (hk c).1, (hk c).2.1, (hk c).2.2]
  have h0 : ∀ c : ℤ × ℤ × ℤ, 0 ≤ mag (kvec (exL 2 1 3 4).mesh c) := fun c => Real.sqrt_nonneg _
  have e0 : (exL 2 1 3 4).edges.getD 0 0 = 3 := rfl
  have e1 : (exL 2 1 3 4).edges.getD (0 + 1) 0 = 4 := rfl
  ext ⟨a, b, d⟩
  unfold modesIn
  rw [Finset.mem_filter, allModes_eq, mem_box, e0, e1]
  have hn : ∀ a, (exL 2 1 3 4).mesh.n a = 2 := fun _ => rfl
  rw [hn, hn, hn]
  constructor
  · rintro ⟨⟨⟨a0, a1⟩, ⟨b0, b1⟩, d0, d1⟩, -, l, u⟩
    simp only at a0 a1 b0 b1 d0 d1
    have hm := hmag (a, b, d)
    have hm0 := h0 (a, b, d)
    obtain rfl | rfl : a = 0 ∨ a = 1 := by omega
    all_goals obtain rfl | rfl : b = 0 ∨ b = 1 := by omega
    all_goals obtain rfl | rfl : d = 0 ∨ d = 1 := by omega
    all_goals first
      | (simp; done)
      | (exfalso
         norm_num at hm
         first
          | (rw [hm] at l; exact out0 l)
          | exact out2 _ (by rw [hm]; nlinarith) hm0 u)
  · intro h
    simp only [Finset.mem_insert, Finset.mem_singleton, Prod.mk.injEq] at h
    rcases h with ⟨rfl, rfl, rfl⟩ | ⟨rfl, rfl, rfl⟩ | ⟨rfl, rfl, rfl⟩
    all_goals refine ⟨by norm_num, in1 _ ?_ (h0 _)⟩
    all_goals rw [hmag]; norm_num

/-- **C127 (violated at the Nyquist wavenumber).** The dipole of one particle in a box of two cells
per axis is -1 in the bin of the Nyquist modes, which have no opposite on the mesh. -/
theorem C127_nyquist_violated :
    ((computePowspecBox (exL 2 1 3 4) [![0, 0, 0]] 1)[0]?).map (fun r => r.val.1) = some (-1 : ℂ) := by
  have hM := exL_valid (N := 2) (by norm_num) 1 3 4
  have hk : ∀ a, (1 : ℝ) / 1000000000 ≤ 2 * Real.pi / (exL 2 1 3 4).mesh.L a := fun _ => by
    show (1 : ℝ) / 1000000000 ≤ 2 * Real.pi / ((2 : ℤ) : ℝ)
    have := Real.pi_gt_three
    push_cast
    linarith
  have hx : ∀ a, (1 : ℝ) / 1000000000 ≤ (exL 2 1 3 4).mesh.L a / (exL 2 1 3 4).mesh.n a := fun _ => by
    show (1 : ℝ) / 1000000000 ≤ ((2 : ℤ) : ℝ) / ((2 : ℤ) : ℝ)
    norm_num
  obtain ⟨⟨r, h, h1, -⟩, -⟩ := C126_box _ (exL_special 2 1 3 4) (fun a => (hM a).1) hk hx [![0, 0, 0]] 1 0
    (by simp [exL])
  rw [h, Option.map_some, h1]
  congr 1
  have hF : ∀ c ∈ box (exL 2 1 3 4).mesh.n, c ≠ (0, 0, 0) →
      power (exL 2 1 3 4) (fourier (exL 2 1 3 4).mesh (fluctuations (exL 2 1 3 4).sch (exL 2 1 3 4).mesh
        (exL 2 1 3 4).interlace [![0, 0, 0]])) (fourier (exL 2 1 3 4).mesh (fluctuations (exL 2 1 3 4).sch
        (exL 2 1 3 4).mesh (exL 2 1 3 4).interlace [![0, 0, 0]])) c = 1 := by
    intro c hc hne
    have hin : ∀ x ∈ [(![0, 0, 0] : Fin 3 → ℝ)], ∀ a, 0 ≤ x a ∧ x a < (exL 2 1 3 4).mesh.L a := by
      intro x hx a
      rw [List.mem_singleton.1 hx]
      show _ ∧ _ < ((2 : ℤ) : ℝ)
      fin_cases a <;> norm_num
    unfold power
    have hf : fourier (exL 2 1 3 4).mesh (fluctuations (exL 2 1 3 4).sch (exL 2 1 3 4).mesh
        (exL 2 1 3 4).interlace [![0, 0, 0]]) (gid (exL 2 1 3 4).mesh.n c) = 1 := by
      refine (Zeta.fourier_boxDn _ hM _ hin hc).trans ?_
      rw [if_neg hne, Zeta.wSum_eq]
      have hz : Zeta.nearest (exL 2 1 3 4).mesh ![0, 0, 0] = (0, 0, 0) := by
        unfold Zeta.nearest
        simp
        norm_num
      simp only [Zeta.pointsBox, List.map_cons, List.map_nil, List.sum_cons, List.sum_nil, hz]
      rw [(Zeta.phase3_zero _ _ _).2]
      norm_num
    have hw : (exL 2 1 3 4).win c = 1 := by
      unfold Env.win Env.alias_ aliasing aliasAxis exL
      simp
    rw [hf, hw]
    simp
  have hv : ∀ c ∈ modesIn (exL 2 1 3 4) 0, c ∈ box (exL 2 1 3 4).mesh.n ∧ c ≠ (0, 0, 0) := by
    intro c hc
    rw [exL_modes] at hc
    simp only [Finset.mem_insert, Finset.mem_singleton] at hc
    rw [mem_box]
    rcases hc with rfl | rfl | rfl <;> simp [exL]
  rw [meanOver_congr fun c hc => by rw [hF c (hv c hc).1 (hv c hc).2, one_mul]]
  have hl : ∀ c, legAngle (exL 2 1 3 4).ELL (kvec (exL 2 1 3 4).mesh c) ![0, 0, 1] =
      if kvec (exL 2 1 3 4).mesh c = 0 then 0 else
        kvec (exL 2 1 3 4).mesh c 2 / mag (kvec (exL 2 1 3 4).mesh c) := by
    intro c
    have hz : (![0, 0, 1] : Fin 3 → ℝ) ≠ 0 := fun h => by simpa using congrFun h 2
    have hone : mag ![0, 0, 1] = 1 := by unfold mag; simp
    unfold legAngle
    rw [if_neg (by simp [exL])]
    simp only [hz, or_false]
    split_ifs
    · rfl
    · rw [hone]
      have : (exL 2 1 3 4).ELL = 1 := rfl
      rw [this]
      simp [Wc.legendre, dot]
  have k1 : kvec (exL 2 1 3 4).mesh (1, 0, 0) 2 = 0 := by simp [kvec, gridVec, exL]
  have k2 : kvec (exL 2 1 3 4).mesh (0, 1, 0) 2 = 0 := by simp [kvec, gridVec, exL]
  have k3 : kvec (exL 2 1 3 4).mesh (0, 0, 1) 2 = -Real.pi := by simp [kvec, gridVec, exL]
  have k4 : mag (kvec (exL 2 1 3 4).mesh (0, 0, 1)) = Real.pi := by
    have h0 : kvec (exL 2 1 3 4).mesh (0, 0, 1) 0 = 0 := by simp [kvec, gridVec, exL]
    have h1 : kvec (exL 2 1 3 4).mesh (0, 0, 1) 1 = 0 := by simp [kvec, gridVec, exL]
    unfold mag
    rw [h0, h1, k3]
    simp [Real.sqrt_sq Real.pi_pos.le]
  have k5 : kvec (exL 2 1 3 4).mesh (0, 0, 1) ≠ 0 := by
    intro h0
    have := congrFun h0 2
    rw [k3] at this
    simp [Real.pi_ne_zero] at this
  unfold meanOver
  rw [exL_modes]
  simp only [hl]
  rw [Finset.sum_insert (by decide), Finset.sum_insert (by decide), Finset.sum_singleton, k1, k2, k3, k4,
    if_neg k5]
  have hc : (({(1, 0, 0), (0, 1, 0), (0, 0, 1)} : Finset (ℤ × ℤ × ℤ))).card = 3 := by decide
  rw [hc, neg_div, div_self Real.pi_ne_zero]
  have : (exL 2 1 3 4).ELL = 1 := rfl
  rw [this]
  norm_num

end Trv.Two

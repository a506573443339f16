import Verif.Lemmas.Turn
import Verif.Props.Wigner
/-
C147: measurements do not depend on the naming of the axes.  C126: the correlation function with any assignment
scheme.
-/
namespace Trv.Two
open Trv.Mesh Trv.Stats Trv.Win Trv.Bis

/-- The correlation at a separation of fluctuations given a factor `f` of the lines of sight with those not given
it, less the self-contribution, compensated for the mesh. -/
noncomputable def corrFactor (E : Env) (f : (Fin 3 → ℝ) → ℝ) (data rand : List Part) (alpha : ℝ)
    (c : ℤ × ℤ × ℤ) : ℂ :=
  (∑ x ∈ allModes E.mesh.n,
    (fluctuation E f data rand alpha x * (starRingEnd ℂ) (fluctuation E (fun _ => 1) data rand alpha x) -
      (selfNoise f data rand alpha : ℂ) * (E.alias_ x : ℂ)) / (E.win x : ℂ) * phase3 E.mesh.n 1 c x) /
    (vol E.mesh : ℂ)

/-- **C126 (correlation function, any scheme).** The measured multipole of degree `ℓ` is `2ℓ+1` times the mean over
the separations of a bin of the transform of the power of fluctuations, whose first member is weighted by the Legendre
polynomial of the angle between the separation and the line of sight. -/
theorem C126_correlation_modes (E : Env) (hE : Special E) (hn : ∀ a, 0 < E.mesh.n a)
    (hx : ∀ a, (1 : ℝ) / 1000000000 ≤ E.mesh.L a / E.mesh.n a) (data rand : List Part)
    (hd : ∀ p ∈ data, Resolved p.los) (hr : ∀ p ∈ rand, Resolved p.los) (norm : ℝ) (i : ℕ) (hi : i < E.numBins) :
    ∃ r, (computeCorrfunc E data rand norm)[i]? = some r ∧ r.bin = E.centres.getD i 0 ∧ r.num = (sepsIn E i).card ∧
      r.eff = meanLen (sepsIn E i) (fun c => mag (rvec E.mesh c)) (E.centres.getD i 0) ∧
      r.val = (norm : ℂ) * ((2 * E.ELL + 1) * meanOver (sepsIn E i) fun c =>
        corrFactor E (legAngle E.ELL (rvec E.mesh c)) data rand (alphaOf data rand) c) := by
  obtain ⟨r, h, hb, hnum, h1⟩ := C107_correlation_function E hn data rand norm i hi
  have hc : 1 / 1000000000 ≤ |coupling E 0 0| := by
    rw [coupling_value E hE (by simp) (by simp)]
    simp only [add_zero, if_true, Int.natAbs_zero, pow_zero, mul_one]
    rw [abs_of_nonneg (by positivity)]
    have : (0 : ℝ) ≤ E.ELL := Nat.cast_nonneg _
    norm_num
    linarith
  refine ⟨r, h, hb, (hnum hc).1, (hnum hc).2, ?_⟩
  rw [h1, coupled_mean E hE]
  congr 2
  apply meanOver_congr
  intro c _
  have hu := rvec_resolved E.mesh hx c
  unfold corrFactor Zeta.corr
  simp only [mul_div_assoc']
  rw [← Finset.sum_div]
  congr 1
  simp only [Finset.mul_sum]
  rw [Finset.sum_comm]
  apply Finset.sum_congr rfl
  intro x _
  rw [← orders_fluctuation E hE.legendre E.ELL _ hu data rand hd hr,
    ← orders_noise E hE.legendre E.ELL _ hu data rand hd hr, fourier_dnField_zero, Finset.sum_mul, Finset.sum_mul,
    ← Finset.sum_sub_distrib, Finset.sum_div, Finset.sum_mul]
  apply Finset.sum_congr rfl
  intro M _
  ring

end Trv.Two

namespace Trv.Zeta
open Trv.Mesh Trv.Stats Trv.Win Trv.Two Trv.ThreePt Trv.Bis

/-- The lines of sight are resolved, with the axes exchanged or not. -/
def LosResolved (s : Equiv.Perm (Fin 3)) (ps : List Part) : Prop :=
  ∀ p ∈ ps, Two.Resolved p.los ∧ Two.Resolved (turnVec s p.los)

theorem losResolved_turn {s : Equiv.Perm (Fin 3)} {ps : List Part} (h : LosResolved s ps) :
    ∀ p ∈ ps.map (turnPart s), Two.Resolved p.los := by
  intro q hq
  obtain ⟨p, hp, rfl⟩ := List.mem_map.1 hq
  exact (h p hp).2

theorem rows_eq {V : Type} {l l' : List (Two.Row V)} {n : ℕ} (h : l.length = n) (h' : l'.length = n)
    (he : ∀ i, i < n → ∃ r r', l[i]? = some r ∧ l'[i]? = some r' ∧ r.bin = r'.bin ∧ r.eff = r'.eff ∧ r.num = r'.num ∧
      r.val = r'.val) : l = l' := by
  apply List.ext_getElem?
  intro i
  by_cases hi : i < n
  · obtain ⟨⟨a, b, c, d⟩, ⟨a', b', c', d'⟩, h1, h2, h3, h4, h5, h6⟩ := he i hi
    simp only at h3 h4 h5 h6
    rw [h1, h2, h3, h4, h5, h6]
  · rw [List.getElem?_eq_none (by omega), List.getElem?_eq_none (by omega)]

theorem output_length {V : Type} [AddCommGroup V] [Module ℝ V] (E : Two.Env) (norm : ℝ) (st : ℕ → Saved V) :
    (output E norm st).length = E.numBins := by
  unfold output
  simp

/-- **C147 (power spectrum).** If the axes of the box, of the positions and of the lines of sight are exchanged, all
that is measured of any power-spectrum multipole of a survey is the same. -/
theorem C147_power_spectrum (s : Equiv.Perm (Fin 3)) (E : Two.Env) (hE : Special E) (hM : E.mesh.Valid)
    (hk : ∀ a, (1 : ℝ) / 1000000000 ≤ 2 * Real.pi / E.mesh.L a) (data rand : List Part)
    (hd : Placed E (data.map Part.pos)) (hr : Placed E (rand.map Part.pos)) (ld : LosResolved s data)
    (lr : LosResolved s rand) (norm : ℝ) :
    computePowspec (turnEnv s E) (data.map (turnPart s)) (rand.map (turnPart s)) norm =
      computePowspec E data rand norm := by
  refine rows_eq (n := E.numBins) (output_length _ _ _) (output_length _ _ _) ?_
  intro i hi
  have hc : ∀ E : Two.Env, Special E → 1 / 1000000000 ≤ |coupling E 0 0| := by
    intro E hE
    rw [coupling_value E hE (by simp) (by simp)]
    simp only [add_zero, if_true, Int.natAbs_zero, pow_zero, mul_one]
    rw [abs_of_nonneg (by positivity)]
    have : (0 : ℝ) ≤ E.ELL := Nat.cast_nonneg _
    norm_num
    linarith
  obtain ⟨r, h, -, h1, h2⟩ := C126_power_spectrum E hE hk data rand (fun p hp => (ld p hp).1)
    (fun p hp => (lr p hp).1) norm i hi
  obtain ⟨r', h', -, h1', h2'⟩ := C126_power_spectrum (turnEnv s E) (special_turn hE) (fun a => hk (s a)) _ _
    (losResolved_turn ld) (losResolved_turn lr) norm i hi
  obtain ⟨q, g, b1, b2, -⟩ := C107_power_spectrum E data rand norm i hi
  obtain ⟨q', g', b1', b2', -⟩ := C107_power_spectrum (turnEnv s E) (data.map (turnPart s)) (rand.map (turnPart s))
    norm i hi
  rw [h, Option.some_inj] at g
  rw [h', Option.some_inj] at g'
  subst g; subst g'
  have hmem : ∀ c ∈ modesIn E i, c ∈ box E.mesh.n := fun c hc => (Finset.mem_filter.1 hc).1
  have hkt : ∀ c, kvec (turnEnv s E).mesh (turnCell s c) = turnVec s (kvec E.mesh c) := kvec_turn s E.mesh
  have hl : (turnEnv s E).ELL = E.ELL := rfl
  have hf : ∀ c v, legAngle E.ELL (kvec (turnEnv s E).mesh (turnCell s c)) (turnVec s v) =
      legAngle E.ELL (kvec E.mesh c) v := by
    intro c v
    rw [hkt, legAngle_turn]
  refine ⟨r', r, h', h, b1'.trans b1.symm, ?_, ?_, Prod.ext ?_ ?_⟩
  · rw [(b2 (hc _ hE)).2, (b2' (hc _ (special_turn hE))).2]
    refine meanLen_turn s (fun f => modesIn_turn s E i f) (fun f => modesIn_turn s E i f) ?_ _
    intro c _
    rw [hkt, mag_turn]
  · rw [(b2 (hc _ hE)).1, (b2' (hc _ (special_turn hE))).1]
    exact card_filter_turn s fun f => modesIn_turn s E i f
  · rw [h1, h1', hl]
    refine congrArg (fun z : ℂ => (norm : ℂ) * ((2 * E.ELL + 1) * z)) ?_
    refine meanOver_turn s (fun f => modesIn_turn s E i f) (fun f => modesIn_turn s E i f) ?_
    intro c hcm
    rw [alphaOf_turn, win_turn, fluctuation_turn s hM hd hr (hf c) _ (hmem c hcm),
      fluctuation_turn s hM hd hr (f := fun _ => 1) (fun _ => rfl) _ (hmem c hcm)]
  · rw [h2, h2', hl]
    refine congrArg (fun z : ℂ => (norm : ℂ) * ((2 * E.ELL + 1) * z)) ?_
    refine meanOver_turn s (fun f => modesIn_turn s E i f) (fun f => modesIn_turn s E i f) ?_
    intro c hcm
    rw [alphaOf_turn, win_turn, alias_turn, selfNoise_turn s data rand (hf c)]

/-- **C147 (correlation function).** Likewise for the correlation function of a survey. -/
theorem C147_correlation_function (s : Equiv.Perm (Fin 3)) (E : Two.Env) (hE : Special E) (hM : E.mesh.Valid)
    (hx : ∀ a, (1 : ℝ) / 1000000000 ≤ E.mesh.L a / E.mesh.n a) (data rand : List Part)
    (hd : Placed E (data.map Part.pos)) (hr : Placed E (rand.map Part.pos)) (ld : LosResolved s data)
    (lr : LosResolved s rand) (norm : ℝ) :
    computeCorrfunc (turnEnv s E) (data.map (turnPart s)) (rand.map (turnPart s)) norm =
      computeCorrfunc E data rand norm := by
  refine rows_eq (n := E.numBins) (output_length _ _ _) (output_length _ _ _) ?_
  intro i hi
  obtain ⟨r, h, b1, b2, b3, h1⟩ := C126_correlation_modes E hE (fun a => (hM a).1) hx data rand (fun p hp => (ld p hp).1)
    (fun p hp => (lr p hp).1) norm i hi
  obtain ⟨r', h', b1', b2', b3', h1'⟩ := C126_correlation_modes (turnEnv s E) (special_turn hE)
    (fun a => (hM (s a)).1) (fun a => hx (s a)) _ _ (losResolved_turn ld) (losResolved_turn lr) norm i hi
  have hrt : ∀ c, rvec (turnEnv s E).mesh (turnCell s c) = turnVec s (rvec E.mesh c) := rvec_turn s E.mesh
  have hl : (turnEnv s E).ELL = E.ELL := rfl
  have hf : ∀ c v, legAngle E.ELL (rvec (turnEnv s E).mesh (turnCell s c)) (turnVec s v) =
      legAngle E.ELL (rvec E.mesh c) v := by
    intro c v
    rw [hrt, legAngle_turn]
  refine ⟨r', r, h', h, b1'.trans b1.symm, ?_, ?_, ?_⟩
  · rw [b3, b3']
    refine meanLen_turn s (fun f => sepsIn_turn s E i f) (fun f => sepsIn_turn s E i f) ?_ _
    intro c _
    rw [hrt, mag_turn]
  · rw [b2, b2']
    exact card_filter_turn s fun f => sepsIn_turn s E i f
  · rw [h1, h1', hl]
    refine congrArg (fun z : ℂ => (norm : ℂ) * ((2 * E.ELL + 1) * z)) ?_
    refine meanOver_turn s (fun f => sepsIn_turn s E i f) (fun f => sepsIn_turn s E i f) ?_
    intro c _
    unfold corrFactor
    have hv : vol (turnEnv s E).mesh = vol E.mesh := vol_turn s E.mesh
    rw [hv]
    refine congrArg (fun z : ℂ => z / (vol E.mesh : ℂ)) ?_
    refine (sum_turn s E.mesh.n _).trans ?_
    apply Finset.sum_congr rfl
    intro x hxm
    have hph : phase3 (turnEnv s E).mesh.n 1 (turnCell s c) (turnCell s x) = phase3 E.mesh.n 1 c x :=
      phase3_turn s E.mesh.n 1 c x
    rw [alphaOf_turn, win_turn, alias_turn, selfNoise_turn s data rand (hf c), fluctuation_turn s hM hd hr (hf c) _ hxm,
      fluctuation_turn s hM hd hr (f := fun _ => 1) (fun _ => rfl) _ hxm, hph]

/-- Exchanges which leave the line of sight of a box as it is (or multipoles that do not depend on it). -/
def Keeps (s : Equiv.Perm (Fin 3)) (l : ℕ) : Prop := l = 0 ∨ s 2 = 2

theorem legAngle_keeps {s : Equiv.Perm (Fin 3)} {l : ℕ} (h : Keeps s l) (v : Fin 3 → ℝ) :
    legAngle l (turnVec s v) ![0, 0, 1] = legAngle l v ![0, 0, 1] := by
  rcases h with rfl | h
  · simp [legAngle]
  · have e : turnVec s ![0, 0, 1] = ![0, 0, 1] := by
      have h0 : s 0 ≠ 2 := fun hh => absurd (s.injective (hh.trans h.symm)) (by decide)
      have h1 : s 1 ≠ 2 := fun hh => absurd (s.injective (hh.trans h.symm)) (by decide)
      have key : ∀ a : Fin 3, a ≠ 2 → (![0, 0, 1] : Fin 3 → ℝ) a = 0 := by
        intro a ha
        fin_cases a
        · rfl
        · rfl
        · exact absurd rfl ha
      funext a
      unfold turnVec
      fin_cases a
      · exact key _ h0
      · exact key _ h1
      · show (![0, 0, 1] : Fin 3 → ℝ) (s 2) = _
        rw [h]
        rfl
    conv_lhs => rw [← e]
    exact legAngle_turn s l v _

/-- **C147 (box).** In a periodic box the monopoles are the same for all exchanges, and all multipoles for those which
leave the line of sight as it is. -/
theorem C147_box (s : Equiv.Perm (Fin 3)) (E : Two.Env) (hE : Special E) (hM : E.mesh.Valid) (hs : Keeps s E.ELL)
    (hk : ∀ a, (1 : ℝ) / 1000000000 ≤ 2 * Real.pi / E.mesh.L a)
    (hx : ∀ a, (1 : ℝ) / 1000000000 ≤ E.mesh.L a / E.mesh.n a) (pos : List (Fin 3 → ℝ)) (hp : Placed E pos)
    (norm : ℝ) :
    computePowspecBox (turnEnv s E) (pos.map (turnVec s)) norm = computePowspecBox E pos norm ∧
    computeCorrfuncBox (turnEnv s E) (pos.map (turnVec s)) norm = computeCorrfuncBox E pos norm := by
  have hkt : ∀ c, kvec (turnEnv s E).mesh (turnCell s c) = turnVec s (kvec E.mesh c) := kvec_turn s E.mesh
  have hrt : ∀ c, rvec (turnEnv s E).mesh (turnCell s c) = turnVec s (rvec E.mesh c) := rvec_turn s E.mesh
  have hF : ∀ c ∈ box E.mesh.n, fourier (turnEnv s E).mesh (fluctuations (turnEnv s E).sch (turnEnv s E).mesh
      (turnEnv s E).interlace (pos.map (turnVec s))) (gid (turnEnv s E).mesh.n (turnCell s c)) =
      fourier E.mesh (fluctuations E.sch E.mesh E.interlace pos) (gid E.mesh.n c) :=
    fun c hc => fluctuations_turn s hM hp hc
  have hl : (turnEnv s E).ELL = E.ELL := rfl
  constructor
  · refine rows_eq (n := E.numBins) (output_length _ _ _) (output_length _ _ _) ?_
    intro i hi
    obtain ⟨⟨r, h, h1, h2⟩, -⟩ := C126_box E hE (fun a => (hM a).1) hk hx pos norm i hi
    obtain ⟨⟨r', h', h1', h2'⟩, -⟩ := C126_box (turnEnv s E) (special_turn hE) (fun a => (hM (s a)).1)
      (fun a => hk (s a)) (fun a => hx (s a)) (pos.map (turnVec s)) norm i hi
    obtain ⟨⟨q, g, b1, b2, b3, -⟩, -⟩ := C107_box E (fun a => (hM a).1) pos norm i hi
    obtain ⟨⟨q', g', b1', b2', b3', -⟩, -⟩ := C107_box (turnEnv s E) (fun a => (hM (s a)).1) (pos.map (turnVec s))
      norm i hi
    rw [h, Option.some_inj] at g
    rw [h', Option.some_inj] at g'
    subst g; subst g'
    have hmem : ∀ c ∈ modesIn E i, c ∈ box E.mesh.n := fun c hc => (Finset.mem_filter.1 hc).1
    refine ⟨r', r, h', h, b1'.trans b1.symm, ?_, ?_, Prod.ext ?_ ?_⟩
    · rw [b3, b3']
      refine meanLen_turn s (fun f => modesIn_turn s E i f) (fun f => modesIn_turn s E i f) ?_ _
      intro c _
      rw [hkt, mag_turn]
    · rw [b2, b2']
      exact card_filter_turn s fun f => modesIn_turn s E i f
    · rw [h1, h1', hl]
      refine congrArg (fun z : ℂ => (norm : ℂ) * ((2 * E.ELL + 1) * z)) ?_
      refine meanOver_turn s (fun f => modesIn_turn s E i f) (fun f => modesIn_turn s E i f) ?_
      intro c hc
      unfold power
      rw [win_turn, hF c (hmem c hc), hkt, legAngle_keeps hs]
    · rw [h2, h2', hl]
      refine congrArg (fun z : ℂ => (norm : ℂ) * ((2 * E.ELL + 1) * z)) ?_
      refine meanOver_turn s (fun f => modesIn_turn s E i f) (fun f => modesIn_turn s E i f) ?_
      intro c hc
      rw [win_turn, alias_turn, hkt, legAngle_keeps hs, List.length_map]
  · refine rows_eq (n := E.numBins) (output_length _ _ _) (output_length _ _ _) ?_
    intro i hi
    obtain ⟨-, r, h, h1⟩ := C126_box E hE (fun a => (hM a).1) hk hx pos norm i hi
    obtain ⟨-, r', h', h1'⟩ := C126_box (turnEnv s E) (special_turn hE) (fun a => (hM (s a)).1)
      (fun a => hk (s a)) (fun a => hx (s a)) (pos.map (turnVec s)) norm i hi
    obtain ⟨-, q, g, b1, b2, b3, -⟩ := C107_box E (fun a => (hM a).1) pos norm i hi
    obtain ⟨-, q', g', b1', b2', b3', -⟩ := C107_box (turnEnv s E) (fun a => (hM (s a)).1) (pos.map (turnVec s))
      norm i hi
    rw [h, Option.some_inj] at g
    rw [h', Option.some_inj] at g'
    subst g; subst g'
    refine ⟨r', r, h', h, b1'.trans b1.symm, ?_, ?_, ?_⟩
    · rw [b3, b3']
      refine meanLen_turn s (fun f => sepsIn_turn s E i f) (fun f => sepsIn_turn s E i f) ?_ _
      intro c _
      rw [hrt, mag_turn]
    · rw [b2, b2']
      exact card_filter_turn s fun f => sepsIn_turn s E i f
    · rw [h1, h1', hl]
      refine congrArg (fun z : ℂ => (norm : ℂ) * ((2 * E.ELL + 1) * z)) ?_
      refine meanOver_turn s (fun f => sepsIn_turn s E i f) (fun f => sepsIn_turn s E i f) ?_
      intro c _
      rw [hrt, legAngle_keeps hs]
      refine congrArg (fun z : ℂ => z * (legAngle E.ELL (rvec E.mesh c) ![0, 0, 1] : ℂ)) ?_
      unfold corr
      have hv : vol (turnEnv s E).mesh = vol E.mesh := vol_turn s E.mesh
      rw [hv, List.length_map]
      refine congrArg (fun z : ℂ => z / (vol E.mesh : ℂ)) ?_
      refine (sum_turn s E.mesh.n _).trans ?_
      apply Finset.sum_congr rfl
      intro x hxm
      have hph : phase3 (turnEnv s E).mesh.n 1 (turnCell s c) (turnCell s x) = phase3 E.mesh.n 1 c x :=
        phase3_turn s E.mesh.n 1 c x
      rw [hF x hxm, win_turn, alias_turn, hph]

theorem delta_turn (s : Equiv.Perm (Fin 3)) {E : Env3} (hM : E.mesh.Valid) {data rand : List Part}
    (hd : Placed E.toEnv (data.map Part.pos)) (hr : Placed E.toEnv (rand.map Part.pos)) {f f' : (Fin 3 → ℝ) → ℝ}
    (hf : ∀ v, f' (turnVec s v) = f v) {c : ℤ × ℤ × ℤ} (hc : c ∈ box E.mesh.n) :
    delta (turnEnv3 s E) (data.map (turnPart s)) (rand.map (turnPart s)) f' (turnCell s c) = delta E data rand f c := by
  unfold delta
  have h1 : fluctuation (turnEnv3 s E).toEnv f' (data.map (turnPart s)) (rand.map (turnPart s)) (alphaOf data rand)
      (turnCell s c) = fluctuation E.toEnv f data rand (alphaOf data rand) c :=
    fluctuation_turn s (E := E.toEnv) hM hd hr hf _ hc
  have h2 : windowFresh (turnEnv3 s E).mesh.n (turnCell s c).1 (turnCell s c).2.1 (turnCell s c).2.2
      (orderOf (turnEnv3 s E).sch) = windowFresh E.mesh.n c.1 c.2.1 c.2.2 (orderOf E.sch) :=
    windowFresh_turn s E.mesh.n c _
  rw [alphaOf_turn, h1, h2]

/-- The degrees of which one vanishes. -/
def OneVanishes (E : Env3) (l : ℕ) : Prop :=
  (E.ell1 = l ∧ E.ell2 = l ∧ E.ELL = 0) ∨ (E.ell1 = l ∧ E.ell2 = 0 ∧ E.ELL = l) ∨
    (E.ell1 = 0 ∧ E.ell2 = l ∧ E.ELL = l)

/-- **C147 (bispectrum).** Likewise for the raw bispectrum multipoles with a vanishing degree of a survey. -/
theorem C147_bispectrum (s : Equiv.Perm (Fin 3)) (E : Env3) (hE : Special3 E) (hM : GoodMesh E.mesh) {l : ℕ}
    (hl : OneVanishes E l) (data rand : List Part)
    (hd : Placed E.toEnv (data.map Part.pos)) (hr : Placed E.toEnv (rand.map Part.pos)) (ld : LosResolved s data)
    (lr : LosResolved s rand) (norm : ℝ) (rows rows' : List Row3) (h : computeBispec E data rand norm = .ok rows)
    (h' : computeBispec (turnEnv3 s E) (data.map (turnPart s)) (rand.map (turnPart s)) norm = .ok rows')
    (e : Entry) (he : e ∈ measWrites E.numBins E.form) (hB : Below E e.row e.col) :
    (rows'[e.pos.toNat]?).map Row3.raw = (rows[e.pos.toNat]?).map Row3.raw := by
  have hM' : GoodMesh (turnEnv3 s E).mesh := goodMesh_turn hM
  have hB' : Below (turnEnv3 s E) e.row e.col := fun a => hB (s a)
  have hkt : ∀ c, kvec (turnEnv3 s E).mesh (turnCell s c) = turnVec s (kvec E.mesh c) := kvec_turn s E.mesh
  have hf : ∀ c v, legAngle l (kvec (turnEnv3 s E).mesh (turnCell s c)) (turnVec s v) =
      legAngle l (kvec E.mesh c) v := by
    intro c v
    rw [hkt, legAngle_turn]
  have h0 : ∀ c ∈ box E.mesh.n, delta (turnEnv3 s E) (data.map (turnPart s)) (rand.map (turnPart s)) (fun _ => 1)
      (turnCell s c) = delta E data rand (fun _ => 1) c :=
    fun c hc => delta_turn s hM.valid hd hr (fun _ => rfl) hc
  rcases hl with ⟨h1, h2, h3⟩ | ⟨h1, h2, h3⟩ | ⟨h1, h2, h3⟩
  · rw [C140_isotropic E hE hM h1 h2 h3 data rand norm rows h e he hB,
      C140_isotropic (turnEnv3 s E) (special3_turn hE) hM' h1 h2 h3 _ _ norm rows' h' e he hB']
    refine congrArg (fun z : ℂ => some ((norm : ℂ) * ((2 * l + 1) * z))) ?_
    apply meanTriangles_turn
    intro a ha b hb c hc
    rw [h0 a ha, h0 b hb, h0 c hc, hkt, hkt, legAngle_turn]
  · rw [C140_first E hE hM h1 h2 h3 data rand (fun p hp => (ld p hp).1) (fun p hp => (lr p hp).1) norm rows h e he hB,
      C140_first (turnEnv3 s E) (special3_turn hE) hM' h1 h2 h3 _ _ (losResolved_turn ld) (losResolved_turn lr)
        norm rows' h' e he hB']
    refine congrArg (fun z : ℂ => some ((norm : ℂ) * ((2 * l + 1) * z))) ?_
    apply meanTriangles_turn
    intro a ha b hb c hc
    rw [h0 a ha, h0 b hb, delta_turn s hM.valid hd hr (hf a) hc]
  · rw [C140_second E hE hM h1 h2 h3 data rand (fun p hp => (ld p hp).1) (fun p hp => (lr p hp).1) norm rows h e he hB,
      C140_second (turnEnv3 s E) (special3_turn hE) hM' h1 h2 h3 _ _ (losResolved_turn ld) (losResolved_turn lr)
        norm rows' h' e he hB']
    refine congrArg (fun z : ℂ => some ((norm : ℂ) * ((2 * l + 1) * z))) ?_
    apply meanTriangles_turn
    intro a ha b hb c hc
    rw [h0 a ha, h0 b hb, delta_turn s hM.valid hd hr (hf b) hc]

/-! ### A case -/

/-- A quadrupole measurement with interlacing in a box of unequal sides. -/
noncomputable def exTurn : Env3 :=
  { exX 2 0 2 with mesh := ⟨![8, 4, 6], ![100, 50, 80]⟩, sch := .cic, interlace := true }

/-- A particle with an inclined line of sight. -/
def exTurnPart : Part := ⟨![10, 20, 30], ![3, 4, 12], 1, 2, 3⟩

/-- All hypotheses of C147 are met, by an exchange of all three axes, at an entry of a measurement which completes. -/
example : Special3 exTurn ∧ Special exTurn.toEnv ∧ GoodMesh exTurn.mesh ∧ OneVanishes exTurn 2 ∧
    (∀ a, (1 : ℝ) / 1000000000 ≤ exTurn.mesh.L a / exTurn.mesh.n a) ∧
    Placed exTurn.toEnv ([exTurnPart].map Part.pos) ∧
    LosResolved (finRotate 3) [exTurnPart] ∧ Below exTurn 0 0 ∧
    (⟨0, 0, 0⟩ : Entry) ∈ measWrites exTurn.numBins exTurn.form ∧
    (turnMesh (finRotate 3) exTurn.mesh).n = ![4, 6, 8] ∧ (turnPart (finRotate 3) exTurnPart).pos = ![20, 30, 10] ∧
    Keeps (Equiv.swap 0 1) exTurn.ELL ∧ ¬ Keeps (finRotate 3) exTurn.ELL ∧
    (∀ s data rand norm, ∃ rows, computeBispec (turnEnv3 s exTurn) data rand norm = .ok rows) := by
  have hpi := Real.pi_gt_three
  have hexact : Exact exTurn := ⟨rfl, rfl⟩
  obtain ⟨-, -, h3, h2⟩ := C146_special exTurn hexact
  refine ⟨h3, h2, ⟨?_, ?_, ?_⟩, Or.inr (Or.inl ⟨rfl, rfl, rfl⟩), ?_, ⟨?_, ?_⟩, ?_, ?_, ?_, ?_, ?_, Or.inr (by decide), ?_, ?_⟩
  · intro a
    fin_cases a <;> exact ⟨by simp [exTurn], by simp [exTurn]⟩
  · intro a
    fin_cases a <;> simp [exTurn] <;> decide
  · intro a
    fin_cases a <;> simp [exTurn] <;> linarith
  · intro a
    fin_cases a <;> simp [exTurn] <;> norm_num
  · intro x hx
    simp only [List.map_cons, List.map_nil, List.mem_singleton] at hx
    subst hx
    intro a
    fin_cases a <;> simp [exTurn, exTurnPart] <;> norm_num
  · intro _ x hx
    simp only [List.map_cons, List.map_nil, List.mem_singleton] at hx
    subst hx
    intro a
    unfold BadShift
    have hs : exTurn.sch ≠ .tsc := by simp [exTurn]
    rintro (h | h)
    · fin_cases a <;> simp [exTurn, exTurnPart] at h <;> norm_num at h
    · exact hs h.1
  · intro p hp
    simp only [List.mem_singleton] at hp
    subst hp
    constructor
    · right; right
      show (1 : ℝ) / 1000000000 ≤ Real.sqrt (3 * 3 + 4 * 4)
      rw [show (3 * 3 + 4 * 4 : ℝ) = 5 ^ 2 by norm_num, Real.sqrt_sq (by norm_num)]
      norm_num
    · right; right
      show (1 : ℝ) / 1000000000 ≤ Real.sqrt (4 * 4 + 12 * 12)
      refine le_trans ?_ (Real.sqrt_le_sqrt (show (5 : ℝ) ^ 2 ≤ 4 * 4 + 12 * 12 by norm_num))
      rw [Real.sqrt_sq (by norm_num)]
      norm_num
  · have key : ∀ a : Fin 3, (1 : ℝ) / 5 ≤ Real.pi * exTurn.mesh.n a / exTurn.mesh.L a := by
      intro a
      fin_cases a <;> simp [exTurn] <;> linarith
    intro a
    have := key a
    have hu : upperEdge exTurn 0 = 1 / 10 := rfl
    rw [hu]
    exact ⟨by linarith, by linarith, fun _ => by linarith⟩
  · show (⟨0, 0, 0⟩ : Entry) ∈ measWrites 2 .diag
    decide
  · funext a
    fin_cases a <;> rfl
  · funext a
    fin_cases a <;> rfl
  · rintro (h | h)
    · exact absurd h (show ¬ (2 = 0) by decide)
    · exact absurd h (by decide)
  · intro s data rand norm
    obtain ⟨rows, h, _⟩ := C37_measurement_defined_partial (turnEnv3 s exTurn) data rand norm (by
      by_contra hc
      exact (accepted_iff (turnEnv3 s exTurn) ⟨rfl, rfl⟩ (show 2 + 0 + 2 ≤ 30000 by decide)).1 (not_le.mp hc)
        ⟨show 2 ≤ 0 + 2 by decide, show 0 ≤ 2 + 2 by decide, show 2 ≤ 2 + 0 by decide, show Even (2 + 0 + 2) by decide⟩)
      (Or.inl (show Form.diag ≠ Form.full by decide))
    exact ⟨rows, h⟩

end Trv.Zeta

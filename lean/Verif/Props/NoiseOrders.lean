import Verif.Lemmas.NoiseOrders
import Verif.Props.BispecNoise
import Verif.Lemmas.PairWitness
/-
Property theorems on the sums over all orders (C110): shot noise of the three-point statistics, and
the bispectrum in a box.
-/
namespace Trv.Zeta
open Trv.Mesh Trv.Stats Trv.Win Trv.Two Trv.ThreePt Trv.Bis

/-! ### C110 -/

theorem w000_ne {E : Env3} (h : ¬ |E.w3j E.ell1 E.ell2 E.ELL 0 0 0| < epsCoupling) :
    E.w3j E.ell1 E.ell2 E.ELL 0 0 0 ≠ 0 := by
  intro hz
  apply h
  rw [hz, abs_zero]
  unfold epsCoupling
  norm_num

theorem box_ok {E : Env3} {pos : List (Fin 3 → ℝ)} {norm : ℝ} {rows : List Row3}
    (h : computeBispecBox E pos norm = .ok rows) : ¬ |E.w3j E.ell1 E.ell2 E.ELL 0 0 0| < epsCoupling := by
  intro hw
  unfold computeBispecBox at h
  rw [if_pos hw] at h
  cases h

/-- **C110 (survey).** Without interlacing, on meshes of even sides and for bins below the Nyquist
wavenumber, computing one of each two opposite triplets of orders is exact for the shot noise of the
bispectrum too: it is the sum over ALL orders.  It is real at even multipoles and imaginary at odd
ones, as the raw bispectrum is. -/
theorem C110_shotnoise (E : Env3) (hP : LegendreLike E.P) (hw : WignerLike E.w3j)
    (hM : GoodMesh E.mesh) (hi : E.interlace = false)
    (hgap : ∀ t : Triplet, t.Allowed E.ell1 E.ell2 E.ELL → |coupling3 E t| ≠ epsCoupling)
    (hv : ValidForm E.numBins E.form) (data rand : List Part) (norm : ℝ) (rows : List Row3)
    (h : computeBispec E data rand norm = .ok rows) (e : Entry)
    (he : e ∈ measWrites E.numBins E.form) (hr : BelowRounded E e.row) (hc : BelowRounded E e.col) :
    ∃ r, rows[e.pos.toNat]? = some r ∧
      r.shot = (norm : ℂ) * allOrders E (noisePart E (surveyNoise E data rand) e.row e.col) ∧
      (Even E.ELL → r.shot.im = 0) ∧ (Odd E.ELL → r.shot.re = 0) := by
  have hev := even_sum E hw (w000_ne (computeBispec_ok h).1)
  have key := C109_shotnoise E hM.valid hv data rand norm rows h e he
  rw [sum_orders E hw hev hgap _ (noisePart E (surveyNoise E data rand) e.row e.col)
    (fun t ha h0 => noiseAt_both E hP hM hi hev ha (survey_mirror E hM hi data rand t.M) h0 _ _ hr hc),
    Option.map_eq_some_iff] at key
  obtain ⟨r, hrow, hs⟩ := key
  refine ⟨r, hrow, hs, ?_⟩
  have hc := allOrders_conj E hw hev (noisePart E (surveyNoise E data rand) e.row e.col) ((-1) ^ E.ELL)
    (fun t ha h0 => noisePart_neg E hP hM hi hev ha (survey_mirror E hM hi data rand t.M) h0 _ _ hr hc)
  apply real_or_imag
  rw [hs, map_mul, Complex.conj_ofReal]
  conv_lhs => rw [hc]
  ring

/-- **C110 (box).** The raw bispectrum in a periodic box and its shot noise are sums over ALL pairs of
orders, real at even multipoles and imaginary at odd ones. -/
theorem C110_box (E : Env3) (hP : LegendreLike E.P) (hw : WignerLike E.w3j)
    (hM : GoodMesh E.mesh) (hi : E.interlace = false)
    (hgap : ∀ t : Triplet, t.Allowed E.ell1 E.ell2 E.ELL → |coupling3 E t| ≠ epsCoupling)
    (hv : ValidForm E.numBins E.form) (pos : List (Fin 3 → ℝ)) (norm : ℝ) (rows : List Row3)
    (h : computeBispecBox E pos norm = .ok rows) (e : Entry)
    (he : e ∈ measWrites E.numBins E.form) (hr : BelowRounded E e.row) (hc : BelowRounded E e.col) :
    ∃ r, rows[e.pos.toNat]? = some r ∧
      r.raw = (norm : ℂ) * planeOrders E (boxTriangles E pos e.row e.col) ∧
      r.shot = (norm : ℂ) * planeOrders E (noisePart E (boxNoise E pos) e.row e.col) ∧
      (Even E.ELL → r.raw.im = 0 ∧ r.shot.im = 0) ∧ (Odd E.ELL → r.raw.re = 0 ∧ r.shot.re = 0) := by
  have hev := even_sum E hw (w000_ne (box_ok h))
  have hB : Below E e.row e.col := by
    intro a
    refine ⟨by have := hr a; linarith, by have := hc a; linarith, fun hh => ?_⟩
    rw [hi] at hh
    cases hh
  have hm : ∀ t : Triplet, t.M = 0 → MirrorAt E.mesh.n (boxNoise E pos) t.M := by
    intro t ht
    rw [ht]
    exact box_mirror E hM hi pos
  obtain ⟨r, hrow, hraw, _⟩ := C101_box_triangles E hM.valid pos norm rows h e he
  have key := C109_shotnoise_box E hM.valid hv pos norm rows h e he
  rw [hrow, Option.map_some, Option.some_inj,
    sum_plane E hw hev hgap _ (noisePart E (boxNoise E pos) e.row e.col)
    (fun t ha h0 hz => noiseAt_both E hP hM hi hev ha (hm t hz) h0 _ _ hr hc)] at key
  have hraw' : r.raw = (norm : ℂ) * planeOrders E (boxTriangles E pos e.row e.col) := by
    rw [hraw]
    congr 1
    exact sum_plane E hw hev hgap (fun t => mirrored (fMirror E t) (boxTriangles E pos e.row e.col t)) _
      (fun t ha h0 hz => boxTriangles_both E hP hM hi hev pos t ha h0 hz _ _ hB)
  have c1 := planeOrders_conj E hw hev (boxTriangles E pos e.row e.col) ((-1) ^ E.ELL)
    (fun t ha h0 hz => by rw [← pow_ELL E hev]; exact boxTriangles_neg E hP hM hi pos t ha.1 ha.2.1 h0 hz _ _ hB)
  have c2 := planeOrders_conj E hw hev (noisePart E (boxNoise E pos) e.row e.col) ((-1) ^ E.ELL)
    (fun t ha h0 hz => noisePart_neg E hP hM hi hev ha (hm t hz) h0 _ _ hr hc)
  have r1 : (Even E.ELL → r.raw.im = 0) ∧ (Odd E.ELL → r.raw.re = 0) := by
    apply real_or_imag
    rw [hraw', map_mul, Complex.conj_ofReal]
    conv_lhs => rw [c1]
    ring
  have r2 : (Even E.ELL → r.shot.im = 0) ∧ (Odd E.ELL → r.shot.re = 0) := by
    apply real_or_imag
    rw [key, map_mul, Complex.conj_ofReal]
    conv_lhs => rw [c2]
    ring
  exact ⟨r, hrow, hraw', key, fun h => ⟨r1.1 h, r2.1 h⟩, fun h => ⟨r1.2 h, r2.2 h⟩⟩

/-- The shot noise of a three-point correlation function is real. -/
theorem self_real (E : Env3) {x : ℂ} (norm : ℝ) (k : ℕ) (c : Prop) [Decidable c]
    (h : x = 1 * (starRingEnd ℂ) x) : (if c then (-1) ^ k * ((norm : ℂ) * x) else 0).im = 0 := by
  split_ifs
  · have hx : x.im = 0 := by
      rw [one_mul] at h
      have := congrArg Complex.im h
      rw [Complex.conj_im] at this
      linarith
    have hs : ((-1 : ℂ) ^ k) = (((-1 : ℝ) ^ k : ℝ) : ℂ) := by push_cast; rfl
    rw [hs, Complex.im_ofReal_mul, Complex.im_ofReal_mul, hx, mul_zero, mul_zero]
  · simp

/-- **C110 (three-point correlation function).** Without interlacing and on meshes of even sides, the
shot noise of the three-point correlation function at equal bins is the sum over ALL orders of the
self-pair contribution (with the sign of C106), and it is real; for survey, box and window. -/
theorem C110_3pcf (E : Env3) (hP : LegendreLike E.P) (hw : WignerLike E.w3j)
    (hM : GoodMesh E.mesh) (hrs : Resolved E.mesh) (hi : E.interlace = false)
    (hgap : ∀ t : Triplet, t.Allowed E.ell1 E.ell2 E.ELL → |coupling3 E t| ≠ epsCoupling)
    (h000 : E.w3j E.ell1 E.ell2 E.ELL 0 0 0 ≠ 0)
    (hv : ValidForm E.numBins E.form) (data rand : List Part) (pos : List (Fin 3 → ℝ))
    (alpha norm : ℝ) (wa : Option (ℕ × ℕ)) (rows : List RowZ) (e : Entry)
    (he : e ∈ measWrites E.numBins E.form) :
    (compute3pcf E data rand norm = .ok rows → ∃ r, rows[e.pos.toNat]? = some r ∧ r.shot.im = 0 ∧
      r.shot = if e.row = e.col then (-1) ^ (E.ell1 + E.ell2) * ((norm : ℂ) *
        allOrders E (selfPart E (surveyNoise E data rand) e.row)) else 0) ∧
    (compute3pcfBox E pos norm = .ok rows → ∃ r, rows[e.pos.toNat]? = some r ∧ r.shot.im = 0 ∧
      r.shot = if e.row = e.col then (-1) ^ (E.ell1 + E.ell2) * ((norm : ℂ) *
        planeOrders E (selfPart E (boxNoise E pos) e.row)) else 0) ∧
    (compute3pcfWindow E rand alpha wa norm = .ok rows → ∃ r, rows[e.pos.toNat]? = some r ∧ r.shot.im = 0 ∧
      r.shot = if e.row = e.col then (-1) ^ (E.ell1 + E.ell2) * ((norm : ℂ) *
        allOrders E (selfPart E (windowNoise E rand alpha) e.row)) else 0) := by
  have hev := even_sum E hw h000
  have hn := fun a => (hM.valid a).1
  have hneg : ∀ (F : NoiseFields) (t : Triplet), MirrorAt E.mesh.n F t.M → t.m1 + t.m2 + t.M = 0 →
      selfPart E F e.row t.neg = 1 * (starRingEnd ℂ) (selfPart E F e.row t) := by
    intro F t hF h0
    rw [one_mul]
    exact selfPairs_neg E hn hM.even hi hF h0 e.row
  refine ⟨fun h => ?_, fun h => ?_, fun h => ?_⟩
  · have := measure_shot hP hM.valid hrs hv (triplets_allowed E) h he
    rw [Option.map_eq_some_iff] at this
    obtain ⟨r, hr, hs⟩ := this
    have e1 : selfSum E (triplets E) (surveyNoise E data rand).fLM (surveyNoise E data rand).q
        (surveyNoise E data rand).s e.row = allOrders E (selfPart E (surveyNoise E data rand) e.row) :=
      sum_orders E hw hev hgap _ _ fun t _ h0 => selfSum_both E hM hi (survey_mirror E hM hi data rand t.M) h0 _
    have hs' : r.shot = if e.row = e.col then (-1) ^ (E.ell1 + E.ell2) * ((norm : ℂ) *
        allOrders E (selfPart E (surveyNoise E data rand) e.row)) else 0 := by rw [← e1]; exact hs
    refine ⟨r, hr, ?_, hs'⟩
    rw [hs']
    exact self_real E norm _ _ (allOrders_conj E hw hev _ 1 fun t _ h0 =>
      hneg _ t (survey_mirror E hM hi data rand t.M) h0)
  · have := measure_shot hP hM.valid hrs hv (tripletsGpp_allowed E) h he
    rw [Option.map_eq_some_iff] at this
    obtain ⟨r, hr, hs⟩ := this
    have hm : ∀ t : Triplet, t.M = 0 → MirrorAt E.mesh.n (boxNoise E pos) t.M := by
      intro t ht
      rw [ht]
      exact box_mirror E hM hi pos
    have e1 : selfSum E (tripletsGpp E) (boxNoise E pos).fLM (boxNoise E pos).q
        (boxNoise E pos).s e.row = planeOrders E (selfPart E (boxNoise E pos) e.row) :=
      sum_plane E hw hev hgap _ _ fun t _ h0 hz => selfSum_both E hM hi (hm t hz) h0 _
    have hs' : r.shot = if e.row = e.col then (-1) ^ (E.ell1 + E.ell2) * ((norm : ℂ) *
        planeOrders E (selfPart E (boxNoise E pos) e.row)) else 0 := by rw [← e1]; exact hs
    refine ⟨r, hr, ?_, hs'⟩
    rw [hs']
    exact self_real E norm _ _ (planeOrders_conj E hw hev _ 1 fun t _ h0 hz => hneg _ t (hm t hz) h0)
  · have := measure_shot hP hM.valid hrs hv (triplets_allowed E) h he
    rw [Option.map_eq_some_iff] at this
    obtain ⟨r, hr, hs⟩ := this
    have e1 : selfSum E (triplets E) (windowNoise E rand alpha).fLM (windowNoise E rand alpha).q
        (windowNoise E rand alpha).s e.row = allOrders E (selfPart E (windowNoise E rand alpha) e.row) :=
      sum_orders E hw hev hgap _ _ fun t _ h0 => selfSum_both E hM hi (window_mirror_at E hM hi rand alpha t.M) h0 _
    have hs' : r.shot = if e.row = e.col then (-1) ^ (E.ell1 + E.ell2) * ((norm : ℂ) *
        allOrders E (selfPart E (windowNoise E rand alpha) e.row)) else 0 := by rw [← e1]; exact hs
    refine ⟨r, hr, ?_, hs'⟩
    rw [hs']
    exact self_real E norm _ _ (allOrders_conj E hw hev _ 1 fun t _ h0 =>
      hneg _ t (window_mirror_at E hM hi rand alpha t.M) h0)

/-! ### Exchange of the degrees -/

theorem sepNoise_swap (E : Env3) (f : Form) (fa fb : ℤ → ℂ) (amp : ℂ) (m1 m2 M : ℤ) (ka kb : ℝ) :
    sepNoise (swapped E f) fa fb amp ⟨m2, m1, M⟩ kb ka = sepNoise E fa fb amp ⟨m1, m2, M⟩ ka kb := by
  unfold sepNoise
  congr 1
  apply Finset.sum_congr rfl
  intro c _
  show corr E.toEnv fa fb amp c *
    ((E.sj E.ell2 (kb * mag (rvec E.mesh c)) * E.sj E.ell1 (ka * mag (rvec E.mesh c)) : ℝ) : ℂ) *
    (E.ylm E.ell2 m2 (rvec E.mesh c) * E.ylm E.ell1 m1 (rvec E.mesh c)) = _
  push_cast
  ring

theorem noisePart_swap (E : Env3) (f : Form) (data rand : List Part) (m1 m2 M row col : ℤ) :
    noisePart (swapped E f) (surveyNoise (swapped E f) data rand) col row ⟨m2, m1, M⟩ =
      noisePart E (surveyNoise E data rand) row col ⟨m1, m2, M⟩ := by
  unfold noisePart
  rw [sepNoise_swap]
  have a : (swapped E f).ell1 = E.ell2 := rfl
  have b : (swapped E f).ell2 = E.ell1 := rfl
  have hs : surveyNoise (swapped E f) data rand = surveyNoise E data rand := rfl
  have hp : ∀ l m b, pairNoise (swapped E f) (surveyNoise E data rand).f ((surveyNoise E data rand).qLM M)
      ((surveyNoise E data rand).s M) l m b = pairNoise E (surveyNoise E data rand).f
        ((surveyNoise E data rand).qLM M) ((surveyNoise E data rand).s M) l m b := fun _ _ _ => rfl
  have hk : ∀ b, meanWavenumber (swapped E f) b = meanWavenumber E b := fun _ => rfl
  rw [hs]
  simp only [a, b, hp, hk]
  rw [add_comm E.ell2 E.ell1]
  have : (E.ell2 = 0 ∧ E.ell1 = 0) ↔ (E.ell1 = 0 ∧ E.ell2 = 0) := and_comm
  simp only [this]
  ring

/-- **C110 (exchange).** Exchanging the degrees and the bins leaves the shot noise of the bispectrum
unchanged, entry by entry, whatever the forms of the two data vectors. -/
theorem C110_exchange (E : Env3) (f : Form) (hP : LegendreLike E.P) (hw : WignerLike E.w3j)
    (hM : GoodMesh E.mesh) (hi : E.interlace = false)
    (hgap : ∀ t : Triplet, t.Allowed E.ell1 E.ell2 E.ELL → |coupling3 E t| ≠ epsCoupling)
    (hv : ValidForm E.numBins E.form) (hv' : ValidForm E.numBins f)
    (data rand : List Part) (norm : ℝ) (rows rows' : List Row3)
    (h : computeBispec E data rand norm = .ok rows)
    (h' : computeBispec (swapped E f) data rand norm = .ok rows') (e e' : Entry)
    (he : e ∈ measWrites E.numBins E.form) (he' : e' ∈ measWrites E.numBins f)
    (hr : e'.row = e.col) (hc : e'.col = e.row) (br : BelowRounded E e.row) (bc : BelowRounded E e.col) :
    (rows[e.pos.toNat]?).map Row3.shot = (rows'[e'.pos.toNat]?).map Row3.shot := by
  obtain ⟨r, h1, h2, _⟩ := C110_shotnoise E hP hw hM hi hgap hv data rand norm rows h e he br bc
  obtain ⟨r', h1', h2', _⟩ := C110_shotnoise (swapped E f) hP hw hM hi (by
    rintro ⟨m2, m1, M⟩ ht
    rw [coupling_swap E f hw]
    exact hgap ⟨m1, m2, M⟩ ⟨ht.2.1, ht.1, ht.2.2⟩) hv' data rand norm rows' h' e' he'
    (by rw [hr]; exact bc) (by rw [hc]; exact br)
  rw [h1, h1', Option.map_some, Option.map_some, h2, h2', hr, hc]
  congr 2
  rw [allOrders_eq, allOrders_eq]
  show _ = ∑ m1 ∈ Finset.Icc (-(E.ell2 : ℤ)) E.ell2, ∑ m2 ∈ Finset.Icc (-(E.ell1 : ℤ)) E.ell1,
    ∑ M ∈ Finset.Icc (-(E.ELL : ℤ)) E.ELL, _
  rw [Finset.sum_comm]
  apply Finset.sum_congr rfl
  intro m2 _
  apply Finset.sum_congr rfl
  intro m1 _
  apply Finset.sum_congr rfl
  intro M _
  rw [coupling_swap E f hw, noisePart_swap]

/-- The dipole measurement without interlacing. -/
noncomputable def exN : Env3 := { Bis.exE with interlace := false }

/-- The hypotheses of C110 are met, by measurements that complete. -/
example (data rand : List Part) (pos : List (Fin 3 → ℝ)) (alpha norm : ℝ) :
    LegendreLike exN.P ∧ WignerLike exN.w3j ∧ GoodMesh exN.mesh ∧ Resolved exN.mesh ∧
    (∀ t : Triplet, t.Allowed exN.ell1 exN.ell2 exN.ELL → |coupling3 exN t| ≠ epsCoupling) ∧
    exN.w3j exN.ell1 exN.ell2 exN.ELL 0 0 0 ≠ 0 ∧ ValidForm exN.numBins exN.form ∧
    (∃ rows, computeBispec exN data rand norm = .ok rows) ∧
    (∃ rows, computeBispecBox exN pos norm = .ok rows) ∧
    (∃ rows, compute3pcf exN data rand norm = .ok rows) ∧
    (∃ rows, compute3pcfBox exN pos norm = .ok rows) ∧
    (∃ rows, compute3pcfWindow exN rand alpha none norm = .ok rows) ∧
    (⟨1, 1, 1⟩ : Entry) ∈ measWrites exN.numBins exN.form ∧ BelowRounded exN 1 := by
  have hpi := Real.pi_gt_three
  have hw : epsCoupling ≤ |exN.w3j exN.ell1 exN.ell2 exN.ELL 0 0 0| := by
    show epsCoupling ≤ |exW 1 1 2 0 0 0|
    unfold exW epsCoupling
    norm_num
  have hf : exN.form ≠ .full ∨ exN.ell1 ≠ 0 := Or.inl (by decide)
  obtain ⟨r, h, _⟩ := C37_measurement_defined_partial exN data rand norm hw hf
  obtain ⟨r', h', _⟩ := C37_box_defined_partial exN pos norm hw hf
  obtain ⟨⟨r1, h1, _⟩, ⟨r2, h2, _⟩, r3, h3, _⟩ := C37_3pcf_defined exN hw trivial data rand pos alpha norm none
  refine ⟨exP_like, exW_like, ⟨?_, ?_, ?_⟩, ?_, ?_, ?_, trivial, ⟨r, h⟩, ⟨r', h'⟩, ⟨r1, h1⟩, ⟨r2, h2⟩,
    ⟨r3, h3⟩, ?_, ?_⟩
  · intro a; exact ⟨show (0 : ℤ) < 8 by norm_num, show (0 : ℝ) < 100 by norm_num⟩
  · intro a; exact show (2 : ℤ) ∣ 8 by norm_num
  · intro a
    show (1 : ℝ) / 1000000000 ≤ 2 * Real.pi / 100
    linarith
  · intro a
    show (1 : ℝ) / 1000000000 ≤ 100 / ((8 : ℤ) : ℝ)
    norm_num
  · intro t _
    rw [show coupling3 exN t = _ from exE_coupling t]
    unfold epsCoupling
    split_ifs <;> norm_num
  · show exW 1 1 2 0 0 0 ≠ 0
    unfold exW
    norm_num
  · show (⟨1, 1, 1⟩ : Entry) ∈ measWrites 2 .diag
    decide
  · intro a
    show (1 : ℝ) / 5 + 1 / 100000 ≤ Real.pi * ((8 : ℤ) : ℝ) / 100
    push_cast
    linarith

end Trv.Zeta

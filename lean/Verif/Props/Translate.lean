import Verif.Lemmas.Translate
import Verif.Model.TwoPtWindow
import Verif.Props.BispecNoise
/-
Property theorems on displacements of the catalogues in the box (C111).
-/
namespace Trv.Zeta
open Trv.Mesh Trv.Stats Trv.Win Trv.Two Trv.ThreePt Trv.Bis

/-! ### C111 -/

theorem shotAmp2_moved {E : Two.Env} {d : Fin 3 → ℤ} {data data' rand rand' : List Part}
    (hd : Displaced E d data data') (hr : Displaced E d rand rand') (alpha : ℝ) (l : ℕ) (m : ℤ) :
    shotAmp2 E data' rand' alpha l m = shotAmp2 E data rand alpha l m := by
  unfold shotAmp2
  rw [ylmSum_moved hd, ylmSum_moved hr]

/-- **C111 (two-point).** Displacing both catalogues by the same whole number of cells on each axis
in the box, with periodic wrapping and with unchanged lines of sight and weights, leaves the power
spectrum, the correlation function and the window function of a survey unchanged. -/
theorem C111_two_point (E : Two.Env) (hM : E.mesh.Valid) (d : Fin 3 → ℤ)
    (data data' rand rand' : List Part) (hd : Displaced E d data data') (hr : Displaced E d rand rand')
    (alpha norm : ℝ) :
    computePowspec E data' rand' norm = computePowspec E data rand norm ∧
    computeCorrfunc E data' rand' norm = computeCorrfunc E data rand norm ∧
    computeCorrfuncWindow E rand' alpha norm = computeCorrfuncWindow E rand alpha norm := by
  have hn := fun a => (hM a).1
  have hp : ∀ a l m, Phased E.mesh.n d (fourier E.mesh (dnField E data rand a l m))
      (fourier E.mesh (dnField E data' rand' a l m)) :=
    fun a l m g => fourier_movedField E.mesh hn d (dnField_moved hM hd hr a l m) g
  have hp1 : ∀ a l m, Phased E.mesh.n d (fourier E.mesh (nField E rand a l m))
      (fourier E.mesh (nField E rand' a l m)) :=
    fun a l m g => fourier_movedField E.mesh hn d (nField_moved hM hr a l m) g
  refine ⟨?_, ?_, ?_⟩
  · unfold computePowspec
    simp only [alpha_moved hd hr, shotAmp2_moved hd hr, statsFourier_phased E (hp _ _ _) (hp _ _ _)]
  · unfold computeCorrfunc
    simp only [alpha_moved hd hr, shotAmp2_moved hd hr, statsConfig_phased E (hp _ _ _) (hp _ _ _)]
  · unfold computeCorrfuncWindow shotAmp2One
    simp only [ylmSum_moved hr, statsConfig_phased E (hp1 _ _ _) (hp1 _ _ _)]

theorem zetaSum_phased (E : Env3) (hn : ∀ a, 0 < E.mesh.n a) {d : Fin 3 → ℤ} {f f' : ℤ → ℂ}
    {h h' : ℤ → ℤ → ℂ} (hf : Phased E.mesh.n d f f') (hh : ∀ M, Phased E.mesh.n d (h M) (h' M))
    (ts : List Triplet) (row col : ℤ) :
    zetaSum E ts (comp E f') (fun M => comp E (h' M)) row col =
      zetaSum E ts (comp E f) (fun M => comp E (h M)) row col := by
  unfold zetaSum
  simp only [besselTriangles_phased E hn hf (hh _)]

theorem selfSum_phased (E : Env3) {d : Fin 3 → ℤ} {F F' : NoiseFields} (h : PhasedNoise E.mesh.n d F F')
    (ts : List Triplet) (b : ℤ) : selfSum E ts F'.fLM F'.q F'.s b = selfSum E ts F.fLM F.q F.s b := by
  unfold selfSum
  simp only [selfPairs_phased E h]

/-- **C111 (bispectrum).** The same for the bispectrum of a survey and its shot noise. -/
theorem C111_bispec (E : Env3) (hM : E.mesh.Valid) (hv : ValidForm E.numBins E.form) (d : Fin 3 → ℤ)
    (data data' rand rand' : List Part) (hd : Displaced E.toEnv d data data')
    (hr : Displaced E.toEnv d rand rand') (norm : ℝ) (rows rows' : List Row3)
    (h : computeBispec E data rand norm = .ok rows) (h' : computeBispec E data' rand' norm = .ok rows')
    (e : Entry) (he : e ∈ measWrites E.numBins E.form) :
    (rows'[e.pos.toNat]?).map Row3.raw = (rows[e.pos.toNat]?).map Row3.raw ∧
    (rows'[e.pos.toNat]?).map Row3.shot = (rows[e.pos.toNat]?).map Row3.shot := by
  have hn := fun a => (hM a).1
  have hp := survey_phased E hM hd hr
  constructor
  · obtain ⟨r, e1, e2, _⟩ := C101_triangles E hM data rand norm rows h e he
    obtain ⟨r', e1', e2', _⟩ := C101_triangles E hM data' rand' norm rows' h' e he
    rw [e1, e1', Option.map_some, Option.map_some, e2, e2']
    have k : ∀ t, triangles E data' rand' t e.row e.col = triangles E data rand t e.row e.col :=
      fun t => triangleMean_phased E hn hp.f (hp.fLM t.M) t e.row e.col
    simp only [k]
  · rw [C109_shotnoise E hM hv data rand norm rows h e he,
      C109_shotnoise E hM hv data' rand' norm rows' h' e he]
    simp only [noiseAt_phased E hp]

/-- **C111 (bispectrum in a box).** The same in a periodic box. -/
theorem C111_bispec_box (E : Env3) (hM : E.mesh.Valid) (hv : ValidForm E.numBins E.form) (d : Fin 3 → ℤ)
    (pos pos' : List (Fin 3 → ℝ)) (hd : DisplacedBox E.toEnv d pos pos')
    (norm : ℝ) (rows rows' : List Row3)
    (h : computeBispecBox E pos norm = .ok rows) (h' : computeBispecBox E pos' norm = .ok rows')
    (e : Entry) (he : e ∈ measWrites E.numBins E.form) :
    (rows'[e.pos.toNat]?).map Row3.raw = (rows[e.pos.toNat]?).map Row3.raw ∧
    (rows'[e.pos.toNat]?).map Row3.shot = (rows[e.pos.toNat]?).map Row3.shot := by
  have hn := fun a => (hM a).1
  have hp := box_phased E hM hd
  constructor
  · obtain ⟨r, e1, e2, _⟩ := C101_box_triangles E hM pos norm rows h e he
    obtain ⟨r', e1', e2', _⟩ := C101_box_triangles E hM pos' norm rows' h' e he
    rw [e1, e1', Option.map_some, Option.map_some, e2, e2']
    have k := fun t => triangleMean_phased E hn
      (show Phased E.mesh.n d (fourier E.mesh (fluctuations E.sch E.mesh E.interlace pos))
        (fourier E.mesh (fluctuations E.sch E.mesh E.interlace pos')) from hp.f)
      (show Phased E.mesh.n d (fourier E.mesh (fluctuations E.sch E.mesh E.interlace pos))
        (fourier E.mesh (fluctuations E.sch E.mesh E.interlace pos')) from hp.f) t e.row e.col
    simp only [k]
  · rw [C109_shotnoise_box E hM hv pos norm rows h e he,
      C109_shotnoise_box E hM hv pos' norm rows' h' e he]
    simp only [noiseAt_phased E hp]

/-- **C111 (three-point correlation function).** The same for the three-point correlation function
of a survey and its shot noise. -/
theorem C111_3pcf (E : Env3) (hP : LegendreLike E.P) (hM : E.mesh.Valid) (hres : Resolved E.mesh)
    (hv : ValidForm E.numBins E.form) (d : Fin 3 → ℤ)
    (data data' rand rand' : List Part) (hd : Displaced E.toEnv d data data')
    (hr : Displaced E.toEnv d rand rand') (norm : ℝ) (rows rows' : List RowZ)
    (h : compute3pcf E data rand norm = .ok rows) (h' : compute3pcf E data' rand' norm = .ok rows')
    (e : Entry) (he : e ∈ measWrites E.numBins E.form) :
    (rows'[e.pos.toNat]?).map RowZ.raw = (rows[e.pos.toNat]?).map RowZ.raw ∧
    (rows'[e.pos.toNat]?).map RowZ.shot = (rows[e.pos.toNat]?).map RowZ.shot := by
  have hn := fun a => (hM a).1
  have hp := survey_phased E hM hd hr
  constructor
  · obtain ⟨r, e1, e2, _⟩ := C105_survey E hM data rand norm rows h e he
    obtain ⟨r', e1', e2', _⟩ := C105_survey E hM data' rand' norm rows' h' e he
    rw [e1, e1', Option.map_some, Option.map_some, e2, e2']
    have := zetaSum_phased E hn hp.f hp.fLM (triplets E) e.row e.col
    exact congrArg (fun z => some ((norm : ℂ) * z)) this
  · have a := measure_shot hP hM hres hv (triplets_allowed E) h he
    have b := measure_shot hP hM hres hv (triplets_allowed E) h' he
    have c := selfSum_phased E hp (triplets E) e.row
    rw [a, b]
    exact congrArg (fun z => some (if e.row = e.col then (-1) ^ (E.ell1 + E.ell2) * ((norm : ℂ) * z) else 0)) c

/-- **C111 (three-point correlation function in a box).** The same in a periodic box. -/
theorem C111_3pcf_box (E : Env3) (hP : LegendreLike E.P) (hM : E.mesh.Valid) (hres : Resolved E.mesh)
    (hv : ValidForm E.numBins E.form) (d : Fin 3 → ℤ)
    (pos pos' : List (Fin 3 → ℝ)) (hd : DisplacedBox E.toEnv d pos pos')
    (norm : ℝ) (rows rows' : List RowZ)
    (h : compute3pcfBox E pos norm = .ok rows) (h' : compute3pcfBox E pos' norm = .ok rows')
    (e : Entry) (he : e ∈ measWrites E.numBins E.form) :
    (rows'[e.pos.toNat]?).map RowZ.raw = (rows[e.pos.toNat]?).map RowZ.raw ∧
    (rows'[e.pos.toNat]?).map RowZ.shot = (rows[e.pos.toNat]?).map RowZ.shot := by
  have hn := fun a => (hM a).1
  have hp := box_phased E hM hd
  constructor
  · obtain ⟨r, e1, e2, _⟩ := C105_box E hM pos norm rows h e he
    obtain ⟨r', e1', e2', _⟩ := C105_box E hM pos' norm rows' h' e he
    rw [e1, e1', Option.map_some, Option.map_some, e2, e2']
    have := zetaSum_phased E hn hp.f hp.fLM (tripletsGpp E) e.row e.col
    exact congrArg (fun z => some ((norm : ℂ) * z)) this
  · have a := measure_shot hP hM hres hv (tripletsGpp_allowed E) h he
    have b := measure_shot hP hM hres hv (tripletsGpp_allowed E) h' he
    have c := selfSum_phased E hp (tripletsGpp E) e.row
    rw [a, b]
    exact congrArg (fun z => some (if e.row = e.col then (-1) ^ (E.ell1 + E.ell2) * ((norm : ℂ) * z) else 0)) c

/-- **C111 (window).** The same for the three-point window function without wide-angle corrections;
its shot noise is unchanged with them too. -/
theorem C111_window (E : Env3) (hP : LegendreLike E.P) (hM : E.mesh.Valid) (hres : Resolved E.mesh)
    (hv : ValidForm E.numBins E.form) (d : Fin 3 → ℤ)
    (rand rand' : List Part) (hr : Displaced E.toEnv d rand rand') (alpha norm : ℝ)
    (wa : Option (ℕ × ℕ)) (rows rows' : List RowZ)
    (h : compute3pcfWindow E rand alpha wa norm = .ok rows)
    (h' : compute3pcfWindow E rand' alpha wa norm = .ok rows')
    (e : Entry) (he : e ∈ measWrites E.numBins E.form) :
    (wa = none → (rows'[e.pos.toNat]?).map RowZ.raw = (rows[e.pos.toNat]?).map RowZ.raw) ∧
    (rows'[e.pos.toNat]?).map RowZ.shot = (rows[e.pos.toNat]?).map RowZ.shot := by
  have hn := fun a => (hM a).1
  have hp := window_phased E hM hr alpha
  constructor
  · rintro rfl
    obtain ⟨r, e1, e2, _⟩ := C105_window E hM rand alpha norm rows h e he
    obtain ⟨r', e1', e2', _⟩ := C105_window E hM rand' alpha norm rows' h' e he
    rw [e1, e1', Option.map_some, Option.map_some, e2, e2']
    have := zetaSum_phased E hn hp.f hp.fLM (triplets E) e.row e.col
    exact congrArg (fun z => some ((norm : ℂ) * z)) this
  · have a := measure_shot hP hM hres hv (triplets_allowed E) h he
    have b := measure_shot hP hM hres hv (triplets_allowed E) h' he
    have c := selfSum_phased E hp (triplets E) e.row
    rw [a, b]
    exact congrArg (fun z => some (if e.row = e.col then (-1) ^ (E.ell1 + E.ell2) * ((norm : ℂ) * z) else 0)) c

end Trv.Zeta

import Verif.Lemmas.Interlace
import Verif.Props.Translate
/-
Property theorems on interlacing and displacements by half a cell (C138).
-/
namespace Trv.Zeta
open Trv.Mesh Trv.Stats Trv.Win Trv.Two Trv.ThreePt Trv.Bis

/-! ### C138 -/

theorem shotAmp2_half {E : Two.Env} {d : Fin 3 → ℤ} {data data' rand rand' : List Part}
    (hd : HalfDisplaced E d data data') (hr : HalfDisplaced E d rand rand') (alpha : ℝ) (l : ℕ) (m : ℤ) :
    shotAmp2 E data' rand' alpha l m = shotAmp2 E data rand alpha l m := by
  unfold shotAmp2
  rw [ylmSum_half hd, ylmSum_half hr]

/-- **C138 (two-point).** With interlacing, displacing both catalogues by the same odd number of
half-cells on every axis (with periodic wrapping and with unchanged lines of sight and weights)
leaves the power spectrum and the correlation function of a survey unchanged: images of odd order
cancel exactly. -/
theorem C138_two_point (E : Two.Env) (hi : E.interlace = true) (hM : E.mesh.Valid) (d : Fin 3 → ℤ)
    (data data' rand rand' : List Part) (hd : HalfDisplaced E d data data') (hr : HalfDisplaced E d rand rand')
    (norm : ℝ) :
    computePowspec E data' rand' norm = computePowspec E data rand norm ∧
    computeCorrfunc E data' rand' norm = computeCorrfunc E data rand norm := by
  have hp : ∀ a l m, HPhased E.mesh.n d (fourier E.mesh (dnField E data rand a l m))
      (fourier E.mesh (dnField E data' rand' a l m)) :=
    fun a l m => (dnField_half hi hM hd hr a l m).phased hM
  refine ⟨?_, ?_⟩
  · unfold computePowspec
    simp only [alpha_half hd hr, shotAmp2_half hd hr, statsFourier_half E (hp _ _ _) (hp _ _ _)]
  · unfold computeCorrfunc
    simp only [alpha_half hd hr, shotAmp2_half hd hr, statsConfig_half E (hp _ _ _) (hp _ _ _)]

/-- **C138 (two-point in a box).** The same in a periodic box on a mesh of at least two cells per
axis, although the mean is subtracted from the field and not from its companion. -/
theorem C138_box (E : Two.Env) (hi : E.interlace = true) (hM : E.mesh.Valid) (hn : ∀ a, 2 ≤ E.mesh.n a)
    (d : Fin 3 → ℤ) (pos pos' : List (Fin 3 → ℝ)) (hd : HalfDisplacedBox E d pos pos') (norm : ℝ) :
    computePowspecBox E pos' norm = computePowspecBox E pos norm ∧
    computeCorrfuncBox E pos' norm = computeCorrfuncBox E pos norm := by
  have hp := fluctuations_half hi hM hn hd
  refine ⟨?_, ?_⟩
  · unfold computePowspecBox
    simp only [hd.moved.length_eq, statsFourier_half E hp hp]
  · unfold computeCorrfuncBox
    simp only [hd.moved.length_eq, statsConfig_half E hp hp]

/-- **C138 (two-point window, partial).** The same for the two-point window function with
`alpha = 1`, which is what the command-line program passes for a random catalogue.  Missing: other
values of `alpha`, by which the companion field is not multiplied (`C14`). -/
theorem C138_window_partial (E : Two.Env) (hi : E.interlace = true) (hM : E.mesh.Valid) (d : Fin 3 → ℤ)
    (rand rand' : List Part) (hr : HalfDisplaced E d rand rand') (norm : ℝ) :
    computeCorrfuncWindow E rand' 1 norm = computeCorrfuncWindow E rand 1 norm := by
  have hp : ∀ l m, HPhased E.mesh.n d (fourier E.mesh (nField E rand 1 l m))
      (fourier E.mesh (nField E rand' 1 l m)) :=
    fun l m => (nField_half hi hM hr l m).phased hM
  unfold computeCorrfuncWindow shotAmp2One
  simp only [ylmSum_half hr, statsConfig_half E (hp _ _) (hp _ _)]

/-- **C138 (bispectrum).** The same for the shot noise of the bispectrum of a survey, and for the
bispectrum itself in a pair of bins whose upper edges add up to at most the Nyquist wavenumber, so
that no triangle closes around the mesh. -/
theorem C138_bispec (E : Env3) (hi : E.interlace = true) (hM : E.mesh.Valid) (hv : ValidForm E.numBins E.form)
    (d : Fin 3 → ℤ) (data data' rand rand' : List Part) (hd : HalfDisplaced E.toEnv d data data')
    (hr : HalfDisplaced E.toEnv d rand rand') (norm : ℝ) (rows rows' : List Row3)
    (h : computeBispec E data rand norm = .ok rows) (h' : computeBispec E data' rand' norm = .ok rows')
    (e : Entry) (he : e ∈ measWrites E.numBins E.form) :
    (BelowNyquist E e.row e.col → (rows'[e.pos.toNat]?).map Row3.raw = (rows[e.pos.toNat]?).map Row3.raw) ∧
    (rows'[e.pos.toNat]?).map Row3.shot = (rows[e.pos.toNat]?).map Row3.shot := by
  have hp := survey_half E hi hM hd hr
  constructor
  · intro hb
    obtain ⟨r, e1, e2, _⟩ := C101_triangles E hM data rand norm rows h e he
    obtain ⟨r', e1', e2', _⟩ := C101_triangles E hM data' rand' norm rows' h' e he
    rw [e1, e1', Option.map_some, Option.map_some, e2, e2']
    have k : ∀ t, triangles E data' rand' t e.row e.col = triangles E data rand t e.row e.col :=
      fun t => triangleMean_half E hM hp.f (hp.fLM t.M) t e.row e.col hb
    simp only [k]
  · rw [C109_shotnoise E hM hv data rand norm rows h e he,
      C109_shotnoise E hM hv data' rand' norm rows' h' e he]
    simp only [noiseAt_half E hp]

/-- **C138 (bispectrum in a box).** The same in a periodic box. -/
theorem C138_bispec_box (E : Env3) (hi : E.interlace = true) (hM : E.mesh.Valid) (hn : ∀ a, 2 ≤ E.mesh.n a)
    (hv : ValidForm E.numBins E.form) (d : Fin 3 → ℤ)
    (pos pos' : List (Fin 3 → ℝ)) (hd : HalfDisplacedBox E.toEnv d pos pos')
    (norm : ℝ) (rows rows' : List Row3)
    (h : computeBispecBox E pos norm = .ok rows) (h' : computeBispecBox E pos' norm = .ok rows')
    (e : Entry) (he : e ∈ measWrites E.numBins E.form) :
    (BelowNyquist E e.row e.col → (rows'[e.pos.toNat]?).map Row3.raw = (rows[e.pos.toNat]?).map Row3.raw) ∧
    (rows'[e.pos.toNat]?).map Row3.shot = (rows[e.pos.toNat]?).map Row3.shot := by
  have hp := box_half E hi hM hn hd
  constructor
  · intro hb
    obtain ⟨r, e1, e2, _⟩ := C101_box_triangles E hM pos norm rows h e he
    obtain ⟨r', e1', e2', _⟩ := C101_box_triangles E hM pos' norm rows' h' e he
    rw [e1, e1', Option.map_some, Option.map_some, e2, e2']
    have k := fun t => triangleMean_half E hM
      (show HPhased E.mesh.n d (fourier E.mesh (fluctuations E.sch E.mesh E.interlace pos))
        (fourier E.mesh (fluctuations E.sch E.mesh E.interlace pos')) from hp.f)
      (show HPhased E.mesh.n d (fourier E.mesh (fluctuations E.sch E.mesh E.interlace pos))
        (fourier E.mesh (fluctuations E.sch E.mesh E.interlace pos')) from hp.f) t e.row e.col hb
    simp only [k]
  · rw [C109_shotnoise_box E hM hv pos norm rows h e he,
      C109_shotnoise_box E hM hv pos' norm rows' h' e he]
    simp only [noiseAt_half E hp]

/-- **C138 (three-point correlation function).** The same for the shot noise of the three-point
correlation function of a survey and of a periodic box. -/
theorem C138_3pcf_shotnoise (E : Env3) (hi : E.interlace = true) (hP : LegendreLike E.P) (hM : E.mesh.Valid)
    (hres : Resolved E.mesh) (hv : ValidForm E.numBins E.form) (d : Fin 3 → ℤ)
    (e : Entry) (he : e ∈ measWrites E.numBins E.form) (norm : ℝ) (rows rows' : List RowZ) :
    (∀ data data' rand rand' : List Part, HalfDisplaced E.toEnv d data data' → HalfDisplaced E.toEnv d rand rand' →
      compute3pcf E data rand norm = .ok rows → compute3pcf E data' rand' norm = .ok rows' →
      (rows'[e.pos.toNat]?).map RowZ.shot = (rows[e.pos.toNat]?).map RowZ.shot) ∧
    (∀ pos pos' : List (Fin 3 → ℝ), (∀ a, 2 ≤ E.mesh.n a) → HalfDisplacedBox E.toEnv d pos pos' →
      compute3pcfBox E pos norm = .ok rows → compute3pcfBox E pos' norm = .ok rows' →
      (rows'[e.pos.toNat]?).map RowZ.shot = (rows[e.pos.toNat]?).map RowZ.shot) := by
  constructor
  · intro data data' rand rand' hd hr h h'
    have a := measure_shot hP hM hres hv (triplets_allowed E) h he
    have b := measure_shot hP hM hres hv (triplets_allowed E) h' he
    have c := selfSum_half E (survey_half E hi hM hd hr) (triplets E) e.row
    rw [a, b]
    exact congrArg (fun z => some (if e.row = e.col then (-1) ^ (E.ell1 + E.ell2) * ((norm : ℂ) * z) else 0)) c
  · intro pos pos' hn hd h h'
    have a := measure_shot hP hM hres hv (tripletsGpp_allowed E) h he
    have b := measure_shot hP hM hres hv (tripletsGpp_allowed E) h' he
    have c := selfSum_half E (box_half E hi hM hn hd) (tripletsGpp E) e.row
    rw [a, b]
    exact congrArg (fun z => some (if e.row = e.col then (-1) ^ (E.ell1 + E.ell2) * ((norm : ℂ) * z) else 0)) c

/-- Two particles in a box of four cells per axis, displaced by half a cell, the second around the box. -/
example (E : Two.Env) (hm : E.mesh = ⟨fun _ => 4, fun _ => 8⟩) (hs : E.sch = .cic) :
    HalfDisplacedBox E 0 [fun _ => 1 / 2, fun _ => 15 / 2] [fun _ => 3 / 2, fun _ => 1 / 2] := by
  constructor
  · refine List.Forall₂.cons ?_ (List.Forall₂.cons ?_ List.Forall₂.nil)
    · intro ax
      exact ⟨0, by rw [hm]; norm_num⟩
    · intro ax
      exact ⟨-1, by rw [hm]; norm_num⟩
  all_goals
    intro x hx
    simp only [List.mem_cons, List.not_mem_nil, or_false] at hx
    rcases hx with rfl | rfl
    all_goals
      refine ⟨fun ax => by rw [hm]; norm_num, fun ax h => ?_⟩
      rw [hm, hs] at h
      rcases h with h | h
      · norm_num at h
      · exact absurd h.1 (by decide)

end Trv.Zeta

import Verif.Lemmas.ThreePcfProps
import Verif.Props.Bispec
/-
Property theorems on the measurements of the three-point correlation function and of the bispectrum
in a periodic box: C37 (whole measurements), C105, C106.
-/
namespace Trv.Zeta
open Trv.Mesh Trv.Stats Trv.Win Trv.Two Trv.ThreePt Trv.Bis

/-! ### C37 -/

theorem measure_defined (E : Env3) (hw : epsCoupling ≤ |E.w3j E.ell1 E.ell2 E.ELL 0 0 0|)
    (hf : ValidForm E.numBins E.form) (F : Fields) (ts : List Triplet) (norm : ℝ) :
    ∃ rows, measure E F ts norm = .ok rows ∧ rows.length = (dim E.numBins E.form).toNat := by
  unfold measure
  rw [if_neg (not_lt.2 hw), if_pos (access_ok E hf ts)]
  refine ⟨_, rfl, ?_⟩
  rw [List.length_map, length_upto, sub_zero]

/-- **C37 (three-point correlation function).** In every valid form, and for all catalogues, the
three measurements complete with one line of output for each entry and no access out of bounds. -/
theorem C37_3pcf_defined (E : Env3) (hw : epsCoupling ≤ |E.w3j E.ell1 E.ell2 E.ELL 0 0 0|)
    (hf : ValidForm E.numBins E.form) (data rand : List Part) (pos : List (Fin 3 → ℝ))
    (alpha norm : ℝ) (wa : Option (ℕ × ℕ)) :
    (∃ rows, compute3pcf E data rand norm = .ok rows ∧
      rows.length = (dim E.numBins E.form).toNat) ∧
    (∃ rows, compute3pcfBox E pos norm = .ok rows ∧
      rows.length = (dim E.numBins E.form).toNat) ∧
    ∃ rows, compute3pcfWindow E rand alpha wa norm = .ok rows ∧
      rows.length = (dim E.numBins E.form).toNat :=
  ⟨measure_defined E hw hf _ _ _, measure_defined E hw hf _ _ _, measure_defined E hw hf _ _ _⟩

theorem snAddsBox_idx (E : Env3) (pos : List (Fin 3 → ℝ)) (t : Triplet) :
    (snAddsBox E pos t).map Add.idx = noisePositions E.numBins E.ell1 E.ell2 E.form := by
  unfold snAddsBox noisePositions
  simp only [List.map_append]
  congr 1
  · congr 1
    · congr 1
      · by_cases h : E.ell1 = 0 ∧ E.ell2 = 0
        · rw [if_pos h, if_pos (by exact_mod_cast h)]
          simp [Function.comp_def]
        · rw [if_neg h, if_neg (by exact_mod_cast h)]; rfl
      · by_cases h : E.ell2 = 0
        · rw [if_pos h, if_pos (by exact_mod_cast h)]
          simp [Function.comp_def]
        · rw [if_neg h, if_neg (by exact_mod_cast h)]; rfl
    · by_cases h : E.ell1 = 0
      · rw [if_pos h, if_pos (by exact_mod_cast h)]
        simp [Function.comp_def]
      · rw [if_neg h, if_neg (by exact_mod_cast h)]; rfl
  · simp [Function.comp_def]

/-- **C37 (bispectrum in a box, part).** In every form but the full one with `ell1 = 0` the
measurement completes, with one line of output for each entry. -/
theorem C37_box_defined_partial (E : Env3) (pos : List (Fin 3 → ℝ)) (norm : ℝ)
    (hw : epsCoupling ≤ |E.w3j E.ell1 E.ell2 E.ELL 0 0 0|) (hf : E.form ≠ .full ∨ E.ell1 ≠ 0) :
    ∃ rows, computeBispecBox E pos norm = .ok rows ∧
      rows.length = (dim E.numBins E.form).toNat := by
  have hb : NoiseInBounds E.numBins E.ell1 E.ell2 E.form :=
    (C37_writes_in_bounds_partial E.numBins (by omega) E.ell1 E.ell2 E.form
      (by rcases hf with h | h
          · exact Or.inl h
          · exact Or.inr (by exact_mod_cast h))).1
  unfold computeBispecBox
  rw [if_neg (not_lt.2 hw)]
  simp only
  rw [if_pos]
  · refine ⟨_, rfl, ?_⟩
    rw [List.length_map, length_upto, sub_zero]
  · rw [List.all_eq_true]
    intro u hu
    rw [decide_eq_true_iff]
    rcases List.mem_append.1 hu with hu | hu
    · obtain ⟨t, _, hu⟩ := List.mem_flatMap.1 hu
      unfold bkAddsBox at hu
      obtain ⟨e, he, rfl⟩ := List.mem_map.1 hu
      exact entry_range E.numBins E.form he
    · obtain ⟨t, _, hu⟩ := List.mem_flatMap.1 hu
      have : u.idx ∈ noisePositions E.numBins E.ell1 E.ell2 E.form := by
        rw [← snAddsBox_idx E pos t]
        exact List.mem_map_of_mem hu
      exact hb _ this

/-- **C37 (bispectrum in a box, violated).** In the full form with `ell1 = 0` the measurement always
writes out of bounds. -/
theorem C37_box_violated (E : Env3) (pos : List (Fin 3 → ℝ)) (norm : ℝ)
    (hw : epsCoupling ≤ |E.w3j E.ell1 E.ell2 E.ELL 0 0 0|) (hf : E.form = .full) (h1 : E.ell1 = 0)
    (hn : 0 < E.numBins) (ht : tripletsGpp E ≠ []) :
    computeBispecBox E pos norm = .error .outOfBounds := by
  unfold computeBispecBox
  rw [if_neg (not_lt.2 hw)]
  simp only
  rw [if_neg]
  intro hall
  rw [List.all_eq_true] at hall
  apply (C37_full_form_out_of_bounds_violated E.numBins (by omega) E.ell2).1
  intro p hp
  obtain ⟨t, ht⟩ := List.exists_mem_of_ne_nil _ ht
  have hidx := snAddsBox_idx E pos t
  have h10 : ((E.ell1 : ℕ) : ℤ) = 0 := by exact_mod_cast h1
  rw [h10, hf] at hidx
  rw [← hidx] at hp
  obtain ⟨u, hu, rfl⟩ := List.mem_map.1 hp
  have := hall u (List.mem_append_right _ (List.mem_flatMap.2 ⟨t, ht, hu⟩))
  rw [decide_eq_true_iff, hf] at this
  exact this

/-! ### C105 -/

/-- **C105 (survey).** Each raw entry of the three-point correlation function is the normalisation
times the sum over the computed orders of couplings times (mirrored) sums over closed triangles of
modes of the compensated fields, two sides weighted by harmonics and by spherical Bessel functions at
the effective separations of the bins of the entry; the line records the two bins.  For all
catalogues, meshes, schemes, interlacing, degrees and forms. -/
theorem C105_survey (E : Env3) (hM : E.mesh.Valid) (data rand : List Part) (norm : ℝ)
    (rows : List RowZ) (h : compute3pcf E data rand norm = .ok rows) (e : Entry)
    (he : e ∈ measWrites E.numBins E.form) :
    ∃ r, rows[e.pos.toNat]? = some r ∧
      r.raw = (norm : ℂ) * zetaSum E (triplets E) (compensated E data rand 0 0)
        (fun M => compensated E data rand E.ELL M) e.row e.col ∧
      (triplets E ≠ [] → Describes E r e.row e.col) :=
  measure_row hM h (fun M => fourier E.mesh (dnField E.toEnv data rand (alphaOf data rand) E.ELL M))
    (fun _ _ => isG E (fun a => (hM a).1) _) he

/-- **C105 (box).** The same in a periodic box, for the fluctuations of the counts at all three
sides. -/
theorem C105_box (E : Env3) (hM : E.mesh.Valid) (pos : List (Fin 3 → ℝ)) (norm : ℝ)
    (rows : List RowZ) (h : compute3pcfBox E pos norm = .ok rows) (e : Entry)
    (he : e ∈ measWrites E.numBins E.form) :
    ∃ r, rows[e.pos.toNat]? = some r ∧
      r.raw = (norm : ℂ) * zetaSum E (tripletsGpp E)
        (comp E (fourier E.mesh (fluctuations E.sch E.mesh E.interlace pos)))
        (fun _ => comp E (fourier E.mesh (fluctuations E.sch E.mesh E.interlace pos))) e.row e.col ∧
      (tripletsGpp E ≠ [] → Describes E r e.row e.col) :=
  measure_row hM h (fun _ => boxDn E pos) (fun _ _ => isG E (fun a => (hM a).1) _) he

/-- **C105 (window).** The same for the window function without wide-angle corrections, for the
weighted random catalogue. -/
theorem C105_window (E : Env3) (hM : E.mesh.Valid) (rand : List Part) (alpha norm : ℝ)
    (rows : List RowZ) (h : compute3pcfWindow E rand alpha none norm = .ok rows) (e : Entry)
    (he : e ∈ measWrites E.numBins E.form) :
    ∃ r, rows[e.pos.toNat]? = some r ∧
      r.raw = (norm : ℂ) * zetaSum E (triplets E)
        (comp E (fourier E.mesh (nField E.toEnv rand alpha 0 0)))
        (fun M => comp E (fourier E.mesh (nField E.toEnv rand alpha E.ELL M))) e.row e.col ∧
      (triplets E ≠ [] → Describes E r e.row e.col) :=
  measure_row hM h (fun M => fourier E.mesh (nField E.toEnv rand alpha E.ELL M))
    (fun _ _ => isG E (fun a => (hM a).1) _) he

/-- **C101 (box).** Each raw entry of the bispectrum in a periodic box is the normalisation times the
sum over the computed orders of couplings times (mirrored) means over closed triangles of modes, two
of them in the bins of the entry, of the compensated fluctuations. -/
theorem C101_box_triangles (E : Env3) (hM : E.mesh.Valid) (pos : List (Fin 3 → ℝ)) (norm : ℝ)
    (rows : List Row3) (h : computeBispecBox E pos norm = .ok rows) (e : Entry)
    (he : e ∈ measWrites E.numBins E.form) :
    ∃ r, rows[e.pos.toNat]? = some r ∧
      r.raw = (norm : ℂ) * ((tripletsGpp E).map fun t => (coupling3 E t : ℂ) *
        mirrored (fMirror E t) (triangleMean E
          (comp E (fourier E.mesh (fluctuations E.sch E.mesh E.interlace pos)))
          (comp E (fourier E.mesh (fluctuations E.sch E.mesh E.interlace pos))) t e.row e.col)).sum ∧
      (tripletsGpp E ≠ [] → r.nmodes1 = (binModes E e.row).card ∧ r.nmodes2 = (binModes E e.col).card ∧
        r.k1eff = (∑ c ∈ binModes E e.row, mag (kvec E.mesh c)) / (binModes E e.row).card ∧
        r.k2eff = (∑ c ∈ binModes E e.col, mag (kvec E.mesh c)) / (binModes E e.col).card) := by
  unfold computeBispecBox at h
  by_cases h1 : |E.w3j E.ell1 E.ell2 E.ELL 0 0 0| < epsCoupling
  · rw [if_pos h1] at h; cases h
  rw [if_neg h1] at h
  simp only at h
  split_ifs at h
  injection h with h
  obtain ⟨h0, h1⟩ := entry_range E.numBins E.form he
  rw [← h, getElem_upto _ _ h0 h1]
  refine ⟨_, rfl, ?_, ?_⟩
  · simp only
    rw [runAdds_flatMap]
    congr 2
    apply List.map_congr_left
    intro t _
    unfold bkAddsBox
    rw [runAdds_entries E.numBins E.form _ he]
    exact bk_value_comp E hM _ (boxDn E pos) _ (isG E (fun a => (hM a).1) _) t e.row e.col
  · intro hne
    have hb : entryBox E e.pos = some e := by
      unfold entryBox
      have : (tripletsGpp E).isEmpty = false := by
        cases hh : tripletsGpp E with
        | nil => exact absurd hh hne
        | cons => rfl
      rw [this]
      simp only [Bool.false_eq_true, if_false]
      exact recorded_pos E he
    have hk : ∀ b, keffBand E (lowerEdge E b) (upperEdge E b) =
        (∑ c ∈ binModes E b, mag (kvec E.mesh c)) / (binModes E b).card := by
      intro b
      unfold keffBand
      rw [nmodesBand_eq, ← List.sum_toFinset _ ((cells_nodup _).filter _)]
      congr 1
      apply Finset.sum_congr _ fun _ _ => rfl
      ext c
      rw [List.mem_toFinset, List.mem_filter, binModes_eq, Finset.mem_filter, mem_cells, mem_box]
    unfold keffBox nmodesBox
    simp only [hb]
    exact ⟨nmodesBand_eq E _, nmodesBand_eq E _, hk _, hk _⟩

/-! ### C106 -/

/-- **C106 (part).** The shot noise of the three-point correlation function vanishes at entries of
two different bins; at equal bins, and if `ell1 + ell2` is even, it is the normalisation times the
sum over the computed orders of couplings times the self-pair contribution: the correlation of the
density (at the vertex) with the squared-weight density (at both other corners), less its own shot
noise, averaged over the shell of separations with the harmonics of the direction from the vertex.
For survey, box and window. -/
theorem C106_shotnoise_partial (E : Env3) (hP : LegendreLike E.P) (hM : E.mesh.Valid)
    (hr : Resolved E.mesh) (hf : ValidForm E.numBins E.form) (hev : Even (E.ell1 + E.ell2))
    (data rand : List Part) (pos : List (Fin 3 → ℝ)) (alpha norm : ℝ) (wa : Option (ℕ × ℕ))
    (rows : List RowZ) (e : Entry) (he : e ∈ measWrites E.numBins E.form) :
    (compute3pcf E data rand norm = .ok rows →
      (rows[e.pos.toNat]?).map RowZ.shot = some (if e.row = e.col then (norm : ℂ) *
        selfSum E (triplets E)
          (fun M => fourier E.mesh (dnField E.toEnv data rand (alphaOf data rand) E.ELL M))
          (fourier E.mesh (quadField E.toEnv data rand (alphaOf data rand) 0 0))
          (fun M => shotAmp3 E.toEnv data rand (alphaOf data rand) E.ELL M) e.row else 0)) ∧
    (compute3pcfBox E pos norm = .ok rows →
      (rows[e.pos.toNat]?).map RowZ.shot = some (if e.row = e.col then (norm : ℂ) *
        selfSum E (tripletsGpp E)
          (fun _ => fourier E.mesh (fluctuations E.sch E.mesh E.interlace pos))
          (fourier E.mesh (assignField E.sch E.mesh E.interlace (unweighted pos)))
          (fun _ => (pos.length : ℂ)) e.row else 0)) ∧
    (compute3pcfWindow E rand alpha wa norm = .ok rows →
      (rows[e.pos.toNat]?).map RowZ.shot = some (if e.row = e.col then (norm : ℂ) *
        selfSum E (triplets E) (fun M => fourier E.mesh (nField E.toEnv rand alpha E.ELL M))
          (fourier E.mesh (quadField1 E.toEnv rand alpha 0 0))
          (fun M => shotAmp3One E.toEnv rand alpha E.ELL M) e.row else 0)) := by
  refine ⟨fun h => ?_, fun h => ?_, fun h => ?_⟩
  · have := measure_shot hP hM hr hf (triplets_allowed E) h he
    rw [hev.neg_one_pow, one_mul] at this
    exact this
  · have := measure_shot hP hM hr hf (tripletsGpp_allowed E) h he
    rw [hev.neg_one_pow, one_mul] at this
    exact this
  · have := measure_shot hP hM hr hf (triplets_allowed E) h he
    rw [hev.neg_one_pow, one_mul] at this
    exact this

/-- **C106 (violated).** If `ell1 + ell2` is odd the shot noise has the opposite sign: the parity
factor is applied twice (`field.cpp:3180-3181` and `threept.cpp:1040, 1240`). -/
theorem C106_odd_sign_violated (E : Env3) (hP : LegendreLike E.P) (hM : E.mesh.Valid)
    (hr : Resolved E.mesh) (hf : ValidForm E.numBins E.form) (hodd : Odd (E.ell1 + E.ell2))
    (data rand : List Part) (alpha norm : ℝ) (wa : Option (ℕ × ℕ))
    (rows : List RowZ) (e : Entry) (he : e ∈ measWrites E.numBins E.form) (hd : e.row = e.col) :
    (compute3pcf E data rand norm = .ok rows →
      (rows[e.pos.toNat]?).map RowZ.shot = some (-((norm : ℂ) *
        selfSum E (triplets E)
          (fun M => fourier E.mesh (dnField E.toEnv data rand (alphaOf data rand) E.ELL M))
          (fourier E.mesh (quadField E.toEnv data rand (alphaOf data rand) 0 0))
          (fun M => shotAmp3 E.toEnv data rand (alphaOf data rand) E.ELL M) e.row))) ∧
    (compute3pcfWindow E rand alpha wa norm = .ok rows →
      (rows[e.pos.toNat]?).map RowZ.shot = some (-((norm : ℂ) *
        selfSum E (triplets E) (fun M => fourier E.mesh (nField E.toEnv rand alpha E.ELL M))
          (fourier E.mesh (quadField1 E.toEnv rand alpha 0 0))
          (fun M => shotAmp3One E.toEnv rand alpha E.ELL M) e.row))) := by
  refine ⟨fun h => ?_, fun h => ?_⟩
  · have := measure_shot hP hM hr hf (triplets_allowed E) h he
    rw [hodd.neg_one_pow, if_pos hd, neg_one_mul] at this
    exact this
  · have := measure_shot hP hM hr hf (triplets_allowed E) h he
    rw [hodd.neg_one_pow, if_pos hd, neg_one_mul] at this
    exact this

end Trv.Zeta

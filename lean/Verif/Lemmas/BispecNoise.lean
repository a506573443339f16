import Verif.Spec.BispecNoise
import Verif.Lemmas.TwoPtSums
import Verif.Lemmas.ThreePcfProps
/-
Lemmas on the shot noise of the bispectrum.
-/
namespace Trv.Zeta
open Trv.Mesh Trv.Stats Trv.Win Trv.Two Trv.ThreePt Trv.Bis

theorem runAdds_append (l l' : List Add) (i : ℤ) : runAdds (l ++ l') i = runAdds l i + runAdds l' i := by
  rw [runAdds_sum, runAdds_sum, runAdds_sum, List.map_append, List.sum_append]

theorem runAdds_nil (i : ℤ) : runAdds [] i = 0 := rfl

theorem runAdds_perm {l l' : List Add} (h : l.Perm l') (i : ℤ) : runAdds l i = runAdds l' i := by
  rw [runAdds_sum, runAdds_sum]
  exact (h.map _).sum_eq

/-- The additions to the shot noise at one triplet. -/
noncomputable def termAdds (n : ℕ) (f : Form) (ell1 ell2 : ℕ) (a : ℂ) (row col : ℤ → ℂ) (sep : ℤ → ℂ) :
    List Add :=
  (if ell1 = 0 ∧ ell2 = 0 then (upto 0 (dim n f)).map fun i => ⟨i, a⟩ else []) ++
  (if ell2 = 0 then (noiseWritesRow n f).map fun w => ⟨w.2, row w.1⟩ else []) ++
  (if ell1 = 0 then (noiseWritesCol n f).map fun w => ⟨w.2, col w.1⟩ else []) ++
  (upto 0 (dim n f)).map fun i => ⟨i, sep i⟩

theorem runAdds_terms (n : ℕ) (f : Form) (ell1 ell2 : ℕ) (hf : f ≠ .full ∨ ell1 ≠ 0) (a : ℂ)
    (row col sep : ℤ → ℂ) {e : Entry} (he : e ∈ measWrites n f) :
    runAdds (termAdds n f ell1 ell2 a row col sep) e.pos =
      (if ell1 = 0 ∧ ell2 = 0 then a else 0) + (if ell2 = 0 then row e.row else 0) +
      (if ell1 = 0 then col e.col else 0) + sep e.pos := by
  unfold termAdds
  rw [runAdds_append, runAdds_append, runAdds_append, runAdds_upto n f sep he]
  congr 2
  · congr 1
    · by_cases h : ell1 = 0 ∧ ell2 = 0
      · rw [if_pos h, if_pos h]
        exact runAdds_upto n f (fun _ => a) he
      · rw [if_neg h, if_neg h]; rfl
    · by_cases h : ell2 = 0
      · rw [if_pos h, if_pos h, noiseWritesRow_eq, List.map_map]
        exact runAdds_entries n f (fun e => row e.row) he
      · rw [if_neg h, if_neg h]; rfl
  · by_cases h : ell1 = 0
    · rw [if_pos h, if_pos h, runAdds_perm ((noiseWritesCol_perm n f (by
        rcases hf with hf | hf
        · exact hf
        · exact absurd h hf)).map _), List.map_map]
      exact runAdds_entries n f (fun e => col e.col) he
    · rw [if_neg h, if_neg h]; rfl

theorem pairShot_eq (E : Env3) (fa fb : ℤ → ℂ) (amp : ℂ) (t : Triplet) (ell : ℕ) (m b : ℤ)
    (hb : 0 ≤ b ∧ b < E.numBins) :
    pairShot E t (statsFourier E.toEnv fa fb amp ell m) b =
      (coupling3 E t : ℂ) * pairNoise E fa fb amp ell m b := by
  unfold pairShot
  simp only
  rw [statsFourier_bin E.toEnv _ _ _ _ _ (show b.toNat < E.numBins by omega)]
  unfold pairNoise meanOver
  simp only
  rw [← sub_div, ← Finset.sum_sub_distrib]
  congr 2
  apply Finset.sum_congr rfl
  intro c _
  ring

theorem uncoupled_eq (E : Env3) (hn : ∀ a, 0 < E.mesh.n a) (fa fb : ℤ → ℂ) (amp : ℂ) (t : Triplet)
    (ka kb : ℝ) : uncoupled E fa fb amp t ka kb = sepNoise E fa fb amp t ka kb := by
  unfold uncoupled sepNoise
  simp only
  rw [cells_sum, ← allModes_eq]
  congr 1
  apply Finset.sum_congr rfl
  intro c hc
  rw [twopt_corr E.toEnv hn fa fb amp (by rwa [← allModes_eq])]
  ring

theorem keffBand_eq (E : Env3) (b : ℤ) :
    keffBand E (lowerEdge E b) (upperEdge E b) = meanWavenumber E b := by
  unfold keffBand meanWavenumber
  rw [nmodesBand_eq, ← List.sum_toFinset _ ((cells_nodup _).filter _)]
  congr 1
  apply Finset.sum_congr _ fun _ _ => rfl
  ext c
  rw [List.mem_toFinset, List.mem_filter, binModes_eq, Finset.mem_filter, mem_cells, mem_box]

/-- The additions at one triplet, from given fields. -/
noncomputable def fieldAdds (E : Env3) (F : NoiseFields) (ka kb : ℤ → ℝ) (t : Triplet) : List Add :=
  termAdds E.numBins E.form E.ell1 E.ell2 ((coupling3 E t : ℂ) * F.s t.M)
    (fun b => mirrored (fMirror E t) (pairShot E t
      (statsFourier E.toEnv F.f (F.qLM t.M) (F.s t.M) E.ell1 t.m1) b))
    (fun b => mirrored (fMirror E t) (pairShot E t
      (statsFourier E.toEnv F.f (F.qLM t.M) (F.s t.M) E.ell2 t.m2) b))
    (fun i => Complex.I ^ (E.ell1 + E.ell2) * mirrored (fMirrorW3j t)
      ((coupling3 E t : ℂ) * uncoupled E (F.fLM t.M) F.q (F.s t.M) t (ka i) (kb i)))

theorem fieldAdds_at (E : Env3) (hn : ∀ a, 0 < E.mesh.n a) (hv : ValidForm E.numBins E.form)
    (hf : E.form ≠ .full ∨ E.ell1 ≠ 0) (F : NoiseFields) (ka kb : ℤ → ℝ) (t : Triplet) {e : Entry}
    (he : e ∈ measWrites E.numBins E.form) (ha : ka e.pos = meanWavenumber E e.row)
    (hb : kb e.pos = meanWavenumber E e.col) :
    runAdds (fieldAdds E F ka kb t) e.pos = (coupling3 E t : ℂ) * noiseAt E F t e.row e.col := by
  obtain ⟨hrow, hcol⟩ := mem_bins E.numBins E.form hv he
  unfold fieldAdds
  rw [runAdds_terms E.numBins E.form E.ell1 E.ell2 hf _ _ _ _ he]
  rw [pairShot_eq E _ _ _ _ _ _ _ hrow, pairShot_eq E _ _ _ _ _ _ _ hcol, uncoupled_eq E hn, ha, hb,
    ← mirrored_real, ← mirrored_real, ← mirrored_real]
  unfold noiseAt
  split_ifs <;> ring

theorem snAdds_fields (E : Env3) (data rand : List Part) (t : Triplet) :
    snAdds E data rand (alphaOf data rand)
      (fourier E.mesh (dnField E.toEnv data rand (alphaOf data rand) 0 0)) t =
    fieldAdds E (surveyNoise E data rand) (k1eff E) (k2eff E) t := rfl

theorem snAddsBox_fields (E : Env3) (pos : List (Fin 3 → ℝ)) (t : Triplet) :
    snAddsBox E pos t = fieldAdds E (boxNoise E pos) (keffBox E Entry.row) (keffBox E Entry.col) t := rfl

end Trv.Zeta

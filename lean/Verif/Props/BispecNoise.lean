import Verif.Lemmas.BispecNoise
import Verif.Props.ThreePcf
/-
Property theorems on the shot noise of the bispectrum (C109).
-/
namespace Trv.Zeta
open Trv.Mesh Trv.Stats Trv.Win Trv.Two Trv.ThreePt Trv.Bis

/-! ### C109 -/

theorem numBins_pos {E : Env3} (hf : E.form = .full) {e : Entry} (he : e ∈ measWrites E.numBins E.form) :
    0 < E.numBins := by
  rcases Nat.eq_zero_or_pos E.numBins with h | h
  · rw [hf, h] at he
    simp [measWrites, upto] at he
  · exact h

/-- **C109 (survey).** Each shot-noise entry of the bispectrum is the normalisation times the sum over
the computed orders of couplings times the four contributions of coinciding corners, at the bins of
the entry and their mean wavenumbers. -/
theorem C109_shotnoise (E : Env3) (hM : E.mesh.Valid) (hv : ValidForm E.numBins E.form)
    (data rand : List Part) (norm : ℝ) (rows : List Row3)
    (h : computeBispec E data rand norm = .ok rows) (e : Entry)
    (he : e ∈ measWrites E.numBins E.form) :
    (rows[e.pos.toNat]?).map Row3.shot = some ((norm : ℂ) * ((triplets E).map fun t =>
      (coupling3 E t : ℂ) * noiseAt E (surveyNoise E data rand) t e.row e.col).sum) := by
  obtain ⟨hw, hrows⟩ := computeBispec_ok h
  obtain ⟨h0, h1⟩ := entry_range E.numBins E.form he
  rw [hrows, getElem_upto _ _ h0 h1, Option.map_some]
  dsimp only
  rw [runAdds_flatMap]
  congr 3
  apply List.map_congr_left
  intro t ht
  have hne : triplets E ≠ [] := List.ne_nil_of_mem ht
  have hf : E.form ≠ .full ∨ E.ell1 ≠ 0 := by
    by_contra hc
    rw [not_or, not_not, not_not] at hc
    rw [C37_measurement_violated E data rand norm (not_lt.1 hw) hc.1 hc.2 (numBins_pos hc.1 he) hne] at h
    cases h
  rw [snAdds_fields]
  apply fieldAdds_at E (fun a => (hM a).1) hv hf _ _ _ t he
  · unfold k1eff
    rw [entryAt_pos E hne he]
    exact keffBand_eq E e.row
  · unfold k2eff
    rw [entryAt_pos E hne he]
    exact keffBand_eq E e.col

/-- **C109 (box).** The same in a periodic box, with fluctuations, counts and the number of
particles. -/
theorem C109_shotnoise_box (E : Env3) (hM : E.mesh.Valid) (hv : ValidForm E.numBins E.form)
    (pos : List (Fin 3 → ℝ)) (norm : ℝ) (rows : List Row3)
    (h : computeBispecBox E pos norm = .ok rows) (e : Entry)
    (he : e ∈ measWrites E.numBins E.form) :
    (rows[e.pos.toNat]?).map Row3.shot = some ((norm : ℂ) * ((tripletsGpp E).map fun t =>
      (coupling3 E t : ℂ) * noiseAt E (boxNoise E pos) t e.row e.col).sum) := by
  have h' := h
  unfold computeBispecBox at h'
  by_cases hw : |E.w3j E.ell1 E.ell2 E.ELL 0 0 0| < epsCoupling
  · rw [if_pos hw] at h'; cases h'
  rw [if_neg hw] at h'
  simp only at h'
  split_ifs at h'
  injection h' with hrows
  obtain ⟨h0, h1⟩ := entry_range E.numBins E.form he
  rw [← hrows, getElem_upto _ _ h0 h1, Option.map_some]
  dsimp only
  rw [runAdds_flatMap]
  congr 3
  apply List.map_congr_left
  intro t ht
  have hne : tripletsGpp E ≠ [] := List.ne_nil_of_mem ht
  have hf : E.form ≠ .full ∨ E.ell1 ≠ 0 := by
    by_contra hc
    rw [not_or, not_not, not_not] at hc
    rw [C37_box_violated E pos norm (not_lt.1 hw) hc.1 hc.2 (numBins_pos hc.1 he) hne] at h
    cases h
  have hb : entryBox E e.pos = some e := by
    unfold entryBox
    have : (tripletsGpp E).isEmpty = false := by
      cases hh : tripletsGpp E with
      | nil => exact absurd hh hne
      | cons => rfl
    rw [this]
    simp only [Bool.false_eq_true, if_false]
    exact recorded_pos E he
  rw [snAddsBox_fields]
  apply fieldAdds_at E (fun a => (hM a).1) hv hf _ _ _ t he
  · unfold keffBox
    rw [hb]
    exact keffBand_eq E e.row
  · unfold keffBox
    rw [hb]
    exact keffBand_eq E e.col

/-- The hypotheses of C109 are met, in a survey and in a box, at every order computed. -/
example (data rand : List Part) (pos : List (Fin 3 → ℝ)) (norm : ℝ) :
    Bis.exE.mesh.Valid ∧ ValidForm Bis.exE.numBins Bis.exE.form ∧
    (∃ rows, computeBispec Bis.exE data rand norm = .ok rows) ∧
    (∃ rows, computeBispecBox Bis.exE pos norm = .ok rows) ∧
    (⟨1, 1, 1⟩ : Entry) ∈ measWrites Bis.exE.numBins Bis.exE.form ∧ (⟨0, 0, 0⟩ : Triplet) ∈ triplets Bis.exE := by
  have hw : epsCoupling ≤ |Bis.exE.w3j Bis.exE.ell1 Bis.exE.ell2 Bis.exE.ELL 0 0 0| := by
    show epsCoupling ≤ |exW 1 1 2 0 0 0|
    unfold exW epsCoupling
    norm_num
  have hf : Bis.exE.form ≠ .full ∨ Bis.exE.ell1 ≠ 0 := Or.inl (by decide)
  obtain ⟨r, h, _⟩ := C37_measurement_defined_partial Bis.exE data rand norm hw hf
  obtain ⟨r', h', _⟩ := C37_box_defined_partial Bis.exE pos norm hw hf
  refine ⟨fun a => ⟨show (0 : ℤ) < 8 by norm_num, show (0 : ℝ) < 100 by norm_num⟩, trivial, ⟨r, h⟩, ⟨r', h'⟩, ?_, ?_⟩
  · show (⟨1, 1, 1⟩ : Entry) ∈ measWrites 2 .diag
    decide
  · have := (computed_iff (coupling3 Bis.exE) epsCoupling 1 1 2 (by
        intro t _
        rw [Bis.exE_coupling, Bis.exE_coupling]
        have : t.neg.m1 + t.neg.m2 + t.neg.M = 0 ↔ t.m1 + t.m2 + t.M = 0 := by
          simp only [Triplet.neg]; omega
        simp only [this]) (by
        intro t _
        rw [Bis.exE_coupling]
        unfold epsCoupling
        split_ifs <;> norm_num) ⟨0, 0, 0⟩).2 ⟨by simp [Triplet.Allowed], by
          rw [Bis.exE_coupling]; unfold epsCoupling; norm_num⟩
    exact this.elim id id

end Trv.Zeta

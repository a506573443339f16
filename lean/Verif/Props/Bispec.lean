import Verif.Lemmas.BispecProps
import Mathlib.Analysis.Real.Pi.Bounds
/-
Property theorems on the bispectrum measurement: C37 (whole measurement), C101, C102, C103.
-/
namespace Trv.Bis
open Trv.Mesh Trv.Stats Trv.Win Trv.Two Trv.ThreePt

/-! ### C37 -/

theorem snAdds_idx (E : Env3) (data rand : List Part) (alpha : ℝ) (dn00 : ℤ → ℂ) (t : Triplet) :
    (snAdds E data rand alpha dn00 t).map Add.idx = noisePositions E.numBins E.ell1 E.ell2 E.form := by
  unfold snAdds noisePositions
  simp only [List.map_append]
  congr 1
  · congr 1
    · congr 1
      · by_cases h : E.ell1 = 0 ∧ E.ell2 = 0
        · rw [if_pos h, if_pos (by exact_mod_cast h)]
          simp [Function.comp_def]
        · rw [if_neg h, if_neg (by exact_mod_cast h)]; rfl
      · by_cases h : E.ell2 = 0
        · rw [if_pos h, if_pos (by exact_mod_cast h)]
          simp [Function.comp_def]
        · rw [if_neg h, if_neg (by exact_mod_cast h)]; rfl
    · by_cases h : E.ell1 = 0
      · rw [if_pos h, if_pos (by exact_mod_cast h)]
        simp [Function.comp_def]
      · rw [if_neg h, if_neg (by exact_mod_cast h)]; rfl
  · simp [Function.comp_def]

theorem bkAdds_idx (E : Env3) (data rand : List Part) (alpha : ℝ) (dn00 : ℤ → ℂ) (t : Triplet) :
    ∀ u ∈ bkAdds E data rand alpha dn00 t, 0 ≤ u.idx ∧ u.idx < dim E.numBins E.form := by
  intro u hu
  unfold bkAdds at hu
  obtain ⟨e, he, rfl⟩ := List.mem_map.1 hu
  exact entry_range E.numBins E.form he

/-- **C37 (measurement, part).** In every form but the full one with `ell1 = 0` the bispectrum
measurement completes, with one line of output for each entry, for all catalogues, if the Wigner
symbol of zero orders does not vanish. -/
theorem C37_measurement_defined_partial (E : Env3) (data rand : List Part) (norm : ℝ)
    (hw : epsCoupling ≤ |E.w3j E.ell1 E.ell2 E.ELL 0 0 0|) (hf : E.form ≠ .full ∨ E.ell1 ≠ 0) :
    ∃ rows, computeBispec E data rand norm = .ok rows ∧
      rows.length = (dim E.numBins E.form).toNat := by
  have hb : NoiseInBounds E.numBins E.ell1 E.ell2 E.form :=
    (C37_writes_in_bounds_partial E.numBins (by omega) E.ell1 E.ell2 E.form
      (by rcases hf with h | h
          · exact Or.inl h
          · exact Or.inr (by exact_mod_cast h))).1
  unfold computeBispec
  rw [if_neg (not_lt.2 hw)]
  simp only
  rw [if_pos]
  · refine ⟨_, rfl, ?_⟩
    rw [List.length_map, length_upto, sub_zero]
  · rw [List.all_eq_true]
    intro u hu
    rw [decide_eq_true_iff]
    rcases List.mem_append.1 hu with hu | hu
    · obtain ⟨t, _, hu⟩ := List.mem_flatMap.1 hu
      exact bkAdds_idx _ _ _ _ _ _ u hu
    · obtain ⟨t, _, hu⟩ := List.mem_flatMap.1 hu
      have : u.idx ∈ noisePositions E.numBins E.ell1 E.ell2 E.form := by
        rw [← snAdds_idx E data rand _ _ t]
        exact List.mem_map_of_mem hu
      exact hb _ this

/-- **C37 (measurement, violated).** In the full form with `ell1 = 0` the measurement always writes
out of bounds, whatever the catalogues, if there is a bin and any order is computed. -/
theorem C37_measurement_violated (E : Env3) (data rand : List Part) (norm : ℝ)
    (hw : epsCoupling ≤ |E.w3j E.ell1 E.ell2 E.ELL 0 0 0|) (hf : E.form = .full) (h1 : E.ell1 = 0)
    (hn : 0 < E.numBins) (ht : triplets E ≠ []) :
    computeBispec E data rand norm = .error .outOfBounds := by
  unfold computeBispec
  rw [if_neg (not_lt.2 hw)]
  simp only
  rw [if_neg]
  intro hall
  rw [List.all_eq_true] at hall
  apply (C37_full_form_out_of_bounds_violated E.numBins (by omega) E.ell2).1
  intro p hp
  obtain ⟨t, ht⟩ := List.exists_mem_of_ne_nil _ ht
  have hidx := snAdds_idx E data rand (alphaOf data rand)
    (fourier E.mesh (dnField E.toEnv data rand (alphaOf data rand) 0 0)) t
  have h10 : ((E.ell1 : ℕ) : ℤ) = 0 := by exact_mod_cast h1
  rw [h10, hf] at hidx
  rw [← hidx] at hp
  obtain ⟨u, hu, rfl⟩ := List.mem_map.1 hp
  have := hall u (List.mem_append_right _ (List.mem_flatMap.2 ⟨t, ht, hu⟩))
  rw [decide_eq_true_iff, hf] at this
  exact this

/-! ### C101 -/

/-- **C101.** Each raw entry of the bispectrum is the normalisation times the sum over the computed
orders of couplings times (mirrored) means over closed triangles of modes, two of them in the bins
of the entry, of the three compensated fields; mode numbers and effective wavenumbers are those of
the bins.  For all catalogues, meshes, schemes, interlacing, degrees and forms. -/
theorem C101_triangles (E : Env3) (hM : E.mesh.Valid) (data rand : List Part) (norm : ℝ)
    (rows : List Row3) (h : computeBispec E data rand norm = .ok rows) (e : Entry)
    (he : e ∈ measWrites E.numBins E.form) :
    ∃ r, rows[e.pos.toNat]? = some r ∧
      r.raw = (norm : ℂ) * ((triplets E).map fun t => (coupling3 E t : ℂ) *
        mirrored (fMirror E t) (triangles E data rand t e.row e.col)).sum ∧
      (triplets E ≠ [] → r.nmodes1 = (binModes E e.row).card ∧ r.nmodes2 = (binModes E e.col).card ∧
        r.k1eff = (∑ c ∈ binModes E e.row, mag (kvec E.mesh c)) / (binModes E e.row).card ∧
        r.k2eff = (∑ c ∈ binModes E e.col, mag (kvec E.mesh c)) / (binModes E e.col).card) := by
  obtain ⟨_, hrows⟩ := computeBispec_ok h
  obtain ⟨h0, h1⟩ := entry_range E.numBins E.form he
  rw [hrows, getElem_upto _ _ h0 h1]
  refine ⟨_, rfl, ?_, ?_⟩
  · simp only
    rw [raw_eq E hM data rand he]
  · intro hne
    have hk : ∀ b, keffBand E (lowerEdge E b) (upperEdge E b) =
        (∑ c ∈ binModes E b, mag (kvec E.mesh c)) / (binModes E b).card := by
      intro b
      unfold keffBand
      rw [nmodesBand_eq, ← List.sum_toFinset _ ((cells_nodup _).filter _)]
      congr 1
      apply Finset.sum_congr _ fun _ _ => rfl
      ext c
      rw [List.mem_toFinset, List.mem_filter, binModes_eq, Finset.mem_filter, mem_cells, mem_box]
    unfold k1eff k2eff
    simp only [entryAt_pos E hne he]
    exact ⟨nmodesBand_eq E _, nmodesBand_eq E _, hk _, hk _⟩

/-! ### C102 -/

/-- **C102.** With the symmetries of the Legendre functions and of the Wigner symbols, on meshes of
even sides and for bins below the Nyquist wavenumber (with interlacing, also their sums), computing
one of each two opposite triplets of orders is exact: the raw entry is the sum over ALL orders. -/
theorem C102_all_orders (E : Env3) (hP : LegendreLike E.P) (hw : WignerLike E.w3j)
    (hM : GoodMesh E.mesh)
    (hgap : ∀ t : Triplet, t.Allowed E.ell1 E.ell2 E.ELL → |coupling3 E t| ≠ epsCoupling)
    (data rand : List Part) (norm : ℝ) (rows : List Row3)
    (h : computeBispec E data rand norm = .ok rows) (e : Entry)
    (he : e ∈ measWrites E.numBins E.form) (hB : Below E e.row e.col) :
    (rows[e.pos.toNat]?).map Row3.raw = some ((norm : ℂ) * multipole E data rand e.row e.col) := by
  obtain ⟨r, hr, hraw, _⟩ := C101_triangles E hM.valid data rand norm rows h e he
  have h000 : E.w3j E.ell1 E.ell2 E.ELL 0 0 0 ≠ 0 := by
    intro hz
    apply (computeBispec_ok h).1
    rw [hz, abs_zero]
    unfold epsCoupling
    norm_num
  rw [hr, Option.map_some, hraw, (raw_all E hP hw hM h000 hgap data rand e.row e.col hB).2]

/-! ### C103 -/

/-- The measurement with the degrees exchanged (and any form of the data vector). -/
def swapped (E : Env3) (f : Form) : Env3 := { E with ell1 := E.ell2, ell2 := E.ell1, form := f }

theorem triangles_swap (E : Env3) (f : Form) (hn : ∀ a, 0 < E.mesh.n a) (data rand : List Part)
    (m1 m2 M row col : ℤ) :
    triangles (swapped E f) data rand ⟨m2, m1, M⟩ col row = triangles E data rand ⟨m1, m2, M⟩ row col := by
  unfold triangles
  rw [triangleMean_eq E hn, triangleMean_eq (swapped E f) hn]
  have hb : ∀ b, binModes (swapped E f) b = binModes E b := fun _ => rfl
  rw [hb, hb, mul_comm ((binModes E col).card : ℂ), Finset.sum_comm]
  congr 1
  apply Finset.sum_congr rfl
  intro a _
  apply Finset.sum_congr rfl
  intro b _
  show E.ylm E.ell2 m2 (kvec E.mesh b) * E.ylm E.ell1 m1 (kvec E.mesh a) *
    (compensated E data rand 0 0 b * compensated E data rand 0 0 a *
      compensated E data rand E.ELL M (third E.mesh.n b a)) = _
  rw [third_comm E.mesh.n b a]
  ring

theorem coupling_swap (E : Env3) (f : Form) (hw : WignerLike E.w3j) (m1 m2 M : ℤ) :
    coupling3 (swapped E f) ⟨m2, m1, M⟩ = coupling3 E ⟨m1, m2, M⟩ := by
  unfold coupling3 swapped
  simp only
  rw [hw.exchange E.ell1 E.ell2 E.ELL 0 0 0, hw.exchange E.ell1 E.ell2 E.ELL m1 m2 M]
  have : ((-1 : ℝ) ^ (E.ell1 + E.ell2 + E.ELL)) * (-1) ^ (E.ell1 + E.ell2 + E.ELL) = 1 := by
    rw [← mul_pow]; norm_num
  linear_combination ((2 * (E.ell2 : ℝ) + 1) * (2 * (E.ell1 : ℝ) + 1) * (2 * (E.ELL : ℝ) + 1) *
    E.w3j E.ell1 E.ell2 E.ELL 0 0 0 * E.w3j E.ell1 E.ell2 E.ELL m1 m2 M) * this

theorem multipole_swap (E : Env3) (f : Form) (hw : WignerLike E.w3j) (hn : ∀ a, 0 < E.mesh.n a)
    (data rand : List Part) (row col : ℤ) :
    multipole (swapped E f) data rand col row = multipole E data rand row col := by
  rw [multipole_eq, multipole_eq]
  rw [Finset.sum_comm]
  apply Finset.sum_congr rfl
  intro m1 _
  apply Finset.sum_congr rfl
  intro m2 _
  apply Finset.sum_congr rfl
  intro M _
  rw [coupling_swap E f hw, triangles_swap E f hn]

/-- **C103.** Exchange symmetry: exchanging the degrees and the bins leaves the raw bispectrum
unchanged, entry by entry, whatever the forms of the two data vectors. -/
theorem C103_exchange (E : Env3) (f : Form) (hP : LegendreLike E.P) (hw : WignerLike E.w3j)
    (hM : GoodMesh E.mesh)
    (hgap : ∀ t : Triplet, t.Allowed E.ell1 E.ell2 E.ELL → |coupling3 E t| ≠ epsCoupling)
    (data rand : List Part) (norm : ℝ) (rows rows' : List Row3)
    (h : computeBispec E data rand norm = .ok rows)
    (h' : computeBispec (swapped E f) data rand norm = .ok rows') (e e' : Entry)
    (he : e ∈ measWrites E.numBins E.form) (he' : e' ∈ measWrites E.numBins f)
    (hr : e'.row = e.col) (hc : e'.col = e.row) (hB : Below E e.row e.col) :
    (rows[e.pos.toNat]?).map Row3.raw = (rows'[e'.pos.toNat]?).map Row3.raw := by
  rw [C102_all_orders E hP hw hM hgap data rand norm rows h e he hB,
    C102_all_orders (swapped E f) hP hw hM ?_ data rand norm rows' h' e' he' ?_, hr, hc,
    multipole_swap E f hw (fun a => (hM.valid a).1)]
  · rintro ⟨m2, m1, M⟩ ht
    rw [coupling_swap E f hw]
    exact hgap ⟨m1, m2, M⟩ ⟨ht.2.1, ht.1, ht.2.2⟩
  · intro a
    rw [hr, hc]
    obtain ⟨a1, a2, a3⟩ := hB a
    refine ⟨a2, a1, fun hi => ?_⟩
    have := a3 hi
    show upperEdge E e.col + upperEdge E e.row ≤ _
    rw [add_comm]
    exact this

theorem sum_Icc_neg {A : Type} [AddCommMonoid A] (l : ℕ) (f : ℤ → A) :
    ∑ m ∈ Finset.Icc (-(l : ℤ)) l, f m = ∑ m ∈ Finset.Icc (-(l : ℤ)) l, f (-m) := by
  refine Finset.sum_nbij' (fun m => -m) (fun m => -m) ?_ ?_ ?_ ?_ ?_
  · intro m hm; rw [Finset.mem_Icc] at hm ⊢; omega
  · intro m hm; rw [Finset.mem_Icc] at hm ⊢; omega
  · intro m _; ring
  · intro m _; ring
  · intro m _; rw [_root_.neg_neg]

/-- **C103.** Reality: the raw bispectrum is real at even and imaginary at odd multipoles. -/
theorem C103_reality (E : Env3) (hP : LegendreLike E.P) (hw : WignerLike E.w3j)
    (hM : GoodMesh E.mesh)
    (hgap : ∀ t : Triplet, t.Allowed E.ell1 E.ell2 E.ELL → |coupling3 E t| ≠ epsCoupling)
    (data rand : List Part) (norm : ℝ) (rows : List Row3)
    (h : computeBispec E data rand norm = .ok rows) (e : Entry)
    (he : e ∈ measWrites E.numBins E.form) (hB : Below E e.row e.col) :
    ∃ r, rows[e.pos.toNat]? = some r ∧ (Even E.ELL → r.raw.im = 0) ∧ (Odd E.ELL → r.raw.re = 0) := by
  have key := C102_all_orders E hP hw hM hgap data rand norm rows h e he hB
  obtain ⟨r, hr, _⟩ := C101_triangles E hM.valid data rand norm rows h e he
  rw [hr, Option.map_some, Option.some_inj] at key
  have h000 : E.w3j E.ell1 E.ell2 E.ELL 0 0 0 ≠ 0 := by
    intro hz
    apply (computeBispec_ok h).1
    rw [hz, abs_zero]
    unfold epsCoupling
    norm_num
  have hev := (raw_all E hP hw hM h000 hgap data rand e.row e.col hB).1
  have heps : (0 : ℝ) ≤ epsCoupling := by unfold epsCoupling; norm_num
  have hconj : (starRingEnd ℂ) (multipole E data rand e.row e.col) =
      (-1) ^ (E.ell1 + E.ell2) * multipole E data rand e.row e.col := by
    rw [multipole_eq]
    rw [map_sum, sum_Icc_neg E.ell1, Finset.mul_sum]
    apply Finset.sum_congr rfl
    intro m1 h1
    rw [map_sum, sum_Icc_neg E.ell2, Finset.mul_sum]
    apply Finset.sum_congr rfl
    intro m2 h2
    rw [map_sum, sum_Icc_neg E.ELL, Finset.mul_sum]
    apply Finset.sum_congr rfl
    intro M _
    have hc : coupling3 E ⟨-m1, -m2, -M⟩ = coupling3 E ⟨m1, m2, M⟩ := by
      unfold coupling3
      simp only
      rw [hw.reflect, hev.neg_one_pow, one_mul]
    rw [hc]
    by_cases hlt : epsCoupling < |coupling3 E ⟨m1, m2, M⟩|
    · rw [if_pos hlt, if_pos hlt]
      have h0 : m1 + m2 + M = 0 := by
        by_contra hne
        have : coupling3 E ⟨m1, m2, M⟩ = 0 := by
          unfold coupling3
          simp only
          rw [hw.select E.ell1 E.ell2 E.ELL m1 m2 M hne, mul_zero]
        rw [this, abs_zero] at hlt
        exact absurd hlt (not_lt.2 heps)
      rw [Finset.mem_Icc] at h1 h2
      have hneg := triangles_neg E hP hM data rand ⟨-m1, -m2, -M⟩ (by rw [abs_neg]; exact abs_le.2 h1)
        (by rw [abs_neg]; exact abs_le.2 h2) (by simp only; omega) e.row e.col hB
      simp only [Triplet.neg, _root_.neg_neg] at hneg
      rw [map_mul, Complex.conj_ofReal, hneg]
      have := neg_one_pow_cancel (E.ell1 + E.ell2)
      linear_combination (-1) * ((coupling3 E ⟨m1, m2, M⟩ : ℂ) *
        (starRingEnd ℂ) (triangles E data rand ⟨-m1, -m2, -M⟩ e.row e.col)) * this
    · rw [if_neg hlt, if_neg hlt, map_zero, mul_zero]
  have hraw : (starRingEnd ℂ) r.raw = (-1) ^ (E.ell1 + E.ell2) * r.raw := by
    rw [key, map_mul, Complex.conj_ofReal, hconj]
    ring
  refine ⟨r, hr, ?_, ?_⟩
  · intro hL
    have h12 : Even (E.ell1 + E.ell2) := by
      rw [Nat.even_add] at hev; exact hev.2 hL
    rw [h12.neg_one_pow, one_mul] at hraw
    exact Complex.conj_eq_iff_im.1 hraw
  · intro hL
    have h12 : Odd (E.ell1 + E.ell2) := by
      rw [Nat.even_add] at hev
      rw [← Nat.not_even_iff_odd]
      intro h; exact Nat.not_even_iff_odd.2 hL (hev.1 h)
    rw [h12.neg_one_pow] at hraw
    have := congrArg Complex.re hraw
    simp at this
    linarith

/-! ### A case -/

/-- Functions with the parity of the associated Legendre functions. -/
noncomputable def exP (l m : ℕ) (mu : ℝ) : ℝ := mu ^ (l - m) * Real.sqrt (1 - mu ^ 2) ^ m

/-- Coefficients with the symmetries of the Wigner symbols. -/
def exW (a b c m1 m2 m3 : ℤ) : ℝ := if m1 + m2 + m3 = 0 ∧ (a + b + c) % 2 = 0 then 1 else 0

theorem exP_like : LegendreLike exP := by
  constructor
  · intro l m mu h
    unfold exP
    obtain ⟨k, rfl⟩ := Nat.exists_eq_add_of_le h
    rw [Nat.add_sub_cancel_left, neg_pow, neg_sq, show m + k + m = k + 2 * m by ring, pow_add, pow_mul]
    norm_num
    ring
  · intro l m h0 _
    unfold exP
    simp
    intro h
    omega

theorem exW_like : WignerLike exW := by
  have key : ∀ (J : ℕ) (p : Prop) [Decidable p] (q : Prop) [Decidable q], (p ↔ q) → (p → J % 2 = 0) →
      (if p then (1 : ℝ) else 0) = (-1) ^ J * if q then 1 else 0 := by
    intro J p _ q _ hpq hp
    by_cases h : p
    · rw [if_pos h, if_pos (hpq.1 h), (Nat.even_iff.2 (hp h)).neg_one_pow]; norm_num
    · rw [if_neg h, if_neg (fun hq => h (hpq.2 hq)), mul_zero]
  constructor
  · intro a b c m1 m2 m3 h
    unfold exW
    rw [if_neg (fun hh => h hh.1)]
  · intro a b c m1 m2 m3
    unfold exW
    apply key
    · constructor <;> rintro ⟨h1, h2⟩ <;> exact ⟨by omega, h2⟩
    · rintro ⟨_, h⟩; omega
  · intro a b c m1 m2 m3
    unfold exW
    apply key
    · constructor <;> rintro ⟨h1, h2⟩ <;> exact ⟨by omega, by omega⟩
    · rintro ⟨_, h⟩; omega

/-- A dipole measurement with interlacing. -/
noncomputable def exE : Env3 where
  mesh := ⟨fun _ => 8, fun _ => 100⟩
  sch := .tsc
  interlace := true
  P := exP
  w3j := exW
  ELL := 2
  edges := [0, 1 / 10, 1 / 5]
  centres := [1 / 20, 3 / 20]
  numBins := 2
  ell1 := 1
  ell2 := 1
  form := .diag
  sj := fun _ _ => 0

theorem exE_coupling (t : Triplet) : coupling3 exE t = if t.m1 + t.m2 + t.M = 0 then 45 else 0 := by
  unfold coupling3 exE exW
  simp only [add_zero]
  by_cases h : t.m1 + t.m2 + t.M = 0
  · rw [if_pos h]; simp [h]; norm_num
  · rw [if_neg h]; simp [h]

/-- The hypotheses of C101-C103 are met, by a measurement that completes, at an entry. -/
example : LegendreLike exE.P ∧ WignerLike exE.w3j ∧ GoodMesh exE.mesh ∧
    (∀ t : Triplet, t.Allowed exE.ell1 exE.ell2 exE.ELL → |coupling3 exE t| ≠ epsCoupling) ∧
    (∀ data rand norm, ∃ rows, computeBispec exE data rand norm = .ok rows) ∧
    (⟨0, 0, 0⟩ : Entry) ∈ measWrites exE.numBins exE.form ∧ Below exE 0 0 ∧
    binModes exE 0 ≠ ∅ := by
  have hpi := Real.pi_gt_three
  refine ⟨exP_like, exW_like, ⟨?_, ?_, ?_⟩, ?_, ?_, ?_, ?_, ?_⟩
  · intro a; exact ⟨show (0 : ℤ) < 8 by norm_num, show (0 : ℝ) < 100 by norm_num⟩
  · intro a; exact show (2 : ℤ) ∣ 8 by norm_num
  · intro a
    show (1 : ℝ) / 1000000000 ≤ 2 * Real.pi / 100
    linarith
  · intro t _
    rw [exE_coupling]
    unfold epsCoupling
    split_ifs <;> norm_num
  · intro data rand norm
    obtain ⟨rows, h, _⟩ := C37_measurement_defined_partial exE data rand norm (by
      show epsCoupling ≤ |exW 1 1 2 0 0 0|
      unfold exW epsCoupling
      norm_num) (Or.inl (by decide))
    exact ⟨rows, h⟩
  · show (⟨0, 0, 0⟩ : Entry) ∈ measWrites 2 .diag
    decide
  · intro a
    show (1 : ℝ) / 10 ≤ Real.pi * ((8 : ℤ) : ℝ) / 100 ∧ (1 : ℝ) / 10 ≤ Real.pi * ((8 : ℤ) : ℝ) / 100 ∧
      (true = true → (1 : ℝ) / 10 + 1 / 10 ≤ Real.pi * ((8 : ℤ) : ℝ) / 100)
    push_cast
    refine ⟨by linarith, by linarith, fun _ => by linarith⟩
  · apply Finset.nonempty_iff_ne_empty.1
    refine ⟨(0, 0, 0), ?_⟩
    rw [mem_binModes, mem_box]
    have hk : mag (kvec exE.mesh (0, 0, 0)) = 0 := by
      unfold mag kvec gridVec exE
      simp
    rw [hk]
    refine ⟨⟨⟨le_rfl, show (0 : ℤ) < 8 by norm_num⟩, ⟨le_rfl, show (0 : ℤ) < 8 by norm_num⟩, le_rfl,
      show (0 : ℤ) < 8 by norm_num⟩, ?_, ?_⟩
    · show (0 : ℝ) ≤ 0; exact le_rfl
    · show (0 : ℝ) < 1 / 10; norm_num

/-- A full-form monopole measurement writes out of bounds. -/
example (data rand : List Part) (norm : ℝ) :
    computeBispec { exE with ell1 := 0, ell2 := 0, ELL := 0, form := .full } data rand norm =
      .error .outOfBounds := by
  have hc : ∀ t : Triplet, coupling3 { exE with ell1 := 0, ell2 := 0, ELL := 0, form := .full } t =
      if t.m1 + t.m2 + t.M = 0 then 1 else 0 := by
    intro t
    unfold coupling3 exE exW
    simp
  apply C37_measurement_violated _ _ _ _ _ rfl rfl (show 0 < 2 by norm_num)
  · intro hnil
    have := (computed_iff (coupling3 { exE with ell1 := 0, ell2 := 0, ELL := 0, form := .full })
      epsCoupling 0 0 0 (by
        intro t _
        rw [hc, hc]
        have : t.neg.m1 + t.neg.m2 + t.neg.M = 0 ↔ t.m1 + t.m2 + t.M = 0 := by
          simp only [Triplet.neg]; omega
        simp only [this]) (by
        intro t _
        rw [hc]
        unfold epsCoupling
        split_ifs <;> norm_num) ⟨0, 0, 0⟩).2 ⟨by simp [Triplet.Allowed], by
          rw [hc]; unfold epsCoupling; norm_num⟩
    have hz : computedOrders (coupling3 { exE with ell1 := 0, ell2 := 0, ELL := 0, form := .full })
      epsCoupling 0 0 0 = [] := hnil
    rw [hz] at this
    simp at this
  · show epsCoupling ≤ |exW 0 0 0 0 0 0|
    unfold exW epsCoupling
    norm_num

end Trv.Bis

import Verif.Spec.BinnedVectors
import Verif.Props.FieldStats
import Verif.Props.TwoPtSums
import Verif.Props.Bispec
import Verif.Props.ThreePcf
/-
C153: recorded vectors are those which the measurements count.
-/
set_option linter.unusedSectionVars false
namespace Trv.Two
open Trv.Mesh Trv.Stats Trv.Win Trv.Bis Trv.Binning Trv.ThreePt Trv.Zeta

theorem abs_le_mag (v : Fin 3 → ℝ) (i : Fin 3) : |v i| ≤ mag v := by
  have h := C22_magnitude v i
  unfold mag
  simpa [pow_two] using h

theorem edges_mono {E : Env} (h : ∀ b, b < E.numBins → E.edges.getD b 0 ≤ E.edges.getD (b + 1) 0) {a b : ℕ}
    (hab : a ≤ b) (hb : b ≤ E.numBins) : E.edges.getD a 0 ≤ E.edges.getD b 0 := by
  induction b, hab using Nat.le_induction with
  | base => exact le_rfl
  | succ b hab ih => exact (ih (by omega)).trans (h b (by omega))

/-- The recorded vectors of a bin are the mesh vectors in it. -/
theorem records_in_bin {E : Env} {B : Cpp ℝ} {s : Space} (hB : SameBins E B s) (m : MathLib ℝ) (hpi : 0 < m.pi)
    (hM : E.mesh.Valid) (order : List (ℤ × ℤ × ℤ)) (ho : order.Perm (Stats.visited m B E.mesh.n E.mesh.L)) {i : ℕ}
    (hi : i < E.numBins) :
    ((ofBin (recordBinned m mag B E.mesh.n E.mesh.L order) i).map Rec.vec).Perm
      (((cells E.mesh.n).map (gridVec E.mesh.n fun a => cellSize m s (E.mesh.n a) (E.mesh.L a))).filter
        fun v => inBin (E.edges.getD i 0) (E.edges.getD (i + 1) 0) (mag v)) := by
  have hn : ∀ a, 1 ≤ E.mesh.n a := fun a => (hM a).1
  have hL : ∀ a, 0 < E.mesh.L a := fun a => (hM a).2
  have hnum : B.numBins.toNat = E.numBins := by rw [hB.num]; simp
  obtain ⟨h1, h2, -⟩ := C22_binned_vectors m hpi mag abs_le_mag B E.mesh.n E.mesh.L hn hL (by
    intro b hb
    rw [hB.edges]
    exact (edges_mono hB.ordered (by omega) le_rfl).trans hB.top) order ho
  rw [hB.space] at h1
  set vs := recordBinned m mag B E.mesh.n E.mesh.L order
  have e1 : ofBin vs i = vs.filter (fun r => inBin (E.edges.getD i 0) (E.edges.getD (i + 1) 0) (mag r.vec)) := by
    unfold ofBin
    apply List.filter_congr
    intro r hr
    obtain ⟨a1, a2, a3, a4, a5, a6⟩ := h2 r hr
    rw [hB.edges] at a3 a4
    rw [hB.num] at a2
    unfold inBin
    rw [decide_eq_decide]
    constructor
    · intro h
      rw [h] at a3 a4
      simp only [Int.toNat_natCast] at a3 a4
      rw [← a3, ← a4]
      exact ⟨a5, a6⟩
    · rintro ⟨b1, b2⟩
      have hlt : r.idx.toNat < E.numBins := by omega
      rcases lt_trichotomy r.idx.toNat i with h | h | h
      · have := edges_mono hB.ordered (show r.idx.toNat + 1 ≤ i by omega) (by omega)
        rw [a4] at a6
        linarith
      · omega
      · have := edges_mono hB.ordered (show i + 1 ≤ r.idx.toNat by omega) (by omega)
        rw [a3] at a5
        linarith
  rw [e1]
  have e2 : (vs.filter (fun r => inBin (E.edges.getD i 0) (E.edges.getD (i + 1) 0) (mag r.vec))).map Rec.vec =
      (vs.map Rec.vec).filter (fun v => inBin (E.edges.getD i 0) (E.edges.getD (i + 1) 0) (mag v)) := by
    rw [List.filter_map]; rfl
  rw [e2]
  refine (h1.filter _).trans (List.Perm.of_eq ?_)
  rw [List.filter_filter]
  apply List.filter_congr
  intro v _
  cases hv : inBin (E.edges.getD i 0) (E.edges.getD (i + 1) 0) (mag v) with
  | false => rfl
  | true =>
    simp only [Bool.true_and]
    unfold inSomeBin
    rw [List.any_eq_true]
    exact ⟨i, List.mem_range.2 (by omega), by rw [hB.edges]; exact hv⟩

/-- Number and mean length of the recorded vectors of a bin. -/
theorem records_count {E : Env} {B : Cpp ℝ} {s : Space} (hB : SameBins E B s) (m : MathLib ℝ) (hpi : 0 < m.pi)
    (hM : E.mesh.Valid) (order : List (ℤ × ℤ × ℤ)) (ho : order.Perm (Stats.visited m B E.mesh.n E.mesh.L)) {i : ℕ}
    (hi : i < E.numBins) (S : Finset (ℤ × ℤ × ℤ))
    (hS : ∀ c, c ∈ S ↔ c ∈ cells E.mesh.n ∧ inBin (E.edges.getD i 0) (E.edges.getD (i + 1) 0)
      (mag (gridVec E.mesh.n (fun a => cellSize m s (E.mesh.n a) (E.mesh.L a)) c)) = true) :
    (ofBin (recordBinned m mag B E.mesh.n E.mesh.L order) i).length = S.card ∧
    ((ofBin (recordBinned m mag B E.mesh.n E.mesh.L order) i).map fun r => mag r.vec).sum =
      ∑ c ∈ S, mag (gridVec E.mesh.n (fun a => cellSize m s (E.mesh.n a) (E.mesh.L a)) c) := by
  have h := records_in_bin hB m hpi hM order ho hi
  rw [List.filter_map] at h
  set gv := gridVec E.mesh.n fun a => cellSize m s (E.mesh.n a) (E.mesh.L a)
  set vs := ofBin (recordBinned m mag B E.mesh.n E.mesh.L order) i
  set l := (cells E.mesh.n).filter ((fun v => inBin (E.edges.getD i 0) (E.edges.getD (i + 1) 0) (mag v)) ∘ gv)
    with hl
  have hnd : l.Nodup := (cells_nodup _).filter _
  have hf : l.toFinset = S := by
    ext c
    rw [List.mem_toFinset, hl, List.mem_filter, hS]
    rfl
  constructor
  · have := h.length_eq
    rw [List.length_map, List.length_map] at this
    rw [this, ← hf, List.toFinset_card_of_nodup hnd]
  · have := (h.map mag).sum_eq
    rw [List.map_map, List.map_map] at this
    rw [← hf, List.sum_toFinset _ hnd]
    exact this

/-! ### C153 -/

theorem binModes_recorded (E : Env3) (hM : E.mesh.Valid) (B : Cpp ℝ) (hB : SameBins E.toEnv B .fourier) (m : MathLib ℝ)
    (hpi : m.pi = Real.pi) (order : List (ℤ × ℤ × ℤ)) (ho : order.Perm (Stats.visited m B E.mesh.n E.mesh.L)) (b : ℤ)
    (h0 : 0 ≤ b) (hb : b < E.numBins) :
    (binModes E b).card = (ofBin (recordBinned m mag B E.mesh.n E.mesh.L order) b).length ∧
    (∑ c ∈ binModes E b, mag (kvec E.mesh c)) / ((binModes E b).card : ℝ) =
      meanLength (ofBin (recordBinned m mag B E.mesh.n E.mesh.L order) b) 0 := by
  obtain ⟨i, rfl⟩ := Int.eq_ofNat_of_zero_le h0
  have hi : i < E.numBins := by exact_mod_cast hb
  obtain ⟨k1, k2⟩ := records_count hB m (by rw [hpi]; exact Real.pi_pos) hM order ho hi (binModes E i) (by
    intro c
    unfold binModes inBin cellSize kvec
    rw [Finset.mem_filter, allModes_eq, mem_box, mem_cells, hpi, decide_eq_true_iff, Int.toNat_natCast])
  refine ⟨k1.symm, ?_⟩
  unfold meanLength
  rw [k1]
  split_ifs with hz
  · rw [hz]; simp
  · rw [k2]
    unfold cellSize kvec
    rw [hpi]

/-- **C153, bispectrum.**  The numbers of modes and the effective wavenumbers of each entry of the bispectrum, of a survey
or a box, are the numbers and mean lengths of the vectors recorded in its bins, whatever the order in which the
threads record them. -/
theorem C153_bispectrum (E : Env3) (hM : E.mesh.Valid) (rows : List Row3) (norm : ℝ)
    (h : (∃ data rand : List Part, computeBispec E data rand norm = .ok rows ∧ triplets E ≠ []) ∨
      ∃ pos : List (Fin 3 → ℝ), computeBispecBox E pos norm = .ok rows ∧ tripletsGpp E ≠ []) (e : Entry)
    (hf : ValidForm E.numBins E.form) (he : e ∈ measWrites E.numBins E.form)
    (B : Cpp ℝ) (hB : SameBins E.toEnv B .fourier) (m : MathLib ℝ) (hpi : m.pi = Real.pi)
    (order : List (ℤ × ℤ × ℤ)) (ho : order.Perm (Stats.visited m B E.mesh.n E.mesh.L)) :
    ∃ r, rows[e.pos.toNat]? = some r ∧
      r.nmodes1 = (ofBin (recordBinned m mag B E.mesh.n E.mesh.L order) e.row).length ∧
      r.nmodes2 = (ofBin (recordBinned m mag B E.mesh.n E.mesh.L order) e.col).length ∧
      r.k1eff = meanLength (ofBin (recordBinned m mag B E.mesh.n E.mesh.L order) e.row) 0 ∧
      r.k2eff = meanLength (ofBin (recordBinned m mag B E.mesh.n E.mesh.L order) e.col) 0 := by
  have key := binModes_recorded E hM B hB m hpi order ho
  obtain ⟨hr, hc⟩ : (0 ≤ e.row ∧ e.row < E.numBins) ∧ 0 ≤ e.col ∧ e.col < E.numBins := by
    have hin := (mem_measWrites_pairs _ _ e.row e.col).1 ⟨e.pos, he⟩
    revert hin hf
    cases E.form <;> simp only [InForm, ValidForm] <;> omega
  have hrow : ∃ r, rows[e.pos.toNat]? = some r ∧ r.nmodes1 = (binModes E e.row).card ∧
      r.nmodes2 = (binModes E e.col).card ∧
      r.k1eff = (∑ c ∈ binModes E e.row, mag (kvec E.mesh c)) / (binModes E e.row).card ∧
      r.k2eff = (∑ c ∈ binModes E e.col, mag (kvec E.mesh c)) / (binModes E e.col).card := by
    rcases h with ⟨data, rand, h, hne⟩ | ⟨pos, h, hne⟩
    · obtain ⟨r, h1, -, h2⟩ := C101_triangles E hM data rand norm rows h e he
      exact ⟨r, h1, h2 hne⟩
    · obtain ⟨r, h1, -, h2⟩ := C101_box_triangles E hM pos norm rows h e he
      exact ⟨r, h1, h2 hne⟩
  obtain ⟨r, h1, a1, a2, a3, a4⟩ := hrow
  exact ⟨r, h1, by rw [a1, (key _ hr.1 hr.2).1], by rw [a2, (key _ hc.1 hc.2).1], by rw [a3, (key _ hr.1 hr.2).2],
    by rw [a4, (key _ hc.1 hc.2).2]⟩

/-- Rounding down to the grid of the edges does not change the bin. -/
theorem floor_in_bin {d x lo up : ℝ} {a b ns : ℕ} (hd : 0 < d) (hlo : lo = a * d) (hup : up = b * d) (hb : b ≤ ns) :
    (x < ns * d ∧ lo ≤ (⌊x / d⌋ : ℝ) * d ∧ (⌊x / d⌋ : ℝ) * d < up) ↔ lo ≤ x ∧ x < up := by
  have f1 : (⌊x / d⌋ : ℝ) * d ≤ x := by
    rw [← le_div_iff₀ hd]; exact Int.floor_le _
  have e1 : ∀ k : ℕ, (k : ℝ) * d ≤ (⌊x / d⌋ : ℝ) * d ↔ (k : ℝ) * d ≤ x := by
    intro k
    rw [mul_le_mul_iff_of_pos_right hd, ← le_div_iff₀ hd]
    constructor
    · intro h; exact h.trans (Int.floor_le _)
    · intro h
      have : (k : ℤ) ≤ ⌊x / d⌋ := Int.le_floor.2 (by exact_mod_cast h)
      exact_mod_cast this
  rw [hlo, hup, e1]
  constructor
  · rintro ⟨-, h2, h3⟩
    refine ⟨h2, ?_⟩
    by_contra h
    exact absurd ((e1 b).2 (not_lt.1 h)) (not_le.2 h3)
  · rintro ⟨h2, h3⟩
    refine ⟨h3.trans_le ?_, h2, f1.trans_lt h3⟩
    exact mul_le_mul_of_nonneg_right (by exact_mod_cast hb) hd.le

/-- Modes counted in a bin of the power spectrum with edges on the fine grid. -/
theorem modesIn_grid {E : Env} (hg : OnGrid E (1 / 100000) 1000000) {i : ℕ} (hi : i < E.numBins) (c : ℤ × ℤ × ℤ) :
    c ∈ modesIn E i ↔ c ∈ cells E.mesh.n ∧
      inBin (E.edges.getD i 0) (E.edges.getD (i + 1) 0) (mag (kvec E.mesh c)) = true := by
  obtain ⟨a, ha, -⟩ := hg i (by omega)
  obtain ⟨b, hb, hb'⟩ := hg (i + 1) (by omega)
  have := floor_in_bin (x := mag (kvec E.mesh c)) (d := 1 / 100000) (by norm_num) ha hb hb'
  unfold modesIn inBin
  rw [Finset.mem_filter, allModes_eq, mem_box, mem_cells, decide_eq_true_iff, ← this]
  have e1 : mag (kvec E.mesh c) / (1 / 100000) = mag (kvec E.mesh c) * 100000 := by ring
  have e2 : ((1000000 : ℕ) : ℝ) * (1 / 100000) = 10 := by norm_num
  rw [e1, e2, mul_one_div]

/-- Separations counted in a bin of the correlation function with edges on the fine grid. -/
theorem sepsIn_grid {E : Env} (hg : OnGrid E (1 / 10) 1000000) {i : ℕ} (hi : i < E.numBins) (c : ℤ × ℤ × ℤ) :
    c ∈ sepsIn E i ↔ c ∈ cells E.mesh.n ∧
      inBin (E.edges.getD i 0) (E.edges.getD (i + 1) 0) (mag (rvec E.mesh c)) = true := by
  obtain ⟨a, ha, -⟩ := hg i (by omega)
  obtain ⟨b, hb, hb'⟩ := hg (i + 1) (by omega)
  have := floor_in_bin (x := mag (rvec E.mesh c)) (d := 1 / 10) (by norm_num) ha hb hb'
  unfold sepsIn inBin
  rw [Finset.mem_filter, allModes_eq, mem_box, mem_cells, decide_eq_true_iff, ← this]
  have e1 : mag (rvec E.mesh c) / (1 / 10) = mag (rvec E.mesh c) * 10 := by ring
  have e2 : ((1000000 : ℕ) : ℝ) * (1 / 10) = 100000 := by norm_num
  rw [e1, e2, mul_one_div]

theorem modes_recorded {E : Env} {B : Cpp ℝ} (hB : SameBins E B .fourier) (hg : OnGrid E (1 / 100000) 1000000)
    (m : MathLib ℝ) (hpi : m.pi = Real.pi) (hM : E.mesh.Valid) (order : List (ℤ × ℤ × ℤ))
    (ho : order.Perm (Stats.visited m B E.mesh.n E.mesh.L)) {i : ℕ} (hi : i < E.numBins) (centre : ℝ) :
    (modesIn E i).card = (ofBin (recordBinned m mag B E.mesh.n E.mesh.L order) i).length ∧
    meanLen (modesIn E i) (fun c => mag (kvec E.mesh c)) centre =
      meanLength (ofBin (recordBinned m mag B E.mesh.n E.mesh.L order) i) centre := by
  obtain ⟨k1, k2⟩ := records_count hB m (by rw [hpi]; exact Real.pi_pos) hM order ho hi (modesIn E i) (by
    intro c
    rw [modesIn_grid hg hi]
    unfold cellSize kvec
    rw [hpi])
  refine ⟨k1.symm, ?_⟩
  unfold meanLength meanLen
  rw [k1, k2]
  unfold cellSize kvec
  rw [hpi]

theorem seps_recorded {E : Env} {B : Cpp ℝ} (hB : SameBins E B .config) (hg : OnGrid E (1 / 10) 1000000)
    (m : MathLib ℝ) (hpi : 0 < m.pi) (hM : E.mesh.Valid) (order : List (ℤ × ℤ × ℤ))
    (ho : order.Perm (Stats.visited m B E.mesh.n E.mesh.L)) {i : ℕ} (hi : i < E.numBins) (centre : ℝ) :
    (sepsIn E i).card = (ofBin (recordBinned m mag B E.mesh.n E.mesh.L order) i).length ∧
    meanLen (sepsIn E i) (fun c => mag (rvec E.mesh c)) centre =
      meanLength (ofBin (recordBinned m mag B E.mesh.n E.mesh.L order) i) centre := by
  obtain ⟨k1, k2⟩ := records_count hB m hpi hM order ho hi (sepsIn E i) (by
    intro c
    rw [sepsIn_grid hg hi]
    rfl)
  refine ⟨k1.symm, ?_⟩
  unfold meanLength meanLen
  rw [k1, k2]
  rfl

/-- **C153, power spectrum.**  Likewise for the power spectrum of a survey or box if the edges of the bins are whole multiples
of the fine sampling.  (Partial: for other edges see `C153_fine_bin_violated`.) -/
theorem C153_power_spectrum_partial (E : Env) (hM : E.mesh.Valid) (hg : OnGrid E (1 / 100000) 1000000) (B : Cpp ℝ)
    (hB : SameBins E B .fourier) (m : MathLib ℝ) (hpi : m.pi = Real.pi)
    (order : List (ℤ × ℤ × ℤ)) (ho : order.Perm (Stats.visited m B E.mesh.n E.mesh.L)) (norm : ℝ) (i : ℕ)
    (hi : i < E.numBins) :
    (∀ data rand : List Part, 1 / 1000000000 ≤ |coupling E 0 0| → ∃ r, (computePowspec E data rand norm)[i]? = some r ∧
      r.num = (ofBin (recordBinned m mag B E.mesh.n E.mesh.L order) i).length ∧
      r.eff = meanLength (ofBin (recordBinned m mag B E.mesh.n E.mesh.L order) i) (E.centres.getD i 0)) ∧
    ∀ pos : List (Fin 3 → ℝ), ∃ r, (computePowspecBox E pos norm)[i]? = some r ∧
      r.num = (ofBin (recordBinned m mag B E.mesh.n E.mesh.L order) i).length ∧
      r.eff = meanLength (ofBin (recordBinned m mag B E.mesh.n E.mesh.L order) i) (E.centres.getD i 0) := by
  obtain ⟨k1, k2⟩ := modes_recorded hB hg m hpi hM order ho hi (E.centres.getD i 0)
  constructor
  · intro data rand hc
    obtain ⟨r, h1, -, h2, -⟩ := C107_power_spectrum E data rand norm i hi
    obtain ⟨a1, a2⟩ := h2 hc
    exact ⟨r, h1, a1.trans k1, a2.trans k2⟩
  · intro pos
    obtain ⟨⟨r, h1, -, a1, a2, -⟩, -⟩ := C107_box E (fun a => (hM a).1) pos norm i hi
    exact ⟨r, h1, a1.trans k1, a2.trans k2⟩

/-- **C153, correlation function.**  Likewise for the correlation function of a survey or box.  (Partial: the same.) -/
theorem C153_correlation_partial (E : Env) (hM : E.mesh.Valid) (hg : OnGrid E (1 / 10) 1000000) (B : Cpp ℝ)
    (hB : SameBins E B .config) (m : MathLib ℝ) (hpi : 0 < m.pi)
    (order : List (ℤ × ℤ × ℤ)) (ho : order.Perm (Stats.visited m B E.mesh.n E.mesh.L)) (norm : ℝ) (i : ℕ)
    (hi : i < E.numBins) :
    (∀ data rand : List Part, 1 / 1000000000 ≤ |coupling E 0 0| → ∃ r, (computeCorrfunc E data rand norm)[i]? = some r ∧
      r.num = (ofBin (recordBinned m mag B E.mesh.n E.mesh.L order) i).length ∧
      r.eff = meanLength (ofBin (recordBinned m mag B E.mesh.n E.mesh.L order) i) (E.centres.getD i 0)) ∧
    ∀ pos : List (Fin 3 → ℝ), ∃ r, (computeCorrfuncBox E pos norm)[i]? = some r ∧
      r.num = (ofBin (recordBinned m mag B E.mesh.n E.mesh.L order) i).length ∧
      r.eff = meanLength (ofBin (recordBinned m mag B E.mesh.n E.mesh.L order) i) (E.centres.getD i 0) := by
  obtain ⟨k1, k2⟩ := seps_recorded hB hg m hpi hM order ho hi (E.centres.getD i 0)
  constructor
  · intro data rand hc
    obtain ⟨r, h1, -, h2, -⟩ := C107_correlation_function E (fun a => (hM a).1) data rand norm i hi
    obtain ⟨a1, a2⟩ := h2 hc
    exact ⟨r, h1, a1.trans k1, a2.trans k2⟩
  · intro pos
    obtain ⟨-, ⟨r, h1, -, a1, a2, -⟩⟩ := C107_box E (fun a => (hM a).1) pos norm i hi
    exact ⟨r, h1, a1.trans k1, a2.trans k2⟩

/-- A box of 4 × 2 × 2 cells and one bin narrower than the fine sampling. -/
noncomputable def exFine : Env where
  mesh := ⟨![4, 2, 2], ![1, 2, 2]⟩
  sch := .ngp
  interlace := false
  P := exP
  w3j := exW
  ELL := 0
  edges := [1 / 4, 3 / 10]
  centres := [11 / 40]
  numBins := 1

/-- The binning object of a measurement. -/
noncomputable def binsOf (E : Env) (s : Space) : Cpp ℝ :=
  ⟨s, "custom", E.edges.getD 0 0, E.edges.getD E.numBins 0, E.numBins, E.edges, E.centres, [], 0, 0⟩

theorem binsOf_same (E : Env) (s : Space) (h : ∀ b, b < E.numBins → E.edges.getD b 0 ≤ E.edges.getD (b + 1) 0) :
    SameBins E (binsOf E s) s := ⟨rfl, rfl, rfl, h, le_rfl⟩

theorem exFine_valid : exFine.mesh.Valid := by
  intro a
  match a with
  | 0 => exact ⟨show (0 : ℤ) < 4 by norm_num, show (0 : ℝ) < 1 by norm_num⟩
  | 1 => exact ⟨show (0 : ℤ) < 2 by norm_num, show (0 : ℝ) < 2 by norm_num⟩
  | 2 => exact ⟨show (0 : ℤ) < 2 by norm_num, show (0 : ℝ) < 2 by norm_num⟩

theorem exFine_seps : sepsIn exFine 0 = ∅ := by
  unfold sepsIn
  apply Finset.filter_eq_empty_iff.2
  rintro c - ⟨-, h1, h2⟩
  replace h1 : (1 : ℝ) / 4 ≤ (⌊mag (rvec exFine.mesh c) * 10⌋ : ℝ) / 10 := h1
  replace h2 : (⌊mag (rvec exFine.mesh c) * 10⌋ : ℝ) / 10 < (3 : ℝ) / 10 := h2
  have a1 : (2 : ℝ) < (⌊mag (rvec exFine.mesh c) * 10⌋ : ℝ) := by linarith
  have a2 : (⌊mag (rvec exFine.mesh c) * 10⌋ : ℝ) < 3 := by linarith
  have b1 : (2 : ℤ) < ⌊mag (rvec exFine.mesh c) * 10⌋ := by exact_mod_cast a1
  have b2 : ⌊mag (rvec exFine.mesh c) * 10⌋ < (3 : ℤ) := by exact_mod_cast a2
  omega

theorem exFine_mag : mag (rvec exFine.mesh (1, 0, 0)) = 1 / 4 := by
  have h0 : rvec exFine.mesh (1, 0, 0) 0 = 1 / 4 := by
    simp [rvec, gridVec, exFine]
  have h1 : rvec exFine.mesh (1, 0, 0) 1 = 0 := by
    simp [rvec, gridVec, exFine]
  have h2 : rvec exFine.mesh (1, 0, 0) 2 = 0 := by
    simp [rvec, gridVec, exFine]
  unfold mag
  rw [h0, h1, h2, show (1 / 4 : ℝ) ^ 2 + 0 ^ 2 + 0 ^ 2 = (1 / 4) ^ 2 by ring, Real.sqrt_sq (by norm_num)]

/-- **C153, violated.**  In a bin without a multiple of the fine sampling the correlation function counts no
separation, while the separation on its lower edge is recorded as a vector of that bin. -/
theorem C153_fine_bin_violated : ∃ (E : Env) (B : Cpp ℝ), E.mesh.Valid ∧ SameBins E B .config ∧ E.numBins = 1 ∧
    ∀ (pos : List (Fin 3 → ℝ)) (norm : ℝ) (m : MathLib ℝ), 0 < m.pi → ∀ order : List (ℤ × ℤ × ℤ),
      order.Perm (Stats.visited m B E.mesh.n E.mesh.L) →
      ∃ r, (computeCorrfuncBox E pos norm)[0]? = some r ∧ r.num = 0 ∧
        0 < (ofBin (recordBinned m mag B E.mesh.n E.mesh.L order) 0).length := by
  have hB : SameBins exFine (binsOf exFine .config) .config := binsOf_same _ _ (by
    intro b hb
    have hb' : b < 1 := hb
    interval_cases b
    show (1 : ℝ) / 4 ≤ 3 / 10
    norm_num)
  refine ⟨exFine, _, exFine_valid, hB, rfl, ?_⟩
  intro pos norm m hpi order ho
  obtain ⟨-, ⟨r, h1, -, a1, -⟩⟩ := C107_box exFine (fun a => (exFine_valid a).1) pos norm 0 (show 0 < 1 by norm_num)
  refine ⟨r, h1, by rw [a1, exFine_seps]; rfl, ?_⟩
  have h := (records_in_bin hB m hpi exFine_valid order ho (i := 0) (show 0 < 1 by norm_num)).length_eq
  rw [List.length_map] at h
  have h' : (ofBin (recordBinned m mag (binsOf exFine .config) exFine.mesh.n exFine.mesh.L order) 0).length = _ := h
  rw [h']
  apply List.length_pos_of_mem (a := rvec exFine.mesh (1, 0, 0))
  rw [List.mem_filter]
  refine ⟨List.mem_map.2 ⟨(1, 0, 0), mem_cells.2 ⟨⟨by decide, show (1 : ℤ) < 4 by norm_num⟩,
    ⟨le_rfl, show (0 : ℤ) < 2 by norm_num⟩, le_rfl, show (0 : ℤ) < 2 by norm_num⟩, rfl⟩, ?_⟩
  rw [exFine_mag]
  unfold inBin
  rw [decide_eq_true_iff]
  exact ⟨show (1 : ℝ) / 4 ≤ 1 / 4 from le_rfl, show (1 : ℝ) / 4 < 3 / 10 by norm_num⟩

theorem exE_bins (s : Space) : SameBins Bis.exE.toEnv (binsOf Bis.exE.toEnv s) s := binsOf_same _ _ (by
  intro b hb
  have hb' : b < 2 := hb
  interval_cases b
  · show (0 : ℝ) ≤ 1 / 10
    norm_num
  · show (1 : ℝ) / 10 ≤ 1 / 5
    norm_num)

/-- The hypotheses of the bispectrum statement are met. -/
example (data rand : List Part) (norm : ℝ) (m : MathLib ℝ) (hpi : m.pi = Real.pi) :
    ∃ (rows : List Row3) (r : Row3), computeBispec Bis.exE data rand norm = .ok rows ∧ rows[0]? = some r ∧
      r.nmodes1 = (ofBin (recordBinned m mag (binsOf Bis.exE.toEnv .fourier) Bis.exE.mesh.n Bis.exE.mesh.L
        (Stats.visited m (binsOf Bis.exE.toEnv .fourier) Bis.exE.mesh.n Bis.exE.mesh.L)) 0).length := by
  obtain ⟨rows, h, -⟩ := C37_measurement_defined_partial Bis.exE data rand norm (by
    show epsCoupling ≤ |exW 1 1 2 0 0 0|
    unfold exW epsCoupling
    norm_num) (Or.inl (by decide))
  have hne : triplets Bis.exE ≠ [] := by
    intro hnil
    have := (computed_iff (coupling3 Bis.exE) epsCoupling 1 1 2 (by
      intro t _
      rw [exE_coupling, exE_coupling]
      have : t.neg.m1 + t.neg.m2 + t.neg.M = 0 ↔ t.m1 + t.m2 + t.M = 0 := by
        simp only [Triplet.neg]; omega
      simp only [this]) (by
      intro t _
      rw [exE_coupling]
      unfold epsCoupling
      split_ifs <;> norm_num) ⟨0, 0, 0⟩).2 ⟨by simp [Triplet.Allowed], by
        rw [exE_coupling]; unfold epsCoupling; norm_num⟩
    have hz : computedOrders (coupling3 Bis.exE) epsCoupling 1 1 2 = [] := hnil
    rw [hz] at this
    simp at this
  obtain ⟨r, h1, h2, -⟩ := C153_bispectrum Bis.exE (by
    intro a; exact ⟨show (0 : ℤ) < 8 by norm_num, show (0 : ℝ) < 100 by norm_num⟩) rows norm (Or.inl ⟨data, rand, h, hne⟩) ⟨0, 0, 0⟩
    trivial (by show (⟨0, 0, 0⟩ : Entry) ∈ measWrites 2 .diag; decide) _ (exE_bins .fourier) m hpi _ (List.Perm.refl _)
  exact ⟨rows, r, h, h1, h2⟩

/-- The hypotheses of the two-point statements are met by bins with three edges. -/
example : Bis.exE.mesh.Valid ∧ OnGrid Bis.exE.toEnv (1 / 100000) 1000000 ∧ OnGrid Bis.exE.toEnv (1 / 10) 1000000 ∧
    SameBins Bis.exE.toEnv (binsOf Bis.exE.toEnv .fourier) .fourier ∧ SameBins Bis.exE.toEnv (binsOf Bis.exE.toEnv .config) .config := by
  refine ⟨?_, ?_, ?_, exE_bins _, exE_bins _⟩
  · intro a; exact ⟨show (0 : ℤ) < 8 by norm_num, show (0 : ℝ) < 100 by norm_num⟩
  · intro b hb
    have hb' : b ≤ 2 := hb
    interval_cases b
    · exact ⟨0, show (0 : ℝ) = ((0 : ℕ) : ℝ) * (1 / 100000) by norm_num, by norm_num⟩
    · exact ⟨10000, show (1 / 10 : ℝ) = ((10000 : ℕ) : ℝ) * (1 / 100000) by norm_num, by norm_num⟩
    · exact ⟨20000, show (1 / 5 : ℝ) = ((20000 : ℕ) : ℝ) * (1 / 100000) by norm_num, by norm_num⟩
  · intro b hb
    have hb' : b ≤ 2 := hb
    interval_cases b
    · exact ⟨0, show (0 : ℝ) = ((0 : ℕ) : ℝ) * (1 / 10) by norm_num, by norm_num⟩
    · exact ⟨1, show (1 / 10 : ℝ) = ((1 : ℕ) : ℝ) * (1 / 10) by norm_num, by norm_num⟩
    · exact ⟨2, show (1 / 5 : ℝ) = ((2 : ℕ) : ℝ) * (1 / 10) by norm_num, by norm_num⟩

end Trv.Two

import Verif.Props.EndToEndBox
import Verif.Props.Translate
import Verif.Props.Interlace
import Verif.Props.NoiseOrders
import Verif.Spec.BoxShift
/-
C162: the multipoles which the program and the Python functions measure in the same periodic box.
-/
set_option linter.unusedSectionVars false
namespace Trv.E2E

open Trv Trv.Par Trv.Mon Trv.Cat Trv.Prog

variable {ι : Type} [DecidableEq ι]

theorem pyMod_bounds (x : ℝ) {L : ℝ} (hL : 0 < L) : 0 ≤ pyMod x L ∧ pyMod x L < L := by
  unfold pyMod
  have h1 := Int.floor_le (x / L)
  have h2 := Int.lt_floor_add_one (x / L)
  rw [le_div_iff₀ hL] at h1
  rw [div_lt_iff₀ hL] at h2
  constructor <;> linarith

/-- The positions of the program. -/
theorem programPos_eq {σ : CStore Which ℝ} (hd : (σ .data).Loaded) {p : Params ℝ} (hc : p.catType = "sim") :
    programPos σ p = .ok ((σ .data).particles.map fun q i => wrapCoord (p.box i) (q.pos i)) := by
  obtain ⟨σ', e, -, h⟩ := sim_align σ hd p hc
  unfold programPos
  rw [e]
  simp only [h, List.map_map, Function.comp_def]

/-- The positions of the Python functions. -/
theorem pythonPos_eq {c : CppCat ℝ} {τ : Cat.Store ι ℝ} {data : ι} (hd : Holding c (τ data).sent) (L : V3 ℝ) :
    pythonPos τ data L = .ok (c.particles.map fun q i =>
      pyMod (q.pos i + L i / 2 - (((τ data).bounds i).2 + ((τ data).bounds i).1) / 2) (L i)) := by
  have hs := hd.shape
  obtain ⟨b, e2, -⟩ := calcBounds_ok _ (Shape.mapPos hs fun i x =>
    pyMod (x + L i / 2 - (((τ data).bounds i).2 + ((τ data).bounds i).1) / 2) (L i))
  obtain ⟨d, hdd⟩ : ∃ d : PyCat ℝ, d = { τ data with
      pos := fun i => ((τ data).pos i).map fun x =>
        pyMod (x + L i / 2 - (((τ data).bounds i).2 + ((τ data).bounds i).1) / 2) (L i),
      bounds := b } := ⟨_, rfl⟩
  have e3 : (τ data).periodise L = .ok d := by rw [hdd]; exact e2
  obtain ⟨nz, e4, -, h5, h6⟩ := insertDensity_ok d L
  have hp : ∀ i, (τ data).pos i = c.particles.map fun q => q.pos i := hd.pos
  have hnz : ∃ g : Particle ℝ → ℝ, nz = c.particles.map g := by
    by_cases hz : ∀ z ∈ d.nz, z = 0
    · refine ⟨fun _ => (d.ntotal : ℝ) / (L 0 * L 1 * L 2), ?_⟩
      rw [h5 hz, hdd]
      simp only [hp, List.length_map, List.map_const']
    · refine ⟨fun q => q.nz, ?_⟩
      rw [h6 hz, hdd]
      exact hd.nz
  obtain ⟨g, hg⟩ := hnz
  obtain ⟨ps, l1, l2, l3⟩ := hd.loaded
  have hps : c.particles = ps := by simp [CppCat.particles, l1]
  let f : Particle ℝ → V3 ℝ := fun q i =>
    pyMod (q.pos i + L i / 2 - (((τ data).bounds i).2 + ((τ data).bounds i).1) / 2) (L i)
  obtain ⟨w', g1, g2, -⟩ := C100_array_loading
    ({ cats := fun _ : Unit => noCat, mem := 0, maxmem := 0 } : World Unit ℝ) ()
    (ps.map fun q => ⟨f q 0, f q 1, f q 2, g q, q.ws, q.wc⟩) (by simpa using l2)
  simp only [List.map_map, Function.comp_def] at g1 g2
  unfold pythonPos
  simp only [Meas.run, bind, Except.bind, e3, e4, PyCat.sent]
  have hws : d.ws = ps.map fun q => q.ws := by rw [hdd, ← hps]; exact hd.ws
  have hwc : d.wc = ps.map fun q => q.wc := by rw [hdd, ← hps]; exact hd.wc
  have hpos : ∀ i, d.pos i = ps.map fun q => f q i := by
    intro i
    rw [hdd]
    show ((τ data).pos i).map _ = _
    rw [hp, hps, List.map_map]
    rfl
  unfold toCpp
  simp only [hpos, hws, hwc, hg, hps, g1, g2, List.map_map]
  refine congrArg Except.ok (List.map_congr_left fun q _ => ?_)
  funext i
  fin_cases i <;> rfl

/-- The program and Python hand over positions which differ by the offset of the middle, up to whole boxes. -/
theorem handed {c : CppCat ℝ} {τ : Cat.Store ι ℝ} {data : ι}
    {M : Mesh.Mesh ℝ} (hM : M.Valid) {o : Fin 3 → ℝ}
    (ho : ∀ i, M.L i / 2 - (((τ data).bounds i).1 + ((τ data).bounds i).2) / 2 = o i) (he : OffEdge c M.L) :
    List.Forall₂ (fun x x' : Fin 3 → ℝ => ∀ i, ∃ m : ℤ, x' i = x i + o i + m * M.L i)
      (c.particles.map fun q i => wrapCoord (M.L i) (q.pos i))
      (c.particles.map fun q i =>
        pyMod (q.pos i + M.L i / 2 - (((τ data).bounds i).2 + ((τ data).bounds i).1) / 2) (M.L i)) ∧
    (∀ x ∈ c.particles.map fun q i => wrapCoord (M.L i) (q.pos i), Two.PosInBox M x) ∧
    (∀ x ∈ c.particles.map fun q i =>
        pyMod (q.pos i + M.L i / 2 - (((τ data).bounds i).2 + ((τ data).bounds i).1) / 2) (M.L i), Two.PosInBox M x) := by
  refine ⟨?_, ?_, ?_⟩
  · rw [List.forall₂_map_left_iff, List.forall₂_map_right_iff, List.forall₂_same]
    intro q hq i
    obtain ⟨⟨k, hk⟩, -⟩ := C25_cpp_wrapping_partial (M.L i) (q.pos i) (hM i).2
    refine ⟨k - ⌊(q.pos i + M.L i / 2 - (((τ data).bounds i).2 + ((τ data).bounds i).1) / 2) / M.L i⌋, ?_⟩
    simp only [hk, pyMod]
    rw [← ho i]
    push_cast
    ring
  · intro x hx i
    obtain ⟨q, hq, rfl⟩ := List.mem_map.1 hx
    obtain ⟨-, h0, -, h1⟩ := C25_cpp_wrapping_partial (M.L i) (q.pos i) (hM i).2
    exact ⟨h0, h1 fun m hm => he q hq i m hm⟩
  · intro x hx i
    obtain ⟨q, -, rfl⟩ := List.mem_map.1 hx
    exact pyMod_bounds _ (hM i).2

/-! ### C162 -/

/-- **C162, two-point (partial).**  If the middle of the particles is a whole number of cells away from the middle of
the box, the program and the Python functions measure the same power spectrum and correlation function.
(Partial: no particle at a negative multiple of the box size nor, with interlacing, where the companion field is
faulty.) -/
theorem C162_two_point_partial (σ : CStore Which ℝ) (τ : Cat.Store ι ℝ) (data : ι)
    (hd : Holding (σ .data) (τ data).sent) (p : Params ℝ) (hc : p.catType = "sim") (E : Two.Env) (hM : E.mesh.Valid)
    (hL : E.mesh.L = p.box) (d : Fin 3 → ℤ) (ho : CellsOff (τ data) p.box E.mesh.n d)
    (he : OffEdge (σ .data) p.box) (norm : ℝ) :
    ∃ P Q, programPos σ p = .ok P ∧ pythonPos τ data p.box = .ok Q ∧
      ((E.interlace = true → OffFault E.sch E.mesh (P ++ Q)) →
        Two.computePowspecBox E Q norm = Two.computePowspecBox E P norm ∧
        Two.computeCorrfuncBox E Q norm = Two.computeCorrfuncBox E P norm) := by
  rw [← hL] at ho he
  obtain ⟨h1, h2, h3⟩ := handed hM ho he
  refine ⟨_, _, programPos_eq hd.loaded hc, pythonPos_eq hd p.box, ?_⟩
  rw [← hL]
  exact fun hg => Two.C93_translation_partial E hM d _ _ h2 h3 h1 hg norm

/-- **C162, two-point with interlacing (partial).**  With interlacing it is enough that the middle is a whole number of
cells and half a cell away, on every axis. -/
theorem C162_half_partial (σ : CStore Which ℝ) (τ : Cat.Store ι ℝ) (data : ι)
    (hd : Holding (σ .data) (τ data).sent) (p : Params ℝ) (hc : p.catType = "sim") (E : Two.Env) (hM : E.mesh.Valid)
    (hn : ∀ a, 2 ≤ E.mesh.n a) (hL : E.mesh.L = p.box) (hi : E.interlace = true) (d : Fin 3 → ℤ)
    (ho : HalfCellsOff (τ data) p.box E.mesh.n d) (he : OffEdge (σ .data) p.box) (norm : ℝ) :
    ∃ P Q, programPos σ p = .ok P ∧ pythonPos τ data p.box = .ok Q ∧
      (OffFault E.sch E.mesh (P ++ Q) →
        Two.computePowspecBox E Q norm = Two.computePowspecBox E P norm ∧
        Two.computeCorrfuncBox E Q norm = Two.computeCorrfuncBox E P norm) := by
  rw [← hL] at ho he
  obtain ⟨h1, h2, h3⟩ := handed hM ho he
  refine ⟨_, _, programPos_eq hd.loaded hc, pythonPos_eq hd p.box, ?_⟩
  rw [← hL]
  exact fun hg => Zeta.C138_box E hi hM hn d _ _
    ⟨h1, fun x hx => ⟨h2 x hx, hg x (List.mem_append_left _ hx)⟩,
      fun x hx => ⟨h3 x hx, hg x (List.mem_append_right _ hx)⟩⟩ norm

/-- **C162, bispectrum (partial).**  The same for the bispectrum and its shot noise, in the entries which are
written. -/
theorem C162_bispec_partial (σ : CStore Which ℝ) (τ : Cat.Store ι ℝ) (data : ι)
    (hd : Holding (σ .data) (τ data).sent) (p : Params ℝ) (hc : p.catType = "sim") (E : Bis.Env3) (hM : E.mesh.Valid)
    (hL : E.mesh.L = p.box) (hv : ThreePt.ValidForm E.numBins E.form) (d : Fin 3 → ℤ)
    (ho : CellsOff (τ data) p.box E.mesh.n d) (he : OffEdge (σ .data) p.box) (norm : ℝ) :
    ∃ P Q, programPos σ p = .ok P ∧ pythonPos τ data p.box = .ok Q ∧
      ((E.interlace = true → OffFault E.sch E.mesh (P ++ Q)) →
      ∀ rows rows', Zeta.computeBispecBox E P norm = .ok rows → Zeta.computeBispecBox E Q norm = .ok rows' →
        ∀ e ∈ ThreePt.measWrites E.numBins E.form,
          (rows'[e.pos.toNat]?).map Bis.Row3.raw = (rows[e.pos.toNat]?).map Bis.Row3.raw ∧
          (rows'[e.pos.toNat]?).map Bis.Row3.shot = (rows[e.pos.toNat]?).map Bis.Row3.shot) := by
  rw [← hL] at ho he
  obtain ⟨h1, h2, h3⟩ := handed hM ho he
  refine ⟨_, _, programPos_eq hd.loaded hc, pythonPos_eq hd p.box, fun hg rows rows' h h' e hm => ?_⟩
  rw [← hL] at h h' hg
  exact Zeta.C111_bispec_box E hM hv d _ _
    ⟨h1, h2, h3, fun q x hx => hg q x (List.mem_append_left _ hx), fun q x hx => hg q x (List.mem_append_right _ hx)⟩
    norm rows rows' h h' e hm

/-- **C162, three-point correlation function (partial).** -/
theorem C162_3pcf_partial (σ : CStore Which ℝ) (τ : Cat.Store ι ℝ) (data : ι)
    (hd : Holding (σ .data) (τ data).sent) (p : Params ℝ) (hc : p.catType = "sim") (E : Bis.Env3)
    (hP : Bis.LegendreLike E.P) (hM : E.mesh.Valid) (hres : Zeta.Resolved E.mesh)
    (hL : E.mesh.L = p.box) (hv : ThreePt.ValidForm E.numBins E.form) (d : Fin 3 → ℤ)
    (ho : CellsOff (τ data) p.box E.mesh.n d) (he : OffEdge (σ .data) p.box) (norm : ℝ) :
    ∃ P Q, programPos σ p = .ok P ∧ pythonPos τ data p.box = .ok Q ∧
      ((E.interlace = true → OffFault E.sch E.mesh (P ++ Q)) →
      ∀ rows rows', Zeta.compute3pcfBox E P norm = .ok rows → Zeta.compute3pcfBox E Q norm = .ok rows' →
        ∀ e ∈ ThreePt.measWrites E.numBins E.form,
          (rows'[e.pos.toNat]?).map Zeta.RowZ.raw = (rows[e.pos.toNat]?).map Zeta.RowZ.raw ∧
          (rows'[e.pos.toNat]?).map Zeta.RowZ.shot = (rows[e.pos.toNat]?).map Zeta.RowZ.shot) := by
  rw [← hL] at ho he
  obtain ⟨h1, h2, h3⟩ := handed hM ho he
  refine ⟨_, _, programPos_eq hd.loaded hc, pythonPos_eq hd p.box, fun hg rows rows' h h' e hm => ?_⟩
  rw [← hL] at h h' hg
  exact Zeta.C111_3pcf_box E hP hM hres hv d _ _
    ⟨h1, h2, h3, fun q x hx => hg q x (List.mem_append_left _ hx), fun q x hx => hg q x (List.mem_append_right _ hx)⟩
    norm rows rows' h h' e hm

/-! ### Particles which are not a whole number of cells off the middle -/

/-- Two cells of unit size on each axis, nearest grid point assignment, no interlacing, one bin which holds the mode
`(1, 1, 1)` only. -/
noncomputable def exShift : Two.Env where
  mesh := ⟨fun _ => 2, fun _ => 2⟩
  sch := .ngp
  interlace := false
  P := fun _ _ _ => 1
  w3j := fun _ _ _ _ _ _ => 1
  ELL := 0
  edges := [5, 6]
  centres := [11 / 2]
  numBins := 1

theorem exShift_valid : exShift.mesh.Valid := fun _ => ⟨by unfold exShift; norm_num, by unfold exShift; norm_num⟩

theorem exShift_low {l : ℝ} (h0 : 0 ≤ l) (h : l < 5) (v : ℂ × ℂ) :
    ¬ Stats.sel Stats.nSample Stats.dkSample 5 6 (⟨l, v⟩ : Stats.Mode ℝ (ℂ × ℂ)) = true := by
  unfold Stats.sel Stats.inBin Stats.dkSample Mesh.truncInt
  rw [if_pos (div_nonneg h0 (by norm_num))]
  simp only [Bool.and_eq_true, decide_eq_true_eq, not_and, not_lt]
  intro _ h5
  have := Int.floor_le (l / (1 / 100000))
  rw [le_div_iff₀ (by norm_num)] at this
  linarith

theorem exShift_high {l : ℝ} (h : 51 / 10 ≤ l) (h' : l < 6) (v : ℂ × ℂ) :
    Stats.sel Stats.nSample Stats.dkSample 5 6 (⟨l, v⟩ : Stats.Mode ℝ (ℂ × ℂ)) = true := by
  unfold Stats.sel Stats.inBin Stats.dkSample Mesh.truncInt
  have h0 : (0 : ℝ) ≤ l / (1 / 100000) := div_nonneg (by linarith) (by norm_num)
  rw [if_pos h0]
  have h1 := Int.floor_le (l / (1 / 100000))
  have h2 := Int.lt_floor_add_one (l / (1 / 100000))
  have h3 : ⌊l / (1 / 100000)⌋ < 1000000 := by
    rw [Int.floor_lt, div_lt_iff₀ (by norm_num)]
    push_cast
    linarith
  rw [le_div_iff₀ (by norm_num)] at h1
  rw [div_lt_iff₀ (by norm_num)] at h2
  simp only [Bool.and_eq_true, decide_eq_true_eq]
  refine ⟨⟨Int.floor_nonneg.2 h0, by simpa [Stats.nSample] using h3⟩, ?_, ?_⟩ <;> linarith

theorem exShift_mag (c : ℤ × ℤ × ℤ) (h : c ∈ [((0 : ℤ), (0 : ℤ), (0 : ℤ)), (0, 0, 1), (0, 1, 0), (0, 1, 1), (1, 0, 0),
    (1, 0, 1), (1, 1, 0)]) : Two.mag (Two.kvec exShift.mesh c) < 5 := by
  have hp := Real.pi_pos
  have hp' := Real.pi_lt_d2
  have h2 : Real.pi ^ 2 < 10 := by nlinarith
  unfold Two.mag
  rw [Real.sqrt_lt' (by norm_num)]
  simp only [List.mem_cons, List.not_mem_nil, or_false] at h
  rcases h with rfl | rfl | rfl | rfl | rfl | rfl | rfl <;>
    simp [Two.kvec, Stats.gridVec, exShift] <;> linarith

theorem exShift_top : 51 / 10 ≤ Two.mag (Two.kvec exShift.mesh (1, 1, 1)) ∧
    Two.mag (Two.kvec exShift.mesh (1, 1, 1)) < 6 := by
  have hp := Real.pi_gt_d2
  have hp' := Real.pi_lt_d2
  have h2 : Real.pi ^ 2 < 10 := by nlinarith
  have h3 : 9 < Real.pi ^ 2 := by nlinarith
  unfold Two.mag
  constructor
  · apply Real.le_sqrt_of_sq_le
    simp [Two.kvec, Stats.gridVec, exShift]
    linarith
  · rw [Real.sqrt_lt' (by norm_num)]
    simp [Two.kvec, Stats.gridVec, exShift]
    linarith

/-- Only the mode `(1, 1, 1)` is in the bin. -/
theorem exShift_powspec (pos : List (Fin 3 → ℝ)) :
    (Two.computePowspecBox exShift pos 1).map (fun r => r.val.1) =
      [Two.fourier exShift.mesh (Mesh.fluctuations .ngp exShift.mesh false pos) 7 *
        (starRingEnd ℂ) (Two.fourier exShift.mesh (Mesh.fluctuations .ngp exShift.mesh false pos) 7)] := by
  have hwin : exShift.win (1, 1, 1) = 1 := by
    unfold Two.Env.win Two.Env.alias_ exShift
    simp [Win.aliasing, Win.aliasAxis]
  have hfil : ∀ (F : ℤ → ℂ) (amp : ℂ), (Two.modes2 exShift F F amp 0 0).filter
      (Stats.sel Stats.nSample Stats.dkSample 5 6) = [⟨Two.mag (Two.kvec exShift.mesh (1, 1, 1)),
        Win.modePower (F 7) (F 7) 1 1, Win.modeShot amp (exShift.alias_ (1, 1, 1)) 1 1⟩] := by
    intro F amp
    have hcells : Stats.cells exShift.mesh.n = [(0, 0, 0), (0, 0, 1), (0, 1, 0), (0, 1, 1), (1, 0, 0),
        (1, 0, 1), (1, 1, 0)] ++ [(1, 1, 1)] := rfl
    unfold Two.modes2
    rw [hcells, List.map_append, List.filter_append, List.filter_eq_nil_iff.2, List.nil_append, List.map_cons,
      List.map_nil, List.filter_cons_of_pos (exShift_high exShift_top.1 exShift_top.2 _), List.filter_nil]
    · simp only [hwin, Two.ylm_zero]
      rfl
    · intro x hx
      obtain ⟨c, hc, rfl⟩ := List.mem_map.1 hx
      exact exShift_low (Real.sqrt_nonneg _) (exShift_mag c hc) _
  unfold Two.computePowspecBox Two.statsFourier Two.output
  simp only
  rw [Two.binStats_eq]
  have e1 : exShift.numBins = 1 := rfl
  have e2 : exShift.ELL = 0 := rfl
  have e3 : exShift.edges.getD 0 0 = 5 := rfl
  have e4 : exShift.edges.getD (0 + 1) 0 = 6 := rfl
  have e5 : exShift.sch = .ngp := rfl
  have e6 : exShift.interlace = false := rfl
  rw [e1, e2, e5, e6]
  simp only [List.range_one, List.map_cons, List.map_nil, e3, e4, hfil]
  unfold Two.binOf Win.modePower
  simp

theorem exShift_root (x : ℤ) : Two.root 2 (-1 * (1 * x)) = (-1) ^ x.natAbs := by
  have h : Two.root 2 (-1) = -1 := by
    unfold Two.root
    rw [show (2 * (Real.pi : ℂ) * Complex.I * (((-1 : ℤ) : ℂ) / ((2 : ℤ) : ℂ))) = -(Real.pi * Complex.I) by
      push_cast; ring, Complex.exp_neg, Complex.exp_pi_mul_I]
    norm_num
  have h1 : Two.root 2 1 = -1 := by
    unfold Two.root
    rw [show (2 * (Real.pi : ℂ) * Complex.I * (((1 : ℤ) : ℂ) / ((2 : ℤ) : ℂ))) = Real.pi * Complex.I by
      push_cast; ring, Complex.exp_pi_mul_I]
  obtain ⟨m, rfl | rfl⟩ := x.eq_nat_or_neg
  · rw [one_mul, Two.root_mul_nat, h, Int.natAbs_natCast]
  · rw [show (-1 * (1 * -(m : ℤ)) : ℤ) = 1 * m by ring, Two.root_mul_nat, h1, Int.natAbs_neg, Int.natAbs_natCast]

/-- The field at the cells of two particles, nearest to the cells `(i, i, i)` and `(j, j, j)`. -/
theorem exShift_field {a b : ℝ} {i j : ℤ} (ha : Mesh.ngpAxis 2 a = [(i, 1)]) (hb : Mesh.ngpAxis 2 b = [(j, 1)])
    (hi : i = 0 ∨ i = 1) (hj : j = 0 ∨ j = 1) :
    Two.fourier exShift.mesh (Mesh.fluctuations .ngp exShift.mesh false [fun _ => a, fun _ => b]) 7 =
      (-1) ^ i.natAbs + (-1) ^ j.natAbs := by
  have hcells : Stats.cells exShift.mesh.n = [(0, 0, 0), (0, 0, 1), (0, 1, 0), (0, 1, 1), (1, 0, 0),
        (1, 0, 1), (1, 1, 0), (1, 1, 1)] := rfl
  have hc : ∀ x, Two.phase3 exShift.mesh.n (-1) (Two.cellOf exShift.mesh.n 7) x =
      (-1) ^ x.1.natAbs * (-1) ^ x.2.1.natAbs * (-1) ^ x.2.2.natAbs := by
    intro x
    rw [Two.phase3_eq, ← exShift_root, ← exShift_root, ← exShift_root]
    rfl
  have hv : exShift.mesh.volCell = 1 := by unfold Mesh.Mesh.volCell Mesh.Mesh.nmesh exShift; norm_num
  have hn : exShift.mesh.nmesh = 8 := rfl
  have hu : ∀ {x : ℝ} {k : ℤ}, Mesh.ngpAxis 2 x = [(k, 1)] → (k = 0 ∨ k = 1) →
      Mesh.particleUpdates .ngp exShift.mesh ⟨fun _ => x, fun c => if c then 0 else 1⟩ =
        [⟨7 * k, false, 1⟩, ⟨7 * k, true, 0⟩] := by
    intro x k hx hk
    have hl : ∀ ax, Mesh.axisStencil .ngp (exShift.mesh.n ax)
        (Mesh.locMain (exShift.mesh.n ax) (exShift.mesh.L ax) x) = [(k, 1)] := by
      intro ax
      rw [← hx]
      unfold Mesh.axisStencil Mesh.locMain exShift
      norm_num
    unfold Mesh.particleUpdates
    simp only [hl, Mesh.updatesOfStencils, List.flatMap_cons, List.flatMap_nil, List.append_nil, hn, hv]
    rcases hk with rfl | rfl <;> simp [Mesh.gridIndex, exShift]
  unfold Two.fourier Mesh.fluctuations Mesh.assignField Mesh.assign Mesh.allUpdates Mesh.unweighted
  simp only [List.map_cons, List.map_nil, List.flatMap_cons, List.flatMap_nil, List.append_nil, hu ha hi, hu hb hj, hn,
    Bool.false_eq_true, if_false, Two.dft, hcells, hc, hv, Two.cplx, Two.gid, Mesh.gridIndex, show ∀ a, exShift.mesh.n a = 2 from fun _ => rfl]
  rcases hi with rfl | rfl <;> rcases hj with rfl | rfl <;> apply Complex.ext <;>
    norm_num [Mesh.runUpdates, Mesh.applyUpdate] <;> ring

theorem ngp_near {x : ℝ} {i : ℤ} (h0 : (i : ℝ) - 1 / 2 ≤ x) (h1 : x < i + 1 / 2) (hx : 0 ≤ x) (hi : i = 0 ∨ i = 1) :
    Mesh.ngpAxis 2 x = [(i, 1)] := by
  unfold Mesh.ngpAxis Mesh.truncInt
  simp only [if_pos hx]
  by_cases h : (i : ℝ) ≤ x
  · have e : ⌊x⌋ = i := Int.floor_eq_iff.2 ⟨h, by linarith⟩
    rw [e, if_neg (by linarith)]
  · have h' := not_le.1 h
    have e : ⌊x⌋ = i - 1 := Int.floor_eq_iff.2 ⟨by push_cast; linarith, by push_cast; linarith⟩
    have hi' : i = 1 := by
      rcases hi with rfl | rfl
      · norm_num at h'; linarith
      · rfl
    subst hi'
    rw [e]
    norm_num at h0 ⊢
    linarith

/-- **C162 (violated).**  Two particles at `(0, 0, 0)` and `(3/5, 3/5, 3/5)` in a periodic box of size 2, with the mesh
of two cells on each axis: the program leaves them in different cells and measures no power in the mode `(1, 1, 1)`; the
Python functions move both into the same cell and measure power 4. -/
theorem C162_violated (σ : CStore Which ℝ) (hσ : σ .data = cpp2 0 (3 / 5)) (τ : Cat.Store ι ℝ) (data : ι)
    (hτ : τ data = py2 0 (3 / 5)) (p : Params ℝ) (hc : p.catType = "sim") (hb : ∀ i, p.box i = 2) :
    Holding (σ .data) (τ data).sent ∧
    ∃ P Q, programPos σ p = .ok P ∧ pythonPos τ data p.box = .ok Q ∧
      (Two.computePowspecBox exShift P 1).map (fun r => r.val.1) = [0] ∧
      (Two.computePowspecBox exShift Q 1).map (fun r => r.val.1) = [4] := by
  have hd : Holding (σ .data) (τ data).sent := by rw [hσ, hτ]; exact holding2 0 (3 / 5)
  refine ⟨hd, _, _, programPos_eq hd.loaded hc, pythonPos_eq hd p.box, ?_, ?_⟩
  · rw [hσ]
    simp only [CppCat.particles, cpp2, Option.getD_some, List.map_cons, List.map_nil, hb]
    rw [exShift_powspec, exShift_field (i := 0) (j := 1)]
    · simp
    · apply ngp_near <;> norm_num [wrapCoord]
    · apply ngp_near <;> norm_num [wrapCoord]
    · simp
    · simp
  · rw [hσ, hτ]
    simp only [CppCat.particles, cpp2, py2, Option.getD_some, List.map_cons, List.map_nil, hb]
    have e1 : pyMod ((0 : ℝ) + 2 / 2 - (3 / 5 + 0) / 2) 2 = 7 / 10 := by
      unfold pyMod
      rw [show ⌊((0 : ℝ) + 2 / 2 - (3 / 5 + 0) / 2) / 2⌋ = 0 from Int.floor_eq_iff.2 (by norm_num)]
      norm_num
    have e2 : pyMod ((3 / 5 : ℝ) + 2 / 2 - (3 / 5 + 0) / 2) 2 = 13 / 10 := by
      unfold pyMod
      rw [show ⌊((3 / 5 : ℝ) + 2 / 2 - (3 / 5 + 0) / 2) / 2⌋ = 0 from Int.floor_eq_iff.2 (by norm_num)]
      norm_num
    rw [e1, e2, exShift_powspec, exShift_field (i := 1) (j := 1)]
    · simp
      norm_num
    · apply ngp_near <;> norm_num
    · apply ngp_near <;> norm_num
    · simp
    · simp

/-- A box of size 4 with eight cells on each axis, particles at 0 and 1: three cells off the middle.  The positions
differ, the measurements do not. -/
example (p : Params ℝ) (hc : p.catType = "sim") (hb : p.box = fun _ => 4) :
    ∃ P Q, programPos (fun _ => cpp2 0 1) p = .ok P ∧ pythonPos (fun _ : Unit => py2 0 1) () p.box = .ok Q ∧ P ≠ Q ∧
      Two.computePowspecBox { exShift with mesh := ⟨fun _ => 8, fun _ => 4⟩ } Q 1 =
        Two.computePowspecBox { exShift with mesh := ⟨fun _ => 8, fun _ => 4⟩ } P 1 := by
  have ho : CellsOff (py2 0 1) p.box (fun _ => 8) (fun _ => 3) := by
    intro i
    simp only [py2, hb]
    norm_num
  have he : OffEdge (cpp2 0 1) p.box := by
    intro q hq i m hm h
    have hm' : (0 : ℝ) < m := by exact_mod_cast hm
    rw [hb] at h
    simp only [CppCat.particles, cpp2, Option.getD_some, List.mem_cons, List.not_mem_nil, or_false] at hq
    rcases hq with rfl | rfl <;> simp only at h <;> linarith
  obtain ⟨P, Q, h1, h2, h3⟩ := C162_two_point_partial (fun _ => cpp2 0 1) (fun _ : Unit => py2 0 1) ()
    (holding2 0 1) p hc { exShift with mesh := ⟨fun _ => 8, fun _ => 4⟩ } (fun _ => ⟨by norm_num, by norm_num⟩)
    hb.symm _ ho he 1
  have h3 := (h3 (by simp [exShift])).1
  refine ⟨P, Q, h1, h2, ?_, h3⟩
  rw [programPos_eq (holding2 0 1).loaded hc] at h1
  rw [pythonPos_eq (τ := fun _ : Unit => py2 0 1) (data := ()) (holding2 0 1)] at h2
  rintro rfl
  have h := (Except.ok.inj h1).trans (Except.ok.inj h2).symm
  simp only [CppCat.particles, cpp2, py2, Option.getD_some, List.map_cons, List.map_nil, hb, List.cons.injEq] at h
  have h := congrFun h.1 0
  unfold pyMod wrapCoord at h
  rw [show ⌊((0 : ℝ) + 4 / 2 - (1 + 0) / 2) / 4⌋ = 0 from Int.floor_eq_iff.2 (by norm_num)] at h
  norm_num at h

/-- A dipole measurement in a box of size 100 with eight cells on each axis, particles at 0 and 25: three cells off the
middle; all four measurements complete. -/
example (p : Params ℝ) (hc : p.catType = "sim") (hb : p.box = fun _ => 100) :
    ∃ P Q rows rows', programPos (fun _ => cpp2 0 25) p = .ok P ∧
      pythonPos (fun _ : Unit => py2 0 25) () p.box = .ok Q ∧
      Zeta.computeBispecBox Zeta.exN P 1 = .ok rows ∧ Zeta.computeBispecBox Zeta.exN Q 1 = .ok rows' ∧
      (rows'[1]?).map Bis.Row3.raw = (rows[1]?).map Bis.Row3.raw ∧
      ∃ zeta zeta', Zeta.compute3pcfBox Zeta.exN P 1 = .ok zeta ∧ Zeta.compute3pcfBox Zeta.exN Q 1 = .ok zeta' ∧
        (zeta'[1]?).map Zeta.RowZ.raw = (zeta[1]?).map Zeta.RowZ.raw := by
  have ho : CellsOff (py2 0 25) p.box (fun _ => 8) (fun _ => 3) := by
    intro i
    simp only [py2, hb]
    norm_num
  have he : OffEdge (cpp2 0 25) p.box := by
    intro q hq i m hm h
    have hm' : (0 : ℝ) < m := by exact_mod_cast hm
    rw [hb] at h
    simp only [CppCat.particles, cpp2, Option.getD_some, List.mem_cons, List.not_mem_nil, or_false] at hq
    rcases hq with rfl | rfl <;> simp only at h <;> linarith
  have hM : Zeta.exN.mesh.Valid := fun a => ⟨show (0 : ℤ) < 8 by norm_num, show (0 : ℝ) < 100 by norm_num⟩
  have hres : Zeta.Resolved Zeta.exN.mesh := by
    intro a
    show (1 : ℝ) / 1000000000 ≤ 100 / ((8 : ℤ) : ℝ)
    norm_num
  have hw : Two.epsCoupling ≤ |Zeta.exN.w3j Zeta.exN.ell1 Zeta.exN.ell2 Zeta.exN.ELL 0 0 0| := by
    show Two.epsCoupling ≤ |Bis.exW 1 1 2 0 0 0|
    unfold Bis.exW Two.epsCoupling
    norm_num
  have hf : Zeta.exN.form ≠ .full ∨ Zeta.exN.ell1 ≠ 0 := Or.inl (by decide)
  have hm : (⟨1, 1, 1⟩ : ThreePt.Entry) ∈ ThreePt.measWrites Zeta.exN.numBins Zeta.exN.form := by
    show (⟨1, 1, 1⟩ : ThreePt.Entry) ∈ ThreePt.measWrites 2 .diag
    decide
  obtain ⟨P, Q, h1, h2, h3⟩ := C162_bispec_partial (fun _ => cpp2 0 25) (fun _ : Unit => py2 0 25) ()
    (holding2 0 25) p hc Zeta.exN hM hb.symm trivial _ ho he 1
  obtain ⟨P', Q', h1', h2', h3'⟩ := C162_3pcf_partial (fun _ => cpp2 0 25) (fun _ : Unit => py2 0 25) ()
    (holding2 0 25) p hc Zeta.exN Bis.exP_like hM hres hb.symm trivial _ ho he 1
  obtain rfl := Except.ok.inj (h1.symm.trans h1')
  obtain rfl := Except.ok.inj (h2.symm.trans h2')
  obtain ⟨r, k, _⟩ := Zeta.C37_box_defined_partial Zeta.exN P 1 hw hf
  obtain ⟨r', k', _⟩ := Zeta.C37_box_defined_partial Zeta.exN Q 1 hw hf
  obtain ⟨-, ⟨z, l, _⟩, -⟩ := Zeta.C37_3pcf_defined Zeta.exN hw trivial [] [] P 1 1 none
  obtain ⟨-, ⟨z', l', _⟩, -⟩ := Zeta.C37_3pcf_defined Zeta.exN hw trivial [] [] Q 1 1 none
  have hi : Zeta.exN.interlace = true → Zeta.exN.interlace = false → False := by simp
  exact ⟨P, Q, r, r', h1, h2, k, k', (h3 (fun q => (hi q rfl).elim) r r' k k' _ hm).1, z, z', l, l', (h3' (fun q => (hi q rfl).elim) z z' l l' _ hm).1⟩

/-- Interlaced, nearest grid point, a box of size 4 with four cells on each axis, particles at 0 and 1: one cell and a
half off the middle; the positions are 0 and 1 by the program, 3/2 and 5/2 by Python. -/
example (p : Params ℝ) (hc : p.catType = "sim") (hb : p.box = fun _ => 4) :
    ∃ P Q, programPos (fun _ => cpp2 0 1) p = .ok P ∧ pythonPos (fun _ : Unit => py2 0 1) () p.box = .ok Q ∧
      P = [fun _ => 0, fun _ => 1] ∧ Q = [fun _ => 3 / 2, fun _ => 5 / 2] ∧
      Two.computePowspecBox { exShift with mesh := ⟨fun _ => 4, fun _ => 4⟩, interlace := true } Q 1 =
        Two.computePowspecBox { exShift with mesh := ⟨fun _ => 4, fun _ => 4⟩, interlace := true } P 1 := by
  have ho : HalfCellsOff (py2 0 1) p.box (fun _ => 4) (fun _ => 1) := by
    intro i
    simp only [py2, hb]
    norm_num
  have he : OffEdge (cpp2 0 1) p.box := by
    intro q hq i m hm h
    have hm' : (0 : ℝ) < m := by exact_mod_cast hm
    rw [hb] at h
    simp only [CppCat.particles, cpp2, Option.getD_some, List.mem_cons, List.not_mem_nil, or_false] at hq
    rcases hq with rfl | rfl <;> simp only at h <;> linarith
  obtain ⟨P, Q, h1, h2, h3⟩ := C162_half_partial (fun _ => cpp2 0 1) (fun _ : Unit => py2 0 1) ()
    (holding2 0 1) p hc { exShift with mesh := ⟨fun _ => 4, fun _ => 4⟩, interlace := true }
    (fun _ => ⟨by norm_num, by norm_num⟩) (fun _ => by norm_num) hb.symm rfl _ ho he 1
  have hP : P = [fun _ => 0, fun _ => 1] := by
    rw [programPos_eq (holding2 0 1).loaded hc] at h1
    rw [← Except.ok.inj h1]
    simp only [CppCat.particles, cpp2, Option.getD_some, List.map_cons, List.map_nil, hb]
    norm_num [wrapCoord]
  have hQ : Q = [fun _ => 3 / 2, fun _ => 5 / 2] := by
    rw [pythonPos_eq (τ := fun _ : Unit => py2 0 1) (data := ()) (holding2 0 1)] at h2
    rw [← Except.ok.inj h2]
    simp only [CppCat.particles, cpp2, py2, Option.getD_some, List.map_cons, List.map_nil, hb]
    unfold pyMod
    rw [show ⌊((0 : ℝ) + 4 / 2 - (1 + 0) / 2) / 4⌋ = 0 from Int.floor_eq_iff.2 (by norm_num),
      show ⌊((1 : ℝ) + 4 / 2 - (1 + 0) / 2) / 4⌋ = 0 from Int.floor_eq_iff.2 (by norm_num)]
    norm_num
  refine ⟨P, Q, h1, h2, hP, hQ, (h3 ?_).1⟩
  rw [hP, hQ]
  intro x hx ax
  show ¬ Mesh.BadShift .ngp (4 : ℤ) (4 : ℝ) (x ax)
  unfold Mesh.BadShift
  simp only [List.cons_append, List.nil_append, List.mem_cons, List.not_mem_nil, or_false] at hx
  rcases hx with rfl | rfl | rfl | rfl <;> simp only [reduceCtorEq, false_and, or_false] <;> norm_num

end Trv.E2E

import Verif.Lemmas.TwoPtSums
import Verif.Lemmas.PairCount
import Verif.Lemmas.PairWitness
import Verif.Props.ThreePcf
/-
Property theorems on the two-point measurements as means over modes and separations (C107), and on
correlation functions as numbers of pairs (C108).
-/
namespace Trv.Two
open Trv.Mesh Trv.Stats Trv.Win Trv.Bis

/-! ### C107 -/

theorem output_row {V : Type} [AddCommGroup V] [Module ℝ V] (E : Env) (norm : ℝ) (st : ℕ → Saved V)
    {i : ℕ} (hi : i < E.numBins) :
    (output E norm st)[i]? = some ⟨E.centres.getD i 0, (st i).len, (st i).num, norm • (st i).val⟩ := by
  unfold output
  rw [List.getElem?_map, List.getElem?_range hi]
  rfl

theorem coupling2_eq (E : Env) (m M : ℤ) : coupling2 E E.ELL E.ELL m M = coupling E m M := by
  unfold coupling2 coupling
  push_cast
  ring

theorem smul_sum_fst (E : Env) (norm : ℝ) (f : ℤ → ℤ → ℂ × ℂ) :
    norm • (∑ M ∈ Finset.Icc (-(E.ELL : ℤ)) E.ELL, ∑ m ∈ Finset.Icc (-(E.ELL : ℤ)) E.ELL,
      if |coupling2 E E.ELL E.ELL m M| < epsCoupling then 0
      else coupling2 E E.ELL E.ELL m M • f M m) =
    ((norm : ℂ) * coupledSum E (fun M m => (f M m).1), (norm : ℂ) * coupledSum E fun M m => (f M m).2) := by
  simp only [coupling2_eq]
  unfold coupledSum epsCoupling
  apply Prod.ext
  · rw [Prod.smul_fst, Complex.real_smul, Prod.fst_sum]
    congr 1
    apply Finset.sum_congr rfl
    intro M _
    rw [Prod.fst_sum]
    apply Finset.sum_congr rfl
    intro m _
    split_ifs
    · rfl
    · rw [Prod.smul_fst, Complex.real_smul]
  · rw [Prod.smul_snd, Complex.real_smul, Prod.snd_sum]
    congr 1
    apply Finset.sum_congr rfl
    intro M _
    rw [Prod.snd_sum]
    apply Finset.sum_congr rfl
    intro m _
    split_ifs
    · rfl
    · rw [Prod.smul_snd, Complex.real_smul]

theorem smul_sum (E : Env) (norm : ℝ) (f : ℤ → ℤ → ℂ) :
    norm • (∑ M ∈ Finset.Icc (-(E.ELL : ℤ)) E.ELL, ∑ m ∈ Finset.Icc (-(E.ELL : ℤ)) E.ELL,
      if |coupling2 E E.ELL E.ELL m M| < epsCoupling then 0
      else coupling2 E E.ELL E.ELL m M • f M m) = (norm : ℂ) * coupledSum E f := by
  simp only [coupling2_eq]
  unfold coupledSum epsCoupling
  rw [Complex.real_smul]
  rfl

/-- **C107 (power spectrum).** Each line of `compute_powspec` is that of its bin: the centre, the
number of modes, their mean wavenumber, and the coupled sums over the orders of the means over the
modes of the bin of the compensated power of the two fields, and of the shot noise, weighted by the
harmonic. -/
theorem C107_power_spectrum (E : Env) (data rand : List Part) (norm : ℝ) (i : ℕ) (hi : i < E.numBins) :
    ∃ r, (computePowspec E data rand norm)[i]? = some r ∧ r.bin = E.centres.getD i 0 ∧
      (1 / 1000000000 ≤ |coupling E 0 0| → r.num = (modesIn E i).card ∧
        r.eff = meanLen (modesIn E i) (fun c => mag (kvec E.mesh c)) (E.centres.getD i 0)) ∧
      r.val.1 = (norm : ℂ) * coupledSum E (fun M m => meanOver (modesIn E i) fun c =>
        power E (fourier E.mesh (dnField E data rand (alphaOf data rand) E.ELL M))
          (fourier E.mesh (dnField E data rand (alphaOf data rand) 0 0)) c * E.ylm E.ELL m (kvec E.mesh c)) ∧
      r.val.2 = (norm : ℂ) * coupledSum E (fun M m => meanOver (modesIn E i) fun c =>
        shotAmp2 E data rand (alphaOf data rand) E.ELL M * (E.alias_ c : ℂ) / (E.win c : ℂ) *
          E.ylm E.ELL m (kvec E.mesh c)) := by
  unfold computePowspec
  simp only
  rw [output_row E norm _ hi]
  refine ⟨_, rfl, rfl, ?_, ?_⟩
  · intro hc
    rw [← coupling2_eq] at hc
    have := sumOrders_num E (fun M m1 => statsFourier E
      (fourier E.mesh (dnField E data rand (alphaOf data rand) E.ELL M))
      (fourier E.mesh (dnField E data rand (alphaOf data rand) 0 0))
      (shotAmp2 E data rand (alphaOf data rand) E.ELL M) E.ELL m1) i hc
    rw [statsFourier_bin E _ _ _ _ _ hi] at this
    exact this
  · simp only
    rw [sumOrders_val]
    simp only [statsFourier_bin E _ _ _ _ _ hi]
    rw [smul_sum_fst]
    exact ⟨rfl, rfl⟩

/-- **C107 (correlation function).** Each line of `compute_corrfunc` is that of its bin: the number
of separations on the mesh, their mean, and the coupled sums over the orders of the means over the
separations of the bin of the correlation less shot noise, weighted by the harmonic. -/
theorem C107_correlation_function (E : Env) (hn : ∀ a, 0 < E.mesh.n a) (data rand : List Part)
    (norm : ℝ) (i : ℕ) (hi : i < E.numBins) :
    ∃ r, (computeCorrfunc E data rand norm)[i]? = some r ∧ r.bin = E.centres.getD i 0 ∧
      (1 / 1000000000 ≤ |coupling E 0 0| → r.num = (sepsIn E i).card ∧
        r.eff = meanLen (sepsIn E i) (fun c => mag (rvec E.mesh c)) (E.centres.getD i 0)) ∧
      r.val = (norm : ℂ) * coupledSum E (fun M m => meanOver (sepsIn E i) fun c =>
        Zeta.corr E (fourier E.mesh (dnField E data rand (alphaOf data rand) E.ELL M))
          (fourier E.mesh (dnField E data rand (alphaOf data rand) 0 0))
          (shotAmp2 E data rand (alphaOf data rand) E.ELL M) c * E.ylm E.ELL m (rvec E.mesh c)) := by
  unfold computeCorrfunc
  simp only
  rw [output_row E norm _ hi]
  refine ⟨_, rfl, rfl, ?_, ?_⟩
  · intro hc
    rw [← coupling2_eq] at hc
    have := sumOrders_num E (fun M m1 => statsConfig E
      (fourier E.mesh (dnField E data rand (alphaOf data rand) E.ELL M))
      (fourier E.mesh (dnField E data rand (alphaOf data rand) 0 0))
      (shotAmp2 E data rand (alphaOf data rand) E.ELL M) E.ELL m1) i hc
    rw [statsConfig_bin E hn _ _ _ _ _ hi] at this
    exact this
  · simp only
    rw [sumOrders_val]
    simp only [statsConfig_bin E hn _ _ _ _ _ hi]
    rw [smul_sum]

/-- **C107 (box).** The same in a periodic box, along the line of sight of the `z` axis: the means of
the fluctuations with the harmonic of order zero, times `2 ELL + 1`. -/
theorem C107_box (E : Env) (hn : ∀ a, 0 < E.mesh.n a) (pos : List (Fin 3 → ℝ)) (norm : ℝ) (i : ℕ)
    (hi : i < E.numBins) :
    (∃ r, (computePowspecBox E pos norm)[i]? = some r ∧ r.bin = E.centres.getD i 0 ∧
      r.num = (modesIn E i).card ∧
      r.eff = meanLen (modesIn E i) (fun c => mag (kvec E.mesh c)) (E.centres.getD i 0) ∧
      r.val.1 = (norm : ℂ) * ((2 * E.ELL + 1) * meanOver (modesIn E i) fun c =>
        power E (fourier E.mesh (fluctuations E.sch E.mesh E.interlace pos))
          (fourier E.mesh (fluctuations E.sch E.mesh E.interlace pos)) c * E.ylm E.ELL 0 (kvec E.mesh c)) ∧
      r.val.2 = (norm : ℂ) * ((2 * E.ELL + 1) * meanOver (modesIn E i) fun c =>
        (pos.length : ℂ) * (E.alias_ c : ℂ) / (E.win c : ℂ) * E.ylm E.ELL 0 (kvec E.mesh c))) ∧
    ∃ r, (computeCorrfuncBox E pos norm)[i]? = some r ∧ r.bin = E.centres.getD i 0 ∧
      r.num = (sepsIn E i).card ∧
      r.eff = meanLen (sepsIn E i) (fun c => mag (rvec E.mesh c)) (E.centres.getD i 0) ∧
      r.val = (norm : ℂ) * ((2 * E.ELL + 1) * meanOver (sepsIn E i) fun c =>
        Zeta.corr E (fourier E.mesh (fluctuations E.sch E.mesh E.interlace pos))
          (fourier E.mesh (fluctuations E.sch E.mesh E.interlace pos)) (pos.length : ℂ) c *
          E.ylm E.ELL 0 (rvec E.mesh c)) := by
  constructor
  · unfold computePowspecBox
    simp only
    rw [output_row E norm _ hi]
    refine ⟨_, rfl, rfl, ?_⟩
    simp only [statsFourier_bin E _ _ _ _ _ hi]
    refine ⟨trivial, trivial, ?_, ?_⟩
    · rw [Prod.smul_fst, Prod.smul_fst, Complex.real_smul, Complex.real_smul]
      push_cast
      rfl
    · rw [Prod.smul_snd, Prod.smul_snd, Complex.real_smul, Complex.real_smul]
      push_cast
      rfl
  · unfold computeCorrfuncBox
    simp only
    rw [output_row E norm _ hi]
    refine ⟨_, rfl, rfl, ?_⟩
    simp only [statsConfig_bin E hn _ _ _ _ _ hi]
    refine ⟨trivial, trivial, ?_⟩
    rw [Complex.real_smul, Complex.real_smul]
    push_cast
    rfl

/-! ### C108 -/

theorem meanOver_congr {S : Finset (ℤ × ℤ × ℤ)} {f g : ℤ × ℤ × ℤ → ℂ} (h : ∀ c ∈ S, f c = g c) :
    meanOver S f = meanOver S g := by
  unfold meanOver
  rw [Finset.sum_congr rfl h]

theorem coupledSum_congr {E : Env} {f g : ℤ → ℤ → ℂ} (h : ∀ M m, f M m = g M m) :
    coupledSum E f = coupledSum E g := by
  rw [show f = g from funext fun M => funext (h M)]

theorem seps_box (E : Env) {i : ℕ} {c : ℤ × ℤ × ℤ} (hc : c ∈ sepsIn E i) : c ∈ box E.mesh.n := by
  unfold sepsIn at hc
  exact (Finset.mem_filter.1 hc).1

/-- **C108 (correlation function).** With nearest-grid-point assignment and no interlacing, the
correlation function counts weighted pairs of DIFFERENT particles of the combined catalogue (randoms
weighted by `-alpha`) at each separation on the mesh, per volume of a cell. -/
theorem C108_correlation_pairs (E : Env) (hM : E.mesh.Valid) (hs : E.sch = .ngp)
    (hI : E.interlace = false) (data rand : List Part) (hd : Zeta.AllInside E.mesh data)
    (hr : Zeta.AllInside E.mesh rand) (norm : ℝ) (i : ℕ) (hi : i < E.numBins) :
    ((computeCorrfunc E data rand norm)[i]?).map Row.val =
      some ((norm : ℂ) * coupledSum E fun M m => meanOver (sepsIn E i) fun c =>
        Zeta.pairCount E.mesh.n (Zeta.pointsOf E 1 1 M data ++
          Zeta.pointsOf E 1 (-(alphaOf data rand)) M rand) c / (E.mesh.volCell : ℂ) *
          E.ylm E.ELL m (rvec E.mesh c)) := by
  obtain ⟨r, h, _, _, hv⟩ := C107_correlation_function E (fun a => (hM a).1) data rand norm i hi
  rw [h, Option.map_some, hv]
  rw [coupledSum_congr fun M m => meanOver_congr fun c hc => by
    rw [Zeta.corr_two E hM hs hI data rand hd hr (alphaOf data rand) M (seps_box E hc)]]

/-- **C108 (correlation function in a box).** The number of pairs of different particles at each
separation, less the number expected of the mean density. -/
theorem C108_correlation_pairs_box (E : Env) (hM : E.mesh.Valid) (hs : E.sch = .ngp)
    (hI : E.interlace = false) (pos : List (Fin 3 → ℝ))
    (hp : ∀ x ∈ pos, ∀ a, 0 ≤ x a ∧ x a < E.mesh.L a) (norm : ℝ) (i : ℕ) (hi : i < E.numBins) :
    ((computeCorrfuncBox E pos norm)[i]?).map Row.val =
      some ((norm : ℂ) * ((2 * E.ELL + 1) * meanOver (sepsIn E i) fun c =>
        (Zeta.pairCount E.mesh.n (Zeta.pointsBox E.mesh pos) c / (E.mesh.volCell : ℂ) -
          (pos.length : ℂ) ^ 2 / (vol E.mesh : ℂ)) * E.ylm E.ELL 0 (rvec E.mesh c))) := by
  obtain ⟨_, r, h, _, _, _, hv⟩ := C107_box E (fun a => (hM a).1) pos norm i hi
  rw [h, Option.map_some, hv]
  rw [meanOver_congr fun c hc => by
    rw [Zeta.corr_box E hM hs hI pos hp _ (Or.inr rfl) (seps_box E hc)]]

end Trv.Two

namespace Trv.Zeta
open Trv.Mesh Trv.Stats Trv.Win Trv.Two Trv.ThreePt Trv.Bis

theorem shell_box (E : Env3) {b : ℤ} {c : ℤ × ℤ × ℤ} (hc : c ∈ shell E b) : c ∈ box E.mesh.n := by
  unfold shell at hc
  exact (Finset.mem_filter.1 hc).1

theorem selfSum_pairs (E : Env3) (ts : List Triplet) (fa : ℤ → ℤ → ℂ) (fb : ℤ → ℂ) (amp : ℤ → ℂ)
    (ξ : ℤ → ℤ × ℤ × ℤ → ℂ) (b : ℤ) (h : ∀ M, ∀ c ∈ shell E b, corr E.toEnv (fa M) fb (amp M) c = ξ M c) :
    selfSum E ts fa fb amp b = pairSum E ts ξ b := by
  unfold selfSum pairSum
  congr 1
  apply List.map_congr_left
  intro t _
  congr 2
  unfold selfPairs shellPairs
  congr 2
  apply Finset.sum_congr rfl
  intro c hc
  rw [h t.M c hc]

/-- **C108 (three-point shot noise of the window).** With nearest-grid-point assignment and no
interlacing, and for even `ell1 + ell2`, the shot noise of the window at equal bins counts pairs of
DIFFERENT particles, the second weighted by its squared weight, at the separations of the bin. -/
theorem C108_window_shotnoise_pairs (E : Env3) (hP : LegendreLike E.P) (hM : E.mesh.Valid)
    (hr : Resolved E.mesh) (hf : ValidForm E.numBins E.form) (hev : Even (E.ell1 + E.ell2))
    (hs : E.sch = .ngp) (hI : E.interlace = false) (rand : List Part) (hd : AllInside E.mesh rand)
    (alpha norm : ℝ) (wa : Option (ℕ × ℕ)) (rows : List RowZ)
    (h : compute3pcfWindow E rand alpha wa norm = .ok rows) (e : Entry)
    (he : e ∈ measWrites E.numBins E.form) (hrc : e.row = e.col) :
    (rows[e.pos.toNat]?).map RowZ.shot = some ((norm : ℂ) * pairSum E (triplets E)
      (fun M c => pairCount E.mesh.n (pointsOf E.toEnv 2 alpha M rand) c / (E.mesh.volCell : ℂ)) e.row) := by
  rw [(C106_shotnoise_partial E hP hM hr hf hev [] rand [] alpha norm wa rows e he).2.2 h, if_pos hrc,
    selfSum_pairs E _ _ _ _ _ _ fun M c hc => corr_window E.toEnv hM hs hI rand hd alpha M (shell_box E hc)]

/-- **C108 (three-point shot noise in a box).** The same in a periodic box: pairs of different
particles less the number expected of the mean density. -/
theorem C108_box_shotnoise_pairs (E : Env3) (hP : LegendreLike E.P) (hM : E.mesh.Valid)
    (hr : Resolved E.mesh) (hf : ValidForm E.numBins E.form) (hev : Even (E.ell1 + E.ell2))
    (hs : E.sch = .ngp) (hI : E.interlace = false) (pos : List (Fin 3 → ℝ))
    (hp : ∀ x ∈ pos, ∀ a, 0 ≤ x a ∧ x a < E.mesh.L a) (norm : ℝ) (rows : List RowZ)
    (h : compute3pcfBox E pos norm = .ok rows) (e : Entry)
    (he : e ∈ measWrites E.numBins E.form) (hrc : e.row = e.col) :
    (rows[e.pos.toNat]?).map RowZ.shot = some ((norm : ℂ) * pairSum E (tripletsGpp E)
      (fun _ c => pairCount E.mesh.n (pointsBox E.mesh pos) c / (E.mesh.volCell : ℂ) -
        (pos.length : ℂ) ^ 2 / (vol E.mesh : ℂ)) e.row) := by
  rw [(C106_shotnoise_partial E hP hM hr hf hev [] [] pos 0 norm none rows e he).2.1 h, if_pos hrc,
    selfSum_pairs E _ _ _ _ _ _ fun M c hc => corr_box E.toEnv hM hs hI pos hp _ (Or.inl rfl)
      (shell_box E hc)]

/-- **C108 (three-point shot noise of a survey, part).** The same for the combined catalogue
(randoms weighted by `-alpha`), at bins without the zero separation. -/
theorem C108_survey_shotnoise_pairs_partial (E : Env3) (hP : LegendreLike E.P) (hM : E.mesh.Valid)
    (hr : Resolved E.mesh) (hf : ValidForm E.numBins E.form) (hev : Even (E.ell1 + E.ell2))
    (hs : E.sch = .ngp) (hI : E.interlace = false) (data rand : List Part)
    (hd : AllInside E.mesh data) (hd' : AllInside E.mesh rand) (norm : ℝ) (rows : List RowZ)
    (h : compute3pcf E data rand norm = .ok rows) (e : Entry)
    (he : e ∈ measWrites E.numBins E.form) (hrc : e.row = e.col) (h0 : (0, 0, 0) ∉ shell E e.row) :
    (rows[e.pos.toNat]?).map RowZ.shot = some ((norm : ℂ) * pairSum E (triplets E)
      (fun M c => pairCount E.mesh.n (pointsOf E.toEnv 2 1 M data ++
        pointsOf E.toEnv 2 (-(alphaOf data rand)) M rand) c / (E.mesh.volCell : ℂ)) e.row) := by
  rw [(C106_shotnoise_partial E hP hM hr hf hev data rand [] 0 norm none rows e he).1 h, if_pos hrc,
    selfSum_pairs E _ _ _ _ _ _ fun M c hc => by
      rw [corr_survey E.toEnv hM hs hI data rand hd hd' _ M (shell_box E hc),
        if_neg (fun h : c = (0, 0, 0) => h0 (h ▸ hc)), sub_zero]]

/-! Witnesses: a mesh of cells of sizes 100, 10 and 1 and two particles of unit weight. -/

theorem exZ_entry (a b c : ℕ) (lo hi : ℝ) :
    (⟨0, 0, 0⟩ : Entry) ∈ measWrites (exZ a b c lo hi).numBins (exZ a b c lo hi).form := by
  show (⟨0, 0, 0⟩ : Entry) ∈ measWrites ((1 : ℕ) : ℤ) .diag
  decide

theorem exZ_w3j (a b c : ℕ) (lo hi : ℝ) :
    epsCoupling ≤ |(exZ a b c lo hi).w3j (exZ a b c lo hi).ell1 (exZ a b c lo hi).ell2
      (exZ a b c lo hi).ELL 0 0 0| := by
  show epsCoupling ≤ |zeroW a b c 0 0 0|
  unfold zeroW epsCoupling
  norm_num

/-- **C108 (violated).** At a bin with the zero separation the shot noise of a survey is not the count
of pairs of different particles: the self-pairs of the random catalogue are added instead of
subtracted (`threept.cpp:207`). -/
theorem C108_survey_shotnoise_violated :
    ∃ (E : Env3) (data rand : List Part) (rows : List RowZ) (e : Entry), LegendreLike E.P ∧
      E.mesh.Valid ∧ Resolved E.mesh ∧ ValidForm E.numBins E.form ∧ Even (E.ell1 + E.ell2) ∧
      E.sch = .ngp ∧ E.interlace = false ∧ AllInside E.mesh data ∧ AllInside E.mesh rand ∧
      compute3pcf E data rand 1 = .ok rows ∧ e ∈ measWrites E.numBins E.form ∧ e.row = e.col ∧
      (rows[e.pos.toNat]?).map RowZ.shot ≠ some (((1 : ℝ) : ℂ) * pairSum E (triplets E)
        (fun M c => pairCount E.mesh.n (pointsOf E.toEnv 2 1 M data ++
          pointsOf E.toEnv 2 (-(alphaOf data rand)) M rand) c / (E.mesh.volCell : ℂ)) e.row) := by
  obtain ⟨rows, h, _⟩ := (C37_3pcf_defined (exZ 0 0 0 0 1) (exZ_w3j _ _ _ _ _) trivial [exPart 0 1]
    [exPart 2 1] [] 0 1 none).1
  refine ⟨exZ 0 0 0 0 1, [exPart 0 1], [exPart 2 1], rows, ⟨0, 0, 0⟩, exP_like, exZ_valid _ _ _ _ _,
    exZ_resolved _ _ _ _ _, trivial, ⟨0, rfl⟩, rfl, rfl,
    exZ_inside _ _ _ _ _ _ _ (by norm_num) (by norm_num),
    exZ_inside _ _ _ _ _ _ _ (by norm_num) (by norm_num), h, exZ_entry _ _ _ _ _, rfl, ?_⟩
  rw [(C106_shotnoise_partial (exZ 0 0 0 0 1) exP_like (exZ_valid _ _ _ _ _) (exZ_resolved _ _ _ _ _)
    trivial ⟨0, rfl⟩ _ _ [] 0 1 none rows ⟨0, 0, 0⟩ (exZ_entry _ _ _ _ _)).1 h, if_pos rfl, exZ_triplets,
    selfSum_zeros, pairSum_zeros]
  unfold selfPairs shellPairs
  rw [shell_zero, Finset.sum_singleton, Finset.sum_singleton,
    corr_survey (exZ 0 0 0 0 1).toEnv (exZ_valid _ _ _ _ _) rfl rfl _ _
      (exZ_inside _ _ _ _ _ _ _ (by norm_num) (by norm_num))
      (exZ_inside _ _ _ _ _ _ _ (by norm_num) (by norm_num)) _ _
      (zero_mem fun a => (exZ_valid 0 0 0 0 1 a).1), if_pos rfl, exZ_coupling, if_pos rfl]
  have ha : alphaOf [exPart 0 1] [exPart 2 1] = 1 := by
    unfold alphaOf wsTotal exPart
    norm_num
  have hy : ylmSum (exZ 0 0 0 0 1).toEnv 3 (exZ 0 0 0 0 1).ELL 0 [exPart 2 1] = 1 := by
    unfold ylmSum
    rw [List.map_singleton, List.sum_singleton, show (exZ 0 0 0 0 1).ELL = 0 from rfl, exZ_ylm0]
    unfold Part.w exPart
    norm_num
  rw [ha, hy, show (exZ 0 0 0 0 1).ell1 = 0 from rfl, show (exZ 0 0 0 0 1).ell2 = 0 from rfl, exZ_ylm0]
  have hv : ((exZ 0 0 0 0 1).mesh.volCell : ℂ) ≠ 0 := by
    exact_mod_cast exZ_vc _ _ _ _ _
  beta_reduce
  generalize ((exZ 0 0 0 0 1).mesh.volCell : ℂ) = v at hv
  generalize pairCount _ _ _ = x
  intro hh
  have hh := Option.some.inj hh
  simp only [Finset.card_singleton] at hh
  field_simp at hh
  norm_num at hh

theorem pair_ex {x y : Point} (n : Fin 3 → ℤ) (c : ℤ × ℤ × ℤ) (h1 : Apart n c y.cell x.cell)
    (h2 : ¬ Apart n c x.cell y.cell) : pairCount n [x, y] c = y.w * (x.ww : ℂ) := by
  classical
  unfold pairCount
  show ∑ i : Fin 2, ∑ j : Fin 2, (if i ≠ j ∧ Apart n c ([x, y].get i).cell ([x, y].get j).cell then
    ([x, y].get i).w * (([x, y].get j).ww : ℂ) else 0) = _
  rw [Fin.sum_univ_two, Fin.sum_univ_two, Fin.sum_univ_two, if_neg (fun h => h.1 rfl),
    if_neg (fun h => h2 h.2), if_pos ⟨by decide, h1⟩, if_neg (fun h => h.1 rfl)]
  simp

theorem pair_ex' {x y : Point} (n : Fin 3 → ℤ) (c : ℤ × ℤ × ℤ) (h1 : Apart n c x.cell y.cell)
    (h2 : ¬ Apart n c y.cell x.cell) : pairCount n [x, y] c = x.w * (y.ww : ℂ) := by
  classical
  unfold pairCount
  show ∑ i : Fin 2, ∑ j : Fin 2, (if i ≠ j ∧ Apart n c ([x, y].get i).cell ([x, y].get j).cell then
    ([x, y].get i).w * (([x, y].get j).ww : ℂ) else 0) = _
  rw [Fin.sum_univ_two, Fin.sum_univ_two, Fin.sum_univ_two, if_neg (fun h => h.1 rfl),
    if_pos ⟨by decide, h1⟩, if_neg (fun h => h2 h.2), if_neg (fun h => h.1 rfl)]
  simp

/-- The weight of the window measured from two particles seen in opposite directions. -/
theorem exZ_pairs :
    pairSum (exZ 1 0 1 1 2) [⟨0, 0, 0⟩] (fun M c => pairCount (exZ 1 0 1 1 2).mesh.n
      (pointsOf (exZ 1 0 1 1 2).toEnv 2 1 M [exPart (0 : ℕ) 1, exPart (1 : ℕ) (-1)]) c /
        ((exZ 1 0 1 1 2).mesh.volCell : ℂ)) 0 ≠ 0 := by
  have hv : ((exZ 1 0 1 1 2).mesh.volCell : ℂ) ≠ 0 := by
    exact_mod_cast exZ_vc _ _ _ _ _
  have hn : (exZ 1 0 1 1 2).mesh.n = fun _ => 4 := rfl
  have e1 : ∀ c, Apart (fun _ => 4) c (0, 0, 1) (0, 0, 0) → ¬ Apart (fun _ => 4) c (0, 0, 0) (0, 0, 1) →
      pairCount (exZ 1 0 1 1 2).mesh.n
      (pointsOf (exZ 1 0 1 1 2).toEnv 2 1 0 [exPart (0 : ℕ) 1, exPart (1 : ℕ) (-1)]) c =
      ((-Real.sqrt (4 * Real.pi / 3) : ℝ) : ℂ) := by
    intro c h1 h2
    unfold pointsOf
    rw [List.map_cons, List.map_singleton, nearest_ex, nearest_ex, hn, pair_ex _ _ h1 h2]
    show ((1 : ℝ) : ℂ) * ((exZ 1 0 1 1 2).ylm 1 0 ![0, 0, -1] * ((exPart (1 : ℕ) (-1)).w : ℂ)) *
      (((1 * (exPart (0 : ℕ) 1).w) ^ 2 : ℝ) : ℂ) = _
    rw [exZ_ylm1 _ _ _ _ _ _ rfl rfl (Or.inr rfl)]
    unfold Part.w exPart
    push_cast
    simp
  have e2 : ∀ c, Apart (fun _ => 4) c (0, 0, 0) (0, 0, 1) → ¬ Apart (fun _ => 4) c (0, 0, 1) (0, 0, 0) →
      pairCount (exZ 1 0 1 1 2).mesh.n
      (pointsOf (exZ 1 0 1 1 2).toEnv 2 1 0 [exPart (0 : ℕ) 1, exPart (1 : ℕ) (-1)]) c =
      ((Real.sqrt (4 * Real.pi / 3) : ℝ) : ℂ) := by
    intro c h1 h2
    unfold pointsOf
    rw [List.map_cons, List.map_singleton, nearest_ex, nearest_ex, hn, pair_ex' _ _ h1 h2]
    show ((1 : ℝ) : ℂ) * ((exZ 1 0 1 1 2).ylm 1 0 ![0, 0, 1] * ((exPart (0 : ℕ) 1).w : ℂ)) *
      (((1 * (exPart (1 : ℕ) (-1)).w) ^ 2 : ℝ) : ℂ) = _
    rw [exZ_ylm1 _ _ _ _ _ _ rfl rfl (Or.inl rfl)]
    unfold Part.w exPart
    push_cast
    simp
  have y1 : ∀ c : ℤ × ℤ × ℤ, c.1 = 0 → c.2.1 = 0 → (wrap4 c.2.2 = 1 ∨ wrap4 c.2.2 = -1) →
      (exZ 1 0 1 1 2).ylm 1 0 (fun ax => -rvec (exZ 1 0 1 1 2).mesh c ax) =
        ((-(wrap4 c.2.2 : ℝ) * Real.sqrt (4 * Real.pi / 3) : ℝ) : ℂ) := by
    intro c h0 h1 h2
    obtain ⟨r0, r1, r2⟩ := exZ_rvec 1 0 1 1 2 c
    rw [exZ_ylm1 _ _ _ _ _ _ (by rw [r0, h0]; simp [wrap4]) (by rw [r1, h1]; simp [wrap4])
      (by rw [r2]; rcases h2 with h | h <;> rw [h] <;> simp), r2]
  rw [pairSum_zeros]
  unfold shellPairs
  rw [shell_one, Finset.sum_pair (by decide), exZ_coupling, if_pos rfl]
  beta_reduce
  rw [e1 _ (by unfold Apart; decide) (by unfold Apart; decide),
    e2 _ (by unfold Apart; decide) (by unfold Apart; decide),
    show (exZ 1 0 1 1 2).ell1 = 1 from rfl, show (exZ 1 0 1 1 2).ell2 = 0 from rfl, exZ_ylm0, exZ_ylm0,
    y1 (0, 0, 1) rfl rfl (Or.inl rfl), y1 (0, 0, 3) rfl rfl (Or.inr rfl),
    show wrap4 1 = 1 from rfl, show wrap4 3 = -1 from rfl, Finset.card_pair (by decide)]
  have hs : ((Real.sqrt (4 * Real.pi / 3) : ℝ) : ℂ) ≠ 0 := by
    exact_mod_cast (Real.sqrt_pos.2 (by have := Real.pi_pos; positivity)).ne'
  generalize Real.sqrt (4 * Real.pi / 3) = s at hs
  generalize ((exZ 1 0 1 1 2).mesh.volCell : ℂ) = v at hv
  push_cast
  have : (2 * 1 + 1) * (2 * 0 + 1) * (2 * 1 + 1) * ((-(s : ℂ) / v * (-1 * s * 1) + s / v * (- -1 * s * 1)) / 2 /
      (2 * v)) = 9 / 2 * (s : ℂ) ^ 2 / v ^ 2 := by
    field_simp
    ring
  rw [this]
  exact div_ne_zero (mul_ne_zero (by norm_num) (pow_ne_zero 2 hs)) (pow_ne_zero 2 hv)

/-- **C106 (violated, witness).** With `ell1 = 1` and `ell2 = 0` there is a window whose shot noise is
not the self-pair contribution: it has the opposite sign and does not vanish. -/
theorem C106_odd_nonzero_violated :
    ∃ (E : Env3) (rand : List Part) (rows : List RowZ) (e : Entry), LegendreLike E.P ∧
      E.mesh.Valid ∧ Resolved E.mesh ∧ ValidForm E.numBins E.form ∧
      compute3pcfWindow E rand 1 none 1 = .ok rows ∧ e ∈ measWrites E.numBins E.form ∧ e.row = e.col ∧
      (rows[e.pos.toNat]?).map RowZ.shot ≠ some (((1 : ℝ) : ℂ) *
        selfSum E (triplets E) (fun M => fourier E.mesh (nField E.toEnv rand 1 E.ELL M))
          (fourier E.mesh (quadField1 E.toEnv rand 1 0 0))
          (fun M => shotAmp3One E.toEnv rand 1 E.ELL M) e.row) := by
  obtain ⟨rows, h, _⟩ := (C37_3pcf_defined (exZ 1 0 1 1 2) (exZ_w3j _ _ _ _ _) trivial []
    [exPart (0 : ℕ) 1, exPart (1 : ℕ) (-1)] [] 1 1 none).2.2
  have hin : AllInside (exZ 1 0 1 1 2).mesh [exPart (0 : ℕ) 1, exPart (1 : ℕ) (-1)] := by
    intro p hp
    rcases List.mem_cons.1 hp with hp | hp
    · exact exZ_inside _ _ _ _ _ ((0 : ℕ) : ℝ) 1 (by norm_num) (by norm_num) p
        (by rw [hp]; exact List.mem_singleton_self _)
    · exact exZ_inside _ _ _ _ _ ((1 : ℕ) : ℝ) (-1) (by norm_num) (by norm_num) p hp
  refine ⟨exZ 1 0 1 1 2, [exPart (0 : ℕ) 1, exPart (1 : ℕ) (-1)], rows, ⟨0, 0, 0⟩, exP_like,
    exZ_valid _ _ _ _ _, exZ_resolved _ _ _ _ _, trivial, h, exZ_entry _ _ _ _ _, rfl, ?_⟩
  rw [(C106_odd_sign_violated (exZ 1 0 1 1 2) exP_like (exZ_valid _ _ _ _ _) (exZ_resolved _ _ _ _ _)
    trivial ⟨0, rfl⟩ [] _ 1 1 none rows ⟨0, 0, 0⟩ (exZ_entry _ _ _ _ _) rfl).2 h, exZ_triplets,
    selfSum_pairs _ _ _ _ _ _ _ fun M c hc => corr_window (exZ 1 0 1 1 2).toEnv (exZ_valid _ _ _ _ _) rfl
      rfl _ hin 1 M (shell_box _ hc)]
  intro hh
  have hh := Option.some.inj hh
  have := exZ_pairs
  apply this
  rw [Complex.ofReal_one, one_mul] at hh
  exact self_eq_neg.1 hh.symm

/-! Cases that meet the hypotheses. -/

/-- C107: a mesh, a bin and a coupling that is not skipped. -/
example : (∀ a, 0 < (exZ 1 0 1 1 2).mesh.n a) ∧ 0 < (exZ 1 0 1 1 2).numBins ∧
    epsCoupling ≤ |coupling2 (exZ 1 0 1 1 2).toEnv 1 1 0 0| := by
  refine ⟨fun a => (exZ_valid 1 0 1 1 2 a).1, Nat.one_pos, ?_⟩
  unfold coupling2
  show epsCoupling ≤ |(2 * ((1 : ℤ) : ℝ) + 1) * (2 * ((1 : ℤ) : ℝ) + 1) * zeroW 1 0 1 0 0 0 * zeroW 1 0 1 0 0 0|
  unfold zeroW epsCoupling
  norm_num

/-- C105, C106, C108: a window measured from two particles in a bin without the zero separation. -/
example : ∃ rows, compute3pcfWindow (exZ 0 0 0 1 2) [exPart 0 1] 1 none 1 = .ok rows ∧
    LegendreLike (exZ 0 0 0 1 2).P ∧ (exZ 0 0 0 1 2).mesh.Valid ∧ Resolved (exZ 0 0 0 1 2).mesh ∧
    Even ((exZ 0 0 0 1 2).ell1 + (exZ 0 0 0 1 2).ell2) ∧ AllInside (exZ 0 0 0 1 2).mesh [exPart 0 1] ∧
    (0, 0, 0) ∉ shell (exZ 0 0 0 1 2) 0 ∧ (shell (exZ 0 0 0 1 2) 0).card = 2 := by
  obtain ⟨rows, h, _⟩ := (C37_3pcf_defined (exZ 0 0 0 1 2) (exZ_w3j _ _ _ _ _) trivial []
    [exPart 0 1] [] 1 1 none).2.2
  refine ⟨rows, h, exP_like, exZ_valid _ _ _ _ _, exZ_resolved _ _ _ _ _, ⟨0, rfl⟩,
    exZ_inside _ _ _ _ _ _ _ (by norm_num) (by norm_num), ?_, ?_⟩
  · rw [shell_one]; decide
  · rw [shell_one]; decide

end Trv.Zeta

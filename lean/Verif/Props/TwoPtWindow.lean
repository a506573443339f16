import Verif.Model.TwoPtWindow
import Verif.Props.Legendre
import Verif.Props.TwoPtSums
/-
Property theorems on the two-point window function: as means over separations (C107), as a number of
pairs (C108), as a Legendre moment (C126), and on its reality (C127).
-/
namespace Trv.Zeta
open Trv.Mesh Trv.Stats Trv.Win Trv.Two Trv.ThreePt Trv.Bis

theorem fourier_n0 (E : Two.Env) (hM : E.mesh.Valid) (hs : E.sch = .ngp) (hi : E.interlace = false)
    (ps : List Part) (hp : AllInside E.mesh ps) (a : ℝ) (m : ℤ) {k : ℤ × ℤ × ℤ}
    (hk : k ∈ box E.mesh.n) :
    fourier E.mesh (nField E ps a 0 0) (gid E.mesh.n k) = wwSum E.mesh.n (pointsOf E 1 a m ps) k := by
  rw [← dft_lin E hM ps hp a m hk]
  unfold nField ylmFieldOne assignField fourier
  simp only [hs, hi, Bool.false_eq_true, if_false]
  simp only [cplx_mul, mul_assoc]
  rw [Two.dft_smul]

/-- **Window, two-point**: the correlation counts pairs of different points. -/
theorem corr_window2 (E : Two.Env) (hM : E.mesh.Valid) (hs : E.sch = .ngp) (hi : E.interlace = false)
    (ps : List Part) (hp : AllInside E.mesh ps) (a : ℝ) (m : ℤ) {c : ℤ × ℤ × ℤ} (hc : c ∈ box E.mesh.n) :
    corr E (fourier E.mesh (nField E ps a E.ELL m)) (fourier E.mesh (nField E ps a 0 0))
      (shotAmp2One E ps a E.ELL m) c =
    pairCount E.mesh.n (pointsOf E 1 a m ps) c / (E.mesh.volCell : ℂ) := by
  rw [corr_points E (fun a => (hM a).1) hs hi (pointsOf E 1 a m ps) _ _ _
    (fun k hk => fourier_n E hM hs hi ps hp 1 a m hk)
    (fun k hk => fourier_n0 E hM hs hi ps hp a m hk) hc, list_fin _ fun p : Point => p.w * (p.ww : ℂ),
    self_points, cells_over_vol E.mesh hM]
  unfold shotAmp2One
  rw [sub_self, ite_self, add_zero]
  ring

end Trv.Zeta

namespace Trv.Two
open Trv.Mesh Trv.Stats Trv.Win Trv.Bis

/-- **C107 (window function).** Each line of `compute_corrfunc_window` is that of its bin: the number
of separations on the mesh, their mean, and the coupled sums over the orders of the means over the
separations of the bin of the correlation of the random catalogue less shot noise, weighted by the
harmonic. -/
theorem C107_window (E : Env) (hn : ∀ a, 0 < E.mesh.n a) (rand : List Part) (alpha norm : ℝ) (i : ℕ)
    (hi : i < E.numBins) :
    ∃ r, (computeCorrfuncWindow E rand alpha norm)[i]? = some r ∧ r.bin = E.centres.getD i 0 ∧
      (1 / 1000000000 ≤ |coupling E 0 0| → r.num = (sepsIn E i).card ∧
        r.eff = meanLen (sepsIn E i) (fun c => mag (rvec E.mesh c)) (E.centres.getD i 0)) ∧
      r.val = (norm : ℂ) * coupledSum E (fun M m => meanOver (sepsIn E i) fun c =>
        Zeta.corr E (fourier E.mesh (Zeta.nField E rand alpha E.ELL M))
          (fourier E.mesh (Zeta.nField E rand alpha 0 0)) (shotAmp2One E rand alpha E.ELL M) c *
          E.ylm E.ELL m (rvec E.mesh c)) := by
  unfold computeCorrfuncWindow
  simp only
  rw [output_row E norm _ hi]
  refine ⟨_, rfl, rfl, ?_, ?_⟩
  · intro hc
    rw [← coupling2_eq] at hc
    have := sumOrders_num E (fun M m1 => statsConfig E
      (fourier E.mesh (Zeta.nField E rand alpha E.ELL M))
      (fourier E.mesh (Zeta.nField E rand alpha 0 0)) (shotAmp2One E rand alpha E.ELL M) E.ELL m1) i hc
    rw [statsConfig_bin E hn _ _ _ _ _ hi] at this
    exact this
  · simp only
    rw [sumOrders_val]
    simp only [statsConfig_bin E hn _ _ _ _ _ hi]
    rw [smul_sum]

/-- **C108 (window function).** With nearest-grid-point assignment and no interlacing, the two-point
window function counts weighted pairs of DIFFERENT particles of the random catalogue (weighted by
`alpha`) at each separation on the mesh, per volume of a cell. -/
theorem C108_window_pairs (E : Env) (hM : E.mesh.Valid) (hs : E.sch = .ngp)
    (hI : E.interlace = false) (rand : List Part) (hr : Zeta.AllInside E.mesh rand) (alpha norm : ℝ)
    (i : ℕ) (hi : i < E.numBins) :
    ((computeCorrfuncWindow E rand alpha norm)[i]?).map Row.val =
      some ((norm : ℂ) * coupledSum E fun M m => meanOver (sepsIn E i) fun c =>
        Zeta.pairCount E.mesh.n (Zeta.pointsOf E 1 alpha M rand) c / (E.mesh.volCell : ℂ) *
          E.ylm E.ELL m (rvec E.mesh c)) := by
  obtain ⟨r, h, _, _, hv⟩ := C107_window E (fun a => (hM a).1) rand alpha norm i hi
  rw [h, Option.map_some, hv]
  rw [coupledSum_congr fun M m => meanOver_congr fun c hc => by
    rw [Zeta.corr_window2 E hM hs hI rand hr alpha M (seps_box E hc)]]

/-- **C126 (window function).** The multipole of degree `ELL` of the window function is `2 ELL + 1`
times the mean over the separations of the bin of the number of pairs of different random particles,
each weighted by the Legendre polynomial of the angle between the separation and the line of sight of
its first particle (nearest-grid-point assignment, no interlacing). -/
theorem C126_window (E : Env) (hE : Special E) (hM : E.mesh.Valid) (hs : E.sch = .ngp)
    (hI : E.interlace = false) (hx : ∀ a, (1 : ℝ) / 1000000000 ≤ E.mesh.L a / E.mesh.n a)
    (rand : List Part) (hr : Zeta.AllInside E.mesh rand) (hr' : ∀ p ∈ rand, Resolved p.los)
    (alpha norm : ℝ) (i : ℕ) (hi : i < E.numBins) :
    ((computeCorrfuncWindow E rand alpha norm)[i]?).map Row.val =
      some ((norm : ℂ) * ((2 * E.ELL + 1) * meanOver (sepsIn E i) fun c =>
        Zeta.pairCount E.mesh.n (pointsAngle E (rvec E.mesh c) alpha rand) c / (E.mesh.volCell : ℂ))) := by
  rw [C108_window_pairs E hM hs hI rand hr alpha norm i hi, coupled_mean E hE]
  congr 3
  apply meanOver_congr
  intro c _
  have h := pairs_orders E hE _ (rvec_resolved _ hx c) [] rand (by simp) hr' (-alpha) c
  simp only [_root_.neg_neg, Zeta.pointsOf, pointsAngle, List.map_nil, List.nil_append] at h
  simp only [Zeta.pointsOf, pointsAngle]
  rw [← h, Finset.sum_div]
  apply Finset.sum_congr rfl
  intro M _
  ring

/-- **C127 (window function).** The multipoles of the window function are real at every degree, and
never negative at degree zero if the weights, the scale and the normalisation are not. -/
theorem C127_window_real (E : Env) (hE : Special E) (hM : E.mesh.Valid) (hs : E.sch = .ngp)
    (hI : E.interlace = false) (hx : ∀ a, (1 : ℝ) / 1000000000 ≤ E.mesh.L a / E.mesh.n a)
    (rand : List Part) (hr : Zeta.AllInside E.mesh rand) (hr' : ∀ p ∈ rand, Resolved p.los)
    (alpha norm : ℝ) (i : ℕ) (hi : i < E.numBins) :
    ∃ r, (computeCorrfuncWindow E rand alpha norm)[i]? = some r ∧ r.val.im = 0 ∧
      (E.ELL = 0 → 0 ≤ norm → (∀ p ∈ rand, 0 ≤ p.w) → 0 ≤ r.val.re) := by
  have h := C126_window E hE hM hs hI hx rand hr hr' alpha norm i hi
  cases hrow : (computeCorrfuncWindow E rand alpha norm)[i]? with
  | none => rw [hrow] at h; simp at h
  | some r =>
    rw [hrow, Option.map_some, Option.some.injEq] at h
    -- a pair count with real weights is the cast of a real number
    have hc : ∀ c, ∃ x : ℝ, Zeta.pairCount E.mesh.n (pointsAngle E (rvec E.mesh c) alpha rand) c = (x : ℂ) ∧
        (E.ELL = 0 → (∀ p ∈ rand, 0 ≤ p.w) → 0 ≤ x) := by
      intro c
      classical
      refine ⟨∑ a : Fin (pointsAngle E (rvec E.mesh c) alpha rand).length,
        ∑ b : Fin (pointsAngle E (rvec E.mesh c) alpha rand).length,
          if a ≠ b ∧ Zeta.Apart E.mesh.n c ((pointsAngle E (rvec E.mesh c) alpha rand).get a).cell
            ((pointsAngle E (rvec E.mesh c) alpha rand).get b).cell then
            ((pointsAngle E (rvec E.mesh c) alpha rand).get a).w.re *
              ((pointsAngle E (rvec E.mesh c) alpha rand).get b).ww else 0, ?_, ?_⟩
      · have hw : ∀ q ∈ pointsAngle E (rvec E.mesh c) alpha rand, q.w = ((q.w.re : ℝ) : ℂ) := by
          intro q hq
          unfold pointsAngle at hq
          obtain ⟨p, -, rfl⟩ := List.mem_map.1 hq
          rw [Complex.ofReal_re]
        unfold Zeta.pairCount
        push_cast
        apply Finset.sum_congr rfl
        intro a _
        apply Finset.sum_congr rfl
        intro b _
        split_ifs
        · rw [hw _ (List.get_mem _ a)]
          push_cast
          rfl
        · rfl
      · intro hl hp
        apply Finset.sum_nonneg
        intro a _
        apply Finset.sum_nonneg
        intro b _
        split_ifs
        · have key : ∀ q ∈ pointsAngle E (rvec E.mesh c) alpha rand, ∃ x, 0 ≤ x ∧ q.w.re = alpha * x ∧
              q.ww = alpha * x := by
            intro q hq
            unfold pointsAngle at hq
            obtain ⟨p, hp', rfl⟩ := List.mem_map.1 hq
            refine ⟨p.w, hp p hp', ?_, rfl⟩
            rw [Complex.ofReal_re]
            simp [legAngle, hl]
          obtain ⟨x, x0, x1, -⟩ := key _ (List.get_mem _ a)
          obtain ⟨y, y0, -, y1⟩ := key _ (List.get_mem _ b)
          rw [x1, y1]
          have : alpha * x * (alpha * y) = alpha ^ 2 * (x * y) := by ring
          rw [this]
          positivity
        · exact le_refl _
    choose f hf hf0 using hc
    have hv : 0 < E.mesh.volCell := volCell_pos E.mesh hM
    have e : r.val = ((norm * ((2 * E.ELL + 1) *
        ((∑ c ∈ sepsIn E i, f c / E.mesh.volCell) / ((sepsIn E i).card : ℝ))) : ℝ) : ℂ) := by
      rw [h]
      unfold meanOver
      simp only [hf]
      push_cast
      rfl
    refine ⟨r, rfl, ?_, ?_⟩
    · rw [e, Complex.ofReal_im]
    · intro hl hn hp
      rw [e, Complex.ofReal_re]
      have : 0 ≤ ∑ c ∈ sepsIn E i, f c / E.mesh.volCell :=
        Finset.sum_nonneg fun c _ => div_nonneg (hf0 c hl hp) hv.le
      positivity

/-- The hypotheses hold for two random particles in neighbouring cells. -/
example : ∃ r, (computeCorrfuncWindow (exL 4 2 1 2) [⟨![0, 0, 0], ![0, 0, 1], 1, 1, 1⟩,
      ⟨![0, 0, 1], ![0, 0, 1], 1, 2, 1⟩] 1 1)[0]? = some r ∧ r.val.im = 0 := by
  obtain ⟨r, h1, h2, -⟩ := C127_window_real (exL 4 2 1 2) (exL_special _ _ _ _)
    (exL_valid (by norm_num) _ _ _) rfl rfl
    (fun _ => by show (1 : ℝ) / 1000000000 ≤ ((4 : ℤ) : ℝ) / ((4 : ℤ) : ℝ); norm_num)
    [⟨![0, 0, 0], ![0, 0, 1], 1, 1, 1⟩, ⟨![0, 0, 1], ![0, 0, 1], 1, 2, 1⟩]
    (by
      intro p hp a
      show _ ∧ _ < ((4 : ℤ) : ℝ)
      rcases List.mem_cons.1 hp with rfl | hp
      · fin_cases a <;> norm_num
      · rw [List.mem_singleton.1 hp]
        fin_cases a <;> norm_num)
    (by
      intro p hp
      rcases List.mem_cons.1 hp with rfl | hp
      · exact Or.inr (Or.inl ⟨by simp, by simp, by simp; norm_num⟩)
      · rw [List.mem_singleton.1 hp]
        exact Or.inr (Or.inl ⟨by simp, by simp, by simp; norm_num⟩)) 1 1 0 (by simp [exL])
  exact ⟨r, h1, h2⟩

end Trv.Two

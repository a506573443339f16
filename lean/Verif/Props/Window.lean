import Verif.Lemmas.Window
import Verif.Lemmas.WindowTransform
import Verif.Lemmas.FieldStats
import Mathlib.Data.Fin.VecNotation
/-
C11, C12, C57, C74: assignment window, shot-noise aliasing and reduced spherical harmonics.
-/
namespace Trv.Win
open Trv.Mesh

/-! ### C11 -/

/-- **C11 (part).** On a mesh with at least two cells on each axis the window of every mode is in
`(0, 1]`, for every order. -/
theorem C11_window_range_partial (n : Fin 3 → ℤ) (hn : ∀ a, 2 ≤ n a) (c : ℤ × ℤ × ℤ)
    (hc : c ∈ Stats.cells n) (order : ℕ) :
    0 < windowFresh n c.1 c.2.1 c.2.2 order ∧ windowFresh n c.1 c.2.1 c.2.2 order ≤ 1 := by
  obtain ⟨h0, h1, h2⟩ := Stats.mem_cells.1 hc
  have r0 := sinc_range (by have := hn 0; omega) (shift_abs_lt (hn 0) h0.1 h0.2)
  have r1 := sinc_range (by have := hn 1; omega) (shift_abs_lt (hn 1) h1.1 h1.2)
  have r2 := sinc_range (by have := hn 2; omega) (shift_abs_lt (hn 2) h2.1 h2.2)
  unfold windowFresh
  simp only
  have hp : 0 < sincAxis (n 0) (shiftIndex (n 0) c.1) * sincAxis (n 1) (shiftIndex (n 1) c.2.1) *
      sincAxis (n 2) (shiftIndex (n 2) c.2.2) := mul_pos (mul_pos r0.1 r1.1) r2.1
  refine ⟨pow_pos hp _, pow_le_one₀ hp.le ?_⟩
  exact mul_le_one₀ (mul_le_one₀ r0.2 r1.1.le r1.2) r2.1.le r2.2

/-- **C11 (violated).** On a mesh with a single cell on some axis the window is zero (for every
positive order), so that the compensation divides by zero. -/
theorem C11_single_cell_violated (n : Fin 3 → ℤ) (h : n 0 = 1) (j k : ℤ) (order : ℕ) (ho : order ≠ 0) :
    windowFresh n 0 j k order = 0 := by
  unfold windowFresh
  simp only
  have : sincAxis (n 0) (shiftIndex (n 0) 0) = 0 := by
    rw [h]
    have e : shiftIndex 1 0 = -1 := by decide
    rw [e, sinc_neg]
    unfold sincAxis
    simp
  rw [this]
  simp [ho]

/-- **C11 (part).** On meshes with even grid numbers the window is even in the wavevector: opposite
modes have the same window. -/
theorem C11_even_partial (n : Fin 3 → ℤ) (hn : ∀ a, 2 ≤ n a) (he : ∀ a, n a % 2 = 0)
    (c : ℤ × ℤ × ℤ) (hc : c ∈ Stats.cells n) (order : ℕ) :
    windowFresh n ((-c.1) % n 0) ((-c.2.1) % n 1) ((-c.2.2) % n 2) order =
      windowFresh n c.1 c.2.1 c.2.2 order := by
  obtain ⟨h0, h1, h2⟩ := Stats.mem_cells.1 hc
  have key : ∀ (N i : ℤ), 2 ≤ N → N % 2 = 0 → 0 ≤ i → i < N →
      sincAxis N (shiftIndex N ((-i) % N)) = sincAxis N (shiftIndex N i) := by
    intro N i hN hE hi hi'
    by_cases hz : i = 0
    · subst hz; simp
    · have e : (-i) % N = N - i := by
        rw [show -i = (N - i) + N * (-1) by ring, Int.add_mul_emod_self_left]
        exact Int.emod_eq_of_lt (by omega) (by omega)
      rw [e]
      unfold shiftIndex
      split_ifs with g1 g2 g2
      · omega
      · rw [← sinc_neg]; congr 1; ring
      · rw [← sinc_neg]; congr 1; ring
      · have : N - i = i := by omega
        rw [this]
  unfold windowFresh
  simp only
  rw [key _ _ (hn 0) (he 0) h0.1 h0.2, key _ _ (hn 1) (he 1) h1.1 h1.2,
    key _ _ (hn 2) (he 2) h2.1 h2.2]

/-- **C11 (violated).** On an axis with an odd grid number the window of the largest mode and of
its opposite differ. -/
theorem C11_odd_asymmetric_violated (N : ℤ) (hN : 3 ≤ N) (ho : N % 2 = 1) :
    sincAxis N (shiftIndex N ((N - 1) / 2)) < sincAxis N (shiftIndex N (-((N - 1) / 2) % N)) := by
  obtain ⟨t, ht⟩ : ∃ t, N = 2 * t + 1 := ⟨N / 2, by omega⟩
  have e1 : (N - 1) / 2 = t := by omega
  have e2 : (-t) % N = t + 1 := by
    rw [show -t = (t + 1) + N * (-1) by rw [ht]; ring, Int.add_mul_emod_self_left]
    exact Int.emod_eq_of_lt (by omega) (by omega)
  have e3 : shiftIndex N t = -(t + 1) := by unfold shiftIndex; rw [if_neg (by omega)]; omega
  have e4 : shiftIndex N (t + 1) = -t := by unfold shiftIndex; rw [if_neg (by omega)]; omega
  rw [e1, e2, e3, e4, sinc_neg, sinc_neg]
  have ht0 : 0 < t := by omega
  have htr : (0 : ℝ) < t := by exact_mod_cast ht0
  have hNr : (N : ℝ) = 2 * t + 1 := by rw [ht]; push_cast; ring
  have hNp : (0 : ℝ) < N := by rw [hNr]; positivity
  unfold sincAxis
  simp only
  rw [if_pos (by omega), if_pos (by omega)]
  have hs : Real.sin (Real.pi * ((t + 1 : ℤ) : ℝ) / N) = Real.sin (Real.pi * t / N) := by
    rw [← Real.sin_pi_sub]
    congr 1
    push_cast
    rw [hNr]
    field_simp
    ring
  rw [hs]
  have hpi := Real.pi_pos
  have hu : 0 < Real.pi * t / N := by positivity
  have hsin : 0 < Real.sin (Real.pi * t / N) := by
    apply Real.sin_pos_of_pos_of_lt_pi hu
    rw [div_lt_iff₀ hNp]
    apply mul_lt_mul_of_pos_left _ hpi
    rw [hNr]; linarith
  apply div_lt_div_of_pos_left hsin hu
  push_cast
  apply div_lt_div_of_pos_right _ hNp
  nlinarith

/-- The window of one axis is the damping of the mode by the assignment. -/
theorem sincAxis_damping (sch : Scheme) (n k l : ℤ) (hl : 0 ≤ l) (hn : l < n) :
    ((sincAxis n k : ℂ)) ^ orderOf sch = meanWeight sch n k l := by
  by_cases hk : k = 0
  · subst hk
    have e : (sincAxis n 0 : ℂ) = 1 := by simp [sincAxis]
    rw [e, one_pow]
    unfold meanWeight
    rw [intervalIntegral.integral_congr_Ioo_of_le zero_le_one (g := fun _ => (1 : ℂ))]
    · simp
    · intro s hs
      have hl' : (0 : ℝ) ≤ l := by exact_mod_cast hl
      have hln : (l : ℝ) + 1 ≤ n := by exact_mod_cast hn
      have hs0 := axisStencil_sum (K := ℝ) sch (n := n) (loc := l + s) (by linarith [hs.1])
        (by linarith [hs.2])
      unfold weightTransform
      have hp : ∀ c, phase n 0 c = 1 := by intro c; simp [phase]
      simp only [hp, mul_one, Int.cast_zero, mul_zero, zero_div, zero_mul, Complex.ofReal_zero,
        Complex.exp_zero]
      rw [← Complex.ofReal_one, ← hs0]
      generalize axisStencil sch n ((l : ℝ) + s) = st
      induction st with
      | nil => simp
      | cons a st ih => simp only [List.map_cons, List.sum_cons, ih, Complex.ofReal_add]
  · cases sch with
    | ngp => exact (meanWeight_ngp n k l hl hn hk).symm
    | cic => exact (meanWeight_cic n k l hl hn hk).symm
    | tsc => exact (meanWeight_tsc n k l hl hn hk).symm
    | pcs => exact (meanWeight_pcs n k l hl hn hk).symm

/-- **C11.** For every scheme, mesh and mode, the window (of the order of the scheme) is the
damping of the mode by the mass assignment: the Fourier transform of the weights of a particle
relative to its position, averaged over positions in any one cell of the mesh. -/
theorem C11_window_is_damping (sch : Scheme) (n : Fin 3 → ℤ) (i j k : ℤ) (l : Fin 3 → ℤ)
    (hl : ∀ a, 0 ≤ l a) (hn : ∀ a, l a < n a) :
    (windowFresh n i j k (orderOf sch) : ℂ) =
      meanWeight sch (n 0) (shiftIndex (n 0) i) (l 0) *
      meanWeight sch (n 1) (shiftIndex (n 1) j) (l 1) *
      meanWeight sch (n 2) (shiftIndex (n 2) k) (l 2) := by
  rw [← sincAxis_damping sch _ _ _ (hl 0) (hn 0), ← sincAxis_damping sch _ _ _ (hl 1) (hn 1),
    ← sincAxis_damping sch _ _ _ (hl 2) (hn 2)]
  unfold windowFresh
  push_cast
  ring

/-- A case: the Nyquist mode of nearest-grid-point assignment is damped by `2/π`. -/
example : meanWeight .ngp 4 (-2) 1 = ((2 / Real.pi : ℝ) : ℂ) := by
  rw [← sincAxis_damping .ngp 4 (-2) 1 (by decide) (by decide)]
  unfold sincAxis orderOf
  simp only
  have : Real.pi * ((-2 : ℤ) : ℝ) / ((4 : ℤ) : ℝ) = -(Real.pi / 2) := by push_cast; ring
  rw [this, Real.sin_neg, Real.sin_pi_div_two, if_pos (by decide), pow_one]
  congr 1
  have := Real.pi_ne_zero
  field_simp

/-- **C11.** After any history of requests (accepted or rejected, cells processed in any order),
the window returned for a cell of the mesh is the one computed afresh; only negative orders are
rejected. -/
theorem C11_history (n : Fin 3 → ℤ) (hn : ∀ a, 0 < n a) (hist : List Req)
    (hh : ∀ r ∈ hist, ∀ sched order, r = Req.compute sched order → sched.Perm (Stats.cells n))
    (c : ℤ × ℤ × ℤ) (hc : c ∈ Stats.cells n) (order : ℤ) :
    calcWindow n (hist.foldl (request n) Cache.new) c.1 c.2.1 c.2.2 order =
      if order < 0 then .error .invalidParameter
      else .ok (windowFresh n c.1 c.2.1 c.2.2 order.toNat) := by
  have hinj : ∀ a ∈ Stats.cells n, ∀ b ∈ Stats.cells n,
      gridIndex n a.1 a.2.1 a.2.2 = gridIndex n b.1 b.2.1 b.2.2 → a = b := by
    intro a ha b hb h
    obtain ⟨a0, a1, a2⟩ := Stats.mem_cells.1 ha
    obtain ⟨b0, b1, b2⟩ := Stats.mem_cells.1 hb
    have h3 := gridIndex_inj n a1 a2 b1 b2 h
    exact Prod.ext h3.1 (Prod.ext h3.2.1 h3.2.2)
  have hgood : ∀ (hist : List Req) (C : Cache), (∀ r ∈ hist, ∀ sched order,
      r = Req.compute sched order → sched.Perm (Stats.cells n)) → C.Good n →
      (hist.foldl (request n) C).Good n := by
    intro hist
    induction hist with
    | nil => exact fun C _ h => h
    | cons r rs ih =>
      intro C hr hC
      rw [List.foldl_cons]
      apply ih _ (fun r' h' => hr r' (List.mem_cons_of_mem _ h'))
      cases r with
      | value i j k order => exact hC
      | compute sched order =>
        have hp := hr _ (by simp) sched order rfl
        unfold request computeWindow
        simp only
        by_cases ho : order < 0
        · rw [if_pos ho]; exact hC
        · rw [if_neg ho]
          by_cases he : C.order = order
          · rw [if_pos he]; exact hC
          · rw [if_neg he]
            obtain ⟨C', g1, -, g3, -⟩ := fillWindow_ok n order (by omega) sched
              (fun c hc => hp.mem_iff.1 hc) hinj C he
            rw [g1]
            exact Or.inr ⟨by simp only; omega, fun c hc => g3 c (hp.mem_iff.2 hc)⟩
  have hg := hgood hist Cache.new hh (Or.inl rfl)
  generalize hist.foldl (request n) Cache.new = C at hg
  unfold calcWindow
  by_cases ho : order < 0
  · rw [if_pos ho, if_pos ho]
  · rw [if_neg ho, if_neg ho]
    split_ifs with he
    · rcases hg with h | ⟨-, h⟩
      · omega
      · rw [h c hc, he]
    · rfl

/-- A history with two orders and a rejected request, then a request of the second order. -/
example : calcWindow ![2, 2, 2] ([Req.compute (Stats.cells ![2, 2, 2]) 2,
      Req.compute (Stats.cells ![2, 2, 2]) (-3), Req.value 0 0 0 1,
      Req.compute (Stats.cells ![2, 2, 2]).reverse 3].foldl (request ![2, 2, 2]) Cache.new) 0 0 0 3 =
    .ok 1 := by
  rw [C11_history ![2, 2, 2] (by decide) _ _ (0, 0, 0) (by decide)]
  · have : windowFresh ![2, 2, 2] 0 0 0 (3 : ℤ).toNat = 1 := by
      unfold windowFresh sincAxis shiftIndex
      simp
    rw [if_neg (by decide)]
    exact congrArg _ this
  · intro r hr sched order he
    simp only [List.mem_cons, List.not_mem_nil, or_false] at hr
    rcases hr with rfl | rfl | rfl | rfl
    · cases he; exact List.Perm.refl _
    · cases he; exact List.Perm.refl _
    · cases he
    · cases he; exact List.reverse_perm _

/-! ### C12 -/

/-- **C12.** On every axis and for every mode the closed-form aliasing factor of each scheme is
the power of the assignment weights of a particle averaged over its position in a cell. -/
theorem C12_alias_is_mean_power (sch : Scheme) (n k l : ℤ) (hl : 0 ≤ l) (hn : l < n) :
    aliasAxis sch (sin2Axis n k) = meanPower sch n k l := by
  have hc := cos_ang n k (by omega)
  generalize sin2Axis n k = S at *
  cases sch with
  | ngp => rw [meanPower_ngp n k l hl]; rfl
  | cic => rw [meanPower_cic n k l hl hn, hc]; unfold aliasAxis; simp only; ring
  | tsc =>
    rw [meanPower_tsc n k l hl hn, Real.cos_two_mul, hc]; unfold aliasAxis; simp only; ring
  | pcs =>
    rw [meanPower_pcs n k l hl hn, Real.cos_three_mul, Real.cos_two_mul, hc]
    unfold aliasAxis; simp only; ring

/-- **C12.** The aliasing function is in `(0, 1]` for every scheme, mesh and mode. -/
theorem C12_positive (sch : Scheme) (n : Fin 3 → ℤ) (i j k : ℤ) :
    0 < aliasing sch n i j k ∧ aliasing sch n i j k ≤ 1 := by
  have h := fun a b => aliasAxis_range sch (sin2_range (n a) b).1 (sin2_range (n a) b).2
  unfold aliasing
  exact ⟨mul_pos (mul_pos (h 0 i).1 (h 1 j).1) (h 2 k).1,
    mul_le_one₀ (mul_le_one₀ (h 0 i).2 (h 1 j).1.le (h 1 j).2) (h 2 k).1.le (h 2 k).2⟩

/-- **C12.** Dividing by it is safe: without interlacing the shot noise of each mode is the
amplitude weighted by the harmonic, whatever the scheme and mode. -/
theorem C12_shotnoise_mode (sch : Scheme) (n : Fin 3 → ℤ) (i j k : ℤ) (amp ylm : ℂ) :
    modeShot amp (aliasing sch n i j k) (aliasing sch n i j k) ylm = amp * ylm := by
  unfold modeShot
  have : (aliasing sch n i j k : ℂ) ≠ 0 := by
    exact_mod_cast (C12_positive sch n i j k).1.ne'
  rw [mul_div_cancel_right₀ _ this]

/-- A case: the Nyquist mode on an axis with four cells. -/
example : aliasAxis .tsc (sin2Axis 4 2) = 2 / 15 := by
  have : shiftIndex 4 2 = -2 := by decide
  unfold sin2Axis
  rw [this]
  simp only
  have : Real.pi * ((-2 : ℤ) : ℝ) / ((4 : ℤ) : ℝ) = -(Real.pi / 2) := by push_cast; ring
  rw [this, Real.sin_neg, Real.sin_pi_div_two, if_pos (by decide)]
  unfold aliasAxis
  norm_num

/-! ### C74 -/

/-- **C74 (part).** With interlacing, the (approximate) aliasing factor is positive for every mode
of meshes with even grid numbers. -/
theorem C74_interlaced_positive_partial (sch : Scheme) (n : Fin 3 → ℤ) (hn : ∀ a, 2 ≤ n a)
    (he : ∀ a, n a % 2 = 0) (c : ℤ × ℤ × ℤ) (hc : c ∈ Stats.cells n) :
    0 < aliasingInterlaced sch n c.1 c.2.1 c.2.2 := by
  obtain ⟨h0, h1, h2⟩ := Stats.mem_cells.1 hc
  have key : ∀ (a : Fin 3) (i : ℤ), 0 ≤ i ∧ i < n a →
      (Real.pi * (shiftIndex (n a) i : ℤ) / n a) * (Real.pi * (shiftIndex (n a) i : ℤ) / n a) ≤
        (Real.pi / 2) ^ 2 := by
    intro a i hi
    have hs : |2 * shiftIndex (n a) i| ≤ n a := by
      have := he a
      unfold shiftIndex
      rw [abs_le]
      split_ifs <;> omega
    have hNp : (0 : ℝ) < n a := by have := hn a; exact_mod_cast (by omega : 0 < n a)
    have hs' : |2 * (shiftIndex (n a) i : ℝ)| ≤ n a := by exact_mod_cast hs
    have hsq : (2 * (shiftIndex (n a) i : ℝ)) ^ 2 ≤ (n a : ℝ) ^ 2 := by
      rw [← sq_abs]
      exact pow_le_pow_left₀ (abs_nonneg _) hs' 2
    have : (Real.pi * (shiftIndex (n a) i : ℤ) / n a) * (Real.pi * (shiftIndex (n a) i : ℤ) / n a) =
        (Real.pi / 2) ^ 2 * ((2 * (shiftIndex (n a) i : ℝ)) ^ 2 / (n a : ℝ) ^ 2) := by
      field_simp
    rw [this]
    refine mul_le_of_le_one_right (sq_nonneg _) ?_
    rw [div_le_one (by positivity)]
    exact hsq
  have k0 := key 0 c.1 h0
  have k1 := key 1 c.2.1 h1
  have k2 := key 2 c.2.2 h2
  have hpi := Real.pi_pos
  have hu0 : 0 ≤ uHalf n c.1 c.2.1 c.2.2 := by
    unfold uHalf; simp only; positivity
  have hu : uHalf n c.1 c.2.1 c.2.2 < Real.pi / 2 := by
    unfold uHalf
    simp only
    rw [div_lt_div_iff_of_pos_right (by norm_num : (0 : ℝ) < 2), Real.sqrt_lt' hpi]
    nlinarith
  have hcos : 0 < Real.cos (uHalf n c.1 c.2.1 c.2.2) :=
    Real.cos_pos_of_mem_Ioo ⟨by linarith, hu⟩
  have hs1 : Real.sin (uHalf n c.1 c.2.1 c.2.2) * Real.sin (uHalf n c.1 c.2.1 c.2.2) ≤ 1 := by
    have := Real.sin_sq_add_cos_sq (uHalf n c.1 c.2.1 c.2.2)
    nlinarith
  unfold aliasingInterlaced
  simp only
  exact mul_pos (pow_pos (mul_pos hcos hcos) _)
    (aliasAxis_range sch (mul_self_nonneg _) hs1).1

/-- **C74 (violated).** On a mesh with three cells on each axis the factor of a mode is zero. -/
theorem C74_odd_mesh_violated (sch : Scheme) : aliasingInterlaced sch ![3, 3, 3] 1 1 2 = 0 := by
  have e1 : shiftIndex 3 1 = -2 := by decide
  have e2 : shiftIndex 3 2 = -1 := by decide
  have hu : uHalf ![3, 3, 3] 1 1 2 = Real.pi / 2 := by
    unfold uHalf
    show Real.sqrt (Real.pi * (shiftIndex 3 1 : ℤ) / (3 : ℤ) * (Real.pi * (shiftIndex 3 1 : ℤ) / (3 : ℤ)) +
      Real.pi * (shiftIndex 3 1 : ℤ) / (3 : ℤ) * (Real.pi * (shiftIndex 3 1 : ℤ) / (3 : ℤ)) +
      Real.pi * (shiftIndex 3 2 : ℤ) / (3 : ℤ) * (Real.pi * (shiftIndex 3 2 : ℤ) / (3 : ℤ))) / 2 = _
    rw [e1, e2]
    have : Real.pi * ((-2 : ℤ) : ℝ) / ((3 : ℤ) : ℝ) * (Real.pi * ((-2 : ℤ) : ℝ) / ((3 : ℤ) : ℝ)) +
      Real.pi * ((-2 : ℤ) : ℝ) / ((3 : ℤ) : ℝ) * (Real.pi * ((-2 : ℤ) : ℝ) / ((3 : ℤ) : ℝ)) +
      Real.pi * ((-1 : ℤ) : ℝ) / ((3 : ℤ) : ℝ) * (Real.pi * ((-1 : ℤ) : ℝ) / ((3 : ℤ) : ℝ)) =
      Real.pi ^ 2 := by push_cast; ring
    rw [this, Real.sqrt_sq Real.pi_pos.le]
  unfold aliasingInterlaced
  simp only
  rw [hu, Real.cos_pi_div_two]
  cases sch <;> simp [orderOf]

/-! ### C57 -/

/-- **C57.** Conjugation symmetry, for all degrees, orders and positions (whatever the normalised
associated Legendre function of non-negative orders). -/
theorem C57_conjugation (P : ℕ → ℕ → ℝ → ℝ) (ell : ℕ) (m : ℤ) (x y z : ℝ) :
    reducedYlm P ell (-m) x y z = (-1) ^ m.natAbs * (starRingEnd ℂ) (reducedYlm P ell m x y z) := by
  unfold reducedYlm
  by_cases h0 : ell = 0 ∧ m = 0
  · rw [if_pos h0, if_pos ⟨h0.1, by omega⟩, h0.2]; simp
  · rw [if_neg h0, if_neg (fun h => h0 ⟨h.1, by omega⟩)]
    simp only
    split_ifs
    · simp
    · have hsgn : ∀ t : ℤ, (-1 : ℂ) ^ ((t - |t|) / 2) = if t < 0 then (-1) ^ t.natAbs else 1 := by
        intro t
        split_ifs with ht
        · rw [abs_of_neg ht, show (t - -t) / 2 = t by omega]
          have : t = -(t.natAbs : ℤ) := by omega
          rw [this, zpow_neg, Int.natAbs_neg, Int.natAbs_natCast, zpow_natCast, ← inv_pow]
          norm_num
        · rw [abs_of_nonneg (by omega)]; simp
      rw [hsgn, hsgn, Int.natAbs_neg]
      have hsq : ((-1 : ℂ) ^ m.natAbs) * (-1) ^ m.natAbs = 1 := by
        rw [← mul_pow]; norm_num
      have hconj : (starRingEnd ℂ) ((-1 : ℂ) ^ m.natAbs) = (-1) ^ m.natAbs := by
        rw [map_pow, map_neg, map_one]
      have hexp : (starRingEnd ℂ) (Complex.exp (Complex.I * ((-m : ℤ) : ℂ) * (azimuth x y : ℂ))) =
          Complex.exp (Complex.I * (m : ℂ) * (azimuth x y : ℂ)) := by
        rw [← Complex.exp_conj]
        congr 1
        simp only [map_mul, Complex.conj_I, Complex.conj_ofReal, map_intCast]
        push_cast
        ring
      simp only [map_mul, hexp, Complex.conj_conj, Complex.conj_ofReal]
      rcases lt_trichotomy m 0 with hm | hm | hm
      · rw [if_neg (by omega), if_pos hm, hconj]
        linear_combination (-(Complex.exp (Complex.I * (m : ℂ) * (azimuth x y : ℂ)) *
          (P ell m.natAbs (z / Real.sqrt (x * x + y * y + z * z)) : ℂ) *
          (Real.sqrt (4 * Real.pi / (2 * ell + 1)) : ℂ))) * hsq
      · subst hm; simp
      · rw [if_pos (by omega), if_neg (by omega), map_one]; ring

/-- The phase is that of the direction in the equatorial plane, in all four quadrants. -/
theorem exp_azimuth {x y : ℝ} (h : (1 : ℝ) / 1000000000 ≤ Real.sqrt (x * x + y * y)) :
    Complex.exp ((azimuth x y : ℂ) * Complex.I) = (x + y * Complex.I) / (Real.sqrt (x * x + y * y) : ℂ) := by
  set r := Real.sqrt (x * x + y * y) with hr
  have hrp : 0 < r := lt_of_lt_of_le (by norm_num) h
  have hrsq : r * r = x * x + y * y := Real.mul_self_sqrt (by nlinarith [mul_self_nonneg x, mul_self_nonneg y])
  have hx1 : -1 ≤ x / r := by
    rw [le_div_iff₀ hrp]
    nlinarith [mul_self_nonneg y, abs_le.1 (Real.abs_le_sqrt (show x ^ 2 ≤ x * x + y * y by nlinarith [mul_self_nonneg y]))]
  have hx2 : x / r ≤ 1 := by
    rw [div_le_one hrp]
    exact (abs_le.1 (Real.abs_le_sqrt (show x ^ 2 ≤ x * x + y * y by nlinarith [mul_self_nonneg y]))).2
  have hsin : Real.sin (Real.arccos (x / r)) = |y| / r := by
    rw [Real.sin_arccos]
    have : 1 - (x / r) ^ 2 = (|y| / r) ^ 2 := by
      rw [div_pow, div_pow, sq_abs]
      field_simp
      nlinarith
    rw [this, Real.sqrt_sq (by positivity)]
  have hcs : Real.cos (azimuth x y) = x / r ∧ Real.sin (azimuth x y) = y / r := by
    unfold azimuth
    simp only
    rw [← hr, abs_of_pos hrp, if_pos h]
    split_ifs with hy
    · constructor
      · rw [Real.cos_add_two_pi, Real.cos_neg, Real.cos_arccos hx1 hx2]
      · rw [Real.sin_add_two_pi, Real.sin_neg, hsin, abs_of_neg hy]; ring
    · exact ⟨Real.cos_arccos hx1 hx2, by rw [hsin, abs_of_nonneg (not_lt.1 hy)]⟩
  rw [Complex.exp_mul_I, ← Complex.ofReal_cos, ← Complex.ofReal_sin, hcs.1, hcs.2]
  push_cast
  ring

/-- **C57.** Away from the pole the function is the explicit harmonic, in all four quadrants. -/
theorem C57_explicit (P : ℕ → ℕ → ℝ → ℝ) (ell : ℕ) (m : ℤ) (x y z : ℝ) (h : ¬ (ell = 0 ∧ m = 0))
    (hxy : (1 : ℝ) / 1000000000 ≤ Real.sqrt (x * x + y * y)) :
    reducedYlm P ell m x y z = harmonic P ell m x y z := by
  have hr : (1 : ℝ) / 1000000000 ≤ Real.sqrt (x * x + y * y + z * z) :=
    le_trans hxy (Real.sqrt_le_sqrt (by nlinarith [mul_self_nonneg z]))
  unfold reducedYlm harmonic
  rw [if_neg h]
  simp only
  rw [if_neg (by rw [abs_of_nonneg (Real.sqrt_nonneg _)]; exact not_lt.2 hr)]
  have hsgn : (-1 : ℂ) ^ ((m - |m|) / 2) = if m < 0 then (-1) ^ m.natAbs else 1 := by
    split_ifs with ht
    · rw [abs_of_neg ht, show (m - -m) / 2 = m by omega]
      have : m = -(m.natAbs : ℤ) := by omega
      rw [this, zpow_neg, Int.natAbs_neg, Int.natAbs_natCast, zpow_natCast, ← inv_pow]
      norm_num
    · rw [abs_of_nonneg (by omega)]; simp
  have he : (starRingEnd ℂ) (Complex.exp (Complex.I * (m : ℂ) * (azimuth x y : ℂ))) =
      ((x - y * Complex.I) / (Real.sqrt (x * x + y * y) : ℂ)) ^ m := by
    have h1 : Complex.exp (Complex.I * (m : ℂ) * (azimuth x y : ℂ)) =
        Complex.exp ((azimuth x y : ℂ) * Complex.I) ^ m := by
      rw [← Complex.exp_int_mul]; congr 1; ring
    rw [h1, exp_azimuth hxy, map_zpow₀, map_div₀]
    congr 2
    · simp [sub_eq_add_neg]
    · exact Complex.conj_ofReal _
  rw [hsgn, map_mul, he, Complex.conj_ofReal]
  ring

/-- A case in the third quadrant. -/
example : ¬ ((2 : ℕ) = 0 ∧ (1 : ℤ) = 0) ∧
    (1 : ℝ) / 1000000000 ≤ Real.sqrt ((-3) * (-3) + (-4) * (-4)) := by
  refine ⟨by decide, ?_⟩
  rw [show ((-3 : ℝ) * (-3) + (-4) * (-4)) = 5 ^ 2 by norm_num, Real.sqrt_sq (by norm_num)]
  norm_num

end Trv.Win

import Verif.Lemmas.BispecLegendre
import Verif.Props.NoiseOrders
/-
C140: bispectrum multipoles with a vanishing degree are Legendre moments of triangles.
-/
namespace Trv.Zeta
open Trv.Mesh Trv.Stats Trv.Win Trv.Two Trv.ThreePt Trv.Bis

/-! ### C140 -/

/-- **C140 (no dependence on the line of sight).** The raw multipole of degrees `(l, l, 0)` is the mean over
closed triangles of the product of the fluctuations at the three corners, times the Legendre polynomial of the
angle between the two binned sides. -/
theorem C140_isotropic (E : Env3) (hE : Special3 E) (hM : GoodMesh E.mesh) {l : ℕ} (h1 : E.ell1 = l)
    (h2 : E.ell2 = l) (h3 : E.ELL = 0) (data rand : List Part) (norm : ℝ) (rows : List Row3)
    (h : computeBispec E data rand norm = .ok rows) (e : Entry)
    (he : e ∈ measWrites E.numBins E.form) (hB : Below E e.row e.col) :
    (rows[e.pos.toNat]?).map Row3.raw = some ((norm : ℂ) * ((2 * l + 1) *
      meanTriangles E e.row e.col fun a b c => (legAngle l (kvec E.mesh a) (kvec E.mesh b) : ℂ) *
        (delta E data rand (fun _ => 1) a * delta E data rand (fun _ => 1) b *
          delta E data rand (fun _ => 1) c))) := by
  rw [C102_all_orders E (special_like hE) hE.symmetric hM (gap hE (Or.inl ⟨h1, h2, h3⟩)) data rand norm rows h e he hB,
    multipole_all, all_plane h3, orders_last hE h1 h2 h3]
  congr 3
  simp only [triangles, triangleMean_mean, h1, h2, h3]
  rw [orders_mean E _ (fun m => (-1) ^ m.natAbs)]
  apply mean_congr
  intro a b c
  rw [← harmonics_angle hE l (kvec_resolved E.mesh hM.resolved a) (kvec_resolved E.mesh hM.resolved b),
    Finset.sum_mul]
  apply Finset.sum_congr rfl
  intro m _
  simp only [compensated_zero]
  ring

/-- **C140 (line of sight and first side).** The raw multipole of degrees `(l, 0, l)` is the mean over closed
triangles of the product of the fluctuations at the two binned sides, and of the fluctuations at the third
side with each particle given the Legendre polynomial of the angle between ITS line of sight and the first
side. -/
theorem C140_first (E : Env3) (hE : Special3 E) (hM : GoodMesh E.mesh) {l : ℕ} (h1 : E.ell1 = l)
    (h2 : E.ell2 = 0) (h3 : E.ELL = l) (data rand : List Part) (hd : ∀ p ∈ data, Two.Resolved p.los)
    (hr : ∀ p ∈ rand, Two.Resolved p.los) (norm : ℝ) (rows : List Row3)
    (h : computeBispec E data rand norm = .ok rows) (e : Entry)
    (he : e ∈ measWrites E.numBins E.form) (hB : Below E e.row e.col) :
    (rows[e.pos.toNat]?).map Row3.raw = some ((norm : ℂ) * ((2 * l + 1) *
      meanTriangles E e.row e.col fun a b c =>
        delta E data rand (fun _ => 1) a * delta E data rand (fun _ => 1) b *
          delta E data rand (legAngle l (kvec E.mesh a)) c)) := by
  rw [C102_all_orders E (special_like hE) hE.symmetric hM (gap hE (Or.inr (Or.inl ⟨h1, h2, h3⟩))) data rand norm rows
    h e he hB, multipole_all, orders_middle hE h1 h2 h3]
  congr 3
  simp only [triangles, triangleMean_mean, h1, h2, h3]
  rw [orders_mean E _ (fun m => (-1) ^ m.natAbs)]
  apply mean_congr
  intro a b c
  rw [← harmonics_fluctuation hE l (kvec_resolved E.mesh hM.resolved a) hd hr, Finset.mul_sum]
  apply Finset.sum_congr rfl
  intro m _
  simp only [compensated_zero]
  rw [Two.ylm_zero]
  ring

/-- **C140 (line of sight and second side).** -/
theorem C140_second (E : Env3) (hE : Special3 E) (hM : GoodMesh E.mesh) {l : ℕ} (h1 : E.ell1 = 0)
    (h2 : E.ell2 = l) (h3 : E.ELL = l) (data rand : List Part) (hd : ∀ p ∈ data, Two.Resolved p.los)
    (hr : ∀ p ∈ rand, Two.Resolved p.los) (norm : ℝ) (rows : List Row3)
    (h : computeBispec E data rand norm = .ok rows) (e : Entry)
    (he : e ∈ measWrites E.numBins E.form) (hB : Below E e.row e.col) :
    (rows[e.pos.toNat]?).map Row3.raw = some ((norm : ℂ) * ((2 * l + 1) *
      meanTriangles E e.row e.col fun a b c =>
        delta E data rand (fun _ => 1) a * delta E data rand (fun _ => 1) b *
          delta E data rand (legAngle l (kvec E.mesh b)) c)) := by
  rw [C102_all_orders E (special_like hE) hE.symmetric hM (gap hE (Or.inr (Or.inr ⟨h1, h2, h3⟩))) data rand norm rows
    h e he hB, multipole_all, orders_first hE h1 h2 h3]
  congr 3
  simp only [triangles, triangleMean_mean, h1, h2, h3]
  rw [orders_mean E _ (fun m => (-1) ^ m.natAbs)]
  apply mean_congr
  intro a b c
  rw [← harmonics_fluctuation hE l (kvec_resolved E.mesh hM.resolved b) hd hr, Finset.mul_sum]
  apply Finset.sum_congr rfl
  intro m _
  simp only [compensated_zero]
  rw [Two.ylm_zero]
  ring

/-- **C140 (box).** In a periodic box the same holds of the multipoles `(l, l, 0)`, and the multipoles
`(l, 0, l)` are moments of the angle between the first side and the axis. -/
theorem C140_box (E : Env3) (hE : Special3 E) (hM : GoodMesh E.mesh) (hi : E.interlace = false) {l : ℕ}
    (hv : ValidForm E.numBins E.form) (pos : List (Fin 3 → ℝ)) (norm : ℝ) (rows : List Row3)
    (h : computeBispecBox E pos norm = .ok rows) (e : Entry)
    (he : e ∈ measWrites E.numBins E.form) (hr : BelowRounded E e.row) (hc : BelowRounded E e.col) :
    (E.ell1 = l → E.ell2 = l → E.ELL = 0 →
      (rows[e.pos.toNat]?).map Row3.raw = some ((norm : ℂ) * ((2 * l + 1) *
        meanTriangles E e.row e.col fun a b c => (legAngle l (kvec E.mesh a) (kvec E.mesh b) : ℂ) *
          (deltaBox E pos a * deltaBox E pos b * deltaBox E pos c)))) ∧
    (E.ell1 = l → E.ell2 = 0 → E.ELL = l →
      (rows[e.pos.toNat]?).map Row3.raw = some ((norm : ℂ) * ((2 * l + 1) *
        meanTriangles E e.row e.col fun a b c => (legAngle l (kvec E.mesh a) ![0, 0, 1] : ℂ) *
          (deltaBox E pos a * deltaBox E pos b * deltaBox E pos c)))) := by
  constructor
  · intro h1 h2 h3
    obtain ⟨r, hrow, hraw, -⟩ := C110_box E (special_like hE) hE.symmetric hM hi (gap hE (Or.inl ⟨h1, h2, h3⟩)) hv pos
      norm rows h e he hr hc
    rw [hrow, Option.map_some, hraw, orders_last hE h1 h2 h3]
    congr 3
    simp only [boxTriangles, triangleMean_mean, h1, h2]
    rw [orders_mean E _ (fun m => (-1) ^ m.natAbs)]
    apply mean_congr
    intro a b c
    rw [← harmonics_angle hE l (kvec_resolved E.mesh hM.resolved a) (kvec_resolved E.mesh hM.resolved b),
      Finset.sum_mul]
    apply Finset.sum_congr rfl
    intro m _
    simp only [comp, boxNoise, deltaBox]
    ring
  · intro h1 h2 h3
    obtain ⟨r, hrow, hraw, -⟩ := C110_box E (special_like hE) hE.symmetric hM hi
      (gap hE (Or.inr (Or.inl ⟨h1, h2, h3⟩))) hv pos norm rows h e he hr hc
    rw [hrow, Option.map_some, hraw, plane_middle hE h1 h2 h3]
    congr 3
    simp only [boxTriangles, triangleMean_mean, h1, h2]
    apply mean_congr
    intro a b c
    rw [← ylm_axis E.toEnv (special_value hE) l _ (kvec_resolved E.mesh hM.resolved a), Two.ylm_zero]
    simp only [comp, boxNoise, deltaBox]
    ring

/-- The shot noise of the multipoles `(l, l, 0)`, whatever the fields. -/
theorem noise_orders (E : Env3) (hE : Special3 E) (hx : ∀ a, (1 : ℝ) / 1000000000 ≤ E.mesh.L a / E.mesh.n a)
    {l : ℕ} (hl : 0 < l) (h1 : E.ell1 = l) (h2 : E.ell2 = l) (h3 : E.ELL = 0) (F : NoiseFields) (row col : ℤ) :
    planeOrders E (noisePart E F row col) = (2 * l + 1) * ((-1) ^ l * overSeparations E F l row col) := by
  classical
  rw [orders_last hE h1 h2 h3]
  congr 1
  have hn : ∀ m : ℤ, noisePart E F row col ⟨m, -m, 0⟩ = (-1) ^ l *
      sepNoise E (F.fLM 0) F.q (F.s 0) ⟨m, -m, 0⟩ (meanWavenumber E row) (meanWavenumber E col) := by
    intro m
    unfold noisePart
    have e1 : ¬ E.ell1 = 0 := by omega
    have e2 : ¬ E.ell2 = 0 := by omega
    have e3 : ¬ (E.ell1 = 0 ∧ E.ell2 = 0) := fun h => e1 h.1
    rw [if_neg e1, if_neg e2, if_neg e3, h1, h2, ← two_mul l, pow_mul, Complex.I_sq]
    ring
  simp only [hn]
  unfold overSeparations sepNoise
  simp only [← mul_assoc]
  rw [← Finset.sum_mul]
  congr 1
  simp only [Finset.mul_sum]
  rw [Finset.sum_comm]
  apply Finset.sum_congr rfl
  intro c _
  have hr := rvec_resolved E.mesh hx c
  have key := harmonics_angle hE l hr hr
  rw [legAngle_self hl] at key
  rw [h1, h2]
  have : ∀ x : ℂ, ∑ m ∈ Finset.Icc (-(l : ℤ)) l, (-1) ^ m.natAbs * (-1) ^ l *
      (x * (E.ylm l m (rvec E.mesh c) * E.ylm l (-m) (rvec E.mesh c))) =
      (-1) ^ l * (x * ((if rvec E.mesh c = 0 then (0 : ℝ) else 1 : ℝ) : ℂ)) := by
    intro x
    rw [← key, Finset.mul_sum, Finset.mul_sum]
    apply Finset.sum_congr rfl
    intro m _
    ring
  refine (Eq.trans ?_ (this (corr E.toEnv (F.fLM 0) F.q (F.s 0) c *
    ((E.sj l (meanWavenumber E row * mag (rvec E.mesh c)) * E.sj l (meanWavenumber E col * mag (rvec E.mesh c)) : ℝ) : ℂ)))).trans ?_
  · apply Finset.sum_congr rfl
    intro m _
    ring
  · split_ifs <;> simp

/-- **C140 (shot noise).** The shot noise of the multipoles `(l, l, 0)` with `l > 0` is an integral over
non-zero separations, without harmonics: the two sides see the same separation, whose angle with itself
vanishes.  Of the contributions of coinciding corners, it is the only one. -/
theorem C140_shotnoise (E : Env3) (hE : Special3 E) (hM : GoodMesh E.mesh) (hi : E.interlace = false)
    (hx : ∀ a, (1 : ℝ) / 1000000000 ≤ E.mesh.L a / E.mesh.n a)
    {l : ℕ} (hl : 0 < l) (h1 : E.ell1 = l) (h2 : E.ell2 = l) (h3 : E.ELL = 0)
    (hv : ValidForm E.numBins E.form) (norm : ℝ) (rows : List Row3) (e : Entry)
    (he : e ∈ measWrites E.numBins E.form) (hr : BelowRounded E e.row) (hc : BelowRounded E e.col) :
    (∀ data rand, computeBispec E data rand norm = .ok rows → (rows[e.pos.toNat]?).map Row3.shot =
      some ((norm : ℂ) * ((2 * l + 1) * ((-1) ^ l * overSeparations E (surveyNoise E data rand) l e.row e.col)))) ∧
    (∀ pos, computeBispecBox E pos norm = .ok rows → (rows[e.pos.toNat]?).map Row3.shot =
      some ((norm : ℂ) * ((2 * l + 1) * ((-1) ^ l * overSeparations E (boxNoise E pos) l e.row e.col)))) := by
  have hg := gap hE (Or.inl ⟨h1, h2, h3⟩)
  constructor
  · intro data rand h
    obtain ⟨r, hrow, hs, -⟩ := C110_shotnoise E (special_like hE) hE.symmetric hM hi hg hv data rand norm rows h e he hr hc
    rw [hrow, Option.map_some, hs, all_plane h3, noise_orders E hE hx hl h1 h2 h3]
  · intro pos h
    obtain ⟨r, hrow, -, hs, -⟩ := C110_box E (special_like hE) hE.symmetric hM hi hg hv pos norm rows h e he hr hc
    rw [hrow, Option.map_some, hs, noise_orders E hE hx hl h1 h2 h3]

/-! ### The hypotheses can be met -/

/-- Symbols with the required symmetries and values, zero when no degree vanishes. -/
noncomputable def exWz (a b c m1 m2 m3 : ℤ) : ℝ :=
  if m1 + m2 + m3 = 0 ∧ ((a = b ∧ c = 0) ∨ (a = c ∧ b = 0) ∨ (b = c ∧ a = 0)) then
    (-1) ^ ((a + b + c).natAbs / 2 + (m1.natAbs + m2.natAbs + m3.natAbs) / 2) / Real.sqrt ((a + b + c : ℤ) + 1)
  else 0

theorem exWz_like : WignerLike exWz := by
  have key : ∀ (J : ℕ) (p : Prop) [Decidable p] (q : Prop) [Decidable q] (x y : ℝ), (p ↔ q) → (p → J % 2 = 0) →
      x = y → (if p then x else 0) = (-1) ^ J * if q then y else 0 := by
    intro J p _ q _ x y hpq hp hxy
    by_cases h : p
    · rw [if_pos h, if_pos (hpq.1 h), (Nat.even_iff.2 (hp h)).neg_one_pow, one_mul, hxy]
    · rw [if_neg h, if_neg (fun hq => h (hpq.2 hq)), mul_zero]
  constructor
  · intro a b c m1 m2 m3 h
    unfold exWz
    rw [if_neg (fun hh => h hh.1)]
  · intro a b c m1 m2 m3
    unfold exWz
    apply key
    · constructor <;> rintro ⟨h1, h2⟩ <;> exact ⟨by omega, h2⟩
    · rintro ⟨_, h⟩; omega
    · simp only [Int.natAbs_neg]
  · intro a b c m1 m2 m3
    unfold exWz
    apply key
    · constructor <;> rintro ⟨h1, h2⟩ <;> exact ⟨by omega, by omega⟩
    · rintro ⟨_, h⟩; omega
    · rw [add_comm (b : ℤ), add_comm m2.natAbs]

/-- A quadrupole measurement. -/
noncomputable def exT (l1 l2 L : ℕ) : Env3 where
  mesh := ⟨fun _ => 8, fun _ => 100⟩
  sch := .tsc
  interlace := false
  P := sphP
  w3j := exWz
  ELL := L
  edges := [0, 1 / 10, 1 / 5]
  centres := [1 / 20, 3 / 20]
  numBins := 2
  ell1 := l1
  ell2 := l2
  form := .diag
  sj := fun _ _ => 0

theorem exT_special (l1 l2 L : ℕ) : Special3 (exT l1 l2 L) := by
  refine ⟨rfl, exWz_like, ?_, ?_⟩
  · intro l m _
    show exWz l l 0 m (-m) 0 = _
    unfold exWz
    rw [if_pos ⟨by omega, Or.inl ⟨rfl, rfl⟩⟩]
    congr 2
    · simp only [Int.natAbs_neg, Int.natAbs_zero]
      omega
    · push_cast
      ring
  · intro l m _
    show exWz l 0 l m 0 (-m) = _
    unfold exWz
    rw [if_pos ⟨by omega, Or.inr (Or.inl ⟨rfl, rfl⟩)⟩]
    congr 2
    · simp only [Int.natAbs_neg, Int.natAbs_zero]
      omega
    · push_cast
      ring

/-- The hypotheses of C140 are met, by measurements that complete, at an entry with modes. -/
example (l1 l2 L : ℕ) (hl : (l1, l2, L) = (2, 2, 0) ∨ (l1, l2, L) = (2, 0, 2) ∨ (l1, l2, L) = (0, 2, 2)) :
    Special3 (exT l1 l2 L) ∧ GoodMesh (exT l1 l2 L).mesh ∧
    (∀ data rand norm, ∃ rows, computeBispec (exT l1 l2 L) data rand norm = .ok rows) ∧
    (⟨0, 0, 0⟩ : Entry) ∈ measWrites (exT l1 l2 L).numBins (exT l1 l2 L).form ∧ Below (exT l1 l2 L) 0 0 ∧
    BelowRounded (exT l1 l2 L) 0 ∧
    (∀ a, (1 : ℝ) / 1000000000 ≤ (exT l1 l2 L).mesh.L a / (exT l1 l2 L).mesh.n a) ∧ ValidForm (exT l1 l2 L).numBins (exT l1 l2 L).form := by
  have hpi := Real.pi_gt_three
  refine ⟨exT_special _ _ _, ⟨?_, ?_, ?_⟩, ?_, ?_, ?_, ?_, ?_, ?_⟩
  · intro a; exact ⟨show (0 : ℤ) < 8 by norm_num, show (0 : ℝ) < 100 by norm_num⟩
  · intro a; exact show (2 : ℤ) ∣ 8 by norm_num
  · intro a
    show (1 : ℝ) / 1000000000 ≤ 2 * Real.pi / 100
    linarith
  · intro data rand norm
    obtain ⟨rows, h, _⟩ := C37_measurement_defined_partial (exT l1 l2 L) data rand norm (by
      show epsCoupling ≤ |exWz l1 l2 L 0 0 0|
      have : exWz l1 l2 L 0 0 0 = 1 / Real.sqrt 5 := by
        simp only [Prod.mk.injEq] at hl
        rcases hl with ⟨rfl, rfl, rfl⟩ | ⟨rfl, rfl, rfl⟩ | ⟨rfl, rfl, rfl⟩ <;> unfold exWz <;> norm_num
      rw [this, abs_of_nonneg (by positivity), le_div_iff₀ (by positivity)]
      have : Real.sqrt 5 ≤ 3 := by
        rw [Real.sqrt_le_left (by norm_num)]
        norm_num
      unfold epsCoupling
      nlinarith) (Or.inl (show Form.diag ≠ Form.full by decide))
    exact ⟨rows, h⟩
  · show (⟨0, 0, 0⟩ : Entry) ∈ measWrites 2 .diag
    decide
  · intro a
    show (1 : ℝ) / 10 ≤ Real.pi * ((8 : ℤ) : ℝ) / 100 ∧ (1 : ℝ) / 10 ≤ Real.pi * ((8 : ℤ) : ℝ) / 100 ∧
      (false = true → (1 : ℝ) / 10 + 1 / 10 ≤ Real.pi * ((8 : ℤ) : ℝ) / 100)
    push_cast
    refine ⟨by linarith, by linarith, fun _ => by linarith⟩
  · intro a
    show (1 : ℝ) / 10 + 1 / 100000 ≤ Real.pi * ((8 : ℤ) : ℝ) / 100
    push_cast
    linarith
  · intro a
    show (1 : ℝ) / 1000000000 ≤ 100 / ((8 : ℤ) : ℝ)
    norm_num
  · show ValidForm 2 .diag
    trivial

end Trv.Zeta

import Verif.Spec.Bispec
import Verif.Lemmas.FourierMesh
import Verif.Lemmas.Bispec
import Verif.Lemmas.Layout
/-
Lemmas on the bispectrum measurement as a sum over triangles.
-/
namespace Trv.Bis
open Trv.Mesh Trv.Stats Trv.Win Trv.Two Trv.ThreePt

/-- The third side of a triangle. -/
def third (n : Fin 3 → ℤ) (a b : ℤ × ℤ × ℤ) : ℤ × ℤ × ℤ :=
  mirrorCell n (a.1 + b.1, a.2.1 + b.2.1, a.2.2 + b.2.2)

theorem closed_iff {n : Fin 3 → ℤ} (hn : ∀ a, 0 < n a) (a b : ℤ × ℤ × ℤ) {c : ℤ × ℤ × ℤ}
    (hc : c ∈ box n) : Closed n a b c ↔ c = third n a b := by
  obtain ⟨h0, h1, h2⟩ := mem_box.1 hc
  have key : ∀ {N s i : ℤ}, 0 < N → 0 ≤ i → i < N → (N ∣ s + i ↔ i = -s % N) := by
    intro N s i hN hi hi'
    constructor
    · intro h
      have : -s % N = i % N := by
        apply Int.emod_emod_of_dvd _ (dvd_refl N) |>.symm.trans
        rw [Int.emod_emod_of_dvd _ (dvd_refl N)]
        rw [Int.emod_eq_emod_iff_emod_sub_eq_zero]
        apply Int.emod_eq_zero_of_dvd
        have := (Int.dvd_neg).2 h
        rw [show -s - i = -(s + i) by ring]
        exact this
      rw [this, Int.emod_eq_of_lt hi hi']
    · intro h
      rw [h]
      have := Int.emod_add_mul_ediv (-s) N
      rw [show s + -s % N = -(N * (-s / N)) by linarith]
      exact (Int.dvd_neg).2 (dvd_mul_right _ _)
  unfold Closed third mirrorCell
  simp only
  rw [key (hn 0) h0.1 h0.2, key (hn 1) h1.1 h1.2, key (hn 2) h2.1 h2.2]
  constructor
  · rintro ⟨e0, e1, e2⟩
    exact Prod.ext e0 (Prod.ext e1 e2)
  · intro e
    rw [e]
    exact ⟨rfl, rfl, rfl⟩

theorem third_mem {n : Fin 3 → ℤ} (hn : ∀ a, 0 < n a) (a b : ℤ × ℤ × ℤ) : third n a b ∈ box n :=
  mirror_mem hn _

theorem phase3_add (n : Fin 3 → ℤ) (s : ℤ) (c x y : ℤ × ℤ × ℤ) :
    phase3 n s c x * phase3 n s c y = phase3 n s c (x.1 + y.1, x.2.1 + y.2.1, x.2.2 + y.2.2) := by
  rw [phase3_eq, phase3_eq, phase3_eq]
  simp only [mul_add, root_add]
  ring

/-- Product of three inverse transforms summed over the mesh. -/
theorem triple_sum {n : Fin 3 → ℤ} (hn : ∀ a, 0 < n a) (A B C : ℤ × ℤ × ℤ → ℂ) :
    ∑ c ∈ box n, (∑ x ∈ box n, A x * phase3 n 1 c x) * (∑ y ∈ box n, B y * phase3 n 1 c y) *
        (∑ z ∈ box n, C z * phase3 n 1 c z) =
      ((n 0 * n 1 * n 2 : ℤ) : ℂ) * ∑ x ∈ box n, ∑ y ∈ box n, A x * B y * C (third n x y) := by
  have e : ∀ c ∈ box n, (∑ x ∈ box n, A x * phase3 n 1 c x) * (∑ y ∈ box n, B y * phase3 n 1 c y) *
        (∑ z ∈ box n, C z * phase3 n 1 c z) =
      ∑ x ∈ box n, ∑ y ∈ box n, ∑ z ∈ box n, A x * B y * C z *
        (phase3 n 1 c z * phase3 n (-1) (third n x y) c) := by
    intro c _
    rw [Finset.sum_mul_sum, Finset.sum_mul]
    apply Finset.sum_congr rfl
    intro x _
    rw [Finset.sum_mul]
    apply Finset.sum_congr rfl
    intro y _
    rw [Finset.mul_sum]
    apply Finset.sum_congr rfl
    intro z _
    have : phase3 n (-1) (third n x y) c = phase3 n 1 c x * phase3 n 1 c y := by
      unfold third
      rw [phase3_mirror hn, neg_neg, phase3_comm, phase3_add]
    rw [this]
    ring
  rw [Finset.sum_congr rfl e, Finset.sum_comm, Finset.mul_sum]
  apply Finset.sum_congr rfl
  intro x _
  rw [Finset.sum_comm, Finset.mul_sum]
  apply Finset.sum_congr rfl
  intro y _
  rw [Finset.sum_comm]
  have e2 : ∀ z ∈ box n, ∑ c ∈ box n, A x * B y * C z *
        (phase3 n 1 c z * phase3 n (-1) (third n x y) c) =
      if z = third n x y then A x * B y * C z * ((n 0 * n 1 * n 2 : ℤ) : ℂ) else 0 := by
    intro z hz
    rw [← Finset.mul_sum, phase3_orth hn (Or.inl rfl) hz (third_mem hn x y), mul_ite, mul_zero]
  rw [Finset.sum_congr rfl e2, Finset.sum_ite_eq', if_pos (third_mem hn x y)]
  ring

theorem allModes_eq (n : Fin 3 → ℤ) : allModes n = box n := rfl

theorem filter_closed {n : Fin 3 → ℤ} (hn : ∀ a, 0 < n a) (a b : ℤ × ℤ × ℤ) [DecidablePred (Closed n a b)] :
    (allModes n).filter (Closed n a b) = {third n a b} := by
  ext c
  rw [Finset.mem_filter, Finset.mem_singleton, allModes_eq]
  constructor
  · rintro ⟨h, h'⟩; exact (closed_iff hn a b h).1 h'
  · rintro rfl; exact ⟨third_mem hn a b, (closed_iff hn a b (third_mem hn a b)).2 rfl⟩

theorem inBand_iff (E : Env3) (lo up : ℝ) (c : ℤ × ℤ × ℤ) :
    inBand E lo up c = true ↔ lo ≤ mag (kvec E.mesh c) ∧ mag (kvec E.mesh c) < up := by
  unfold inBand
  exact @decide_eq_true_iff _ (Classical.dec _)

theorem binModes_eq (E : Env3) (b : ℤ) :
    binModes E b = (box E.mesh.n).filter fun c => inBand E (lowerEdge E b) (upperEdge E b) c = true := by
  ext c
  unfold binModes
  rw [Finset.mem_filter, Finset.mem_filter, inBand_iff]
  rfl

theorem nmodesBand_eq (E : Env3) (b : ℤ) :
    nmodesBand E (lowerEdge E b) (upperEdge E b) = (binModes E b).card := by
  unfold nmodesBand
  rw [← List.toFinset_card_of_nodup ((cells_nodup _).filter _)]
  congr 1
  ext c
  rw [List.mem_toFinset, List.mem_filter, binModes_eq, Finset.mem_filter, mem_cells, mem_box]

theorem bandLimited_eq (E : Env3) (hn : ∀ a, 0 < E.mesh.n a) (fk : ℤ → ℂ) (ell : ℕ) (m : ℤ) (b : ℤ)
    {c : ℤ × ℤ × ℤ} (hc : c ∈ box E.mesh.n) :
    bandLimited E fk ell m (lowerEdge E b) (upperEdge E b) (gid E.mesh.n c) =
      (∑ x ∈ box E.mesh.n, (if inBand E (lowerEdge E b) (upperEdge E b) x = true then
        E.ylm ell m (kvec E.mesh x) * (fk (gid E.mesh.n x) / (window E (gid E.mesh.n x) : ℂ))
        else 0) * phase3 E.mesh.n 1 c x) / ((binModes E b).card : ℂ) := by
  unfold bandLimited
  rw [dft_eq, cellOf_gid hn hc, nmodesBand_eq]
  congr 1
  apply Finset.sum_congr rfl
  intro x hx
  simp only [cellOf_gid hn hx]

theorem window_gid (E : Env3) (hn : ∀ a, 0 < E.mesh.n a) {c : ℤ × ℤ × ℤ} (hc : c ∈ box E.mesh.n) :
    window E (gid E.mesh.n c) = windowFresh E.mesh.n c.1 c.2.1 c.2.2 (orderOf E.sch) := by
  unfold window
  rw [cellOf_gid hn hc]

/-- One component is the mean over triangles, but for the volume of a cell. -/
theorem bkComponent_eq (E : Env3) (hn : ∀ a, 0 < E.mesh.n a) (data rand : List Part) (t : Triplet)
    (row col : ℤ) :
    bkComponent E (fourier E.mesh (dnField E.toEnv data rand (alphaOf data rand) 0 0))
        (gField E data rand (alphaOf data rand) t.M) t row col =
      ((E.mesh.n 0 * E.mesh.n 1 * E.mesh.n 2 : ℤ) : ℂ) / (vol E.mesh : ℂ) *
        triangles E data rand t row col := by
  obtain ⟨f, hf⟩ : ∃ f, f = fourier E.mesh (dnField E.toEnv data rand (alphaOf data rand) 0 0) := ⟨_, rfl⟩
  obtain ⟨h, hh⟩ : ∃ h, h = fourier E.mesh
    (dnField E.toEnv data rand (alphaOf data rand) E.ELL t.M) := ⟨_, rfl⟩
  have key := triple_sum hn
    (fun x => if inBand E (lowerEdge E row) (upperEdge E row) x = true then
        E.ylm E.ell1 t.m1 (kvec E.mesh x) * (f (gid E.mesh.n x) / (window E (gid E.mesh.n x) : ℂ)) else 0)
    (fun x => if inBand E (lowerEdge E col) (upperEdge E col) x = true then
        E.ylm E.ell2 t.m2 (kvec E.mesh x) * (f (gid E.mesh.n x) / (window E (gid E.mesh.n x) : ℂ)) else 0)
    (fun x => h (gid E.mesh.n x) / (window E (gid E.mesh.n x) : ℂ) / (vol E.mesh : ℂ))
  have lhs : bkComponent E f (gField E data rand (alphaOf data rand) t.M) t row col =
      (∑ c ∈ box E.mesh.n, (∑ x ∈ box E.mesh.n, (if inBand E (lowerEdge E row) (upperEdge E row) x = true then
        E.ylm E.ell1 t.m1 (kvec E.mesh x) * (f (gid E.mesh.n x) / (window E (gid E.mesh.n x) : ℂ)) else 0) *
          phase3 E.mesh.n 1 c x) *
        (∑ x ∈ box E.mesh.n, (if inBand E (lowerEdge E col) (upperEdge E col) x = true then
        E.ylm E.ell2 t.m2 (kvec E.mesh x) * (f (gid E.mesh.n x) / (window E (gid E.mesh.n x) : ℂ)) else 0) *
          phase3 E.mesh.n 1 c x) *
        (∑ x ∈ box E.mesh.n, (h (gid E.mesh.n x) / (window E (gid E.mesh.n x) : ℂ) / (vol E.mesh : ℂ)) *
          phase3 E.mesh.n 1 c x)) / ((binModes E row).card * (binModes E col).card : ℂ) := by
    unfold bkComponent
    simp only
    rw [gids_sum E.mesh hn, Finset.sum_div]
    apply Finset.sum_congr rfl
    intro c hc
    rw [bandLimited_eq E hn f _ _ row hc, bandLimited_eq E hn f _ _ col hc]
    have hG : gField E data rand (alphaOf data rand) t.M (gid E.mesh.n c) =
        ∑ x ∈ box E.mesh.n, (h (gid E.mesh.n x) / (window E (gid E.mesh.n x) : ℂ) / (vol E.mesh : ℂ)) *
          phase3 E.mesh.n 1 c x := by
      unfold gField invFourier
      simp only
      rw [dft_eq, cellOf_gid hn hc, hh]
    rw [hG]
    ring
  rw [← hf, lhs, key]
  unfold triangles triangleMean
  simp only [filter_closed hn, Finset.sum_singleton]
  have hs : ∑ x ∈ box E.mesh.n, ∑ y ∈ box E.mesh.n,
      (if inBand E (lowerEdge E row) (upperEdge E row) x = true then
        E.ylm E.ell1 t.m1 (kvec E.mesh x) * (f (gid E.mesh.n x) / (window E (gid E.mesh.n x) : ℂ)) else 0) *
      (if inBand E (lowerEdge E col) (upperEdge E col) y = true then
        E.ylm E.ell2 t.m2 (kvec E.mesh y) * (f (gid E.mesh.n y) / (window E (gid E.mesh.n y) : ℂ)) else 0) *
      (h (gid E.mesh.n (third E.mesh.n x y)) / (window E (gid E.mesh.n (third E.mesh.n x y)) : ℂ) /
        (vol E.mesh : ℂ)) =
      (∑ a ∈ binModes E row, ∑ b ∈ binModes E col,
        E.ylm E.ell1 t.m1 (kvec E.mesh a) * E.ylm E.ell2 t.m2 (kvec E.mesh b) *
          (compensated E data rand 0 0 a * compensated E data rand 0 0 b *
            compensated E data rand E.ELL t.M (third E.mesh.n a b))) / (vol E.mesh : ℂ) := by
    rw [binModes_eq, binModes_eq, Finset.sum_filter, Finset.sum_div]
    apply Finset.sum_congr rfl
    intro x hx
    by_cases hb : inBand E (lowerEdge E row) (upperEdge E row) x = true
    · simp only [if_pos hb]
      rw [Finset.sum_filter, Finset.sum_div]
      apply Finset.sum_congr rfl
      intro y hy
      by_cases hb' : inBand E (lowerEdge E col) (upperEdge E col) y = true
      · simp only [if_pos hb']
        unfold compensated
        rw [window_gid E hn hx, window_gid E hn hy, window_gid E hn (third_mem hn x y), hf, hh]
        ring
      · simp only [if_neg hb', mul_zero, zero_mul, zero_div]
    · simp only [if_neg hb, zero_mul, zero_div, Finset.sum_const_zero]
  rw [hs]
  ring

end Trv.Bis

import Verif.Lemmas.Mesh
import Mathlib.Data.Rat.Floor
/-
Helper lemmas for interlacing and periodic translation.
-/
set_option linter.unusedSectionVars false
set_option linter.unusedSimpArgs false

namespace Trv.Mesh

variable {K : Type} [Field K] [LinearOrder K] [IsStrictOrderedRing K] [FloorRing K]

/-- Shifting location and cell by the same whole number does not change the
deposited fraction. -/
theorem deposit_shift (sch : Scheme) (n : ℤ) (loc : K) (i d : ℤ) :
    deposit sch n (loc + d) (i + d) = deposit sch n loc i := by
  unfold deposit
  rw [← finsum_comp_equiv (Equiv.addRight d)]
  apply finsum_congr
  intro j
  simp only [Equiv.coe_addRight]
  have h1 : ((j + d) % n = (i + d) % n) ↔ (j % n = i % n) := by
    constructor
    · intro h; exact Int.emod_add_cancel_right d |>.mp h
    · intro h; exact Int.emod_add_cancel_right d |>.mpr h
  have h2 : loc + (d : K) - ((j + d : ℤ) : K) = loc - j := by push_cast; ring
  simp only [h1, h2]

theorem deposit_emod (sch : Scheme) (n : ℤ) (loc : K) (i : ℤ) :
    deposit sch n loc (i % n) = deposit sch n loc i := by
  unfold deposit; simp

theorem deposit_loc_period (sch : Scheme) (n : ℤ) (loc : K) (i m : ℤ) :
    deposit sch n (loc + (m * n : ℤ)) i = deposit sch n loc i := by
  rw [← deposit_shift sch n loc i (m * n), ← deposit_emod _ _ _ (i + m * n),
    Int.add_mul_emod_self_right, deposit_emod]

/-- The shifted stencil equals the main stencil away from the faulty TSC branch. -/
theorem axisStencilShifted_eq (sch : Scheme) (n : ℤ) (loc : K)
    (h : sch = .tsc → loc - truncInt loc < 1 / 2 ∨ truncInt loc < n - 2) :
    axisStencilShifted sch n loc = axisStencil sch n loc := by
  cases sch <;> try rfl
  simp only [axisStencilShifted, axisStencil, tscAxisShifted, tscAxis]
  rcases h rfl with h | h
  · simp only [h, if_true]
  · by_cases h2 : loc - (truncInt loc : K) < 1 / 2
    · simp only [h2, if_true]
    · simp only [h2, if_false]
      have h3 : truncInt loc ≠ n - 1 := by omega
      have h4 : truncInt loc + 1 ≠ n - 1 := by omega
      simp only [h3, h4, if_false]

theorem locShifted_cases {n : ℤ} {L x : K} (hn : 0 < n) (hL : 0 < L) (h0 : 0 ≤ x) (h1 : x < L)
    (hne : n * x / L + 1 / 2 ≠ (n : K)) :
    0 ≤ locShifted n L x ∧ locShifted n L x < n ∧
      ∃ m : ℤ, locShifted n L x = locMain n L x + 1 / 2 + (m * n : ℤ) := by
  obtain ⟨a, b⟩ := locMain_range (K := K) hn hL h0 h1
  have hn' : (1 : K) ≤ n := by exact_mod_cast hn
  unfold locMain at a b ⊢
  unfold locShifted
  simp only
  split_ifs with h
  · refine ⟨by linarith, by linarith, -1, by push_cast; ring⟩
  · have := lt_of_le_of_ne (not_lt.mp h) hne
    exact ⟨by linarith, this, 0, by push_cast; ring⟩

/-- Updates by stencil entries outside the range on the first axis are all
rejected by the guard. -/
theorem updates_outside (M : Mesh K) (sx sy sz : List (ℤ × K)) (w : Bool → K)
    (hn1 : 0 < M.n 1) (hn2 : 0 < M.n 2)
    (hx : ∀ a ∈ sx, M.n 0 ≤ a.1) (hy : ∀ a ∈ sy, 0 ≤ a.1) (hz : ∀ a ∈ sz, 0 ≤ a.1) :
    updatesOfStencils M sx sy sz w = [] := by
  unfold updatesOfStencils
  simp only [List.flatMap_eq_nil_iff]
  intro a ha b hb c hc
  apply if_neg
  rintro ⟨_, h⟩
  unfold gridIndex Mesh.nmesh at h
  have h1 := hx a ha; have h2 := hy b hb; have h3 := hz c hc
  have : M.n 0 * M.n 1 ≤ a.1 * M.n 1 + b.1 := by nlinarith
  nlinarith

theorem updates_append (M : Mesh K) (s1 s2 sy sz : List (ℤ × K)) (w : Bool → K) :
    updatesOfStencils M (s1 ++ s2) sy sz w =
      updatesOfStencils M s1 sy sz w ++ updatesOfStencils M s2 sy sz w := by
  simp [updatesOfStencils]

theorem mem_allUpdates_range (sch : Scheme) (M : Mesh K) (ps : List (Particle K)) :
    (∀ u ∈ allUpdates sch M ps, 0 ≤ u.gid ∧ u.gid < M.nmesh) ∧
    (∀ u ∈ allUpdatesShifted sch M ps, 0 ≤ u.gid ∧ u.gid < M.nmesh) := by
  constructor <;>
  · intro u hu
    obtain ⟨p, _, hu⟩ := List.mem_flatMap.mp hu
    exact updates_in_mesh _ _ _ _ _ u hu

theorem runUpdates_perm {us us' : List (Update K)} (h : us'.Perm us) : runUpdates us' = runUpdates us := by
  funext g c
  rw [runUpdates_apply, runUpdates_apply]
  exact (h.map _).sum_eq

end Trv.Mesh

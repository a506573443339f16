import Verif.Spec.Mesh
import Mathlib.Algebra.BigOperators.Group.List.Basic
import Mathlib.Algebra.BigOperators.Ring.List
import Mathlib.Tactic.Ring
import Mathlib.Tactic.Linarith
import Mathlib.Tactic.FieldSimp
import Mathlib.Tactic.NormNum
import Mathlib.Tactic.Push
import Mathlib.Tactic.SplitIfs
/-
Helper lemmas for mesh assignment.
-/
set_option linter.unusedSectionVars false
set_option linter.unusedSimpArgs false

namespace Trv.Mesh

variable {K : Type} [Field K] [LinearOrder K] [IsStrictOrderedRing K] [FloorRing K]

theorem truncInt_of_nonneg {x : K} (h : 0 ≤ x) : truncInt x = ⌊x⌋ := by simp [truncInt, h]

theorem wrapUp {n i : ℤ} (h0 : 0 ≤ i) (h1 : i < n) :
    (if i = n - 1 then 0 else i + 1) = (i + 1) % n := by
  split_ifs with h
  · subst h; simp
  · exact (Int.emod_eq_of_lt (by omega) (by omega)).symm

theorem wrapDown {n i : ℤ} (h0 : 0 ≤ i) (h1 : i < n) :
    (if i = 0 then n - 1 else i - 1) = (i - 1) % n := by
  split_ifs with h
  · subst h
    rw [show (0 - 1 : ℤ) = (n - 1) + n * (-1) by ring, Int.add_mul_emod_self_left]
    exact (Int.emod_eq_of_lt (by omega) (by omega)).symm
  · exact (Int.emod_eq_of_lt (by omega) (by omega)).symm

/-- Lattice points (not wrapped) covered by the main stencils. -/
def cover : Scheme → K → List ℤ
  | .ngp, loc => [if loc - ⌊loc⌋ ≥ 1 / 2 then ⌊loc⌋ + 1 else ⌊loc⌋]
  | .cic, loc => [⌊loc⌋, ⌊loc⌋ + 1]
  | .tsc, loc => if loc - ⌊loc⌋ < 1 / 2 then [⌊loc⌋ - 1, ⌊loc⌋, ⌊loc⌋ + 1]
      else [⌊loc⌋, ⌊loc⌋ + 1, ⌊loc⌋ + 2]
  | .pcs, loc => [⌊loc⌋ - 1, ⌊loc⌋, ⌊loc⌋ + 1, ⌊loc⌋ + 2]

theorem floor_range {n : ℤ} {loc : K} (h0 : 0 ≤ loc) (h1 : loc < n) :
    0 ≤ ⌊loc⌋ ∧ ⌊loc⌋ < n := ⟨Int.floor_nonneg.mpr h0, Int.floor_lt.mpr h1⟩

theorem fract_bounds (loc : K) : 0 ≤ loc - ⌊loc⌋ ∧ loc - ⌊loc⌋ < 1 :=
  ⟨sub_nonneg.mpr (Int.floor_le loc), by have := Int.lt_floor_add_one loc; linarith⟩

theorem emod_self_of {n i : ℤ} (h0 : 0 ≤ i) (h1 : i < n) : i % n = i := Int.emod_eq_of_lt h0 h1

/-- The main stencil is the wrapped cover with kernel weights. -/
theorem axisStencil_eq (sch : Scheme) {n : ℤ} {loc : K} (h0 : 0 ≤ loc) (h1 : loc < n) :
    axisStencil sch n loc = (cover sch loc).map fun j : ℤ => (j % n, kernel sch (loc - j)) := by
  obtain ⟨f0, f1⟩ := floor_range h0 h1
  obtain ⟨s0, s1⟩ := fract_bounds loc
  have ef := emod_self_of f0 f1
  obtain ⟨s, hs⟩ : ∃ s, s = loc - (⌊loc⌋ : K) := ⟨_, rfl⟩
  rw [← hs] at s0 s1
  have e1 : loc - ((⌊loc⌋ + 1 : ℤ) : K) = s - 1 := by push_cast; rw [hs]; ring
  have e2 : loc - ((⌊loc⌋ + 2 : ℤ) : K) = s - 2 := by push_cast; rw [hs]; ring
  have em : loc - ((⌊loc⌋ - 1 : ℤ) : K) = s + 1 := by push_cast; rw [hs]; ring
  have wu := wrapUp f0 f1
  have wd := wrapDown f0 f1
  have wuu : (if (⌊loc⌋ + 1) % n = n - 1 then 0 else (⌊loc⌋ + 1) % n + 1) = (⌊loc⌋ + 2) % n := by
    rw [wrapUp (Int.emod_nonneg _ (by omega)) (Int.emod_lt_of_pos _ (by omega))]
    rw [Int.emod_add_emod]; congr 1; ring
  cases sch with
  | ngp =>
    simp only [axisStencil, ngpAxis, truncInt_of_nonneg h0, cover, List.map_cons, List.map_nil]
    rw [← hs]
    split_ifs with h h'
    · rw [if_pos h'] at wu
      rw [e1, ← wu]
      simp only [kernel]
      rw [if_pos (by constructor <;> linarith)]
    · rw [if_neg h'] at wu
      rw [e1, ← wu]
      simp only [kernel]
      rw [if_pos (by constructor <;> linarith)]
    · rw [← hs, ef]
      simp only [kernel]
      rw [if_pos (by constructor <;> linarith)]
  | cic =>
    simp only [axisStencil, cicAxis, truncInt_of_nonneg h0, cover, List.map_cons, List.map_nil]
    rw [wu, ef, e1, ← hs]
    simp only [kernel]
    have a0 : |s| = s := abs_of_nonneg s0
    have a1 : |s - 1| = 1 - s := by rw [abs_of_nonpos (by linarith)]; ring
    rw [a0, a1, if_pos s1.le, if_pos (by linarith)]
    simp
  | tsc =>
    simp only [axisStencil, tscAxis, truncInt_of_nonneg h0, cover]
    rw [wu, wd, wuu, ← hs]
    have a0 : |s| = s := abs_of_nonneg s0
    have a1 : |s - 1| = 1 - s := by rw [abs_of_nonpos (by linarith)]; ring
    have a2 : |s - 2| = 2 - s := by rw [abs_of_nonpos (by linarith)]; ring
    have am : |s + 1| = s + 1 := abs_of_nonneg (by linarith)
    by_cases h : s < 1 / 2
    · simp only [h, if_true, List.map_cons, List.map_nil, tscWin, ef, e1, em, ← hs, kernel, a0, a1, am]
      rw [if_pos h.le]
      rw [if_pos (show s + 1 ≤ 3 / 2 by linarith), if_pos (show 1 - s ≤ 3 / 2 by linarith),
        if_neg (show ¬ 1 - s ≤ 1 / 2 by linarith)]
      split_ifs with hz
      · have : s = 1 / 2 - 1 := by linarith
        linarith
      · simp only [List.cons.injEq, Prod.mk.injEq, true_and, and_true]
        refine ⟨?_, ?_, ?_⟩ <;> ring
    · simp only [h, if_false, List.map_cons, List.map_nil, tscWin, ef, e1, e2, ← hs, kernel, a0, a1, a2]
      have h' : 1 / 2 ≤ s := not_lt.mp h
      rw [if_pos (show 1 - s ≤ 1 / 2 by linarith), if_pos (show s ≤ 3 / 2 by linarith),
        if_pos (show 2 - s ≤ 3 / 2 by linarith),
        if_neg (show ¬ 2 - s ≤ 1 / 2 by linarith)]
      split_ifs with hz
      · have : s = 1 / 2 := le_antisymm hz h'
        subst this
        simp only [List.cons.injEq, Prod.mk.injEq, true_and, and_true]
        refine ⟨?_, ?_, ?_⟩ <;> norm_num
      · simp only [List.cons.injEq, Prod.mk.injEq, true_and, and_true]
        refine ⟨?_, ?_, ?_⟩ <;> ring
  | pcs =>
    simp only [axisStencil, pcsAxis, truncInt_of_nonneg h0, cover, List.map_cons, List.map_nil]
    rw [wu, wd, wuu, ef, e1, e2, em, ← hs]
    simp only [kernel]
    have a0 : |s| = s := abs_of_nonneg s0
    have a1 : |s - 1| = 1 - s := by rw [abs_of_nonpos (by linarith)]; ring
    have a2 : |s - 2| = 2 - s := by rw [abs_of_nonpos (by linarith)]; ring
    have am : |s + 1| = s + 1 := abs_of_nonneg (by linarith)
    rw [a0, a1, a2, am, if_pos s1.le, if_pos (show 1 - s ≤ 1 by linarith),
      if_pos (show 2 - s ≤ 2 by linarith), if_pos (show s + 1 ≤ 2 by linarith),
      if_neg (show ¬ 2 - s ≤ 1 by linarith)]
    split_ifs with hz
    · have : s = 0 := by linarith
      subst this
      simp only [List.cons.injEq, Prod.mk.injEq, true_and, and_true]
      refine ⟨?_, ?_, ?_, ?_⟩ <;> norm_num
    · simp only [List.cons.injEq, Prod.mk.injEq, true_and, and_true]
      refine ⟨?_, ?_, ?_, ?_⟩ <;> ring

theorem cover_nodup (sch : Scheme) (loc : K) : (cover sch loc).Nodup := by
  cases sch <;> simp only [cover]
  · simp
  · simp
  · split_ifs <;> simp <;> omega
  · simp; omega

/-- The kernel vanishes off the cover. -/
theorem kernel_eq_zero (sch : Scheme) (loc : K) (j : ℤ) (h : j ∉ cover sch loc) :
    kernel sch (loc - j) = 0 := by
  obtain ⟨s0, s1⟩ := fract_bounds loc
  have hf : loc = ⌊loc⌋ + (loc - ⌊loc⌋) := by ring
  obtain ⟨s, hs⟩ : ∃ s, s = loc - (⌊loc⌋ : K) := ⟨_, rfl⟩
  rw [← hs] at s0 s1
  have key : ∀ d : ℤ, j = ⌊loc⌋ + d → loc - j = s - d := by
    intro d hd; rw [hd, hs]; push_cast; ring
  obtain ⟨d, hd⟩ : ∃ d, j = ⌊loc⌋ + d := ⟨j - ⌊loc⌋, by ring⟩
  rw [key d hd]
  have castle : ∀ a : ℤ, d ≤ a → (d : K) ≤ a := fun a h => by exact_mod_cast h
  have castge : ∀ a : ℤ, a ≤ d → (a : K) ≤ d := fun a h => by exact_mod_cast h
  cases sch with
  | ngp =>
    simp only [cover, List.mem_singleton] at h
    rw [← hs] at h
    simp only [kernel]
    apply if_neg
    rintro ⟨h1, h2⟩
    split_ifs at h with hh
    · rcases lt_trichotomy d 1 with hd' | hd' | hd'
      · have := castle 0 (by omega); push_cast at this; linarith
      · exact h (by omega)
      · have := castge 2 (by omega); push_cast at this; linarith
    · rcases lt_trichotomy d 0 with hd' | hd' | hd'
      · have := castle (-1) (by omega); push_cast at this; linarith
      · exact h (by omega)
      · have := castge 1 (by omega); push_cast at this; linarith
  | cic =>
    simp only [cover, List.mem_cons, List.not_mem_nil, or_false, not_or] at h
    simp only [kernel]
    rcases lt_or_ge d 0 with hd' | hd'
    · have := castle (-1) (by omega); push_cast at this
      rw [abs_of_nonneg (by linarith)]
      split_ifs with hh
      · linarith
      · rfl
    · have := castge 2 (by omega); push_cast at this
      rw [abs_of_nonpos (by linarith)]
      split_ifs with hh
      · linarith
      · rfl
  | tsc =>
    simp only [cover] at h
    rw [← hs] at h
    simp only [kernel]
    split_ifs at h with hh <;>
    simp only [List.mem_cons, List.not_mem_nil, or_false, not_or] at h
    · rcases lt_or_ge d 0 with hd' | hd'
      · have := castle (-2) (by omega); push_cast at this
        rw [abs_of_nonneg (by linarith), if_neg (by linarith), if_neg (by linarith)]
      · have := castge 2 (by omega); push_cast at this
        rw [abs_of_nonpos (by linarith), if_neg (by linarith), if_neg (by linarith)]
    · have hh' := not_lt.mp hh
      rcases lt_or_ge d 0 with hd' | hd'
      · have := castle (-1) (by omega); push_cast at this
        rw [abs_of_nonneg (by linarith), if_neg (by linarith)]
        split_ifs with h3
        · have : 3 / 2 - (s - (d : K)) = 0 := by linarith
          rw [this]; norm_num
        · rfl
      · have := castge 3 (by omega); push_cast at this
        rw [abs_of_nonpos (by linarith), if_neg (by linarith), if_neg (by linarith)]
  | pcs =>
    simp only [cover, List.mem_cons, List.not_mem_nil, or_false, not_or] at h
    simp only [kernel]
    rcases lt_or_ge d 0 with hd' | hd'
    · have := castle (-2) (by omega); push_cast at this
      rw [abs_of_nonneg (by linarith), if_neg (by linarith)]
      split_ifs with h3
      · have : 2 - (s - (d : K)) = 0 := by linarith
        rw [this]; norm_num
      · rfl
    · have := castge 3 (by omega); push_cast at this
      rw [abs_of_nonpos (by linarith), if_neg (by linarith), if_neg (by linarith)]

/-- Weight received by index `i` from a stencil. -/
def received (st : List (ℤ × K)) (i : ℤ) : K := (st.map fun a => if a.1 = i then a.2 else 0).sum

theorem deposit_eq_cover (sch : Scheme) (n : ℤ) (loc : K) (i : ℤ) :
    deposit sch n loc i =
      ((cover sch loc).map fun j : ℤ => if j % n = i % n then kernel sch (loc - j) else 0).sum := by
  unfold deposit
  rw [finsum_eq_sum_of_support_subset (s := (cover sch loc).toFinset)]
  · exact List.sum_toFinset _ (cover_nodup sch loc)
  · intro j hj
    by_contra hc
    simp only [List.coe_toFinset, Set.mem_setOf_eq] at hc
    apply hj
    simp [kernel_eq_zero sch loc j hc]

theorem received_eq_deposit (sch : Scheme) {n : ℤ} {loc : K} (h0 : 0 ≤ loc) (h1 : loc < n)
    {i : ℤ} (hi0 : 0 ≤ i) (hi1 : i < n) :
    received (axisStencil sch n loc) i = deposit sch n loc i := by
  rw [deposit_eq_cover, received, axisStencil_eq sch h0 h1, List.map_map]
  congr 1
  apply List.map_congr_left
  intro j _
  simp [emod_self_of hi0 hi1]

theorem axisStencil_range (sch : Scheme) {n : ℤ} {loc : K} (h0 : 0 ≤ loc) (h1 : loc < n) :
    ∀ a ∈ axisStencil sch n loc, 0 ≤ a.1 ∧ a.1 < n := by
  obtain ⟨f0, f1⟩ := floor_range h0 h1
  rw [axisStencil_eq sch h0 h1]
  intro a ha
  obtain ⟨j, _, rfl⟩ := List.mem_map.mp ha
  exact ⟨Int.emod_nonneg _ (by omega), Int.emod_lt_of_pos _ (by omega)⟩

theorem kernel_nonneg (sch : Scheme) (x : K) : 0 ≤ kernel sch x := by
  cases sch <;> simp only [kernel]
  · split_ifs <;> norm_num
  · split_ifs with h
    · linarith
    · exact le_rfl
  · split_ifs with h h'
    · have : x ^ 2 ≤ (1 / 2) ^ 2 := sq_le_sq' (by linarith [neg_abs_le x]) (by linarith [le_abs_self x])
      have e : ((1 : K) / 2) ^ 2 = 1 / 4 := by norm_num
      rw [e] at this; linarith
    · positivity
    · exact le_rfl
  · split_ifs with h h'
    · have h0 := abs_nonneg x
      have e : x ^ 2 = |x| ^ 2 := (sq_abs x).symm
      rw [e]
      apply div_nonneg _ (by norm_num)
      nlinarith [mul_nonneg h0 h0, mul_nonneg (mul_nonneg h0 h0) h0, sq_nonneg (1 - |x|)]
    · have : 0 ≤ 2 - |x| := by linarith
      positivity
    · exact le_rfl

/-- Kernel weights over the cover sum to one. -/
theorem cover_sum (sch : Scheme) (loc : K) :
    ((cover sch loc).map fun j : ℤ => kernel sch (loc - j)).sum = 1 := by
  -- move to a non-negative location by a whole-number shift: use the stencil form
  obtain ⟨s0, s1⟩ := fract_bounds loc
  obtain ⟨s, hs⟩ : ∃ s, s = loc - (⌊loc⌋ : K) := ⟨_, rfl⟩
  have hs' : loc - (⌊loc⌋ : K) = s := hs.symm
  rw [← hs] at s0 s1
  have e1 : loc - ((⌊loc⌋ + 1 : ℤ) : K) = s - 1 := by push_cast; rw [hs]; ring
  have e2 : loc - ((⌊loc⌋ + 2 : ℤ) : K) = s - 2 := by push_cast; rw [hs]; ring
  have em : loc - ((⌊loc⌋ - 1 : ℤ) : K) = s + 1 := by push_cast; rw [hs]; ring
  have a0 : |s| = s := abs_of_nonneg s0
  have a1 : |s - 1| = 1 - s := by rw [abs_of_nonpos (by linarith)]; ring
  have a2 : |s - 2| = 2 - s := by rw [abs_of_nonpos (by linarith)]; ring
  have am : |s + 1| = s + 1 := abs_of_nonneg (by linarith)
  cases sch with
  | ngp =>
    simp only [cover, hs', List.map_cons, List.map_nil, List.sum_cons, List.sum_nil, kernel]
    split_ifs with h1 h2 h3
    · norm_num
    · exfalso; rw [e1] at h2; apply h2; constructor <;> linarith
    · norm_num
    · exfalso; rw [hs'] at h3; apply h3; constructor <;> linarith
  | cic =>
    simp only [cover, List.map_cons, List.map_nil, List.sum_cons, List.sum_nil, e1, hs', kernel, a0, a1]
    rw [if_pos s1.le, if_pos (by linarith)]; ring
  | tsc =>
    simp only [cover, hs']
    by_cases h : s < 1 / 2
    · simp only [h, if_true, List.map_cons, List.map_nil, List.sum_cons, List.sum_nil, e1, em, hs',
        kernel, a0, a1, am]
      rw [if_pos h.le, if_pos (show s + 1 ≤ 3 / 2 by linarith),
        if_pos (show 1 - s ≤ 3 / 2 by linarith), if_neg (show ¬ 1 - s ≤ 1 / 2 by linarith),
        if_neg (show ¬ s + 1 ≤ 1 / 2 by linarith)]
      ring
    · have h' : 1 / 2 ≤ s := not_lt.mp h
      simp only [h, if_false, List.map_cons, List.map_nil, List.sum_cons, List.sum_nil, e1, e2, hs',
        kernel, a0, a1, a2]
      rw [if_pos (show 1 - s ≤ 1 / 2 by linarith), if_pos (show s ≤ 3 / 2 by linarith),
        if_pos (show 2 - s ≤ 3 / 2 by linarith),
        if_neg (show ¬ 2 - s ≤ 1 / 2 by linarith)]
      split_ifs with hz
      · have : s = 1 / 2 := le_antisymm hz h'
        rw [this]; norm_num
      · ring
  | pcs =>
    simp only [cover, List.map_cons, List.map_nil, List.sum_cons, List.sum_nil, e1, e2, em, hs',
      kernel, a0, a1, a2, am]
    rw [if_pos s1.le, if_pos (show 1 - s ≤ 1 by linarith),
      if_pos (show 2 - s ≤ 2 by linarith), if_pos (show s + 1 ≤ 2 by linarith),
      if_neg (show ¬ 2 - s ≤ 1 by linarith)]
    split_ifs with hz
    · have : s = 0 := by linarith
      rw [this]; norm_num
    · ring

theorem axisStencil_sum (sch : Scheme) {n : ℤ} {loc : K} (h0 : 0 ≤ loc) (h1 : loc < n) :
    ((axisStencil sch n loc).map Prod.snd).sum = 1 := by
  rw [axisStencil_eq sch h0 h1, List.map_map]
  exact cover_sum sch loc

theorem locMain_range {n : ℤ} {L x : K} (hn : 0 < n) (hL : 0 < L) (h0 : 0 ≤ x) (h1 : x < L) :
    0 ≤ locMain n L x ∧ locMain n L x < n := by
  have hn' : (0 : K) < n := by exact_mod_cast hn
  unfold locMain
  refine ⟨div_nonneg (mul_nonneg hn'.le h0) hL.le, ?_⟩
  rw [div_lt_iff₀ hL]; exact mul_lt_mul_of_pos_left h1 hn'

/-! ### Grid index -/

theorem gridIndex_range (M : Mesh K) (i j k : ℤ) (h : InMesh M i j k) :
    0 ≤ gridIndex M.n i j k ∧ gridIndex M.n i j k < M.nmesh := by
  obtain ⟨⟨a, b⟩, ⟨c, d⟩, e, f⟩ := h
  unfold gridIndex Mesh.nmesh
  have h1 : 0 ≤ i * M.n 1 + j := by nlinarith
  have h2 : i * M.n 1 + j + 1 ≤ M.n 0 * M.n 1 := by nlinarith
  constructor
  · nlinarith
  · nlinarith

theorem gridIndex_inj (n : Fin 3 → ℤ) {i j k i' j' k' : ℤ}
    (hj : 0 ≤ j ∧ j < n 1) (hk : 0 ≤ k ∧ k < n 2) (hj' : 0 ≤ j' ∧ j' < n 1) (hk' : 0 ≤ k' ∧ k' < n 2)
    (h : gridIndex n i j k = gridIndex n i' j' k') : i = i' ∧ j = j' ∧ k = k' := by
  unfold gridIndex at h
  have hk2 : k = k' := by
    have := congrArg (· % n 2) h
    simp only [Int.mul_add_emod_self_right] at this
    rwa [Int.emod_eq_of_lt hk.1 hk.2, Int.emod_eq_of_lt hk'.1 hk'.2] at this
  subst hk2
  have h2 : i * n 1 + j = i' * n 1 + j' := by
    have hn : n 2 ≠ 0 := by omega
    have := add_right_cancel h
    exact Int.eq_of_mul_eq_mul_right hn this
  have hj2 : j = j' := by
    have := congrArg (· % n 1) h2
    simp only [Int.mul_add_emod_self_right] at this
    rwa [Int.emod_eq_of_lt hj.1 hj.2, Int.emod_eq_of_lt hj'.1 hj'.2] at this
  subst hj2
  have hn : n 1 ≠ 0 := by omega
  exact ⟨Int.eq_of_mul_eq_mul_right hn (add_right_cancel h2), rfl, rfl⟩

/-! ### Running updates -/

/-- Contribution of an update to cell `g`, component `c`. -/
def Update.at (u : Update K) (g : ℤ) (c : Bool) : K :=
  if g = u.gid ∧ c = u.comp then u.val else 0

theorem foldl_applyUpdate (us : List (Update K)) : ∀ (f : Grid K) g c,
    us.foldl applyUpdate f g c = f g c + (us.map fun u => u.at g c).sum := by
  induction us with
  | nil => intro f g c; simp
  | cons u us ih =>
    intro f g c
    rw [List.foldl_cons, ih]
    simp only [applyUpdate, Update.at, List.map_cons, List.sum_cons]
    split_ifs <;> ring

theorem runUpdates_apply (us : List (Update K)) (g : ℤ) (c : Bool) :
    runUpdates us g c = (us.map fun u => u.at g c).sum := by
  simp [runUpdates, foldl_applyUpdate]

theorem sum_map_flatMap {α β : Type} (l : List α) (f : α → List β) (v : β → K) :
    ((l.flatMap f).map v).sum = (l.map fun a => ((f a).map v).sum).sum := by
  induction l with
  | nil => simp
  | cons a l ih => simp [ih]

theorem runUpdates_flatMap {α : Type} (l : List α) (f : α → List (Update K)) (g : ℤ) (c : Bool) :
    runUpdates (l.flatMap f) g c = (l.map fun a => runUpdates (f a) g c).sum := by
  simp only [runUpdates_apply, sum_map_flatMap]

/-- Value deposited in cell `(i,j,k)` by in-range stencils. -/
theorem run_stencils (M : Mesh K) (sx sy sz : List (ℤ × K)) (w : Bool → K)
    (hx : ∀ a ∈ sx, 0 ≤ a.1 ∧ a.1 < M.n 0) (hy : ∀ a ∈ sy, 0 ≤ a.1 ∧ a.1 < M.n 1)
    (hz : ∀ a ∈ sz, 0 ≤ a.1 ∧ a.1 < M.n 2) (i j k : ℤ) (h : InMesh M i j k) (c : Bool) :
    runUpdates (updatesOfStencils M sx sy sz w) (gridIndex M.n i j k) c
      = 1 / M.volCell * w c * received sx i * received sy j * received sz k := by
  unfold updatesOfStencils
  rw [runUpdates_flatMap]
  have e1 : ∀ a ∈ sx, runUpdates (sy.flatMap fun b => sz.flatMap fun c =>
      let gid := gridIndex M.n a.1 b.1 c.1
      if 0 ≤ gid ∧ gid < M.nmesh then
        [(⟨gid, false, 1 / M.volCell * w false * a.2 * b.2 * c.2⟩ : Update K),
         ⟨gid, true, 1 / M.volCell * w true * a.2 * b.2 * c.2⟩] else [])
      (gridIndex M.n i j k) c =
      1 / M.volCell * w c * (if a.1 = i then a.2 else 0) * received sy j * received sz k := by
    intro a ha
    rw [runUpdates_flatMap]
    have e2 : ∀ b ∈ sy, runUpdates (sz.flatMap fun c =>
        let gid := gridIndex M.n a.1 b.1 c.1
        if 0 ≤ gid ∧ gid < M.nmesh then
          [(⟨gid, false, 1 / M.volCell * w false * a.2 * b.2 * c.2⟩ : Update K),
           ⟨gid, true, 1 / M.volCell * w true * a.2 * b.2 * c.2⟩] else [])
        (gridIndex M.n i j k) c =
        1 / M.volCell * w c * (if a.1 = i then a.2 else 0) * (if b.1 = j then b.2 else 0)
          * received sz k := by
      intro b hb
      rw [runUpdates_flatMap, received, ← List.sum_map_mul_left]
      congr 1
      apply List.map_congr_left
      intro d hd
      have hr := gridIndex_range M a.1 b.1 d.1 ⟨hx a ha, hy b hb, hz d hd⟩
      simp only [if_pos hr, runUpdates_apply, List.map_cons, List.map_nil, List.sum_cons,
        List.sum_nil, Update.at]
      have hiff : gridIndex M.n i j k = gridIndex M.n a.1 b.1 d.1 ↔
          (a.1 = i ∧ b.1 = j ∧ d.1 = k) := by
        constructor
        · intro he
          obtain ⟨p, q, r⟩ := gridIndex_inj M.n h.2.1 h.2.2 (hy b hb) (hz d hd) he
          exact ⟨p.symm, q.symm, r.symm⟩
        · rintro ⟨rfl, rfl, rfl⟩; rfl
      simp only [hiff]
      by_cases h1 : a.1 = i <;> by_cases h2 : b.1 = j <;> by_cases h3 : d.1 = k <;>
        cases c <;> simp [h1, h2, h3] <;> ring
    rw [List.map_congr_left e2]
    rw [List.sum_map_mul_right]
    congr 1
    rw [List.sum_map_mul_left]; rfl
  rw [List.map_congr_left e1, List.sum_map_mul_right, List.sum_map_mul_right,
    List.sum_map_mul_left]; rfl

/-! ### Total over the mesh -/

theorem sum_range_single (N : ℕ) (g : ℤ) (h0 : 0 ≤ g) (h1 : g < N) (v : K) :
    ((List.range N).map fun x : ℕ => if (x : ℤ) = g then v else 0).sum = v := by
  obtain ⟨m, rfl⟩ := Int.eq_ofNat_of_zero_le h0
  have hm : m < N := by exact_mod_cast h1
  induction N with
  | zero => omega
  | succ N ih =>
    rw [List.range_succ, List.map_append, List.sum_append]
    by_cases h : m < N
    · rw [ih (by exact_mod_cast h) h]; simp; intro hN; omega
    · have : m = N := by omega
      subst this
      simp
      apply List.sum_eq_zero
      intro x hx
      simp at hx
      obtain ⟨a, ha, rfl⟩ := hx
      simp; omega

theorem gridTotal_run (M : Mesh K) (us : List (Update K)) (c : Bool)
    (h : ∀ u ∈ us, 0 ≤ u.gid ∧ u.gid < M.nmesh) :
    gridTotal M (runUpdates us) c = (us.map fun u => if c = u.comp then u.val else 0).sum := by
  induction us with
  | nil => simp [gridTotal, runUpdates]
  | cons u us ih =>
    have ih := ih (fun v hv => h v (by simp [hv]))
    obtain ⟨h0, h1⟩ := h u (by simp)
    unfold gridTotal at ih ⊢
    have e : ∀ g : ℕ, runUpdates (u :: us) g c =
        (if (g : ℤ) = u.gid then (if c = u.comp then u.val else 0) else 0) + runUpdates us g c := by
      intro g
      rw [runUpdates_apply, runUpdates_apply, List.map_cons, List.sum_cons]
      congr 1
      simp only [Update.at]
      by_cases h : (g : ℤ) = u.gid <;> simp [h]
    have e' : (List.range M.nmesh.toNat).map (fun g : ℕ => runUpdates (u :: us) g c) =
      (List.range M.nmesh.toNat).map (fun g : ℕ =>
        (if (g : ℤ) = u.gid then (if c = u.comp then u.val else 0) else 0) + runUpdates us g c) :=
      List.map_congr_left (fun g _ => e g)
    rw [e', List.sum_map_add, ih, List.map_cons, List.sum_cons,
      sum_range_single _ _ h0 (by omega)]

/-- Every update passes the guard, hence lies inside the allocated mesh. -/
theorem updates_in_mesh (M : Mesh K) (sx sy sz : List (ℤ × K)) (w : Bool → K) :
    ∀ u ∈ updatesOfStencils M sx sy sz w, 0 ≤ u.gid ∧ u.gid < M.nmesh := by
  intro u hu
  unfold updatesOfStencils at hu
  obtain ⟨a, _, hu⟩ := List.mem_flatMap.mp hu
  obtain ⟨b, _, hu⟩ := List.mem_flatMap.mp hu
  obtain ⟨c, _, hu⟩ := List.mem_flatMap.mp hu
  simp only at hu
  split_ifs at hu with h
  · simp at hu
    rcases hu with rfl | rfl <;> exact h
  · simp at hu

theorem stencil_total (M : Mesh K) (sx sy sz : List (ℤ × K)) (w : Bool → K)
    (hx : ∀ a ∈ sx, 0 ≤ a.1 ∧ a.1 < M.n 0) (hy : ∀ a ∈ sy, 0 ≤ a.1 ∧ a.1 < M.n 1)
    (hz : ∀ a ∈ sz, 0 ≤ a.1 ∧ a.1 < M.n 2) (c : Bool) :
    ((updatesOfStencils M sx sy sz w).map fun u => if c = u.comp then u.val else 0).sum
      = 1 / M.volCell * w c * (sx.map Prod.snd).sum * (sy.map Prod.snd).sum
        * (sz.map Prod.snd).sum := by
  unfold updatesOfStencils
  rw [sum_map_flatMap]
  have e1 : ∀ a ∈ sx, ((sy.flatMap fun b => sz.flatMap fun c =>
      let gid := gridIndex M.n a.1 b.1 c.1
      if 0 ≤ gid ∧ gid < M.nmesh then
        [(⟨gid, false, 1 / M.volCell * w false * a.2 * b.2 * c.2⟩ : Update K),
         ⟨gid, true, 1 / M.volCell * w true * a.2 * b.2 * c.2⟩] else []).map
      fun u => if c = u.comp then u.val else 0).sum =
      1 / M.volCell * w c * a.2 * (sy.map Prod.snd).sum * (sz.map Prod.snd).sum := by
    intro a ha
    rw [sum_map_flatMap]
    have e2 : ∀ b ∈ sy, ((sz.flatMap fun c =>
        let gid := gridIndex M.n a.1 b.1 c.1
        if 0 ≤ gid ∧ gid < M.nmesh then
          [(⟨gid, false, 1 / M.volCell * w false * a.2 * b.2 * c.2⟩ : Update K),
           ⟨gid, true, 1 / M.volCell * w true * a.2 * b.2 * c.2⟩] else []).map
        fun u => if c = u.comp then u.val else 0).sum =
        1 / M.volCell * w c * a.2 * b.2 * (sz.map Prod.snd).sum := by
      intro b hb
      rw [sum_map_flatMap, ← List.sum_map_mul_left]
      congr 1
      apply List.map_congr_left
      intro d hd
      have hr := gridIndex_range M a.1 b.1 d.1 ⟨hx a ha, hy b hb, hz d hd⟩
      simp only [if_pos hr]
      cases c <;> simp
    rw [List.map_congr_left e2, List.sum_map_mul_right, List.sum_map_mul_left]
  rw [List.map_congr_left e1, List.sum_map_mul_right, List.sum_map_mul_right,
    List.sum_map_mul_left]

theorem volCell_pos (M : Mesh K) (h : M.Valid) : 0 < M.volCell := by
  unfold Mesh.volCell Mesh.nmesh
  have h0 := h 0; have h1 := h 1; have h2 := h 2
  apply div_pos
  · exact mul_pos (mul_pos h0.2 h1.2) h2.2
  · have : 0 < M.n 0 * M.n 1 * M.n 2 := mul_pos (mul_pos h0.1 h1.1) h2.1
    exact_mod_cast this

end Trv.Mesh

import Verif.Lemmas.PairCount
import Verif.Props.Bispec
import Mathlib.Tactic.IntervalCases
/-
A small mesh and two particles: values for the witnesses of C106 and C108.
-/
namespace Trv.Zeta
open Trv.Mesh Trv.Stats Trv.Win Trv.Two Trv.ThreePt Trv.Bis

/-- Coefficients that vanish unless all orders are zero. -/
def zeroW (_ _ _ m1 m2 m3 : ℤ) : ℝ := if m1 = 0 ∧ m2 = 0 ∧ m3 = 0 then 1 else 0

/-- A mesh of 4 × 4 × 4 cells of sizes 100, 10 and 1, and one bin. -/
noncomputable def exZ (ell1 ell2 ELL : ℕ) (lo hi : ℝ) : Env3 where
  mesh := ⟨fun _ => 4, ![400, 40, 4]⟩
  sch := .ngp
  interlace := false
  P := exP
  w3j := zeroW
  ELL := ELL
  edges := [lo, hi]
  centres := [0]
  numBins := 1
  ell1 := ell1
  ell2 := ell2
  form := .diag
  sj := fun _ _ => 0

/-- A particle of unit weight at height `z`, seen along `l` times the `z` axis. -/
def exPart (z l : ℝ) : Part := ⟨![0, 0, z], ![0, 0, l], 1, 1, 1⟩

theorem exZ_valid (a b c : ℕ) (lo hi : ℝ) : (exZ a b c lo hi).mesh.Valid := by
  intro ax
  refine ⟨show (0 : ℤ) < 4 by norm_num, ?_⟩
  fin_cases ax
  · show (0 : ℝ) < 400; norm_num
  · show (0 : ℝ) < 40; norm_num
  · show (0 : ℝ) < 4; norm_num

theorem exZ_resolved (a b c : ℕ) (lo hi : ℝ) : Resolved (exZ a b c lo hi).mesh := by
  intro ax
  fin_cases ax
  · show (1 : ℝ) / 1000000000 ≤ 400 / ((4 : ℤ) : ℝ); norm_num
  · show (1 : ℝ) / 1000000000 ≤ 40 / ((4 : ℤ) : ℝ); norm_num
  · show (1 : ℝ) / 1000000000 ≤ 4 / ((4 : ℤ) : ℝ); norm_num

theorem exZ_inside (a b c : ℕ) (lo hi : ℝ) (z l : ℝ) (h0 : 0 ≤ z) (h1 : z < 4) :
    AllInside (exZ a b c lo hi).mesh [exPart z l] := by
  intro p hp ax
  rw [List.mem_singleton] at hp
  subst hp
  fin_cases ax
  · show (0 : ℝ) ≤ 0 ∧ (0 : ℝ) < 400; norm_num
  · show (0 : ℝ) ≤ 0 ∧ (0 : ℝ) < 40; norm_num
  · exact ⟨h0, h1⟩

theorem exZ_coupling (a b c : ℕ) (lo hi : ℝ) (t : Triplet) :
    coupling3 (exZ a b c lo hi) t =
      if t = ⟨0, 0, 0⟩ then (2 * (a : ℝ) + 1) * (2 * (b : ℝ) + 1) * (2 * (c : ℝ) + 1) else 0 := by
  obtain ⟨m1, m2, M⟩ := t
  unfold coupling3 exZ zeroW
  simp only [Triplet.mk.injEq, and_self, if_true, mul_one]
  split_ifs <;> simp

theorem exZ_big (a b c : ℕ) :
    epsCoupling < (2 * (a : ℝ) + 1) * (2 * (b : ℝ) + 1) * (2 * (c : ℝ) + 1) := by
  have h : ∀ k : ℕ, (1 : ℝ) ≤ 2 * (k : ℝ) + 1 := fun k => by
    have : (0 : ℝ) ≤ k := Nat.cast_nonneg k
    linarith
  have := one_le_mul_of_one_le_of_one_le (one_le_mul_of_one_le_of_one_le (h a) (h b)) (h c)
  unfold epsCoupling
  linarith [this]

theorem exZ_triplets (a b c : ℕ) (lo hi : ℝ) : triplets (exZ a b c lo hi) = [⟨0, 0, 0⟩] := by
  have hbig := exZ_big a b c
  unfold triplets
  rw [computedOrders_eq]
  obtain ⟨h1, h2, _, h4⟩ := foldl_stepM (coupling3 (exZ a b c lo hi)) epsCoupling
    (visited (coupling3 (exZ a b c lo hi)) epsCoupling a b c)
  have hz : (⟨0, 0, 0⟩ : Triplet) ∈ visited (coupling3 (exZ a b c lo hi)) epsCoupling a b c := by
    rw [ThreePt.mem_visited]
    refine ⟨⟨by simp, by simp, by simp⟩, 0, by simp, ?_⟩
    rw [exZ_coupling, if_pos rfl, abs_of_pos (lt_trans (by unfold epsCoupling; norm_num) hbig)]
    exact hbig
  have hin := h4 _ hz (by
    rw [exZ_coupling, if_pos rfl, abs_of_pos (lt_trans (by unfold epsCoupling; norm_num) hbig)]
    exact hbig.le)
  have hnd := h1.nodup (nodup_visited (coupling3 (exZ a b c lo hi)) epsCoupling a b c)
  have hall : ∀ s ∈ (visited (coupling3 (exZ a b c lo hi)) epsCoupling a b c).foldl
      (stepM (coupling3 (exZ a b c lo hi)) epsCoupling) [], s = ⟨0, 0, 0⟩ := by
    intro s hs
    by_contra hne
    have := h2 s hs
    rw [exZ_coupling, if_neg hne, abs_zero] at this
    unfold epsCoupling at this
    norm_num at this
  have hin' : (⟨0, 0, 0⟩ : Triplet) ∈ (visited (coupling3 (exZ a b c lo hi)) epsCoupling a b c).foldl
      (stepM (coupling3 (exZ a b c lo hi)) epsCoupling) [] := by
    rcases hin with h | h
    · exact h
    · exact h
  show List.foldl (stepM (coupling3 (exZ a b c lo hi)) epsCoupling) []
    (visited (coupling3 (exZ a b c lo hi)) epsCoupling a b c) = _
  generalize List.foldl (stepM (coupling3 (exZ a b c lo hi)) epsCoupling) []
    (visited (coupling3 (exZ a b c lo hi)) epsCoupling a b c) = l at hnd hall hin'
  clear h1 h2 h4 hin
  match l, hnd, hall, hin' with
  | [], _, _, h => simp at h
  | [x], _, h, _ => rw [h x (by simp)]
  | x :: y :: l, hnd, h, _ =>
    have e1 := h x (by simp)
    have e2 := h y (by simp)
    rw [List.nodup_cons] at hnd
    exact absurd (by rw [e1, e2]; simp) hnd.1

/-- The index along an axis, as a displacement. -/
def wrap4 (i : ℤ) : ℤ := if i < 2 then i else i - 4

theorem exZ_rvec (a b c : ℕ) (lo hi : ℝ) (x : ℤ × ℤ × ℤ) :
    rvec (exZ a b c lo hi).mesh x 0 = 100 * wrap4 x.1 ∧
    rvec (exZ a b c lo hi).mesh x 1 = 10 * wrap4 x.2.1 ∧
    rvec (exZ a b c lo hi).mesh x 2 = wrap4 x.2.2 := by
  unfold rvec gridVec exZ wrap4
  refine ⟨?_, ?_, ?_⟩
  · show (if x.1 < 4 / 2 then (x.1 : ℝ) * (400 / ((4 : ℤ) : ℝ)) else ((x.1 - 4 : ℤ) : ℝ) * (400 / ((4 : ℤ) : ℝ))) = _
    rw [show (4 : ℤ) / 2 = 2 from rfl]
    split_ifs <;> push_cast <;> ring
  · show (if x.2.1 < 4 / 2 then (x.2.1 : ℝ) * (40 / ((4 : ℤ) : ℝ)) else ((x.2.1 - 4 : ℤ) : ℝ) * (40 / ((4 : ℤ) : ℝ))) = _
    rw [show (4 : ℤ) / 2 = 2 from rfl]
    split_ifs <;> push_cast <;> ring
  · show (if x.2.2 < 4 / 2 then (x.2.2 : ℝ) * (4 / ((4 : ℤ) : ℝ)) else ((x.2.2 - 4 : ℤ) : ℝ) * (4 / ((4 : ℤ) : ℝ))) = _
    rw [show (4 : ℤ) / 2 = 2 from rfl]
    split_ifs <;> push_cast <;> ring

theorem exZ_mag (a b c : ℕ) (lo hi : ℝ) (x : ℤ × ℤ × ℤ) :
    mag (rvec (exZ a b c lo hi).mesh x) =
      Real.sqrt ((10000 * wrap4 x.1 ^ 2 + 100 * wrap4 x.2.1 ^ 2 + wrap4 x.2.2 ^ 2 : ℤ) : ℝ) := by
  unfold mag
  obtain ⟨h0, h1, h2⟩ := exZ_rvec a b c lo hi x
  rw [h0, h1, h2]
  congr 1
  push_cast
  ring

/-- The bin `[k, k + 1)` for small whole numbers. -/
theorem exZ_shell (a b c k : ℕ) (x : ℤ × ℤ × ℤ) (hk : k < 99999) :
    x ∈ shell (exZ a b c k (k + 1)) 0 ↔ x ∈ box (fun _ => 4) ∧
      (k : ℤ) ^ 2 ≤ 10000 * wrap4 x.1 ^ 2 + 100 * wrap4 x.2.1 ^ 2 + wrap4 x.2.2 ^ 2 ∧
      10000 * wrap4 x.1 ^ 2 + 100 * wrap4 x.2.1 ^ 2 + wrap4 x.2.2 ^ 2 < ((k : ℤ) + 1) ^ 2 := by
  unfold shell
  rw [Finset.mem_filter, allModes_eq]
  apply and_congr
  · rfl
  rw [exZ_mag]
  have hQ0 : 0 ≤ 10000 * wrap4 x.1 ^ 2 + 100 * wrap4 x.2.1 ^ 2 + wrap4 x.2.2 ^ 2 := by positivity
  generalize 10000 * wrap4 x.1 ^ 2 + 100 * wrap4 x.2.1 ^ 2 + wrap4 x.2.2 ^ 2 = Q at hQ0 ⊢
  have ek : ((⌊Real.sqrt (Q : ℝ)⌋ : ℤ) : ℝ) < (k : ℝ) + 1 ↔ Real.sqrt (Q : ℝ) < (k : ℝ) + 1 := by
    rw [show (k : ℝ) + 1 = (((k + 1 : ℕ) : ℤ) : ℝ) by push_cast; ring, Int.cast_lt, Int.floor_lt]
  have el : (k : ℝ) ≤ ((⌊Real.sqrt (Q : ℝ)⌋ : ℤ) : ℝ) ↔ (k : ℝ) ≤ Real.sqrt (Q : ℝ) := by
    rw [show (k : ℝ) = ((k : ℤ) : ℝ) by push_cast; rfl, Int.cast_le, Int.le_floor]
  show Real.sqrt (Q : ℝ) < 100000 ∧ (k : ℝ) ≤ ((⌊Real.sqrt (Q : ℝ)⌋ : ℤ) : ℝ) ∧
    ((⌊Real.sqrt (Q : ℝ)⌋ : ℤ) : ℝ) < (k : ℝ) + 1 ↔ _
  rw [ek, el]
  have hk0 : (0 : ℝ) ≤ k := Nat.cast_nonneg k
  have hkk : (k : ℝ) < 99999 := by exact_mod_cast hk
  have e1 : (k : ℝ) ≤ Real.sqrt (Q : ℝ) ↔ (k : ℤ) ^ 2 ≤ Q := by
    have hQ' : (0 : ℝ) ≤ (Q : ℝ) := by exact_mod_cast hQ0
    rw [Real.le_sqrt hk0 hQ']
    exact_mod_cast Iff.rfl
  have e2 : Real.sqrt (Q : ℝ) < (k : ℝ) + 1 ↔ Q < ((k : ℤ) + 1) ^ 2 := by
    rw [Real.sqrt_lt' (by positivity)]
    exact_mod_cast Iff.rfl
  rw [← e1, ← e2]
  constructor
  · rintro ⟨_, h1, h2⟩; exact ⟨h1, h2⟩
  · rintro ⟨h1, h2⟩; exact ⟨by linarith, h1, h2⟩

theorem shell_zero (a b c : ℕ) : shell (exZ a b c 0 1) 0 = {(0, 0, 0)} := by
  ext ⟨x, y, z⟩
  have := exZ_shell a b c 0 (x, y, z) (by norm_num)
  rw [Nat.cast_zero, zero_add] at this
  rw [this, mem_box, Finset.mem_singleton]
  simp only [wrap4, Prod.mk.injEq]
  constructor
  · rintro ⟨⟨⟨h1, h2⟩, ⟨h3, h4⟩, h5, h6⟩, -, h⟩
    change x < 4 at h2
    change y < 4 at h4
    change z < 4 at h6
    interval_cases x <;> interval_cases y <;> interval_cases z <;> simp_all
  · rintro ⟨rfl, rfl, rfl⟩
    simp

theorem shell_one (a b c : ℕ) : shell (exZ a b c 1 2) 0 = {(0, 0, 1), (0, 0, 3)} := by
  ext ⟨x, y, z⟩
  have := exZ_shell a b c 1 (x, y, z) (by norm_num)
  rw [Nat.cast_one, one_add_one_eq_two] at this
  rw [this, mem_box, Finset.mem_insert, Finset.mem_singleton]
  simp only [wrap4, Prod.mk.injEq]
  constructor
  · rintro ⟨⟨⟨h1, h2⟩, ⟨h3, h4⟩, h5, h6⟩, h7, h⟩
    change x < 4 at h2
    change y < 4 at h4
    change z < 4 at h6
    interval_cases x <;> interval_cases y <;> interval_cases z <;> simp_all
  · rintro (⟨rfl, rfl, rfl⟩ | ⟨rfl, rfl, rfl⟩) <;> simp

theorem selfSum_zeros (E : Env3) (fa : ℤ → ℤ → ℂ) (fb : ℤ → ℂ) (amp : ℤ → ℂ) (b : ℤ) :
    selfSum E [⟨0, 0, 0⟩] fa fb amp b =
      (coupling3 E ⟨0, 0, 0⟩ : ℂ) * selfPairs E (fa 0) fb (amp 0) ⟨0, 0, 0⟩ b := by
  unfold selfSum mirrored fMirrorW3j
  rw [List.map_singleton, List.sum_singleton, if_pos (show Triplet.isZeros ⟨0, 0, 0⟩ = true from rfl)]
  simp

theorem pairSum_zeros (E : Env3) (ξ : ℤ → ℤ × ℤ × ℤ → ℂ) (b : ℤ) :
    pairSum E [⟨0, 0, 0⟩] ξ b = (coupling3 E ⟨0, 0, 0⟩ : ℂ) * shellPairs E (ξ 0) ⟨0, 0, 0⟩ b := by
  unfold pairSum mirrored fMirrorW3j
  rw [List.map_singleton, List.sum_singleton, if_pos (show Triplet.isZeros ⟨0, 0, 0⟩ = true from rfl)]
  simp

theorem exZ_ylm0 (a b c : ℕ) (lo hi : ℝ) (v : Fin 3 → ℝ) : (exZ a b c lo hi).ylm 0 0 v = 1 := by
  unfold Env.ylm reducedYlm
  rw [if_pos ⟨rfl, rfl⟩]

theorem exZ_ylm1 (a b c : ℕ) (lo hi : ℝ) (v : Fin 3 → ℝ) (h0 : v 0 = 0) (h1 : v 1 = 0)
    (h2 : v 2 = 1 ∨ v 2 = -1) :
    (exZ a b c lo hi).ylm 1 0 v = ((v 2 * Real.sqrt (4 * Real.pi / 3) : ℝ) : ℂ) := by
  have hr : Real.sqrt (v 0 * v 0 + v 1 * v 1 + v 2 * v 2) = 1 := by
    rw [h0, h1, Real.sqrt_eq_one]
    rcases h2 with h | h <;> rw [h] <;> norm_num
  unfold Env.ylm reducedYlm
  rw [if_neg (by simp)]
  simp only
  rw [hr, if_neg (by norm_num)]
  show (-1 : ℂ) ^ (((0 : ℤ) - |0|) / 2) * (starRingEnd ℂ) (Complex.exp (Complex.I * ((0 : ℤ) : ℂ) * _) *
    ((v 2 / 1) ^ (1 - 0) * Real.sqrt (1 - (v 2 / 1) ^ 2) ^ 0 : ℝ)) *
      ((Real.sqrt (4 * Real.pi / (2 * ((1 : ℕ) : ℝ) + 1)) : ℝ) : ℂ) = _
  rw [show (4 * Real.pi / (2 * ((1 : ℕ) : ℝ) + 1)) = 4 * Real.pi / 3 by norm_num]
  simp

theorem nearest_ex (a b c : ℕ) (lo hi : ℝ) (k : ℕ) (l : ℝ) :
    nearest (exZ a b c lo hi).mesh (exPart k l).pos = (0, 0, (k : ℤ) % 4) := by
  unfold nearest exZ exPart
  show (⌊((4 : ℤ) : ℝ) * 0 / 400 + 1 / 2⌋ % 4, ⌊((4 : ℤ) : ℝ) * 0 / 40 + 1 / 2⌋ % 4,
    ⌊((4 : ℤ) : ℝ) * (k : ℝ) / 4 + 1 / 2⌋ % 4) = _
  have h0 : ∀ t : ℝ, ⌊((4 : ℤ) : ℝ) * 0 / t + 1 / 2⌋ = 0 := fun t => by
    rw [mul_zero, zero_div, Int.floor_eq_iff]; norm_num
  have h1 : ⌊((4 : ℤ) : ℝ) * (k : ℝ) / 4 + 1 / 2⌋ = (k : ℤ) := by
    rw [Int.floor_eq_iff]
    push_cast
    constructor <;> linarith
  rw [h0, h0, h1]
  rfl

theorem exZ_vc (a b c : ℕ) (lo hi : ℝ) : (exZ a b c lo hi).mesh.volCell ≠ 0 :=
  (volCell_pos _ (exZ_valid a b c lo hi)).ne'

end Trv.Zeta

import Verif.Lemmas.Coeff
/-
The coefficients of the three-point window convolution with a monopole.
-/
namespace Trv.Wc

open Trv

theorem tri_zero {a b : ℕ} : Tri a b 0 ↔ a = b := by unfold Tri; omega

theorem tri_zero2 {a b : ℕ} : Tri a 0 b ↔ a = b := by unfold Tri; omega

theorem core3_000 : core3 0 0 0 = 1 := by rw [core3_zz]; rfl

theorem delta2_0ll (l : ℕ) : delta2 0 l l = 1 / (2 * l + 1) := by
  rw [delta2_comm12, delta2_comm23, delta2_zz]

theorem delta2_l0l (l : ℕ) : delta2 l 0 l = 1 / (2 * l + 1) := by
  rw [delta2_comm23, delta2_zz]

theorem core9_top {a b c : ℕ} (h : Tri a b c) : core9 0 0 0 a b c a b c = 1 / delta2 a b c := by
  have hd := (delta2_pos h).ne'
  have h' := h
  obtain ⟨h1, h2, h3⟩ := h'
  unfold core9
  rw [Finset.sum_eq_single c]
  · rw [core6_za 0 c c (by unfold Tri; omega), core6_zd a c b ((tri_comm23 _ _ _).mp h), core6_za a b c h,
      delta2_0ll, delta2_comm23 a c b]
    have hs : (-1 : ℚ) ^ (0 + c + c) * (-1) ^ (a + c + b) * (-1) ^ (a + b + c) = 1 := by
      rw [← pow_add, ← pow_add, show 0 + c + c + (a + c + b) + (a + b + c) = 2 * (a + b + 2 * c) by ring, pow_mul]
      norm_num
    have hc : (2 * (c : ℚ) + 1) ≠ 0 := by positivity
    field_simp
    linarith [hs]
  · intro k _ hk
    rw [delta2_zero (a := 0) (b := c) (c := k) (by unfold Tri; omega)]
    ring
  · intro h; simp at h; omega

theorem core9_mid {a b c : ℕ} (h : Tri a b c) : core9 a b c 0 0 0 a b c = 1 / delta2 a b c := by
  have hd := (delta2_pos h).ne'
  have h' := h
  obtain ⟨h1, h2, h3⟩ := h'
  unfold core9
  rw [Finset.sum_eq_single b]
  · rw [core6_zd a b c h, core6_za 0 b b (by unfold Tri; omega), core6_zb a b c h, delta2_0ll, delta2_l0l, delta2_comm23 a c b]
    have hs : (-1 : ℚ) ^ (0 + b + b) * (-1) ^ (a + b + c) * (-1) ^ (a + b + c) = 1 := by
      rw [← pow_add, ← pow_add, show 0 + b + b + (a + b + c) + (a + b + c) = 2 * (a + 2 * b + c) by ring, pow_mul]
      norm_num
    have hc : (2 * (b : ℚ) + 1) ≠ 0 := by positivity
    field_simp
    linarith [hs]
  · intro k _ hk
    rw [delta2_zero (a := 0) (b := b) (c := k) (by unfold Tri; omega)]
    ring
  · intro h; simp at h; omega

theorem even_sign {a b c : ℕ} (ht : Tri a b c) (h : core3 a b c ≠ 0) : (-1 : ℚ) ^ a * (-1) ^ b * (-1) ^ c = 1 := by
  rw [← pow_add, ← pow_add]
  apply Even.neg_one_pow
  rw [Nat.even_iff]
  by_contra h1
  exact h (core3_odd ht (by omega))

theorem coeffQ_q0 {l z : ℕ × ℕ × ℕ} (vz : Val z) : coeffQ l z (0, 0, 0) = if l = z then 1 else 0 := by
  obtain ⟨l1, l2, L⟩ := l
  obtain ⟨z1, z2, zL⟩ := z
  unfold coeffQ
  simp only
  by_cases h : l1 = z1 ∧ l2 = z2 ∧ L = zL
  · obtain ⟨rfl, rfl, rfl⟩ := h
    obtain ⟨ht, hc⟩ := vz
    simp only at ht hc
    rw [if_pos rfl, core9_top ht, core3_000, core3_zz, core3_zz, core3_zz, delta2_zz, delta2_zz, delta2_zz, nPrefactor]
    have hd := (delta2_pos ht).ne'
    have e1 : (2 * (l1 : ℚ) + 1) ≠ 0 := by positivity
    have e2 : (2 * (l2 : ℚ) + 1) ≠ 0 := by positivity
    have e3 : (2 * (L : ℚ) + 1) ≠ 0 := by positivity
    push_cast
    field_simp
    linarith [even_sign ht hc]
  · rw [if_neg (by simpa using h)]
    rcases Classical.not_and_iff_not_or_not.mp h with h | h
    · rw [delta2_zero (a := l1) (b := z1) (c := 0) (by rwa [tri_zero])]; ring
    rcases Classical.not_and_iff_not_or_not.mp h with h | h
    · rw [delta2_zero (a := l2) (b := z2) (c := 0) (by rwa [tri_zero])]; ring
    · rw [delta2_zero (a := L) (b := zL) (c := 0) (by rwa [tri_zero])]; ring

theorem coeffQ_z0 {l q : ℕ × ℕ × ℕ} (vq : Val q) : coeffQ l (0, 0, 0) q = if l = q then 1 else 0 := by
  obtain ⟨l1, l2, L⟩ := l
  obtain ⟨q1, q2, qL⟩ := q
  unfold coeffQ
  simp only
  by_cases h : l1 = q1 ∧ l2 = q2 ∧ L = qL
  · obtain ⟨rfl, rfl, rfl⟩ := h
    obtain ⟨ht, hc⟩ := vq
    simp only at ht hc
    rw [if_pos rfl, core9_mid ht, core3_000, core3_z2, core3_z2, core3_z2, delta2_l0l, delta2_l0l, delta2_l0l, nPrefactor]
    have hd := (delta2_pos ht).ne'
    have e1 : (2 * (l1 : ℚ) + 1) ≠ 0 := by positivity
    have e2 : (2 * (l2 : ℚ) + 1) ≠ 0 := by positivity
    have e3 : (2 * (L : ℚ) + 1) ≠ 0 := by positivity
    push_cast
    field_simp
    linarith [even_sign ht hc]
  · rw [if_neg (by simpa using h)]
    rcases Classical.not_and_iff_not_or_not.mp h with h | h
    · rw [delta2_zero (a := l1) (b := 0) (c := q1) (by rwa [tri_zero2])]; ring
    rcases Classical.not_and_iff_not_or_not.mp h with h | h
    · rw [delta2_zero (a := l2) (b := 0) (c := q2) (by rwa [tri_zero2])]; ring
    · rw [delta2_zero (a := L) (b := 0) (c := qL) (by rwa [tri_zero2])]; ring

end Trv.Wc

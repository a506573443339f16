import Verif.Spec.Wigner
import Verif.Lemmas.CoeffDixon
import Mathlib.Data.Nat.Choose.Central
/-
Lemmas on the Wigner 3-j symbols.
-/
namespace Trv.Wc

open Trv

theorem negOne_natAbs {a b : ℤ} (h : (a - b) % 2 = 0) : (-1 : ℝ) ^ a.natAbs = (-1) ^ b.natAbs := by
  rcases Nat.even_or_odd b.natAbs with he | he
  · rw [he.neg_one_pow, Even.neg_one_pow (by rw [Nat.even_iff] at he ⊢; omega)]
  · rw [he.neg_one_pow, Odd.neg_one_pow (by rw [Nat.odd_iff] at he ⊢; omega)]

theorem wcore_reverse {a b c : ℕ} (ht : Tri a b c) (m1 m2 : ℤ) :
    wcore a b c (-m1) (-m2) = (-1) ^ (a + b + c) * wcore a b c m1 m2 := by
  obtain ⟨h1, h2, h3⟩ := ht
  unfold wcore
  rw [← Finset.sum_range_reflect, Finset.mul_sum]
  refine Finset.sum_congr rfl fun t htr => ?_
  have htr := Finset.mem_range.mp htr
  have e : ((a + b - c + 1 - 1 - t : ℕ) : ℤ) = (a : ℤ) + b - c - t := by omega
  have s : (-1 : ℚ) ^ (a + b - c + 1 - 1 - t) = (-1) ^ (a + b + c) * (-1) ^ t := by
    rw [← pow_add]
    rcases Nat.even_or_odd (a + b + c + t) with he | he
    · rw [he.neg_one_pow, Even.neg_one_pow (by rw [Nat.even_iff] at he ⊢; omega)]
    · rw [he.neg_one_pow, Odd.neg_one_pow (by rw [Nat.odd_iff] at he ⊢; omega)]
  rw [e, s, show (c : ℤ) - b + ((a : ℤ) + b - c - t) + -m1 = a - t - m1 by ring,
    show (c : ℤ) - a + ((a : ℤ) + b - c - t) - -m2 = b - t + m2 by ring,
    show (a : ℤ) + b - c - ((a : ℤ) + b - c - t) = t by ring,
    show (a : ℤ) - ((a : ℤ) + b - c - t) - -m1 = c - b + t + m1 by ring,
    show (b : ℤ) - ((a : ℤ) + b - c - t) + -m2 = c - a + t - m2 by ring]
  ring

theorem wcore_swap {a b c : ℕ} (ht : Tri a b c) (m1 m2 : ℤ) :
    wcore b a c m2 m1 = (-1) ^ (a + b + c) * wcore a b c m1 m2 := by
  rw [← wcore_reverse ht]
  unfold wcore
  rw [Nat.add_comm b a]
  refine Finset.sum_congr rfl fun t _ => ?_
  rw [show (c : ℤ) - a + t + m2 = c - a + t - -m2 by ring, show (c : ℤ) - b + t - m1 = c - b + t + -m1 by ring,
    show (b : ℤ) + a - c - t = a + b - c - t by ring, show (b : ℤ) - t - m2 = b - t + -m2 by ring,
    show (a : ℤ) - t + m1 = a - t - -m1 by ring]
  ring

theorem wigner_nat (a b c : ℕ) (m1 m2 m3 : ℤ) : wigner3j a b c m1 m2 m3 =
    if m1 + m2 + m3 = 0 ∧ |m1| ≤ a ∧ |m2| ≤ b ∧ |m3| ≤ c then
      (-1) ^ ((a : ℤ) - b - m3).natAbs * Real.sqrt (delta2 a b c * wfacts a b c m1 m2 m3) * wcore a b c m1 m2
    else 0 := by
  unfold wigner3j
  simp

theorem wigner_not_tri {a b c : ℕ} (h : ¬ Tri a b c) (m1 m2 m3 : ℤ) : wigner3j a b c m1 m2 m3 = 0 := by
  rw [wigner_nat, delta2_zero h]
  simp

theorem wigner_reflect (a b c : ℕ) (m1 m2 m3 : ℤ) :
    wigner3j a b c (-m1) (-m2) (-m3) = (-1) ^ (a + b + c) * wigner3j a b c m1 m2 m3 := by
  by_cases ht : Tri a b c
  · rw [wigner_nat, wigner_nat]
    have hc : (-m1 + -m2 + -m3 = 0 ∧ |-m1| ≤ (a : ℤ) ∧ |-m2| ≤ (b : ℤ) ∧ |-m3| ≤ (c : ℤ)) ↔
        (m1 + m2 + m3 = 0 ∧ |m1| ≤ (a : ℤ) ∧ |m2| ≤ (b : ℤ) ∧ |m3| ≤ (c : ℤ)) := by
      simp only [abs_neg]
      constructor <;> rintro ⟨h, h'⟩ <;> exact ⟨by omega, h'⟩
    rw [if_congr hc rfl rfl]
    split_ifs with h
    · have hf : wfacts a b c (-m1) (-m2) (-m3) = wfacts a b c m1 m2 m3 := by
        unfold wfacts
        simp only [sub_neg_eq_add, ← sub_eq_add_neg]
        ring
      rw [hf, wcore_reverse ht, negOne_natAbs (a := (a : ℤ) - b - -m3) (b := (a : ℤ) - b - m3) (by omega)]
      push_cast
      ring
    · rw [mul_zero]
  · rw [wigner_not_tri ht, wigner_not_tri ht, mul_zero]

theorem wigner_exchange (a b c : ℕ) (m1 m2 m3 : ℤ) :
    wigner3j b a c m2 m1 m3 = (-1) ^ (a + b + c) * wigner3j a b c m1 m2 m3 := by
  by_cases ht : Tri a b c
  · rw [wigner_nat, wigner_nat]
    have hc : (m2 + m1 + m3 = 0 ∧ |m2| ≤ (b : ℤ) ∧ |m1| ≤ (a : ℤ) ∧ |m3| ≤ (c : ℤ)) ↔
        (m1 + m2 + m3 = 0 ∧ |m1| ≤ (a : ℤ) ∧ |m2| ≤ (b : ℤ) ∧ |m3| ≤ (c : ℤ)) := by
      constructor <;> rintro ⟨h, h', h'', h'''⟩ <;> exact ⟨by omega, h'', h', h'''⟩
    rw [if_congr hc rfl rfl]
    split_ifs with h
    · have hf : wfacts b a c m2 m1 m3 = wfacts a b c m1 m2 m3 := by
        unfold wfacts; ring
      rw [hf, wcore_swap ht, delta2_comm12 b a c,
        negOne_natAbs (a := (b : ℤ) - a - m3) (b := (a : ℤ) - b - m3) (by omega)]
      push_cast
      ring
    · rw [mul_zero]
  · rw [wigner_not_tri ht, wigner_not_tri (fun h => ht ((tri_comm12 _ _ _).1 h)), mul_zero]

theorem wigner_select (a b c : ℕ) {m1 m2 m3 : ℤ} (h : m1 + m2 + m3 ≠ 0) : wigner3j a b c m1 m2 m3 = 0 := by
  rw [wigner_nat, if_neg fun h' => h h'.1]

/-- The symbols of orders zero are those of the Python code. -/
theorem wigner_zero (a b c : ℕ) : wigner3j a b c 0 0 0 = hFactor a b c := by
  rw [wigner_nat, if_pos (by simp), hFactor]
  have hf : wfacts a b c 0 0 0 = (a.factorial * b.factorial * c.factorial) ^ 2 := by
    unfold wfacts; simp; ring
  have hs : (-1 : ℝ) ^ ((a : ℤ) - b - 0).natAbs = (-1) ^ (a + b) := by
    rw [negOne_natAbs (b := ((a + b : ℕ) : ℤ)) (by push_cast; omega), Int.natAbs_natCast]
  rw [hf, hs]
  have hd := delta2_nonneg a b c
  rw [show (((delta2 a b c : ℚ) : ℝ) * (((a.factorial * b.factorial * c.factorial) ^ 2 : ℕ) : ℝ)) =
    ((delta2 a b c : ℚ) : ℝ) * (((a.factorial * b.factorial * c.factorial : ℕ) : ℝ)) ^ 2 by push_cast; ring,
    Real.sqrt_mul (by exact_mod_cast hd), Real.sqrt_sq (by positivity)]
  unfold core3 wcore
  simp only [add_zero, sub_zero]
  push_cast
  ring

/-! ### The symbols of orders zero, in closed form -/

/-- Dixon's identity. -/
theorem dixS_eq (x y z : ℕ) : dixS x y z * ((x.factorial * y.factorial * z.factorial *
    ((x + y).factorial * (y + z).factorial * (x + z).factorial) : ℕ) : ℚ) = (-1) ^ z * ((x + y + z).factorial : ℕ) := by
  induction z with
  | zero =>
    unfold dixS dixT
    have hx := fact_ne x
    have hy := fact_ne y
    simp [rfact_nat, rfact_eq 0 (z := 0) rfl]
    field_simp
  | succ z ih =>
    have h := dixS_succ x y z
    rw [show x + y + (z + 1) = x + y + z + 1 by ring, show y + (z + 1) = y + z + 1 by ring,
      show x + (z + 1) = x + z + 1 by ring, Nat.factorial_succ (x + y + z), Nat.factorial_succ (y + z),
      Nat.factorial_succ (x + z), Nat.factorial_succ z, pow_succ]
    push_cast at ih ⊢
    generalize (x.factorial : ℚ) = fx at *
    generalize (y.factorial : ℚ) = fy at *
    generalize (z.factorial : ℚ) = fz at *
    generalize ((x + y).factorial : ℚ) = fxy at *
    generalize ((y + z).factorial : ℚ) = fyz at *
    generalize ((x + z).factorial : ℚ) = fxz at *
    generalize ((x + y + z).factorial : ℚ) = fg at *
    generalize dixS x y (z + 1) = d1 at *
    generalize dixS x y z = d at *
    generalize (-1 : ℚ) ^ z = sg at *
    linear_combination (fx * fy * fz * fxy * fyz * fxz) * h - ((x : ℚ) + y + z + 1) * ih

theorem core3_dix (x y z : ℕ) : core3 (y + z) (x + z) (x + y) =
    (-1) ^ (y + z + (x + z)) * (((y + z).factorial * (x + z).factorial * (x + y).factorial : ℕ) : ℚ) * dixS x y z := by
  unfold core3
  congr 1
  rw [show y + z + (x + z) - (x + y) + 1 = 2 * z + 1 by omega]
  unfold dixS
  apply Finset.sum_congr rfl
  intro t _
  unfold dixT
  rw [show (x : ℤ) + ((t : ℤ) - z) = ((x + y : ℕ) : ℤ) - (y + z : ℕ) + t by push_cast; ring,
    show (x : ℤ) - ((t : ℤ) - z) = ((x + z : ℕ) : ℤ) - t by push_cast; ring,
    show (y : ℤ) + ((t : ℤ) - z) = ((x + y : ℕ) : ℤ) - (x + z : ℕ) + t by push_cast; ring,
    show (y : ℤ) - ((t : ℤ) - z) = ((y + z : ℕ) : ℤ) - t by push_cast; ring,
    show (z : ℤ) + ((t : ℤ) - z) = t by ring,
    show (z : ℤ) - ((t : ℤ) - z) = ((y + z : ℕ) : ℤ) + (x + z : ℕ) - (x + y : ℕ) - t by push_cast; ring]
  ring

theorem core3_sq (x y z : ℕ) : core3 (y + z) (x + z) (x + y) ^ 2 *
    ((x.factorial * y.factorial * z.factorial : ℕ) : ℚ) ^ 2 = ((x + y + z).factorial : ℚ) ^ 2 := by
  have h := dixS_eq x y z
  rw [core3_dix]
  have e : ((-1 : ℚ) ^ (y + z + (x + z))) ^ 2 = 1 := by rw [← pow_mul, mul_comm, pow_mul]; simp
  have e' : ((-1 : ℚ) ^ z) ^ 2 = 1 := by rw [← pow_mul, mul_comm, pow_mul]; simp
  calc _ = ((-1 : ℚ) ^ (y + z + (x + z))) ^ 2 * (dixS x y z * ((x.factorial * y.factorial * z.factorial *
        ((x + y).factorial * (y + z).factorial * (x + z).factorial) : ℕ) : ℚ)) ^ 2 := by push_cast; ring
    _ = _ := by rw [e, h, mul_pow, e']; ring

theorem tri_even (x y z : ℕ) : Tri (y + z) (x + z) (x + y) := ⟨by omega, by omega, by omega⟩

theorem delta2_even (x y z : ℕ) : delta2 (y + z) (x + z) (x + y) =
    (((2 * x).factorial * (2 * y).factorial * (2 * z).factorial : ℕ) : ℚ) / ((2 * (x + y + z) + 1).factorial : ℕ) := by
  unfold delta2
  rw [if_pos (tri_even x y z), show y + z + (x + z) - (x + y) = 2 * z by omega,
    show y + z + (x + y) - (x + z) = 2 * y by omega, show x + z + (x + y) - (y + z) = 2 * x by omega,
    show y + z + (x + z) + (x + y) + 1 = 2 * (x + y + z) + 1 by ring]
  push_cast
  ring

theorem hFactor_sq (a b c : ℕ) : hFactor a b c ^ 2 = ((delta2 a b c * core3 a b c ^ 2 : ℚ) : ℝ) := by
  unfold hFactor
  rw [mul_pow, Real.sq_sqrt (by exact_mod_cast delta2_nonneg a b c)]
  push_cast
  ring

/-- The 3-j symbols of orders zero in terms of central binomial coefficients. -/
theorem hFactor_even (x y z : ℕ) : hFactor (y + z) (x + z) (x + y) ^ 2 =
    (x.centralBinom * y.centralBinom * z.centralBinom : ℝ) / ((2 * (x + y + z : ℕ) + 1) * (x + y + z).centralBinom) := by
  have cb : ∀ n : ℕ, ((2 * n).factorial : ℚ) = n.centralBinom * (n.factorial : ℚ) ^ 2 := by
    intro n
    have := Nat.choose_mul_factorial_mul_factorial (show n ≤ 2 * n by omega)
    rw [show 2 * n - n = n by omega] at this
    rw [Nat.centralBinom_eq_two_mul_choose]
    have : ((2 * n).factorial : ℚ) = (((2 * n).choose n * n.factorial * n.factorial : ℕ) : ℚ) := by rw [this]
    rw [this]; push_cast; ring
  have h := core3_sq x y z
  rw [hFactor_sq, delta2_even]
  have hx := fact_ne x
  have hy := fact_ne y
  have hz := fact_ne z
  have hg := fact_ne (x + y + z)
  have hc : ((x + y + z).centralBinom : ℚ) ≠ 0 := by exact_mod_cast (Nat.centralBinom_pos _).ne'
  have key : (((2 * x).factorial * (2 * y).factorial * (2 * z).factorial : ℕ) : ℚ) / ((2 * (x + y + z) + 1).factorial : ℕ) *
      core3 (y + z) (x + z) (x + y) ^ 2 = (x.centralBinom * y.centralBinom * z.centralBinom : ℚ) /
        ((2 * (x + y + z : ℕ) + 1) * (x + y + z).centralBinom) := by
    rw [Nat.factorial_succ]
    push_cast at h ⊢
    rw [show (2 : ℚ) * ((x : ℚ) + y + z) = ((2 * (x + y + z) : ℕ) : ℚ) by push_cast; ring, cb, cb, cb, cb]
    have hn : (((2 * (x + y + z) : ℕ) : ℚ) + 1) ≠ 0 := by positivity
    generalize (((2 * (x + y + z) : ℕ) : ℚ) + 1) = n at *
    generalize core3 (y + z) (x + z) (x + y) = k at *
    generalize (x.factorial : ℚ) = fx at *
    generalize (y.factorial : ℚ) = fy at *
    generalize (z.factorial : ℚ) = fz at *
    generalize ((x + y + z).factorial : ℚ) = fg at *
    generalize ((x + y + z).centralBinom : ℚ) = cg at *
    rw [div_mul_eq_mul_div, div_eq_div_iff (by positivity) (by positivity)]
    linear_combination (x.centralBinom * y.centralBinom * z.centralBinom * n * cg : ℚ) * h
  rw [key]
  push_cast
  rfl

theorem four_pow_le (n : ℕ) : 4 ^ n ≤ (2 * n + 1) * n.centralBinom := by
  rcases Nat.eq_zero_or_pos n with h | h
  · subst h; simp
  · have := Nat.four_pow_le_two_mul_self_mul_centralBinom n h
    nlinarith [Nat.centralBinom_pos n]

/-- A lower bound on the symbols of orders zero. -/
theorem hFactor_lower (x y z : ℕ) : 1 / (2 * ((x + y + z : ℕ) : ℝ) + 1) ^ 2 ≤ |hFactor (y + z) (x + z) (x + y)| := by
  set g := x + y + z with hgd
  have hx : (4 : ℝ) ^ x ≤ (2 * g + 1) * x.centralBinom := by
    have h1 : (4 : ℝ) ^ x ≤ (2 * x + 1) * x.centralBinom := by exact_mod_cast four_pow_le x
    refine h1.trans (mul_le_mul_of_nonneg_right ?_ (by positivity))
    have : (x : ℝ) ≤ g := by rw [hgd]; push_cast; linarith [Nat.cast_nonneg (α := ℝ) y, Nat.cast_nonneg (α := ℝ) z]
    linarith
  have hy : (4 : ℝ) ^ y ≤ (2 * g + 1) * y.centralBinom := by
    have h1 : (4 : ℝ) ^ y ≤ (2 * y + 1) * y.centralBinom := by exact_mod_cast four_pow_le y
    refine h1.trans (mul_le_mul_of_nonneg_right ?_ (by positivity))
    have : (y : ℝ) ≤ g := by rw [hgd]; push_cast; linarith [Nat.cast_nonneg (α := ℝ) x, Nat.cast_nonneg (α := ℝ) z]
    linarith
  have hz : (4 : ℝ) ^ z ≤ (2 * g + 1) * z.centralBinom := by
    have h1 : (4 : ℝ) ^ z ≤ (2 * z + 1) * z.centralBinom := by exact_mod_cast four_pow_le z
    refine h1.trans (mul_le_mul_of_nonneg_right ?_ (by positivity))
    have : (z : ℝ) ≤ g := by rw [hgd]; push_cast; linarith [Nat.cast_nonneg (α := ℝ) x, Nat.cast_nonneg (α := ℝ) y]
    linarith
  have hg : (g.centralBinom : ℝ) ≤ 4 ^ x * 4 ^ y * 4 ^ z := by
    rw [← pow_add, ← pow_add]; exact_mod_cast Nat.centralBinom_le_four_pow g
  have hprod : (4 : ℝ) ^ x * 4 ^ y * 4 ^ z ≤
      ((2 * g + 1) * x.centralBinom) * ((2 * g + 1) * y.centralBinom) * ((2 * g + 1) * z.centralBinom) :=
    mul_le_mul (mul_le_mul hx hy (by positivity) (by positivity)) hz (by positivity) (by positivity)
  rw [← sq_le_sq₀ (by positivity) (by positivity), sq_abs, hFactor_even, ← hgd,
    div_pow, div_le_div_iff₀ (by positivity) (by have := Nat.centralBinom_pos g; positivity)]
  have := hg.trans hprod
  have hn : (0 : ℝ) ≤ 2 * g + 1 := by positivity
  calc _ = (2 * (g : ℝ) + 1) * g.centralBinom := by ring
    _ ≤ (2 * (g : ℝ) + 1) * (((2 * g + 1) * x.centralBinom) * ((2 * g + 1) * y.centralBinom) * ((2 * g + 1) * z.centralBinom)) :=
      mul_le_mul_of_nonneg_left this hn
    _ = _ := by ring

/-! ### A lower bound on the symbols which are not zero -/

theorem rfact_choose (n : ℕ) (k : ℤ) : ∃ i : ℤ, rfact k * rfact (n - k) * (n.factorial : ℚ) = i := by
  by_cases h : 0 ≤ k ∧ k ≤ n
  · obtain ⟨j, rfl⟩ := Int.eq_ofNat_of_zero_le h.1
    have hj : j ≤ n := by omega
    refine ⟨n.choose j, ?_⟩
    rw [rfact_nat, rfact_eq (n - j) (by omega), ← Nat.choose_mul_factorial_mul_factorial hj]
    have h1 := fact_ne j
    have h2 := fact_ne (n - j)
    push_cast
    field_simp
  · refine ⟨0, ?_⟩
    by_cases h0 : k < 0
    · rw [rfact_neg h0]; simp
    · rw [rfact_neg (z := n - k) (by omega)]; simp

theorem wcore_int {a b c : ℕ} (ht : Tri a b c) (m1 m2 : ℤ) : ∃ i : ℤ,
    wcore a b c m1 m2 * (((a + b - c).factorial * (a + c - b).factorial * (b + c - a).factorial : ℕ) : ℚ) = i := by
  obtain ⟨h1, h2, h3⟩ := ht
  have term : ∀ t : ℕ, ∃ i : ℤ, (-1) ^ t * rfact t * rfact ((c : ℤ) - b + t + m1) *
    rfact ((c : ℤ) - a + t - m2) * rfact ((a : ℤ) + b - c - t) * rfact ((a : ℤ) - t - m1) *
    rfact ((b : ℤ) - t + m2) * (((a + b - c).factorial * (a + c - b).factorial * (b + c - a).factorial : ℕ) : ℚ) = i := by
    intro t
    obtain ⟨i1, e1⟩ := rfact_choose (a + b - c) t
    obtain ⟨i2, e2⟩ := rfact_choose (a + c - b) ((a : ℤ) - t - m1)
    obtain ⟨i3, e3⟩ := rfact_choose (b + c - a) ((b : ℤ) - t + m2)
    rw [show ((a + b - c : ℕ) : ℤ) - t = (a : ℤ) + b - c - t by omega] at e1
    rw [show ((a + c - b : ℕ) : ℤ) - ((a : ℤ) - t - m1) = (c : ℤ) - b + t + m1 by omega] at e2
    rw [show ((b + c - a : ℕ) : ℤ) - ((b : ℤ) - t + m2) = (c : ℤ) - a + t - m2 by omega] at e3
    refine ⟨(-1) ^ t * (i1 * i2 * i3), ?_⟩
    push_cast
    rw [← e1, ← e2, ← e3]
    ring
  choose f hf using term
  refine ⟨∑ t ∈ Finset.range (a + b - c + 1), f t, ?_⟩
  unfold wcore
  rw [Finset.sum_mul, Finset.sum_congr rfl fun t _ => hf t]
  push_cast
  rfl

theorem fact_sq_le (a : ℕ) (m : ℤ) (h : |m| ≤ a) :
    a.factorial * a.factorial ≤ (a + m).toNat.factorial * (a - m).toNat.factorial := by
  have ha := abs_le.mp h
  have e1 := Nat.choose_mul_factorial_mul_factorial (show a ≤ 2 * a by omega)
  have e2 := Nat.choose_mul_factorial_mul_factorial (show (a + m).toNat ≤ 2 * a by omega)
  rw [show 2 * a - a = a by omega, ← Nat.centralBinom_eq_two_mul_choose] at e1
  rw [show 2 * a - (a + m).toNat = (a - m).toNat by omega] at e2
  have hle : (2 * a).choose (a + m).toNat ≤ a.centralBinom := Nat.choose_le_centralBinom _ _
  have hp := Nat.centralBinom_pos a
  refine Nat.le_of_mul_le_mul_left ?_ hp
  calc _ = (2 * a).factorial := by rw [← mul_assoc]; exact e1
    _ = (2 * a).choose (a + m).toNat * ((a + m).toNat.factorial * (a - m).toNat.factorial) := by rw [← mul_assoc]; exact e2.symm
    _ ≤ _ := Nat.mul_le_mul_right _ hle

theorem wfacts_le (a b c : ℕ) {m1 m2 m3 : ℤ} (h1 : |m1| ≤ a) (h2 : |m2| ≤ b) (h3 : |m3| ≤ c) :
    (a.factorial * b.factorial * c.factorial) ^ 2 ≤ wfacts a b c m1 m2 m3 := by
  unfold wfacts
  calc _ = (a.factorial * a.factorial) * (b.factorial * b.factorial) * (c.factorial * c.factorial) := by ring
    _ ≤ _ := Nat.mul_le_mul (Nat.mul_le_mul (fact_sq_le a m1 h1) (fact_sq_le b m2 h2)) (fact_sq_le c m3 h3)

theorem wigner_sq {a b c : ℕ} {m1 m2 m3 : ℤ} (h : m1 + m2 + m3 = 0 ∧ |m1| ≤ a ∧ |m2| ≤ b ∧ |m3| ≤ c) :
    wigner3j a b c m1 m2 m3 ^ 2 = ((delta2 a b c * wfacts a b c m1 m2 m3 * wcore a b c m1 m2 ^ 2 : ℚ) : ℝ) := by
  rw [wigner_nat, if_pos h, mul_pow, mul_pow, Real.sq_sqrt, ← pow_mul, mul_comm _ 2, pow_mul]
  · push_cast; ring
  · have := delta2_nonneg a b c
    have h2 : (0 : ℝ) ≤ (delta2 a b c : ℝ) := by exact_mod_cast this
    positivity

/-- The product of the symbol of orders zero with another, if it does not vanish. -/
theorem product_lower (x y z : ℕ) (m1 m2 m3 : ℤ) (hw : wigner3j (y + z : ℕ) (x + z : ℕ) (x + y : ℕ) m1 m2 m3 ≠ 0) :
    (((x + y + z).factorial * ((y + z).factorial * (x + z).factorial * (x + y).factorial) : ℕ) : ℝ) ≤
      ((2 * (x + y + z) + 1).factorial * (x.factorial * y.factorial * z.factorial) : ℕ) *
      |hFactor (y + z) (x + z) (x + y) * wigner3j (y + z : ℕ) (x + z : ℕ) (x + y : ℕ) m1 m2 m3| := by
  have hc : m1 + m2 + m3 = 0 ∧ |m1| ≤ ((y + z : ℕ) : ℤ) ∧ |m2| ≤ ((x + z : ℕ) : ℤ) ∧ |m3| ≤ ((x + y : ℕ) : ℤ) := by
    by_contra h
    exact hw (by rw [wigner_nat, if_neg h])
  have hsq := wigner_sq hc
  have hk : wcore (y + z) (x + z) (x + y) m1 m2 ≠ 0 := by
    intro h0
    rw [h0] at hsq
    exact hw (by simpa using hsq)
  obtain ⟨i, hi⟩ := wcore_int (tri_even x y z) m1 m2
  rw [show y + z + (x + z) - (x + y) = 2 * z by omega,
    show y + z + (x + y) - (x + z) = 2 * y by omega, show x + z + (x + y) - (y + z) = 2 * x by omega] at hi
  have hf := wfacts_le (y + z) (x + z) (x + y) hc.2.1 hc.2.2.1 hc.2.2.2
  have hcs := core3_sq x y z
  rw [← sq_le_sq₀ (by positivity) (by positivity), mul_pow, sq_abs, mul_pow (hFactor _ _ _), hFactor_sq, hsq, delta2_even]
  have S0 : (0 : ℚ) < (((2 * x).factorial * (2 * y).factorial * (2 * z).factorial : ℕ) : ℚ) := by positivity
  have hS : (((2 * z).factorial * (2 * y).factorial * (2 * x).factorial : ℕ) : ℚ) =
    (((2 * x).factorial * (2 * y).factorial * (2 * z).factorial : ℕ) : ℚ) := by push_cast; ring
  rw [hS] at hi
  have T0 : (0 : ℚ) < ((2 * (x + y + z) + 1).factorial : ℚ) := by positivity
  have hf' : (((y + z).factorial * (x + z).factorial * (x + y).factorial : ℕ) : ℚ) ^ 2 ≤
    (wfacts (y + z) (x + z) (x + y) m1 m2 m3 : ℚ) := by exact_mod_cast hf
  have one : 1 ≤ (wcore (y + z) (x + z) (x + y) m1 m2 *
      (((2 * x).factorial * (2 * y).factorial * (2 * z).factorial : ℕ) : ℚ)) ^ 2 := by
    rw [hi]
    have : i ≠ 0 := by
      rintro rfl
      rw [Int.cast_zero] at hi
      exact (mul_ne_zero hk S0.ne') hi
    have h1 : 1 ≤ i ^ 2 := by have h0 := sq_nonneg i; have h2 : i ^ 2 ≠ 0 := pow_ne_zero 2 this; omega
    exact_mod_cast h1
  have key : (((x + y + z).factorial : ℚ) * (((y + z).factorial * (x + z).factorial * (x + y).factorial : ℕ) : ℚ)) ^ 2 ≤
      (((2 * (x + y + z) + 1).factorial : ℚ) * ((x.factorial * y.factorial * z.factorial : ℕ) : ℚ)) ^ 2 *
      ((((2 * x).factorial * (2 * y).factorial * (2 * z).factorial : ℕ) : ℚ) / ((2 * (x + y + z) + 1).factorial : ℕ) *
        core3 (y + z) (x + z) (x + y) ^ 2 *
      ((((2 * x).factorial * (2 * y).factorial * (2 * z).factorial : ℕ) : ℚ) / ((2 * (x + y + z) + 1).factorial : ℕ) *
        wfacts (y + z) (x + z) (x + y) m1 m2 m3 * wcore (y + z) (x + z) (x + y) m1 m2 ^ 2)) := by
    generalize (((2 * x).factorial * (2 * y).factorial * (2 * z).factorial : ℕ) : ℚ) = S at *
    generalize ((2 * (x + y + z) + 1).factorial : ℚ) = T at *
    generalize core3 (y + z) (x + z) (x + y) = k at *
    generalize wcore (y + z) (x + z) (x + y) m1 m2 = w at *
    generalize ((x.factorial * y.factorial * z.factorial : ℕ) : ℚ) = X at *
    generalize (((y + z).factorial * (x + z).factorial * (x + y).factorial : ℕ) : ℚ) = A at *
    generalize (wfacts (y + z) (x + z) (x + y) m1 m2 m3 : ℚ) = W at *
    generalize ((x + y + z).factorial : ℚ) = G at *
    have e : (T * X) ^ 2 * (S / T * k ^ 2 * (S / T * W * w ^ 2)) = G ^ 2 * (W * (w * S) ^ 2) := by
      rw [← hcs]; field_simp
    rw [e, mul_pow]
    refine mul_le_mul_of_nonneg_left ?_ (by positivity)
    nlinarith [sq_nonneg A]
  exact_mod_cast key

/-! ### A vanishing degree -/

theorem wfacts_sq (l : ℕ) (m : ℤ) (a b c : ℕ) (m1 m2 m3 : ℤ)
    (h : wfacts a b c m1 m2 m3 = ((l + m).toNat.factorial * (l - m).toNat.factorial) ^ 2)
    (hd : delta2 a b c = 1 / (2 * l + 1)) : Real.sqrt (delta2 a b c * wfacts a b c m1 m2 m3) =
      ((l + m).toNat.factorial * (l - m).toNat.factorial : ℕ) / Real.sqrt (2 * l + 1) := by
  rw [h, hd]
  push_cast
  rw [Real.sqrt_mul (by positivity), Real.sqrt_sq (by positivity), Real.sqrt_div (by norm_num), Real.sqrt_one]
  ring

theorem delta2_last (l : ℕ) : delta2 l l 0 = 1 / (2 * l + 1) := by
  unfold delta2
  rw [if_pos ⟨by omega, by omega, by omega⟩, show l + l - 0 = 2 * l by omega, show l + 0 - l = 0 by omega,
    show l + l + 0 + 1 = 2 * l + 1 by ring, Nat.factorial_succ]
  have := fact_ne (2 * l)
  push_cast
  simp only [Nat.factorial_zero, Nat.cast_one, mul_one]
  field_simp

theorem delta2_middle (l : ℕ) : delta2 l 0 l = 1 / (2 * l + 1) := by
  rw [delta2_comm23, delta2_last]

theorem wigner_last (l : ℕ) (m : ℤ) (h : |m| ≤ l) :
    wigner3j l l 0 m (-m) 0 = (-1) ^ (l + m.natAbs) / Real.sqrt (2 * l + 1) := by
  have hm := abs_le.mp h
  have := wigner_nat l l 0 m (-m) 0
  rw [Nat.cast_zero] at this
  rw [this, if_pos ⟨by ring, h, by rwa [abs_neg], by simp⟩]
  have hf : wfacts l l 0 m (-m) 0 = ((l + m).toNat.factorial * (l - m).toNat.factorial) ^ 2 := by
    unfold wfacts
    simp only [sub_neg_eq_add, ← sub_eq_add_neg]
    simp
    ring
  rw [wfacts_sq l m l l 0 m (-m) 0 hf (delta2_last l)]
  have hc : wcore l l 0 m (-m) = (-1) ^ (l + m.natAbs) * (((l + m).toNat.factorial * (l - m).toNat.factorial : ℕ) : ℚ)⁻¹ := by
    unfold wcore
    rw [Finset.sum_eq_single (l - m).toNat]
    · have e : (((l - m).toNat : ℕ) : ℤ) = l - m := by omega
      rw [rfact_nat, e, rfact_eq 0 (z := ((0 : ℕ) : ℤ) - l + (l - m) + m) (by push_cast; ring),
        rfact_eq 0 (z := ((0 : ℕ) : ℤ) - l + (l - m) - -m) (by push_cast; ring),
        rfact_eq (l + m).toNat (z := (l : ℤ) + l - ((0 : ℕ) : ℤ) - (l - m)) (by push_cast; omega),
        rfact_eq 0 (z := (l : ℤ) - (l - m) - m) (by push_cast; ring), rfact_eq 0 (z := (l : ℤ) - (l - m) + -m) (by push_cast; ring)]
      have sg : (-1 : ℚ) ^ (l - m).toNat = (-1) ^ (l + m.natAbs) := by
        rcases Nat.even_or_odd (l + m.natAbs) with he | he
        · rw [he.neg_one_pow, Even.neg_one_pow (by rw [Nat.even_iff] at he ⊢; omega)]
        · rw [he.neg_one_pow, Odd.neg_one_pow (by rw [Nat.odd_iff] at he ⊢; omega)]
      rw [sg]
      push_cast
      simp only [Nat.factorial_zero, Nat.cast_one, inv_one, mul_one, mul_inv]
      ring
    · intro t _ ht
      by_cases hlt : (t : ℤ) < l - m
      · rw [rfact_neg (z := ((0 : ℕ) : ℤ) - l + t + m) (by push_cast; omega)]; ring
      · rw [rfact_neg (z := (l : ℤ) - t - m) (by omega)]; ring
    · intro hn
      exact absurd (Finset.mem_range.mpr (by omega)) hn
  rw [hc]
  have hne : (((l + m).toNat.factorial * (l - m).toNat.factorial : ℕ) : ℝ) ≠ 0 := by positivity
  have hs : (-1 : ℝ) ^ ((l : ℤ) - l - 0).natAbs = 1 := by simp
  rw [hs]
  push_cast at hne ⊢
  field_simp

theorem wigner_middle (l : ℕ) (m : ℤ) (h : |m| ≤ l) :
    wigner3j l 0 l m 0 (-m) = (-1) ^ (l + m.natAbs) / Real.sqrt (2 * l + 1) := by
  have hm := abs_le.mp h
  have := wigner_nat l 0 l m 0 (-m)
  rw [Nat.cast_zero] at this
  rw [this, if_pos ⟨by ring, h, by simp, by rwa [abs_neg]⟩]
  have hf : wfacts l 0 l m 0 (-m) = ((l + m).toNat.factorial * (l - m).toNat.factorial) ^ 2 := by
    unfold wfacts
    simp only [sub_neg_eq_add, ← sub_eq_add_neg]
    simp
    ring
  rw [wfacts_sq l m l 0 l m 0 (-m) hf (delta2_middle l)]
  have hc : wcore l 0 l m 0 = (((l + m).toNat.factorial * (l - m).toNat.factorial : ℕ) : ℚ)⁻¹ := by
    unfold wcore
    rw [show l + 0 - l + 1 = 1 by omega, Finset.sum_range_one, rfact_eq 0 (z := ((0 : ℕ) : ℤ)) rfl,
      rfact_eq (l + m).toNat (z := (l : ℤ) - ((0 : ℕ) : ℤ) + ((0 : ℕ) : ℤ) + m) (by push_cast; omega),
      rfact_eq 0 (z := (l : ℤ) - l + ((0 : ℕ) : ℤ) - 0) (by push_cast; ring),
      rfact_eq 0 (z := (l : ℤ) + ((0 : ℕ) : ℤ) - l - ((0 : ℕ) : ℤ)) (by push_cast; ring),
      rfact_eq (l - m).toNat (z := (l : ℤ) - ((0 : ℕ) : ℤ) - m) (by push_cast; omega),
      rfact_eq 0 (z := ((0 : ℕ) : ℤ) - ((0 : ℕ) : ℤ) + 0) (by simp)]
    push_cast
    simp only [Nat.factorial_zero, Nat.cast_one, inv_one, mul_one, mul_inv, pow_zero, one_mul]
  rw [hc]
  have hne : (((l + m).toNat.factorial * (l - m).toNat.factorial : ℕ) : ℝ) ≠ 0 := by positivity
  have hs : (-1 : ℝ) ^ ((l : ℤ) - 0 - -m).natAbs = (-1) ^ (l + m.natAbs) := by
    rw [negOne_natAbs (b := ((l + m.natAbs : ℕ) : ℤ)) (by omega), Int.natAbs_natCast]
  rw [hs]
  push_cast at hne ⊢
  field_simp

/-! ### The coupling coefficients -/

set_option maxRecDepth 20000 in
/-- The bound is above the threshold of the program for small degrees. -/
theorem coupling_table : ∀ x < 20, ∀ y < 20 - x, ∀ z < 20 - x - y,
    (2 * (x + y + z) + 1).factorial * (x.factorial * y.factorial * z.factorial) <
      1000000000 * ((2 * (y + z) + 1) * (2 * (x + z) + 1) * (2 * (x + y) + 1) *
        ((x + y + z).factorial * ((y + z).factorial * (x + z).factorial * (x + y).factorial))) := by
  decide +kernel

end Trv.Wc

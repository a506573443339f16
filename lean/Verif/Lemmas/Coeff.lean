import Verif.Model.Coeff
import Mathlib.Tactic.Ring
import Mathlib.Tactic.FieldSimp
import Mathlib.Tactic.Linarith
import Mathlib.Tactic.Positivity
import Mathlib.Tactic.NormNum
/-
Lemmas on the coefficients of the three-point window convolution.
-/
namespace Trv.Wc

open Trv

theorem rfact_neg {z : ℤ} (h : z < 0) : rfact z = 0 := by rw [rfact, if_pos h]

theorem rfact_nat (n : ℕ) : rfact n = ((n.factorial : ℕ) : ℚ)⁻¹ := by
  rw [rfact, if_neg (by omega)]
  simp

theorem rfact_eq {z : ℤ} (n : ℕ) (h : z = n) : rfact z = ((n.factorial : ℕ) : ℚ)⁻¹ := by
  rw [h, rfact_nat]

theorem fact_ne (n : ℕ) : ((n.factorial : ℕ) : ℚ) ≠ 0 := by exact_mod_cast n.factorial_ne_zero

theorem tri_comm12 (a b c : ℕ) : Tri a b c ↔ Tri b a c := by unfold Tri; omega
theorem tri_comm23 (a b c : ℕ) : Tri a b c ↔ Tri a c b := by unfold Tri; omega

theorem delta2_comm12 (a b c : ℕ) : delta2 a b c = delta2 b a c := by
  unfold delta2
  rw [if_congr (tri_comm12 a b c) rfl rfl, show a + b - c = b + a - c by omega, show a + b + c + 1 = b + a + c + 1 by omega]
  by_cases h : Tri b a c
  · rw [if_pos h, if_pos h]; push_cast; ring
  · rw [if_neg h, if_neg h]

theorem delta2_comm23 (a b c : ℕ) : delta2 a b c = delta2 a c b := by
  unfold delta2
  rw [if_congr (tri_comm23 a b c) rfl rfl, show c + b - a = b + c - a by omega, show a + b + c + 1 = a + c + b + 1 by omega]
  by_cases h : Tri a c b
  · rw [if_pos h, if_pos h]; push_cast; ring
  · rw [if_neg h, if_neg h]

theorem delta2_pos {a b c : ℕ} (h : Tri a b c) : 0 < delta2 a b c := by
  rw [delta2, if_pos h]
  apply div_pos
  · exact_mod_cast Nat.mul_pos (Nat.mul_pos (Nat.factorial_pos _) (Nat.factorial_pos _)) (Nat.factorial_pos _)
  · exact_mod_cast Nat.factorial_pos _

theorem delta2_zero {a b c : ℕ} (h : ¬ Tri a b c) : delta2 a b c = 0 := by rw [delta2, if_neg h]

theorem delta2_nonneg (a b c : ℕ) : 0 ≤ delta2 a b c := by
  by_cases h : Tri a b c
  · exact (delta2_pos h).le
  · rw [delta2_zero h]

/-- The triangle coefficient with a zero. -/
theorem delta2_zz (l : ℕ) : delta2 l l 0 = 1 / (2 * l + 1) := by
  rw [delta2, if_pos (by unfold Tri; omega)]
  rw [show l + l - 0 = 2 * l by omega, show l + 0 - l = 0 by omega, show l + l + 0 + 1 = 2 * l + 1 by omega,
    Nat.factorial_succ]
  have := fact_ne (2 * l)
  push_cast
  simp
  field_simp

/-- Reflection of the sum of the 3j symbol. -/
theorem core3_odd {a b c : ℕ} (ht : Tri a b c) (ho : (a + b + c) % 2 = 1) : core3 a b c = 0 := by
  unfold core3
  have key : ∑ t ∈ Finset.range (a + b - c + 1), (-1 : ℚ) ^ t * rfact t * rfact ((c : ℤ) - b + t) * rfact ((c : ℤ) - a + t) *
      rfact ((a : ℤ) + b - c - t) * rfact ((a : ℤ) - t) * rfact ((b : ℤ) - t) = 0 := by
    set f : ℕ → ℚ := fun t => (-1 : ℚ) ^ t * rfact t * rfact ((c : ℤ) - b + t) * rfact ((c : ℤ) - a + t) *
      rfact ((a : ℤ) + b - c - t) * rfact ((a : ℤ) - t) * rfact ((b : ℤ) - t) with hf
    have h1 := Finset.sum_range_reflect f (a + b - c + 1)
    have h2 : ∀ t ∈ Finset.range (a + b - c + 1), f (a + b - c + 1 - 1 - t) = - f t := by
      intro t htr
      have htr := Finset.mem_range.mp htr
      obtain ⟨h3, h4, h5⟩ := ht
      simp only [hf]
      have e : ((a + b - c + 1 - 1 - t : ℕ) : ℤ) = (a : ℤ) + b - c - t := by omega
      rw [e, show (c : ℤ) - b + ((a : ℤ) + b - c - t) = a - t by ring, show (c : ℤ) - a + ((a : ℤ) + b - c - t) = b - t by ring,
        show (a : ℤ) + b - c - ((a : ℤ) + b - c - t) = t by ring, show (a : ℤ) - ((a : ℤ) + b - c - t) = c - b + t by ring,
        show (b : ℤ) - ((a : ℤ) + b - c - t) = c - a + t by ring]
      have s : (-1 : ℚ) ^ (a + b - c + 1 - 1 - t) = - (-1) ^ t := by
        rcases Nat.even_or_odd t with he | he
        · rw [he.neg_one_pow, Odd.neg_one_pow (by rw [Nat.odd_iff]; rw [Nat.even_iff] at he; omega)]
        · rw [he.neg_one_pow, Even.neg_one_pow (by rw [Nat.even_iff]; rw [Nat.odd_iff] at he; omega)]; norm_num
      rw [s]; ring
    rw [Finset.sum_congr rfl h2, Finset.sum_neg_distrib] at h1
    linarith
  rw [key, mul_zero]

/-- The 3j symbol with a zero. -/
theorem core3_zz (l : ℕ) : core3 l l 0 = (-1) ^ l := by
  unfold core3
  rw [Finset.sum_eq_single l]
  · rw [rfact_nat, rfact_eq 0 (by push_cast; ring), rfact_eq l (z := ((l : ℕ) : ℤ) + l - (0 : ℕ) - l) (by push_cast; ring),
      rfact_eq 0 (by push_cast; ring)]
    have := fact_ne l
    push_cast
    simp
    field_simp
  · intro t ht hne
    rcases Nat.lt_or_gt_of_ne hne with h | h
    · rw [rfact_neg (z := ((0 : ℕ) : ℤ) - l + t) (by push_cast; omega)]; ring
    · rw [rfact_neg (z := (l : ℤ) - t) (by omega)]; ring
  · intro h; simp at h

theorem core3_z2 (l : ℕ) : core3 l 0 l = (-1) ^ l := by
  unfold core3
  rw [Finset.sum_eq_single 0]
  · rw [rfact_eq 0 rfl, rfact_eq l (z := (l : ℤ) - (0 : ℕ) + (0 : ℕ)) (by omega), rfact_eq 0 (z := (l : ℤ) - l + (0 : ℕ)) (by omega),
      rfact_eq 0 (z := (l : ℤ) + (0 : ℕ) - l - (0 : ℕ)) (by omega), rfact_eq l (z := (l : ℤ) - (0 : ℕ)) (by omega),
      rfact_eq 0 (z := ((0 : ℕ) : ℤ) - (0 : ℕ)) (by omega)]
    have := fact_ne l
    push_cast
    simp
    field_simp
  · intro t ht hne
    rw [rfact_neg (z := ((0 : ℕ) : ℤ) - t) (by push_cast; omega)]; ring
  · intro h; simp at h

theorem core6_one {s x y z : ℕ} (b d e : ℕ) (ht : Tri b d e) (hs : s = b + d + e) (hx : x = d + e - b) (hy : y = d + b - e) (hz : z = b + e - d) :
    (-1 : ℚ) ^ s * (((s + 1).factorial : ℕ) : ℚ) * (((x.factorial : ℕ) : ℚ)⁻¹ * ((y.factorial : ℕ) : ℚ)⁻¹ * ((z.factorial : ℕ) : ℚ)⁻¹) =
      (-1) ^ (b + d + e) / delta2 b d e := by
  rw [delta2, if_pos ht, hs, hx, hy, hz, show d + b - e = b + d - e by omega]
  have := fact_ne (b + d + e + 1)
  have := fact_ne (d + e - b)
  have := fact_ne (b + d - e)
  have := fact_ne (b + e - d)
  push_cast
  field_simp

/-- The 6j symbol with a zero in its first place. -/
theorem core6_za (b d e : ℕ) (ht : Tri b d e) : core6 0 b b d e e = (-1) ^ (b + d + e) / delta2 b d e := by
  have ht' := ht
  obtain ⟨h1, h2, h3⟩ := ht'
  unfold core6
  rw [Finset.sum_eq_single (b + d + e), ← core6_one b d e ht rfl rfl rfl rfl]
  · rw [rfact_eq (d + e - b) (z := ((b + d + e : ℕ) : ℤ) - (0 : ℕ) - b - b) (by omega),
      rfact_eq (d + b - e) (z := ((b + d + e : ℕ) : ℤ) - (0 : ℕ) - e - e) (by omega),
      rfact_eq 0 (z := ((b + d + e : ℕ) : ℤ) - d - b - e) (by omega), rfact_eq 0 (z := ((b + d + e : ℕ) : ℤ) - d - e - b) (by omega),
      rfact_eq 0 (z := ((0 : ℕ) : ℤ) + b + d + e - (b + d + e : ℕ)) (by omega),
      rfact_eq (b + e - d) (z := (b : ℤ) + b + e + e - (b + d + e : ℕ)) (by omega)]
    simp
    ring
  · intro t _ hne
    rcases Nat.lt_or_gt_of_ne hne with h | h
    · rw [rfact_neg (z := (t : ℤ) - d - b - e) (by omega)]; ring
    · rw [rfact_neg (z := ((0 : ℕ) : ℤ) + b + d + e - t) (by omega)]; ring
  · intro h; simp at h

/-- The 6j symbol with a zero in its fourth place. -/
theorem core6_zd (a b c : ℕ) (ht : Tri a b c) : core6 a b c 0 c b = (-1) ^ (a + b + c) / delta2 a b c := by
  have ht' := ht
  obtain ⟨h1, h2, h3⟩ := ht'
  unfold core6
  rw [Finset.sum_eq_single (a + b + c), ← core6_one a b c ht rfl rfl rfl rfl]
  · rw [rfact_eq 0 (z := ((a + b + c : ℕ) : ℤ) - a - b - c) (by omega), rfact_eq 0 (z := ((a + b + c : ℕ) : ℤ) - a - c - b) (by omega),
      rfact_eq (a + c - b) (z := ((a + b + c : ℕ) : ℤ) - (0 : ℕ) - b - b) (by omega),
      rfact_eq (b + a - c) (z := ((a + b + c : ℕ) : ℤ) - (0 : ℕ) - c - c) (by omega),
      rfact_eq 0 (z := (a : ℤ) + b + (0 : ℕ) + c - (a + b + c : ℕ)) (by omega),
      rfact_eq (b + c - a) (z := (b : ℤ) + c + c + b - (a + b + c : ℕ)) (by omega),
      rfact_eq 0 (z := (a : ℤ) + c + (0 : ℕ) + b - (a + b + c : ℕ)) (by omega)]
    simp
    ring
  · intro t _ hne
    rcases Nat.lt_or_gt_of_ne hne with h | h
    · rw [rfact_neg (z := (t : ℤ) - a - b - c) (by omega)]; ring
    · rw [rfact_neg (z := (a : ℤ) + b + (0 : ℕ) + c - t) (by omega)]; ring
  · intro h; simp at h

/-- The 6j symbol with a zero in its second place. -/
theorem core6_zb (a d e : ℕ) (ht : Tri a d e) : core6 a 0 a d e d = (-1) ^ (a + d + e) / delta2 a d e := by
  have ht' := ht
  obtain ⟨h1, h2, h3⟩ := ht'
  unfold core6
  rw [Finset.sum_eq_single (a + d + e), ← core6_one a d e ht rfl rfl rfl rfl]
  · rw [rfact_eq (d + e - a) (z := ((a + d + e : ℕ) : ℤ) - a - (0 : ℕ) - a) (by omega),
      rfact_eq 0 (z := ((a + d + e : ℕ) : ℤ) - a - e - d) (by omega),
      rfact_eq (a + e - d) (z := ((a + d + e : ℕ) : ℤ) - d - (0 : ℕ) - d) (by omega),
      rfact_eq 0 (z := ((a + d + e : ℕ) : ℤ) - d - e - a) (by omega),
      rfact_eq 0 (z := (a : ℤ) + (0 : ℕ) + d + e - (a + d + e : ℕ)) (by omega),
      rfact_eq 0 (z := ((0 : ℕ) : ℤ) + a + e + d - (a + d + e : ℕ)) (by omega),
      rfact_eq (d + a - e) (z := (a : ℤ) + a + d + d - (a + d + e : ℕ)) (by omega)]
    simp
    ring
  · intro t _ hne
    rcases Nat.lt_or_gt_of_ne hne with h | h
    · rw [rfact_neg (z := (t : ℤ) - a - e - d) (by omega)]; ring
    · rw [rfact_neg (z := (a : ℤ) + (0 : ℕ) + d + e - t) (by omega)]; ring
  · intro h; simp at h

/-! ### The rational form -/

/-- The rational part of the 9j symbol. -/
def core9 (a b c d e f g h i : ℕ) : ℚ :=
  ∑ k ∈ Finset.range (min (min (a + i) (b + f)) (d + h) + 1),
    (2 * k + 1) * (delta2 a i k * delta2 b f k * delta2 d h k) * (core6 a b c f i k * core6 d f e b h k * core6 a d g h i k)

theorem sqrt_cast_mul_self (q : ℚ) (h : 0 ≤ q) : Real.sqrt (q : ℝ) * Real.sqrt (q : ℝ) = q :=
  Real.mul_self_sqrt (by exact_mod_cast h)

/-- The 9j symbol is the root of the triangle coefficients of its rows and columns times a rational number. -/
theorem wigner9j_eq (a b c d e f g h i : ℕ) :
    wigner9j a b c d e f g h i = Real.sqrt (delta2 a b c) * Real.sqrt (delta2 d e f) * Real.sqrt (delta2 g h i) *
      (Real.sqrt (delta2 a d g) * Real.sqrt (delta2 b e h) * Real.sqrt (delta2 c f i)) * (core9 a b c d e f g h i : ℚ) := by
  unfold wigner9j core9
  push_cast
  rw [Finset.mul_sum]
  apply Finset.sum_congr rfl
  intro k _
  have n : ∀ x y z : ℕ, (0 : ℝ) ≤ (delta2 x y z : ℝ) := fun x y z => by exact_mod_cast delta2_nonneg x y z
  unfold wigner6j
  have sq : ∀ w x y z : ℝ, 0 ≤ w → 0 ≤ x → 0 ≤ y → Real.sqrt (w * x * y * z) = Real.sqrt w * Real.sqrt x * Real.sqrt y * Real.sqrt z := by
    intro w x y z hw hx hy
    rw [Real.sqrt_mul (mul_nonneg (mul_nonneg hw hx) hy), Real.sqrt_mul (mul_nonneg hw hx), Real.sqrt_mul hw]
  rw [sq _ _ _ _ (n _ _ _) (n _ _ _) (n _ _ _), sq _ _ _ _ (n _ _ _) (n _ _ _) (n _ _ _), sq _ _ _ _ (n _ _ _) (n _ _ _) (n _ _ _)]
  rw [delta2_comm12 f b k, delta2_comm12 h d k, delta2_comm23 d f e, 
    show delta2 f i c = delta2 c f i by rw [delta2_comm23, delta2_comm12],
    show delta2 b h e = delta2 b e h by rw [delta2_comm23],
    show delta2 h i g = delta2 g h i by rw [delta2_comm23, delta2_comm12]]
  have e1 := sqrt_cast_mul_self _ (delta2_nonneg a i k)
  have e2 := sqrt_cast_mul_self _ (delta2_nonneg b f k)
  have e3 := sqrt_cast_mul_self _ (delta2_nonneg d h k)
  generalize Real.sqrt (delta2 a i k : ℝ) = s1 at e1 ⊢
  generalize Real.sqrt (delta2 b f k : ℝ) = s2 at e2 ⊢
  generalize Real.sqrt (delta2 d h k : ℝ) = s3 at e3 ⊢
  rw [← e1, ← e2, ← e3]
  ring

theorem hFactor_zero_iff (a b c : ℕ) : hFactor a b c = 0 ↔ ¬ Tri a b c ∨ core3 a b c = 0 := by
  unfold hFactor
  rw [mul_eq_zero]
  constructor
  · rintro (h | h)
    · left; intro ht
      have := Real.sqrt_pos.mpr (show (0 : ℝ) < (delta2 a b c : ℝ) by exact_mod_cast delta2_pos ht)
      linarith
    · right; exact_mod_cast h
  · rintro (h | h)
    · left; rw [delta2_zero h]; simp
    · right; rw [h]; simp

/-- The coefficient as a rational number. -/
def coeffQ (l z q : ℕ × ℕ × ℕ) : ℚ :=
  nPrefactor l.1 l.2.1 l.2.2 * core9 q.1 q.2.1 q.2.2 z.1 z.2.1 z.2.2 l.1 l.2.1 l.2.2 *
    (core3 l.1 l.2.1 l.2.2 / core3 z.1 z.2.1 z.2.2 / core3 q.1 q.2.1 q.2.2 * core3 l.1 z.1 q.1 * core3 l.2.1 z.2.1 q.2.1 * core3 l.2.2 z.2.2 q.2.2) *
    (delta2 l.1 l.2.1 l.2.2 * delta2 l.1 z.1 q.1 * delta2 l.2.1 z.2.1 q.2.1 * delta2 l.2.2 z.2.2 q.2.2)

/-- The degrees give a 3j symbol which is not zero. -/
def Val (l : ℕ × ℕ × ℕ) : Prop := Tri l.1 l.2.1 l.2.2 ∧ core3 l.1 l.2.1 l.2.2 ≠ 0

instance (l : ℕ × ℕ × ℕ) : Decidable (Val l) := inferInstanceAs (Decidable (_ ∧ _))

theorem Val.hFactor {l : ℕ × ℕ × ℕ} (h : Val l) : hFactor l.1 l.2.1 l.2.2 ≠ 0 := by
  intro h0
  rcases (hFactor_zero_iff _ _ _).mp h0 with h1 | h1
  · exact h1 h.1
  · exact h.2 h1

theorem not_val {l : ℕ × ℕ × ℕ} (h : ¬ Val l) : Wc.hFactor l.1 l.2.1 l.2.2 = 0 := by
  rw [hFactor_zero_iff]
  by_contra h1
  push Not at h1
  exact h ⟨h1.1, h1.2⟩

theorem coeff_algebra (N n9 hm hz hq c1 c2 c3 sz sq s1 s2 s3 s4 : ℝ) (pz : sz ≠ 0) (pq : sq ≠ 0) (nz : hz ≠ 0) (nq : hq ≠ 0) :
    N * (sq * sz * s1 * (s2 * s3 * s4) * n9) * (s1 * hm / (sz * hz) / (sq * hq) * (s2 * c1) * (s3 * c2) * (s4 * c3)) =
      N * n9 * (hm / hz / hq * c1 * c2 * c3) * (s1 * s1 * (s2 * s2) * (s3 * s3) * (s4 * s4)) := by
  field_simp

theorem calcCoeff_rat {m q z : Multipole} {l lz lq : ℕ × ℕ × ℕ} (hm : degrees3 m = some l) (hz : degrees3 z = some lz)
    (hq : degrees3 q = some lq) (vz : Val lz) (vq : Val lq) :
    calcCoeff m q (some z) = .ok (some ((coeffQ l lz lq : ℚ) : ℝ)) := by
  obtain ⟨l1, l2, L⟩ := l
  obtain ⟨z1, z2, zL⟩ := lz
  obtain ⟨q1, q2, qL⟩ := lq
  have hz0 := vz.hFactor
  have hq0 := vq.hFactor
  simp only at hz0 hq0
  simp only [calcCoeff, hm, hz, hq]
  rw [if_neg (by rintro (h | h); exacts [hz0 h, hq0 h])]
  congr 2
  have pz : Real.sqrt (delta2 z1 z2 zL) ≠ 0 := fun h => hz0 (by rw [hFactor, h, zero_mul])
  have pq : Real.sqrt (delta2 q1 q2 qL) ≠ 0 := fun h => hq0 (by rw [hFactor, h, zero_mul])
  have cz : ((core3 z1 z2 zL : ℚ) : ℝ) ≠ 0 := by exact_mod_cast vz.2
  have cq : ((core3 q1 q2 qL : ℚ) : ℝ) ≠ 0 := by exact_mod_cast vq.2
  rw [wigner9j_eq]
  unfold hFactor coeffQ
  rw [show delta2 q1 z1 l1 = delta2 l1 z1 q1 by rw [delta2_comm12, delta2_comm23, delta2_comm12],
    show delta2 q2 z2 l2 = delta2 l2 z2 q2 by rw [delta2_comm12, delta2_comm23, delta2_comm12],
    show delta2 qL zL L = delta2 L zL qL by rw [delta2_comm12, delta2_comm23, delta2_comm12]]
  push_cast
  have e1 := sqrt_cast_mul_self _ (delta2_nonneg l1 l2 L)
  have e2 := sqrt_cast_mul_self _ (delta2_nonneg l1 z1 q1)
  have e3 := sqrt_cast_mul_self _ (delta2_nonneg l2 z2 q2)
  have e4 := sqrt_cast_mul_self _ (delta2_nonneg L zL qL)
  have key := coeff_algebra (nPrefactor l1 l2 L) (core9 q1 q2 qL z1 z2 zL l1 l2 L : ℚ) (core3 l1 l2 L : ℚ) (core3 z1 z2 zL : ℚ)
    (core3 q1 q2 qL : ℚ) (core3 l1 z1 q1 : ℚ) (core3 l2 z2 q2 : ℚ) (core3 L zL qL : ℚ) (Real.sqrt (delta2 z1 z2 zL))
    (Real.sqrt (delta2 q1 q2 qL)) (Real.sqrt (delta2 l1 l2 L)) (Real.sqrt (delta2 l1 z1 q1)) (Real.sqrt (delta2 l2 z2 q2))
    (Real.sqrt (delta2 L zL qL)) pz pq cz cq
  rw [e1, e2, e3, e4] at key
  exact key

end Trv.Wc

import Verif.Model.BesselInterp
import Mathlib.Analysis.Convex.Deriv
import Mathlib.Analysis.Calculus.Deriv.MeanValue
import Mathlib.Analysis.Calculus.Deriv.Pow
import Mathlib.Analysis.Calculus.Deriv.Shift
import Mathlib.Tactic.Linarith
import Mathlib.Tactic.LinearCombination
import Mathlib.Tactic.FieldSimp
import Mathlib.Tactic.Ring
/-
Lemmas on natural cubic splines and their error.
-/
namespace Trv.Sbc

/-! ### The system of equations -/

section
variable {x y : ℕ → ℝ}

theorem piv_gt (hx : ∀ i, 0 < gap x i) : ∀ i, off x i < piv x i
  | 0 => by
    have h0 := hx 0
    have h1 := hx 1
    unfold piv off diag
    linarith
  | i + 1 => by
    have ih := piv_gt hx i
    have h1 := hx (i + 1)
    have h2 := hx (i + 2)
    have hp : 0 < piv x i := lt_trans h1 ih
    have : off x i * (off x i / piv x i) ≤ off x i := by
      have : off x i / piv x i ≤ 1 := (div_le_one hp).2 ih.le
      have ho : 0 < off x i := h1
      nlinarith
    rw [piv]
    have e1 : off x (i + 1) = gap x (i + 2) := rfl
    have e2 : off x i = gap x (i + 1) := rfl
    have e3 : diag x (i + 1) = 2 * (gap x (i + 1) + gap x (i + 2)) := rfl
    rw [e1, e3]
    rw [e2] at this ⊢
    linarith

theorem piv_pos (hx : ∀ i, 0 < gap x i) (i : ℕ) : 0 < piv x i := lt_trans (hx (i + 1)) (piv_gt hx i)

theorem coef_ends (n : ℕ) : coef n x y 0 = 0 ∧ coef n x y (n - 1) = 0 := by
  unfold coef
  exact ⟨if_pos (Or.inl rfl), if_pos (Or.inr le_rfl)⟩

theorem coef_back (hx : ∀ i, 0 < gap x i) {n k : ℕ} (hk : k + 2 < n) :
    piv x k * coef n x y (k + 1) + off x k * coef n x y (k + 2) = fwd x y k := by
  have hp := (piv_pos hx k).ne'
  have h1 : coef n x y (k + 1) = back x y (n - 2) (n - 2 - (k + 1)) := by
    unfold coef
    rw [if_neg (by omega)]
  rw [h1]
  rcases Nat.lt_or_ge (k + 3) n with h | h
  · have h2 : coef n x y (k + 2) = back x y (n - 2) (n - 2 - (k + 2)) := by
      unfold coef
      rw [if_neg (by omega)]
    rw [h2]
    obtain ⟨m, rfl⟩ : ∃ m, n = k + 4 + m := ⟨n - (k + 4), by omega⟩
    have e1 : k + 4 + m - 2 - (k + 1) = m + 1 := by omega
    have e2 : k + 4 + m - 2 - (k + 2) = m := by omega
    rw [e1, e2, back]
    have e3 : k + 4 + m - 2 - 2 - m = k := by omega
    rw [e3]
    field_simp
    ring
  · obtain rfl : n = k + 3 := by omega
    have h2 : coef (k + 3) x y (k + 2) = 0 := by
      unfold coef
      rw [if_pos (by omega)]
    have e1 : k + 3 - 2 - (k + 1) = 0 := by omega
    have e2 : k + 3 - 2 - 1 = k := by omega
    rw [h2, e1, back, e2]
    field_simp
    ring

/-- The coefficients satisfy the equations of a spline with continuous first derivative. -/
theorem coef_eq (hx : ∀ i, 0 < gap x i) {n k : ℕ} (hk : k + 2 < n) :
    gap x k * coef n x y k + diag x k * coef n x y (k + 1) + off x k * coef n x y (k + 2) = rhs x y k := by
  have h1 := coef_back (y := y) hx hk
  cases k with
  | zero =>
    rw [(coef_ends n).1, mul_zero, zero_add]
    exact h1
  | succ k =>
    have h0 := coef_back (y := y) hx (n := n) (k := k) (by omega)
    have hp := (piv_pos hx k).ne'
    rw [piv, fwd] at h1
    have e : off x k = gap x (k + 1) := rfl
    rw [e] at h0 h1
    have h0' : gap x (k + 1) / piv x k * fwd x y k = gap x (k + 1) * coef n x y (k + 1) +
        gap x (k + 1) * (gap x (k + 1) / piv x k) * coef n x y (k + 2) := by
      rw [← h0]
      field_simp
    linear_combination h1 - h0'
end

/-! ### Bounds -/

/-- A discrete maximum principle. -/
theorem max_principle (N : ℕ) (e w : ℕ → ℝ) (h0 : |e 0| ≤ w 0) (hN : |e N| ≤ w N)
    (h : ∀ k, k + 1 < N → |e k + 4 * e (k + 1) + e (k + 2)| ≤ 4 * w (k + 1) - w k - w (k + 2)) :
    ∀ k ≤ N, |e k| ≤ w k := by
  obtain ⟨m, hm, hmax⟩ := Finset.exists_max_image (Finset.range (N + 1)) (fun k => |e k| - w k) ⟨0, by simp⟩
  have hmle : m ≤ N := by
    rw [Finset.mem_range] at hm
    omega
  have key : |e m| - w m ≤ 0 := by
    rcases Nat.eq_zero_or_pos m with rfl | hp
    · linarith
    rcases Nat.eq_or_lt_of_le hmle with rfl | hlt
    · linarith
    obtain ⟨k, rfl⟩ : ∃ k, m = k + 1 := ⟨m - 1, by omega⟩
    have h1 := hmax k (by rw [Finset.mem_range]; omega)
    have h2 := hmax (k + 2) (by rw [Finset.mem_range]; omega)
    have h3 := h k hlt
    have h4 : 4 * |e (k + 1)| ≤ |e k + 4 * e (k + 1) + e (k + 2)| + |e k| + |e (k + 2)| := by
      have : (4 : ℝ) * e (k + 1) = (e k + 4 * e (k + 1) + e (k + 2)) - e k - e (k + 2) := by ring
      calc 4 * |e (k + 1)| = |4 * e (k + 1)| := by rw [abs_mul, abs_of_pos (by norm_num : (0 : ℝ) < 4)]
        _ = |(e k + 4 * e (k + 1) + e (k + 2)) - e k - e (k + 2)| := congrArg abs this
        _ ≤ |(e k + 4 * e (k + 1) + e (k + 2)) - e k| + |e (k + 2)| := abs_sub _ _
        _ ≤ _ := by linarith [abs_sub (e k + 4 * e (k + 1) + e (k + 2)) (e k)]
    linarith
  intro k hk
  have := hmax k (by rw [Finset.mem_range]; omega)
  linarith

/-- A function with positive second derivative which starts at zero with zero slope. -/
theorem nonneg_of_second {φ φ1 φ2 : ℝ → ℝ} (h1 : ∀ t, HasDerivAt φ (φ1 t) t) (h2 : ∀ t, HasDerivAt φ1 (φ2 t) t)
    (h : ∀ t, 0 ≤ t → 0 ≤ φ2 t) (a : φ 0 = 0) (b : φ1 0 = 0) {t : ℝ} (ht : 0 ≤ t) : 0 ≤ φ t := by
  have mono : ∀ {u u1 : ℝ → ℝ}, (∀ t, HasDerivAt u (u1 t) t) → (∀ t, 0 ≤ t → 0 ≤ u1 t) → u 0 = 0 → ∀ t, 0 ≤ t → 0 ≤ u t := by
    intro u u1 hd hp h0 t ht
    have hm : MonotoneOn u (Set.Ici 0) := by
      apply monotoneOn_of_deriv_nonneg (convex_Ici 0)
      · exact fun t _ => (hd t).continuousAt.continuousWithinAt
      · exact fun t _ => (hd t).differentiableAt.differentiableWithinAt
      · intro t ht
        rw [interior_Ici] at ht
        rw [(hd t).deriv]
        exact hp t (le_of_lt ht)
    have := hm (Set.mem_Ici.2 le_rfl) (Set.mem_Ici.2 ht) ht
    rwa [h0] at this
  exact mono h1 (mono h2 h b) a t ht

/-- A convex function which vanishes at both ends. -/
theorem nonpos_of_convex {φ φ1 φ2 : ℝ → ℝ} (h1 : ∀ t, HasDerivAt φ (φ1 t) t) (h2 : ∀ t, HasDerivAt φ1 (φ2 t) t)
    {a b : ℝ} (h : ∀ t, a ≤ t → t ≤ b → 0 ≤ φ2 t) (ha : φ a = 0) (hb : φ b = 0) {t : ℝ} (h3 : a ≤ t) (h4 : t ≤ b) :
    φ t ≤ 0 := by
  have hc : ConvexOn ℝ (Set.Icc a b) φ := by
    apply convexOn_of_hasDerivWithinAt2_nonneg (convex_Icc a b) (f' := φ1) (f'' := φ2)
    · exact fun t _ => (h1 t).continuousAt.continuousWithinAt
    · exact fun t _ => (h1 t).hasDerivWithinAt
    · exact fun t _ => (h2 t).hasDerivWithinAt
    · intro t ht
      rw [interior_Icc] at ht
      exact h t ht.1.le ht.2.le
  have hab := h3.trans h4
  have := hc.le_max_of_mem_Icc (Set.left_mem_Icc.2 hab) (Set.right_mem_Icc.2 hab) ⟨h3, h4⟩
  rwa [ha, hb, max_self] at this

/-- A function with its first four derivatives, the fourth bounded. -/
structure Smooth (B : ℝ) (f f1 f2 f3 f4 : ℝ → ℝ) : Prop where
  d1 : ∀ t, HasDerivAt f (f1 t) t
  d2 : ∀ t, HasDerivAt f1 (f2 t) t
  d3 : ∀ t, HasDerivAt f2 (f3 t) t
  d4 : ∀ t, HasDerivAt f3 (f4 t) t
  bound : ∀ t, |f4 t| ≤ B

theorem deriv_plus {u u1 : ℝ → ℝ} (h : ∀ t, HasDerivAt u (u1 t) t) (a t : ℝ) :
    HasDerivAt (fun t => u (a + t)) (u1 (a + t)) t := HasDerivAt.comp_const_add a t (h (a + t))

theorem deriv_minus {u u1 : ℝ → ℝ} (h : ∀ t, HasDerivAt u (u1 t) t) (a t : ℝ) :
    HasDerivAt (fun t => u (a - t)) (-u1 (a - t)) t := HasDerivAt.comp_const_sub a t (h (a - t))

theorem second_difference {B : ℝ} {u u1 u2 : ℝ → ℝ} (h1 : ∀ t, HasDerivAt u (u1 t) t) (h2 : ∀ t, HasDerivAt u1 (u2 t) t)
    (hB : ∀ t, |u2 t| ≤ B) (a : ℝ) {t : ℝ} (ht : 0 ≤ t) : |u (a + t) + u (a - t) - 2 * u a| ≤ B * t ^ 2 := by
  have key : ∀ s : ℝ, |s| = 1 → 0 ≤ B * t ^ 2 - s * (u (a + t) + u (a - t) - 2 * u a) := by
    intro s hs
    apply nonneg_of_second (φ := fun t => B * t ^ 2 - s * (u (a + t) + u (a - t) - 2 * u a))
      (φ1 := fun t => B * (2 * t) - s * (u1 (a + t) + -u1 (a - t)))
      (φ2 := fun t => B * 2 - s * (u2 (a + t) + u2 (a - t))) _ _ _ _ _ ht
    · intro t
      have p : HasDerivAt (fun t : ℝ => B * t ^ 2) (B * (2 * t)) t := by
        simpa using (hasDerivAt_pow 2 t).const_mul B
      exact p.sub ((((deriv_plus h1 a t).add (deriv_minus h1 a t)).sub_const _).const_mul s)
    · intro t
      have p : HasDerivAt (fun t : ℝ => B * (2 * t)) (B * 2) t := by
        simpa using ((hasDerivAt_id t).const_mul 2).const_mul B
      have q := (((deriv_plus h2 a t).add (deriv_minus h2 a t).neg)).const_mul s
      refine (p.sub q).congr_deriv ?_
      ring
    · intro t _
      have b1 := hB (a + t)
      have b2 := hB (a - t)
      have : |s * (u2 (a + t) + u2 (a - t))| ≤ B + B := by
        rw [abs_mul, hs, one_mul]
        exact (abs_add_le _ _).trans (add_le_add b1 b2)
      have := (abs_le.1 this).2
      linarith
    · simp only [add_zero, sub_zero]
      ring
    · simp only [add_zero, sub_zero]
      ring
  rw [abs_le]
  constructor
  · linarith [key (-1) (by norm_num)]
  · linarith [key 1 (by norm_num)]

theorem fourth_difference {B : ℝ} {f f1 f2 f3 f4 : ℝ → ℝ} (h : Smooth B f f1 f2 f3 f4) (a : ℝ) {t : ℝ} (ht : 0 ≤ t) :
    |f (a + t) + f (a - t) - 2 * f a - t ^ 2 * f2 a| ≤ B * t ^ 4 / 12 := by
  have key : ∀ s : ℝ, |s| = 1 → 0 ≤ B * t ^ 4 / 12 - s * (f (a + t) + f (a - t) - 2 * f a - t ^ 2 * f2 a) := by
    intro s hs
    apply nonneg_of_second (φ := fun t => B * t ^ 4 / 12 - s * (f (a + t) + f (a - t) - 2 * f a - t ^ 2 * f2 a))
      (φ1 := fun t => B * (4 * t ^ 3) / 12 - s * (f1 (a + t) + -f1 (a - t) - 2 * t * f2 a))
      (φ2 := fun t => B * t ^ 2 - s * (f2 (a + t) + f2 (a - t) - 2 * f2 a)) _ _ _ _ _ ht
    · intro t
      have p : HasDerivAt (fun t : ℝ => B * t ^ 4 / 12) (B * (4 * t ^ 3) / 12) t := by
        simpa using ((hasDerivAt_pow 4 t).const_mul B).div_const 12
      have q : HasDerivAt (fun t : ℝ => t ^ 2 * f2 a) (2 * t * f2 a) t := by
        simpa using (hasDerivAt_pow 2 t).mul_const (f2 a)
      exact p.sub (((((deriv_plus h.d1 a t).add (deriv_minus h.d1 a t)).sub_const _).sub q).const_mul s)
    · intro t
      have p : HasDerivAt (fun t : ℝ => B * (4 * t ^ 3) / 12) (B * (4 * (3 * t ^ 2)) / 12) t := by
        simpa using (((hasDerivAt_pow 3 t).const_mul 4).const_mul B).div_const 12
      have q : HasDerivAt (fun t : ℝ => 2 * t * f2 a) (2 * f2 a) t := by
        simpa using ((hasDerivAt_id t).const_mul 2).mul_const (f2 a)
      have r := ((((deriv_plus h.d2 a t).add (deriv_minus h.d2 a t).neg)).sub q).const_mul s
      refine (p.sub r).congr_deriv ?_
      ring
    · intro t ht
      have b1 := second_difference h.d3 h.d4 h.bound a ht
      have : |s * (f2 (a + t) + f2 (a - t) - 2 * f2 a)| ≤ B * t ^ 2 := by
        rw [abs_mul, hs, one_mul]
        exact b1
      have := (abs_le.1 this).2
      linarith
    · simp only [add_zero, sub_zero]
      ring
    · simp only [add_zero, sub_zero]
      ring
  rw [abs_le]
  constructor
  · linarith [key (-1) (by norm_num)]
  · linarith [key 1 (by norm_num)]

theorem line_deriv (p q a t : ℝ) : HasDerivAt (fun t => p + q * (t - a)) q t := by
  simpa using (((hasDerivAt_id t).sub_const a).const_mul q).const_add p

/-- A function with bounded second derivative between its chord and parabolas. -/
theorem chord {K : ℝ} {g g1 g2 : ℝ → ℝ} (h1 : ∀ t, HasDerivAt g (g1 t) t) (h2 : ∀ t, HasDerivAt g1 (g2 t) t)
    {a b : ℝ} (hK : ∀ t, a ≤ t → t ≤ b → |g2 t| ≤ K) (ha : g a = 0) (hb : g b = 0) {t : ℝ} (h3 : a ≤ t) (h4 : t ≤ b) :
    |g t| ≤ K * (b - a) ^ 2 / 8 := by
  have key : ∀ s : ℝ, |s| = 1 → s * g t + K / 2 * ((t - a) * (t - b)) ≤ 0 := by
    intro s hs
    apply nonpos_of_convex (φ := fun t => s * g t + K / 2 * ((t - a) * (t - b)))
      (φ1 := fun t => s * g1 t + K / 2 * (1 * (t - b) + (t - a) * 1)) (φ2 := fun t => s * g2 t + K) (a := a) (b := b) _ _ _ _ _ h3 h4
    · intro t
      exact ((h1 t).const_mul s).add ((((hasDerivAt_id t).sub_const a).mul ((hasDerivAt_id t).sub_const b)).const_mul (K / 2))
    · intro t
      have := ((h2 t).const_mul s).add (((((hasDerivAt_id t).sub_const b).const_mul 1).add (((hasDerivAt_id t).sub_const a).mul_const 1)).const_mul (K / 2))
      refine this.congr_deriv ?_
      ring
    · intro t h5 h6
      have : |s * g2 t| ≤ K := by
        rw [abs_mul, hs, one_mul]
        exact hK t h5 h6
      linarith [(abs_le.1 this).1]
    · simp only [ha]; ring
    · simp only [hb]; ring
  have hK0 : 0 ≤ K := (abs_nonneg _).trans (hK t h3 h4)
  have hq : K / 2 * ((t - a) * (t - b)) ≥ -(K * (b - a) ^ 2 / 8) := by
    nlinarith [mul_nonneg hK0 (sq_nonneg (2 * t - a - b))]
  rw [abs_le]
  constructor
  · linarith [key (-1) (by norm_num)]
  · linarith [key 1 (by norm_num)]

end Trv.Sbc

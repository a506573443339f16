import Verif.Lemmas.Spline
import Verif.Lemmas.SphBessel
/-
Lemmas on interpolated spherical Bessel functions.
-/
namespace Trv.Sbc

section
variable {h : ℝ} {x y : ℕ → ℝ} {B : ℝ} {f f1 f2 f3 f4 : ℝ → ℝ} {n : ℕ}

theorem gap_uniform (hx : ∀ i : ℕ, x i = h * i) (i : ℕ) : gap x i = h := by
  unfold gap
  rw [hx, hx]
  push_cast
  ring

/-- The error of the second derivative at a sample point. -/
noncomputable def err (n : ℕ) (x y : ℕ → ℝ) (f2 : ℝ → ℝ) (k : ℕ) : ℝ := 2 * coef n x y k - f2 (x k)

theorem err_row (hh : 0 < h) (hx : ∀ i : ℕ, x i = h * i) (hy : ∀ i, y i = f (x i)) (hf : Smooth B f f1 f2 f3 f4)
    {k : ℕ} (hk : k + 2 < n) :
    |err n x y f2 k + 4 * err n x y f2 (k + 1) + err n x y f2 (k + 2)| ≤ 3 / 2 * (B * h ^ 2) := by
  have hg := gap_uniform hx
  have hc := coef_eq (y := y) (fun i => by rw [hg]; exact hh) hk
  unfold diag off rhs at hc
  rw [hg, hg] at hc
  have ep : x (k + 2) = x (k + 1) + h := by rw [hx, hx]; push_cast; ring
  have em : x k = x (k + 1) - h := by rw [hx, hx]; push_cast; ring
  have h4 := fourth_difference hf (x (k + 1)) hh.le
  have h2 := second_difference hf.d3 hf.d4 hf.bound (x (k + 1)) hh.le
  rw [← ep, ← em] at h4 h2
  rw [hy, hy, hy] at hc
  unfold err
  set a := x (k + 1)
  have key : 2 * coef n x y k - f2 (x k) + 4 * (2 * coef n x y (k + 1) - f2 a) + (2 * coef n x y (k + 2) - f2 (x (k + 2))) =
      6 / h ^ 2 * (f (x (k + 2)) + f (x k) - 2 * f a - h ^ 2 * f2 a) - (f2 (x (k + 2)) + f2 (x k) - 2 * f2 a) := by
    have hc' : coef n x y k + 4 * coef n x y (k + 1) + coef n x y (k + 2) =
        3 / h ^ 2 * (f (x (k + 2)) + f (x k) - 2 * f a) := by
      have hne := hh.ne'
      field_simp
      field_simp at hc
      linear_combination hc
    have hne : h ^ 2 ≠ 0 := by positivity
    have e2 : 6 / h ^ 2 * (h ^ 2 * f2 a) = 6 * f2 a := by field_simp
    linear_combination 2 * hc' + e2
  rw [key]
  have hp : 0 < 6 / h ^ 2 := by positivity
  refine (abs_sub _ _).trans ?_
  rw [abs_mul, abs_of_pos hp]
  have : 6 / h ^ 2 * |f (x (k + 2)) + f (x k) - 2 * f a - h ^ 2 * f2 a| ≤ 6 / h ^ 2 * (B * h ^ 4 / 12) :=
    mul_le_mul_of_nonneg_left h4 hp.le
  have e3 : 6 / h ^ 2 * (B * h ^ 4 / 12) = B * h ^ 2 / 2 := by
    have hne := hh.ne'
    field_simp
    ring
  linarith

theorem err_bound (hh : 0 < h) (hx : ∀ i : ℕ, x i = h * i) (hy : ∀ i, y i = f (x i)) (hf : Smooth B f f1 f2 f3 f4)
    {N : ℕ} {E0 E1 : ℝ} (h0 : |f2 (x 0)| ≤ E0) (h1 : |f2 (x N)| ≤ E1) :
    ∀ k ≤ N, |err (N + 1) x y f2 k| ≤ 3 / 4 * (B * h ^ 2) + E0 * (1 / 2) ^ k + E1 * (1 / 2) ^ (N - k) := by
  have hB : 0 ≤ B := (abs_nonneg _).trans (hf.bound 0)
  have p0 : 0 ≤ E0 := (abs_nonneg _).trans h0
  have p1 : 0 ≤ E1 := (abs_nonneg _).trans h1
  have hBh : 0 ≤ B * h ^ 2 := by positivity
  apply max_principle
  · unfold err
    rw [(coef_ends _).1]
    have : 0 ≤ E1 * (1 / 2) ^ (N - 0) := by positivity
    rw [mul_zero, zero_sub, abs_neg, pow_zero, mul_one]
    linarith
  · unfold err
    have := (coef_ends (x := x) (y := y) (N + 1)).2
    rw [Nat.add_sub_cancel] at this
    rw [this, mul_zero, zero_sub, abs_neg, Nat.sub_self, pow_zero, mul_one]
    have : 0 ≤ E0 * (1 / 2) ^ N := by positivity
    linarith
  · intro k hk
    refine (err_row hh hx hy hf (by omega)).trans ?_
    have q0 : 0 ≤ E0 * (1 / 2) ^ (k + 1) := by positivity
    have q1 : 0 ≤ E1 * (1 / 2) ^ (N - (k + 1)) := by positivity
    have r0 : E0 * (1 / 2 : ℝ) ^ k = 2 * (E0 * (1 / 2) ^ (k + 1)) := by rw [pow_succ]; ring
    have r1 : E0 * (1 / 2 : ℝ) ^ (k + 2) = 1 / 2 * (E0 * (1 / 2) ^ (k + 1)) := by rw [pow_succ]; ring
    have s0 : E1 * (1 / 2 : ℝ) ^ (N - k) = 1 / 2 * (E1 * (1 / 2) ^ (N - (k + 1))) := by
      rw [show N - k = N - (k + 1) + 1 by omega, pow_succ]; ring
    have s1 : E1 * (1 / 2 : ℝ) ^ (N - (k + 2)) = 2 * (E1 * (1 / 2) ^ (N - (k + 1))) := by
      rw [show N - (k + 1) = N - (k + 2) + 1 by omega, pow_succ]; ring
    rw [r0, r1, s0, s1]
    linarith

theorem cubic_ends (hg : gap x i ≠ 0) (c : ℕ → ℝ) : cubic x y c i (x i) = y i ∧ cubic x y c i (x (i + 1)) = y (i + 1) := by
  unfold cubic
  have e : x (i + 1) - x i = gap x i := rfl
  constructor
  · simp
  · simp only [e]
    field_simp
    ring

/-- The first derivative of a piece. -/
noncomputable def cubic1 (x y c : ℕ → ℝ) (i : ℕ) (t : ℝ) : ℝ :=
  ((y (i + 1) - y i) / gap x i - gap x i * (c (i + 1) + 2 * c i) / 3) + 2 * c i * (t - x i) +
    (c (i + 1) - c i) / gap x i * (t - x i) ^ 2

/-- The second derivative of a piece. -/
noncomputable def cubic2 (x c : ℕ → ℝ) (i : ℕ) (t : ℝ) : ℝ := 2 * c i + 2 * (c (i + 1) - c i) / gap x i * (t - x i)

theorem cubic_deriv (hg : gap x i ≠ 0) (c : ℕ → ℝ) (t : ℝ) : HasDerivAt (cubic x y c i) (cubic1 x y c i t) t := by
  have hs : HasDerivAt (fun t => t - x i) 1 t := (hasDerivAt_id t).sub_const (x i)
  have h3 := ((hs.mul ((hs.mul ((hs.mul_const ((c (i + 1) - c i) / (3 * gap x i))).const_add (c i))).const_add
    ((y (i + 1) - y i) / gap x i - gap x i * (c (i + 1) + 2 * c i) / 3))).const_add (y i))
  refine h3.congr_deriv ?_
  unfold cubic1
  simp only [Pi.mul_apply]
  field_simp
  ring

theorem cubic_deriv2 (c : ℕ → ℝ) (t : ℝ) : HasDerivAt (cubic1 x y c i) (cubic2 x c i t) t := by
  have hs : HasDerivAt (fun t => t - x i) 1 t := (hasDerivAt_id t).sub_const (x i)
  have h2 := ((hs.const_mul (2 * c i)).const_add ((y (i + 1) - y i) / gap x i - gap x i * (c (i + 1) + 2 * c i) / 3)).add
    ((hs.pow 2).const_mul ((c (i + 1) - c i) / gap x i))
  refine h2.congr_deriv ?_
  unfold cubic2
  simp only [Nat.cast_ofNat]
  ring

/-- The error of the second derivative between sample points. -/
theorem second_err (hh : 0 < h) (hx : ∀ i : ℕ, x i = h * i) (hf : Smooth B f f1 f2 f3 f4) (k : ℕ) {t : ℝ}
    (h1 : x k ≤ t) (h2 : t ≤ x (k + 1)) :
    |cubic2 x (coef n x y) k t - f2 t -
      (err n x y f2 k * (x (k + 1) - t) + err n x y f2 (k + 1) * (t - x k)) / h| ≤ B * h ^ 2 / 8 := by
  have hg := gap_uniform hx k
  have hg' : x (k + 1) - x k = h := hg
  have hc := chord (K := B) (g := fun t => f2 t - (f2 (x k) + (f2 (x (k + 1)) - f2 (x k)) / h * (t - x k)))
    (g1 := fun t => f3 t - (f2 (x (k + 1)) - f2 (x k)) / h) (g2 := f4)
    (fun t => (hf.d3 t).sub (line_deriv _ _ _ t)) (fun t => (hf.d4 t).sub_const _)
    (a := x k) (b := x (k + 1)) (fun t _ _ => hf.bound t) (by ring) (by rw [hg']; field_simp; ring) h1 h2
  rw [hg'] at hc
  have e : cubic2 x (coef n x y) k t - f2 t -
      (err n x y f2 k * (x (k + 1) - t) + err n x y f2 (k + 1) * (t - x k)) / h =
      -(f2 t - (f2 (x k) + (f2 (x (k + 1)) - f2 (x k)) / h * (t - x k))) := by
    unfold cubic2 err
    rw [hg, show x (k + 1) = x k + h by linarith]
    field_simp
    ring
  rw [e, abs_neg]
  exact hc

theorem spline_err (hh : 0 < h) (hx : ∀ i : ℕ, x i = h * i) (hy : ∀ i, y i = f (x i)) (hf : Smooth B f f1 f2 f3 f4)
    {k : ℕ} {E : ℝ} (hE : |err n x y f2 k| ≤ E) (hE' : |err n x y f2 (k + 1)| ≤ E) {t : ℝ}
    (h1 : x k ≤ t) (h2 : t ≤ x (k + 1)) :
    |cubic x y (coef n x y) k t - f t| ≤ (E + B * h ^ 2 / 8) * h ^ 2 / 8 := by
  have hg := gap_uniform hx k
  have hg' : x (k + 1) - x k = h := hg
  have hne : gap x k ≠ 0 := by rw [hg]; exact hh.ne'
  have he := cubic_ends (y := y) hne (coef n x y)
  have := chord (K := E + B * h ^ 2 / 8) (g := fun t => cubic x y (coef n x y) k t - f t)
    (g1 := fun t => cubic1 x y (coef n x y) k t - f1 t) (g2 := fun t => cubic2 x (coef n x y) k t - f2 t)
    (fun t => (cubic_deriv hne _ t).sub (hf.d1 t)) (fun t => (cubic_deriv2 _ t).sub (hf.d2 t))
    (a := x k) (b := x (k + 1)) ?_ (by simp only [he.1, hy, sub_self]) (by simp only [he.2, hy, sub_self]) h1 h2
  · rw [hg'] at this
    exact this
  · intro t h1 h2
    have hs := second_err (n := n) (y := y) hh hx hf k h1 h2
    have hl : |(err n x y f2 k * (x (k + 1) - t) + err n x y f2 (k + 1) * (t - x k)) / h| ≤ E := by
      rw [abs_div, abs_of_pos hh, div_le_iff₀ hh]
      refine (abs_add_le _ _).trans ?_
      rw [abs_mul, abs_mul, abs_of_nonneg (by linarith : 0 ≤ x (k + 1) - t), abs_of_nonneg (by linarith : 0 ≤ t - x k)]
      have p1 := mul_le_mul_of_nonneg_right hE (by linarith : 0 ≤ x (k + 1) - t)
      have p2 := mul_le_mul_of_nonneg_right hE' (by linarith : 0 ≤ t - x k)
      have p3 : E * (x (k + 1) - t) + E * (t - x k) = E * h := by rw [← hg']; ring
      linarith
    have := abs_add_le (cubic2 x (coef n x y) k t - f2 t -
      (err n x y f2 k * (x (k + 1) - t) + err n x y f2 (k + 1) * (t - x k)) / h)
      ((err n x y f2 k * (x (k + 1) - t) + err n x y f2 (k + 1) * (t - x k)) / h)
    rw [sub_add_cancel] at this
    linarith

/-- A bound from above in the middle of an interval. -/
theorem spline_mid (hh : 0 < h) (hx : ∀ i : ℕ, x i = h * i) (hy : ∀ i, y i = f (x i)) (hf : Smooth B f f1 f2 f3 f4) (k : ℕ) :
    cubic x y (coef n x y) k (x k + h / 2) - f (x k + h / 2) ≤
      -(h ^ 2 / 16 * (err n x y f2 k + err n x y f2 (k + 1) - B * h ^ 2 / 4)) := by
  have hg := gap_uniform hx k
  have hg' : x (k + 1) - x k = h := hg
  have hne : gap x k ≠ 0 := by rw [hg]; exact hh.ne'
  have he := cubic_ends (y := y) hne (coef n x y)
  let c : ℕ → ℝ := fun j => (err n x y f2 j - B * h ^ 2 / 8) / 2
  have he' := cubic_ends (y := fun _ => 0) hne c
  have := nonpos_of_convex (φ := fun t => (cubic x y (coef n x y) k t - f t) - cubic x (fun _ => 0) c k t)
    (φ1 := fun t => (cubic1 x y (coef n x y) k t - f1 t) - cubic1 x (fun _ => 0) c k t)
    (φ2 := fun t => (cubic2 x (coef n x y) k t - f2 t) - cubic2 x c k t)
    (fun t => ((cubic_deriv hne _ t).sub (hf.d1 t)).sub (cubic_deriv hne _ t))
    (fun t => ((cubic_deriv2 _ t).sub (hf.d2 t)).sub (cubic_deriv2 _ t))
    (a := x k) (b := x (k + 1)) ?_ (by simp only [he.1, he'.1, hy, sub_self]) (by simp only [he.2, he'.2, hy, sub_self])
    (t := x k + h / 2) (by linarith) (by linarith)
  · have hq : cubic x (fun _ => 0) c k (x k + h / 2) =
        -(h ^ 2 / 16 * (err n x y f2 k + err n x y f2 (k + 1) - B * h ^ 2 / 4)) := by
      unfold cubic c
      simp only [hg', hg]
      have := hh.ne'
      field_simp
      ring
    simp only [hq] at this
    linarith
  · intro t h1 h2
    have hs := (abs_le.1 (second_err (n := n) (y := y) hh hx hf k h1 h2)).1
    have e : cubic2 x c k t = (err n x y f2 k * (x (k + 1) - t) + err n x y f2 (k + 1) * (t - x k)) / h - B * h ^ 2 / 8 := by
      unfold cubic2 c
      rw [hg, show x (k + 1) = x k + h by linarith]
      have := hh.ne'
      field_simp
      ring
    rw [e]
    linarith

end

/-! ### Spherical Bessel functions -/

theorem der_iter (k : ℕ) : (∀ l x, |der^[k] sphBessel l x| ≤ 1) ∧
    ∀ l x, HasDerivAt (der^[k] sphBessel l) (der^[k + 1] sphBessel l x) x := by
  induction k with
  | zero => exact ⟨sphBessel_le, sphBessel_deriv⟩
  | succ k ih =>
    constructor
    · intro l x
      rw [Function.iterate_succ_apply']
      exact der_le ih.1 l x
    · intro l x
      have := der_deriv ih.2 l x
      rw [Function.iterate_succ_apply', Function.iterate_succ_apply' der (k + 1)]
      exact this

theorem sphBessel_smooth (l : ℕ) : Smooth 1 (sphBessel l) (der^[1] sphBessel l) (der^[2] sphBessel l)
    (der^[3] sphBessel l) (der^[4] sphBessel l) :=
  ⟨(der_iter 0).2 l, (der_iter 1).2 l, (der_iter 2).2 l, (der_iter 3).2 l, (der_iter 4).1 l⟩

/-- The value of the split as a natural number. -/
def splitNat (l : ℕ) : ℕ := max 1000 (l * l)

theorem construct_split (jl : ℕ → ℝ → ℝ) (l : ℕ) : (construct jl l).split = (splitNat l : ℝ) := by
  unfold construct splitNat
  simp only
  split
  · rename_i h
    have : l * l ≤ 1000 := by exact_mod_cast h
    rw [max_eq_left this]
    norm_num
  · rename_i h
    have : ¬ l * l ≤ 1000 := fun h' => h (by exact_mod_cast h')
    rw [max_eq_right (by omega)]
    push_cast
    rfl

theorem construct_size (jl : ℕ → ℝ → ℝ) (l : ℕ) : (construct jl l).size = 20 * splitNat l + 1 := by
  have h := construct_split jl l
  have e : (construct jl l).size = ⌊((construct jl l).split - 0) / (1 / 20)⌋₊ + 1 := rfl
  rw [e, h]
  congr 1
  rw [show ((splitNat l : ℝ) - 0) / (1 / 20) = ((20 * splitNat l : ℕ) : ℝ) by push_cast; ring, Nat.floor_natCast]

theorem construct_x (jl : ℕ → ℝ → ℝ) (l i : ℕ) : (construct jl l).x i = 1 / 20 * (i : ℝ) := by
  show (0 : ℝ) + 1 / 20 * i = _
  ring

theorem splitNat_ge (l : ℕ) : 1000 ≤ splitNat l := le_max_left _ _

/-- The interval of a point below the split. -/
theorem interval_spec (jl : ℕ → ℝ → ℝ) (l : ℕ) {t : ℝ} (h0 : 0 ≤ t) (h1 : t < (construct jl l).split) :
    let i := interval (construct jl l).size (construct jl l).x t
    i = ⌊20 * t⌋₊ ∧ i + 1 ≤ 20 * splitNat l ∧ (construct jl l).x i ≤ t ∧ t ≤ (construct jl l).x (i + 1) := by
  classical
  intro i
  have hS := splitNat_ge l
  have hi : i = Nat.findGreatest (fun i => (construct jl l).x i ≤ t) ((construct jl l).size - 2) := by
    unfold i interval
    congr!
  have hle : i ≤ (construct jl l).size - 2 := by rw [hi]; exact Nat.findGreatest_le _
  rw [construct_size] at hle
  have ha : (construct jl l).x i ≤ t := by
    rw [hi]
    exact Nat.findGreatest_spec (P := fun i => (construct jl l).x i ≤ t) (m := 0) (Nat.zero_le _) (by rw [construct_x]; simpa using h0)
  have hb : t < (construct jl l).x (i + 1) := by
    by_cases h : i < (construct jl l).size - 2
    · by_contra hc
      have := Nat.findGreatest_is_greatest (P := fun i => (construct jl l).x i ≤ t) (n := (construct jl l).size - 2) (k := i + 1)
        (by rw [← hi]; omega) (by omega)
      exact this (not_lt.1 hc)
    · rw [construct_size] at h
      have : i + 1 = 20 * splitNat l := by omega
      rw [this, construct_x]
      rw [construct_split] at h1
      push_cast
      linarith
  refine ⟨?_, by omega, ha, hb.le⟩
  symm
  rw [Nat.floor_eq_iff (by linarith)]
  rw [construct_x] at ha hb
  push_cast at hb
  constructor <;> linarith

theorem eval_below (jl : ℕ → ℝ → ℝ) (l : ℕ) {t : ℝ} (h0 : 0 ≤ t) (h1 : t < (construct jl l).split) :
    eval jl (construct jl l) t = some (cubic (construct jl l).x (construct jl l).y (construct jl l).c ⌊20 * t⌋₊ t) := by
  have hi := (interval_spec jl l h0 h1).1
  unfold eval
  rw [if_neg (not_le.2 h1), if_neg, hi]
  rw [not_or, construct_x, construct_x, construct_size]
  rw [construct_split] at h1
  push_cast
  constructor
  · simp
    exact h0
  · rw [not_lt]
    push_cast [Nat.add_sub_cancel]
    linarith

theorem construct_err (l : ℕ) {k : ℕ} (hk : k ≤ 20 * splitNat l) :
    |err (20 * splitNat l + 1) (construct sphBessel l).x (construct sphBessel l).y (der^[2] sphBessel l) k| ≤
      3 / 1600 + |der^[2] sphBessel l 0| * (1 / 2) ^ k + (1 / 2) ^ (20 * splitNat l - k) := by
  have := err_bound (h := 1 / 20) (by norm_num) (construct_x sphBessel l) (fun i => rfl) (sphBessel_smooth l)
    (N := 20 * splitNat l) (E0 := |der^[2] sphBessel l 0|) (E1 := 1)
    (by rw [construct_x]; simp) ((der_iter 2).1 l _) k hk
  refine this.trans (le_of_eq ?_)
  norm_num

/-- The error of the interpolated value. -/
theorem eval_err (l : ℕ) {t : ℝ} (h0 : 0 ≤ t) (h1 : t < (construct sphBessel l).split) :
    |cubic (construct sphBessel l).x (construct sphBessel l).y (construct sphBessel l).c ⌊20 * t⌋₊ t - sphBessel l t| ≤
      7 / 10240000 + ((1 / 2) ^ ⌊20 * t⌋₊ + (1 / 2) ^ (20 * splitNat l - 1 - ⌊20 * t⌋₊)) / 3200 := by
  obtain ⟨hi, hN, ha, hb⟩ := interval_spec sphBessel l h0 h1
  rw [hi] at hN ha hb
  set i := ⌊20 * t⌋₊
  have hc : (construct sphBessel l).c = coef (20 * splitNat l + 1) (construct sphBessel l).x (construct sphBessel l).y := by
    rw [← construct_size sphBessel l]; rfl
  have b0 : |der^[2] sphBessel l 0| ≤ 1 := (der_iter 2).1 l 0
  have e0 := construct_err l (k := i) (by omega)
  have e1 := construct_err l hN
  have p0 : |der^[2] sphBessel l 0| * (1 / 2 : ℝ) ^ i ≤ (1 / 2) ^ i := mul_le_of_le_one_left (by positivity) b0
  have p1 : |der^[2] sphBessel l 0| * (1 / 2 : ℝ) ^ (i + 1) ≤ (1 / 2) ^ i := by
    refine (mul_le_of_le_one_left (by positivity) b0).trans ?_
    rw [pow_succ]
    have : (0 : ℝ) ≤ (1 / 2) ^ i := by positivity
    linarith
  have q1 : (1 / 2 : ℝ) ^ (20 * splitNat l - (i + 1)) = (1 / 2) ^ (20 * splitNat l - 1 - i) := by congr 1; omega
  have q0 : (1 / 2 : ℝ) ^ (20 * splitNat l - i) ≤ (1 / 2) ^ (20 * splitNat l - 1 - i) := by
    rw [show 20 * splitNat l - i = 20 * splitNat l - 1 - i + 1 by omega, pow_succ]
    have : (0 : ℝ) ≤ (1 / 2) ^ (20 * splitNat l - 1 - i) := by positivity
    linarith
  have := spline_err (h := 1 / 20) (by norm_num) (construct_x sphBessel l) (y := (construct sphBessel l).y) (fun i => rfl)
    (sphBessel_smooth l) (n := 20 * splitNat l + 1) (E := 3 / 1600 + (1 / 2) ^ i + (1 / 2) ^ (20 * splitNat l - 1 - i))
    (by linarith) (by linarith) ha hb
  rw [hc]
  refine this.trans (le_of_eq ?_)
  ring

/-! ### At the origin -/

theorem bigJ_zero_zero : sphBessel 0 0 = 1 := by
  unfold sphBessel
  simp [legendre]
  norm_num

theorem sphBessel_two_zero : sphBessel 2 0 = 0 := by
  unfold sphBessel
  have : ∫ mu in (-1 : ℝ)..1, Complex.exp (Complex.I * (0 : ℝ) * mu) * (legendre 2 mu : ℂ) =
      ((∫ mu in (-1 : ℝ)..1, legendre 2 mu : ℝ) : ℂ) := by
    rw [← intervalIntegral.integral_ofReal]
    simp
  rw [this]
  have h2 : ∫ mu in (-1 : ℝ)..1, legendre 2 mu = 0 := by
    have e : ∀ mu : ℝ, legendre 2 mu = 3 / 2 * mu ^ 2 - 1 / 2 := by
      intro mu
      simp only [legendre]
      norm_num
      ring
    simp only [e]
    rw [intervalIntegral.integral_sub ((by fun_prop : Continuous fun mu : ℝ => 3 / 2 * mu ^ 2).intervalIntegrable _ _)
      ((by fun_prop : Continuous fun _ : ℝ => (1 / 2 : ℝ)).intervalIntegrable _ _)]
    · rw [intervalIntegral.integral_const_mul, integral_pow]
      norm_num
  rw [h2]
  simp

theorem der_two_zero : der^[2] sphBessel 0 0 = -(1 / 3) := by
  simp only [Function.iterate_succ, Function.iterate_zero, Function.comp_apply, id]
  unfold der
  simp only [Nat.cast_zero, zero_mul, zero_add, Nat.cast_one, Nat.sub_self, show 1 + 1 = 2 from rfl, bigJ_zero_zero, sphBessel_two_zero]
  norm_num

/-- The value half a step from the origin, for the monopole. -/
theorem origin_err : cubic (construct sphBessel 0).x (construct sphBessel 0).y (construct sphBessel 0).c 0 (1 / 40) ≤
    sphBessel 0 (1 / 40) - 1 / 50000 := by
  have hS : splitNat 0 = 1000 := by decide
  have hc : (construct sphBessel 0).c = coef (20 * splitNat 0 + 1) (construct sphBessel 0).x (construct sphBessel 0).y := by
    rw [← construct_size sphBessel 0]; rfl
  have hm := spline_mid (h := 1 / 20) (by norm_num) (construct_x sphBessel 0) (y := (construct sphBessel 0).y)
    (fun i => rfl) (sphBessel_smooth 0) (n := 20 * splitNat 0 + 1) 0
  rw [construct_x sphBessel 0 0] at hm
  have e1 := (abs_le.1 (construct_err 0 (k := 1) (by rw [hS]; norm_num))).1
  rw [der_two_zero] at e1
  have e0 : err (20 * splitNat 0 + 1) (construct sphBessel 0).x (construct sphBessel 0).y (der^[2] sphBessel 0) 0 = 1 / 3 := by
    unfold err
    rw [(coef_ends _).1, construct_x, Nat.cast_zero, mul_zero, mul_zero, der_two_zero]
    norm_num
  have small : (1 / 2 : ℝ) ^ (20 * splitNat 0 - 1) ≤ (1 / 2) ^ 10 :=
    pow_le_pow_of_le_one (by norm_num) (by norm_num) (by rw [hS]; norm_num)
  rw [e0] at hm
  rw [hc]
  norm_num at hm e1 small ⊢
  have := abs_of_pos (show (0 : ℝ) < 3⁻¹ by norm_num)
  linarith

end Trv.Sbc

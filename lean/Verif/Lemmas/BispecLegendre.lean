import Verif.Spec.BispecLegendre
import Verif.Lemmas.Reality
import Verif.Lemmas.NoiseOrders
import Verif.Lemmas.Legendre
/-
Lemmas on three-point multipoles with a vanishing degree.
-/
namespace Trv.Zeta
open Trv.Mesh Trv.Stats Trv.Win Trv.Two Trv.ThreePt Trv.Bis

theorem legAngle_comm (l : ℕ) (u v : Fin 3 → ℝ) : legAngle l u v = legAngle l v u := by
  unfold legAngle
  have h1 : dot u v = dot v u := by unfold dot; ring
  have h2 : (u = 0 ∨ v = 0) ↔ (v = 0 ∨ u = 0) := or_comm
  rw [h1, mul_comm (mag u)]
  simp only [h2]

theorem special_like {E : Env3} (hE : Special3 E) : LegendreLike E.P := by
  rw [hE.legendre]
  exact sphP_like

theorem special_value {E : Env3} (hE : Special3 E) :
    ∀ (l m : ℕ) (mu : ℝ), m ≤ l → |mu| ≤ 1 → E.P l m mu = sphP l m mu := by
  intro l m mu _ _
  rw [hE.legendre]

/-- Products of two symbols. -/
theorem pow_square (l : ℕ) (m : ℤ) : (2 * (l : ℝ) + 1) * (2 * (l : ℝ) + 1) *
    ((-1) ^ (l + (0 : ℤ).natAbs) / Real.sqrt (2 * l + 1)) * ((-1) ^ (l + m.natAbs) / Real.sqrt (2 * l + 1)) =
    (2 * l + 1) * (-1) ^ m.natAbs := by
  have hp : (0 : ℝ) < 2 * l + 1 := by positivity
  have hs := Real.mul_self_sqrt hp.le
  have hne := (Real.sqrt_pos.2 hp).ne'
  have h1 : ((-1 : ℝ) ^ l) * (-1) ^ l = 1 := by rw [← mul_pow]; norm_num
  rw [Int.natAbs_zero, add_zero, pow_add]
  generalize Real.sqrt (2 * l + 1) = s at *
  have : (2 * (l : ℝ) + 1) * (2 * (l : ℝ) + 1) * ((-1) ^ l / s) * ((-1) ^ l * (-1) ^ m.natAbs / s) =
      (2 * (l : ℝ) + 1) * (2 * (l : ℝ) + 1) * (((-1) ^ l * (-1) ^ l) * (-1) ^ m.natAbs) / (s * s) := by
    field_simp
  rw [this, h1, hs]
  field_simp

theorem coupling_last {E : Env3} (hE : Special3 E) {l : ℕ} (h1 : E.ell1 = l) (h2 : E.ell2 = l) (h3 : E.ELL = 0)
    {m : ℤ} (hm : |m| ≤ l) : coefficient E m (-m) 0 = (2 * l + 1) * (-1) ^ m.natAbs := by
  unfold coefficient
  rw [h1, h2, h3]
  have e0 := hE.last l 0 (by simp)
  rw [neg_zero] at e0
  have e1 := hE.last l m hm
  simp only [Nat.cast_zero]
  rw [e0, e1, ← pow_square]
  ring

theorem coupling_middle {E : Env3} (hE : Special3 E) {l : ℕ} (h1 : E.ell1 = l) (h2 : E.ell2 = 0) (h3 : E.ELL = l)
    {m : ℤ} (hm : |m| ≤ l) : coefficient E m 0 (-m) = (2 * l + 1) * (-1) ^ m.natAbs := by
  unfold coefficient
  rw [h1, h2, h3]
  have e0 := hE.middle l 0 (by simp)
  rw [neg_zero] at e0
  have e1 := hE.middle l m hm
  simp only [Nat.cast_zero]
  rw [e0, e1, ← pow_square]
  ring

theorem coupling_first {E : Env3} (hE : Special3 E) {l : ℕ} (h1 : E.ell1 = 0) (h2 : E.ell2 = l) (h3 : E.ELL = l)
    {m : ℤ} (hm : |m| ≤ l) : coefficient E 0 m (-m) = (2 * l + 1) * (-1) ^ m.natAbs := by
  unfold coefficient
  rw [h1, h2, h3]
  have x0 := hE.symmetric.exchange l 0 l 0 0 0
  have x1 := hE.symmetric.exchange l 0 l m 0 (-m)
  have e0 := hE.middle l 0 (by simp)
  rw [neg_zero] at e0
  have e1 := hE.middle l m hm
  simp only [Nat.cast_zero] at x0 x1 ⊢
  rw [x0, x1, e0, e1, ← pow_square]
  have : ((-1 : ℝ) ^ (l + 0 + l)) * (-1) ^ (l + 0 + l) = 1 := by rw [← mul_pow]; norm_num
  linear_combination ((2 * (l : ℝ) + 1) * (2 * (l : ℝ) + 1) * ((-1) ^ (l + (0 : ℤ).natAbs) / Real.sqrt (2 * l + 1)) *
    ((-1) ^ (l + m.natAbs) / Real.sqrt (2 * l + 1))) * this

theorem coupling_off {E : Env3} (hE : Special3 E) {m1 m2 M : ℤ} (h : m1 + m2 + M ≠ 0) : coefficient E m1 m2 M = 0 := by
  unfold coefficient
  rw [hE.symmetric.select _ _ _ _ _ _ h, mul_zero]

theorem big (l : ℕ) (m : ℤ) : epsCoupling < |(2 * (l : ℝ) + 1) * (-1) ^ m.natAbs| := by
  rw [abs_mul, abs_pow, abs_neg, abs_one, one_pow, mul_one, abs_of_nonneg (by positivity)]
  unfold epsCoupling
  have : (0 : ℝ) ≤ l := Nat.cast_nonneg _
  linarith

theorem mem_orders {l : ℕ} {m : ℤ} : m ∈ Finset.Icc (-(l : ℤ)) l ↔ |m| ≤ l := by
  rw [Finset.mem_Icc, abs_le]

/-- A sum of which one term is left. -/
theorem only_term {S : Finset ℤ} (k : ℤ) (hk : k ∈ S) (f : ℤ → ℂ) (h : ∀ m ∈ S, m ≠ k → f m = 0) :
    ∑ m ∈ S, f m = f k := Finset.sum_eq_single k (fun m hm hne => h m hm hne) (fun h => absurd hk h)

theorem orders_last {E : Env3} (hE : Special3 E) {l : ℕ} (h1 : E.ell1 = l) (h2 : E.ell2 = l) (h3 : E.ELL = 0)
    (f : Triplet → ℂ) : planeOrders E f =
      (2 * l + 1) * ∑ m ∈ Finset.Icc (-(l : ℤ)) l, (-1) ^ m.natAbs * f ⟨m, -m, 0⟩ := by
  unfold planeOrders
  rw [h1, h2, Finset.mul_sum]
  apply Finset.sum_congr rfl
  intro m hm
  rw [mem_orders] at hm
  rw [only_term (-m) (by rw [mem_orders, abs_neg]; exact hm)]
  · rw [coupling_last hE h1 h2 h3 hm, if_pos (big l m)]
    push_cast
    ring
  · intro m2 _ hne
    rw [coupling_off hE (by omega), if_neg]
    rw [abs_zero, not_lt]
    unfold epsCoupling
    norm_num

theorem all_plane {E : Env3} (h3 : E.ELL = 0) (f : Triplet → ℂ) : allOrders E f = planeOrders E f := by
  unfold allOrders planeOrders
  rw [h3]
  apply Finset.sum_congr rfl
  intro m1 _
  apply Finset.sum_congr rfl
  intro m2 _
  simp

theorem off_zero {E : Env3} (hE : Special3 E) (f : Triplet → ℂ) {m1 m2 M : ℤ} (h : m1 + m2 + M ≠ 0) :
    (if epsCoupling < |coefficient E m1 m2 M| then (coefficient E m1 m2 M : ℂ) * f ⟨m1, m2, M⟩ else 0) = 0 := by
  rw [coupling_off hE h, Complex.ofReal_zero, zero_mul, ite_self]

theorem orders_middle {E : Env3} (hE : Special3 E) {l : ℕ} (h1 : E.ell1 = l) (h2 : E.ell2 = 0) (h3 : E.ELL = l)
    (f : Triplet → ℂ) : allOrders E f =
      (2 * l + 1) * ∑ m ∈ Finset.Icc (-(l : ℤ)) l, (-1) ^ m.natAbs * f ⟨m, 0, -m⟩ := by
  unfold allOrders
  rw [h1, h2, h3, Finset.mul_sum]
  apply Finset.sum_congr rfl
  intro m hm
  rw [mem_orders] at hm
  rw [only_term 0 (by simp), only_term (-m) (by rw [mem_orders, abs_neg]; exact hm)]
  · rw [coupling_middle hE h1 h2 h3 hm, if_pos (big l m)]
    push_cast
    ring
  · intro M _ hne
    exact off_zero hE f (by omega)
  · intro m2 hm2 hne
    simp at hm2
    exact absurd hm2 hne

theorem orders_first {E : Env3} (hE : Special3 E) {l : ℕ} (h1 : E.ell1 = 0) (h2 : E.ell2 = l) (h3 : E.ELL = l)
    (f : Triplet → ℂ) : allOrders E f =
      (2 * l + 1) * ∑ m ∈ Finset.Icc (-(l : ℤ)) l, (-1) ^ m.natAbs * f ⟨0, m, -m⟩ := by
  unfold allOrders
  rw [h1, h2, h3, only_term 0 (by simp), Finset.mul_sum]
  · apply Finset.sum_congr rfl
    intro m hm
    rw [mem_orders] at hm
    rw [only_term (-m) (by rw [mem_orders, abs_neg]; exact hm)]
    · rw [coupling_first hE h1 h2 h3 hm, if_pos (big l m)]
      push_cast
      ring
    · intro M _ hne
      exact off_zero hE f (by omega)
  · intro m1 hm1 hne
    simp at hm1
    exact absurd hm1 hne

theorem plane_middle {E : Env3} (hE : Special3 E) {l : ℕ} (h1 : E.ell1 = l) (h2 : E.ell2 = 0) (h3 : E.ELL = l)
    (f : Triplet → ℂ) : planeOrders E f = (2 * l + 1) * f ⟨0, 0, 0⟩ := by
  unfold planeOrders
  rw [h1, h2, only_term 0 (by simp), only_term 0 (by simp)]
  · have := coupling_middle hE h1 h2 h3 (m := 0) (by simp)
    rw [neg_zero] at this
    rw [this, if_pos (big l 0)]
    push_cast
    simp
  · intro m2 hm2 hne
    exact off_zero hE f (by omega)
  · intro m hm hne
    apply Finset.sum_eq_zero
    intro m2 hm2
    have : m2 = 0 := by simpa using hm2
    exact off_zero hE f (by omega)

/-- Whatever the orders, a coupling with a vanishing degree is not at the threshold. -/
theorem gap {E : Env3} (hE : Special3 E) {l : ℕ}
    (h : (E.ell1 = l ∧ E.ell2 = l ∧ E.ELL = 0) ∨ (E.ell1 = l ∧ E.ell2 = 0 ∧ E.ELL = l) ∨
      (E.ell1 = 0 ∧ E.ell2 = l ∧ E.ELL = l)) (t : Triplet) (ht : t.Allowed E.ell1 E.ell2 E.ELL) :
    |coupling3 E t| ≠ epsCoupling := by
  have e : coupling3 E t = coefficient E t.m1 t.m2 t.M := rfl
  rw [e]
  by_cases h0 : t.m1 + t.m2 + t.M = 0
  · obtain ⟨a1, a2, a3⟩ := ht
    have key : ∃ m : ℤ, coefficient E t.m1 t.m2 t.M = (2 * l + 1) * (-1) ^ m.natAbs := by
      rcases h with ⟨h1, h2, h3⟩ | ⟨h1, h2, h3⟩ | ⟨h1, h2, h3⟩
      · have hM : t.M = 0 := by rw [h3] at a3; simpa using a3
        refine ⟨t.m1, ?_⟩
        rw [← coupling_last hE h1 h2 h3 (by rw [← h1]; exact a1), hM, show t.m2 = -t.m1 by omega]
      · have hM : t.m2 = 0 := by rw [h2] at a2; simpa using a2
        refine ⟨t.m1, ?_⟩
        rw [← coupling_middle hE h1 h2 h3 (by rw [← h1]; exact a1), hM, show t.M = -t.m1 by omega]
      · have hM : t.m1 = 0 := by rw [h1] at a1; simpa using a1
        refine ⟨t.m2, ?_⟩
        rw [← coupling_first hE h1 h2 h3 (by rw [← h2]; exact a2), hM, show t.M = -t.m2 by omega]
    obtain ⟨m, hm⟩ := key
    rw [hm]
    exact (big l m).ne'
  · rw [coupling_off hE h0, abs_zero]
    unfold epsCoupling
    norm_num

/-! ### Sums over orders of harmonics -/

theorem sum_sign_flip (l : ℕ) (f : ℤ → ℂ) :
    ∑ m ∈ Finset.Icc (-(l : ℤ)) l, f m = ∑ m ∈ Finset.Icc (-(l : ℤ)) l, f (-m) := by
  apply Finset.sum_nbij' (fun m => -m) (fun m => -m)
  · intro m hm; rw [mem_orders] at *; rwa [abs_neg]
  · intro m hm; rw [mem_orders] at *; rwa [abs_neg]
  · intro m _; ring
  · intro m _; ring
  · intro m _; rw [_root_.neg_neg]

/-- The two harmonics of opposite orders. -/
theorem harmonics_angle {E : Env3} (hE : Special3 E) (l : ℕ) {u v : Fin 3 → ℝ} (hu : Two.Resolved u) (hv : Two.Resolved v) :
    ∑ m ∈ Finset.Icc (-(l : ℤ)) l, (-1) ^ m.natAbs * (E.ylm l m u * E.ylm l (-m) v) = (legAngle l u v : ℂ) := by
  rw [legAngle_comm, ← ylm_addition E.toEnv (special_value hE) l v u hv hu]
  apply Finset.sum_congr rfl
  intro m _
  rw [← ylm_conj]
  ring

theorem harmonics_fluctuation {E : Env3} (hE : Special3 E) (l : ℕ) {u : Fin 3 → ℝ} (hu : Two.Resolved u)
    {data rand : List Part} (hd : ∀ p ∈ data, Two.Resolved p.los) (hr : ∀ p ∈ rand, Two.Resolved p.los) (c : ℤ × ℤ × ℤ) :
    ∑ m ∈ Finset.Icc (-(l : ℤ)) l, (-1) ^ m.natAbs * (E.ylm l m u * compensated E data rand l (-m) c) =
      delta E data rand (legAngle l u) c := by
  unfold delta
  rw [← orders_fluctuation E.toEnv (special_value hE) l u hu data rand hd hr, Finset.sum_div, sum_sign_flip]
  apply Finset.sum_congr rfl
  intro m _
  unfold compensated
  rw [← ylm_conj, Int.natAbs_neg, _root_.neg_neg]
  ring

theorem compensated_zero (E : Env3) (data rand : List Part) (c : ℤ × ℤ × ℤ) :
    compensated E data rand 0 0 c = delta E data rand (fun _ => 1) c := by
  unfold compensated delta
  rw [fourier_dnField_zero]

/-- Sums over orders under the mean over triangles. -/
theorem orders_mean (E : Env3) (S : Finset ℤ) (w : ℤ → ℂ) (row col : ℤ)
    (g : ℤ → ℤ × ℤ × ℤ → ℤ × ℤ × ℤ → ℤ × ℤ × ℤ → ℂ) :
    ∑ m ∈ S, w m * meanTriangles E row col (g m) = meanTriangles E row col fun a b c => ∑ m ∈ S, w m * g m a b c := by
  classical
  unfold meanTriangles
  simp only [← mul_div_assoc]
  rw [← Finset.sum_div]
  congr 1
  simp only [Finset.mul_sum]
  rw [Finset.sum_comm]
  apply Finset.sum_congr rfl
  intro a _
  rw [Finset.sum_comm]
  apply Finset.sum_congr rfl
  intro b _
  rw [Finset.sum_comm]

theorem mean_congr (E : Env3) (row col : ℤ) {g g' : ℤ × ℤ × ℤ → ℤ × ℤ × ℤ → ℤ × ℤ × ℤ → ℂ}
    (h : ∀ a b c, g a b c = g' a b c) : meanTriangles E row col g = meanTriangles E row col g' := by
  have : g = g' := by funext a b c; exact h a b c
  rw [this]

theorem triangleMean_mean (E : Env3) (f h : ℤ × ℤ × ℤ → ℂ) (t : Triplet) (row col : ℤ) :
    triangleMean E f h t row col = meanTriangles E row col fun a b c =>
      E.ylm E.ell1 t.m1 (kvec E.mesh a) * E.ylm E.ell2 t.m2 (kvec E.mesh b) * (f a * f b * h c) := rfl

theorem multipole_all (E : Env3) (data rand : List Part) (row col : ℤ) :
    multipole E data rand row col = allOrders E fun t => triangles E data rand t row col := rfl

/-- The angle of a vector with itself. -/
theorem legAngle_self {l : ℕ} (hl : 0 < l) (u : Fin 3 → ℝ) : legAngle l u u = if u = 0 then 0 else 1 := by
  unfold legAngle
  rw [if_neg hl.ne']
  simp only [or_self]
  split_ifs with h
  · rfl
  · have hp : 0 < u 0 ^ 2 + u 1 ^ 2 + u 2 ^ 2 := by
      by_contra hn
      apply h
      have h0 := sq_nonneg (u 0)
      have h1 := sq_nonneg (u 1)
      have h2 := sq_nonneg (u 2)
      funext a
      fin_cases a
      · exact pow_eq_zero_iff (two_ne_zero) |>.1 (by linarith : u 0 ^ 2 = 0)
      · exact pow_eq_zero_iff (two_ne_zero) |>.1 (by linarith : u 1 ^ 2 = 0)
      · exact pow_eq_zero_iff (two_ne_zero) |>.1 (by linarith : u 2 ^ 2 = 0)
    have : dot u u / (mag u * mag u) = 1 := by
      unfold mag dot
      rw [Real.mul_self_sqrt hp.le, div_eq_one_iff_eq hp.ne']
      ring
    rw [this]
    exact (Wc.legendre_one l).1

end Trv.Zeta

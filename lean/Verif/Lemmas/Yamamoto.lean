import Verif.Lemmas.Tracers
import Verif.Props.TwoPtSums
/-
The sums over orders of the two-point multipoles.
-/
namespace Trv.Two
open Trv.Mesh Trv.Stats Trv.Win Trv.Bis

theorem coupling_value (E : Env) (h : Special E) {m M : ℤ} (hm : |m| ≤ E.ELL) (hM : |M| ≤ E.ELL) :
    coupling E m M = if m + M = 0 then (2 * (E.ELL : ℝ) + 1) * (-1) ^ m.natAbs else 0 := by
  unfold coupling
  have h0 := h.wigner 0 0 (by simp) (by simp)
  simp only [add_zero, if_true, Int.natAbs_zero] at h0
  rw [h0, h.wigner m M hm hM]
  split_ifs
  · have hp : (0 : ℝ) < 2 * E.ELL + 1 := by positivity
    have hs := Real.mul_self_sqrt hp.le
    have hs0 := Real.sqrt_pos.2 hp
    rw [pow_add]
    generalize Real.sqrt (2 * (E.ELL : ℝ) + 1) = q at *
    have h1 : ((-1 : ℝ) ^ E.ELL) * (-1) ^ E.ELL = 1 := by
      rw [← mul_pow]; simp
    rw [← hs]
    field_simp
    linear_combination h1
  · ring

theorem coupledSum_special (E : Env) (h : Special E) (f : ℤ → ℤ → ℂ) :
    coupledSum E f = (2 * (E.ELL : ℂ) + 1) *
      ∑ M ∈ Finset.Icc (-(E.ELL : ℤ)) E.ELL, (-1) ^ M.natAbs * f M (-M) := by
  unfold coupledSum
  rw [Finset.mul_sum]
  apply Finset.sum_congr rfl
  intro M hM
  have hMa : |M| ≤ E.ELL := abs_le.2 (Finset.mem_Icc.1 hM)
  rw [Finset.sum_eq_single (-M)]
  · have hv : coupling E (-M) M = (2 * (E.ELL : ℝ) + 1) * (-1) ^ M.natAbs := by
      rw [coupling_value E h (by rwa [abs_neg]) hMa, if_pos (by ring), Int.natAbs_neg]
    have hab : |(2 * (E.ELL : ℝ) + 1) * (-1) ^ M.natAbs| = 2 * (E.ELL : ℝ) + 1 := by
      rw [abs_mul, abs_pow, abs_neg, abs_one, one_pow, mul_one, abs_of_nonneg (by positivity)]
    rw [hv, if_neg]
    · push_cast
      ring
    · rw [hab]
      have : (0 : ℝ) ≤ E.ELL := Nat.cast_nonneg _
      intro hlt
      norm_num at hlt
      linarith
  · intro m hm hne
    have hma : |m| ≤ E.ELL := abs_le.2 (Finset.mem_Icc.1 hm)
    have h0 : ¬ m + M = 0 := fun h' => hne (by linarith)
    rw [coupling_value E h hma hMa]
    simp [h0]
  · intro hn
    exfalso
    apply hn
    rw [Finset.mem_Icc] at hM ⊢
    constructor <;> linarith [hM.1, hM.2]

theorem ylm_conj (E : Env) (l : ℕ) (m : ℤ) (v : Fin 3 → ℝ) :
    (-1) ^ m.natAbs * E.ylm l (-m) v = (starRingEnd ℂ) (E.ylm l m v) := by
  have h : E.ylm l (-m) v = (-1) ^ m.natAbs * (starRingEnd ℂ) (E.ylm l m v) := C57_conjugation _ _ _ _ _ _
  rw [h, ← mul_assoc, neg_one_pow_cancel, one_mul]

theorem meanOver_sum (T : Finset ℤ) (S : Finset (ℤ × ℤ × ℤ)) (a : ℤ → ℂ) (f : ℤ → ℤ × ℤ × ℤ → ℂ) :
    ∑ M ∈ T, a M * meanOver S (f M) = meanOver S fun c => ∑ M ∈ T, a M * f M c := by
  unfold meanOver
  rw [Finset.sum_comm, Finset.sum_div]
  apply Finset.sum_congr rfl
  intro M _
  rw [← Finset.mul_sum, mul_div_assoc]

/-- The coupled sum of means weighted by harmonics. -/
theorem coupled_mean (E : Env) (h : Special E) (S : Finset (ℤ × ℤ × ℤ)) (g : ℤ → ℤ × ℤ × ℤ → ℂ)
    (v : ℤ × ℤ × ℤ → Fin 3 → ℝ) :
    coupledSum E (fun M m => meanOver S fun c => g M c * E.ylm E.ELL m (v c)) =
      (2 * (E.ELL : ℂ) + 1) * meanOver S fun c =>
        ∑ M ∈ Finset.Icc (-(E.ELL : ℤ)) E.ELL, (starRingEnd ℂ) (E.ylm E.ELL M (v c)) * g M c := by
  rw [coupledSum_special E h, meanOver_sum]
  congr 1
  apply meanOver_congr
  intro c _
  apply Finset.sum_congr rfl
  intro M _
  rw [← ylm_conj]
  ring

theorem gridVec_resolved (n : Fin 3 → ℤ) (d : Fin 3 → ℝ) (hd : ∀ a, (1 : ℝ) / 1000000000 ≤ d a)
    (c : ℤ × ℤ × ℤ) : Resolved (gridVec n d c) := by
  obtain ⟨u0, u1, u2⟩ := gridVec_shift n d c
  have key : ∀ (i : ℤ) (a : Fin 3), i ≠ 0 → (1 : ℝ) / 1000000000 ≤ |(i : ℝ) * d a| := by
    intro i a hi
    have h1 : (1 : ℝ) ≤ |(i : ℝ)| := by exact_mod_cast Int.one_le_abs hi
    have h2 := hd a
    have h3 : 0 ≤ d a := le_trans (by norm_num) h2
    rw [abs_mul, abs_of_nonneg h3]
    nlinarith
  have hs : ∀ x y : ℝ, |x| ≤ Real.sqrt (x * x + y * y) := fun x y => by
    apply Real.abs_le_sqrt
    nlinarith [mul_self_nonneg y]
  by_cases h0 : shiftIndex (n 0) c.1 = 0
  · by_cases h1 : shiftIndex (n 1) c.2.1 = 0
    · rw [h0, Int.cast_zero, zero_mul] at u0
      rw [h1, Int.cast_zero, zero_mul] at u1
      by_cases h2 : shiftIndex (n 2) c.2.2 = 0
      · left
        rw [h2, Int.cast_zero, zero_mul] at u2
        funext a
        fin_cases a
        · exact u0
        · exact u1
        · exact u2
      · right; left
        refine ⟨u0, u1, ?_⟩
        rw [u2]
        exact key _ _ h2
    · right; right
      rw [add_comm]
      refine le_trans ?_ (hs _ _)
      rw [u1]
      exact key _ _ h1
  · right; right
    refine le_trans ?_ (hs _ _)
    rw [u0]
    exact key _ _ h0

theorem kvec_resolved (M : Mesh ℝ) (h : ∀ a, (1 : ℝ) / 1000000000 ≤ 2 * Real.pi / M.L a) (c : ℤ × ℤ × ℤ) :
    Resolved (kvec M c) := gridVec_resolved _ _ h c

theorem rvec_resolved (M : Mesh ℝ) (h : ∀ a, (1 : ℝ) / 1000000000 ≤ M.L a / M.n a) (c : ℤ × ℤ × ℤ) :
    Resolved (rvec M c) := gridVec_resolved _ _ h c

theorem fourier_dnField_zero (E : Env) (data rand : List Part) (alpha : ℝ) (c : ℤ × ℤ × ℤ) :
    fourier E.mesh (dnField E data rand alpha 0 0) (gid E.mesh.n c) =
      fluctuation E (fun _ => 1) data rand alpha c := by
  rw [fourier_dnField]
  unfold fluctuation
  simp only [ylm_zero, one_mul]

open Classical in
theorem pairCount_map {α : Type} (n : Fin 3 → ℤ) (l : List α) (g : α → Zeta.Point) (c : ℤ × ℤ × ℤ) :
    Zeta.pairCount n (l.map g) c = ∑ i : Fin l.length, ∑ j : Fin l.length,
      if i ≠ j ∧ Zeta.Apart n c (g (l.get i)).cell (g (l.get j)).cell then
        (g (l.get i)).w * ((g (l.get j)).ww : ℂ) else 0 := by
  unfold Zeta.pairCount
  have hl : (l.map g).length = l.length := List.length_map ..
  refine Fintype.sum_equiv (finCongr hl) _ _ fun i => ?_
  refine Fintype.sum_equiv (finCongr hl) _ _ fun j => ?_
  have e : ∀ i : Fin (l.map g).length, (l.map g).get i = g (l.get (finCongr hl i)) := by
    intro i
    simp
  rw [e i, e j]
  simp only [ne_eq, EmbeddingLike.apply_eq_iff_eq]

theorem pairs_orders (E : Env) (h : Special E) (u : Fin 3 → ℝ) (hu : Resolved u) (data rand : List Part)
    (hd : ∀ p ∈ data, Resolved p.los) (hr : ∀ p ∈ rand, Resolved p.los) (alpha : ℝ) (c : ℤ × ℤ × ℤ) :
    ∑ M ∈ Finset.Icc (-(E.ELL : ℤ)) E.ELL, (starRingEnd ℂ) (E.ylm E.ELL M u) *
      Zeta.pairCount E.mesh.n (Zeta.pointsOf E 1 1 M data ++ Zeta.pointsOf E 1 (-alpha) M rand) c =
    Zeta.pairCount E.mesh.n (pointsAngle E u 1 data ++ pointsAngle E u (-alpha) rand) c := by
  classical
  set l : List (Part × ℝ) := data.map (fun p => (p, 1)) ++ rand.map fun p => (p, -alpha) with hl
  have hlos : ∀ q ∈ l, Resolved q.1.los := by
    intro q hq
    rw [hl, List.mem_append, List.mem_map, List.mem_map] at hq
    rcases hq with ⟨p, hp, rfl⟩ | ⟨p, hp, rfl⟩
    · exact hd p hp
    · exact hr p hp
  have e1 : ∀ M, Zeta.pointsOf E 1 1 M data ++ Zeta.pointsOf E 1 (-alpha) M rand =
      l.map fun q => ⟨Zeta.nearest E.mesh q.1.pos, (q.2 : ℂ) * (E.ylm E.ELL M q.1.los * (q.1.w : ℂ)),
        (q.2 * q.1.w) ^ 1⟩ := by
    intro M
    rw [hl, List.map_append, List.map_map, List.map_map]
    rfl
  have e2 : pointsAngle E u 1 data ++ pointsAngle E u (-alpha) rand =
      l.map fun q => ⟨Zeta.nearest E.mesh q.1.pos, ((q.2 * (legAngle E.ELL u q.1.los * q.1.w) : ℝ) : ℂ),
        q.2 * q.1.w⟩ := by
    rw [hl, List.map_append, List.map_map, List.map_map]
    rfl
  rw [e2, pairCount_map]
  simp only [e1, pairCount_map, Finset.mul_sum]
  rw [Finset.sum_comm]
  apply Finset.sum_congr rfl
  intro i _
  rw [Finset.sum_comm]
  apply Finset.sum_congr rfl
  intro j _
  split_ifs
  · rw [Complex.ofReal_mul, Complex.ofReal_mul,
      ← ylm_addition E h.legendre E.ELL u _ hu (hlos _ (List.get_mem l i)), Finset.sum_mul, Finset.mul_sum,
      Finset.sum_mul]
    apply Finset.sum_congr rfl
    intro M _
    push_cast
    ring
  · simp

end Trv.Two

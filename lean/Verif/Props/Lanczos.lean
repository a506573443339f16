import Verif.Lemmas.Lanczos
import Verif.Spec.Lanczos
import Mathlib.Analysis.SpecialFunctions.Stirling
import Mathlib.Analysis.SpecialFunctions.Complex.LogBounds
/-
C158: the Lanczos approximation of the gamma function.
-/
namespace Trv.Lz

open Filter (Tendsto atTop)
open Topology ComplexConjugate

theorem seriesTerm_ok {z s : ℂ} {i : ℕ} (h : z + i ≠ 0) : seriesTerm z s i = .ok (s + (coeffs.getD i 0 : ℚ) / (z + i)) := by
  unfold seriesTerm
  rw [if_neg h]

/-- The terms of the series, in the argument of the gamma function. -/
def terms : List (ℚ × ℚ) :=
  [(coeffs.getD 1 0, 0), (coeffs.getD 2 0, 1), (coeffs.getD 3 0, 2), (coeffs.getD 4 0, 3), (coeffs.getD 5 0, 4), (coeffs.getD 6 0, 5),
   (coeffs.getD 7 0, 6), (coeffs.getD 8 0, 7)]

theorem terms_numer : fracN (coeffs.getD 0 0) terms = numer := by decide +kernel

/-- The denominator of the series. -/
noncomputable def denom (z : ℂ) : ℂ := ((terms.map (·.2)).map fun i : ℚ => z + (i : ℂ)).prod

theorem ne_of_re {z : ℂ} (hz : 0 < z.re) (i : ℚ) (hi : 0 ≤ i) : z + (i : ℂ) ≠ 0 := by
  intro h
  have := congrArg Complex.re h
  have e : ((i : ℂ)).re = (i : ℝ) := Complex.ratCast_re i
  rw [Complex.add_re, e, Complex.zero_re] at this
  have : (0 : ℝ) ≤ i := by exact_mod_cast hi
  linarith

theorem terms_nonneg : ∀ p ∈ terms, 0 ≤ p.2 := by decide +kernel

theorem denom_ne {z : ℂ} (hz : 0 < z.re) : denom z ≠ 0 := by
  unfold denom
  apply List.prod_ne_zero
  intro h0
  simp only [List.map_map, List.mem_map, Function.comp] at h0
  obtain ⟨p, hp, e⟩ := h0
  exact ne_of_re hz p.2 (terms_nonneg p hp) e

theorem series_ok {z : ℂ} (hz : 0 < z.re) : lanczosSeries (z - 1) = .ok (polyAt numer z / denom z) := by
  have hn : ∀ i : ℕ, z - 1 + ((i + 1 : ℕ) : ℂ) ≠ 0 := by
    intro i h
    apply ne_of_re hz i (Nat.cast_nonneg i)
    rw [← h]
    push_cast
    ring
  have key := polyAt_fracN z (coeffs.getD 0 0) terms fun p hp => ne_of_re hz p.2 (terms_nonneg p hp)
  rw [terms_numer] at key
  unfold denom
  rw [← key]
  unfold lanczosSeries
  simp only [List.foldlM_cons, List.foldlM_nil, seriesTerm_ok (hn 0), seriesTerm_ok (hn 1), seriesTerm_ok (hn 2), seriesTerm_ok (hn 3),
    seriesTerm_ok (hn 4), seriesTerm_ok (hn 5), seriesTerm_ok (hn 6), seriesTerm_ok (hn 7), bind, Except.bind, pure, Except.pure]
  congr 1
  simp only [terms, List.map_cons, List.map_nil, List.sum_cons, List.sum_nil]
  push_cast
  rw [show z - 1 + (1 : ℂ) = z + 0 by ring, show z - 1 + (2 : ℂ) = z + 1 by ring, show z - 1 + (3 : ℂ) = z + 2 by ring,
    show z - 1 + (4 : ℂ) = z + 3 by ring, show z - 1 + (5 : ℂ) = z + 4 by ring, show z - 1 + (6 : ℂ) = z + 5 by ring,
    show z - 1 + (7 : ℂ) = z + 6 by ring, show z - 1 + (8 : ℂ) = z + 7 by ring]
  ring

/-- The value in the right half plane. -/
noncomputable def core (z : ℂ) : ℂ :=
  Real.sqrt (2 * Real.pi) * (z - 1 + 7 + 1 / 2) ^ (z - 1 + 1 / 2) * Complex.exp (-(z - 1 + 7 + 1 / 2)) * (polyAt numer z / denom z)

theorem rec_right {z : ℂ} (n : ℕ) (hz : 1 / 2 ≤ z.re) : gammaRec (n + 1) z = .ok (core z) := by
  unfold gammaRec
  rw [if_neg (not_lt.2 hz)]
  simp only [series_ok (show 0 < z.re by linarith), bind, Except.bind]
  rfl

theorem base_re (z : ℂ) : (z - 1 + 7 + 1 / 2).re = z.re + 13 / 2 := by
  have : z - 1 + 7 + 1 / 2 = z + ((13 / 2 : ℝ) : ℂ) := by push_cast; ring
  rw [this, Complex.add_re, Complex.ofReal_re]

theorem base_ne {z : ℂ} (hz : 0 < z.re) : z - 1 + 7 + 1 / 2 ≠ 0 := by
  intro h
  have := base_re z
  rw [h, Complex.zero_re] at this
  linarith

theorem core_ne {z : ℂ} (hz : 0 < z.re) : core z ≠ 0 := by
  unfold core
  refine mul_ne_zero (mul_ne_zero (mul_ne_zero ?_ ?_) (Complex.exp_ne_zero _)) (div_ne_zero (numer_ne hz) (denom_ne hz))
  · rw [Complex.ofReal_ne_zero]
    exact (Real.sqrt_pos.2 (by positivity)).ne'
  · intro h
    rw [Complex.cpow_eq_zero_iff] at h
    exact base_ne hz h.1

theorem rec_left {z : ℂ} (n : ℕ) (hz : z.re < 1 / 2) :
    (Complex.sin (Real.pi * z) = 0 → gammaRec (n + 2) z = .error .pole) ∧
    (Complex.sin (Real.pi * z) ≠ 0 → gammaRec (n + 2) z = .ok (Real.pi / (Complex.sin (Real.pi * z) * core (1 - z)))) := by
  have h1 : 1 / 2 ≤ (1 - z).re := by
    rw [Complex.sub_re, Complex.one_re]
    linarith
  have hc : core (1 - z) ≠ 0 := core_ne (by linarith)
  have e : gammaRec (n + 2) z = (open Classical in if Complex.sin (Real.pi * z) * core (1 - z) = 0 then .error .pole
      else .ok (Real.pi / (Complex.sin (Real.pi * z) * core (1 - z)))) := by
    rw [gammaRec, if_pos hz, rec_right n h1]
    rfl
  rw [e]
  constructor
  · intro h
    rw [if_pos (by rw [h, zero_mul])]
  · intro h
    rw [if_neg (mul_ne_zero h hc)]

/-- The zeros of the sine. -/
theorem sin_zero {z : ℂ} : Complex.sin (Real.pi * z) = 0 ↔ ∃ k : ℤ, z = k := by
  rw [Complex.sin_eq_zero_iff]
  have hp : (Real.pi : ℂ) ≠ 0 := Complex.ofReal_ne_zero.2 Real.pi_ne_zero
  constructor
  · rintro ⟨k, h⟩
    refine ⟨k, mul_left_cancel₀ hp ?_⟩
    rw [h, mul_comm]
  · rintro ⟨k, rfl⟩
    exact ⟨k, mul_comm _ _⟩

theorem pole_sin {z : ℂ} (hz : z.re < 1 / 2) : Complex.sin (Real.pi * z) = 0 ↔ IsPole z := by
  rw [sin_zero]
  constructor
  · rintro ⟨k, rfl⟩
    rw [Complex.intCast_re] at hz
    have hk : k ≤ 0 := by
      by_contra h
      push Not at h
      have : (1 : ℝ) ≤ k := by exact_mod_cast h
      linarith
    refine ⟨(-k).toNat, ?_⟩
    have : (((-k).toNat : ℤ) : ℂ) = ((-k : ℤ) : ℂ) := by rw [Int.toNat_of_nonneg (by omega)]
    rw [Int.cast_natCast] at this
    rw [this]
    push_cast
    ring
  · rintro ⟨m, rfl⟩
    exact ⟨-m, by push_cast; rfl⟩

theorem not_pole_right {z : ℂ} (hz : 1 / 2 ≤ z.re) : ¬ IsPole z := by
  rintro ⟨m, rfl⟩
  rw [Complex.neg_re, Complex.natCast_re] at hz
  have : (0 : ℝ) ≤ m := Nat.cast_nonneg m
  linarith

/-- **C158.** The recursion ends after at most one further call: a larger limit of depth changes nothing. -/
theorem C158_depth (n : ℕ) (z : ℂ) : gammaRec (n + 2) z = gammaLanczos z ∧ gammaLanczos z ≠ .error .deep := by
  unfold gammaLanczos
  by_cases hz : z.re < 1 / 2
  · by_cases h : Complex.sin (Real.pi * z) = 0
    · rw [(rec_left n hz).1 h, (rec_left 0 hz).1 h]
      exact ⟨rfl, by decide⟩
    · rw [(rec_left n hz).2 h, (rec_left 0 hz).2 h]
      exact ⟨rfl, fun h => by cases h⟩
  · rw [rec_right (n + 1) (not_lt.1 hz), rec_right 1 (not_lt.1 hz)]
    exact ⟨rfl, fun h => by cases h⟩

/-- **C158.** The approximation divides by zero exactly at the poles of the gamma function, and like it is nowhere zero. -/
theorem C158_defined (z : ℂ) : (IsPole z → gammaLanczos z = .error .pole) ∧
    (¬ IsPole z → ∃ g, gammaLanczos z = .ok g ∧ g ≠ 0) := by
  unfold gammaLanczos
  by_cases hz : z.re < 1 / 2
  · constructor
    · intro h
      exact (rec_left 0 hz).1 ((pole_sin hz).2 h)
    · intro h
      have hs : Complex.sin (Real.pi * z) ≠ 0 := fun h0 => h ((pole_sin hz).1 h0)
      refine ⟨_, (rec_left 0 hz).2 hs, div_ne_zero (Complex.ofReal_ne_zero.2 Real.pi_ne_zero) (mul_ne_zero hs (core_ne ?_))⟩
      rw [Complex.sub_re, Complex.one_re]
      linarith
  · constructor
    · intro h
      exact absurd h (not_pole_right (not_lt.1 hz))
    · intro _
      exact ⟨_, rec_right 1 (not_lt.1 hz), core_ne (by linarith [not_lt.1 hz])⟩

/-- **C158.** The reflection formula holds exactly off the line on which both factors are approximated. -/
theorem C158_reflection (z : ℂ) (hz : z.re ≠ 1 / 2) (hn : ∀ k : ℤ, z ≠ k) :
    ∃ g h, gammaLanczos z = .ok g ∧ gammaLanczos (1 - z) = .ok h ∧ g * h = Real.pi / Complex.sin (Real.pi * z) := by
  have hs : Complex.sin (Real.pi * z) ≠ 0 := by
    rw [Ne, sin_zero]
    rintro ⟨k, h⟩
    exact hn k h
  have e : Complex.sin (Real.pi * (1 - z)) = Complex.sin (Real.pi * z) := by
    rw [mul_sub, mul_one, Complex.sin_pi_sub]
  have hr : (1 - z).re = 1 - z.re := by rw [Complex.sub_re, Complex.one_re]
  unfold gammaLanczos
  rcases lt_or_gt_of_ne hz with h | h
  · have hc : core (1 - z) ≠ 0 := core_ne (by linarith)
    refine ⟨_, _, (rec_left 0 h).2 hs, rec_right 1 (by linarith), ?_⟩
    field_simp
  · have hc : core z ≠ 0 := core_ne (by linarith)
    refine ⟨_, _, rec_right 1 h.le, (rec_left 0 (by linarith)).2 (by rwa [e]), ?_⟩
    rw [e, sub_sub_cancel]
    field_simp

/-- **C158.** To the left of the line the relative error is that of the reflected argument, inverted: the approximation is as good there as
to the right. -/
theorem C158_error (z : ℂ) (hz : z.re < 1 / 2) (hp : ¬ IsPole z) :
    ∃ g h, gammaLanczos z = .ok g ∧ gammaLanczos (1 - z) = .ok h ∧
      g / Complex.Gamma z = (h / Complex.Gamma (1 - z))⁻¹ := by
  have hn : ∀ k : ℤ, z ≠ k := by
    intro k h
    exact hp ((pole_sin hz).1 (sin_zero.2 ⟨k, h⟩))
  obtain ⟨g, h, e1, e2, e3⟩ := C158_reflection z hz.ne hn
  refine ⟨g, h, e1, e2, ?_⟩
  have hr : 1 / 2 ≤ (1 - z).re := by
    rw [Complex.sub_re, Complex.one_re]
    linarith
  have hG : Complex.Gamma z ≠ 0 := Complex.Gamma_ne_zero fun m h => hp ⟨m, h⟩
  have hG' : Complex.Gamma (1 - z) ≠ 0 := Complex.Gamma_ne_zero fun m h => not_pole_right hr ⟨m, h⟩
  have hh : h ≠ 0 := by
    obtain ⟨h', e4, h4⟩ := (C158_defined (1 - z)).2 (not_pole_right hr)
    rw [e2] at e4
    cases e4
    exact h4
  have := Complex.Gamma_mul_Gamma_one_sub z
  rw [← e3] at this
  rw [inv_div, div_eq_div_iff hG hh, ← this]
  ring

theorem polyAt_conj (z : ℂ) : ∀ p, polyAt p (conj z) = conj (polyAt p z)
  | [] => by simp [polyAt]
  | a :: p => by
    simp only [polyAt, polyAt_conj z p, map_add, map_mul]
    congr 1
    exact (map_ratCast (starRingEnd ℂ) a).symm

theorem denom_conj (z : ℂ) : denom (conj z) = conj (denom z) := by
  unfold denom
  rw [← polyAt_prodP, ← polyAt_prodP, polyAt_conj]

theorem core_conj {z : ℂ} (hz : 0 < z.re) : core (conj z) = conj (core z) := by
  unfold core
  have e1 : conj z - 1 + 7 + 1 / 2 = conj (z - 1 + 7 + 1 / 2) := by simp [map_ofNat]
  have e2 : conj z - 1 + 1 / 2 = conj (z - 1 + 1 / 2) := by simp [map_ofNat]
  have ha : (z - 1 + 7 + 1 / 2).arg ≠ Real.pi := by
    intro h
    rw [Complex.arg_eq_pi_iff, base_re] at h
    linarith [h.1]
  rw [e1, e2, Complex.conj_cpow _ _ ha, Complex.conj_conj, polyAt_conj, denom_conj, ← map_neg, Complex.exp_conj]
  simp only [map_mul, map_div₀, Complex.conj_ofReal]

/-- **C158.** Conjugate arguments have conjugate values. -/
theorem C158_conj (z : ℂ) : gammaLanczos (conj z) = (gammaLanczos z).map conj := by
  unfold gammaLanczos
  have hs : Complex.sin (Real.pi * conj z) = conj (Complex.sin (Real.pi * z)) := by
    rw [← Complex.sin_conj, map_mul, Complex.conj_ofReal]
  by_cases hz : z.re < 1 / 2
  · have hz' : (conj z).re < 1 / 2 := by rwa [Complex.conj_re]
    by_cases h : Complex.sin (Real.pi * z) = 0
    · rw [(rec_left 0 hz).1 h, (rec_left 0 hz').1 (by rw [hs, h, map_zero])]
      rfl
    · have hr : 0 < (1 - z).re := by
        rw [Complex.sub_re, Complex.one_re]
        linarith
      rw [(rec_left 0 hz).2 h, (rec_left 0 hz').2 (by rw [hs]; exact (map_ne_zero _).2 h), hs,
        show 1 - conj z = conj (1 - z) by simp, core_conj hr]
      simp only [Except.map, map_div₀, map_mul, Complex.conj_ofReal]
  · rw [rec_right 1 (not_lt.1 hz), rec_right 1 (by rw [Complex.conj_re]; exact not_lt.1 hz),
      core_conj (by linarith [not_lt.1 hz])]
    rfl

/-- The value of a polynomial at a real number. -/
def polyR : List ℚ → ℝ → ℝ
  | [], _ => 0
  | a :: as, x => (a : ℝ) + x * polyR as x

theorem polyAt_real (x : ℝ) : ∀ p, polyAt p (x : ℂ) = (polyR p x : ℝ)
  | [] => by simp [polyAt, polyR]
  | a :: p => by
    simp only [polyAt, polyR, polyAt_real x p]
    push_cast
    rfl

theorem polyR_nonneg {x : ℝ} (hx : 0 < x) : ∀ p : List ℚ, (∀ a ∈ p, 0 ≤ a) → 0 ≤ polyR p x
  | [], _ => le_refl _
  | a :: p, h => by
    have h1 := polyR_nonneg hx p fun b hb => h b (List.mem_cons_of_mem _ hb)
    have ha : (0 : ℝ) ≤ (a : ℝ) := by exact_mod_cast h a List.mem_cons_self
    exact add_nonneg ha (mul_nonneg hx.le h1)

theorem prodP_nonneg : ∀ a ∈ prodP (terms.map (·.2)), 0 ≤ a := by decide +kernel

theorem core_real {x : ℝ} (hx : 0 < x) : ∃ r : ℝ, core (x : ℂ) = r ∧ 0 < r := by
  have hz : 0 < ((x : ℂ)).re := by simpa using hx
  have hN := numer_ne hz
  have hD := denom_ne hz
  have eD : denom (x : ℂ) = (polyR (prodP (terms.map (·.2))) x : ℝ) := by
    unfold denom
    rw [← polyAt_prodP, polyAt_real]
  rw [polyAt_real] at hN
  rw [eD] at hD
  have pN : 0 < polyR numer x :=
    lt_of_le_of_ne (polyR_nonneg hx _ fun a ha => (numer_pos a ha).le) fun h => hN (by rw [← h]; simp)
  have pD : 0 < polyR (prodP (terms.map (·.2))) x :=
    lt_of_le_of_ne (polyR_nonneg hx _ prodP_nonneg) fun h => hD (by rw [← h]; simp)
  refine ⟨Real.sqrt (2 * Real.pi) * (x - 1 + 7 + 1 / 2) ^ (x - 1 + 1 / 2) * Real.exp (-(x - 1 + 7 + 1 / 2)) *
    (polyR numer x / polyR (prodP (terms.map (·.2))) x), ?_, ?_⟩
  · unfold core
    rw [eD, polyAt_real]
    push_cast
    rw [Complex.ofReal_cpow (by linarith)]
    push_cast
    rfl
  · have h1 : 0 < Real.sqrt (2 * Real.pi) := Real.sqrt_pos.2 (by positivity)
    have h2 : 0 < (x - 1 + 7 + 1 / 2) ^ (x - 1 + 1 / 2) := Real.rpow_pos_of_pos (by linarith) _
    have h3 := Real.exp_pos (-(x - 1 + 7 + 1 / 2))
    have h4 := div_pos pN pD
    positivity

/-- **C158.** At real arguments the values are real, with the sign of the gamma function. -/
theorem C158_real (x : ℝ) (hp : ¬ IsPole x) : ∃ r : ℝ, gammaLanczos x = .ok (r : ℂ) ∧ 0 < r * Real.Gamma x := by
  unfold gammaLanczos
  by_cases hx : x < 1 / 2
  · have hz : ((x : ℂ)).re < 1 / 2 := by simpa using hx
    have hs : Complex.sin (Real.pi * (x : ℂ)) ≠ 0 := fun h => hp ((pole_sin hz).1 h)
    obtain ⟨r, er, hr⟩ := core_real (show 0 < 1 - x by linarith)
    push_cast at er
    have es : Complex.sin (Real.pi * (x : ℂ)) = (Real.sin (Real.pi * x) : ℝ) := by push_cast; rfl
    rw [es, Ne, Complex.ofReal_eq_zero] at hs
    refine ⟨Real.pi / (Real.sin (Real.pi * x) * r), ?_, ?_⟩
    · rw [(rec_left 0 hz).2 (by rw [es]; exact Complex.ofReal_ne_zero.2 hs), er, es]
      push_cast
      rfl
    · have hG := Real.Gamma_pos_of_pos (show 0 < 1 - x by linarith)
      have e := Real.Gamma_mul_Gamma_one_sub x
      have e2 : Real.Gamma x = Real.pi / (Real.sin (Real.pi * x) * Real.Gamma (1 - x)) := by
        rw [eq_div_iff (mul_ne_zero hs hG.ne')]
        rw [eq_div_iff hs] at e
        linarith
      rw [e2, div_mul_div_comm]
      apply div_pos (mul_pos Real.pi_pos Real.pi_pos)
      have : 0 < Real.sin (Real.pi * x) ^ 2 := by positivity
      have : Real.sin (Real.pi * x) * r * (Real.sin (Real.pi * x) * Real.Gamma (1 - x)) =
        Real.sin (Real.pi * x) ^ 2 * (r * Real.Gamma (1 - x)) := by ring
      rw [this]
      positivity
  · obtain ⟨r, er, hr⟩ := core_real (show 0 < x by linarith)
    refine ⟨r, ?_, mul_pos hr (Real.Gamma_pos_of_pos (by linarith))⟩
    rw [rec_right 1 (by simpa using not_lt.1 hx), er]

/-- A quotient of polynomials with a limit. -/
theorem ratio_limit (z : ℂ) : Tendsto (fun n : ℕ => polyAt numer (z + n + 1) / denom (z + n + 1)) atTop
    (𝓝 ((coeffs.getD 0 0 : ℚ) : ℂ)) := by
  have hinv : ∀ i : ℚ, Tendsto (fun n : ℕ => (z + n + 1 + (i : ℂ))⁻¹) atTop (𝓝 0) := by
    intro i
    rw [tendsto_zero_iff_norm_tendsto_zero]
    simp_rw [norm_inv]
    apply Filter.Tendsto.inv_tendsto_atTop
    apply Filter.tendsto_atTop_mono (f := fun n : ℕ => (n : ℝ) + -‖z + 1 + (i : ℂ)‖)
    · intro n
      have h := norm_sub_norm_le (n : ℂ) (-(z + 1 + (i : ℂ)))
      rw [norm_neg, Complex.norm_natCast, sub_neg_eq_add, show (n : ℂ) + (z + 1 + (i : ℂ)) = z + n + 1 + i by ring] at h
      linarith
    · exact Filter.tendsto_atTop_add_const_right _ _ tendsto_natCast_atTop_atTop
  have hsum : ∀ l : List (ℚ × ℚ), Tendsto (fun n : ℕ => (l.map fun p => (p.1 : ℂ) / (z + n + 1 + (p.2 : ℂ))).sum) atTop (𝓝 0) := by
    intro l
    induction l with
    | nil => simp
    | cons p l ih =>
      have h := ((hinv p.2).const_mul (p.1 : ℂ)).add ih
      simp only [mul_zero, add_zero] at h
      refine h.congr fun n => ?_
      simp [div_eq_mul_inv]
  have h := (hsum terms).const_add ((coeffs.getD 0 0 : ℚ) : ℂ)
  rw [add_zero] at h
  refine h.congr' ?_
  obtain ⟨N, hN⟩ := exists_nat_gt (-z.re)
  filter_upwards [Filter.eventually_ge_atTop N] with n hn
  have hre : 0 < (z + n + 1).re := by
    rw [Complex.add_re, Complex.add_re, Complex.natCast_re, Complex.one_re]
    have : (N : ℝ) ≤ n := by exact_mod_cast hn
    linarith
  have := polyAt_fracN (z + n + 1) (coeffs.getD 0 0) terms fun p hp => ne_of_re hre p.2 (terms_nonneg p hp)
  rw [terms_numer] at this
  exact this

/-- The exponent of the power, against Stirling's. -/
theorem power_limit (z u : ℂ) : Tendsto (fun n : ℕ => (z + n + 1 / 2) * Complex.log (1 + u / n) - u) atTop (𝓝 0) := by
  have hg : Tendsto (fun n : ℕ => (n : ℂ) * (u / n)) atTop (𝓝 u) := by
    refine tendsto_const_nhds.congr' ?_
    filter_upwards [Filter.eventually_ne_atTop 0] with n hn
    have : (n : ℂ) ≠ 0 := Nat.cast_ne_zero.2 hn
    field_simp
  have h1 := Complex.tendsto_nat_mul_log_one_add_of_tendsto hg
  have h0 : Tendsto (fun n : ℕ => 1 + u / (n : ℂ)) atTop (𝓝 1) := by
    have := (tendsto_const_div_atTop_nhds_zero_nat u).const_add 1
    simpa using this
  have h2 : Tendsto (fun n : ℕ => Complex.log (1 + u / (n : ℂ))) atTop (𝓝 0) := by
    have := (continuousAt_clog (x := 1) (by simp)).tendsto.comp h0
    simpa [Function.comp_def] using this
  have h3 := ((h2.const_mul (z + 1 / 2)).add h1).sub_const u
  simp only [mul_zero, zero_add, sub_self] at h3
  refine h3.congr fun n => ?_
  ring

/-- Stirling's formula for the factorial. -/
theorem factorial_stirling {n : ℕ} (hn : n ≠ 0) : ((n.factorial : ℂ)) = (Stirling.stirlingSeq n : ℂ) * (Real.sqrt 2 : ℂ) *
      Complex.exp ((Real.log n : ℂ) / 2 + n * (Real.log n : ℂ) - n) := by
  have hpos : (0 : ℝ) < n := Nat.cast_pos.2 (Nat.pos_of_ne_zero hn)
  have hs : ((n.factorial : ℝ)) = Stirling.stirlingSeq n * Real.sqrt 2 * Real.exp (Real.log n / 2 + n * Real.log n - n) := by
    unfold Stirling.stirlingSeq
    have a1 : Real.sqrt (2 * n) = Real.sqrt 2 * Real.exp (Real.log n / 2) := by
      rw [Real.sqrt_mul (by norm_num), Real.exp_half, Real.exp_log hpos]
    have a2 : ((n : ℝ) / Real.exp 1) ^ n = Real.exp (n * Real.log n - n) := by
      have : (n : ℝ) / Real.exp 1 = Real.exp (Real.log n - 1) := by
        rw [Real.exp_sub, Real.exp_log hpos]
      rw [this, ← Real.exp_nat_mul]
      congr 1
      ring
    rw [a1, a2, add_sub_assoc, Real.exp_add]
    have e1 := Real.exp_pos (Real.log n / 2)
    have e2 := Real.exp_pos (n * Real.log n - n)
    have e3 : 0 < Real.sqrt 2 := by positivity
    field_simp
  have := congrArg (fun x : ℝ => (x : ℂ)) hs
  push_cast at this
  push_cast
  exact this

theorem core_limit (z : ℂ) : Tendsto (fun n : ℕ => core (z + n + 1) / ((n : ℂ) ^ z * (n.factorial : ℂ))) atTop
    (𝓝 ((coeffs.getD 0 0 : ℚ) : ℂ)) := by
  have h1 : Tendsto (fun n : ℕ => ((Stirling.stirlingSeq n : ℝ) : ℂ)) atTop (𝓝 (Real.sqrt Real.pi : ℂ)) :=
    (Complex.continuous_ofReal.tendsto _).comp Stirling.tendsto_stirlingSeq_sqrt_pi
  have hpi : (Real.sqrt Real.pi : ℂ) ≠ 0 := Complex.ofReal_ne_zero.2 (Real.sqrt_pos.2 Real.pi_pos).ne'
  have h2 := (Complex.continuous_exp.tendsto _).comp (power_limit z (z + 15 / 2))
  have h3 := ((h1.inv₀ hpi).const_mul (Real.sqrt Real.pi : ℂ)).mul (h2.mul (ratio_limit z))
  rw [mul_inv_cancel₀ hpi, Complex.exp_zero, one_mul, one_mul] at h3
  refine h3.congr' ?_
  obtain ⟨N, hN⟩ := exists_nat_gt (-z.re)
  filter_upwards [Filter.eventually_ne_atTop 0, Filter.eventually_ge_atTop N] with n hn hnN
  have hpos : (0 : ℝ) < n := Nat.cast_pos.2 (Nat.pos_of_ne_zero hn)
  have hnc : (n : ℂ) ≠ 0 := Nat.cast_ne_zero.2 hn
  have hre : 0 < (z + n + 1).re := by
    rw [Complex.add_re, Complex.add_re, Complex.natCast_re, Complex.one_re]
    have : (N : ℝ) ≤ n := by exact_mod_cast hnN
    linarith
  have hp : (n : ℂ) ^ z = Complex.exp ((Real.log n : ℂ) * z) := by
    rw [Complex.cpow_def_of_ne_zero hnc, Complex.ofReal_log hpos.le]
    push_cast
    rfl
  have et : z + n + 1 - 1 + 7 + 1 / 2 = ((n : ℝ) : ℂ) * (1 + (z + 15 / 2) / n) := by
    push_cast
    field_simp
    ring
  have hb := base_ne hre
  have hu : (1 + (z + 15 / 2) / (n : ℂ)) ≠ 0 := by
    intro h
    rw [et, h, mul_zero] at hb
    exact hb rfl
  have hl : Complex.log (z + n + 1 - 1 + 7 + 1 / 2) = (Real.log n : ℂ) + Complex.log (1 + (z + 15 / 2) / n) := by
    rw [et, Complex.log_ofReal_mul hpos hu]
  have hS : (Stirling.stirlingSeq n : ℂ) ≠ 0 := by
    intro h
    have := factorial_stirling hn
    rw [h, zero_mul, zero_mul] at this
    exact Nat.cast_ne_zero.2 (Nat.factorial_ne_zero n) this
  have h22 : (Real.sqrt 2 : ℂ) ≠ 0 := Complex.ofReal_ne_zero.2 (by positivity)
  have hsq : (Real.sqrt (2 * Real.pi) : ℂ) = Real.sqrt 2 * Real.sqrt Real.pi := by
    rw [Real.sqrt_mul (by norm_num)]
    push_cast
    rfl
  unfold core
  rw [Complex.cpow_def_of_ne_zero hb, hl, factorial_stirling hn, hp, hsq]
  simp only [Function.comp_apply]
  have hx : Complex.exp (((Real.log n : ℂ) + Complex.log (1 + (z + 15 / 2) / n)) * (z + n + 1 - 1 + 1 / 2)) *
      Complex.exp (-(z + n + 1 - 1 + 7 + 1 / 2)) =
      Complex.exp ((z + n + 1 / 2) * Complex.log (1 + (z + 15 / 2) / n) - (z + 15 / 2)) *
        (Complex.exp ((Real.log n : ℂ) * z) * Complex.exp ((Real.log n : ℂ) / 2 + n * (Real.log n : ℂ) - n)) := by
    rw [← Complex.exp_add, ← Complex.exp_add, ← Complex.exp_add]
    congr 1
    ring
  rw [show ∀ a b c d e : ℂ, a * b * c * d * e = a * b * (c * d) * e from fun a b c d e => by ring, hx]
  have e1 := Complex.exp_ne_zero ((Real.log n : ℂ) * z)
  have e2 := Complex.exp_ne_zero ((Real.log n : ℂ) / 2 + n * (Real.log n : ℂ) - n)
  generalize Complex.exp ((Real.log n : ℂ) * z) = A at *
  generalize Complex.exp ((Real.log n : ℂ) / 2 + n * (Real.log n : ℂ) - n) = B at *
  generalize polyAt numer (z + n + 1) / denom (z + n + 1) = R at *
  field_simp

theorem gamma_product (z : ℂ) (hp : ¬ IsPole z) (n : ℕ) :
    Complex.Gamma (z + n + 1) = (∏ j ∈ Finset.range (n + 1), (z + j)) * Complex.Gamma z := by
  have hne : ∀ j : ℕ, z + j ≠ 0 := fun j h => hp ⟨j, eq_neg_of_add_eq_zero_left h⟩
  induction n with
  | zero =>
    have := Complex.Gamma_add_one z (by simpa using hne 0)
    simpa using this
  | succ n ih =>
    rw [Finset.prod_range_succ, mul_right_comm, ← ih, mul_comm]
    have := Complex.Gamma_add_one (z + n + 1) (by simpa [add_assoc] using hne (n + 1))
    push_cast
    rw [← add_assoc, this]

/-- **C158.** Far to the right, the relative error tends to a constant: the ratio to the gamma function tends to the first
coefficient of the series (which differs from one by `1.9e-13`). -/
theorem C158_far (z : ℂ) (hp : ¬ IsPole z) (f : ℕ → ℂ) (hf : ∀ n : ℕ, gammaLanczos (z + n + 1) = .ok (f n)) :
    Tendsto (fun n : ℕ => f n / Complex.Gamma (z + n + 1)) atTop (𝓝 (999999999999809932277 / 10 ^ 21)) := by
  have hG : Complex.Gamma z ≠ 0 := Complex.Gamma_ne_zero fun m h => hp ⟨m, h⟩
  have h1 := (core_limit z).mul ((Complex.GammaSeq_tendsto_Gamma z).div_const (Complex.Gamma z))
  rw [div_self hG, mul_one, show ((coeffs.getD 0 0 : ℚ) : ℂ) = 999999999999809932277 / 10 ^ 21 by
    simp [coeffs]] at h1
  refine h1.congr' ?_
  obtain ⟨N, hN⟩ := exists_nat_gt (-z.re)
  filter_upwards [Filter.eventually_ne_atTop 0, Filter.eventually_ge_atTop N] with n hn hnN
  have hre : 1 / 2 ≤ (z + n + 1).re := by
    rw [Complex.add_re, Complex.add_re, Complex.natCast_re, Complex.one_re]
    have : (N : ℝ) ≤ n := by exact_mod_cast hnN
    linarith
  have hfn : f n = core (z + n + 1) := by
    have := hf n
    unfold gammaLanczos at this
    rw [rec_right 1 hre] at this
    exact (Except.ok.inj this).symm
  rw [hfn, gamma_product z hp n]
  unfold Complex.GammaSeq
  have hnc : (n : ℂ) ≠ 0 := Nat.cast_ne_zero.2 hn
  have h3 : (n : ℂ) ^ z ≠ 0 := by
    intro h
    rw [Complex.cpow_eq_zero_iff] at h
    exact hnc h.1
  have h4 : (n.factorial : ℂ) ≠ 0 := Nat.cast_ne_zero.2 (Nat.factorial_ne_zero n)
  have h5 : (∏ j ∈ Finset.range (n + 1), (z + j)) ≠ 0 := by
    rw [Finset.prod_ne_zero_iff]
    intro j _ h
    exact hp ⟨j, eq_neg_of_add_eq_zero_left h⟩
  field_simp

/-- The values at positive whole numbers. -/
example : ∃ f : ℕ → ℂ, (∀ n : ℕ, gammaLanczos (1 + n + 1) = .ok (f n)) ∧
    Tendsto (fun n : ℕ => f n / Complex.Gamma (1 + n + 1)) atTop (𝓝 (999999999999809932277 / 10 ^ 21)) := by
  have hp : ¬ IsPole 1 := not_pole_right (by norm_num)
  have h : ∀ n : ℕ, gammaLanczos (1 + n + 1) = .ok (core (1 + n + 1)) := fun n => rec_right 1 (by
    rw [Complex.add_re, Complex.add_re, Complex.natCast_re, Complex.one_re]
    have : (0 : ℝ) ≤ n := Nat.cast_nonneg n
    linarith)
  exact ⟨_, h, C158_far 1 hp _ h⟩

/-- A pole, and a value to the left of the line. -/
example : gammaLanczos (-3) = .error .pole ∧ ∃ r : ℝ, gammaLanczos ((-1 / 2 : ℝ) : ℂ) = .ok (r : ℂ) ∧ r < 0 := by
  refine ⟨(C158_defined _).1 ⟨3, by norm_num⟩, ?_⟩
  have hp : ¬ IsPole ((-1 / 2 : ℝ) : ℂ) := by
    rintro ⟨m, h⟩
    have h2 : (-1 / 2 : ℝ) = -(m : ℝ) := by exact_mod_cast h
    have h3 : (1 : ℝ) = ((2 * m : ℕ) : ℝ) := by push_cast; linarith
    have h4 : 1 = 2 * m := by exact_mod_cast h3
    omega
  obtain ⟨r, e, h⟩ := C158_real _ hp
  refine ⟨r, e, ?_⟩
  have hG : Real.Gamma (-1 / 2) < 0 := by
    have h1 := Real.Gamma_add_one (show (-1 / 2 : ℝ) ≠ 0 by norm_num)
    have h2 : 0 < Real.Gamma (-1 / 2 + 1) := Real.Gamma_pos_of_pos (by norm_num)
    rw [h1] at h2
    linarith
  by_contra h0
  push Not at h0
  have := mul_nonpos_of_nonneg_of_nonpos h0 hG.le
  linarith

/-- The reflection formula and the relative error at `1/4`, and conjugate arguments. -/
example : (∃ g h, gammaLanczos (1 / 4) = .ok g ∧ gammaLanczos (1 - 1 / 4) = .ok h ∧
    g * h = Real.pi / Complex.sin (Real.pi * (1 / 4))) ∧
    gammaLanczos (conj (1 + Complex.I)) = (gammaLanczos (1 + Complex.I)).map conj := by
  refine ⟨C158_reflection _ ?_ ?_, C158_conj _⟩
  · rw [show (1 / 4 : ℂ) = ((1 / 4 : ℝ) : ℂ) by push_cast; rfl, Complex.ofReal_re]
    norm_num
  · intro k h
    have h1 : (1 : ℂ) = ((4 * k : ℤ) : ℂ) := by
      push_cast
      rw [← h]
      norm_num
    have h2 : 1 = 4 * k := by exact_mod_cast h1
    omega

end Trv.Lz

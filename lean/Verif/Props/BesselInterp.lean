import Verif.Lemmas.BesselInterp
/-
C139: values of interpolated spherical Bessel functions.
-/
namespace Trv.Sbc

/-- C139 (domain): a calculator of any degree returns a value exactly for arguments that are not negative,
whichever function it samples. -/
theorem C139_defined (jl : ℕ → ℝ → ℝ) (l : ℕ) (t : ℝ) : (∃ v, eval jl (construct jl l) t = some v) ↔ 0 ≤ t := by
  constructor
  · rintro ⟨v, hv⟩
    by_contra h
    rw [not_le] at h
    unfold eval at hv
    have hS : (0 : ℝ) ≤ (splitNat l : ℝ) := Nat.cast_nonneg _
    rw [if_neg (by rw [construct_split]; linarith), if_pos] at hv
    · simp at hv
    · left
      rw [construct_x]
      simpa using h
  · intro h
    by_cases h1 : t < (construct jl l).split
    · exact ⟨_, eval_below jl l h h1⟩
    · exact ⟨jl l t, by unfold eval; rw [if_pos (not_lt.1 h1)]; rfl⟩

example : ¬ ∃ v, eval sphBessel (construct sphBessel 2) (-1) = some v := by
  rw [C139_defined]
  norm_num

/-- C139 (exactness): the value is that of the sampled function from 1000 on (or the square of the degree, if larger),
and at every multiple of 1/20. -/
theorem C139_exact (jl : ℕ → ℝ → ℝ) (l : ℕ) (t : ℝ) (h : max 1000 ((l : ℝ) * l) ≤ t ∨ ∃ i : ℕ, t = i / 20) :
    eval jl (construct jl l) t = some (jl l t) := by
  by_cases h1 : t < (construct jl l).split
  · rcases h with h | ⟨i, hi⟩
    · exfalso
      rw [construct_split] at h1
      unfold splitNat at h1
      push_cast at h1
      exact absurd h (not_le.2 h1)
    · have h0 : 0 ≤ t := by rw [hi]; positivity
      rw [eval_below jl l h0 h1]
      have hf : ⌊20 * t⌋₊ = i := by
        rw [hi, show 20 * ((i : ℝ) / 20) = (i : ℝ) by ring, Nat.floor_natCast]
      have hx : t = (construct jl l).x i := by rw [construct_x, hi]; ring
      have hg : gap (construct jl l).x i ≠ 0 := by
        rw [gap_uniform (construct_x jl l)]
        norm_num
      rw [hf, hx, (cubic_ends hg _).1]
      rfl
  · unfold eval
    rw [if_pos (not_lt.1 h1)]
    rfl

example : eval sphBessel (construct sphBessel 0) 0 = some 1 := by
  rw [C139_exact _ _ _ (Or.inr ⟨0, by norm_num⟩), bigJ_zero_zero]

/-- C139 (local accuracy): below the end of the table, the error is at most `7/10240000` plus a term that halves with
each step away from either end of the table. -/
theorem C139_local (l : ℕ) (t : ℝ) (h0 : 0 ≤ t) (h1 : t < max 1000 ((l : ℝ) * l)) :
    ∃ v, eval sphBessel (construct sphBessel l) t = some v ∧
      |v - sphBessel l t| ≤ 7 / 10240000 +
        ((1 / 2) ^ ⌊20 * t⌋₊ + (1 / 2) ^ (20 * max 1000 (l * l) - 1 - ⌊20 * t⌋₊)) / 3200 := by
  have h1' : t < (construct sphBessel l).split := by
    rw [construct_split]
    unfold splitNat
    push_cast
    exact h1
  exact ⟨_, eval_below _ l h0 h1', eval_err l h0 h1'⟩

example : ∃ v, eval sphBessel (construct sphBessel 4) 3.14 = some v ∧ |v - sphBessel 4 3.14| ≤ 1 / 1000000 := by
  obtain ⟨v, hv, h⟩ := C139_local 4 3.14 (by norm_num) (by norm_num)
  refine ⟨v, hv, h.trans ?_⟩
  have hf : ⌊(20 : ℝ) * 3.14⌋₊ = 62 := by rw [Nat.floor_eq_iff (by norm_num)]; norm_num
  rw [hf]
  have : (1 / 2 : ℝ) ^ (20 * max 1000 (4 * 4) - 1 - 62) ≤ (1 / 2) ^ 20 :=
    pow_le_pow_of_le_one (by norm_num) (by norm_num) (by norm_num)
  generalize (1 / 2 : ℝ) ^ (20 * max 1000 (4 * 4) - 1 - 62) = e at this
  norm_num at this ⊢
  linarith

/-- C139 (accuracy): the error is never more than 1/2000, for any degree and any argument that is not negative. -/
theorem C139_accuracy (l : ℕ) (t : ℝ) (h0 : 0 ≤ t) :
    ∃ v, eval sphBessel (construct sphBessel l) t = some v ∧ |v - sphBessel l t| ≤ 1 / 2000 := by
  by_cases h1 : t < max 1000 ((l : ℝ) * l)
  · obtain ⟨v, hv, h⟩ := C139_local l t h0 h1
    refine ⟨v, hv, h.trans ?_⟩
    have a : (1 / 2 : ℝ) ^ ⌊20 * t⌋₊ + (1 / 2) ^ (20 * max 1000 (l * l) - 1 - ⌊20 * t⌋₊) ≤ 3 / 2 := by
      have hp : ∀ k : ℕ, (1 / 2 : ℝ) ^ k ≤ 1 := fun k => pow_le_one₀ (by norm_num) (by norm_num)
      have hq : ∀ k : ℕ, 1 ≤ k → (1 / 2 : ℝ) ^ k ≤ 1 / 2 := fun k hk => by
        refine (pow_le_pow_of_le_one (by norm_num) (by norm_num) hk).trans ?_
        norm_num
      by_cases hi : 1 ≤ ⌊20 * t⌋₊
      · have := hq _ hi
        have := hp (20 * max 1000 (l * l) - 1 - ⌊20 * t⌋₊)
        linarith
      · have := hq (20 * max 1000 (l * l) - 1 - ⌊20 * t⌋₊) (by have := le_max_left 1000 (l * l); omega)
        have := hp ⌊20 * t⌋₊
        linarith
    linarith
  · exact ⟨sphBessel l t, C139_exact _ _ _ (Or.inl (not_lt.1 h1)), by simp⟩

example : ∃ v, eval sphBessel (construct sphBessel 40) 1599.99 = some v ∧ |v - sphBessel 40 1599.99| ≤ 1 / 2000 :=
  C139_accuracy 40 _ (by norm_num)

/-- C139 (accuracy away from the ends): at distance at least 1 from both ends of the table, and beyond it, the error
is at most `7 / 10^7`. -/
theorem C139_interior (l : ℕ) (t : ℝ) (h0 : 1 ≤ t) (h1 : t ≤ max 1000 ((l : ℝ) * l) - 1 ∨ max 1000 ((l : ℝ) * l) ≤ t) :
    ∃ v, eval sphBessel (construct sphBessel l) t = some v ∧ |v - sphBessel l t| ≤ 7 / 10 ^ 7 := by
  rcases h1 with h1 | h1
  · obtain ⟨v, hv, h⟩ := C139_local l t (by linarith) (by linarith)
    refine ⟨v, hv, h.trans ?_⟩
    have a : 20 ≤ ⌊20 * t⌋₊ := Nat.le_floor (by push_cast; linarith)
    have b : ⌊20 * t⌋₊ + 20 ≤ 20 * max 1000 (l * l) := by
      have : (⌊20 * t⌋₊ : ℝ) ≤ 20 * t := Nat.floor_le (by linarith)
      have h2 : ((⌊20 * t⌋₊ + 20 : ℕ) : ℝ) ≤ ((20 * max 1000 (l * l) : ℕ) : ℝ) := by
        push_cast
        linarith
      exact_mod_cast h2
    have c : (1 / 2 : ℝ) ^ ⌊20 * t⌋₊ ≤ (1 / 2) ^ 20 := pow_le_pow_of_le_one (by norm_num) (by norm_num) a
    have d : (1 / 2 : ℝ) ^ (20 * max 1000 (l * l) - 1 - ⌊20 * t⌋₊) ≤ (1 / 2) ^ 19 :=
      pow_le_pow_of_le_one (by norm_num) (by norm_num) (by omega)
    norm_num at c d ⊢
    linarith
  · exact ⟨sphBessel l t, C139_exact _ _ _ (Or.inl h1), by rw [sub_self, abs_zero]; norm_num⟩

example : ∃ v, eval sphBessel (construct sphBessel 2) 7.123 = some v ∧ |v - sphBessel 2 7.123| ≤ 7 / 10 ^ 7 :=
  C139_interior 2 _ (by norm_num) (Or.inl (by norm_num))

/-- C139 (near the origin): the accuracy of `C139_interior` is lost near the origin. The spline is given zero curvature
there, the function `j_0` has curvature -1/3, and half a step from the origin the value is too low by 1/50000 or more. -/
theorem C139_origin_violated : ¬ ∀ (l : ℕ) (t : ℝ), 0 ≤ t →
    ∃ v, eval sphBessel (construct sphBessel l) t = some v ∧ |v - sphBessel l t| < 1 / 50000 := by
  intro h
  obtain ⟨v, hv, hl⟩ := h 0 (1 / 40) (by norm_num)
  have h1 : (1 / 40 : ℝ) < (construct sphBessel 0).split := by
    rw [construct_split]
    have : (1000 : ℝ) ≤ (splitNat 0 : ℝ) := by exact_mod_cast splitNat_ge 0
    linarith
  rw [eval_below _ 0 (by norm_num) h1] at hv
  have hf : ⌊(20 : ℝ) * (1 / 40)⌋₊ = 0 := by rw [Nat.floor_eq_zero]; norm_num
  rw [hf, Option.some.injEq] at hv
  have := origin_err
  rw [hv] at this
  have := (abs_lt.1 hl).1
  linarith

/-- C139 (copies): a copy, or a copy of a copy, gives the same values as the calculator that was copied. -/
theorem C139_copy (jl : ℕ → ℝ → ℝ) (l k : ℕ) (t : ℝ) :
    eval jl (copy^[k] (construct jl l)) t = eval jl (construct jl l) t := by
  have : copy^[k] (construct jl l) = construct jl l := by
    induction k with
    | zero => rfl
    | succ k ih =>
      rw [Function.iterate_succ_apply', ih]
      rfl
  rw [this]

example : eval sphBessel (copy (copy (construct sphBessel 3))) 2 = some (sphBessel 3 2) := by
  rw [show copy (copy (construct sphBessel 3)) = copy^[2] (construct sphBessel 3) from rfl, C139_copy,
    C139_exact _ _ _ (Or.inr ⟨40, by norm_num⟩)]

/-- The specification gives `sin x / x` for degree 0. -/
example (x : ℝ) (hx : x ≠ 0) : sphBessel 0 x = Real.sin x / x := by
  unfold sphBessel
  have hc : Complex.I * (x : ℂ) ≠ 0 := mul_ne_zero Complex.I_ne_zero (by exact_mod_cast hx)
  have : ∫ mu in (-1 : ℝ)..1, Complex.exp (Complex.I * x * mu) * (legendre 0 mu : ℂ) = 2 * (Real.sin x / x : ℝ) := by
    simp only [legendre, Complex.ofReal_one, mul_one]
    rw [integral_exp_mul_complex hc]
    push_cast
    rw [Complex.sin]
    have hx' : (x : ℂ) ≠ 0 := by exact_mod_cast hx
    have hI := Complex.I_ne_zero
    field_simp
    rw [Complex.I_sq]
    ring_nf
  rw [this, ← mul_assoc]
  norm_num [-Complex.ofReal_div, Complex.ofReal_re]
  ring

end Trv.Sbc

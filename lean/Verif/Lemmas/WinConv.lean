import Verif.Lemmas.Legendre
import Verif.Lemmas.Multipole
import Mathlib.Algebra.BigOperators.Ring.Finset
/-
Lemmas on the window convolution.
-/
namespace Trv.Wc

open Trv

section

variable {K : Type} [Field K] [LinearOrder K]

theorem mem_getD {x : List K} {p : K} (h : p ∈ x) : ∃ j, j < x.length ∧ p = x.getD j 0 := by
  obtain ⟨j, hj, e⟩ := List.getElem_of_mem h
  exact ⟨j, hj, by rw [List.getD_eq_getElem?_getD, List.getElem?_eq_getElem hj, Option.getD_some, e]⟩

theorem map_getD {x : List K} {f : K → K} {i : ℕ} (hi : i < x.length) :
    (x.map f).getD i 0 = f (x.getD i 0) := by
  rw [List.getD_eq_getElem?_getD, List.getElem?_map, List.getElem?_eq_getElem hi,
    List.getD_eq_getElem?_getD, List.getElem?_eq_getElem hi]
  rfl

theorem spl_knot {I : Interp K} (hI : I.Ok) (ext : Bool) {x : List K} (hx : x.Pairwise (· < ·))
    (f : K → K) {p : K} (hp : p ∈ x) : I.spl ext x (x.map f) p = f p := by
  obtain ⟨j, hj, rfl⟩ := mem_getD hp
  unfold Interp.spl
  rw [Finset.sum_eq_single j]
  · rw [hI.knot ext x hx j j hj hj, if_pos rfl, one_mul, map_getD hj]
  · intro i hi hij
    rw [hI.knot ext x hx i j (Finset.mem_range.1 hi) hj, if_neg hij, zero_mul]
  · intro h
    exact absurd (Finset.mem_range.2 hj) h

theorem spl_const {I : Interp K} (hI : I.Ok) (ext : Bool) {x : List K} (hx : x.Pairwise (· < ·))
    (h0 : x ≠ []) (c : K) (p : K) : I.spl ext x (x.map fun _ => c) p = c := by
  unfold Interp.spl
  have : ∀ i ∈ Finset.range x.length, I.uni ext x p i * (x.map fun _ => c).getD i 0 =
      I.uni ext x p i * c := by
    intro i hi
    rw [map_getD (f := fun _ => c) (Finset.mem_range.1 hi)]
  rw [Finset.sum_congr rfl this, ← Finset.sum_mul, hI.unit ext x hx h0, one_mul]

theorem spl2_knot {I : Interp K} (hI : I.Ok) {x : List K} (hx : x.Pairwise (· < ·))
    (M : ℕ → ℕ → K) {a b : ℕ} (ha : a < x.length) (hb : b < x.length) :
    I.spl2 x M (x.getD a 0) (x.getD b 0) = M a b := by
  unfold Interp.spl2
  rw [Finset.sum_eq_single a]
  · rw [Finset.sum_eq_single b]
    · rw [hI.knot2 x hx a a ha ha, hI.knot2 x hx b b hb hb, if_pos rfl, if_pos rfl, one_mul, one_mul]
    · intro j hj hjb
      rw [hI.knot2 x hx j b (Finset.mem_range.1 hj) hb, if_neg hjb]
      ring
    · intro h
      exact absurd (Finset.mem_range.2 hb) h
  · intro i hi hia
    refine Finset.sum_eq_zero fun j _ => ?_
    rw [hI.knot2 x hx i a (Finset.mem_range.1 hi) ha, if_neg hia]
    ring
  · intro h
    exact absurd (Finset.mem_range.2 ha) h

theorem spl2_const {I : Interp K} (hI : I.Ok) {x : List K} (hx : x.Pairwise (· < ·))
    (h0 : x ≠ []) (c : K) (p q : K) : I.spl2 x (fun _ _ => c) p q = c := by
  unfold Interp.spl2
  have : ∀ i ∈ Finset.range x.length, ∑ j ∈ Finset.range x.length, I.biv x p i * I.biv x q j * c =
      I.biv x p i * c := by
    intro i _
    rw [← Finset.sum_mul, ← Finset.mul_sum, hI.unit2 x hx h0, mul_one]
  rw [Finset.sum_congr rfl this, ← Finset.sum_mul, hI.unit2 x hx h0, one_mul]

end

/-- Interpolation which takes the sample at a point and the first sample elsewhere satisfies the
hypotheses on interpolation. -/
def stepInterp (K : Type) [Field K] [DecidableEq K] : Interp K where
  uni _ x p i := if p ∈ x then (if x[i]? = some p then 1 else 0) else if i = 0 then 1 else 0
  biv x p i := if p ∈ x then (if x[i]? = some p then 1 else 0) else if i = 0 then 1 else 0
  simp _ _ := 1
  h2 m := if m = m000 then 1 else 0

theorem stepInterp_ok (K : Type) [Field K] [LinearOrder K] : (stepInterp K).Ok := by
  have knot : ∀ x : List K, x.Pairwise (· < ·) → ∀ i j, i < x.length → j < x.length →
      (if x.getD j 0 ∈ x then (if x[i]? = some (x.getD j 0) then (1 : K) else 0)
        else if i = 0 then 1 else 0) = if i = j then 1 else 0 := by
    intro x hx i j hi hj
    have hn : x.Nodup := hx.imp fun h => ne_of_lt h
    have hg : x.getD j 0 = x[j] := by
      rw [List.getD_eq_getElem?_getD, List.getElem?_eq_getElem hj, Option.getD_some]
    rw [hg, if_pos (List.getElem_mem hj), List.getElem?_eq_getElem hi]
    simp only [Option.some.injEq, hn.getElem_inj_iff]
  have unit : ∀ x : List K, x.Pairwise (· < ·) → x ≠ [] → ∀ p, ∑ i ∈ Finset.range x.length,
      (if p ∈ x then (if x[i]? = some p then (1 : K) else 0) else if i = 0 then 1 else 0) = 1 := by
    intro x hx h0 p
    by_cases hp : p ∈ x
    · obtain ⟨j, hj, rfl⟩ := mem_getD hp
      rw [Finset.sum_eq_single j]
      · rw [knot x hx j j hj hj, if_pos rfl]
      · intro i hi hij
        rw [knot x hx i j (Finset.mem_range.1 hi) hj, if_neg hij]
      · intro h
        exact absurd (Finset.mem_range.2 hj) h
    · simp only [hp, if_false]
      rw [Finset.sum_eq_single 0]
      · simp
      · intro i _ hi
        simp [hi]
      · intro h
        exact absurd (Finset.mem_range.2 (List.length_pos_of_ne_nil h0)) h
  exact ⟨fun _ => knot, fun _ => unit, knot, unit⟩

/-! ### Products of Legendre polynomials -/

open Polynomial

theorem eval_rec (n : ℕ) (x : ℝ) : (legendre (n + 2)).eval x =
    1 / ((n : ℝ) + 2) * ((2 * (n : ℝ) + 3) * x * (legendre (n + 1)).eval x -
      ((n : ℝ) + 1) * (legendre n).eval x) := by
  rw [legendre]
  simp

theorem legendre_eval (x : ℝ) :
    (legendre 0).eval x = 1 ∧ (legendre 1).eval x = x ∧ (legendre 2).eval x = (3 * x ^ 2 - 1) / 2 ∧
    (legendre 3).eval x = (5 * x ^ 3 - 3 * x) / 2 ∧
    (legendre 4).eval x = (35 * x ^ 4 - 30 * x ^ 2 + 3) / 8 ∧
    (legendre 5).eval x = (63 * x ^ 5 - 70 * x ^ 3 + 15 * x) / 8 ∧
    (legendre 6).eval x = (231 * x ^ 6 - 315 * x ^ 4 + 105 * x ^ 2 - 5) / 16 ∧
    (legendre 7).eval x = (429 * x ^ 7 - 693 * x ^ 5 + 315 * x ^ 3 - 35 * x) / 16 ∧
    (legendre 8).eval x = (6435 * x ^ 8 - 12012 * x ^ 6 + 6930 * x ^ 4 - 1260 * x ^ 2 + 35) / 128 := by
  have h0 : (legendre 0).eval x = 1 := by simp [legendre]
  have h1 : (legendre 1).eval x = x := by simp [legendre]
  have h2 : (legendre 2).eval x = (3 * x ^ 2 - 1) / 2 := by rw [eval_rec 0, h1, h0]; push_cast; ring
  have h3 : (legendre 3).eval x = (5 * x ^ 3 - 3 * x) / 2 := by rw [eval_rec 1, h2, h1]; push_cast; ring
  have h4 : (legendre 4).eval x = (35 * x ^ 4 - 30 * x ^ 2 + 3) / 8 := by
    rw [eval_rec 2, h3, h2]; push_cast; ring
  have h5 : (legendre 5).eval x = (63 * x ^ 5 - 70 * x ^ 3 + 15 * x) / 8 := by
    rw [eval_rec 3, h4, h3]; push_cast; ring
  have h6 : (legendre 6).eval x = (231 * x ^ 6 - 315 * x ^ 4 + 105 * x ^ 2 - 5) / 16 := by
    rw [eval_rec 4, h5, h4]; push_cast; ring
  have h7 : (legendre 7).eval x = (429 * x ^ 7 - 693 * x ^ 5 + 315 * x ^ 3 - 35 * x) / 16 := by
    rw [eval_rec 5, h6, h5]; push_cast; ring
  exact ⟨h0, h1, h2, h3, h4, h5, h6, h7, by rw [eval_rec 6, h7, h6]; push_cast; ring⟩

/-- Coefficient of the Legendre polynomial of degree `k` in the combination with weights `b`. -/
theorem multipole_of_expansion (N : ℕ) (hN : 9 ≤ N) (c b : ℕ → ℝ) (l : ℕ) (f : ℝ → ℝ)
    (hf : ∀ mu, f mu * (legendre l).eval mu = ∑ k ∈ Finset.range 9, b k * (legendre k).eval mu) :
    multipole l (fun mu => fromMultipoles N c mu * f mu) =
      (2 * l + 1) * ∑ k ∈ Finset.range 9, b k * c k / (2 * k + 1) := by
  have h1 : ∀ mu : ℝ, fromMultipoles N c mu * f mu * (legendre l).eval mu =
      (∑ p ∈ Finset.range N, ∑ k ∈ Finset.range 9,
        C (c p) * (C (b k) * (legendre p * legendre k))).eval mu := by
    intro mu
    rw [mul_assoc, hf, fromMultipoles, Finset.sum_mul_sum, eval_finset_sum]
    refine Finset.sum_congr rfl fun p _ => ?_
    rw [eval_finset_sum]
    refine Finset.sum_congr rfl fun k _ => ?_
    simp only [eval_mul, eval_C]
    ring
  have hs : ∀ (S : Finset ℕ) (g : ℕ → ℝ[X]), ave (∑ p ∈ S, g p) = ∑ p ∈ S, ave (g p) := by
    intro S g
    induction S using Finset.induction_on with
    | empty => simp [ave]
    | insert a S ha ih => rw [Finset.sum_insert ha, Finset.sum_insert ha, ave_add, ih]
  unfold multipole
  simp only [h1]
  have h2 := hs (Finset.range N) fun p => ∑ k ∈ Finset.range 9,
        C (c p) * (C (b k) * (legendre p * legendre k))
  rw [ave] at h2
  rw [h2]
  simp only [hs, ave_C_mul, ortho]
  rw [Finset.sum_comm]
  have h3 : ∀ k ∈ Finset.range 9, ∑ p ∈ Finset.range N, c p * (b k * if p = k then 2 / (2 * (p : ℝ) + 1) else 0) =
      2 * (b k * c k / (2 * k + 1)) := by
    intro k hk
    rw [Finset.sum_eq_single k]
    · rw [if_pos rfl]
      ring
    · intro p _ hp
      rw [if_neg hp]
      ring
    · intro h
      exact absurd (Finset.mem_range.2 (by have := Finset.mem_range.1 hk; omega)) h
  rw [Finset.sum_congr rfl h3, ← Finset.mul_sum]
  ring

end Trv.Wc

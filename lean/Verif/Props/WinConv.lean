import Verif.Lemmas.WinConv
import Mathlib.Tactic.FinCases
/-
Property theorems for the window convolution of correlation functions (`winconv.py`): C51, C52.
-/
namespace Trv.Wc

open Trv

/-! ### C51 -/

/-- The object constructed from `'wilson+16'`. -/
def formulae16 : Formulae :=
  ⟨wilson16, [⟨[0]⟩, ⟨[2]⟩, ⟨[4]⟩], [⟨[0]⟩, ⟨[2]⟩, ⟨[4]⟩, ⟨[6]⟩, ⟨[8]⟩], [⟨[0]⟩, ⟨[2]⟩, ⟨[4]⟩], false⟩

theorem ofItems_wilson16 : Formulae.ofItems wilson16 = .ok formulae16 := by decide +kernel

section

variable {K : Type} [Field K] [LinearOrder K]

/-- A dictionary of two-point samples with integer keys, as passed to the constructor. -/
def dict2 (ls : List ℕ) (x : List K) (f : ℕ → K → K) : List (Key × List K) :=
  ls.map fun l : ℕ => (.int l, x.map (f l))

/-- A dictionary of two-point samples with `Multipole` keys, as passed to `convolve`. -/
def dictM2 (ls : List ℕ) (x : List K) (f : ℕ → K → K) : List (Key × List K) :=
  ls.map fun l : ℕ => (.mp ⟨[l]⟩, x.map (f l))

/-- The convolution object with the same sample points everywhere. -/
def base16 (x : List K) (Q : ℕ → K → K) : Base K (List K) :=
  ⟨formulae16, [0, 2, 4, 6, 8].map fun l : ℕ => (⟨[l]⟩, x),
    [0, 2, 4, 6, 8].map fun l : ℕ => (⟨[l]⟩, x.map (Q l)),
    [0, 2, 4].map fun l : ℕ => (some ⟨[l]⟩, x), [0, 2, 4].map fun l : ℕ => (⟨[l]⟩, x)⟩

theorem mkBase_wilson16 (x : List K) (Q : ℕ → K → K) :
    mkBase formulae16 (.all x) (dict2 [0, 2, 4, 6, 8] x Q) (.all x) none = .ok (base16 x Q) := by
  rfl

theorem conv2Term_16 (I : Interp K) (x : List K) (Q f : ℕ → K → K) (q z : ℕ) (c : ℚ)
    (hq : q ∈ [0, 2, 4, 6, 8]) (hz : z ∈ [0, 2, 4]) :
    conv2Term I (base16 x Q) (dictM2 [0, 2, 4] x f) (term2 q z c) =
      .ok fun p => (c : K) * I.spl true x (x.map (Q q)) p * I.spl false x (x.map (f z)) p := by
  have h1 : get (base16 x Q).rQ (term2 q z c).q = .ok x := by
    fin_cases hq <;> rfl
  have h2 : get (base16 x Q).Q (term2 q z c).q = .ok (x.map (Q q)) := by
    fin_cases hq <;> rfl
  have h3 : get (base16 x Q).rIn (some ⟨[(z : ℤ)]⟩) = .ok x := by
    fin_cases hz <;> rfl
  have h4 : get (dictM2 [0, 2, 4] x f) (.mp ⟨[(z : ℤ)]⟩) = .ok (x.map (f z)) := by
    fin_cases hz <;> rfl
  unfold conv2Term
  rw [h1, h2]
  simp only [term2, List.length_map, ne_eq, not_true_eq_false, if_false]
  rw [h3, h4]
  simp

/-- The terms of the formula as triplets (window degree, correlation degree, coefficient). -/
def triplets16 : ℕ → List (ℕ × ℕ × ℚ)
  | 0 => [(0, 0, 1), (2, 2, 1 / 5), (4, 4, 1 / 9)]
  | 2 => [(2, 0, 1), (0, 2, 1), (2, 2, 2 / 7), (4, 2, 2 / 7), (2, 4, 2 / 7), (4, 4, 100 / 693),
      (6, 4, 25 / 143)]
  | 4 => [(4, 0, 1), (2, 2, 18 / 35), (4, 2, 20 / 77), (6, 2, 45 / 143), (0, 4, 1), (2, 4, 20 / 77),
      (4, 4, 162 / 1001), (6, 4, 20 / 143), (8, 4, 490 / 2431)]
  | _ => []

theorem conv2_16 {I : Interp K} (hI : I.Ok) {x : List K} (hx : x.Pairwise (· < ·)) (Q f : ℕ → K → K) :
    conv2 I (base16 x Q) (dictM2 [0, 2, 4] x f) = .ok ([0, 2, 4].map fun l : ℕ => (⟨[l]⟩,
      x.map fun p => ((triplets16 l).map fun t => (t.2.2 : K) * Q t.1 p * f t.2.1 p).sum)) := by
  unfold conv2
  rw [show (base16 x Q).F.multipoles = [0, 2, 4].map fun l : ℕ => (⟨[l]⟩ : Multipole) from rfl]
  apply traverse_map_ok
  intro l hl
  have h1 : get (base16 x Q).rOut ⟨[(l : ℤ)]⟩ = .ok x := by
    fin_cases hl <;> rfl
  have h2 : (base16 x Q).F.terms ⟨[(l : ℤ)]⟩ = (triplets16 l).map fun t => term2 t.1 t.2.1 t.2.2 := by
    fin_cases hl <;> rfl
  have h3 : ∀ t ∈ triplets16 l, t.1 ∈ [0, 2, 4, 6, 8] ∧ t.2.1 ∈ [0, 2, 4] := by
    fin_cases hl <;> decide
  rw [h1, h2, traverse_map_ok _ _ (fun (t : ℕ × ℕ × ℚ) (p : K) => (t.2.2 : K) *
    I.spl true x (x.map (Q t.1)) p * I.spl false x (x.map (f t.2.1)) p) _
    (fun t ht => conv2Term_16 I x Q f t.1 t.2.1 t.2.2 (h3 t ht).1 (h3 t ht).2)]
  simp only
  congr 2
  apply List.map_congr_left
  intro p hp
  rw [List.map_map]
  congr 1
  apply List.map_congr_left
  intro t _
  simp only [Function.comp_apply]
  rw [spl_knot hI true hx _ hp, spl_knot hI false hx _ hp]

end

/-- **C51.** The built-in two-point formula is exact: for every window with any number of multipoles
(given up to degree 8) and every correlation function with multipoles of degree 0, 2 and 4, sampled at
the same points, the convolution returns the multipoles of the product of the two functions of
separation and angle. -/
theorem C51_wilson_exact {I : Interp ℝ} (hI : I.Ok) {x : List ℝ} (hx : x.Pairwise (· < ·))
    (N : ℕ) (hN : 9 ≤ N) (Q f : ℕ → ℝ → ℝ) :
    ∃ F B, Formulae.ofItems wilson16 = .ok F ∧
      mkBase F (.all x) (dict2 [0, 2, 4, 6, 8] x Q) (.all x) none = .ok B ∧
      conv2 I B (dictM2 [0, 2, 4] x f) = .ok ([0, 2, 4].map fun l : ℕ => (⟨[l]⟩,
        x.map fun r => multipole l fun mu =>
          fromMultipoles N (fun p => Q p r) mu *
            (f 0 r * (legendre 0).eval mu + f 2 r * (legendre 2).eval mu +
              f 4 r * (legendre 4).eval mu))) := by
  refine ⟨formulae16, base16 x Q, ofItems_wilson16, mkBase_wilson16 x Q, ?_⟩
  rw [conv2_16 hI hx]
  congr 1
  apply List.map_congr_left
  intro l hl
  simp only [Prod.mk.injEq, true_and]
  apply List.map_congr_left
  intro r _
  simp only [List.mem_cons, List.not_mem_nil, or_false] at hl
  rcases hl with rfl | rfl | rfl
  · rw [multipole_of_expansion N hN _ (fun k => match k with
      | 0 => f 0 r | 2 => f 2 r | 4 => f 4 r | _ => 0)]
    · simp [Finset.sum_range_succ, triplets16]
      ring
    · intro mu
      obtain ⟨h0, h1, h2, h3, h4, h5, h6, h7, h8⟩ := legendre_eval mu
      simp only [Finset.sum_range_succ, Finset.sum_range_zero, h0, h1, h2, h3, h4, h5, h6, h7, h8]
      ring
  · rw [multipole_of_expansion N hN _ (fun k => match k with
      | 0 => f 2 r / 5 | 2 => f 0 r + 2 / 7 * f 2 r + 2 / 7 * f 4 r
      | 4 => 18 / 35 * f 2 r + 20 / 77 * f 4 r | 6 => 5 / 11 * f 4 r | _ => 0)]
    · simp [Finset.sum_range_succ, triplets16]
      ring
    · intro mu
      obtain ⟨h0, h1, h2, h3, h4, h5, h6, h7, h8⟩ := legendre_eval mu
      simp only [Finset.sum_range_succ, Finset.sum_range_zero, h0, h1, h2, h3, h4, h5, h6, h7, h8]
      ring
  · rw [multipole_of_expansion N hN _ (fun k => match k with
      | 0 => f 4 r / 9 | 2 => 2 / 7 * f 2 r + 100 / 693 * f 4 r
      | 4 => f 0 r + 20 / 77 * f 2 r + 162 / 1001 * f 4 r
      | 6 => 5 / 11 * f 2 r + 20 / 99 * f 4 r | 8 => 490 / 1287 * f 4 r | _ => 0)]
    · simp [Finset.sum_range_succ, triplets16]
      ring
    · intro mu
      obtain ⟨h0, h1, h2, h3, h4, h5, h6, h7, h8⟩ := legendre_eval mu
      simp only [Finset.sum_range_succ, Finset.sum_range_zero, h0, h1, h2, h3, h4, h5, h6, h7, h8]
      ring

/-- The hypotheses on interpolation can be met, and sample points increase. -/
example : (stepInterp ℝ).Ok ∧ ([1, 2, 3] : List ℝ).Pairwise (· < ·) :=
  ⟨stepInterp_ok ℝ, by norm_num⟩

end Trv.Wc

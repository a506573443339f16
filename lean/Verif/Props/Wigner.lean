import Verif.Lemmas.Wigner
import Verif.Spec.WignerExact
import Verif.Props.BispecLegendre
import Verif.Props.Coeff
/-
Property theorems on the Wigner symbols and on which three-point multipoles are measured (C146).
-/
namespace Trv.Zeta
open Trv.Mesh Trv.Stats Trv.Win Trv.Two Trv.ThreePt Trv.Bis

/-! ### C146 -/

theorem like : WignerLike Wc.wigner3j where
  select := fun a b c _ _ _ h => Wc.wigner_select a b c h
  reflect := fun a b c m1 m2 m3 => Wc.wigner_reflect a b c m1 m2 m3
  exchange := fun a b c m1 m2 m3 => Wc.wigner_exchange a b c m1 m2 m3

/-- **C146 (symmetries).** The Wigner symbols have the symmetries and the values at a vanishing degree, and the
associated Legendre functions the parity and zeros, which the theorems on multipoles (C102, C103, C110, C126,
C127, C140) assume of the special functions. -/
theorem C146_special (E : Env3) (h : Exact E) :
    LegendreLike E.P ∧ WignerLike E.w3j ∧ Special3 E ∧ Special E.toEnv := by
  have s3 : Special3 E := by
    refine ⟨h.1, by rw [h.2]; exact like, ?_, ?_⟩
    · intro l m hm
      rw [h.2]
      exact Wc.wigner_last l m hm
    · intro l m hm
      rw [h.2]
      exact Wc.wigner_middle l m hm
  refine ⟨special_like s3, s3.symmetric, s3, ?_, ?_⟩
  · intro l m mu _ _
    rw [h.1]
  · intro m M hm _
    rw [h.2]
    split_ifs with hz
    · obtain rfl : M = -m := by omega
      exact Wc.wigner_middle _ m hm
    · have := Wc.wigner_nat E.ELL 0 E.ELL m 0 M
      rw [Nat.cast_zero] at this
      rw [this, if_neg fun hh => hz (by omega)]

/-- **C146 (orders zero).** The symbols with which the C++ code validates degrees are those with which the Python
code computes coefficients of the window convolution; they vanish exactly unless the degrees can form a triangle
and have an even sum, and then their squares are ratios of central binomial coefficients. -/
theorem C146_orders_zero (a b c : ℕ) :
    Wc.wigner3j a b c 0 0 0 = Wc.hFactor a b c ∧
    (Wc.wigner3j a b c 0 0 0 = 0 ↔ ¬ Wc.Allowed a b c) ∧
    (∀ x y z : ℕ, a = y + z → b = x + z → c = x + y → Wc.wigner3j a b c 0 0 0 ^ 2 =
      (x.centralBinom * y.centralBinom * z.centralBinom : ℝ) / ((2 * (x + y + z : ℕ) + 1) * (x + y + z).centralBinom)) := by
  refine ⟨Wc.wigner_zero a b c, ?_, ?_⟩
  · rw [Wc.wigner_zero, Wc.hFactor_zero_iff]
    have := Wc.val_iff (a, b, c)
    unfold Wc.Val at this
    have e : Wc.Allowed a b c ↔ Wc.Tri a b c ∧ (a + b + c) % 2 = 0 := by
      unfold Wc.Allowed Wc.Tri
      rw [Nat.even_iff]
      constructor <;> intro h <;> omega
    rw [e, ← this]
    simp only
    tauto
  · rintro x y z rfl rfl rfl
    rw [Wc.wigner_zero]
    exact Wc.hFactor_even x y z

theorem halves {a b c : ℕ} (h : Wc.Allowed a b c) : ∃ x y z : ℕ, a = y + z ∧ b = x + z ∧ c = x + y := by
  obtain ⟨h1, h2, h3, h4⟩ := h
  rw [Nat.even_iff] at h4
  exact ⟨(b + c - a) / 2, (a + c - b) / 2, (a + b - c) / 2, by omega, by omega, by omega⟩

theorem accepted_iff (E : Env3) (h : Exact E) (hl : E.ell1 + E.ell2 + E.ELL ≤ 30000) :
    |E.w3j E.ell1 E.ell2 E.ELL 0 0 0| < epsCoupling ↔ ¬ Wc.Allowed E.ell1 E.ell2 E.ELL := by
  rw [h.2]
  have hz := (C146_orders_zero E.ell1 E.ell2 E.ELL).2.1
  constructor
  · intro hlt ha
    obtain ⟨x, y, z, e1, e2, e3⟩ := halves ha
    rw [Wc.wigner_zero, e1, e2, e3] at hlt
    have hb := Wc.hFactor_lower x y z
    have hg : ((x + y + z : ℕ) : ℝ) ≤ 15000 := by
      have : x + y + z ≤ 15000 := by omega
      exact_mod_cast this
    have h0 : (0 : ℝ) ≤ ((x + y + z : ℕ) : ℝ) := by positivity
    have : epsCoupling ≤ 1 / (2 * ((x + y + z : ℕ) : ℝ) + 1) ^ 2 := by
      unfold epsCoupling
      rw [div_le_div_iff₀ (by norm_num) (by positivity)]
      nlinarith
    linarith
  · intro ha
    rw [hz.mpr ha, abs_zero]
    unfold epsCoupling
    norm_num

theorem measure_rejected (E : Env3) (F : Fields) (ts : List Triplet) (norm : ℝ) :
    measure E F ts norm = .error .invalidParameter ↔ |E.w3j E.ell1 E.ell2 E.ELL 0 0 0| < epsCoupling := by
  unfold measure
  split_ifs with h1 h2
  · simp [h1]
  · simp [h1]
  · simp [h1]

/-- **C146 (which degrees).** Three-point measurements reject degrees exactly when these cannot form a triangle or
have an odd sum: the threshold of the test rejects no other (up to a sum of degrees of 30000), in surveys, boxes
and windows, in Fourier and configuration space. -/
theorem C146_rejected (E : Env3) (h : Exact E) (hl : E.ell1 + E.ell2 + E.ELL ≤ 30000) (data rand : List Part)
    (pos : List (Fin 3 → ℝ)) (alpha norm : ℝ) (wa : Option (ℕ × ℕ)) :
    (computeBispec E data rand norm = .error .invalidParameter ↔ ¬ Wc.Allowed E.ell1 E.ell2 E.ELL) ∧
    (computeBispecBox E pos norm = .error .invalidParameter ↔ ¬ Wc.Allowed E.ell1 E.ell2 E.ELL) ∧
    (compute3pcf E data rand norm = .error .invalidParameter ↔ ¬ Wc.Allowed E.ell1 E.ell2 E.ELL) ∧
    (compute3pcfBox E pos norm = .error .invalidParameter ↔ ¬ Wc.Allowed E.ell1 E.ell2 E.ELL) ∧
    (compute3pcfWindow E rand alpha wa norm = .error .invalidParameter ↔ ¬ Wc.Allowed E.ell1 E.ell2 E.ELL) := by
  rw [← accepted_iff E h hl]
  refine ⟨?_, ?_, measure_rejected .., measure_rejected .., measure_rejected ..⟩
  · unfold computeBispec
    split_ifs with h1
    · simp [h1]
    · simp only [h1, iff_false]
      split_ifs <;> simp
  · unfold computeBispecBox
    split_ifs with h1
    · simp [h1]
    · simp only [h1, iff_false]
      split_ifs <;> simp

/-- **C146 (no order is lost).** Up to a sum of degrees of 38, a coupling coefficient which does not vanish is
above the threshold under which the program skips an order. -/
theorem C146_no_gap (E : Env3) (h : Exact E) (hl : E.ell1 + E.ell2 + E.ELL ≤ 38) (t : Triplet) :
    coupling3 E t = 0 ∨ epsCoupling < |coupling3 E t| := by
  by_cases ha : Wc.Allowed E.ell1 E.ell2 E.ELL
  swap
  · left
    unfold coupling3
    rw [h.2, (C146_orders_zero E.ell1 E.ell2 E.ELL).2.1.mpr ha]
    ring
  by_cases hw : Wc.wigner3j E.ell1 E.ell2 E.ELL t.m1 t.m2 t.M = 0
  · left
    unfold coupling3
    rw [h.2, hw]
    ring
  right
  obtain ⟨x, y, z, e1, e2, e3⟩ := halves ha
  rw [e1, e2, e3] at hl
  unfold coupling3
  rw [h.2, e1, e2, e3, Wc.wigner_zero]
  rw [e1, e2, e3] at hw
  have key := Wc.product_lower x y z t.m1 t.m2 t.M hw
  have tab := Wc.coupling_table x (by omega) y (by omega) z (by omega)
  generalize Wc.wigner3j (y + z : ℕ) (x + z : ℕ) (x + y : ℕ) t.m1 t.m2 t.M = w at *
  generalize Wc.hFactor (y + z) (x + z) (x + y) = k at *
  have hN : (0 : ℝ) < (2 * ((y + z : ℕ) : ℝ) + 1) * (2 * ((x + z : ℕ) : ℝ) + 1) * (2 * ((x + y : ℕ) : ℝ) + 1) := by positivity
  rw [mul_assoc _ k w, abs_mul, abs_of_pos hN]
  have tab' : (((2 * (x + y + z) + 1).factorial * (x.factorial * y.factorial * z.factorial) : ℕ) : ℝ) <
      1000000000 * ((2 * ((y + z : ℕ) : ℝ) + 1) * (2 * ((x + z : ℕ) : ℝ) + 1) * (2 * ((x + y : ℕ) : ℝ) + 1) *
        (((x + y + z).factorial * ((y + z).factorial * (x + z).factorial * (x + y).factorial) : ℕ) : ℝ)) := by
    exact_mod_cast tab
  have hD : (0 : ℝ) < (((2 * (x + y + z) + 1).factorial * (x.factorial * y.factorial * z.factorial) : ℕ) : ℝ) := by positivity
  generalize (((2 * (x + y + z) + 1).factorial * (x.factorial * y.factorial * z.factorial) : ℕ) : ℝ) = D at *
  generalize (((x + y + z).factorial * ((y + z).factorial * (x + z).factorial * (x + y).factorial) : ℕ) : ℝ) = A at *
  generalize (2 * ((y + z : ℕ) : ℝ) + 1) * (2 * ((x + z : ℕ) : ℝ) + 1) * (2 * ((x + y : ℕ) : ℝ) + 1) = N at *
  unfold epsCoupling
  have h1 : D < D * (1000000000 * (N * |k * w|)) := by
    calc D < 1000000000 * (N * A) := tab'
      _ ≤ 1000000000 * (N * (D * |k * w|)) := by
        have := mul_le_mul_of_nonneg_left key hN.le
        linarith
      _ = _ := by ring
  have h2 : 1 < 1000000000 * (N * |k * w|) := by
    by_contra hc
    have := mul_le_mul_of_nonneg_left (not_lt.mp hc) hD.le
    linarith
  linarith

theorem no_gap (E : Env3) (h : Exact E) (hl : E.ell1 + E.ell2 + E.ELL ≤ 38) (t : Triplet) :
    |coupling3 E t| ≠ epsCoupling := by
  rcases C146_no_gap E h hl t with h0 | h0
  · rw [h0, abs_zero]
    unfold epsCoupling
    norm_num
  · exact h0.ne'

theorem term_eq (E : Env3) (h : Exact E) (hl : E.ell1 + E.ell2 + E.ELL ≤ 38) (m1 m2 M : ℤ) (v : ℂ) :
    (if epsCoupling < |coefficient E m1 m2 M| then (coefficient E m1 m2 M : ℂ) * v else 0) =
      (coeff3 E.ell1 E.ell2 E.ELL m1 m2 M : ℂ) * v := by
  have e : coefficient E m1 m2 M = coeff3 E.ell1 E.ell2 E.ELL m1 m2 M := by
    unfold coefficient coeff3
    rw [h.2]
  have hg := C146_no_gap E h hl ⟨m1, m2, M⟩
  have e' : coupling3 E ⟨m1, m2, M⟩ = coefficient E m1 m2 M := rfl
  rw [e'] at hg
  split_ifs with hlt
  · rw [e]
  · rcases hg with h0 | h0
    · rw [← e, h0]; simp
    · exact absurd h0 hlt

theorem all_every (E : Env3) (h : Exact E) (hl : E.ell1 + E.ell2 + E.ELL ≤ 38) (f : Triplet → ℂ) :
    allOrders E f = everyOrder E.ell1 E.ell2 E.ELL f := by
  unfold allOrders everyOrder
  refine Finset.sum_congr rfl fun m1 _ => Finset.sum_congr rfl fun m2 _ => Finset.sum_congr rfl fun M _ => ?_
  exact term_eq E h hl m1 m2 M _

theorem plane_every (E : Env3) (h : Exact E) (hl : E.ell1 + E.ell2 + E.ELL ≤ 38) (f : Triplet → ℂ) :
    planeOrders E f = everyPlaneOrder E.ell1 E.ell2 E.ELL f := by
  unfold planeOrders everyPlaneOrder
  refine Finset.sum_congr rfl fun m1 _ => Finset.sum_congr rfl fun m2 _ => ?_
  exact term_eq E h hl m1 m2 0 _

/-- **C146 (bispectrum).** With exact special functions the measured bispectrum and its shot noise are the sums
over ALL spherical orders of couplings times means over triangles: neither the threshold nor the computation of one
of each two opposite triplets changes them. -/
theorem C146_bispectrum (E : Env3) (hE : Exact E) (hl : E.ell1 + E.ell2 + E.ELL ≤ 38) (hM : GoodMesh E.mesh)
    (hi : E.interlace = false) (hv : ValidForm E.numBins E.form) (data rand : List Part) (norm : ℝ) (rows : List Row3)
    (h : computeBispec E data rand norm = .ok rows) (e : Entry)
    (he : e ∈ measWrites E.numBins E.form) (hr : BelowRounded E e.row) (hc : BelowRounded E e.col) :
    ∃ r, rows[e.pos.toNat]? = some r ∧
      r.raw = (norm : ℂ) * everyOrder E.ell1 E.ell2 E.ELL (fun t => triangles E data rand t e.row e.col) ∧
      r.shot = (norm : ℂ) * everyOrder E.ell1 E.ell2 E.ELL (noisePart E (surveyNoise E data rand) e.row e.col) := by
  obtain ⟨hP, hw, _⟩ := C146_special E hE
  have hgap : ∀ t : Triplet, t.Allowed E.ell1 E.ell2 E.ELL → |coupling3 E t| ≠ epsCoupling :=
    fun t _ => no_gap E hE hl t
  have hB : Below E e.row e.col := by
    intro a
    refine ⟨by have := hr a; linarith, by have := hc a; linarith, fun hh => ?_⟩
    rw [hi] at hh
    cases hh
  obtain ⟨r, h1, h2, _⟩ := C110_shotnoise E hP hw hM hi hgap hv data rand norm rows h e he hr hc
  have h3 := C102_all_orders E hP hw hM hgap data rand norm rows h e he hB
  rw [h1, Option.map_some, Option.some_inj] at h3
  refine ⟨r, h1, ?_, by rw [h2, all_every E hE hl]⟩
  rw [h3]
  congr 1
  exact all_every E hE hl fun t => triangles E data rand t e.row e.col

/-- **C146 (box).** Likewise in a periodic box, with orders whose third member vanishes. -/
theorem C146_box (E : Env3) (hE : Exact E) (hl : E.ell1 + E.ell2 + E.ELL ≤ 38) (hM : GoodMesh E.mesh)
    (hi : E.interlace = false) (hv : ValidForm E.numBins E.form) (pos : List (Fin 3 → ℝ)) (norm : ℝ) (rows : List Row3)
    (h : computeBispecBox E pos norm = .ok rows) (e : Entry)
    (he : e ∈ measWrites E.numBins E.form) (hr : BelowRounded E e.row) (hc : BelowRounded E e.col) :
    ∃ r, rows[e.pos.toNat]? = some r ∧
      r.raw = (norm : ℂ) * everyPlaneOrder E.ell1 E.ell2 E.ELL (boxTriangles E pos e.row e.col) ∧
      r.shot = (norm : ℂ) * everyPlaneOrder E.ell1 E.ell2 E.ELL (noisePart E (boxNoise E pos) e.row e.col) := by
  obtain ⟨hP, hw, _⟩ := C146_special E hE
  obtain ⟨r, h1, h2, h3, _⟩ := C110_box E hP hw hM hi (fun t _ => no_gap E hE hl t) hv pos norm rows h e he hr hc
  exact ⟨r, h1, by rw [h2, plane_every E hE hl], by rw [h3, plane_every E hE hl]⟩

/-! ### Cases -/

/-- A measurement with exact special functions. -/
noncomputable def exX (l1 l2 L : ℕ) : Env3 := { exT l1 l2 L with w3j := Wc.wigner3j }

theorem exX_exact (l1 l2 L : ℕ) : Exact (exX l1 l2 L) := ⟨rfl, rfl⟩

/-- The multipole of degrees 1, 1, 2 is measured and that of degrees 1, 1, 1 or 1, 1, 4 rejected. -/
example (data rand : List Part) (norm : ℝ) :
    (∃ rows, computeBispec (exX 1 1 2) data rand norm = .ok rows) ∧
    computeBispec (exX 1 1 1) data rand norm = .error .invalidParameter ∧
    computeBispec (exX 1 1 4) data rand norm = .error .invalidParameter := by
  refine ⟨?_, ?_, ?_⟩
  · obtain ⟨rows, h, _⟩ := C37_measurement_defined_partial (exX 1 1 2) data rand norm (by
      by_contra hc
      exact (accepted_iff (exX 1 1 2) (exX_exact _ _ _) (by decide)).1 (not_le.mp hc)
        ⟨by decide, by decide, by decide, by decide⟩) (Or.inl (show Form.diag ≠ Form.full by decide))
    exact ⟨rows, h⟩
  · refine (C146_rejected (exX 1 1 1) (exX_exact _ _ _) (by decide) data rand [] 0 norm none).1.2 ?_
    rintro ⟨_, _, _, h⟩
    exact absurd h (show ¬ Even (1 + 1 + 1) by decide)
  · refine (C146_rejected (exX 1 1 4) (exX_exact _ _ _) (by decide) data rand [] 0 norm none).1.2 ?_
    rintro ⟨_, _, h, _⟩
    exact absurd h (show ¬ 4 ≤ 1 + 1 by decide)

/-- The hypotheses of the sums over all orders are met, at an entry with modes. -/
example : GoodMesh (exX 1 1 2).mesh ∧ (exX 1 1 2).interlace = false ∧ ValidForm (exX 1 1 2).numBins (exX 1 1 2).form ∧
    (⟨0, 0, 0⟩ : Entry) ∈ measWrites (exX 1 1 2).numBins (exX 1 1 2).form ∧ BelowRounded (exX 1 1 2) 0 := by
  have hpi := Real.pi_gt_three
  refine ⟨⟨?_, ?_, ?_⟩, rfl, trivial, ?_, ?_⟩
  · intro a; exact ⟨show (0 : ℤ) < 8 by norm_num, show (0 : ℝ) < 100 by norm_num⟩
  · intro a; exact show (2 : ℤ) ∣ 8 by norm_num
  · intro a
    show (1 : ℝ) / 1000000000 ≤ 2 * Real.pi / 100
    linarith
  · show (⟨0, 0, 0⟩ : Entry) ∈ measWrites 2 .diag
    decide
  · intro a
    show (1 : ℝ) / 10 + 1 / 100000 ≤ Real.pi * ((8 : ℤ) : ℝ) / 100
    push_cast
    linarith

/-- The symbol of degrees 1, 1, 2 and orders zero is `√(2/15)`, up to its sign. -/
example : Wc.wigner3j 1 1 2 0 0 0 ^ 2 = 2 / 15 := by
  have := (C146_orders_zero 1 1 2).2.2 1 1 0 rfl rfl rfl
  norm_num [Nat.centralBinom, Nat.choose] at this ⊢
  rw [this]

end Trv.Zeta

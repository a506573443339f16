import Verif.Lemmas.TripoSH
import Verif.Props.WinConv3
/-
Property theorems for the built-in three-point window convolution formula (`winconv.py`): C83, C86.
-/
namespace Trv.Wc

open Trv Real

/-! ### The basis -/

theorem tripole_000 (u v phi : ℝ) : tripole m000 u v phi = pval [(1, 0, 0, 0)] u v phi := by
  simp [tripole, pval, Mono.val]

theorem tripole_110 (u v phi : ℝ) :
    tripole m110 u v phi = pval [(1, 1, 1, 0), (1, 0, 0, 1)] u v phi := by
  rw [tripole, if_neg (by decide), if_pos rfl]
  simp [dot, pval, Mono.val]

theorem tripole_202 (u v phi : ℝ) :
    tripole m202 u v phi = pval [(3 / 2, 2, 0, 0), (-1 / 2, 0, 0, 0)] u v phi := by
  rw [tripole, if_neg (by decide), if_neg (by decide), if_pos rfl]
  simp [pval, Mono.val]
  ring

theorem tripole_022 (u v phi : ℝ) :
    tripole m022 u v phi = pval [(3 / 2, 0, 2, 0), (-1 / 2, 0, 0, 0)] u v phi := by
  rw [tripole, if_neg (by decide), if_neg (by decide), if_neg (by decide), if_pos rfl]
  simp [pval, Mono.val]
  ring

theorem tripole_112 (u v phi : ℝ) :
    tripole m112 u v phi = pval [(1, 1, 1, 0), (-1 / 2, 0, 0, 1)] u v phi := by
  rw [tripole, if_neg (by decide), if_neg (by decide), if_neg (by decide), if_neg (by decide), if_pos rfl]
  simp [dot, pval, Mono.val]
  ring

theorem norms :
    average (fun u v phi => tripole m000 u v phi * tripole m000 u v phi) = 1 ∧
    average (fun u v phi => tripole m110 u v phi * tripole m110 u v phi) = 1 / 3 ∧
    average (fun u v phi => tripole m202 u v phi * tripole m202 u v phi) = 1 / 5 ∧
    average (fun u v phi => tripole m022 u v phi * tripole m022 u v phi) = 1 / 5 ∧
    average (fun u v phi => tripole m112 u v phi * tripole m112 u v phi) = 1 / 6 := by
  simp only [tripole_000, tripole_110, tripole_202, tripole_022, tripole_112, ← pval_pmul]
  refine ⟨?_, ?_, ?_, ?_, ?_⟩ <;>
  · rw [show (fun u v phi => pval _ u v phi) = pval _ from rfl, average_pval]
    simp [pmul, moment_zero, moment_one, moment_two, mu1_two, mu1_zero]
    norm_num

/-- A polynomial with given multipoles. -/
noncomputable def polyOf (c : Multipole → ℝ) : List Mono :=
  [(c m000, 0, 0, 0), (c m110, 1, 1, 0), (c m110, 0, 0, 1), (3 / 2 * c m022, 0, 2, 0),
   (-1 / 2 * c m022, 0, 0, 0), (c m112, 1, 1, 0), (-1 / 2 * c m112, 0, 0, 1), (3 / 2 * c m202, 2, 0, 0),
   (-1 / 2 * c m202, 0, 0, 0)]

theorem fromTripoles_eq (c : Multipole → ℝ) (u v phi : ℝ) :
    fromTripoles c u v phi = pval (polyOf c) u v phi := by
  rw [fromTripoles, tripole_110, tripole_202, tripole_022, tripole_112]
  simp [polyOf, pval, Mono.val]
  ring

/-- An isotropic polynomial: only the multipoles with `L = 0`. -/
noncomputable def polyIso (c : Multipole → ℝ) : List Mono :=
  [(c m000, 0, 0, 0), (c m110, 1, 1, 0), (c m110, 0, 0, 1)]

/-- Isotropy: the multipoles of non-zero degree with respect to the line of sight vanish. -/
def Iso (c : Multipole → ℝ) : Prop := c m022 = 0 ∧ c m112 = 0 ∧ c m202 = 0

theorem fromTripoles_iso {c : Multipole → ℝ} (h : Iso c) (u v phi : ℝ) :
    fromTripoles c u v phi = pval (polyIso c) u v phi := by
  rw [fromTripoles, h.1, h.2.1, h.2.2, tripole_110]
  simp [polyIso, pval, Mono.val]
  ring

/-- The product of an isotropic function and any function. -/
theorem product_iso (a b : Multipole → ℝ) (ha : Iso a) :
    multipole3 m000 (fun u v phi => fromTripoles a u v phi * fromTripoles b u v phi) =
      a m000 * b m000 + 1 / 3 * a m110 * b m110 ∧
    multipole3 m110 (fun u v phi => fromTripoles a u v phi * fromTripoles b u v phi) =
      a m000 * b m110 + a m110 * b m000 ∧
    multipole3 m202 (fun u v phi => fromTripoles a u v phi * fromTripoles b u v phi) =
      a m000 * b m202 + 1 / 3 * a m110 * b m112 ∧
    multipole3 m112 (fun u v phi => fromTripoles a u v phi * fromTripoles b u v phi) =
      a m000 * b m112 + 2 / 5 * a m110 * b m022 + 2 / 5 * a m110 * b m202 := by
  obtain ⟨n1, n2, n3, _, n5⟩ := norms
  unfold multipole3
  rw [n1, n2, n3, n5]
  simp only [fromTripoles_iso ha, fromTripoles_eq b, tripole_000, tripole_110, tripole_202, tripole_112,
    ← pval_pmul]
  refine ⟨?_, ?_, ?_, ?_⟩ <;>
  · rw [show (fun u v phi => pval _ u v phi) = pval _ from rfl, average_pval]
    simp [pmul, polyIso, polyOf, moment_zero, moment_one, moment_two, moment_three, mu1_two, mu1_zero]
    ring

/-! ### C83 -/

/-- A correlation function with the integral constraint subtracted. -/
def lessConst (c : ℝ) (f : Multipole → ℝ) : Multipole → ℝ := fun m => if m = m000 then f m - c else f m

theorem fromTripoles_lessConst (c : ℝ) (f : Multipole → ℝ) (u v phi : ℝ) :
    fromTripoles (lessConst c f) u v phi = fromTripoles f u v phi - c := by
  have e0 : lessConst c f m000 = f m000 - c := rfl
  have e1 : lessConst c f m110 = f m110 := rfl
  have e2 : lessConst c f m022 = f m022 := rfl
  have e3 : lessConst c f m112 = f m112 := rfl
  have e4 : lessConst c f m202 = f m202 := rfl
  rw [fromTripoles, fromTripoles, e0, e1, e2, e3, e4]
  ring

theorem terms19 :
    formulae19.terms m000 = [⟨m000, some m000, 1⟩, ⟨m000, none, -1⟩, ⟨m110, some m110, 1 / 3⟩] ∧
    formulae19.terms m110 = [⟨m000, some m110, 1⟩, ⟨m110, some m000, 1⟩, ⟨m110, none, -1⟩] ∧
    formulae19.terms m202 = [⟨m000, some m202, 1⟩, ⟨m202, some m000, 1⟩, ⟨m202, none, -1⟩,
      ⟨m110, some m112, 1 / 3⟩, ⟨m112, some m110, 1 / 3⟩] ∧
    formulae19.terms m112 = [⟨m000, some m112, 1⟩, ⟨m112, some m000, 1⟩, ⟨m112, none, -1⟩,
      ⟨m022, some m110, 2 / 5⟩, ⟨m202, some m110, 2 / 5⟩, ⟨m110, some m022, 2 / 5⟩,
      ⟨m110, some m202, 2 / 5⟩] := ⟨rfl, rfl, rfl, rfl⟩

/-- **C83.** The built-in three-point formula is exact whenever the window or the correlation function
is isotropic (has multipoles with `L = 0` only), at every pair of separations: the convolution returns
the multipoles of the product of the window with the correlation function less the integral constraint.
Missing: both anisotropic, see `C83_anisotropic_violated`. -/
theorem C83_isotropic_partial {I : Interp ℝ} (hI : I.Ok) {x : List ℝ} (hx : x.Pairwise (· < ·))
    (Q : Multipole → ℝ → ℝ → ℝ) (f : Multipole → ℝ → ℝ → ℝ × ℝ) (c : ℝ)
    (hiso : ∀ p q, Iso (fun m => Q m p q) ∨ Iso (fun m => (f m p q).1)) :
    ∃ F B, Formulae.ofItems sugiyama19 = .ok F ∧
      mkBase F (.all x) (dictQ3 x Q) (.all x) none = .ok B ∧
      conv3 I B (dictZ3 x f) (some c) = .ok ([m000, m110, m112, m202].map fun m =>
        (m, x.map fun p => x.map fun q => multipole3 m fun u v phi =>
          fromTripoles (fun m => Q m p q) u v phi * (fromTripoles (fun m => (f m p q).1) u v phi - c))) := by
  refine ⟨_, _, ofItems_sugiyama19, mkBase_sugiyama19_all x Q, ?_⟩
  unfold conv3
  rw [if_neg (by simp), conv3Sum_19 hI hx]
  congr 1
  apply List.map_congr_left
  intro m hm
  simp only [Prod.mk.injEq, true_and]
  apply List.map_congr_left
  intro p _
  apply List.map_congr_left
  intro q _
  simp only [← fromTripoles_lessConst]
  obtain ⟨t0, t1, t2, t3⟩ := terms19
  have e0 : lessConst c (fun m => (f m p q).1) m000 = (f m000 p q).1 - c := rfl
  have e1 : lessConst c (fun m => (f m p q).1) m110 = (f m110 p q).1 := rfl
  have e2 : lessConst c (fun m => (f m p q).1) m022 = (f m022 p q).1 := rfl
  have e3 : lessConst c (fun m => (f m p q).1) m112 = (f m112 p q).1 := rfl
  have e4 : lessConst c (fun m => (f m p q).1) m202 = (f m202 p q).1 := rfl
  rcases hiso p q with h | h
  · obtain ⟨r0, r1, r2, r3⟩ := product_iso (fun m => Q m p q) (lessConst c fun m => (f m p q).1) h
    simp only [e0, e1, e2, e3, e4] at r0 r1 r2 r3
    obtain ⟨z1, z2, z3⟩ := h
    simp only at z1 z2 z3
    simp only [formulae19, List.mem_cons, List.not_mem_nil, or_false] at hm
    rcases hm with rfl | rfl | rfl | rfl
    · rw [r0, t0]
      simp [val19]
      ring
    · rw [r1, t1]
      simp [val19]
      ring
    · rw [r3, t3]
      simp [val19, z1, z2, z3]
      ring
    · rw [r2, t2]
      simp [val19, z2, z3]
  · have h' : Iso (lessConst c fun m => (f m p q).1) := h
    obtain ⟨r0, r1, r2, r3⟩ := product_iso (lessConst c fun m => (f m p q).1) (fun m => Q m p q) h'
    simp only [e0, e1, e2, e3, e4] at r0 r1 r2 r3
    obtain ⟨z1, z2, z3⟩ := h
    simp only at z1 z2 z3
    simp only [mul_comm (fromTripoles (fun m => Q m p q) _ _ _)]
    simp only [formulae19, List.mem_cons, List.not_mem_nil, or_false] at hm
    rcases hm with rfl | rfl | rfl | rfl
    · rw [r0, t0]
      simp [val19]
      ring
    · rw [r1, t1]
      simp [val19]
      ring
    · rw [r3, t3]
      simp [val19, z1, z2, z3]
      ring
    · rw [r2, t2]
      simp [val19, z2, z3]
      ring

/-- The hypotheses of `C83_isotropic_partial` are met with an anisotropic correlation function. -/
example : (stepInterp ℝ).Ok ∧ ([1, 2] : List ℝ).Pairwise (· < ·) ∧
    ∀ p q : ℝ, Iso (fun m => if m = m110 then p * q else if m = m000 then p + q else 0) ∨
      Iso fun m => (((if m = m202 then p else q), 0) : ℝ × ℝ).1 := by
  exact ⟨stepInterp_ok ℝ, by norm_num, fun p q => .inl ⟨rfl, rfl, rfl⟩⟩

/-! ### C86 -/

section

variable {K : Type} [Field K] [LinearOrder K] [CharZero K]

theorem integ_congr (I : Interp K) (x : List K) {g h : ℕ → ℕ → K}
    (e : ∀ i < x.length, ∀ j < x.length, g i j = h i j) : I.integ x g = I.integ x h := by
  unfold Interp.integ
  refine Finset.sum_congr rfl fun i hi => ?_
  congr 2
  refine Finset.sum_congr rfl fun j hj => ?_
  rw [e i (Finset.mem_range.1 hi) j (Finset.mem_range.1 hj)]

/-- The integral of samples over both separations. -/
def intSamples (I : Interp K) (x : List K) (g : K → K → K) : K :=
  I.integ x fun i j => g (x.getD i 0) (x.getD j 0)

/-- The coerced samples. -/
def samples19 (x : List K) (f : Multipole → K → K → K × K) : List (Multipole × Mat (K × K)) :=
  poles19.map fun m => (m, ⟨x.length, x.length, fun i j => f m (x.getD i 0) (x.getD j 0)⟩)

theorem calcIc_step (I : Interp K) (x : List K) (Q : Multipole → K → K → K) (f : Multipole → K → K → K × K) :
    calcIc I (base19 x Q false).rQ (base19 x Q false).Q (base19 x Q false).rIn (dictZ3 x f) =
      if I.integ x (fun i j => I.spl2 x (fun i j => Q m000 (x.getD i 0) (x.getD j 0))
        (x.getD i 0) (x.getD j 0)) = 0 then .error .zeroDivisionError
      else .ok ((poles19.map (icTerm I (base19 x Q false).rQ (base19 x Q false).Q
          (poles19.map fun m => (m, x)) (samples19 x f))).sum /
        I.integ x (fun i j => I.spl2 x (fun i j => Q m000 (x.getD i 0) (x.getD j 0))
        (x.getD i 0) (x.getD j 0))) := rfl

theorem icTerm_19 {I : Interp K} (hI : I.Ok) {x : List K} (hx : x.Pairwise (· < ·))
    (Q : Multipole → K → K → K) (f : Multipole → K → K → K × K) (m : Multipole) (hm : m ∈ poles19) :
    icTerm I (base19 x Q false).rQ (base19 x Q false).Q (poles19.map fun m => (m, x)) (samples19 x f) m =
      prefactor m * I.h2 m * intSamples I x fun p q => Q m p q * (f m p q).1 := by
  have e1 : get? (poles19.map fun m => (m, x)) m = some x := by
    simp only [poles19, List.mem_cons, List.not_mem_nil, or_false] at hm
    rcases hm with rfl | rfl | rfl | rfl | rfl <;> rfl
  have e2 : get? (base19 x Q false).rQ m = some x := e1
  have e3 : get? (base19 x Q false).Q m =
      some ⟨x.length, x.length, fun i j => Q m (x.getD i 0) (x.getD j 0)⟩ := by
    simp only [poles19, List.mem_cons, List.not_mem_nil, or_false] at hm
    rcases hm with rfl | rfl | rfl | rfl | rfl <;> rfl
  have e4 : get? (samples19 x f) m =
      some ⟨x.length, x.length, fun i j => f m (x.getD i 0) (x.getD j 0)⟩ := by
    simp only [poles19, List.mem_cons, List.not_mem_nil, or_false] at hm
    rcases hm with rfl | rfl | rfl | rfl | rfl <;> rfl
  unfold icTerm
  simp only [e1, e2, e3, e4, Option.getD_some, Option.map_some]
  congr 1
  apply integ_congr
  intro i hi j hj
  rw [spl2_knot hI hx _ hi hj, spl2_knot hI hx _ hi hj]

/-- The integral constraint as computed, with shared sample points. -/
theorem calcIc_19 {I : Interp K} (hI : I.Ok) {x : List K} (hx : x.Pairwise (· < ·))
    (Q : Multipole → K → K → K) (f : Multipole → K → K → K × K) (hd : intSamples I x (Q m000) ≠ 0) :
    calcIc I (base19 x Q false).rQ (base19 x Q false).Q (base19 x Q false).rIn (dictZ3 x f) =
      .ok ((poles19.map fun m => prefactor m * I.h2 m *
        intSamples I x fun p q => Q m p q * (f m p q).1).sum / intSamples I x (Q m000)) := by
  have hq : I.integ x (fun i j => I.spl2 x (fun i j => Q m000 (x.getD i 0) (x.getD j 0))
      (x.getD i 0) (x.getD j 0)) = intSamples I x (Q m000) := by
    apply integ_congr
    intro i hi j hj
    rw [spl2_knot hI hx _ hi hj]
  rw [calcIc_step, hq, if_neg hd, List.map_congr_left (icTerm_19 hI hx Q f)]

/-- The samples of the windowed monopole, row by row, as the convolution returns them. -/
def rowsOf (x : List K) (g : K → K → K) : List (List K) := x.map fun p => x.map fun q => g p q

/-- The other multipoles. -/
def rest19 (x : List K) (Q : Multipole → K → K → K) (f : Multipole → K → K → K × K) (c : K) :
    List (Multipole × List (List K)) :=
  [m110, m112, m202].map fun m => (m, rowsOf x fun p q => ((formulae19.terms m).map (val19 Q f c p q)).sum)

theorem conv3_mono {I : Interp K} (hI : I.Ok) {x : List K} (hx : x.Pairwise (· < ·))
    (Q : Multipole → K → K → K) (f : Multipole → K → K → K × K) (c : K) (ic : Bool) :
    conv3Sum I (base19 x Q ic) (dictZ3 x f) (some c) =
      .ok ((m000, rowsOf x fun p q => Q m000 p q * ((f m000 p q).1 - c) +
        1 / 3 * Q m110 p q * (f m110 p q).1) :: rest19 x Q f c) := by
  rw [conv3Sum_19 hI hx, show formulae19.multipoles = m000 :: [m110, m112, m202] from rfl, List.map_cons]
  unfold rest19 rowsOf
  congr 3
  apply List.map_congr_left
  intro p _
  apply List.map_congr_left
  intro q _
  rw [terms19.1]
  simp [val19]
  ring

theorem conv3_ic {I : Interp K} (hI : I.Ok) {x : List K} (hx : x.Pairwise (· < ·))
    (Q : Multipole → K → K → K) (f : Multipole → K → K → K × K) (hd : intSamples I x (Q m000) ≠ 0) :
    ∃ rest, conv3 I (base19 x Q false) (dictZ3 x f) none =
      .ok ((m000, rowsOf x fun p q => Q m000 p q * ((f m000 p q).1 -
        (poles19.map fun m => prefactor m * I.h2 m *
          intSamples I x fun p q => Q m p q * (f m p q).1).sum / intSamples I x (Q m000)) +
        1 / 3 * Q m110 p q * (f m110 p q).1) :: rest) := by
  unfold conv3
  rw [if_pos ⟨rfl, rfl⟩, calcIc_19 hI hx Q f hd]
  exact ⟨_, conv3_mono hI hx Q f _ false⟩

theorem intSamples_lin (I : Interp K) (x : List K) (g h : K → K → K) (a b : K) :
    intSamples I x (fun p q => a * g p q + b * h p q) = a * intSamples I x g + b * intSamples I x h :=
  integ_lin I x _ _ a b

/-- **C86.** With the computed integral constraint the windowed monopole integrates to zero over the
separations, when the monopole is the only multipole which the window and the correlation function
share.  Missing: other common multipoles, see `C86_dipole_violated`. -/
theorem C86_integrates_to_zero_partial {I : Interp K} (hI : I.Ok) (hH : I.h2 m000 = 1) {x : List K}
    (hx : x.Pairwise (· < ·)) (Q : Multipole → K → K → K) (f : Multipole → K → K → K × K)
    (hd : intSamples I x (Q m000) ≠ 0)
    (hs : ∀ m, m ≠ m000 → (∀ p q, Q m p q = 0) ∨ ∀ p q, (f m p q).1 = 0) :
    ∃ F B g rest, Formulae.ofItems sugiyama19 = .ok F ∧
      mkBase F (.all x) (dictQ3 x Q) (.dict (poles19.map fun m => (.mp m, x))) none = .ok B ∧
      conv3 I B (dictZ3 x f) none = .ok ((m000, rowsOf x g) :: rest) ∧ intSamples I x g = 0 := by
  obtain ⟨rest, hc⟩ := conv3_ic hI hx Q f hd
  refine ⟨_, _, _, rest, ofItems_sugiyama19, mkBase_sugiyama19_dict x Q, hc, ?_⟩
  have hz : ∀ m, m ≠ m000 → ∀ p q, Q m p q * (f m p q).1 = 0 := by
    intro m hm p q
    rcases hs m hm with h | h
    · rw [h p q, zero_mul]
    · rw [h p q, mul_zero]
  have h0 : intSamples I x (fun _ _ => 0) = 0 := integ_zero I x
  simp only [poles19, List.map_cons, List.map_nil, List.sum_cons, List.sum_nil,
    hz m110 (by decide), hz m022 (by decide), hz m112 (by decide), hz m202 (by decide), h0, hH]
  have e : ∀ p q, Q m000 p q * ((f m000 p q).1 - (prefactor m000 * 1 *
        intSamples I x (fun p q => Q m000 p q * (f m000 p q).1) + (prefactor m110 * I.h2 m110 * 0 +
        (prefactor m022 * I.h2 m022 * 0 + (prefactor m112 * I.h2 m112 * 0 +
        (prefactor m202 * I.h2 m202 * 0 + 0))))) / intSamples I x (Q m000)) +
      1 / 3 * Q m110 p q * (f m110 p q).1 =
      1 * (Q m000 p q * (f m000 p q).1) +
        (-(intSamples I x (fun p q => Q m000 p q * (f m000 p q).1) / intSamples I x (Q m000))) * Q m000 p q := by
    intro p q
    have := hz m110 (by decide) p q
    have hp : (prefactor m000 : K) = 1 := by simp [prefactor, m000]
    rw [hp]
    linear_combination (1 / 3 : K) * this
  simp only [e]
  rw [intSamples_lin]
  field_simp
  ring

/-- **C86 (violated).** The terms of the integral constraint are weighted by the prefactor times the
squared Wigner symbol, 3 for the multipole (1, 1, 0), instead of the inverse of this, 1/3, which is the
average of the squared basis function and the weight in the convolution formula (`norms`).  So for
every window and correlation function with constant multipoles (0, 0, 0) and (1, 1, 0), the windowed
monopole integrates to a non-zero value. -/
theorem C86_dipole_violated {I : Interp K} (hI : I.Ok) (hH : I.h2 m110 = 1 / 3) {x : List K}
    (hx : x.Pairwise (· < ·)) (hd : intSamples I x (fun _ _ => 1) ≠ 0) :
    ∃ F B g rest, Formulae.ofItems sugiyama19 = .ok F ∧
      mkBase F (.all x) (dictQ3 x fun m _ _ => if m = m000 ∨ m = m110 then 1 else 0)
        (.dict (poles19.map fun m => (.mp m, x))) none = .ok B ∧
      conv3 I B (dictZ3 x fun m _ _ => (if m = m110 then 1 else 0, 0)) none = .ok ((m000, rowsOf x g) :: rest) ∧
      intSamples I x g = -8 / 3 * intSamples I x (fun _ _ => 1) ∧ intSamples I x g ≠ 0 := by
  obtain ⟨rest, hc⟩ := conv3_ic hI hx (fun m _ _ => if m = m000 ∨ m = m110 then 1 else 0)
    (fun m _ _ => (if m = m110 then 1 else 0, 0)) (by simpa using hd)
  have h0 : intSamples I x (fun _ _ => 0) = 0 := integ_zero I x
  have key : intSamples I x (fun _ _ => -8 / 3) = -8 / 3 * intSamples I x (fun _ _ => 1) := by
    have := intSamples_lin I x (fun _ _ => 1) (fun _ _ => 0) (-8 / 3) 0
    simpa [h0] using this
  refine ⟨_, _, fun _ _ => -8 / 3, rest, ofItems_sugiyama19, mkBase_sugiyama19_dict x _, ?_, key, ?_⟩
  · rw [hc]
    congr 3
    unfold rowsOf
    apply List.map_congr_left
    intro p _
    apply List.map_congr_left
    intro q _
    have a1 : (m000 = m110) = False := by decide
    have a2 : (m110 = m000) = False := by decide
    have a3 : (m022 = m110) = False := by decide
    have a4 : (m112 = m110) = False := by decide
    have a5 : (m202 = m110) = False := by decide
    have hp : (prefactor m110 : K) = 9 := by
      norm_num [prefactor, m110]
    simp only [poles19, List.map_cons, List.map_nil, List.sum_cons, List.sum_nil, a1, a2, a3, a4, a5,
      or_true, true_or, if_true, if_false, mul_one, mul_zero, h0, hH, hp]
    field_simp
    ring
  · rw [key]
    refine mul_ne_zero ?_ hd
    norm_num

end

/-- The hypotheses of the two theorems on C86 are met, with the values of the squared Wigner symbols. -/
example : ∃ I : Interp ℚ, I.Ok ∧ I.h2 m000 = 1 ∧ I.h2 m110 = 1 / 3 ∧ ([1, 2] : List ℚ).Pairwise (· < ·) ∧
    intSamples I [1, 2] (fun _ _ => 1) ≠ 0 := by
  let I : Interp ℚ := { stepInterp ℚ with h2 := fun m => if m = m000 then 1 else 1 / 3 }
  have h := stepInterp_ok ℚ
  exact ⟨I, ⟨h.knot, h.unit, h.knot2, h.unit2⟩, by decide +kernel, by decide +kernel, by norm_num,
    by decide +kernel⟩

/-- The function which is one at a single multipole. -/
def only (k : Multipole) : Multipole → ℝ := fun m => if m = k then 1 else 0

/-- **C83 (violated).** When both the window and the correlation function have a (2, 0, 2) multipole,
their product has a monopole which the formula leaves out. -/
theorem C83_anisotropic_violated {I : Interp ℝ} (hI : I.Ok) {x : List ℝ} (hx : x.Pairwise (· < ·)) :
    (∃ F B rest, Formulae.ofItems sugiyama19 = .ok F ∧
      mkBase F (.all x) (dictQ3 x fun m _ _ => only m202 m) (.all x) none = .ok B ∧
      conv3 I B (dictZ3 x fun m _ _ => (only m202 m, 0)) (some 0) =
        .ok ((m000, x.map fun _ => x.map fun _ => 0) :: rest)) ∧
    multipole3 m000 (fun u v phi => fromTripoles (only m202) u v phi * fromTripoles (only m202) u v phi) =
      1 / 5 := by
  constructor
  · have e0 : only m202 m000 = 0 := rfl
    have e1 : only m202 m110 = 0 := rfl
    have h := conv3_mono hI hx (fun m _ _ => only m202 m) (fun m _ _ => (only m202 m, 0)) 0 true
    simp only [e0, e1, zero_mul, mul_zero, add_zero] at h
    refine ⟨_, _, rest19 x (fun m _ _ => only m202 m) (fun m _ _ => (only m202 m, 0)) 0, ofItems_sugiyama19, mkBase_sugiyama19_all x _, ?_⟩
    unfold conv3
    rw [if_neg (by simp)]
    exact h
  · have h0 : only m202 m000 = 0 := rfl
    have h1 : only m202 m110 = 0 := rfl
    have h2 : only m202 m022 = 0 := rfl
    have h3 : only m202 m112 = 0 := rfl
    have h4 : only m202 m202 = 1 := rfl
    obtain ⟨n1, _, n3, _, _⟩ := norms
    unfold multipole3
    rw [n1, div_one, ← n3]
    congr 1
    funext u v phi
    have e : fromTripoles (only m202) u v phi = tripole m202 u v phi := by
      rw [fromTripoles, h0, h1, h2, h3, h4]
      ring
    simp only [e, tripole_000]
    simp [pval, Mono.val]

end Trv.Wc

import Verif.Spec.Coeff
import Verif.Lemmas.CoeffPoly
import Verif.Lemmas.CoeffUnit
import Verif.Lemmas.CoeffDixon
/-
Property theorems for the coefficients of the three-point window convolution (`winconv.py`): C137.
-/
namespace Trv.Wc

open Trv

theorem degrees3_mp (l : ℕ × ℕ × ℕ) : degrees3 (mp l) = some l := by
  obtain ⟨a, b, c⟩ := l
  simp [degrees3, mp]

theorem allowed_iff (l : ℕ × ℕ × ℕ) : Allowed l.1 l.2.1 l.2.2 ↔ Val l := by
  rw [val_iff, Allowed, Tri, Nat.even_iff]
  omega

/-- **C137.** For every multipole the coefficient of a window multipole and a correlation multipole is a number
precisely when both of the latter have degrees which satisfy the triangle condition and an even sum. -/
theorem C137_defined (l q z : ℕ × ℕ × ℕ) :
    (∃ c, calcCoeff (mp l) (mp q) (some (mp z)) = .ok (some c)) ↔ Allowed q.1 q.2.1 q.2.2 ∧ Allowed z.1 z.2.1 z.2.2 := by
  rw [allowed_iff, allowed_iff]
  constructor
  · rintro ⟨c, hc⟩
    by_contra h
    have h0 : hFactor z.1 z.2.1 z.2.2 = 0 ∨ hFactor q.1 q.2.1 q.2.2 = 0 := by
      rcases Classical.not_and_iff_not_or_not.mp h with h | h
      · exact .inr (not_val h)
      · exact .inl (not_val h)
    obtain ⟨l1, l2, L⟩ := l
    obtain ⟨q1, q2, qL⟩ := q
    obtain ⟨z1, z2, zL⟩ := z
    simp only [calcCoeff, degrees3_mp] at hc
    rw [if_pos h0] at hc
    simp at hc
  · rintro ⟨hq, hz⟩
    exact ⟨_, calcCoeff_rat (degrees3_mp l) (degrees3_mp z) (degrees3_mp q) hz hq⟩

/-- **C137 (violated).** Degrees with an odd sum are accepted as a multipole, but the coefficient is then not a
number, whatever the other multipoles. -/
theorem C137_odd_violated (l z : ℕ × ℕ × ℕ) : calcCoeff (mp l) (mp (1, 1, 1)) (some (mp z)) = .ok none := by
  have h : hFactor 1 1 1 = 0 := not_val (l := (1, 1, 1)) (by rw [val_iff]; decide)
  obtain ⟨l1, l2, L⟩ := l
  obtain ⟨z1, z2, zL⟩ := z
  simp only [calcCoeff, degrees3_mp]
  rw [if_pos (.inr h)]

/-- **C137.** The coefficients are rational numbers, although their factors are irrational. -/
theorem C137_rational {l q z : ℕ × ℕ × ℕ} (hq : Allowed q.1 q.2.1 q.2.2) (hz : Allowed z.1 z.2.1 z.2.2) :
    ∃ r : ℚ, calcCoeff (mp l) (mp q) (some (mp z)) = .ok (some (r : ℝ)) :=
  ⟨_, calcCoeff_rat (degrees3_mp l) (degrees3_mp z) (degrees3_mp q) ((allowed_iff z).mp hz) ((allowed_iff q).mp hq)⟩

/-- The hypotheses are met by (1, 1, 2) and (2, 0, 2), and not by (1, 1, 1). -/
example : Allowed 1 1 2 ∧ Allowed 2 0 2 ∧ ¬ Allowed 1 1 1 := by unfold Allowed; decide

/-- **C137.** The monopole of the window multiplies each multipole of the correlation function into the same windowed
multipole, with unit coefficient, and into no other. -/
theorem C137_window_monopole (l : ℕ × ℕ × ℕ) {z : ℕ × ℕ × ℕ} (hz : Allowed z.1 z.2.1 z.2.2) :
    calcCoeff (mp l) m000 (some (mp z)) = .ok (some (if l = z then 1 else 0)) := by
  have h0 : Val (0, 0, 0) := by rw [val_iff]; decide
  rw [show m000 = mp (0, 0, 0) from rfl, calcCoeff_rat (degrees3_mp l) (degrees3_mp z) (degrees3_mp (0, 0, 0)) ((allowed_iff z).mp hz) h0, coeffQ_q0 ((allowed_iff z).mp hz)]
  split <;> simp

/-- **C137.** The monopole of the correlation function is multiplied by each multipole of the window into the same
windowed multipole, with unit coefficient, and into no other. -/
theorem C137_correlation_monopole (l : ℕ × ℕ × ℕ) {q : ℕ × ℕ × ℕ} (hq : Allowed q.1 q.2.1 q.2.2) :
    calcCoeff (mp l) (mp q) (some m000) = .ok (some (if l = q then 1 else 0)) := by
  have h0 : Val (0, 0, 0) := by rw [val_iff]; decide
  rw [show m000 = mp (0, 0, 0) from rfl, calcCoeff_rat (degrees3_mp l) (degrees3_mp (0, 0, 0)) (degrees3_mp q) h0 ((allowed_iff q).mp hq), coeffQ_z0 ((allowed_iff q).mp hq)]
  split <;> simp

/-- The hypothesis is met by a multipole of high degrees. -/
example : Allowed 7 5 4 := by unfold Allowed; decide

/-- **C137.** The integral constraint enters with minus the monopole of the correlation function: the coefficient of
`'ic'` is minus that of the correlation monopole, for every window multipole. -/
theorem C137_ic (l : ℕ × ℕ × ℕ) {q : ℕ × ℕ × ℕ} (hq : Allowed q.1 q.2.1 q.2.2) :
    ∃ c, calcCoeff (mp l) (mp q) (some m000) = .ok (some c) ∧ calcCoeff (mp l) (mp q) none = .ok (some (-c)) := by
  refine ⟨_, C137_correlation_monopole l hq, ?_⟩
  have e : mp q = mp l ↔ l = q := by
    obtain ⟨a, b, c⟩ := q
    obtain ⟨a', b', c'⟩ := l
    simp [mp]
    omega
  simp only [calcCoeff]
  by_cases h : l = q
  · rw [if_pos (e.mpr h), if_pos h]
  · rw [if_neg (fun h' => h (e.mp h')), if_neg h]; simp

/-- **C137.** Selection rules: a coefficient which is not zero relates degrees which are allowed in each multipole and
in each of the three places. -/
theorem C137_selection {l q z : ℕ × ℕ × ℕ} {c : ℝ} (h : calcCoeff (mp l) (mp q) (some (mp z)) = .ok (some c)) (hc : c ≠ 0) :
    Allowed l.1 l.2.1 l.2.2 ∧ Allowed l.1 z.1 q.1 ∧ Allowed l.2.1 z.2.1 q.2.1 ∧ Allowed l.2.2 z.2.2 q.2.2 := by
  obtain ⟨hq, hz⟩ := (C137_defined l q z).mp ⟨c, h⟩
  rw [calcCoeff_rat (degrees3_mp l) (degrees3_mp z) (degrees3_mp q) ((allowed_iff z).mp hz) ((allowed_iff q).mp hq)] at h
  have hr : coeffQ l z q ≠ 0 := by
    intro h0
    rw [h0] at h
    simp at h
    exact hc h.symm
  have key : ∀ a b c : ℕ, delta2 a b c ≠ 0 → core3 a b c ≠ 0 → Allowed a b c := by
    intro a b c h1 h2
    refine (allowed_iff (a, b, c)).mpr ⟨?_, h2⟩
    by_contra h3
    exact h1 (delta2_zero h3)
  unfold coeffQ at hr
  refine ⟨key _ _ _ ?_ ?_, key _ _ _ ?_ ?_, key _ _ _ ?_ ?_, key _ _ _ ?_ ?_⟩ <;>
  · intro h0
    rw [h0] at hr
    simp at hr

/-- **C137.** For the five multipoles of the built-in formula, the coefficient is the multipole of the product of the
two basis functions, averaged over directions. -/
theorem C137_projection : ∀ m ∈ poles19, ∀ q ∈ poles19, ∀ z ∈ poles19,
    calcCoeff m q (some z) = .ok (some (multipole3 m fun u v phi => tripole q u v phi * tripole z u v phi)) := by
  intro m hm q hq z hz
  rw [multipole3_avgQ m hm q hq z hz, coeffQ_table m hm q hq z hz]
  exact calcCoeff_rat (poles19_val m hm).1 (poles19_val z hz).1 (poles19_val q hq).1 (poles19_val z hz).2 (poles19_val q hq).2

/-- Linearity of the average. -/
theorem average_lin (S : List (ℝ × List Mono)) :
    average (fun u v phi => (S.map fun p : ℝ × List Mono => p.1 * pval p.2 u v phi).sum) =
      (S.map fun p : ℝ × List Mono => p.1 * average (pval p.2)).sum := by
  have e : (fun u v phi => (S.map fun p : ℝ × List Mono => p.1 * pval p.2 u v phi).sum) =
      pval (S.flatMap fun p => p.2.map fun m : Mono => (p.1 * m.1, m.2)) := by
    funext u v phi
    unfold pval
    induction S with
    | nil => simp
    | cons p S ih =>
      rw [List.map_cons, List.sum_cons, ih, List.flatMap_cons, List.map_append, List.sum_append, ← List.sum_map_mul_left, List.map_map]
      congr 2
      apply List.map_congr_left
      intro m _
      simp only [Function.comp_apply, Mono.val]
      ring
  rw [e, average_pval]
  simp only [average_pval]
  clear e
  induction S with
  | nil => simp
  | cons p S ih =>
    rw [List.map_cons, List.sum_cons, ← ih, List.flatMap_cons, List.map_append, List.sum_append, ← List.sum_map_mul_left, List.map_map]
    congr 2
    apply List.map_congr_left
    intro m _
    simp only [Function.comp_apply]
    ring

theorem sum_flatMap' {α : Type} (l : List α) (f : α → List ℝ) : (l.flatMap f).sum = (l.map fun a => (f a).sum).sum := by
  induction l with
  | nil => simp
  | cons a l ih => simp [ih]

/-- **C137.** With the coefficients of this function for all pairs of the five multipoles, the formula for the windowed
multipoles is exact for every window and correlation function which have these multipoles, anisotropic or not (the
built-in table, which leaves pairs out, is not: C83). -/
theorem C137_exact (a b : Multipole → ℝ) (c : Multipole → Multipole → Multipole → ℝ)
    (hc : ∀ m ∈ poles19, ∀ q ∈ poles19, ∀ z ∈ poles19, calcCoeff m q (some z) = .ok (some (c m q z))) :
    ∀ m ∈ poles19, multipole3 m (fun u v phi => fromTripoles a u v phi * fromTripoles b u v phi) =
      (poles19.map fun q => (poles19.map fun z => c m q z * (a q * b z)).sum).sum := by
  intro m hm
  have e : (fun u v phi => fromTripoles a u v phi * fromTripoles b u v phi * tripole m u v phi) =
      fun u v phi => (((poles19.flatMap fun q => poles19.map fun z =>
        (a q * b z, pmul (pmul (toReals (polyQ q)) (toReals (polyQ z))) (toReals (polyQ m))))).map
          fun p : ℝ × List Mono => p.1 * pval p.2 u v phi).sum := by
    funext u v phi
    simp only [poles19, List.flatMap_cons, List.flatMap_nil, List.map_cons, List.map_nil, List.cons_append, List.nil_append,
      List.append_nil, List.sum_cons, List.sum_nil, pval_pmul]
    unfold fromTripoles
    rw [tripole_polyQ m hm, tripole_polyQ m110 (by decide), tripole_polyQ m022 (by decide), tripole_polyQ m112 (by decide),
      tripole_polyQ m202 (by decide)]
    have h0 : pval (toReals (polyQ m000)) u v phi = 1 := by rw [← tripole_polyQ m000 (by decide), tripole_000]; simp [pval, Mono.val]
    rw [h0]
    ring
  have k : ∀ q ∈ poles19, ∀ z ∈ poles19,
      average (pval (pmul (pmul (toReals (polyQ q)) (toReals (polyQ z))) (toReals (polyQ m)))) /
        average (fun u v phi => tripole m u v phi * tripole m u v phi) = c m q z := by
    intro q hq z hz
    have h1 := C137_projection m hm q hq z hz
    rw [hc m hm q hq z hz] at h1
    simp only [Except.ok.injEq, Option.some.injEq] at h1
    rw [h1]
    unfold multipole3
    rw [tripole_polyQ q hq, tripole_polyQ z hz, tripole_polyQ m hm]
    simp only [← pval_pmul]
  unfold multipole3
  rw [e, average_lin, List.map_flatMap, sum_flatMap']
  rw [div_eq_mul_inv, ← List.sum_map_mul_right]
  congr 1
  apply List.map_congr_left
  intro q hq
  rw [← List.sum_map_mul_right, List.map_map]
  congr 1
  apply List.map_congr_left
  intro z hz
  simp only [Function.comp_apply]
  rw [← k q hq z hz]
  ring

/-- The hypothesis of `C137_exact` is met. -/
example : ∃ c : Multipole → Multipole → Multipole → ℝ, ∀ m ∈ poles19, ∀ q ∈ poles19, ∀ z ∈ poles19,
    calcCoeff m q (some z) = .ok (some (c m q z)) := ⟨_, C137_projection⟩

/-- **C137.** Every coefficient of the built-in three-point formula is the one this function computes. -/
theorem C137_builtin : ∀ p ∈ sugiyama19, ∀ t ∈ p.2, calcCoeff p.1 t.q t.z = .ok (some (t.coeff : ℝ)) := by
  have h : ∀ p ∈ sugiyama19, ∀ t ∈ p.2, p.1 ∈ poles19 ∧ t.q ∈ poles19 ∧ (t.z = none → t.q = p.1 ∧ t.coeff = -1) ∧
      ∀ z ∈ t.z, z ∈ poles19 ∧ t.coeff = coeffQ (degs p.1) (degs z) (degs t.q) := by decide +kernel
  intro p hp t ht
  obtain ⟨h1, h2, h3, h4⟩ := h p hp t ht
  cases hz : t.z with
  | none =>
    obtain ⟨h5, h6⟩ := h3 hz
    simp [calcCoeff, h5, h6]
  | some z =>
    obtain ⟨h5, h6⟩ := h4 z hz
    rw [calcCoeff_rat (poles19_val _ h1).1 (poles19_val z h5).1 (poles19_val _ h2).1 (poles19_val z h5).2 (poles19_val _ h2).2, h6]

/-- **C137.** The built-in formula leaves out no pair of its multipoles with a coefficient other than zero in which the
window or the correlation multipole is isotropic.  Missing: both anisotropic, see `C137_builtin_violated`. -/
theorem C137_builtin_complete_partial : ∀ p ∈ sugiyama19, ∀ q ∈ poles19, ∀ z ∈ poles19, (degs q).2.2 = 0 ∨ (degs z).2.2 = 0 →
    calcCoeff p.1 q (some z) ≠ .ok (some 0) → ∃ t ∈ p.2, t.q = q ∧ t.z = some z := by
  have h : ∀ p ∈ sugiyama19, ∀ q ∈ poles19, ∀ z ∈ poles19, (degs q).2.2 = 0 ∨ (degs z).2.2 = 0 →
      coeffQ (degs p.1) (degs z) (degs q) = 0 ∨ ∃ t ∈ p.2, t.q = q ∧ t.z = some z := by decide +kernel
  intro p hp q hq z hz h0 hne
  rcases h p hp q hq z hz h0 with h1 | h1
  · exfalso
    apply hne
    have hp' : p.1 ∈ poles19 := by
      have : ∀ p ∈ sugiyama19, p.1 ∈ poles19 := by decide +kernel
      exact this p hp
    rw [calcCoeff_rat (poles19_val _ hp').1 (poles19_val z hz).1 (poles19_val q hq).1 (poles19_val z hz).2 (poles19_val q hq).2, h1]
    simp
  · exact h1

/-- The hypotheses of `C137_builtin_complete_partial` are met. -/
example : ∃ p ∈ sugiyama19, calcCoeff p.1 m110 (some m202) ≠ .ok (some 0) ∧ (degs m110).2.2 = 0 := by
  refine ⟨_, List.getLast_mem (l := sugiyama19) (by decide), ?_, by decide⟩
  have := C137_builtin _ (List.getLast_mem (l := sugiyama19) (by decide)) ⟨m110, some m202, 2 / 5⟩ (by decide +kernel)
  simp only at this
  rw [this]
  simp

/-- **C137 (violated).** For each multipole which the built-in formula gives, a pair of its multipoles, both anisotropic,
contributes with a coefficient other than zero and is left out. -/
theorem C137_builtin_violated : ∀ p ∈ sugiyama19, ∃ q ∈ poles19, ∃ z ∈ poles19,
    (∃ c, calcCoeff p.1 q (some z) = .ok (some c) ∧ c ≠ 0) ∧ ∀ t ∈ p.2, ¬ (t.q = q ∧ t.z = some z) := by
  have h : ∀ p ∈ sugiyama19, p.1 ∈ poles19 ∧ ∃ q ∈ poles19, ∃ z ∈ poles19, coeffQ (degs p.1) (degs z) (degs q) ≠ 0 ∧
      ∀ t ∈ p.2, ¬ (t.q = q ∧ t.z = some z) := by decide +kernel
  intro p hp
  obtain ⟨h1, q, hq, z, hz, h2, h3⟩ := h p hp
  refine ⟨q, hq, z, hz, ⟨_, calcCoeff_rat (poles19_val _ h1).1 (poles19_val z hz).1 (poles19_val q hq).1
    (poles19_val z hz).2 (poles19_val q hq).2, ?_⟩, h3⟩
  exact_mod_cast h2

end Trv.Wc

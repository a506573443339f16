import Verif.Props.WinLinear
import Mathlib.Tactic.LinearCombination
/-
Property theorems for the window convolution of three-point correlation functions (`winconv.py`):
C52 (trivial window), C80, C81, C82, C84.
-/
namespace Trv.Wc

open Trv

/-- The object constructed from `'sugiyama+19'`. -/
def formulae19 : Formulae :=
  ⟨sugiyama19, [m000, m110, m112, m202], [m000, m110, m022, m112, m202], [m000, m110, m022, m112, m202],
    true⟩

theorem ofItems_sugiyama19 : Formulae.ofItems sugiyama19 = .ok formulae19 := by decide +kernel

/-- The multipoles of degrees at most two which the formula uses. -/
def poles19 : List Multipole := [m000, m110, m022, m112, m202]

section

variable {K : Type} [Field K] [LinearOrder K]

/-- A dictionary of two-dimensional window samples. -/
def dictQ3 (x : List K) (Q : Multipole → K → K → K) : List (Key × Mat K) :=
  poles19.map fun m => (.mp m, ⟨x.length, x.length, fun i j => Q m (x.getD i 0) (x.getD j 0)⟩)

/-- A dictionary of two-dimensional complex samples. -/
def dictZ3 (x : List K) (f : Multipole → K → K → K × K) : List (Key × Mat (K × K)) :=
  poles19.map fun m => (.mp m, ⟨x.length, x.length, fun i j => f m (x.getD i 0) (x.getD j 0)⟩)

/-- The convolution object with the same sample points everywhere; `ic` says whether the dictionary of
input points has the pseudo-index as a key. -/
def base19 (x : List K) (Q : Multipole → K → K → K) (ic : Bool) : Base K (Mat K) :=
  ⟨formulae19, poles19.map fun m => (m, x),
    poles19.map fun m => (m, ⟨x.length, x.length, fun i j => Q m (x.getD i 0) (x.getD j 0)⟩),
    (poles19.map fun m => (some m, x)) ++ (if ic then [(none, x)] else []),
    [m000, m110, m112, m202].map fun m => (m, x)⟩

/-- Construction with an array of input points. -/
theorem mkBase_sugiyama19_all (x : List K) (Q : Multipole → K → K → K) :
    mkBase formulae19 (.all x) (dictQ3 x Q) (.all x) none = .ok (base19 x Q true) := by
  rfl

/-- Construction with a dictionary of input points. -/
theorem mkBase_sugiyama19_dict (x : List K) (Q : Multipole → K → K → K) :
    mkBase formulae19 (.all x) (dictQ3 x Q) (.dict (poles19.map fun m => (.mp m, x))) none =
      .ok (base19 x Q false) := by
  rfl

/-- Value of a summand of the formula at a pair of points. -/
def val19 (Q : Multipole → K → K → K) (f : Multipole → K → K → K × K) (c : K) (p q : K) (t : Term) : K :=
  (t.coeff : K) * Q t.q p q * match t.z with
    | none => c
    | some z => (f z p q).1

theorem conv3Term_19 (I : Interp K) (x : List K) (Q : Multipole → K → K → K)
    (f : Multipole → K → K → K × K) (c : K) (ic : Bool) (t : Term)
    (hq : t.q ∈ poles19) (hz : ∀ z, t.z = some z → z ∈ poles19) :
    conv3Term I (base19 x Q ic) (dictZ3 x f) (some c) t = .ok fun p q => (t.coeff : K) *
      I.spl2 x (fun i j => Q t.q (x.getD i 0) (x.getD j 0)) p q * match t.z with
        | none => c
        | some z => I.spl2 x (fun i j => (f z (x.getD i 0) (x.getD j 0)).1) p q := by
  obtain ⟨tq, tz, tc⟩ := t
  simp only at hq hz ⊢
  have h1 : get (base19 x Q ic).rQ tq = .ok x := by
    simp only [poles19, List.mem_cons, List.not_mem_nil, or_false] at hq
    rcases hq with rfl | rfl | rfl | rfl | rfl <;> rfl
  have h2 : get (base19 x Q ic).Q tq =
      .ok ⟨x.length, x.length, fun i j => Q tq (x.getD i 0) (x.getD j 0)⟩ := by
    simp only [poles19, List.mem_cons, List.not_mem_nil, or_false] at hq
    rcases hq with rfl | rfl | rfl | rfl | rfl <;> rfl
  unfold conv3Term
  rw [h1, h2]
  simp only [ne_eq, not_true_eq_false, or_self, if_false]
  cases tz with
  | none => rfl
  | some z =>
    have hz := hz z rfl
    have h3 : get (base19 x Q ic).rIn (some z) = .ok x := by
      simp only [poles19, List.mem_cons, List.not_mem_nil, or_false] at hz
      rcases hz with rfl | rfl | rfl | rfl | rfl <;> rfl
    have h4 : get (dictZ3 x f) (.mp z) =
        .ok ⟨x.length, x.length, fun i j => f z (x.getD i 0) (x.getD j 0)⟩ := by
      simp only [poles19, List.mem_cons, List.not_mem_nil, or_false] at hz
      rcases hz with rfl | rfl | rfl | rfl | rfl <;> rfl
    simp only
    rw [h3, h4]
    simp

theorem conv3Sum_19 {I : Interp K} (hI : I.Ok) {x : List K} (hx : x.Pairwise (· < ·))
    (Q : Multipole → K → K → K) (f : Multipole → K → K → K × K) (c : K) (ic : Bool) :
    conv3Sum I (base19 x Q ic) (dictZ3 x f) (some c) =
      .ok (formulae19.multipoles.map fun m => (m, x.map fun p => x.map fun q =>
        ((formulae19.terms m).map (val19 Q f c p q)).sum)) := by
  unfold conv3Sum
  rw [← List.map_id (base19 x Q ic).F.multipoles,
    show (base19 x Q ic).F.multipoles = formulae19.multipoles from rfl]
  apply traverse_map_ok
  intro m hm
  have h1 : get (base19 x Q ic).rOut (id m) = .ok x := by
    simp only [formulae19, List.mem_cons, List.not_mem_nil, or_false] at hm
    rcases hm with rfl | rfl | rfl | rfl <;> rfl
  have h3 : ∀ t ∈ formulae19.terms m, t.q ∈ poles19 ∧ ∀ z, t.z = some z → z ∈ poles19 := by
    have : ∀ m ∈ formulae19.multipoles, ∀ t ∈ formulae19.terms m,
        t.q ∈ poles19 ∧ ∀ z ∈ t.z, z ∈ poles19 := by decide +kernel
    intro t ht
    exact ⟨(this m hm t ht).1, fun z hz => (this m hm t ht).2 z hz⟩
  have h4 := traverse_map_ok (conv3Term I (base19 x Q ic) (dictZ3 x f) (some c)) id _
    (formulae19.terms m) (fun t ht => conv3Term_19 I x Q f c ic t (h3 t ht).1 (h3 t ht).2)
  rw [List.map_id] at h4
  rw [h1, id, show (base19 x Q ic).F = formulae19 from rfl, h4]
  simp only
  congr 2
  apply List.map_congr_left
  intro p hp
  apply List.map_congr_left
  intro q hq
  rw [List.map_map]
  congr 1
  apply List.map_congr_left
  intro t _
  obtain ⟨a, ha, rfl⟩ := mem_getD hp
  obtain ⟨b, hb, rfl⟩ := mem_getD hq
  simp only [Function.comp_apply, val19]
  rw [spl2_knot hI hx _ ha hb]
  cases t.z with
  | none => rfl
  | some z => simp only [spl2_knot hI hx _ ha hb]

/-- **C52.** With a window of unit monopole and vanishing other multipoles the three-point convolution
returns the (real parts of the) input multipoles, with the given integral constraint subtracted from
the monopole and nowhere else. -/
theorem C52_trivial3 {I : Interp K} (hI : I.Ok) {x : List K} (hx : x.Pairwise (· < ·))
    (Q : Multipole → K → K → K) (f : Multipole → K → K → K × K) (c : K)
    (h0 : ∀ p q, Q m000 p q = 1) (hl : ∀ m, m ≠ m000 → ∀ p q, Q m p q = 0) (rIn : Pts K)
    (hr : rIn = .all x ∨ rIn = .dict (poles19.map fun m => (.mp m, x))) :
    ∃ F B, Formulae.ofItems sugiyama19 = .ok F ∧
      mkBase F (.all x) (dictQ3 x Q) rIn none = .ok B ∧
      conv3 I B (dictZ3 x f) (some c) = .ok ([m000, m110, m112, m202].map fun m =>
        (m, x.map fun p => x.map fun q => (f m p q).1 - if m = m000 then c else 0)) := by
  have key : ∀ ic, conv3 I (base19 x Q ic) (dictZ3 x f) (some c) = .ok ([m000, m110, m112, m202].map fun m =>
        (m, x.map fun p => x.map fun q => (f m p q).1 - if m = m000 then c else 0)) := by
    intro ic
    unfold conv3
    rw [if_neg (by simp), conv3Sum_19 hI hx]
    congr 1
    apply List.map_congr_left
    intro m hm
    simp only [Prod.mk.injEq, true_and]
    apply List.map_congr_left
    intro p _
    apply List.map_congr_left
    intro q _
    have e1 := hl m110 (by decide) p q
    have e2 := hl m022 (by decide) p q
    have e3 := hl m112 (by decide) p q
    have e4 := hl m202 (by decide) p q
    have t0 : formulae19.terms m000 = [⟨m000, some m000, 1⟩, ⟨m000, none, -1⟩, ⟨m110, some m110, 1 / 3⟩] := rfl
    have t1 : formulae19.terms m110 = [⟨m000, some m110, 1⟩, ⟨m110, some m000, 1⟩, ⟨m110, none, -1⟩] := rfl
    have t2 : formulae19.terms m202 = [⟨m000, some m202, 1⟩, ⟨m202, some m000, 1⟩, ⟨m202, none, -1⟩,
      ⟨m110, some m112, 1 / 3⟩, ⟨m112, some m110, 1 / 3⟩] := rfl
    have t3 : formulae19.terms m112 = [⟨m000, some m112, 1⟩, ⟨m112, some m000, 1⟩, ⟨m112, none, -1⟩,
      ⟨m022, some m110, 2 / 5⟩, ⟨m202, some m110, 2 / 5⟩, ⟨m110, some m022, 2 / 5⟩,
      ⟨m110, some m202, 2 / 5⟩] := rfl
    simp only [formulae19, List.mem_cons, List.not_mem_nil, or_false] at hm
    rcases hm with rfl | rfl | rfl | rfl
    · rw [t0]
      simp [val19, h0, e1]
      ring
    · rw [t1, if_neg (by decide)]
      simp [val19, h0, e1]
    · rw [t3, if_neg (by decide)]
      simp [val19, h0, e1, e2, e3, e4]
    · rw [t2, if_neg (by decide)]
      simp [val19, h0, e1, e2, e3, e4]
  rcases hr with rfl | rfl
  · exact ⟨_, _, ofItems_sugiyama19, mkBase_sugiyama19_all x Q, key true⟩
  · exact ⟨_, _, ofItems_sugiyama19, mkBase_sugiyama19_dict x Q, key false⟩

/-! ### C82 -/

theorem spl2_zero (I : Interp K) (x : List K) (p q : K) : I.spl2 x (fun _ _ => 0) p q = 0 := by
  simp [Interp.spl2]

theorem integ_zero (I : Interp K) (x : List K) : I.integ x (fun _ _ => 0) = 0 := by
  simp [Interp.integ]

theorem integ_mul (I : Interp K) (x : List K) (u : ℕ → ℕ → K) (c : K) :
    I.integ x (fun i j => u i j * c) = I.integ x u * c := by
  have := integ_lin I x u (fun _ _ => 0) c 0
  simp only [mul_zero, add_zero, zero_mul] at this
  rw [mul_comm, ← this]
  congr 1
  funext i j
  ring

/-- Samples of a constant three-point correlation function. -/
def const3 (c : K) : Multipole → K → K → K × K := fun m _ _ => if m = m000 then (c, 0) else (0, 0)

theorem calcIc_const {I : Interp K} (hI : I.Ok) (hH : I.h2 m000 = 1) {x : List K}
    (hx : x.Pairwise (· < ·)) (Q : Multipole → K → K → K) (c : K)
    (hd : I.integ x (fun i j => Q m000 (x.getD i 0) (x.getD j 0)) ≠ 0) :
    calcIc I (base19 x Q false).rQ (base19 x Q false).Q (base19 x Q false).rIn (dictZ3 x (const3 c)) =
      .ok c := by
  have h0 : x ≠ [] := by
    rintro rfl
    apply hd
    simp [Interp.integ]
  let zM : List (Multipole × Mat (K × K)) :=
    poles19.map fun m => (m, ⟨x.length, x.length, fun i j => const3 c m (x.getD i 0) (x.getD j 0)⟩)
  let rM : List (Multipole × List K) := poles19.map fun m => (m, x)
  have hq : I.integ x (fun i j => I.spl2 x (fun i j => Q m000 (x.getD i 0) (x.getD j 0))
      (x.getD i 0) (x.getD j 0)) = I.integ x (fun i j => Q m000 (x.getD i 0) (x.getD j 0)) := by
    unfold Interp.integ
    refine Finset.sum_congr rfl fun i hi => ?_
    congr 2
    refine Finset.sum_congr rfl fun j hj => ?_
    simp only
    rw [spl2_knot hI hx _ (Finset.mem_range.1 hi) (Finset.mem_range.1 hj)]
  have step : calcIc I (base19 x Q false).rQ (base19 x Q false).Q (base19 x Q false).rIn
      (dictZ3 x (const3 c)) =
      if I.integ x (fun i j => I.spl2 x (fun i j => Q m000 (x.getD i 0) (x.getD j 0))
        (x.getD i 0) (x.getD j 0)) = 0 then .error .zeroDivisionError
      else .ok ((poles19.map (icTerm I (base19 x Q false).rQ (base19 x Q false).Q rM zM)).sum /
        I.integ x (fun i j => I.spl2 x (fun i j => Q m000 (x.getD i 0) (x.getD j 0))
        (x.getD i 0) (x.getD j 0))) := rfl
  rw [step, hq, if_neg hd]
  have hzero : ∀ m ∈ poles19, m ≠ m000 →
      icTerm I (base19 x Q false).rQ (base19 x Q false).Q rM zM m = 0 := by
    intro m hm hne
    have hz : ((get? zM m).map Mat.e).getD (fun _ _ => (0, 0)) = fun i j => (0, 0) := by
      simp only [poles19, List.mem_cons, List.not_mem_nil, or_false] at hm
      rcases hm with rfl | rfl | rfl | rfl | rfl
      · exact absurd rfl hne
      all_goals rfl
    unfold icTerm
    simp only [hz, spl2_zero, mul_zero, integ_zero]
  have hmono : icTerm I (base19 x Q false).rQ (base19 x Q false).Q rM zM m000 =
      I.integ x (fun i j => Q m000 (x.getD i 0) (x.getD j 0)) * c := by
    have e : icTerm I (base19 x Q false).rQ (base19 x Q false).Q rM zM m000 =
        prefactor m000 * I.h2 m000 * I.integ x fun i j =>
          I.spl2 x (fun i j => Q m000 (x.getD i 0) (x.getD j 0)) (x.getD i 0) (x.getD j 0) *
          I.spl2 x (fun _ _ => c) (x.getD i 0) (x.getD j 0) := rfl
    rw [e, hH]
    simp only [spl2_const hI hx h0]
    rw [integ_mul, hq]
    simp [prefactor, m000]
  have : (poles19.map (icTerm I (base19 x Q false).rQ (base19 x Q false).Q rM zM)).sum =
      icTerm I (base19 x Q false).rQ (base19 x Q false).Q rM zM m000 := by
    rw [show poles19 = [m000, m110, m022, m112, m202] from rfl]
    simp only [List.map_cons, List.map_nil, List.sum_cons, List.sum_nil]
    rw [hzero m110 (by decide) (by decide), hzero m022 (by decide) (by decide),
      hzero m112 (by decide) (by decide), hzero m202 (by decide) (by decide)]
    ring
  rw [this, hmono]
  congr 1
  field_simp

/-- **C82.** A constant three-point correlation function is removed by the integral constraint: for
every window, all convolved multipoles vanish.  Missing: an array of input points, see
`C82_array_violated`. -/
theorem C82_constant_removed_partial {I : Interp K} (hI : I.Ok) (hH : I.h2 m000 = 1) {x : List K}
    (hx : x.Pairwise (· < ·)) (Q : Multipole → K → K → K) (c : K)
    (hd : I.integ x (fun i j => Q m000 (x.getD i 0) (x.getD j 0)) ≠ 0) :
    ∃ F B, Formulae.ofItems sugiyama19 = .ok F ∧
      mkBase F (.all x) (dictQ3 x Q) (.dict (poles19.map fun m => (.mp m, x))) none = .ok B ∧
      conv3 I B (dictZ3 x (const3 c)) none = .ok ([m000, m110, m112, m202].map fun m =>
        (m, x.map fun _ => x.map fun _ => 0)) := by
  refine ⟨_, _, ofItems_sugiyama19, mkBase_sugiyama19_dict x Q, ?_⟩
  unfold conv3
  rw [if_pos ⟨rfl, rfl⟩, calcIc_const hI hH hx Q c hd]
  simp only
  rw [conv3Sum_19 hI hx]
  congr 1
  apply List.map_congr_left
  intro m hm
  simp only [Prod.mk.injEq, true_and]
  apply List.map_congr_left
  intro p _
  apply List.map_congr_left
  intro q _
  have t0 : formulae19.terms m000 = [⟨m000, some m000, 1⟩, ⟨m000, none, -1⟩, ⟨m110, some m110, 1 / 3⟩] := rfl
  have t1 : formulae19.terms m110 = [⟨m000, some m110, 1⟩, ⟨m110, some m000, 1⟩, ⟨m110, none, -1⟩] := rfl
  have t2 : formulae19.terms m202 = [⟨m000, some m202, 1⟩, ⟨m202, some m000, 1⟩, ⟨m202, none, -1⟩,
    ⟨m110, some m112, 1 / 3⟩, ⟨m112, some m110, 1 / 3⟩] := rfl
  have t3 : formulae19.terms m112 = [⟨m000, some m112, 1⟩, ⟨m112, some m000, 1⟩, ⟨m112, none, -1⟩,
    ⟨m022, some m110, 2 / 5⟩, ⟨m202, some m110, 2 / 5⟩, ⟨m110, some m022, 2 / 5⟩,
    ⟨m110, some m202, 2 / 5⟩] := rfl
  have c0 : ∀ p q : K, const3 c m000 p q = (c, 0) := fun _ _ => rfl
  have c1 : ∀ p q : K, const3 c m110 p q = (0, 0) := fun _ _ => rfl
  have c2 : ∀ p q : K, const3 c m202 p q = (0, 0) := fun _ _ => rfl
  have c3 : ∀ p q : K, const3 c m112 p q = (0, 0) := fun _ _ => rfl
  have c4 : ∀ p q : K, const3 c m022 p q = (0, 0) := fun _ _ => rfl
  simp only [formulae19, List.mem_cons, List.not_mem_nil, or_false] at hm
  rcases hm with rfl | rfl | rfl | rfl
  · rw [t0]
    simp [val19, c0, c1]
  · rw [t1]
    simp [val19, c0, c1]
  · rw [t3]
    simp [val19, c0, c1, c2, c3, c4]
  · rw [t2]
    simp [val19, c0, c1, c2, c3, c4]

/-- **C82 (violated).** When the input points are given as one array for all multipoles, which the
interface documents, computing the integral constraint always raises `ValueError`: the key `'ic'` of
the dictionary made from the array is converted to a multipole. -/
theorem C82_array_violated (I : Interp K) (x : List K) (Q : Multipole → K → K → K)
    (f : Multipole → K → K → K × K) :
    ∃ F B, Formulae.ofItems sugiyama19 = .ok F ∧
      mkBase F (.all x) (dictQ3 x Q) (.all x) none = .ok B ∧
      conv3 I B (dictZ3 x f) none = .error .valueError := by
  refine ⟨_, _, ofItems_sugiyama19, mkBase_sugiyama19_all x Q, ?_⟩
  rfl

end

/-- The hypotheses of `C82_constant_removed_partial` are met. -/
example : (stepInterp ℚ).Ok ∧ (stepInterp ℚ).h2 m000 = 1 ∧ ([1, 2] : List ℚ).Pairwise (· < ·) ∧
    (stepInterp ℚ).integ [1, 2] (fun i j => ([1, 2] : List ℚ).getD i 0 + ([1, 2] : List ℚ).getD j 0) ≠ 0 :=
  ⟨stepInterp_ok ℚ, by decide +kernel, by norm_num, by decide +kernel⟩

end Trv.Wc

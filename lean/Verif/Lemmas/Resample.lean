import Verif.Spec.Resample
import Verif.Lemmas.WinBuild
import Verif.Lemmas.WinConv
/-
Lemmas on resampling.
-/
namespace Trv.Wc

open Trv

/-- The formula of a point. -/
noncomputable def pointAt (sp : Spacing) (a b : ℝ) (n i : ℕ) : ℝ :=
  match sp with
  | .lin => a + (b - a) * ((i : ℝ) / ((n : ℝ) - 1))
  | .lglin => Real.exp (Real.log a + (Real.log b - Real.log a) * ((i : ℝ) / ((n : ℝ) - 1)))

theorem length_spaced (sp : Spacing) (a b : ℝ) (n : ℕ) : (spaced sp a b n).length = n := by
  cases sp <;> simp [spaced, logspace, linspace]

theorem spaced_eq (sp : Spacing) (a b : ℝ) {n : ℕ} (hn : 2 ≤ n) :
    spaced sp a b n = (List.range n).map (pointAt sp a b n) := by
  cases sp
  · unfold spaced logspace pointAt
    exact List.map_congr_left fun i _ => by rw [if_neg (by omega)]
  · unfold spaced linspace pointAt
    exact List.map_congr_left fun i _ => by rw [if_neg (by omega)]

theorem spaced_getD (sp : Spacing) (a b : ℝ) {n i : ℕ} (hn : 2 ≤ n) (hi : i < n) :
    (spaced sp a b n).getD i 0 = pointAt sp a b n i := by
  rw [spaced_eq sp a b hn, List.getD_eq_getElem?_getD, List.getElem?_map, List.getElem?_range hi]
  rfl

/-- Admissible ends of a range. -/
def Ends (sp : Spacing) (a b : ℝ) : Prop :=
  a < b ∧ match sp with
    | .lin => True
    | .lglin => 0 < a

theorem pointAt_first {sp : Spacing} {a b : ℝ} (h : Ends sp a b) (n : ℕ) : pointAt sp a b n 0 = a := by
  cases sp
  · simp [pointAt, Real.exp_log h.2]
  · simp [pointAt]

theorem pred_ne {n : ℕ} (hn : 2 ≤ n) : (0 : ℝ) < (n : ℝ) - 1 := by
  have : (2 : ℝ) ≤ n := by exact_mod_cast hn
  linarith

theorem pointAt_last {sp : Spacing} {a b : ℝ} (h : Ends sp a b) {n : ℕ} (hn : 2 ≤ n) : pointAt sp a b n (n - 1) = b := by
  have h1 : ((n - 1 : ℕ) : ℝ) = (n : ℝ) - 1 := by rw [Nat.cast_sub (by omega)]; simp
  have h0 := (pred_ne hn).ne'
  cases sp
  · unfold pointAt
    rw [h1, div_self h0]
    simp [Real.exp_log (lt_trans h.2 h.1)]
  · unfold pointAt
    rw [h1, div_self h0]
    simp

theorem pointAt_lt {sp : Spacing} {a b : ℝ} (h : Ends sp a b) {n : ℕ} (hn : 2 ≤ n) {i j : ℕ} (hij : i < j) :
    pointAt sp a b n i < pointAt sp a b n j := by
  have h0 := pred_ne hn
  have hc : (i : ℝ) < j := by exact_mod_cast hij
  have hd : (i : ℝ) / ((n : ℝ) - 1) < (j : ℝ) / ((n : ℝ) - 1) := div_lt_div_of_pos_right hc h0
  cases sp
  · have hl : Real.log a < Real.log b := Real.log_lt_log h.2 h.1
    unfold pointAt
    refine Real.exp_lt_exp.2 ?_
    have := mul_lt_mul_of_pos_left hd (sub_pos.2 hl)
    linarith
  · unfold pointAt
    have := mul_lt_mul_of_pos_left hd (sub_pos.2 h.1)
    simp only
    linarith

theorem spaced_pairwise {sp : Spacing} {a b : ℝ} (h : Ends sp a b) {n : ℕ} (hn : 2 ≤ n) :
    (spaced sp a b n).Pairwise (· < ·) := by
  rw [spaced_eq sp a b hn, List.pairwise_map]
  exact List.pairwise_lt_range.imp fun hij => pointAt_lt h hn hij

theorem spaced_bounds {sp : Spacing} {a b : ℝ} (h : Ends sp a b) {n : ℕ} (hn : 2 ≤ n) {p : ℝ} (hp : p ∈ spaced sp a b n) :
    a ≤ p ∧ p ≤ b := by
  rw [spaced_eq sp a b hn] at hp
  obtain ⟨i, hi, rfl⟩ := List.mem_map.1 hp
  rw [List.mem_range] at hi
  constructor
  · rcases Nat.eq_zero_or_pos i with rfl | h0
    · exact (pointAt_first h n).ge
    · have := pointAt_lt h hn h0
      rw [pointAt_first h] at this
      exact this.le
  · rcases Nat.lt_or_ge i (n - 1) with h0 | h0
    · have := pointAt_lt h hn h0
      rw [pointAt_last h hn] at this
      exact this.le
    · obtain rfl : i = n - 1 := by omega
      exact (pointAt_last h hn).le

theorem spaced_rising {sp : Spacing} {a b : ℝ} (h : Ends sp a b) {n : ℕ} (hn : 2 ≤ n) : Rising sp (spaced sp a b n) := by
  refine ⟨spaced_pairwise h hn, ?_⟩
  cases sp
  · exact fun v hv => lt_of_lt_of_le h.2 (spaced_bounds h hn hv).1
  · trivial

theorem spaced_even (sp : Spacing) (a b : ℝ) {n : ℕ} (hn : 2 ≤ n) : Even sp (spaced sp a b n) := by
  have h0 := (pred_ne hn).ne'
  cases sp
  · refine ⟨Real.exp ((Real.log b - Real.log a) / ((n : ℝ) - 1)), Real.exp_pos _, fun i hi => ?_⟩
    rw [length_spaced] at hi
    rw [spaced_getD _ _ _ hn hi, spaced_getD _ _ _ hn (by omega)]
    unfold pointAt
    simp only
    rw [← Real.exp_add]
    congr 1
    push_cast
    field_simp
    ring
  · refine ⟨(b - a) / ((n : ℝ) - 1), fun i hi => ?_⟩
    rw [length_spaced] at hi
    rw [spaced_getD _ _ _ hn hi, spaced_getD _ _ _ hn (by omega)]
    unfold pointAt
    simp only
    push_cast
    field_simp
    ring

theorem spaced_head {sp : Spacing} {a b : ℝ} (h : Ends sp a b) {n : ℕ} (hn : 2 ≤ n) : (spaced sp a b n).head? = some a := by
  rw [List.head?_eq_getElem?, spaced_eq sp a b hn, List.getElem?_map, List.getElem?_range (by omega)]
  simp [pointAt_first h]

theorem spaced_last {sp : Spacing} {a b : ℝ} (h : Ends sp a b) {n : ℕ} (hn : 2 ≤ n) : (spaced sp a b n).getLast? = some b := by
  rw [List.getLast?_eq_getElem?, length_spaced, spaced_eq sp a b hn, List.getElem?_map, List.getElem?_range (by omega)]
  simp [pointAt_last h hn]

/-- The ends of increasing points. -/
theorem rising_ends {sp : Spacing} {x : List ℝ} (h : Rising sp x) (hl : 2 ≤ x.length) :
    ∃ a b, x.head? = some a ∧ x.getLast? = some b ∧ Ends sp a b := by
  match x, hl with
  | u :: v :: l, _ =>
    refine ⟨u, (v :: l).getLast (by simp), rfl, ?_, ?_, ?_⟩
    · rw [List.getLast?_cons_cons, List.getLast?_eq_getLast_of_ne_nil]
    · exact List.rel_of_pairwise_cons h.1 (List.getLast_mem _)
    · cases sp
      · exact h.2 u (by simp)
      · trivial

theorem spaced_respaced {sp : Spacing} {x : List ℝ} {a b : ℝ} (ha : x.head? = some a) (hb : x.getLast? = some b)
    (h : Ends sp a b) {n : ℕ} (hn : 2 ≤ n) : Respaced sp x (spaced sp a b n) n :=
  ⟨length_spaced sp a b n, spaced_rising h hn, spaced_even sp a b hn, by rw [ha, spaced_head h hn],
    by rw [hb, spaced_last h hn]⟩

/-- Evenly spaced points are those computed from their ends. -/
theorem spaced_self {sp : Spacing} {x : List ℝ} (h : Rising sp x) (he : Even sp x) (hl : 2 ≤ x.length) {a b : ℝ}
    (ha : x.head? = some a) (hb : x.getLast? = some b) : spaced sp a b x.length = x := by
  have h0 := (pred_ne hl).ne'
  have hlast : x.getD (x.length - 1) 0 = b := by
    rw [List.getD_eq_getElem?_getD, ← List.getLast?_eq_getElem?, hb]; rfl
  have hfirst : x.getD 0 0 = a := by
    rw [List.getD_eq_getElem?_getD, ← List.head?_eq_getElem?, ha]; rfl
  have h1 : ((x.length - 1 : ℕ) : ℝ) = (x.length : ℝ) - 1 := by rw [Nat.cast_sub (by omega)]; simp
  have key : ∀ i, i < x.length → pointAt sp a b x.length i = x.getD i 0 := by
    cases sp
    · obtain ⟨r, hr, he⟩ := he
      have hp : ∀ i, i < x.length → x.getD i 0 = a * r ^ i := by
        intro i
        induction i with
        | zero => intro _; rw [hfirst]; simp
        | succ i ih => intro hi; rw [he i hi, ih (by omega), pow_succ]; ring
      have hpos : 0 < a := h.2 a (List.mem_of_mem_head? ha)
      have hb' := hp (x.length - 1) (by omega)
      rw [hlast] at hb'
      intro i hi
      rw [hp i hi]
      unfold pointAt
      simp only
      rw [hb', Real.log_mul hpos.ne' (by positivity), Real.log_pow, h1]
      have : Real.log a + (Real.log a + ((x.length : ℝ) - 1) * Real.log r - Real.log a) * ((i : ℝ) / ((x.length : ℝ) - 1)) =
          Real.log a + i * Real.log r := by
        field_simp
        ring
      rw [this, Real.exp_add, Real.exp_log hpos, ← Real.log_pow, Real.exp_log (by positivity)]
    · obtain ⟨d, he⟩ := he
      have hp : ∀ i, i < x.length → x.getD i 0 = a + i * d := by
        intro i
        induction i with
        | zero => intro _; rw [hfirst]; simp
        | succ i ih => intro hi; rw [he i hi, ih (by omega)]; push_cast; ring
      have hb' := hp (x.length - 1) (by omega)
      rw [hlast] at hb'
      intro i hi
      rw [hp i hi]
      unfold pointAt
      simp only
      rw [hb', h1]
      field_simp
      ring
  refine List.ext_getElem (length_spaced _ _ _ _) fun i h2 h3 => ?_
  have e1 := spaced_getD sp a b hl h3
  rw [key i h3, List.getD_eq_getElem?_getD, List.getElem?_eq_getElem h2, List.getD_eq_getElem?_getD,
    List.getElem?_eq_getElem h3] at e1
  exact e1

theorem fits_of {sp : Spacing} {x : List ℝ} (h : Rising sp x) {k : ℕ} (h1 : 1 ≤ k) (h5 : k ≤ 5) (hk : k < x.length) :
    fits k x = true := by
  unfold fits
  rw [allAdj_of_pairwise h.1]
  simp [h1, h5, hk]

/-- The value of a spline at a sample point. -/
theorem spl_sample {I : Interp ℝ} (hI : I.Ok) (ext : Bool) {x s : List ℝ} (hx : x.Pairwise (· < ·)) {j : ℕ} (hj : j < x.length) :
    I.spl ext x s (x.getD j 0) = s.getD j 0 := by
  unfold Interp.spl
  rw [Finset.sum_eq_single j]
  · rw [hI.knot ext x hx j j hj hj, if_pos rfl, one_mul]
  · intro i hi hij
    rw [hI.knot ext x hx i j (Finset.mem_range.1 hi) hj, if_neg hij, zero_mul]
  · intro h
    exact absurd (Finset.mem_range.2 hj) h

theorem spl22_sample {I : Interp ℝ} (hI : I.Ok) {x x' : List ℝ} (hx : x.Pairwise (· < ·)) (hx' : x'.Pairwise (· < ·))
    (M : ℕ → ℕ → ℝ) {a b : ℕ} (ha : a < x.length) (hb : b < x'.length) :
    I.spl22 x x' M (x.getD a 0) (x'.getD b 0) = M a b := by
  unfold Interp.spl22
  rw [Finset.sum_eq_single a]
  · rw [Finset.sum_eq_single b]
    · rw [hI.knot2 x hx a a ha ha, hI.knot2 x' hx' b b hb hb, if_pos rfl, if_pos rfl, one_mul, one_mul]
    · intro j hj hjb
      rw [hI.knot2 x' hx' j b (Finset.mem_range.1 hj) hb, if_neg hjb]
      ring
    · intro h
      exact absurd (Finset.mem_range.2 hb) h
  · intro i hi hia
    refine Finset.sum_eq_zero fun j _ => ?_
    rw [hI.knot2 x hx i a (Finset.mem_range.1 hi) ha, if_neg hia]
    ring
  · intro h
    exact absurd (Finset.mem_range.2 ha) h

/-- A row of samples as a function of its index. -/
theorem map_samples {x s : List ℝ} (hl : s.length = x.length) (f : ℝ → ℝ) (hf : ∀ j, j < x.length → f (x.getD j 0) = s.getD j 0) :
    x.map f = s := by
  refine List.ext_getElem (by simp [hl]) fun i h1 h2 => ?_
  have := hf i (by omega)
  rw [List.getElem_map]
  rw [List.getD_eq_getElem?_getD, List.getElem?_eq_getElem (by omega), List.getD_eq_getElem?_getD,
    List.getElem?_eq_getElem h2] at this
  exact this

end Trv.Wc

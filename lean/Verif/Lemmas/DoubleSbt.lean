import Verif.Spec.DoubleSbt
import Verif.Props.FftlogPy
/-
Helper lemmas on the double spherical Bessel transform.
-/
namespace Trv.Fft

open Trv.Arr

theorem tabulate_length {α : Type} (n : ℕ) (f : ℕ → α) : (tabulate n f).length = n := by simp [tabulate]

theorem tabulate_getD (n : ℕ) (f : ℕ → ℂ) {i : ℕ} (h : i < n) : (tabulate n f).getD i 0 = f i := by
  unfold tabulate
  rw [List.getD_eq_getElem?_getD, List.getElem?_map, List.getElem?_range h]
  rfl

theorem tabulate_congr {α : Type} {n : ℕ} {f g : ℕ → α} (h : ∀ i < n, f i = g i) : tabulate n f = tabulate n g := by
  unfold tabulate
  apply List.map_congr_left
  intro i hi
  exact h i (List.mem_range.1 hi)

theorem table_eq {α : Type} (n : ℕ) (f : ℕ → ℕ → α) : table n f = tabulate n fun i => tabulate n (f i) := rfl

theorem table_congr {α : Type} {n : ℕ} {f g : ℕ → ℕ → α} (h : ∀ i < n, ∀ j < n, f i j = g i j) :
    table n f = table n g := by
  rw [table_eq, table_eq]
  exact tabulate_congr fun i hi => tabulate_congr (h i hi)

theorem cols_table {n : ℕ} (hn : n ≠ 0) (f : ℕ → ℕ → ℂ) : cols (table n f) = table n fun i j => f j i := by
  unfold cols
  have h0 : ((table n f).headD []).length = n := by
    obtain ⟨k, rfl⟩ := Nat.exists_eq_succ_of_ne_zero hn
    rw [table_eq]
    unfold tabulate
    rw [List.range_succ_eq_map]
    simp
  rw [h0]
  unfold table
  apply List.map_congr_left
  intro j hj
  rw [List.map_map]
  apply List.map_congr_left
  intro i _
  exact tabulate_getD n (f i) (List.mem_range.1 hj)

/-- A list is the table of its elements. -/
theorem tabulate_self (a : List ℂ) : tabulate a.length (fun i => a.getD i 0) = a := by
  apply List.ext_getElem?
  intro i
  unfold tabulate
  rw [List.getElem?_map]
  by_cases h : i < a.length
  · rw [List.getElem?_range h, List.getElem?_eq_getElem h]
    simp [List.getD_eq_getElem?_getD, List.getElem?_eq_getElem h]
  · rw [List.getElem?_eq_none (by simpa using h), List.getElem?_eq_none (by omega)]
    rfl

theorem convolve_matrix (N : ℕ) (u a : ℕ → ℂ) (j : ℕ) : convolve N u a j =
    ∑ p ∈ Finset.range N, (∑ m ∈ Finset.range N,
      Complex.exp (-(2 * Real.pi * Complex.I * (m * p) / N)) * u m / N *
        Complex.exp (-(2 * Real.pi * Complex.I * (j * m) / N))) * a p := by
  unfold convolve dft
  simp only [Finset.sum_mul, Finset.sum_div]
  rw [Finset.sum_comm]
  apply Finset.sum_congr rfl
  intro p _
  apply Finset.sum_congr rfl
  intro m _
  ring

theorem zipWith_tabulate {α β γ : Type} (n : ℕ) (g : α → β → γ) (f : ℕ → α) (h : ℕ → β) :
    List.zipWith g (tabulate n f) (tabulate n h) = tabulate n fun i => g (f i) (h i) := by
  unfold tabulate
  rw [List.zipWith_map, List.zipWith_self]

theorem tabulate_real (a : List ℝ) : tabulate a.length (fun i => a.getD i 0) = a := by
  apply List.ext_getElem?
  intro i
  unfold tabulate
  rw [List.getElem?_map]
  by_cases h : i < a.length
  · rw [List.getElem?_range h, List.getElem?_eq_getElem h]
    simp [List.getD_eq_getElem?_getD, List.getElem?_eq_getElem h]
  · rw [List.getElem?_eq_none (by simpa using h), List.getElem?_eq_none (by omega)]
    rfl

/-- The matrix of a one-dimensional transform without extrapolation. -/
noncomputable def lineMatrix (H : Hankel) (n : ℕ) (j p : ℕ) : ℂ :=
  (∑ m ∈ Finset.range n, Complex.exp (-(2 * Real.pi * Complex.I * (m * p) / n)) * H.kernel m / n *
      Complex.exp (-(2 * Real.pi * Complex.I * (j * m) / n))) *
    (((H.pre.getD p 0) ^ (3 / 2 : ℝ) : ℝ) : ℂ) * (((2 * Real.pi / H.post.getD j 0) ^ (3 / 2 : ℝ) : ℝ) : ℂ)

theorem line_acts {G : LnGamma} {mu q : ℝ} {pts : List ℝ} {kr : ℝ} {lowring : Bool} {e : ℝ} {H : Hankel}
    (h : initialise G mu q pts kr lowring .none e = .ok H) (hN : 3 ≤ pts.length) :
    Acts pts.length (fun a => ((⟨H, 0, none⟩ : Line).transform a).2) (lineMatrix H pts.length) := by
  intro f
  have R := init_ready h
  obtain ⟨t1, t2⟩ := C45_no_extrapolation h
  have hlen := (C48_reciprocal h).1
  show ((⟨H, 0, none⟩ : Line).work (tabulate pts.length f)).2 = _
  unfold Line.work
  simp only
  rw [if_neg (by rw [tabulate_length, R.hpre]; simp)]
  simp only
  have hz : List.zipWith (fun (x : ℂ) (r : ℝ) => x * ((r ^ (3 / 2 : ℝ) : ℝ) : ℂ)) (tabulate pts.length f) H.pre =
      tabulate pts.length fun i => f i * (((pts.getD i 0) ^ (3 / 2 : ℝ) : ℝ) : ℂ) := by
    rw [R.hpre]
    conv_lhs => rw [← tabulate_real pts]
    rw [tabulate_length]
    exact zipWith_tabulate _ _ _ _
  rw [hz]
  have hb : biased H (tabulate pts.length fun i => f i * (((pts.getD i 0) ^ (3 / 2 : ℝ) : ℝ) : ℂ)) =
      .ok (tabulate pts.length fun j => convolve pts.length H.kernel
        (fun i => f i * (((pts.getD i 0) ^ (3 / 2 : ℝ) : ℝ) : ℂ)) j) := by
    unfold biased
    rw [if_neg (by rw [R.hns, t1]; omega)]
    have hbuf : buffer H (tabulate pts.length fun i => f i * (((pts.getD i 0) ^ (3 / 2 : ℝ) : ℝ) : ℂ)) =
        .ok (tabulate pts.length fun i => f i * (((pts.getD i 0) ^ (3 / 2 : ℝ) : ℝ) : ℂ)) := by
      unfold buffer
      rw [R.hns, R.hext, tabulate_length, if_neg (by omega)]
      simp only
      rw [List.take_of_length_le (by rw [tabulate_length])]
    rw [hbuf]
    simp only
    rw [R.hns, t1, t2]
    congr 1
    apply tabulate_congr
    intro j _
    unfold convolve
    apply dft_congr
    intro m _
    rw [dft_congr (fun i hi => tabulate_getD _ _ hi)]
  rw [hb]
  simp only [pySlice, if_true]
  congr 1
  conv_lhs => rw [← tabulate_real H.post]
  rw [hlen, zipWith_tabulate]
  apply tabulate_congr
  intro j _
  rw [convolve_matrix, Finset.sum_mul]
  apply Finset.sum_congr rfl
  intro p _
  unfold lineMatrix
  rw [R.hpre]
  ring

theorem all_ok (S : Line) (g : List ℂ → List ℂ) (l : List (List ℂ))
    (h : ∀ a ∈ l, (S.transform a).2 = .ok (g a)) :
    S.all l = (l.map fun a => (S.transform a).1, .ok (l.map g)) := by
  induction l with
  | nil => rfl
  | cons a l ih =>
    have ha := h a List.mem_cons_self
    have hi := ih fun b hb => h b (List.mem_cons_of_mem _ hb)
    unfold Line.all
    rw [ha]
    simp only
    rw [hi]
    rfl

theorem all_table {n : ℕ} {S : Line} {A : ℕ → ℕ → ℂ} (hA : Acts n (fun a => (S.transform a).2) A)
    (f : ℕ → ℕ → ℂ) :
    S.all (table n f) = ((table n f).map fun a => (S.transform a).1,
      .ok (table n fun i j => ∑ p ∈ Finset.range n, A j p * f i p)) := by
  have h := all_ok S (fun a => tabulate n fun j => ∑ p ∈ Finset.range n, A j p * a.getD p 0) (table n f) (by
    intro a ha
    rw [table_eq] at ha
    obtain ⟨i, hi, rfl⟩ := List.mem_map.1 ha
    refine (hA (f i)).trans ?_
    congr 1
    apply tabulate_congr
    intro j _
    apply Finset.sum_congr rfl
    intro p hp
    rw [tabulate_getD _ _ (Finset.mem_range.1 hp)])
  rw [h]
  congr 2
  rw [table_eq, table_eq]
  unfold tabulate
  rw [List.map_map]
  apply List.map_congr_left
  intro i _
  apply tabulate_congr
  intro j _
  apply Finset.sum_congr rfl
  intro p hp
  exact congrArg (A j p * ·) (tabulate_getD n (f i) (Finset.mem_range.1 hp))

/-- The double transform of a table is the table of double sums. -/
theorem work_table {n : ℕ} (hn : n ≠ 0) {D : Dsbt} (hx : D.nExt = 0) {A0 A1 : ℕ → ℕ → ℂ}
    (h0 : Acts n (fun a => (D.t0.transform a).2) A0) (h1 : Acts n (fun a => (D.t1.transform a).2) A1)
    (f : ℕ → ℕ → ℂ) :
    D.work (table n f) = ((table n f).map fun a => (D.t1.transform a).1,
      .ok ((D.points, D.points), table n fun i j => ∑ p ∈ Finset.range n, ∑ q ∈ Finset.range n,
        A0 i p * A1 j q * f p q)) := by
  unfold Dsbt.work
  rw [all_table h1]
  simp only
  rw [cols_table hn, all_table h0]
  simp only
  have hne : table n (fun i j => ∑ p ∈ Finset.range n, A0 j p * ∑ q ∈ Finset.range n, A1 i q * f p q) ≠ [] := by
    intro h
    have := congrArg List.length h
    rw [table_eq, tabulate_length] at this
    exact hn this
  rw [if_neg hne, cols_table hn, hx]
  congr 2
  congr 1
  have hs : (pySlice 0 : List ℂ → List ℂ) = id := by funext l; simp [pySlice]
  rw [hs, List.map_id]
  simp only [pySlice, if_true]
  apply table_congr
  intro i _ j _
  apply Finset.sum_congr rfl
  intro p _
  rw [Finset.mul_sum]
  apply Finset.sum_congr rfl
  intro q _
  ring

/-! ### The low-ringing pivot -/

/-- Adding two to the order changes the low-ringing pivot of an unbiased transform. -/
theorem pivot_differs {G : LnGamma} (hG : LgOk G) {mu dL kr : ℝ} (hmu : -1 < mu) (hd : 0 < dL) (hk : 0 < kr) :
    lowringPivot G (mu + 2) 0 dL kr ≠ lowringPivot G mu 0 dL kr := by
  intro heq
  unfold lowringPivot at heq
  simp only [if_pos hk, add_zero, sub_zero] at heq
  have hy : 0 < Real.pi / (2 * dL) := by have := Real.pi_pos; positivity
  obtain ⟨y, hye⟩ : ∃ y, y = Real.pi / (2 * dL) := ⟨_, rfl⟩
  rw [← hye] at heq hy
  obtain ⟨x, hx⟩ : ∃ x, x = (mu + 1) / 2 := ⟨_, rfl⟩
  have hxpos : 0 < x := by rw [hx]; linarith
  rw [← hx, show (mu + 2 + 1) / 2 = x + 1 by rw [hx]; ring] at heq
  have h1 := mul_left_cancel₀ hk.ne' heq
  have h2 := mul_left_cancel₀ hd.ne' (Real.exp_injective h1)
  have hpole : ∀ (z : ℝ), 0 < z → ∀ n : ℕ, (z : ℂ) + y * Complex.I ≠ -n := by
    intro z _ n h
    have := congrArg Complex.im h
    simp at this
    exact hy.ne' this
  have g0 := hG x y (hpole x hxpos)
  have g1 := hG (x + 1) y (hpole (x + 1) (by linarith))
  have hz : (x : ℂ) + y * Complex.I ≠ 0 := by
    intro h
    have := congrArg Complex.im h
    simp at this
    exact hy.ne' this
  have hrec := Complex.Gamma_add_one _ hz
  rw [show (x : ℂ) + y * Complex.I + 1 = ((x + 1 : ℝ) : ℂ) + y * Complex.I by push_cast; ring, ← g0, ← g1] at hrec
  obtain ⟨θ1, hθ1⟩ : ∃ t, t = (G (x + 1) y).2 := ⟨_, rfl⟩
  obtain ⟨θ0, hθ0⟩ : ∃ t, t = (G x y).2 := ⟨_, rfl⟩
  rw [← hθ1, ← hθ0] at h2 hrec
  -- the difference of the phases is a multiple of `π / 2`
  obtain ⟨k, hk'⟩ : ∃ k : ℤ, 2 * (θ1 - θ0) = Real.pi * k := by
    refine ⟨roundAway (Real.log (2 / kr) / dL + (θ1 + θ1) / Real.pi) -
      roundAway (Real.log (2 / kr) / dL + (θ0 + θ0) / Real.pi), ?_⟩
    have hpi := Real.pi_pos.ne'
    push_cast
    generalize (roundAway (Real.log (2 / kr) / dL + (θ1 + θ1) / Real.pi) : ℝ) = r1 at h2 ⊢
    generalize (roundAway (Real.log (2 / kr) / dL + (θ0 + θ0) / Real.pi) : ℝ) = r0 at h2 ⊢
    have h3 : (θ1 + θ1) / Real.pi - (θ0 + θ0) / Real.pi = r1 - r0 := by linarith
    field_simp at h3
    linarith
  have hsin : Real.sin (2 * (θ1 - θ0)) = 0 := by
    rw [hk', mul_comm]; exact Real.sin_int_mul_pi k
  have hexp : Complex.exp (((θ1 - θ0 : ℝ) : ℂ) * Complex.I) =
      ((Real.exp ((G x y).1 - (G (x + 1) y).1) : ℝ) : ℂ) * (x + y * Complex.I) := by
    have e0 : Complex.exp ((θ0 : ℂ) * Complex.I) ≠ 0 := Complex.exp_ne_zero _
    have e1 : ((Real.exp (G (x + 1) y).1 : ℝ) : ℂ) ≠ 0 := by
      exact_mod_cast (Real.exp_pos _).ne'
    have : Complex.exp (((θ1 - θ0 : ℝ) : ℂ) * Complex.I) =
        Complex.exp ((θ1 : ℂ) * Complex.I) / Complex.exp ((θ0 : ℂ) * Complex.I) := by
      rw [← Complex.exp_sub]; push_cast; ring_nf
    rw [this, Real.exp_sub, Complex.ofReal_div, div_eq_iff e0, div_mul_eq_mul_div, div_mul_eq_mul_div, eq_div_iff e1]
    linear_combination hrec
  have hre := congrArg Complex.re hexp
  have him := congrArg Complex.im hexp
  rw [Complex.exp_ofReal_mul_I_re, Complex.re_ofReal_mul] at hre
  rw [Complex.exp_ofReal_mul_I_im, Complex.im_ofReal_mul] at him
  simp at hre him
  rw [Real.sin_two_mul, hre, him] at hsin
  have hE := Real.exp_pos ((G x y).1 - (G (x + 1) y).1)
  have : 0 < 2 * (Real.exp ((G x y).1 - (G (x + 1) y).1) * y) * (Real.exp ((G x y).1 - (G (x + 1) y).1) * x) := by
    positivity
  exact this.ne' hsin

end Trv.Fft

import Verif.Props.PowWinTrivial
/-
Lemmas on double transforms made at the points returned by others with the same options.
-/
namespace Trv.Wc

open Trv Trv.Fft

/-! ### Points in another unit -/

theorem logDiffs_scale {s : ℝ} (hs : 0 < s) (l : List ℝ) : logDiffs (l.map (s * ·)) = logDiffs l := by
  induction l with
  | nil => rfl
  | cons x l ih =>
    cases l with
    | nil => rfl
    | cons y l =>
      have e : s * y / (s * x) = y / x := mul_div_mul_left _ _ hs.ne'
      have e0 : s * x = 0 ↔ x = 0 := by simp [hs.ne']
      simp only [List.map_cons] at ih
      simp only [List.map_cons, logDiffs]
      rw [ih, e]
      simp only [e0]

theorem loglinOk_scale {s : ℝ} (hs : 0 < s) (l : List ℝ) : loglinOk (l.map (s * ·)) ↔ loglinOk l := by
  unfold loglinOk
  rw [logDiffs_scale hs]

theorem ends_scale {s : ℝ} (hs : 0 < s) {l : List ℝ} (hl : l ≠ []) :
    (l.map (s * ·)).getLastD 0 / (l.map (s * ·)).headD 0 = l.getLastD 0 / l.headD 0 := by
  have h1 : (l.map (s * ·)).headD 0 = s * l.headD 0 := by
    cases l with
    | nil => exact absurd rfl hl
    | cons a l => rfl
  have h2 : (l.map (s * ·)).getLastD 0 = s * l.getLastD 0 := by
    rw [List.getLastD_eq_getLast?, List.getLastD_eq_getLast?, List.getLast?_map, List.getLast?_eq_getLast_of_ne_nil hl]
    rfl
  rw [h1, h2, mul_div_mul_left _ _ hs.ne']

/-- A transform made at points multiplied by a factor is one made at the points. -/
theorem init_scale {G : LnGamma} {mu q : ℝ} {pts : List ℝ} {kr : ℝ} {lowring : Bool} {e s : ℝ} (hs : 0 < s) {H' : Hankel}
    (h' : initialise G mu q (pts.map (s * ·)) kr lowring .none e = .ok H') :
    ∃ H, initialise G mu q pts kr lowring .none e = .ok H ∧ H.pivot = H'.pivot ∧ H.kernel = H'.kernel ∧ H.logres = H'.logres := by
  have R := init_ready h'
  have hlen : 2 ≤ pts.length := by simpa using R.len
  have hne : pts ≠ [] := by rintro rfl; simp at hlen
  have hlog : H'.logres = Real.log (pts.getLastD 0 / pts.headD 0) / ((pts.length : ℝ) - 1) := by
    rw [R.hlog, ends_scale hs hne, List.length_map]
  have hn : H'.nsampTrans = pts.length := by
    have := R.ext
    unfold extension at this
    rw [if_pos rfl] at this
    simp only [List.length_map, Except.ok.injEq, Prod.mk.injEq] at this
    exact this.1.symm
  have hp := R.hpivot
  have hc := R.con
  have hl := (loglinOk_scale hs pts).1 R.lin
  have key : ∃ H, initialise G mu q pts kr lowring .none e = .ok H := by
    unfold initialise
    rw [hc]
    simp only
    rw [if_neg (by omega), if_neg (not_not.2 hl)]
    unfold extension
    rw [if_pos rfl]
    simp only
    rw [if_neg, if_neg]
    · exact ⟨_, rfl⟩
    · rw [← hlog, ← hp]
      have h1 := R.lpos
      have h2 := R.ppos
      simp only [not_or, not_le]
      exact ⟨by omega, h1, h2⟩
    · rintro ⟨h1, h2⟩
      rcases R.kr0 with h3 | h3
      · rw [h1] at h3; cases h3
      · linarith
  obtain ⟨H, h⟩ := key
  have R2 := init_ready h
  have e1 : H.logres = H'.logres := by rw [R2.hlog, hlog]
  have e2 : H.pivot = H'.pivot := by rw [R2.hpivot, R.hpivot, e1]
  have e3 : H.nsampTrans = H'.nsampTrans := by
    rw [hn]
    have := R2.ext
    unfold extension at this
    rw [if_pos rfl] at this
    simp only [Except.ok.injEq, Prod.mk.injEq] at this
    exact this.1.symm
  exact ⟨H, h, e2, by rw [R2.hker, R.hker, e1, e2, e3], e1⟩

theorem matrix_scale {G : LnGamma} {mu q : ℝ} {pts : List ℝ} {kr : ℝ} {lowring : Bool} {e s : ℝ} (hs : 0 < s) {H H' : Hankel}
    (hpos : ∀ r ∈ pts, 0 < r)
    (h' : initialise G mu q (pts.map (s * ·)) kr lowring .none e = .ok H')
    (h : initialise G mu q pts kr lowring .none e = .ok H) (hk : H.kernel = H'.kernel) (hp : H.pivot = H'.pivot)
    (hl : H.logres = H'.logres) {i j : ℕ} (hi : i < pts.length) (hj : j < pts.length) :
    lineMatrix H' pts.length i j = ((s ^ 3 : ℝ) : ℂ) * lineMatrix H pts.length i j := by
  have R := init_ready h
  have R' := init_ready h'
  have g : ∀ a, a < pts.length → (pts.map (s * ·)).getD a 0 = s * pts.getD a 0 := by
    intro a ha
    simp [List.getD_eq_getElem?_getD, List.getElem?_eq_getElem ha]
  have p1 : H'.pre.getD j 0 = s * H.pre.getD j 0 := by rw [R'.hpre, R.hpre, g j hj]
  have p2 : H'.post.getD i 0 = H.post.getD i 0 / s := by
    rw [R'.hpost, R.hpost, List.length_map]
    have t : ∀ f : ℕ → ℝ, ((List.range pts.length).map f).getD i 0 = f i := by
      intro f
      simp [List.getD_eq_getElem?_getD, List.getElem?_range hi]
    rw [t, t, g (pts.length - i - 1) (by omega), ← hp, ← hl, div_div, mul_comm s]
  have q1 : 0 < H.pre.getD j 0 := by
    rw [R.hpre]
    exact hpos _ (getD_mem hj)
  have q2 : 0 < H.post.getD i 0 := by
    rw [R.hpost]
    simp only [List.getD_eq_getElem?_getD, List.getElem?_map, List.getElem?_range hi, Option.map_some, Option.getD_some]
    rw [← List.getD_eq_getElem?_getD]
    exact div_pos (mul_pos R.ppos (Real.exp_pos _)) (hpos _ (getD_mem (by omega)))
  unfold lineMatrix
  rw [p1, p2, ← hk]
  have e1 : (s * H.pre.getD j 0) ^ (3 / 2 : ℝ) = s ^ (3 / 2 : ℝ) * H.pre.getD j 0 ^ (3 / 2 : ℝ) :=
    Real.mul_rpow hs.le q1.le
  have e2 : (2 * Real.pi / (H.post.getD i 0 / s)) ^ (3 / 2 : ℝ) =
      s ^ (3 / 2 : ℝ) * (2 * Real.pi / H.post.getD i 0) ^ (3 / 2 : ℝ) := by
    rw [← Real.mul_rpow hs.le (div_pos (by positivity) q2).le]
    congr 1
    field_simp
  have e3 : s ^ (3 / 2 : ℝ) * s ^ (3 / 2 : ℝ) = s ^ 3 := by
    rw [← Real.rpow_add hs]
    norm_num
  rw [e1, e2, ← e3]
  push_cast
  ring

/-! ### Backwards and forwards -/

/-- The elements of the matrix of a transform are real. -/
theorem matrix_real {G : LnGamma} (hG : LgOk G) {mu q : ℝ} {pts : List ℝ} {kr : ℝ} {lowring : Bool} {e : ℝ} {H : Hankel}
    (h : initialise G mu q pts kr lowring .none e = .ok H) (hN : 3 ≤ pts.length) {i p : ℕ} (hi : i < pts.length)
    (hp : p < pts.length) : (lineMatrix H pts.length i p).im = 0 := by
  have hA := line_acts h hN (fun j => if j = p then 1 else 0)
  have hx : tabulate pts.length (fun j => if j = p then (1 : ℂ) else 0) =
      (tabulate pts.length fun j => if j = p then (1 : ℝ) else 0).map fun u : ℝ => (u : ℂ) := by
    unfold tabulate
    rw [List.map_map]
    apply List.map_congr_left
    intro j _
    simp only [Function.comp_def]
    split_ifs <;> simp
  simp only at hA
  rw [hx] at hA
  have hr := line_real hG h hA
  refine Eq.trans ?_ (hr (lineMatrix H pts.length i p) ?_)
  · rfl
  · unfold tabulate
    rw [List.mem_map]
    refine ⟨i, List.mem_range.2 hi, ?_⟩
    rw [Finset.sum_eq_single p]
    · rw [if_pos rfl, mul_one]
    · intro b _ hb
      rw [if_neg hb, mul_zero]
    · intro hb
      exact absurd (Finset.mem_range.2 hp) hb

theorem map_table {n : ℕ} (g : ℕ → ℕ → ℂ) (c : ℂ) : (table n g).map (fun r => r.map (· * c)) =
    table n fun i j => g i j * c := by
  unfold table
  simp only [List.map_map, Function.comp_def]

/-- The double transform without extrapolation. -/
def plainD (d0 d1 : ℕ) (H0 H1 : Hankel) : Dsbt := ⟨d0, d1, ⟨H0, 0, none⟩, ⟨H1, 0, none⟩, 0, none⟩

theorem post_ratio {G : LnGamma} {mu0 mu1 q : ℝ} {pts : List ℝ} {kr : ℝ} {lowring : Bool} {e : ℝ} {H0 H1 : Hankel}
    (h0 : initialise G mu0 q pts kr lowring .none e = .ok H0) (h1 : initialise G mu1 q pts kr lowring .none e = .ok H1) :
    H0.post = H1.post.map (H0.pivot / H1.pivot * ·) := by
  have R0 := init_ready h0
  have R1 := init_ready h1
  have hlog : H0.logres = H1.logres := by rw [R0.hlog, R1.hlog]
  rw [R0.hpost, R1.hpost, List.map_map, hlog]
  apply List.map_congr_left
  intro j _
  have := R1.ppos.ne'
  simp only [Function.comp_def]
  field_simp

/-- The backward transform succeeds. -/
theorem double_back {G : LnGamma} {d0 d1 : ℕ} {pts : List ℝ} {kr : ℝ} {lowring : Bool} {H0 H1 : Hankel}
    (h0 : initialise G ((d0 : ℝ) + 1 / 2) 0 pts kr lowring .none 2 = .ok H0)
    (h1 : initialise G ((d1 : ℝ) + 1 / 2) 0 pts kr lowring .none 2 = .ok H1) (hN : 3 ≤ pts.length) (f : ℕ → ℕ → ℂ) :
    ∃ b : ℕ → ℕ → ℂ, ((plainD d0 d1 H0 H1).cosmo false (table pts.length f)).2 =
        .ok ((H0.post, H0.post), table pts.length b) := by
  have w := congrArg Prod.snd (work_table (n := pts.length) (by omega)
    (D := plainD d0 d1 H0 H1) rfl (line_acts h0 hN) (line_acts h1 hN) f)
  refine ⟨fun i j => (∑ p ∈ Finset.range pts.length, ∑ q ∈ Finset.range pts.length,
    lineMatrix H0 pts.length i p * lineMatrix H1 pts.length j q * f p q) *
      ((2 * (Real.pi : ℂ)) ^ (-(3 * 2) : ℤ) * Complex.I ^ (d0 + d1)), ?_⟩
  unfold Dsbt.cosmo Dsbt.transform
  simp only [plainD] at w ⊢
  rw [w]
  simp only [Bool.false_eq_true, if_false]
  rw [map_table, none_points]

/-- The points of the transforms made at the points of others are those of these. -/
theorem forth_points {G : LnGamma} (hG : LgOk G) {mu : ℝ} {pts : List ℝ} {kr : ℝ} {lowring : Bool} {H H' : Hankel}
    (h : initialise G mu 0 pts kr lowring .none 2 = .ok H) (h' : initialise G mu 0 H.post kr lowring .none 2 = .ok H')
    (hring : (lowring = false ∧ pts.length % 2 = 1) ∨ (lowring = true ∧ 0 < kr)) (hN : 3 ≤ pts.length) : H'.post = pts := by
  rw [init_again h (fun hl => by
    rcases hring with ⟨h1, -⟩ | ⟨-, h2⟩
    · rw [hl] at h1; cases h1
    · exact h2)] at h'
  obtain ⟨b, hb, hb', hpp⟩ := C47_roundtrip hG h h' (hring.imp (fun x => x) fun x => ⟨x.1, Or.inl x.2⟩)
    (a := tabulate pts.length fun _ => 0) (tabulate_length _ _) hN
  exact hpp

/-- Real samples of degrees of even sum are transformed backwards to real samples, and these forwards, with
the same options, to the samples at the original points multiplied by the cube of the ratio of the
pivots of the two dimensions. -/
theorem double_back_forth {G : LnGamma} (hG : LgOk G) {d0 d1 : ℕ} (hd : Even (d0 + d1)) {pts : List ℝ} {kr : ℝ} {lowring : Bool}
    {H0 H1 H0' H1' : Hankel}
    (h0 : initialise G ((d0 : ℝ) + 1 / 2) 0 pts kr lowring .none 2 = .ok H0)
    (h1 : initialise G ((d1 : ℝ) + 1 / 2) 0 pts kr lowring .none 2 = .ok H1)
    (h0' : initialise G ((d0 : ℝ) + 1 / 2) 0 H0.post kr lowring .none 2 = .ok H0')
    (h1' : initialise G ((d1 : ℝ) + 1 / 2) 0 H0.post kr lowring .none 2 = .ok H1')
    (hring : (lowring = false ∧ pts.length % 2 = 1) ∨ (lowring = true ∧ 0 < kr))
    (hpos : ∀ r ∈ pts, 0 < r) (hN : 3 ≤ pts.length) (f : ℕ → ℕ → ℝ) :
    ∃ b : ℕ → ℕ → ℝ,
      ((plainD d0 d1 H0 H1).cosmo false (table pts.length fun i j => (f i j : ℂ))).2 =
        .ok ((H0.post, H0.post), table pts.length fun i j => (b i j : ℂ)) ∧
      ((plainD d0 d1 H0' H1').cosmo true (table pts.length fun i j => (b i j : ℂ))).2 =
        .ok ((pts, pts), table pts.length fun i j => (((H0.pivot / H1.pivot) ^ 3 * f i j : ℝ) : ℂ)) := by
  have R0 := init_ready h0
  have R1 := init_ready h1
  have hs : 0 < H0.pivot / H1.pivot := div_pos R0.ppos R1.ppos
  have hpr := post_ratio h0 h1
  have hlen0 := (C48_reciprocal h0).1
  have hlen1 := (C48_reciprocal h1).1
  have hk : lowring = true → 0 < kr := fun hl => by
    rcases hring with ⟨g, -⟩ | ⟨-, g⟩
    · rw [hl] at g; cases g
    · exact g
  have g0' := h0'
  rw [init_again h0 hk] at g0'
  have a0 := line_acts h0 hN
  have a1 := line_acts h1 hN
  have b0 := line_acts h0' (by rw [hlen0]; exact hN)
  have b1 := line_acts h1' (by rw [hlen0]; exact hN)
  rw [hlen0] at b0 b1
  have hpos1 : ∀ r ∈ H1.post, 0 < r := by
    intro r hr
    rw [R1.hpost] at hr
    obtain ⟨j, hj, rfl⟩ := List.mem_map.1 hr
    have := List.mem_range.1 hj
    exact div_pos (mul_pos R1.ppos (Real.exp_pos _)) (hpos _ (getD_mem (by omega)))
  have h1s := h1'
  rw [hpr] at h1s
  obtain ⟨H1s, g1, gp, gk, gl⟩ := init_scale hs h1s
  have hM : ∀ i < pts.length, ∀ j < pts.length, lineMatrix H1' pts.length i j =
      (((H0.pivot / H1.pivot) ^ 3 : ℝ) : ℂ) * lineMatrix H1s pts.length i j := by
    intro i hi j hj
    have := matrix_scale hs hpos1 h1s g1 gk gp gl (i := i) (j := j) (by omega) (by omega)
    rwa [hlen1] at this
  have b1s := line_acts g1 (by rw [hlen1]; exact hN)
  rw [hlen1] at b1s
  rw [init_again h1 hk] at g1
  have i0 := fun f i hi => line_inverse hG h0 g0' hring hpos hN a0 b0 f (i := i) hi
  have i1 := fun f i hi => line_inverse hG h1 g1 hring hpos hN a1 b1s f (i := i) hi
  have hpts : H0'.post = pts := forth_points hG h0 h0' hring hN
  have m0 : ∀ i < pts.length, ∀ p < pts.length, (lineMatrix H0 pts.length i p).im = 0 :=
    fun i hi p hp => matrix_real hG h0 hN hi hp
  have m1 : ∀ i < pts.length, ∀ p < pts.length, (lineMatrix H1 pts.length i p).im = 0 :=
    fun i hi p hp => matrix_real hG h1 hN hi hp
  generalize lineMatrix H0 pts.length = A0 at *
  generalize lineMatrix H1 pts.length = A1 at *
  generalize lineMatrix H0' pts.length = B0 at *
  generalize lineMatrix H1' pts.length = B1 at *
  generalize lineMatrix H1s pts.length = B1s at *
  have w := congrArg Prod.snd (work_table (n := pts.length) (by omega)
    (D := plainD d0 d1 H0 H1) rfl a0 a1 fun i j => (f i j : ℂ))
  have hpi : (2 * (Real.pi : ℂ)) ≠ 0 := by
    have := Real.pi_pos.ne'
    simp [this]
  obtain ⟨b, hb⟩ : ∃ b : ℕ → ℕ → ℂ, b = fun i j => (∑ p ∈ Finset.range pts.length, ∑ q ∈ Finset.range pts.length,
      A0 i p * A1 j q * (f p q : ℂ)) * ((2 * (Real.pi : ℂ)) ^ (-(3 * 2) : ℤ) * Complex.I ^ (d0 + d1)) := ⟨_, rfl⟩
  have hbr : ∀ i < pts.length, ∀ j < pts.length, b i j = ((b i j).re : ℂ) := by
    intro i hi j hj
    obtain ⟨k, hk2⟩ := hd
    have hre : b i j = (((∑ p ∈ Finset.range pts.length, ∑ q ∈ Finset.range pts.length,
        (A0 i p).re * (A1 j q).re * f p q) * ((2 * Real.pi) ^ (-(3 * 2) : ℤ) * (-1) ^ k) : ℝ) : ℂ) := by
      rw [hb]
      push_cast
      rw [hk2, ← two_mul, pow_mul, Complex.I_sq]
      congr 1
      apply Finset.sum_congr rfl
      intro p hp
      apply Finset.sum_congr rfl
      intro q hq
      congr 2
      · exact Complex.ext (by simp) (by simpa using m0 i hi p (Finset.mem_range.1 hp))
      · exact Complex.ext (by simp) (by simpa using m1 j hj q (Finset.mem_range.1 hq))
    rw [hre, Complex.ofReal_re]
  refine ⟨fun i j => (b i j).re, ?_, ?_⟩
  · unfold Dsbt.cosmo Dsbt.transform
    simp only [plainD] at w ⊢
    rw [w]
    simp only [Bool.false_eq_true, if_false]
    rw [map_table, none_points]
    congr 2
    apply table_congr
    intro i hi j hj
    rw [← hbr i hi j hj, hb]
  · have hbt : table pts.length (fun i j => ((b i j).re : ℂ)) = table pts.length b := by
      apply table_congr
      intro i hi j hj
      rw [← hbr i hi j hj]
    rw [hbt]
    have w' := congrArg Prod.snd (work_table (n := pts.length) (by omega)
      (D := plainD d0 d1 H0' H1') rfl b0 b1 b)
    unfold Dsbt.cosmo Dsbt.transform
    simp only [plainD] at w' ⊢
    rw [w']
    simp only [if_true]
    rw [map_table, none_points, hpts]
    congr 2
    apply table_congr
    intro i hi j hj
    have hI : Complex.I ^ (d0 + d1) * (-Complex.I) ^ (d0 + d1) = 1 := by
      rw [← mul_pow]; simp
    have key := tensor_inverse (c := (2 * (Real.pi : ℂ)) ^ (3 : ℤ)) i0 i1 (fun i j => (f i j : ℂ)) hi hj
    have e1 : ∑ p ∈ Finset.range pts.length, ∑ q ∈ Finset.range pts.length, B0 i p * B1 j q * b p q =
        (((H0.pivot / H1.pivot) ^ 3 : ℝ) : ℂ) * ((2 * (Real.pi : ℂ)) ^ (3 : ℤ) * ((2 * (Real.pi : ℂ)) ^ (3 : ℤ) * f i j)) *
          ((2 * (Real.pi : ℂ)) ^ (-(3 * 2) : ℤ) * Complex.I ^ (d0 + d1)) := by
      rw [← key, Finset.mul_sum, Finset.sum_mul]
      apply Finset.sum_congr rfl
      intro p _
      rw [Finset.mul_sum, Finset.sum_mul]
      apply Finset.sum_congr rfl
      intro q hq
      rw [hM j hj q (Finset.mem_range.1 hq), hb]
      ring
    rw [e1]
    have hz : (2 * (Real.pi : ℂ)) ^ (3 : ℤ) * (2 * (Real.pi : ℂ)) ^ (3 : ℤ) * (2 * (Real.pi : ℂ)) ^ (-(3 * 2) : ℤ) = 1 := by
      rw [← zpow_add₀ hpi, ← zpow_add₀ hpi]; norm_num
    push_cast
    calc _ = ((2 * (Real.pi : ℂ)) ^ (3 : ℤ) * (2 * (Real.pi : ℂ)) ^ (3 : ℤ) * (2 * (Real.pi : ℂ)) ^ (-(3 * 2) : ℤ)) *
          (Complex.I ^ (d0 + d1) * (-Complex.I) ^ (d0 + d1)) * (((H0.pivot : ℂ) / H1.pivot) ^ 3 * f i j) := by push_cast; ring
      _ = ((H0.pivot : ℂ) / H1.pivot) ^ 3 * f i j := by rw [hz, hI]; ring

end Trv.Wc

import Verif.Lemmas.DoubleSbt
/-
C114-C116: the double spherical Bessel transform.
-/
namespace Trv.Fft

open Trv.Arr

/-! ### Helpers -/

theorem init_none {G : LnGamma} {deg0 deg1 : ℕ} {q0 q1 : ℝ} {pts : List ℝ} {kr : ℝ} {lowring : Bool} {e : ℝ}
    {D : Dsbt} (h : Dsbt.init G deg0 deg1 q0 q1 pts kr lowring .none e = .ok D) :
    ∃ H0 H1, initialise G ((deg0 : ℝ) + 1 / 2) q0 pts kr lowring .none e = .ok H0 ∧
      initialise G ((deg1 : ℝ) + 1 / 2) q1 pts kr lowring .none e = .ok H1 ∧
      D = ⟨deg0, deg1, ⟨H0, 0, none⟩, ⟨H1, 0, none⟩, 0, none⟩ := by
  unfold Dsbt.init Dsbt.pair Line.init at h
  simp only at h
  cases h0 : initialise G ((deg0 : ℝ) + 1 / 2) q0 pts kr lowring .none e with
  | error err => rw [h0] at h; cases h
  | ok H0 =>
    rw [h0] at h
    simp only at h
    cases h1 : initialise G ((deg1 : ℝ) + 1 / 2) q1 pts kr lowring .none e with
    | error err => rw [h1] at h; cases h
    | ok H1 =>
      rw [h1] at h
      simp only at h
      cases h
      exact ⟨H0, H1, rfl, rfl, rfl⟩

theorem line_none {G : LnGamma} {deg : ℕ} {q : ℝ} {pts : List ℝ} {kr : ℝ} {lowring : Bool} {e : ℝ} {H : Hankel}
    (h : initialise G ((deg : ℝ) + 1 / 2) q pts kr lowring .none e = .ok H) {S : Line}
    (hS : Line.init G deg q pts kr lowring 0 none e = .ok S) : S = ⟨H, 0, none⟩ := by
  unfold Line.init at hS
  rw [h] at hS
  cases hS
  rfl

theorem none_points {H0 H1 : Hankel} {a b : ℕ} :
    (⟨a, b, ⟨H0, 0, none⟩, ⟨H1, 0, none⟩, 0, none⟩ : Dsbt).points = H0.post := by
  unfold Dsbt.points pySlice
  simp

theorem work_points {D : Dsbt} {m : List (List ℂ)} {x y : List ℝ} {s : List (List ℂ)}
    (h : (D.work m).2 = .ok ((x, y), s)) : x = D.points ∧ y = D.points := by
  unfold Dsbt.work at h
  simp only at h
  split at h
  · cases h
  · split at h
    · cases h
    · split_ifs at h
      cases h
      exact ⟨rfl, rfl⟩

/-! ### C114: sample points -/

/-- **C114.** The sample points returned for the first dimension are those of the one-dimensional
transform of the first degree. -/
theorem C114_first_points {G : LnGamma} {deg0 deg1 : ℕ} {q0 q1 : ℝ} {pts : List ℝ} {kr : ℝ} {lowring : Bool}
    {e : ℝ} {D : Dsbt} (h : Dsbt.init G deg0 deg1 q0 q1 pts kr lowring .none e = .ok D)
    {S : Line} (hS : Line.init G deg0 q0 pts kr lowring 0 none e = .ok S)
    {m : List (List ℂ)} {x y : List ℝ} {s : List (List ℂ)} (ht : (D.transform m).2 = .ok ((x, y), s)) :
    x = S.fbht.post := by
  obtain ⟨H0, H1, h0, h1, rfl⟩ := init_none h
  rw [line_none h0 hS]
  rw [(work_points ht).1, none_points]

/-- **C114 (part).** So are those returned for the second dimension, if the low-ringing condition is
off, or if the degrees and biases are equal. -/
theorem C114_second_points_partial {G : LnGamma} {deg0 deg1 : ℕ} {q0 q1 : ℝ} {pts : List ℝ} {kr : ℝ}
    {lowring : Bool} {e : ℝ} {D : Dsbt} (h : Dsbt.init G deg0 deg1 q0 q1 pts kr lowring .none e = .ok D)
    {S : Line} (hS : Line.init G deg1 q1 pts kr lowring 0 none e = .ok S)
    (hl : lowring = false ∨ (deg0 = deg1 ∧ q0 = q1))
    {m : List (List ℂ)} {x y : List ℝ} {s : List (List ℂ)} (ht : (D.transform m).2 = .ok ((x, y), s)) :
    y = S.fbht.post := by
  obtain ⟨H0, H1, h0, h1, rfl⟩ := init_none h
  rw [line_none h1 hS, (work_points ht).2, none_points]
  have R0 := init_ready h0
  have R1 := init_ready h1
  have hlog : H0.logres = H1.logres := by rw [R0.hlog, R1.hlog]
  have hp : H0.pivot = H1.pivot := by
    rw [R0.hpivot, R1.hpivot]
    rcases hl with rfl | ⟨rfl, rfl⟩
    · rfl
    · rw [hlog]
  show H0.post = H1.post
  rw [R0.hpost, R1.hpost, hlog, hp]

/-- **C114 (violated).** With the low-ringing condition (the default), without bias and for degrees that
differ by two, every one of the sample points returned for the second dimension differs from the sample
point of the one-dimensional transform of the second degree, at which the values are. -/
theorem C114_second_points_violated {G : LnGamma} (hG : LgOk G) {deg : ℕ} {pts : List ℝ} {kr : ℝ} (hk : 0 < kr)
    {e : ℝ} {D : Dsbt} (h : Dsbt.init G deg (deg + 2) 0 0 pts kr true .none e = .ok D)
    {S : Line} (hS : Line.init G (deg + 2) 0 pts kr true 0 none e = .ok S)
    {m : List (List ℂ)} {x y : List ℝ} {s : List (List ℂ)} (ht : (D.transform m).2 = .ok ((x, y), s)) :
    y.length = pts.length ∧ S.fbht.post.length = pts.length ∧
    ∀ j < pts.length, y.getD j 0 ≠ S.fbht.post.getD j 0 := by
  obtain ⟨H0, H1, h0, h1, rfl⟩ := init_none h
  rw [line_none h1 hS, (work_points ht).2, none_points]
  have R0 := init_ready h0
  have R1 := init_ready h1
  have hlog : H0.logres = H1.logres := by rw [R0.hlog, R1.hlog]
  have hp : H1.pivot ≠ H0.pivot := by
    rw [R0.hpivot, R1.hpivot, if_pos rfl, if_pos rfl, ← hlog]
    have := pivot_differs hG (mu := (deg : ℝ) + 1 / 2) (dL := H0.logres) (kr := kr)
      (by have : (0 : ℝ) ≤ deg := Nat.cast_nonneg deg
          linarith) R0.lpos hk
    rw [show (((deg + 2 : ℕ) : ℝ)) + 1 / 2 = (deg : ℝ) + 1 / 2 + 2 by push_cast; ring]
    exact this
  refine ⟨(C48_reciprocal h0).1, (C48_reciprocal h1).1, ?_⟩
  intro j hj heq
  have e0 := (C48_reciprocal h0).2.1 j hj
  have e1 := (C48_reciprocal h1).2.1 j hj
  rw [show H0.post.getD j 0 = H1.post.getD j 0 from heq, e1, hlog] at e0
  exact hp (mul_right_cancel₀ (Real.exp_pos _).ne' e0)

/-! ### C115: double sums -/

/-- **C115.** Without extrapolation, the double transform of a square array is the double sum over its
elements with the matrices of the two one-dimensional transforms, the first along the first dimension
(the rows) and the second along the second dimension (the columns). -/
theorem C115_double_sum {G : LnGamma} {deg0 deg1 : ℕ} {q0 q1 : ℝ} {pts : List ℝ} {kr : ℝ} {lowring : Bool}
    {e : ℝ} {D : Dsbt} (h : Dsbt.init G deg0 deg1 q0 q1 pts kr lowring .none e = .ok D)
    (hN : 3 ≤ pts.length) {S0 S1 : Line} (hS0 : Line.init G deg0 q0 pts kr lowring 0 none e = .ok S0)
    (hS1 : Line.init G deg1 q1 pts kr lowring 0 none e = .ok S1) :
    ∃ A0 A1 : ℕ → ℕ → ℂ,
      Acts pts.length (fun a => (S0.transform a).2) A0 ∧ Acts pts.length (fun a => (S1.transform a).2) A1 ∧
      ∀ f : ℕ → ℕ → ℂ, ∃ x, (D.transform (table pts.length f)).2 = .ok (x, table pts.length fun i j =>
        ∑ p ∈ Finset.range pts.length, ∑ q ∈ Finset.range pts.length, A0 i p * A1 j q * f p q) := by
  obtain ⟨H0, H1, h0, h1, rfl⟩ := init_none h
  have a0 := line_acts h0 hN
  have a1 := line_acts h1 hN
  refine ⟨_, _, by rw [line_none h0 hS0]; exact a0, by rw [line_none h1 hS1]; exact a1, ?_⟩
  intro f
  refine ⟨_, congrArg Prod.snd (work_table (n := pts.length) (by omega)
    (D := ⟨deg0, deg1, ⟨H0, 0, none⟩, ⟨H1, 0, none⟩, 0, none⟩) rfl a0 a1 f)⟩

/-- **C115.** The transform of a product of a function of the first coordinate and a function of the
second is the product of their one-dimensional transforms. -/
theorem C115_separable {G : LnGamma} {deg0 deg1 : ℕ} {q0 q1 : ℝ} {pts : List ℝ} {kr : ℝ} {lowring : Bool}
    {e : ℝ} {D : Dsbt} (h : Dsbt.init G deg0 deg1 q0 q1 pts kr lowring .none e = .ok D)
    (hN : 3 ≤ pts.length) {S0 S1 : Line} (hS0 : Line.init G deg0 q0 pts kr lowring 0 none e = .ok S0)
    (hS1 : Line.init G deg1 q1 pts kr lowring 0 none e = .ok S1) (u v : ℕ → ℂ) :
    ∃ (x : List ℝ × List ℝ) (u' v' : ℕ → ℂ), (S0.transform (tabulate pts.length u)).2 = .ok (tabulate pts.length u') ∧
      (S1.transform (tabulate pts.length v)).2 = .ok (tabulate pts.length v') ∧
      (D.transform (table pts.length fun p q => u p * v q)).2 =
        .ok (x, table pts.length fun i j => u' i * v' j) := by
  obtain ⟨A0, A1, h0, h1, h2⟩ := C115_double_sum h hN hS0 hS1
  obtain ⟨x, hx⟩ := h2 fun p q => u p * v q
  refine ⟨x, _, _, h0 u, h1 v, ?_⟩
  rw [hx]
  congr 2
  apply table_congr
  intro i _ j _
  rw [Finset.sum_mul_sum]
  apply Finset.sum_congr rfl
  intro p _
  apply Finset.sum_congr rfl
  intro q _
  ring

/-- **C115.** Interchanging the degrees, the biases and the dimensions of the array interchanges the
dimensions of the result. -/
theorem C115_transposed {G : LnGamma} {deg0 deg1 : ℕ} {q0 q1 : ℝ} {pts : List ℝ} {kr : ℝ} {lowring : Bool}
    {e : ℝ} {D D' : Dsbt} (h : Dsbt.init G deg0 deg1 q0 q1 pts kr lowring .none e = .ok D)
    (h' : Dsbt.init G deg1 deg0 q1 q0 pts kr lowring .none e = .ok D')
    (hN : 3 ≤ pts.length) (f : ℕ → ℕ → ℂ) :
    ∃ (x x' : List ℝ × List ℝ) (g : ℕ → ℕ → ℂ), (D.transform (table pts.length f)).2 = .ok (x, table pts.length g) ∧
      (D'.transform (table pts.length fun p q => f q p)).2 = .ok (x', table pts.length fun i j => g j i) := by
  obtain ⟨H0, H1, h0, h1, rfl⟩ := init_none h
  obtain ⟨H1', H0', h1', h0', rfl⟩ := init_none h'
  rw [h1] at h1'
  cases h1'
  rw [h0] at h0'
  cases h0'
  have a0 := line_acts h0 hN
  have a1 := line_acts h1 hN
  refine ⟨_, (H1.post, H1.post), _, congrArg Prod.snd (work_table (n := pts.length) (by omega)
    (D := ⟨deg0, deg1, ⟨H0, 0, none⟩, ⟨H1, 0, none⟩, 0, none⟩) rfl a0 a1 f), ?_⟩
  refine (congrArg Prod.snd (work_table (n := pts.length) (by omega)
    (D := ⟨deg1, deg0, ⟨H1, 0, none⟩, ⟨H0, 0, none⟩, 0, none⟩) rfl a1 a0 fun p q => f q p)).trans ?_
  rw [none_points]
  refine congrArg (fun t => (Except.ok ((H1.post, H1.post), t) : Except Err _)) ?_
  apply table_congr
  intro i _ j _
  rw [Finset.sum_comm]
  apply Finset.sum_congr rfl
  intro p _
  apply Finset.sum_congr rfl
  intro q _
  ring

theorem sph_line {H : Hankel} {a b : List ℂ} (hp : H.pre.length = H.nsamp) {n : ℕ}
    (h : sphBiased H a n = .ok b) : ((⟨H, 0, none⟩ : Line).transform a).2 = .ok b := by
  unfold sphBiased at h
  by_cases ha : a.length = H.nsamp
  swap
  · rw [if_pos ha] at h; cases h
  rw [if_neg (not_not.2 ha)] at h
  show ((⟨H, 0, none⟩ : Line).work a).2 = _
  unfold Line.work
  simp only at h ⊢
  rw [if_neg (by rw [hp]; simpa using ha)]
  simp only
  have hz : List.zipWith (fun (x : ℂ) (r : ℝ) => x * ((r ^ (3 / 2 : ℝ) : ℝ) : ℂ)) a H.pre =
      List.zipWith (fun r x => ((r ^ (3 / 2 : ℝ) : ℝ) : ℂ) * x) H.pre a := by
    rw [List.zipWith_comm]
    congr 1
    funext r x
    ring
  rw [hz]
  cases hb : biased H (List.zipWith (fun r x => ((r ^ (3 / 2 : ℝ) : ℝ) : ℂ) * x) H.pre a) with
  | error err => rw [hb] at h; cases h
  | ok B =>
    rw [hb] at h
    simp only at h ⊢
    by_cases hn : (if a.length ≠ H.nsamp then H.nsamp else n) < H.nsamp
    · rw [if_pos hn] at h; cases h
    rw [if_neg hn] at h
    refine Eq.trans ?_ (congrArg Except.ok (Except.ok.inj h))
    congr 1
    simp only [pySlice, if_true]
    rw [List.zipWith_comm]
    congr 1
    funext r x
    ring

/-- The matrices of a one-dimensional transform and of the one with the opposite bias at the reciprocal
points are inverse up to `(2π)³`. -/
theorem line_inverse {G : LnGamma} (hG : LgOk G) {mu q : ℝ} {pts : List ℝ} {kr : ℝ}
    {lowring : Bool} {e e' : ℝ} {H H' : Hankel}
    (h : initialise G mu q pts kr lowring .none e = .ok H)
    (h' : initialise G mu (-q) H.post H.pivot lowring .none e' = .ok H')
    (hring : (lowring = false ∧ pts.length % 2 = 1) ∨ (lowring = true ∧ 0 < kr))
    (hpos : ∀ r ∈ pts, 0 < r) (hN : 3 ≤ pts.length) {A A' : ℕ → ℕ → ℂ}
    (hA : Acts pts.length (fun a => ((⟨H, 0, none⟩ : Line).transform a).2) A)
    (hA' : Acts pts.length (fun a => ((⟨H', 0, none⟩ : Line).transform a).2) A')
    (f : ℕ → ℂ) {i : ℕ} (hi : i < pts.length) :
    ∑ j ∈ Finset.range pts.length, A' i j * ∑ p ∈ Finset.range pts.length, A j p * f p =
      (2 * (Real.pi : ℂ)) ^ (3 : ℤ) * f i := by
  have R := init_ready h
  have R' := init_ready h'
  have hlen := (C48_reciprocal h).1
  obtain ⟨b, hb, hb'⟩ := C77_multipole_roundtrip hG 0 h h'
    (hring.imp id fun x => ⟨x.1, Or.inl x.2⟩) hpos (a := tabulate pts.length f) (tabulate_length _ _) hN
  have hpi : (2 * (Real.pi : ℂ)) ≠ 0 := by
    have := Real.pi_pos.ne'
    simpa using this
  have hu : sphBiased H (tabulate pts.length f) pts.length = .ok b := by
    unfold sphCosmo at hb
    rw [if_neg (by norm_num)] at hb
    simp only at hb
    cases hs : sphBiased H (tabulate pts.length f) pts.length with
    | error err => rw [hs] at hb; cases hb
    | ok c =>
      rw [hs] at hb
      simp at hb
      rw [hb]
  have hl := sph_line (by rw [R.hpre, R.hns]) hu
  have hbt : b = tabulate pts.length fun j => ∑ p ∈ Finset.range pts.length, A j p * f p := by
    have := (hA f).symm.trans hl
    injection this with this
    exact this.symm
  cases hs : sphBiased H' b pts.length with
  | error err =>
    unfold sphCosmo at hb'
    rw [if_neg (by norm_num)] at hb'
    simp only at hb'
    rw [hs] at hb'
    cases hb'
  | ok c =>
    have hl' := sph_line (by rw [R'.hpre, R'.hns]) hs
    have hct : c = tabulate pts.length fun i => ∑ j ∈ Finset.range pts.length, A' i j *
        ∑ p ∈ Finset.range pts.length, A j p * f p := by
      rw [hbt] at hl'
      have := (hA' _).symm.trans hl'
      injection this with this
      exact this.symm
    unfold sphCosmo at hb'
    rw [if_neg (by norm_num)] at hb'
    simp only at hb'
    rw [hs] at hb'
    simp only at hb'
    injection hb' with hb'
    have hg := congrArg (fun l : List ℂ => l.getD i 0) hb'
    rw [hct, tabulate_getD _ _ hi] at hg
    rw [show ((tabulate pts.length fun i => ∑ j ∈ Finset.range pts.length, A' i j *
        ∑ p ∈ Finset.range pts.length, A j p * f p).map
          (· * ((if True then (2 * (Real.pi : ℂ)) ^ (-3 : ℤ) else 1) * Complex.I ^ (- -1 * (0 : ℤ))))) =
        tabulate pts.length fun i => (∑ j ∈ Finset.range pts.length, A' i j *
          ∑ p ∈ Finset.range pts.length, A j p * f p) * (2 * (Real.pi : ℂ)) ^ (-3 : ℤ) by
      unfold tabulate
      rw [List.map_map]
      simp [Function.comp_def], tabulate_getD _ _ hi] at hg
    rw [← hg, zpow_neg]
    have : (2 * (Real.pi : ℂ)) ^ (3 : ℤ) ≠ 0 := zpow_ne_zero _ hpi
    field_simp

theorem tensor_inverse {n : ℕ} {A0 A1 B0 B1 : ℕ → ℕ → ℂ} {c : ℂ}
    (i0 : ∀ (f : ℕ → ℂ) i, i < n → ∑ j ∈ Finset.range n, B0 i j * ∑ p ∈ Finset.range n, A0 j p * f p = c * f i)
    (i1 : ∀ (f : ℕ → ℂ) i, i < n → ∑ j ∈ Finset.range n, B1 i j * ∑ p ∈ Finset.range n, A1 j p * f p = c * f i)
    (f : ℕ → ℕ → ℂ) {i j : ℕ} (hi : i < n) (hj : j < n) :
    ∑ a ∈ Finset.range n, ∑ b ∈ Finset.range n, B0 i a * B1 j b *
      (∑ p ∈ Finset.range n, ∑ q ∈ Finset.range n, A0 a p * A1 b q * f p q) = c * (c * f i j) := by
  rw [← i0 (fun p => c * f p j) i hi]
  apply Finset.sum_congr rfl
  intro a _
  have : ∀ p, c * f p j = ∑ b ∈ Finset.range n, B1 j b * ∑ q ∈ Finset.range n, A1 b q * f p q :=
    fun p => (i1 (f p) j hj).symm
  simp only [this, Finset.mul_sum]
  rw [Finset.sum_comm]
  apply Finset.sum_congr rfl
  intro p _
  apply Finset.sum_congr rfl
  intro b _
  apply Finset.sum_congr rfl
  intro q _
  ring

/-- **C115.** Transforming cosmological multipoles forwards, and then backwards at the returned sample
points and pivot with the opposite biases, gives back the array and its sample points: for an odd number
of points without the low-ringing condition, and for any number with it if the degrees and biases are
equal. -/
theorem C115_roundtrip {G : LnGamma} (hG : LgOk G) {deg0 deg1 : ℕ} {q0 q1 : ℝ} {pts : List ℝ} {kr : ℝ}
    {lowring : Bool} {e e' : ℝ} {D D' : Dsbt}
    (h : Dsbt.init G deg0 deg1 q0 q1 pts kr lowring .none e = .ok D)
    (h' : Dsbt.init G deg0 deg1 (-q0) (-q1) D.points D.t0.fbht.pivot lowring .none e' = .ok D')
    (hring : (lowring = false ∧ pts.length % 2 = 1) ∨ (lowring = true ∧ 0 < kr ∧ deg0 = deg1 ∧ q0 = q1))
    (hpos : ∀ r ∈ pts, 0 < r) (hN : 3 ≤ pts.length) (f : ℕ → ℕ → ℂ) :
    ∃ b, (D.cosmo true (table pts.length f)).2 = .ok ((D.points, D.points), b) ∧
      (D'.cosmo false b).2 = .ok ((pts, pts), table pts.length f) := by
  obtain ⟨H0, H1, h0, h1, rfl⟩ := init_none h
  rw [none_points] at h' ⊢
  obtain ⟨H0', H1', h0', h1', rfl⟩ := init_none h'
  have R0 := init_ready h0
  have R1 := init_ready h1
  have hlog : H0.logres = H1.logres := by rw [R0.hlog, R1.hlog]
  have hp : H0.pivot = H1.pivot := by
    rw [R0.hpivot, R1.hpivot]
    rcases hring with ⟨rfl, -⟩ | ⟨-, -, rfl, rfl⟩
    · rfl
    · rw [hlog]
  have hpost : H0.post = H1.post := by rw [R0.hpost, R1.hpost, hlog, hp]
  have hr : (lowring = false ∧ pts.length % 2 = 1) ∨ (lowring = true ∧ 0 < kr) :=
    hring.imp id fun x => ⟨x.1, x.2.1⟩
  have hlen := (C48_reciprocal h0).1
  have g0' : initialise G ((deg0 : ℝ) + 1 / 2) (-q0) H0.post H0.pivot lowring .none e' = .ok H0' := h0'
  have g1' : initialise G ((deg1 : ℝ) + 1 / 2) (-q1) H1.post H1.pivot lowring .none e' = .ok H1' := by
    rw [← hpost, ← hp]; exact h1'
  have a0 := line_acts h0 hN
  have a1 := line_acts h1 hN
  have b0 := line_acts g0' (by rw [hlen]; exact hN)
  have b1 := line_acts h1' (by rw [hlen]; exact hN)
  rw [hlen] at b0 b1
  have i0 := fun f i hi => line_inverse hG h0 g0' hr hpos hN a0 b0 f (i := i) hi
  have i1 := fun f i hi => line_inverse hG h1 g1' hr hpos hN a1 b1 f (i := i) hi
  have hpts : H0'.post = pts := by
    obtain ⟨b, hb, hb', hpp⟩ := C47_roundtrip hG h0 g0' (hr.imp id fun x => ⟨x.1, Or.inl x.2⟩)
      (a := tabulate pts.length fun _ => 0) (tabulate_length _ _) hN
    exact hpp
  generalize lineMatrix H0 pts.length = A0 at *
  generalize lineMatrix H1 pts.length = A1 at *
  generalize lineMatrix H0' pts.length = B0 at *
  generalize lineMatrix H1' pts.length = B1 at *
  have mapT : ∀ (g : ℕ → ℕ → ℂ) (c : ℂ), (table pts.length g).map (fun r => r.map (· * c)) =
      table pts.length fun i j => g i j * c := by
    intro g c
    unfold table
    simp only [List.map_map, Function.comp_def]
  have w := congrArg Prod.snd (work_table (n := pts.length) (by omega)
    (D := ⟨deg0, deg1, ⟨H0, 0, none⟩, ⟨H1, 0, none⟩, 0, none⟩) rfl a0 a1 f)
  refine ⟨table pts.length fun i j => (∑ p ∈ Finset.range pts.length, ∑ q ∈ Finset.range pts.length,
    A0 i p * A1 j q * f p q) * (1 * (-Complex.I) ^ (deg0 + deg1)), ?_, ?_⟩
  · unfold Dsbt.cosmo Dsbt.transform
    simp only at w ⊢
    rw [w]
    simp only [if_true]
    rw [mapT, none_points]
  · have w' := congrArg Prod.snd (work_table (n := pts.length) (by omega)
      (D := ⟨deg0, deg1, ⟨H0', 0, none⟩, ⟨H1', 0, none⟩, 0, none⟩) rfl b0 b1
      fun i j => (∑ p ∈ Finset.range pts.length, ∑ q ∈ Finset.range pts.length,
        A0 i p * A1 j q * f p q) * (1 * (-Complex.I) ^ (deg0 + deg1)))
    unfold Dsbt.cosmo Dsbt.transform
    simp only at w' ⊢
    rw [w']
    simp only [if_false, Bool.false_eq_true]
    rw [mapT, none_points, hpts]
    congr 2
    apply table_congr
    intro i hi j hj
    have hpi : (2 * (Real.pi : ℂ)) ≠ 0 := by
      have := Real.pi_pos.ne'
      simpa using this
    have hI : (-Complex.I) ^ (deg0 + deg1) * Complex.I ^ (deg0 + deg1) = 1 := by
      rw [← mul_pow]; simp
    have key := tensor_inverse (c := (2 * (Real.pi : ℂ)) ^ (3 : ℤ)) i0 i1 f hi hj
    have e1 : ∑ p ∈ Finset.range pts.length, ∑ q ∈ Finset.range pts.length, B0 i p * B1 j q *
        ((∑ p_1 ∈ Finset.range pts.length, ∑ q_1 ∈ Finset.range pts.length, A0 p p_1 * A1 q q_1 * f p_1 q_1) *
          (1 * (-Complex.I) ^ (deg0 + deg1))) =
        (2 * (Real.pi : ℂ)) ^ (3 : ℤ) * ((2 * (Real.pi : ℂ)) ^ (3 : ℤ) * f i j) *
          (-Complex.I) ^ (deg0 + deg1) := by
      rw [← key, Finset.sum_mul]
      apply Finset.sum_congr rfl
      intro a _
      rw [Finset.sum_mul]
      apply Finset.sum_congr rfl
      intro b _
      ring
    rw [e1]
    have hz : (2 * (Real.pi : ℂ)) ^ (3 : ℤ) * (2 * (Real.pi : ℂ)) ^ (3 : ℤ) * (2 * (Real.pi : ℂ)) ^ (-(3 * 2) : ℤ) = 1 := by
      rw [← zpow_add₀ hpi, ← zpow_add₀ hpi]; norm_num
    calc _ = ((2 * (Real.pi : ℂ)) ^ (3 : ℤ) * (2 * (Real.pi : ℂ)) ^ (3 : ℤ) * (2 * (Real.pi : ℂ)) ^ (-(3 * 2) : ℤ)) *
          ((-Complex.I) ^ (deg0 + deg1) * Complex.I ^ (deg0 + deg1)) * f i j := by ring
      _ = f i j := by rw [hz, hI]; ring

/-! ### C116: the array of the caller -/

/-- **C116 (violated).** Without extrapolation (the default), every row of the array of the caller is
multiplied in place by the power `3/2` of the sample points. -/
theorem C116_mutated_violated {G : LnGamma} {deg0 deg1 : ℕ} {q0 q1 : ℝ} {pts : List ℝ} {kr : ℝ} {lowring : Bool}
    {e : ℝ} {D : Dsbt} (h : Dsbt.init G deg0 deg1 q0 q1 pts kr lowring .none e = .ok D)
    (hN : 3 ≤ pts.length) (f : ℕ → ℕ → ℂ) :
    (D.transform (table pts.length f)).1 =
      table pts.length fun i j => f i j * (((pts.getD j 0) ^ (3 / 2 : ℝ) : ℝ) : ℂ) := by
  obtain ⟨H0, H1, h0, h1, rfl⟩ := init_none h
  have R1 := init_ready h1
  refine (congrArg Prod.fst (work_table (n := pts.length) (by omega)
    (D := ⟨deg0, deg1, ⟨H0, 0, none⟩, ⟨H1, 0, none⟩, 0, none⟩) rfl (line_acts h0 hN) (line_acts h1 hN) f)).trans ?_
  rw [table_eq, table_eq]
  simp only
  rw [show ∀ (g : List ℂ → List ℂ), (tabulate pts.length fun i => tabulate pts.length (f i)).map g =
    tabulate pts.length fun i => g (tabulate pts.length (f i)) from fun g => by
      unfold tabulate; rw [List.map_map]; rfl]
  apply tabulate_congr
  intro i _
  show ((⟨H1, 0, none⟩ : Line).work (tabulate pts.length (f i))).1 = _
  unfold Line.work
  simp only
  rw [if_neg (by rw [tabulate_length, R1.hpre]; simp), R1.hpre]
  conv_lhs => rw [← tabulate_real pts]
  rw [tabulate_length]
  exact zipWith_tabulate _ _ _ _

/-- **C116 (part).** With extrapolation of either kind, the array of the caller is left unchanged,
whether or not the transform succeeds. -/
theorem C116_unchanged_partial {G : LnGamma} {deg0 deg1 : ℕ} {q0 q1 : ℝ} {pts : List ℝ} {kr : ℝ} {lowring : Bool}
    {mode : Mode} (hm : mode ≠ .none)
    {e : ℝ} {D : Dsbt} (h : Dsbt.init G deg0 deg1 q0 q1 pts kr lowring mode e = .ok D) (m : List (List ℂ)) :
    (D.transform m).1 = m := by
  have allRows : ∀ (S : Line), S.ext ≠ none → ∀ l : List (List ℂ), (S.all l).1 = l := by
    intro S hS l
    induction l with
    | nil => rfl
    | cons a l ih =>
      have h1 : (S.transform a).1 = a := by
        unfold Line.transform
        cases hx : S.ext with
        | none => exact absurd hx hS
        | some g =>
          simp only
          cases g a <;> rfl
      unfold Line.all
      cases (S.transform a).2 with
      | error err => simp only [h1]
      | ok b => simp only [h1, ih]
  have hpair : ∀ {p : List ℝ} {nL nP : ℤ} {x : Option (List ℂ → Except PyErr (List ℂ))}
      {x2 : Option (List (List ℂ) → Except PyErr (List (List ℂ)))},
      Dsbt.pair G deg0 deg1 q0 q1 p kr lowring nL nP x x2 e = .ok D → D.t1.ext = x ∧ D.ext2 = x2 := by
    intro p nL nP x x2 hp
    unfold Dsbt.pair Line.init at hp
    split at hp
    · cases hp
    · split at hp
      · cases hp
      · rename_i t1 ht1
        cases hp
        split at ht1
        · cases ht1
        · cases ht1
          exact ⟨rfl, rfl⟩
  unfold Dsbt.init at h
  cases mode with
  | none => exact absurd rfl hm
  | lines g =>
    simp only at h
    split at h
    · cases h
    · obtain ⟨a, b⟩ := hpair h
      unfold Dsbt.transform
      rw [b]
      exact allRows D.t1 (by rw [a]; simp) m
  | plane g =>
    simp only at h
    split at h
    · cases h
    · obtain ⟨a, b⟩ := hpair h
      unfold Dsbt.transform
      rw [b]
      simp only
      cases g m <;> rfl

/-! ### Non-vacuity -/

theorem half_cast (d : ℕ) : construct ((d : ℝ) + 1 / 2) 0 = .ok () := construct_half d

theorem init_dsbt (d0 d1 N : ℕ) (hN : 2 ≤ N) {r0 kr : ℝ} (hr : 0 < r0) (hk : 0 < kr) (lowring : Bool) :
    ∃ D, Dsbt.init trueLg d0 d1 0 0 (geometric r0 1 N) kr lowring .none 2 = .ok D := by
  obtain ⟨H0, h0⟩ := init_geometric trueLg (half_cast d0) hr one_pos hN hk lowring 2
  obtain ⟨H1, h1⟩ := init_geometric trueLg (half_cast d1) hr one_pos hN hk lowring 2
  unfold Dsbt.init Dsbt.pair Line.init
  simp only
  rw [h0, h1]
  exact ⟨_, rfl⟩

theorem init_line (d N : ℕ) (hN : 2 ≤ N) {r0 kr : ℝ} (hr : 0 < r0) (hk : 0 < kr) (lowring : Bool) :
    ∃ S, Line.init trueLg d 0 (geometric r0 1 N) kr lowring 0 none 2 = .ok S := by
  obtain ⟨H0, h0⟩ := init_geometric trueLg (half_cast d) hr one_pos hN hk lowring 2
  unfold Line.init
  rw [h0]
  exact ⟨_, rfl⟩

/-- The hypotheses of `C114_second_points_violated` and `C115_double_sum`: degrees 0 and 2, four points. -/
example : ∃ D S, Dsbt.init trueLg 0 (0 + 2) 0 0 (geometric 1 1 4) 1 true .none 2 = .ok D ∧
    Line.init trueLg (0 + 2) 0 (geometric 1 1 4) 1 true 0 none 2 = .ok S ∧
    ∃ x s, (D.transform (table 4 fun i j => (i : ℂ) + j)).2 = .ok (x, s) := by
  obtain ⟨D, hD⟩ := init_dsbt 0 (0 + 2) 4 (by norm_num) one_pos one_pos true
  obtain ⟨S0, hS0⟩ := init_line 0 4 (by norm_num) one_pos one_pos true
  obtain ⟨S, hS⟩ := init_line (0 + 2) 4 (by norm_num) one_pos one_pos true
  obtain ⟨A0, A1, -, -, h2⟩ := C115_double_sum hD (by rw [geometric_length]; norm_num) hS0 hS
  obtain ⟨x, hx⟩ := h2 fun i j => (i : ℂ) + j
  rw [geometric_length] at hx
  exact ⟨D, S, hD, hS, x, _, hx⟩

/-- The hypotheses of `C115_roundtrip`: degrees 0 and 2, three points, no low-ringing condition. -/
example : ∃ D D', Dsbt.init trueLg 0 2 0 0 (geometric 1 1 3) 1 false .none 2 = .ok D ∧
    Dsbt.init trueLg 0 2 (-0) (-0) D.points D.t0.fbht.pivot false .none 2 = .ok D' ∧
    (geometric 1 1 3).length % 2 = 1 ∧ ∀ r ∈ geometric 1 1 3, 0 < r := by
  obtain ⟨D, hD⟩ := init_dsbt 0 2 3 (by norm_num) one_pos one_pos false
  obtain ⟨H0, H1, h0, h1, he⟩ := init_none hD
  have R := init_ready h0
  have hd : H0.logres = 1 := by rw [R.hlog, geometric_logres one_pos 1 (by norm_num)]
  have hpost : H0.post = geometric (H0.pivot * Real.exp (-3)) 1 3 := by
    rw [R.hpost, geometric_length, hd]
    unfold geometric
    apply List.map_congr_left
    intro j hj
    have hj3 : j < 3 := List.mem_range.1 hj
    have hg := geometric_getD 1 1 (N := 3) (j := 3 - j - 1) (by omega) 0
    unfold geometric at hg
    rw [hg, one_mul, mul_assoc, ← Real.exp_add, div_eq_mul_inv, ← Real.exp_neg, mul_assoc, ← Real.exp_add]
    congr 2
    rw [show 3 - j - 1 = 2 - j by omega, Nat.cast_sub (by omega)]
    push_cast
    ring
  obtain ⟨D', hD'⟩ := init_dsbt 0 2 3 (by norm_num) (r0 := H0.pivot * Real.exp (-3))
    (mul_pos R.ppos (Real.exp_pos _)) R.ppos false
  refine ⟨D, D', hD, ?_, by rw [geometric_length], ?_⟩
  · rw [he, none_points, hpost, neg_zero]
    exact hD'
  · intro r hr
    unfold geometric at hr
    obtain ⟨j, -, rfl⟩ := List.mem_map.1 hr
    positivity

end Trv.Fft

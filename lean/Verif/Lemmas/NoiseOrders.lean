import Verif.Spec.NoiseOrders
import Verif.Lemmas.Mirror
import Verif.Lemmas.BispecProps
import Verif.Lemmas.ThreePcfProps
import Verif.Props.Bispec
/-
Lemmas on the shot noise at opposite orders.
-/
namespace Trv.Zeta
open Trv.Mesh Trv.Stats Trv.Win Trv.Two Trv.ThreePt Trv.Bis

theorem allOrders_eq (E : Env3) (f : Triplet → ℂ) : allOrders E f =
    ∑ m1 ∈ Finset.Icc (-(E.ell1 : ℤ)) E.ell1, ∑ m2 ∈ Finset.Icc (-(E.ell2 : ℤ)) E.ell2,
      ∑ M ∈ Finset.Icc (-(E.ELL : ℤ)) E.ELL,
        if epsCoupling < |coupling3 E ⟨m1, m2, M⟩| then
          (coupling3 E ⟨m1, m2, M⟩ : ℂ) * f ⟨m1, m2, M⟩ else 0 := rfl

theorem planeOrders_eq (E : Env3) (f : Triplet → ℂ) : planeOrders E f =
    ∑ m1 ∈ Finset.Icc (-(E.ell1 : ℤ)) E.ell1, ∑ m2 ∈ Finset.Icc (-(E.ell2 : ℤ)) E.ell2,
      if epsCoupling < |coupling3 E ⟨m1, m2, 0⟩| then
        (coupling3 E ⟨m1, m2, 0⟩ : ℂ) * f ⟨m1, m2, 0⟩ else 0 := rfl

/-! ### Half of the orders -/

theorem even_sum (E : Env3) (hw : WignerLike E.w3j) (h000 : E.w3j E.ell1 E.ell2 E.ELL 0 0 0 ≠ 0) :
    Even (E.ell1 + E.ell2 + E.ELL) := by
  by_contra ho
  have := hw.reflect E.ell1 E.ell2 E.ELL 0 0 0
  rw [Odd.neg_one_pow (Nat.not_even_iff_odd.1 ho)] at this
  simp only [neg_zero] at this
  apply h000
  linarith

theorem coupling_neg (E : Env3) (hw : WignerLike E.w3j) (hev : Even (E.ell1 + E.ell2 + E.ELL))
    (t : Triplet) : coupling3 E t.neg = coupling3 E t := by
  unfold coupling3
  have := hw.reflect E.ell1 E.ell2 E.ELL t.m1 t.m2 t.M
  rw [hev.neg_one_pow, one_mul] at this
  show _ * E.w3j E.ell1 E.ell2 E.ELL (-t.m1) (-t.m2) (-t.M) = _
  rw [this]

theorem coupling_select (E : Env3) (hw : WignerLike E.w3j) {t : Triplet}
    (h : epsCoupling < |coupling3 E t|) : t.m1 + t.m2 + t.M = 0 := by
  by_contra hne
  have : coupling3 E t = 0 := by
    unfold coupling3
    rw [hw.select E.ell1 E.ell2 E.ELL t.m1 t.m2 t.M hne, mul_zero]
  rw [this, abs_zero] at h
  unfold epsCoupling at h
  norm_num at h

theorem sum_orders (E : Env3) (hw : WignerLike E.w3j) (hev : Even (E.ell1 + E.ell2 + E.ELL))
    (hgap : ∀ t : Triplet, t.Allowed E.ell1 E.ell2 E.ELL → |coupling3 E t| ≠ epsCoupling)
    (X Y : Triplet → ℂ)
    (h : ∀ t : Triplet, t.Allowed E.ell1 E.ell2 E.ELL → t.m1 + t.m2 + t.M = 0 →
      X t = Y t + if t.isZeros then 0 else Y t.neg) :
    ((triplets E).map fun t => (coupling3 E t : ℂ) * X t).sum = allOrders E Y := by
  have hs : ∀ t : Triplet, t.Allowed E.ell1 E.ell2 E.ELL → |coupling3 E t.neg| = |coupling3 E t| :=
    fun t _ => by rw [coupling_neg E hw hev]
  rw [allOrders_eq]
  unfold triplets
  rw [← sum_computed (coupling3 E) epsCoupling E.ell1 E.ell2 E.ELL hs hgap
    (fun t => (coupling3 E t : ℂ) * Y t)]
  congr 1
  apply List.map_congr_left
  intro t ht
  obtain ⟨ha, hc⟩ := (computed_iff (coupling3 E) epsCoupling E.ell1 E.ell2 E.ELL hs hgap t).1 (Or.inl ht)
  rw [h t ha (coupling_select E hw hc), coupling_neg E hw hev]
  split_ifs <;> ring

theorem mem_gpp (c : Triplet → ℝ) (eps : ℝ) (ell1 ell2 : ℤ) (t : Triplet)
    (h : t ∈ computedOrdersGpp c eps ell1 ell2) : t.M = 0 ∧ |t.m1| ≤ ell1 ∧ |t.m2| ≤ ell2 ∧ eps ≤ |c t| := by
  unfold computedOrdersGpp at h
  have hc : ((upto (-ell1) (ell1 + 1)).foldl (fun acc m1 =>
      (upto (-ell2) (ell2 + 1)).foldl (fun acc m2 => stepM c eps acc ⟨m1, m2, 0⟩) acc) []) =
      ((upto (-ell1) (ell1 + 1)).flatMap fun m1 => (upto (-ell2) (ell2 + 1)).map
        fun m2 => (⟨m1, m2, 0⟩ : Triplet)).foldl (stepM c eps) [] := by
    rw [List.foldl_flatMap]; congr 1; funext acc m1; rw [List.foldl_map]
  rw [hc] at h
  have h2 := (foldl_stepM c eps _).2.1 t h
  have := (foldl_stepM _ _ _).1.subset h
  simp only [List.mem_flatMap, List.mem_map, mem_upto] at this
  obtain ⟨m1, h1, m2, h2', rfl⟩ := this
  exact ⟨rfl, abs_le.2 (by simp only; omega), abs_le.2 (by simp only; omega), h2⟩

theorem sum_plane (E : Env3) (hw : WignerLike E.w3j) (hev : Even (E.ell1 + E.ell2 + E.ELL))
    (hgap : ∀ t : Triplet, t.Allowed E.ell1 E.ell2 E.ELL → |coupling3 E t| ≠ epsCoupling)
    (X Y : Triplet → ℂ)
    (h : ∀ t : Triplet, t.Allowed E.ell1 E.ell2 E.ELL → t.m1 + t.m2 + t.M = 0 → t.M = 0 →
      X t = Y t + if t.isZeros then 0 else Y t.neg) :
    ((tripletsGpp E).map fun t => (coupling3 E t : ℂ) * X t).sum = planeOrders E Y := by
  have hs : ∀ t : Triplet, t.Allowed E.ell1 E.ell2 E.ELL → |coupling3 E t.neg| = |coupling3 E t| :=
    fun t _ => by rw [coupling_neg E hw hev]
  rw [planeOrders_eq]
  unfold tripletsGpp
  rw [← sum_computedGpp (coupling3 E) epsCoupling E.ell1 E.ell2 E.ELL hs hgap (by omega)
    (fun t => (coupling3 E t : ℂ) * Y t)]
  congr 1
  apply List.map_congr_left
  intro t ht
  obtain ⟨h0, h1, h2, h3⟩ := mem_gpp _ _ _ _ _ ht
  have ha : t.Allowed E.ell1 E.ell2 E.ELL := ⟨h1, h2, by rw [h0, abs_zero]; omega⟩
  have hc : epsCoupling < |coupling3 E t| := lt_of_le_of_ne h3 (Ne.symm (hgap t ha))
  rw [h t ha (coupling_select E hw hc) h0, coupling_neg E hw hev]
  split_ifs <;> ring

/-! ### Fields at mirror images -/

/-- The fields at opposite orders and modes. -/
structure MirrorAt (n : Fin 3 → ℤ) (F : NoiseFields) (M : ℤ) : Prop where
  f : ∀ c ∈ box n, F.f (gid n (mirrorCell n c)) = (starRingEnd ℂ) (F.f (gid n c))
  fLM : ∀ c ∈ box n, F.fLM (-M) (gid n (mirrorCell n c)) = (-1) ^ M.natAbs * (starRingEnd ℂ) (F.fLM M (gid n c))
  q : ∀ c ∈ box n, F.q (gid n (mirrorCell n c)) = (starRingEnd ℂ) (F.q (gid n c))
  qLM : ∀ c ∈ box n, F.qLM (-M) (gid n (mirrorCell n c)) = (-1) ^ M.natAbs * (starRingEnd ℂ) (F.qLM M (gid n c))
  s : F.s (-M) = (-1) ^ M.natAbs * (starRingEnd ℂ) (F.s M)

theorem sin2_mirror {N i : ℤ} (hN : 0 < N) (h2 : 2 ∣ N) (hi : 0 ≤ i) (hi' : i < N) :
    sin2Axis N (-i % N) = sin2Axis N i := by
  obtain ⟨h, h'⟩ := shift_mirror hN h2 hi hi'
  by_cases e : 2 * i = N
  · rw [h' e]
  · have := h e
    unfold sin2Axis
    simp only
    rw [this]
    push_cast
    have hx : Real.pi * -(shiftIndex N i : ℝ) / N = -(Real.pi * (shiftIndex N i : ℝ) / N) := by ring
    rw [hx, Real.sin_neg, neg_mul_neg]
    simp only [ne_eq, neg_eq_zero]

theorem alias_mirror (E : Two.Env) (hn : ∀ a, 0 < E.mesh.n a) (he : ∀ a, 2 ∣ E.mesh.n a)
    (hi : E.interlace = false) {c : ℤ × ℤ × ℤ} (hc : c ∈ box E.mesh.n) :
    E.alias_ (mirrorCell E.mesh.n c) = E.alias_ c := by
  obtain ⟨⟨a, a'⟩, ⟨b, b'⟩, k, k'⟩ := mem_box.1 hc
  unfold Two.Env.alias_ aliasing mirrorCell
  rw [hi]
  simp only [Bool.false_eq_true, if_false]
  rw [sin2_mirror (hn 0) (he 0) a a', sin2_mirror (hn 1) (he 1) b b', sin2_mirror (hn 2) (he 2) k k']

theorem win_mirror (E : Two.Env) (hn : ∀ a, 0 < E.mesh.n a) (he : ∀ a, 2 ∣ E.mesh.n a)
    (hi : E.interlace = false) {c : ℤ × ℤ × ℤ} (hc : c ∈ box E.mesh.n) :
    E.win (mirrorCell E.mesh.n c) = E.win c := by
  unfold Two.Env.win
  rw [hi]
  simp only [Bool.false_eq_true, if_false]
  exact alias_mirror E hn he hi hc

theorem sum_box_mirror {n : Fin 3 → ℤ} (hn : ∀ a, 0 < n a) (f : ℤ × ℤ × ℤ → ℂ) :
    ∑ c ∈ allModes n, f c = ∑ c ∈ allModes n, f (mirrorCell n c) := by
  rw [allModes_eq]
  refine Finset.sum_nbij' (mirrorCell n) (mirrorCell n) ?_ ?_ ?_ ?_ ?_
  · intro c _; exact mirror_mem hn c
  · intro c _; exact mirror_mem hn c
  · intro c hc; exact mirror_mirror hc
  · intro c hc; exact mirror_mirror hc
  · intro c hc; rw [mirror_mirror hc]

theorem corr_neg (E : Two.Env) (hn : ∀ a, 0 < E.mesh.n a) (he : ∀ a, 2 ∣ E.mesh.n a)
    (hi : E.interlace = false) {F : NoiseFields} {M : ℤ} (hF : MirrorAt E.mesh.n F M) (c : ℤ × ℤ × ℤ) :
    corr E (F.fLM (-M)) F.q (F.s (-M)) c =
      (-1) ^ M.natAbs * (starRingEnd ℂ) (corr E (F.fLM M) F.q (F.s M) c) := by
  unfold corr
  rw [map_div₀, Complex.conj_ofReal, ← mul_div_assoc, sum_box_mirror hn, map_sum, Finset.mul_sum]
  congr 1
  apply Finset.sum_congr rfl
  intro x hx
  rw [allModes_eq] at hx
  rw [hF.fLM x hx, hF.q x hx, hF.s, alias_mirror E hn he hi hx, win_mirror E hn he hi hx]
  simp only [map_mul, map_div₀, map_sub, Complex.conj_ofReal, phase3_conj]
  have : phase3 E.mesh.n 1 c (mirrorCell E.mesh.n x) = phase3 E.mesh.n (-1) c x := by
    rw [phase3_comm, phase3_mirror hn, phase3_comm]
  rw [this]
  ring

theorem sign_orders {t : Triplet} (h0 : t.m1 + t.m2 + t.M = 0) :
    ((-1 : ℂ) ^ t.M.natAbs) * ((-1) ^ t.m1.natAbs * (-1) ^ t.m2.natAbs) = 1 := by
  rw [← pow_add, ← pow_add]
  apply Even.neg_one_pow
  rw [Nat.even_iff]
  omega

theorem ylm_neg (E : Two.Env) (l : ℕ) (m : ℤ) (v : Fin 3 → ℝ) :
    E.ylm l (-m) v = (-1) ^ m.natAbs * (starRingEnd ℂ) (E.ylm l m v) := C57_conjugation _ _ _ _ _ _

theorem sepNoise_neg (E : Env3) (hn : ∀ a, 0 < E.mesh.n a) (he : ∀ a, 2 ∣ E.mesh.n a)
    (hi : E.interlace = false) {F : NoiseFields} {t : Triplet} (hF : MirrorAt E.mesh.n F t.M)
    (h0 : t.m1 + t.m2 + t.M = 0) (ka kb : ℝ) :
    sepNoise E (F.fLM (-t.M)) F.q (F.s (-t.M)) t.neg ka kb =
      (starRingEnd ℂ) (sepNoise E (F.fLM t.M) F.q (F.s t.M) t ka kb) := by
  unfold sepNoise
  rw [map_mul, Complex.conj_ofReal, map_sum]
  congr 1
  apply Finset.sum_congr rfl
  intro c _
  rw [corr_neg E.toEnv hn he hi hF]
  show _ * _ * (E.ylm E.ell1 (-t.m1) _ * E.ylm E.ell2 (-t.m2) _) = _
  rw [ylm_neg, ylm_neg]
  simp only [map_mul, Complex.conj_ofReal]
  have := sign_orders h0
  linear_combination ((starRingEnd ℂ) (corr E.toEnv (F.fLM t.M) F.q (F.s t.M) c) *
    ((E.sj E.ell1 (ka * mag (rvec E.mesh c)) * E.sj E.ell2 (kb * mag (rvec E.mesh c)) : ℝ) : ℂ) *
    ((starRingEnd ℂ) (E.ylm E.ell1 t.m1 (rvec E.mesh c)) *
      (starRingEnd ℂ) (E.ylm E.ell2 t.m2 (rvec E.mesh c)))) * this

theorem selfPairs_neg (E : Env3) (hn : ∀ a, 0 < E.mesh.n a) (he : ∀ a, 2 ∣ E.mesh.n a)
    (hi : E.interlace = false) {F : NoiseFields} {t : Triplet} (hF : MirrorAt E.mesh.n F t.M)
    (h0 : t.m1 + t.m2 + t.M = 0) (b : ℤ) :
    selfPairs E (F.fLM (-t.M)) F.q (F.s (-t.M)) t.neg b =
      (starRingEnd ℂ) (selfPairs E (F.fLM t.M) F.q (F.s t.M) t b) := by
  unfold selfPairs
  rw [map_div₀, map_div₀, map_mul, Complex.conj_ofReal, Complex.conj_natCast, map_sum]
  congr 2
  apply Finset.sum_congr rfl
  intro c _
  rw [corr_neg E.toEnv hn he hi hF]
  show _ * (E.ylm E.ell1 (-t.m1) _ * E.ylm E.ell2 (-t.m2) _) = _
  rw [ylm_neg, ylm_neg]
  simp only [map_mul]
  have := sign_orders h0
  linear_combination ((starRingEnd ℂ) (corr E.toEnv (F.fLM t.M) F.q (F.s t.M) c) *
    ((starRingEnd ℂ) (E.ylm E.ell1 t.m1 (fun ax => -rvec E.mesh c ax)) *
      (starRingEnd ℂ) (E.ylm E.ell2 t.m2 (fun ax => -rvec E.mesh c ax)))) * this

/-! ### Modes of a bin -/

theorem modesIn_off (E : Env3) (hM : GoodMesh E.mesh) {b : ℤ} (hb : BelowRounded E b) {c : ℤ × ℤ × ℤ}
    (hc : c ∈ modesIn E.toEnv b.toNat) : c ∈ box E.mesh.n ∧ OffNyquist E.mesh.n c := by
  unfold modesIn at hc
  rw [Finset.mem_filter, allModes_eq] at hc
  obtain ⟨h1, _, _, h4⟩ := hc
  refine ⟨h1, off_of_lt E.mesh hM.valid fun ax => lt_of_lt_of_le ?_ (hb ax)⟩
  have hf := Int.lt_floor_add_one (mag (kvec E.mesh c) * 100000)
  have : mag (kvec E.mesh c) < (⌊mag (kvec E.mesh c) * 100000⌋ : ℝ) / 100000 + 1 / 100000 := by
    rw [← add_div, lt_div_iff₀ (by norm_num)]
    exact hf
  have h5 : (⌊mag (kvec E.mesh c) * 100000⌋ : ℝ) / 100000 < upperEdge E b := h4
  linarith

theorem modesIn_mirror (E : Env3) (hM : GoodMesh E.mesh) {b : ℤ} (hb : BelowRounded E b) {c : ℤ × ℤ × ℤ}
    (hc : c ∈ modesIn E.toEnv b.toNat) : mirrorCell E.mesh.n c ∈ modesIn E.toEnv b.toNat := by
  have hn := fun a => (hM.valid a).1
  obtain ⟨h1, hq⟩ := modesIn_off E hM hb hc
  unfold modesIn at hc ⊢
  rw [Finset.mem_filter] at hc ⊢
  rw [mag_neg (kvec_mirror E.mesh hn hM.even h1 hq)]
  exact ⟨by rw [allModes_eq]; exact mirror_mem hn c, hc.2⟩

theorem sum_modesIn_mirror (E : Env3) (hM : GoodMesh E.mesh) {b : ℤ} (hb : BelowRounded E b)
    (f : ℤ × ℤ × ℤ → ℂ) : ∑ c ∈ modesIn E.toEnv b.toNat, f c =
      ∑ c ∈ modesIn E.toEnv b.toNat, f (mirrorCell E.mesh.n c) := by
  refine Finset.sum_nbij' (mirrorCell E.mesh.n) (mirrorCell E.mesh.n) ?_ ?_ ?_ ?_ ?_
  · intro c hc; exact modesIn_mirror E hM hb hc
  · intro c hc; exact modesIn_mirror E hM hb hc
  · intro c hc; exact mirror_mirror (modesIn_off E hM hb hc).1
  · intro c hc; exact mirror_mirror (modesIn_off E hM hb hc).1
  · intro c hc; rw [mirror_mirror (modesIn_off E hM hb hc).1]

theorem pairNoise_neg (E : Env3) (hP : LegendreLike E.P) (hM : GoodMesh E.mesh)
    (hi : E.interlace = false) {F : NoiseFields} {M : ℤ} (hF : MirrorAt E.mesh.n F M) (l : ℕ) (m : ℤ)
    (hm : |m| ≤ l) (h0 : m + M = 0) (b : ℤ) (hb : BelowRounded E b) :
    pairNoise E F.f (F.qLM (-M)) (F.s (-M)) l (-m) b =
      (-1) ^ l * (starRingEnd ℂ) (pairNoise E F.f (F.qLM M) (F.s M) l m b) := by
  have hn := fun a => (hM.valid a).1
  unfold pairNoise meanOver
  rw [map_div₀, Complex.conj_natCast, ← mul_div_assoc, sum_modesIn_mirror E hM hb, map_sum, Finset.mul_sum]
  congr 1
  apply Finset.sum_congr rfl
  intro c hc
  obtain ⟨h1, hq⟩ := modesIn_off E hM hb hc
  rw [ylm_mirror E hP hM l m hm h1 hq]
  unfold power
  have a1 : E.alias_ (mirrorCell E.mesh.n c) = E.alias_ c := alias_mirror E.toEnv hn hM.even hi h1
  have a2 : E.win (mirrorCell E.mesh.n c) = E.win c := win_mirror E.toEnv hn hM.even hi h1
  rw [a1, a2, hF.f c h1, hF.qLM c h1, hF.s]
  simp only [map_mul, map_div₀, map_sub, Complex.conj_ofReal, Complex.conj_conj, map_pow, map_neg, map_one]
  have hs : ((-1 : ℂ) ^ M.natAbs) * (-1) ^ m.natAbs = 1 := by
    rw [← pow_add]
    apply Even.neg_one_pow
    rw [Nat.even_iff]
    omega
  linear_combination (((starRingEnd ℂ) (F.f (gid E.mesh.n c)) * F.qLM M (gid E.mesh.n c) / (E.win c : ℂ) -
    (starRingEnd ℂ) (F.s M) * (E.alias_ c : ℂ) / (E.win c : ℂ)) *
    ((-1) ^ l * (starRingEnd ℂ) (E.ylm l m (kvec E.mesh c)))) * hs

/-! ### The contributions at opposite orders -/

theorem pow_ELL (E : Env3) (hev : Even (E.ell1 + E.ell2 + E.ELL)) :
    ((-1 : ℂ) ^ (E.ell1 + E.ell2)) = (-1) ^ E.ELL := by
  have : ((-1 : ℂ) ^ (E.ell1 + E.ell2)) * (-1) ^ E.ELL = 1 := by rw [← pow_add, hev.neg_one_pow]
  calc ((-1 : ℂ) ^ (E.ell1 + E.ell2)) = ((-1 : ℂ) ^ (E.ell1 + E.ell2)) * ((-1) ^ E.ELL * (-1) ^ E.ELL) := by
        rw [neg_one_pow_cancel, mul_one]
    _ = _ := by rw [← mul_assoc, this, one_mul]

/-- The contribution at opposite orders. -/
theorem noisePart_neg (E : Env3) (hP : LegendreLike E.P) (hM : GoodMesh E.mesh)
    (hi : E.interlace = false) (hev : Even (E.ell1 + E.ell2 + E.ELL)) {F : NoiseFields} {t : Triplet}
    (ha : t.Allowed E.ell1 E.ell2 E.ELL) (hF : MirrorAt E.mesh.n F t.M) (h0 : t.m1 + t.m2 + t.M = 0)
    (row col : ℤ) (hr : BelowRounded E row) (hc : BelowRounded E col) :
    noisePart E F row col t.neg = (-1) ^ E.ELL * (starRingEnd ℂ) (noisePart E F row col t) := by
  have hn := fun a => (hM.valid a).1
  obtain ⟨b1, b2, b3⟩ := ha
  have hp := pow_ELL E hev
  unfold noisePart
  rw [map_add, map_add, map_add, mul_add, mul_add, mul_add]
  congr 1
  congr 1
  congr 1
  · split_ifs with hz
    · show F.s (-t.M) = _
      have hM0 : t.M = 0 := by
        rw [hz.1] at b1; rw [hz.2] at b2
        have := abs_nonneg t.m1; have := abs_nonneg t.m2
        have h1 : t.m1 = 0 := abs_eq_zero.1 (by omega)
        have h2 : t.m2 = 0 := abs_eq_zero.1 (by omega)
        omega
      rw [hF.s, hM0, ← hp, hz.1, hz.2]
      simp
    · simp
  · split_ifs with hz
    · have h2 : t.m2 = 0 := abs_eq_zero.1 (by rw [hz] at b2; have := abs_nonneg t.m2; omega)
      have := pairNoise_neg E hP hM hi hF E.ell1 t.m1 b1 (by omega) row hr
      rw [← hp, hz, add_zero]
      exact this
    · simp
  · split_ifs with hz
    · have h2 : t.m1 = 0 := abs_eq_zero.1 (by rw [hz] at b1; have := abs_nonneg t.m1; omega)
      have := pairNoise_neg E hP hM hi hF E.ell2 t.m2 b2 (by omega) col hc
      rw [← hp, hz, zero_add]
      exact this
    · simp
  · have := sepNoise_neg E hn hM.even hi hF h0 (meanWavenumber E row) (meanWavenumber E col)
    rw [show sepNoise E (F.fLM t.neg.M) F.q (F.s t.neg.M) t.neg (meanWavenumber E row) (meanWavenumber E col)
      = _ from this, map_mul, map_pow, Complex.conj_I, ← hp, neg_pow Complex.I, ← mul_assoc, ← mul_assoc,
      neg_one_pow_cancel, one_mul]

/-- The computed contribution is that of both opposite orders. -/
theorem noiseAt_both (E : Env3) (hP : LegendreLike E.P) (hM : GoodMesh E.mesh)
    (hi : E.interlace = false) (hev : Even (E.ell1 + E.ell2 + E.ELL)) {F : NoiseFields} {t : Triplet}
    (ha : t.Allowed E.ell1 E.ell2 E.ELL) (hF : MirrorAt E.mesh.n F t.M) (h0 : t.m1 + t.m2 + t.M = 0)
    (row col : ℤ) (hr : BelowRounded E row) (hc : BelowRounded E col) :
    noiseAt E F t row col =
      noisePart E F row col t + if t.isZeros then 0 else noisePart E F row col t.neg := by
  by_cases hz : t.isZeros = true
  · rw [if_pos hz]
    unfold noiseAt noisePart mirrored fMirror fMirrorW3j factorMirror
    simp [hz]
  · rw [if_neg hz, noisePart_neg E hP hM hi hev ha hF h0 row col hr hc]
    have hne : ¬ (E.ell1 = 0 ∧ E.ell2 = 0) := by
      rintro ⟨z1, z2⟩
      obtain ⟨b1, b2, b3⟩ := ha
      rw [z1] at b1; rw [z2] at b2
      have := abs_nonneg t.m1; have := abs_nonneg t.m2
      have h1 : t.m1 = 0 := abs_eq_zero.1 (by omega)
      have h2 : t.m2 = 0 := abs_eq_zero.1 (by omega)
      apply hz
      unfold Triplet.isZeros
      simp [h1, h2]
      omega
    unfold noiseAt noisePart mirrored fMirror fMirrorW3j factorMirror
    simp only [hz, if_neg hne, if_false, map_add, map_mul, map_pow, Complex.conj_I]
    have hp := pow_ELL E hev
    have hI : (-1 : ℂ) ^ E.ELL * (-Complex.I) ^ (E.ell1 + E.ell2) = Complex.I ^ (E.ell1 + E.ell2) := by
      rw [← hp, neg_pow Complex.I, ← mul_assoc, neg_one_pow_cancel, one_mul]
    have e1 : ∀ (p : Prop) [Decidable p] (x : ℂ), (starRingEnd ℂ) (if p then x else 0) =
        if p then (starRingEnd ℂ) x else 0 := by
      intro p _ x; split_ifs <;> simp
    rw [e1, e1, map_zero]
    push_cast
    simp only [Int.toNat_natCast]
    split_ifs <;> linear_combination (-(starRingEnd ℂ) (sepNoise E (F.fLM t.M) F.q (F.s t.M) t (meanWavenumber E row) (meanWavenumber E col))) * hI

theorem selfSum_both (E : Env3) (hM : GoodMesh E.mesh) (hi : E.interlace = false) {F : NoiseFields}
    {t : Triplet} (hF : MirrorAt E.mesh.n F t.M) (h0 : t.m1 + t.m2 + t.M = 0) (b : ℤ) :
    mirrored (fMirrorW3j t) (selfPairs E (F.fLM t.M) F.q (F.s t.M) t b) =
      selfPart E F b t + if t.isZeros then 0 else selfPart E F b t.neg := by
  unfold mirrored fMirrorW3j selfPart
  by_cases hz : t.isZeros = true
  · simp [hz]
  · simp only [hz, if_false]
    rw [show selfPairs E (F.fLM t.neg.M) F.q (F.s t.neg.M) t.neg b = _ from
      selfPairs_neg E (fun a => (hM.valid a).1) hM.even hi hF h0 b]
    push_cast
    rw [one_mul]

/-! ### Conjugates of sums over orders -/

theorem allOrders_conj (E : Env3) (hw : WignerLike E.w3j) (hev : Even (E.ell1 + E.ell2 + E.ELL))
    (Y : Triplet → ℂ) (e : ℂ)
    (h : ∀ t : Triplet, t.Allowed E.ell1 E.ell2 E.ELL → t.m1 + t.m2 + t.M = 0 →
      Y t.neg = e * (starRingEnd ℂ) (Y t)) :
    allOrders E Y = e * (starRingEnd ℂ) (allOrders E Y) := by
  rw [allOrders_eq]
  rw [map_sum, Finset.mul_sum]
  conv_lhs => rw [sum_Icc_neg E.ell1]
  apply Finset.sum_congr rfl
  intro m1 h1
  rw [map_sum, Finset.mul_sum]
  conv_lhs => rw [sum_Icc_neg E.ell2]
  apply Finset.sum_congr rfl
  intro m2 h2
  rw [map_sum, Finset.mul_sum]
  conv_lhs => rw [sum_Icc_neg E.ELL]
  apply Finset.sum_congr rfl
  intro M h3
  have hc : coupling3 E ⟨-m1, -m2, -M⟩ = coupling3 E ⟨m1, m2, M⟩ := coupling_neg E hw hev ⟨m1, m2, M⟩
  rw [hc]
  by_cases hlt : epsCoupling < |coupling3 E ⟨m1, m2, M⟩|
  · rw [if_pos hlt, if_pos hlt]
    rw [Finset.mem_Icc] at h1 h2 h3
    have := h ⟨m1, m2, M⟩ ⟨abs_le.2 h1, abs_le.2 h2, abs_le.2 h3⟩ (coupling_select E hw hlt)
    rw [show Y ⟨-m1, -m2, -M⟩ = _ from this, map_mul, Complex.conj_ofReal]
    ring
  · rw [if_neg hlt, if_neg hlt, map_zero, mul_zero]

theorem planeOrders_conj (E : Env3) (hw : WignerLike E.w3j) (hev : Even (E.ell1 + E.ell2 + E.ELL))
    (Y : Triplet → ℂ) (e : ℂ)
    (h : ∀ t : Triplet, t.Allowed E.ell1 E.ell2 E.ELL → t.m1 + t.m2 + t.M = 0 → t.M = 0 →
      Y t.neg = e * (starRingEnd ℂ) (Y t)) :
    planeOrders E Y = e * (starRingEnd ℂ) (planeOrders E Y) := by
  rw [planeOrders_eq]
  rw [map_sum, Finset.mul_sum]
  conv_lhs => rw [sum_Icc_neg E.ell1]
  apply Finset.sum_congr rfl
  intro m1 h1
  rw [map_sum, Finset.mul_sum]
  conv_lhs => rw [sum_Icc_neg E.ell2]
  apply Finset.sum_congr rfl
  intro m2 h2
  have hc : coupling3 E ⟨-m1, -m2, 0⟩ = coupling3 E ⟨m1, m2, 0⟩ := by
    have := coupling_neg E hw hev ⟨m1, m2, 0⟩
    simpa [Triplet.neg] using this
  rw [hc]
  by_cases hlt : epsCoupling < |coupling3 E ⟨m1, m2, 0⟩|
  · rw [if_pos hlt, if_pos hlt]
    rw [Finset.mem_Icc] at h1 h2
    have := h ⟨m1, m2, 0⟩ ⟨abs_le.2 h1, abs_le.2 h2, by simp⟩ (coupling_select E hw hlt) rfl
    rw [show Y ⟨-m1, -m2, 0⟩ = e * (starRingEnd ℂ) (Y ⟨m1, m2, 0⟩) by simpa [Triplet.neg] using this,
      map_mul, Complex.conj_ofReal]
    ring
  · rw [if_neg hlt, if_neg hlt, map_zero, mul_zero]

theorem real_or_imag {x : ℂ} {L : ℕ} (h : x = (-1) ^ L * (starRingEnd ℂ) x) :
    (Even L → x.im = 0) ∧ (Odd L → x.re = 0) := by
  constructor
  · intro he
    rw [he.neg_one_pow, one_mul] at h
    have := congrArg Complex.im h
    rw [Complex.conj_im] at this
    linarith
  · intro ho
    rw [ho.neg_one_pow, neg_one_mul] at h
    have := congrArg Complex.re h
    rw [Complex.neg_re, Complex.conj_re] at this
    linarith

/-! ### The fields of the measurements -/

theorem quadFieldTwo_sign (s : Bool → ℝ) (sch : Scheme) (M : Mesh ℝ) (il : Bool)
    (data rand : List (Particle ℝ)) (alpha : ℝ) :
    quadFieldTwo sch M il (data.map (signP s)) (rand.map (signP s)) alpha =
      signF s (quadFieldTwo sch M il data rand alpha) := by
  unfold quadFieldTwo
  simp only [assignField_sign]
  unfold signF assignField
  cases il
  · simp only [Option.map, MeshField.mk.injEq]
    refine ⟨?_, rfl⟩
    funext g b; ring
  · simp only [Option.map, MeshField.mk.injEq, if_true]
    refine ⟨?_, congrArg some ?_⟩
    · funext g b; ring
    · funext g b; ring

theorem quadWeights_neg (E : Two.Env) (ell : ℕ) (m : ℤ) (c : List Part) :
    ylmWeightsQuad E ell (-m) c = (ylmWeightsQuad E ell m c).map (signP (conjSign m)) := by
  unfold ylmWeightsQuad
  rw [List.map_map]
  apply List.map_congr_left
  intro p _
  simp only [Function.comp, signP, Particle.mk.injEq, true_and]
  funext b
  have hs : ((-1 : ℂ) ^ m.natAbs) = (((-1 : ℝ) ^ m.natAbs : ℝ) : ℂ) := by push_cast; rfl
  rw [ylm_neg, hs, map_mul, Complex.conj_ofReal]
  cases b
  · simp only [conjSign, Bool.false_eq_true, if_false, Complex.re_ofReal_mul, Complex.conj_re]
    ring
  · simp only [conjSign, if_true, Complex.im_ofReal_mul, Complex.conj_im]
    ring

theorem ylmSum_neg (E : Two.Env) (n ell : ℕ) (m : ℤ) (c : List Part) :
    ylmSum E n ell (-m) c = (-1) ^ m.natAbs * (starRingEnd ℂ) (ylmSum E n ell m c) := by
  unfold ylmSum
  rw [map_list_sum, List.map_map, ← List.sum_map_mul_left]
  congr 1
  apply List.map_congr_left
  intro p _
  simp only [Function.comp]
  rw [ylm_neg, map_mul, Complex.conj_ofReal]
  ring

theorem survey_mirror (E : Env3) (hM : GoodMesh E.mesh) (hi : E.interlace = false)
    (data rand : List Part) (M : ℤ) : MirrorAt E.mesh.n (surveyNoise E data rand) M := by
  have hn := fun a => (hM.valid a).1
  have hd : ∀ l m c, c ∈ box E.mesh.n →
      fourier E.mesh (dnField E.toEnv data rand (alphaOf data rand) l (-m)) (gid E.mesh.n (mirrorCell E.mesh.n c)) =
        (-1) ^ m.natAbs *
          (starRingEnd ℂ) (fourier E.mesh (dnField E.toEnv data rand (alphaOf data rand) l m) (gid E.mesh.n c)) := by
    intro l m c hc
    rw [dnField_neg]
    exact fourier_sign_mirror E.mesh hn hM.even _ m hc (Or.inl (dnField_none _ _ _ _ _ _ hi))
  have hq : ∀ l m c, c ∈ box E.mesh.n →
      fourier E.mesh (quadField E.toEnv data rand (alphaOf data rand) l (-m)) (gid E.mesh.n (mirrorCell E.mesh.n c)) =
        (-1) ^ m.natAbs *
          (starRingEnd ℂ) (fourier E.mesh (quadField E.toEnv data rand (alphaOf data rand) l m) (gid E.mesh.n c)) := by
    intro l m c hc
    have : quadField E.toEnv data rand (alphaOf data rand) l (-m) =
        signF (conjSign m) (quadField E.toEnv data rand (alphaOf data rand) l m) := by
      unfold quadField
      rw [quadWeights_neg, quadWeights_neg, quadFieldTwo_sign]
    rw [this]
    apply fourier_sign_mirror E.mesh hn hM.even _ m hc (Or.inl ?_)
    unfold quadField quadFieldTwo assignField
    rw [hi]
    rfl
  refine ⟨fun c hc => ?_, fun c hc => hd _ _ _ hc, fun c hc => ?_, fun c hc => hq _ _ _ hc, ?_⟩
  · have := hd 0 0 c hc
    simpa [surveyNoise] using this
  · have := hq 0 0 c hc
    simpa [surveyNoise] using this
  · show shotAmp3 E.toEnv data rand _ E.ELL (-M) = (-1) ^ M.natAbs * (starRingEnd ℂ) (shotAmp3 E.toEnv data rand _ E.ELL M)
    unfold shotAmp3
    rw [ylmSum_neg, ylmSum_neg, map_add, map_mul, Complex.conj_ofReal]
    ring

theorem window_mirror_at (E : Env3) (hM : GoodMesh E.mesh) (hi : E.interlace = false)
    (rand : List Part) (alpha : ℝ) (M : ℤ) : MirrorAt E.mesh.n (windowNoise E rand alpha) M := by
  have hn := fun a => (hM.valid a).1
  have hd : ∀ l m c, c ∈ box E.mesh.n →
      fourier E.mesh (nField E.toEnv rand alpha l (-m)) (gid E.mesh.n (mirrorCell E.mesh.n c)) =
        (-1) ^ m.natAbs *
          (starRingEnd ℂ) (fourier E.mesh (nField E.toEnv rand alpha l m) (gid E.mesh.n c)) := by
    intro l m c hc
    have : nField E.toEnv rand alpha l (-m) = signF (conjSign m) (nField E.toEnv rand alpha l m) := by
      unfold nField ylmFieldOne
      rw [ylmWeights_neg, assignField_sign]
      unfold signF
      simp only [MeshField.mk.injEq, and_true]
      funext g b; ring
    rw [this]
    apply fourier_sign_mirror E.mesh hn hM.even _ m hc (Or.inl ?_)
    unfold nField ylmFieldOne assignField
    rw [hi]
    rfl
  have hq : ∀ l m c, c ∈ box E.mesh.n →
      fourier E.mesh (quadField1 E.toEnv rand alpha l (-m)) (gid E.mesh.n (mirrorCell E.mesh.n c)) =
        (-1) ^ m.natAbs *
          (starRingEnd ℂ) (fourier E.mesh (quadField1 E.toEnv rand alpha l m) (gid E.mesh.n c)) := by
    intro l m c hc
    have : quadField1 E.toEnv rand alpha l (-m) =
        signF (conjSign m) (quadField1 E.toEnv rand alpha l m) := by
      unfold quadField1 quadFieldOne
      rw [quadWeights_neg, assignField_sign]
      unfold signF
      simp only [MeshField.mk.injEq, and_true]
      funext g b; ring
    rw [this]
    apply fourier_sign_mirror E.mesh hn hM.even _ m hc (Or.inl ?_)
    unfold quadField1 quadFieldOne assignField
    rw [hi]
    rfl
  refine ⟨fun c hc => ?_, fun c hc => hd _ _ _ hc, fun c hc => ?_, fun c hc => hq _ _ _ hc, ?_⟩
  · have := hd 0 0 c hc
    simpa [windowNoise] using this
  · have := hq 0 0 c hc
    simpa [windowNoise] using this
  · show shotAmp3One E.toEnv rand alpha E.ELL (-M) =
      (-1) ^ M.natAbs * (starRingEnd ℂ) (shotAmp3One E.toEnv rand alpha E.ELL M)
    unfold shotAmp3One
    rw [ylmSum_neg, map_mul, Complex.conj_ofReal]
    ring

/-- A field without imaginary part. -/
theorem real_mirror (M : Mesh ℝ) (hM : GoodMesh M) (F : MeshField ℝ) (hr : ∀ g, F.field g true = 0)
    (hS : F.fieldS = none) {c : ℤ × ℤ × ℤ} (hc : c ∈ box M.n) :
    fourier M F (gid M.n (mirrorCell M.n c)) = (starRingEnd ℂ) (fourier M F (gid M.n c)) := by
  have : F = signF (conjSign 0) F := by
    obtain ⟨f, S⟩ := F
    simp only at hS hr
    subst hS
    unfold signF
    simp only [Option.map, MeshField.mk.injEq, and_true]
    funext g b
    cases b
    · simp [conjSign]
    · rw [hr]; simp
  conv_lhs => rw [this]
  rw [fourier_sign_mirror M (fun a => (hM.valid a).1) hM.even F 0 hc (Or.inl hS)]
  simp

theorem unweighted_real (sch : Scheme) (M : Mesh ℝ) (pos : List (Fin 3 → ℝ)) (g : ℤ) :
    assign sch M (unweighted pos) g true = 0 := by
  have : (unweighted pos : List (Particle ℝ)) = (unweighted pos).map (signP fun b => if b then 0 else 1) := by
    unfold unweighted
    rw [List.map_map]
    apply List.map_congr_left
    intro x _
    simp only [Function.comp, signP, Particle.mk.injEq, true_and]
    funext b
    cases b <;> simp
  rw [this, assign_sign]
  simp

theorem box_mirror (E : Env3) (hM : GoodMesh E.mesh) (hi : E.interlace = false)
    (pos : List (Fin 3 → ℝ)) : MirrorAt E.mesh.n (boxNoise E pos) 0 := by
  have hf : ∀ c ∈ box E.mesh.n, fourier E.mesh (fluctuations E.sch E.mesh E.interlace pos)
      (gid E.mesh.n (mirrorCell E.mesh.n c)) = (starRingEnd ℂ)
        (fourier E.mesh (fluctuations E.sch E.mesh E.interlace pos) (gid E.mesh.n c)) := by
    intro c hc
    apply real_mirror E.mesh hM _ _ _ hc
    · intro g
      unfold fluctuations assignField
      simp only [if_true, unweighted_real, ite_self]
    · unfold fluctuations assignField
      rw [hi]
      rfl
  have hq : ∀ c ∈ box E.mesh.n, fourier E.mesh (assignField E.sch E.mesh E.interlace (unweighted pos))
      (gid E.mesh.n (mirrorCell E.mesh.n c)) = (starRingEnd ℂ)
        (fourier E.mesh (assignField E.sch E.mesh E.interlace (unweighted pos)) (gid E.mesh.n c)) := by
    intro c hc
    apply real_mirror E.mesh hM _ _ _ hc
    · intro g
      unfold assignField
      simp only [unweighted_real]
    · unfold assignField
      rw [hi]
      rfl
  refine ⟨hf, fun c hc => ?_, hq, fun c hc => ?_, ?_⟩
  · have := hf c hc
    simpa [boxNoise] using this
  · have := hq c hc
    simpa [boxNoise] using this
  · show (pos.length : ℂ) = (-1) ^ (0 : ℤ).natAbs * (starRingEnd ℂ) (pos.length : ℂ)
    simp

/-! ### The raw bispectrum in a box -/

theorem boxTriangles_neg (E : Env3) (hP : LegendreLike E.P) (hM : GoodMesh E.mesh) (hi : E.interlace = false)
    (pos : List (Fin 3 → ℝ)) (t : Triplet) (h1 : |t.m1| ≤ E.ell1) (h2 : |t.m2| ≤ E.ell2)
    (h0 : t.m1 + t.m2 + t.M = 0) (hz : t.M = 0) (row col : ℤ) (hB : Below E row col) :
    boxTriangles E pos row col t.neg =
      (-1) ^ (E.ell1 + E.ell2) * (starRingEnd ℂ) (boxTriangles E pos row col t) := by
  have hn := fun a => (hM.valid a).1
  have hr : ∀ a, upperEdge E row ≤ Real.pi * E.mesh.n a / E.mesh.L a := fun a => (hB a).1
  have hc : ∀ a, upperEdge E col ≤ Real.pi * E.mesh.n a / E.mesh.L a := fun a => (hB a).2.1
  have hf := (box_mirror E hM hi pos).f
  have c0 : ∀ c ∈ box E.mesh.n, comp E (boxNoise E pos).f (mirrorCell E.mesh.n c) =
        (starRingEnd ℂ) (comp E (boxNoise E pos).f c) := by
    intro c hc
    unfold comp
    rw [hf c hc, window_mirror hn hM.even hc, map_div₀, Complex.conj_ofReal]
  unfold boxTriangles
  rw [triangleMean_eq E hn, triangleMean_eq E hn, map_div₀, map_mul, Complex.conj_natCast,
    Complex.conj_natCast, ← mul_div_assoc]
  congr 1
  rw [sum_mirror E hM hr, map_sum, Finset.mul_sum]
  apply Finset.sum_congr rfl
  intro a ha
  rw [sum_mirror E hM hc, map_sum, Finset.mul_sum]
  apply Finset.sum_congr rfl
  intro b hb
  have qa := binModes_off E hM hr ha
  have qb := binModes_off E hM hc hb
  have ma := ((mem_binModes E row a).1 ha)
  have mb := ((mem_binModes E col b).1 hb)
  rw [third_mirror hn]
  show E.ylm E.ell1 (-t.m1) _ * E.ylm E.ell2 (-t.m2) _ * (_ * _ * _) = _
  rw [ylm_mirror E hP hM _ _ h1 ma.1 qa, ylm_mirror E hP hM _ _ h2 mb.1 qb, c0 a ma.1, c0 b mb.1,
    c0 _ (third_mem hn a b)]
  simp only [map_mul]
  have hsgn := sign_orders h0
  rw [hz] at hsgn
  rw [pow_add]
  simp only [Int.natAbs_zero, pow_zero, one_mul] at hsgn
  linear_combination ((-1) ^ E.ell1 * (starRingEnd ℂ) (E.ylm E.ell1 t.m1 (kvec E.mesh a)) *
    ((-1) ^ E.ell2 * (starRingEnd ℂ) (E.ylm E.ell2 t.m2 (kvec E.mesh b))) *
    ((starRingEnd ℂ) (comp E (boxNoise E pos).f a) * (starRingEnd ℂ) (comp E (boxNoise E pos).f b) *
      (starRingEnd ℂ) (comp E (boxNoise E pos).f (third E.mesh.n a b)))) * hsgn

theorem boxTriangles_both (E : Env3) (hP : LegendreLike E.P) (hM : GoodMesh E.mesh) (hi : E.interlace = false)
    (hev : Even (E.ell1 + E.ell2 + E.ELL))
    (pos : List (Fin 3 → ℝ)) (t : Triplet) (ha : t.Allowed E.ell1 E.ell2 E.ELL)
    (h0 : t.m1 + t.m2 + t.M = 0) (hz : t.M = 0) (row col : ℤ) (hB : Below E row col) :
    mirrored (fMirror E t) (boxTriangles E pos row col t) =
      boxTriangles E pos row col t + if t.isZeros then 0 else boxTriangles E pos row col t.neg := by
  unfold mirrored fMirror factorMirror
  by_cases hzz : t.isZeros = true
  · simp [hzz]
  · simp only [hzz, if_false]
    rw [boxTriangles_neg E hP hM hi pos t ha.1 ha.2.1 h0 hz row col hB, pow_ELL E hev]
    simp

end Trv.Zeta

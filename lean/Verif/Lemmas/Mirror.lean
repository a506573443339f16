import Verif.Lemmas.Triangle
import Verif.Lemmas.TwoPt
import Verif.Lemmas.Window
import Verif.Lemmas.Orders
import Verif.Props.Window
import Verif.Props.FourierMesh
/-
Lemmas on mirror images of modes: fields of opposite orders, windows, wavevectors and harmonics.
-/
namespace Trv.Bis
open Trv.Mesh Trv.Stats Trv.Win Trv.Two Trv.ThreePt

/-! ### Fields with components multiplied by signs -/

/-- A weighted particle with the components of its weight multiplied. -/
def signP (s : Bool → ℝ) (p : Particle ℝ) : Particle ℝ := ⟨p.pos, fun b => s b * p.w b⟩

def signF (s : Bool → ℝ) (F : MeshField ℝ) : MeshField ℝ :=
  ⟨fun g b => s b * F.field g b, F.fieldS.map fun f g b => s b * f g b⟩

theorem updates_sign (s : Bool → ℝ) (M : Mesh ℝ) (sx sy sz : List (ℤ × ℝ)) (w : Bool → ℝ) :
    updatesOfStencils M sx sy sz (fun b => s b * w b) =
      (updatesOfStencils M sx sy sz w).map fun u => ⟨u.gid, u.comp, s u.comp * u.val⟩ := by
  unfold updatesOfStencils
  simp only [List.map_flatMap]
  congr 1; funext a
  congr 1; funext b
  congr 1; funext d
  split_ifs
  · simp only [List.map_cons, List.map_nil]
    simp only [List.cons.injEq, Update.mk.injEq, true_and, and_true]
    constructor <;> ring
  · rfl

theorem run_sign (s : Bool → ℝ) (us : List (Update ℝ)) (g : ℤ) (b : Bool) :
    runUpdates (us.map fun u => ⟨u.gid, u.comp, s u.comp * u.val⟩) g b = s b * runUpdates us g b := by
  rw [runUpdates_apply, runUpdates_apply, List.map_map, ← List.sum_map_mul_left]
  congr 1
  apply List.map_congr_left
  intro u _
  simp only [Function.comp, Update.at]
  split_ifs with h
  · rw [h.2]
  · ring

theorem assign_sign (s : Bool → ℝ) (sch : Scheme) (M : Mesh ℝ) (ps : List (Particle ℝ)) :
    assign sch M (ps.map (signP s)) = fun g b => s b * assign sch M ps g b := by
  funext g b
  unfold assign allUpdates
  rw [← run_sign, List.flatMap_map, List.map_flatMap]
  congr 2
  funext p
  exact updates_sign s M _ _ _ _

theorem assignShifted_sign (s : Bool → ℝ) (sch : Scheme) (M : Mesh ℝ) (ps : List (Particle ℝ)) :
    assignShifted sch M (ps.map (signP s)) = fun g b => s b * assignShifted sch M ps g b := by
  funext g b
  unfold assignShifted allUpdatesShifted
  rw [← run_sign, List.flatMap_map, List.map_flatMap]
  congr 2
  funext p
  exact updates_sign s M _ _ _ _

theorem assignField_sign (s : Bool → ℝ) (sch : Scheme) (M : Mesh ℝ) (il : Bool)
    (ps : List (Particle ℝ)) :
    assignField sch M il (ps.map (signP s)) = signF s (assignField sch M il ps) := by
  unfold assignField signF
  rw [assign_sign, assignShifted_sign]
  cases il <;> rfl

theorem ylmFieldTwo_sign (s : Bool → ℝ) (sch : Scheme) (M : Mesh ℝ) (il : Bool)
    (data rand : List (Particle ℝ)) (alpha : ℝ) :
    ylmFieldTwo sch M il (data.map (signP s)) (rand.map (signP s)) alpha =
      signF s (ylmFieldTwo sch M il data rand alpha) := by
  unfold ylmFieldTwo
  simp only [assignField_sign]
  unfold signF assignField
  cases il
  · simp only [Option.map, MeshField.mk.injEq]
    refine ⟨?_, rfl⟩
    funext g b; ring
  · simp only [Option.map, MeshField.mk.injEq, if_true]
    refine ⟨?_, congrArg some ?_⟩
    · funext g b; ring
    · funext g b; ring

/-- The signs of `(-1)^m conj`. -/
def conjSign (m : ℤ) (b : Bool) : ℝ := if b then -(-1) ^ m.natAbs else (-1) ^ m.natAbs

theorem ylmWeights_neg (E : Two.Env) (ell : ℕ) (m : ℤ) (c : List Part) :
    ylmWeights E ell (-m) c = (ylmWeights E ell m c).map (signP (conjSign m)) := by
  unfold ylmWeights
  rw [List.map_map]
  apply List.map_congr_left
  intro p _
  simp only [Function.comp, signP, Particle.mk.injEq, true_and]
  funext b
  have hy : E.ylm ell (-m) p.los = (-1) ^ m.natAbs * (starRingEnd ℂ) (E.ylm ell m p.los) :=
    C57_conjugation _ _ _ _ _ _
  have hs : ((-1 : ℂ) ^ m.natAbs) = (((-1 : ℝ) ^ m.natAbs : ℝ) : ℂ) := by push_cast; rfl
  rw [hy, hs]
  cases b
  · simp only [conjSign, Bool.false_eq_true, if_false, Complex.re_ofReal_mul, Complex.conj_re]
    ring
  · simp only [conjSign, if_true, Complex.im_ofReal_mul, Complex.conj_im]
    ring

/-- The field of opposite order is the conjugate field, up to a sign. -/
theorem dnField_neg (E : Two.Env) (data rand : List Part) (alpha : ℝ) (ell : ℕ) (m : ℤ) :
    dnField E data rand alpha ell (-m) = signF (conjSign m) (dnField E data rand alpha ell m) := by
  unfold dnField
  rw [ylmWeights_neg, ylmWeights_neg, ylmFieldTwo_sign]

theorem cplx_sign (m : ℤ) (f : Grid ℝ) (g : ℤ) :
    cplx (fun g b => conjSign m b * f g b) g = (-1) ^ m.natAbs * (starRingEnd ℂ) (cplx f g) := by
  have hs : ((-1 : ℂ) ^ m.natAbs) = (((-1 : ℝ) ^ m.natAbs : ℝ) : ℂ) := by push_cast; rfl
  rw [hs]
  apply Complex.ext
  · rw [Complex.re_ofReal_mul]; simp only [cplx, conjSign, Complex.conj_re, Bool.false_eq_true, if_false]
  · rw [Complex.im_ofReal_mul]; simp only [cplx, conjSign, Complex.conj_im, if_true]; ring

/-! ### Transforms at mirror images -/

theorem dft_conj_mirror {n : Fin 3 → ℤ} (hn : ∀ a, 0 < n a) (s : ℤ) (e : ℂ) (f f' : ℤ → ℂ)
    (h : ∀ x ∈ box n, f' (gid n x) = e * (starRingEnd ℂ) (f (gid n x))) {c : ℤ × ℤ × ℤ} (hc : c ∈ box n) :
    dft n s f' (gid n (mirrorCell n c)) = e * (starRingEnd ℂ) (dft n s f (gid n c)) := by
  rw [dft_eq, dft_eq, cellOf_gid hn (mirror_mem hn c), cellOf_gid hn hc, map_sum, Finset.mul_sum]
  apply Finset.sum_congr rfl
  intro x hx
  rw [h x hx, phase3_mirror hn, map_mul, phase3_conj]
  ring

/-- A mode is off the Nyquist planes. -/
def OffNyquist (n : Fin 3 → ℤ) (c : ℤ × ℤ × ℤ) : Prop :=
  2 * c.1 ≠ n 0 ∧ 2 * c.2.1 ≠ n 1 ∧ 2 * c.2.2 ≠ n 2

theorem emod_neg_eq {N i : ℤ} (hi : 0 < i) (hi' : i < N) : -i % N = N - i := by
  rw [← Int.add_emod_right, Int.emod_eq_of_lt] <;> omega

theorem halfShift_mirror {n : Fin 3 → ℤ} (hn : ∀ a, 0 < n a) (he : ∀ a, 2 ∣ n a) {c : ℤ × ℤ × ℤ}
    (hc : c ∈ box n) (hq : OffNyquist n c) : halfShift n (mirrorCell n c) = -halfShift n c := by
  have key : ∀ {N i : ℤ}, 0 < N → 2 ∣ N → 0 ≤ i → i < N → 2 * i ≠ N →
      (if -i % N < N / 2 then ((-i % N : ℤ) : ℝ) / N else ((-i % N : ℤ) : ℝ) / N - 1) =
        -(if i < N / 2 then (i : ℝ) / N else (i : ℝ) / N - 1) := by
    intro N i hN hN2 hi hi' hne
    have hNR : (N : ℝ) ≠ 0 := by exact_mod_cast hN.ne'
    by_cases hz : i = 0
    · subst hz
      have : (0 : ℤ) < N / 2 := by omega
      simp [this]
    · rw [emod_neg_eq (by omega) hi']
      by_cases hlt : i < N / 2
      · rw [if_pos hlt, if_neg (by omega)]
        push_cast
        field_simp
        ring
      · rw [if_neg hlt, if_pos (by omega)]
        push_cast
        field_simp
        ring
  obtain ⟨⟨a, a'⟩, ⟨b, b'⟩, k, k'⟩ := mem_box.1 hc
  unfold halfShift mirrorCell
  simp only
  rw [key (hn 0) (he 0) a a' hq.1, key (hn 1) (he 1) b b' hq.2.1, key (hn 2) (he 2) k k' hq.2.2]
  ring

/-- The transform of the field of opposite order at the opposite mode. -/
theorem fourier_sign_mirror (M : Mesh ℝ) (hn : ∀ a, 0 < M.n a) (he : ∀ a, 2 ∣ M.n a) (F : MeshField ℝ)
    (m : ℤ) {c : ℤ × ℤ × ℤ} (hc : c ∈ box M.n) (hq : F.fieldS = none ∨ OffNyquist M.n c) :
    fourier M (signF (conjSign m) F) (gid M.n (mirrorCell M.n c)) =
      (-1) ^ m.natAbs * (starRingEnd ℂ) (fourier M F (gid M.n c)) := by
  have hd : ∀ f : Grid ℝ, dft M.n (-1) (fun g => cplx (fun g b => conjSign m b * f g b) g * (M.volCell : ℂ))
        (gid M.n (mirrorCell M.n c)) =
      (-1) ^ m.natAbs * (starRingEnd ℂ) (dft M.n (-1) (fun g => cplx f g * (M.volCell : ℂ)) (gid M.n c)) := by
    intro f
    apply dft_conj_mirror hn _ _ _ _ _ hc
    intro x _
    rw [cplx_sign, map_mul, Complex.conj_ofReal]
    ring
  obtain ⟨f, S⟩ := F
  cases S with
  | none => exact hd f
  | some s =>
    have hq : OffNyquist M.n c := by rcases hq with h | h; · exact absurd h (by simp)
                                     · exact h
    unfold fourier signF
    simp only [Option.map]
    rw [hd, hd, cellOf_gid hn (mirror_mem hn c), cellOf_gid hn hc, halfShift_mirror hn he hc hq,
      map_div₀, map_add, map_mul, ← Complex.exp_conj, map_mul, Complex.conj_I, Complex.conj_ofReal, map_ofNat]
    have : (Complex.I : ℂ) * ((Real.pi * -halfShift M.n c : ℝ) : ℂ) =
        -Complex.I * ((Real.pi * halfShift M.n c : ℝ) : ℂ) := by push_cast; ring
    rw [this]
    ring

theorem dnField_none (E : Two.Env) (data rand : List Part) (alpha : ℝ) (ell : ℕ) (m : ℤ)
    (h : E.interlace = false) : (dnField E data rand alpha ell m).fieldS = none := by
  unfold dnField ylmFieldTwo assignField
  rw [h]
  rfl

/-! ### Windows, wavevectors -/

theorem shift_mirror {N i : ℤ} (hN : 0 < N) (h2 : 2 ∣ N) (hi : 0 ≤ i) (hi' : i < N) :
    (2 * i ≠ N → shiftIndex N (-i % N) = -shiftIndex N i) ∧ (2 * i = N → -i % N = i) := by
  constructor
  · intro hne
    unfold shiftIndex
    by_cases hz : i = 0
    · subst hz
      have : (0 : ℤ) < N / 2 := by omega
      simp [this]
    · rw [emod_neg_eq (by omega) hi']
      by_cases hlt : i < N / 2
      · rw [if_pos hlt, if_neg (by omega)]; omega
      · rw [if_neg hlt, if_pos (by omega)]; omega
  · intro heq
    rw [emod_neg_eq (by omega) hi']; omega

theorem sinc_mirror {N i : ℤ} (hN : 0 < N) (h2 : 2 ∣ N) (hi : 0 ≤ i) (hi' : i < N) :
    sincAxis N (shiftIndex N (-i % N)) = sincAxis N (shiftIndex N i) := by
  obtain ⟨h, h'⟩ := shift_mirror hN h2 hi hi'
  by_cases e : 2 * i = N
  · rw [h' e]
  · rw [h e, sinc_neg]

theorem window_mirror {n : Fin 3 → ℤ} (hn : ∀ a, 0 < n a) (he : ∀ a, 2 ∣ n a) {c : ℤ × ℤ × ℤ}
    (hc : c ∈ box n) (order : ℕ) :
    windowFresh n (mirrorCell n c).1 (mirrorCell n c).2.1 (mirrorCell n c).2.2 order =
      windowFresh n c.1 c.2.1 c.2.2 order := by
  obtain ⟨⟨a, a'⟩, ⟨b, b'⟩, k, k'⟩ := mem_box.1 hc
  unfold windowFresh mirrorCell
  simp only
  rw [sinc_mirror (hn 0) (he 0) a a', sinc_mirror (hn 1) (he 1) b b', sinc_mirror (hn 2) (he 2) k k']

theorem gridVec_shift (n : Fin 3 → ℤ) (d : Fin 3 → ℝ) (c : ℤ × ℤ × ℤ) :
    gridVec n d c 0 = (shiftIndex (n 0) c.1 : ℝ) * d 0 ∧
    gridVec n d c 1 = (shiftIndex (n 1) c.2.1 : ℝ) * d 1 ∧
    gridVec n d c 2 = (shiftIndex (n 2) c.2.2 : ℝ) * d 2 := by
  unfold gridVec shiftIndex
  refine ⟨?_, ?_, ?_⟩ <;> (simp only; split_ifs <;> rfl)

theorem kvec_mirror (M : Mesh ℝ) (hn : ∀ a, 0 < M.n a) (he : ∀ a, 2 ∣ M.n a) {c : ℤ × ℤ × ℤ}
    (hc : c ∈ box M.n) (hq : OffNyquist M.n c) (ax : Fin 3) :
    kvec M (mirrorCell M.n c) ax = -kvec M c ax := by
  obtain ⟨⟨a, a'⟩, ⟨b, b'⟩, k, k'⟩ := mem_box.1 hc
  have h0 := (shift_mirror (hn 0) (he 0) a a').1 hq.1
  have h1 := (shift_mirror (hn 1) (he 1) b b').1 hq.2.1
  have h2 := (shift_mirror (hn 2) (he 2) k k').1 hq.2.2
  unfold kvec
  obtain ⟨u0, u1, u2⟩ := gridVec_shift M.n (fun ax => 2 * Real.pi / M.L ax) c
  obtain ⟨v0, v1, v2⟩ := gridVec_shift M.n (fun ax => 2 * Real.pi / M.L ax) (mirrorCell M.n c)
  unfold mirrorCell at v0 v1 v2 ⊢
  simp only at v0 v1 v2
  match ax with
  | 0 => rw [v0, u0, h0]; push_cast; ring
  | 1 => rw [v1, u1, h1]; push_cast; ring
  | 2 => rw [v2, u2, h2]; push_cast; ring

theorem mirror_mirror {n : Fin 3 → ℤ} {c : ℤ × ℤ × ℤ} (hc : c ∈ box n) :
    mirrorCell n (mirrorCell n c) = c := by
  obtain ⟨⟨a, a'⟩, ⟨b, b'⟩, k, k'⟩ := mem_box.1 hc
  have key : ∀ {N i : ℤ}, 0 ≤ i → i < N → -(-i % N) % N = i := by
    intro N i h h'
    by_cases hz : i = 0
    · subst hz; simp
    · rw [emod_neg_eq (by omega) h', emod_neg_eq (by omega) (by omega)]; omega
  unfold mirrorCell
  simp only
  rw [key a a', key b b', key k k']

theorem mag_neg {v w : Fin 3 → ℝ} (h : ∀ a, w a = -v a) : mag w = mag v := by
  unfold mag
  rw [h, h, h]
  simp

/-- A mode on the Nyquist plane of an axis is not shorter than the Nyquist wavenumber. -/
theorem off_of_lt (M : Mesh ℝ) (hM : M.Valid) {c : ℤ × ℤ × ℤ}
    (h : ∀ ax, mag (kvec M c) < Real.pi * M.n ax / M.L ax) : OffNyquist M.n c := by
  have hn := fun a => (hM a).1
  have hL := fun a => (hM a).2
  obtain ⟨u0, u1, u2⟩ := gridVec_shift M.n (fun ax => 2 * Real.pi / M.L ax) c
  have hm : ∀ ax, |kvec M c ax| ≤ mag (kvec M c) := by
    intro ax
    apply Real.abs_le_sqrt
    match ax with
    | 0 => nlinarith [sq_nonneg (kvec M c 1), sq_nonneg (kvec M c 2)]
    | 1 => nlinarith [sq_nonneg (kvec M c 0), sq_nonneg (kvec M c 2)]
    | 2 => nlinarith [sq_nonneg (kvec M c 0), sq_nonneg (kvec M c 1)]
  have key : ∀ (N i : ℤ) (L : ℝ), 0 < L → |((shiftIndex N i : ℤ) : ℝ) * (2 * Real.pi / L)| < Real.pi * N / L →
      2 * i ≠ N := by
    intro N i L hL hlt he
    have hs : shiftIndex N i = i - N := by
      unfold shiftIndex; rw [if_neg (by omega)]
    rw [hs] at hlt
    have : ((i - N : ℤ) : ℝ) = -(N / 2 : ℝ) := by
      have : (2 : ℝ) * i = N := by exact_mod_cast he
      push_cast; linarith
    rw [this, show -(N / 2 : ℝ) * (2 * Real.pi / L) = -(Real.pi * N / L) by ring, abs_neg] at hlt
    exact absurd (le_abs_self _) (not_le.2 hlt)
  refine ⟨key _ _ _ (hL 0) ?_, key _ _ _ (hL 1) ?_, key _ _ _ (hL 2) ?_⟩
  · rw [← u0]; exact lt_of_le_of_lt (hm 0) (h 0)
  · rw [← u1]; exact lt_of_le_of_lt (hm 1) (h 1)
  · rw [← u2]; exact lt_of_le_of_lt (hm 2) (h 2)

/-! ### Harmonics -/

theorem P_pole {P : ℕ → ℕ → ℝ → ℝ} (hP : LegendreLike P) {l m : ℕ} (h0 : 0 < m) (h : m ≤ l) :
    P l m (-1) = 0 := by
  rw [hP.parity l m 1 h, hP.pole l m h0 h, mul_zero]

theorem neg_one_pow_cancel (a : ℕ) : ((-1 : ℂ) ^ a) * (-1) ^ a = 1 := by
  rw [← mul_pow]; norm_num

/-- Parity of the harmonics, except for horizontal components below the threshold. -/
theorem ylm_parity {P : ℕ → ℕ → ℝ → ℝ} (hP : LegendreLike P) (l : ℕ) (m : ℤ) (hm : |m| ≤ l) (x y z : ℝ)
    (hxy : (x = 0 ∧ y = 0) ∨ (1 : ℝ) / 1000000000 ≤ Real.sqrt (x * x + y * y)) :
    reducedYlm P l m (-x) (-y) (-z) = (-1) ^ l * reducedYlm P l m x y z := by
  have hml : m.natAbs ≤ l := by
    have := Int.natCast_natAbs m
    omega
  by_cases h0 : l = 0 ∧ m = 0
  · unfold reducedYlm; rw [if_pos h0, if_pos h0, h0.1]; simp
  rcases hxy with ⟨rfl, rfl⟩ | hxy
  · unfold reducedYlm
    rw [if_neg h0, if_neg h0]
    simp only [neg_zero, mul_zero, zero_add, neg_mul_neg, Real.sqrt_mul_self_eq_abs, abs_abs]
    by_cases hz : |z| < 1 / 1000000000
    · rw [if_pos hz, if_pos hz, mul_zero]
    · rw [if_neg hz, if_neg hz]
      have hz0 : z ≠ 0 := by rintro rfl; apply hz; rw [abs_zero]; norm_num
      have haz : azimuth 0 0 = 0 := by
        unfold azimuth
        simp only [mul_zero, add_zero, Real.sqrt_zero, abs_zero]
        rw [if_neg (by norm_num)]
      rw [haz, neg_div]
      by_cases hm0 : m = 0
      · subst hm0
        rw [hP.parity l _ _ hml]
        simp only [Int.natAbs_zero, add_zero]
        push_cast
        simp only [mul_zero, zero_mul, Complex.exp_zero, one_mul, map_mul, map_pow, map_neg, map_one]
        ring
      · have hpos : 0 < m.natAbs := Int.natAbs_pos.2 hm0
        have : P l m.natAbs (-(z / |z|)) = 0 ∧ P l m.natAbs (z / |z|) = 0 := by
          rcases lt_or_gt_of_ne hz0 with h | h
          · rw [abs_of_neg h, div_neg, div_self hz0, _root_.neg_neg]
            exact ⟨hP.pole _ _ hpos hml, P_pole hP hpos hml⟩
          · rw [abs_of_pos h, div_self hz0]
            exact ⟨P_pole hP hpos hml, hP.pole _ _ hpos hml⟩
        rw [this.1, this.2]
        simp
  · rw [C57_explicit P l m x y z h0 hxy, C57_explicit P l m (-x) (-y) (-z) h0
      (by rwa [neg_mul_neg, neg_mul_neg])]
    unfold harmonic
    simp only [neg_mul_neg]
    rw [neg_div, hP.parity l _ _ hml]
    have e1 : ((((-x : ℝ) : ℂ) - ((-y : ℝ) : ℂ) * Complex.I) / (Real.sqrt (x * x + y * y) : ℂ)) =
        (-1) * (((x : ℂ) - (y : ℂ) * Complex.I) / (Real.sqrt (x * x + y * y) : ℂ)) := by
      push_cast; ring
    have e2 : ((-1 : ℂ)) ^ m = (-1) ^ m.natAbs := by
      rcases Int.natAbs_eq m with h | h
      · rw [h, zpow_natCast, Int.natAbs_natCast]
      · rw [h, zpow_neg, zpow_natCast, Int.natAbs_neg, Int.natAbs_natCast, ← inv_pow]; norm_num
    rw [e1, mul_zpow, e2]
    push_cast
    rw [pow_add]
    have := neg_one_pow_cancel m.natAbs
    linear_combination ((if m < 0 then (-1 : ℂ) ^ m.natAbs else 1) *
      (Real.sqrt (4 * Real.pi / (2 * l + 1)) : ℂ) * ((-1) ^ l *
      (P l m.natAbs (z / Real.sqrt (x * x + y * y + z * z)) : ℂ)) *
      (((x : ℂ) - (y : ℂ) * Complex.I) / (Real.sqrt (x * x + y * y) : ℂ)) ^ m) * this

theorem horizontal (M : Mesh ℝ) (hM : GoodMesh M) (c : ℤ × ℤ × ℤ) :
    (kvec M c 0 = 0 ∧ kvec M c 1 = 0) ∨
      (1 : ℝ) / 1000000000 ≤ Real.sqrt (kvec M c 0 * kvec M c 0 + kvec M c 1 * kvec M c 1) := by
  obtain ⟨u0, u1, u2⟩ := gridVec_shift M.n (fun ax => 2 * Real.pi / M.L ax) c
  have key : ∀ (i : ℤ) (a : Fin 3), i ≠ 0 →
      (1 : ℝ) / 1000000000 * (1 / 1000000000) ≤
        ((i : ℝ) * (2 * Real.pi / M.L a)) * ((i : ℝ) * (2 * Real.pi / M.L a)) := by
    intro i a hi
    have h1 : (1 : ℝ) ≤ (i : ℝ) ^ 2 := by
      have : 1 ≤ i ^ 2 := by nlinarith [Int.one_le_abs hi, sq_abs i, abs_nonneg i]
      exact_mod_cast this
    have h2 := hM.resolved a
    have h3 : (1 : ℝ) / 1000000000 * (1 / 1000000000) ≤ (2 * Real.pi / M.L a) ^ 2 := by
      nlinarith
    calc _ ≤ (2 * Real.pi / M.L a) ^ 2 := h3
      _ ≤ (i : ℝ) ^ 2 * (2 * Real.pi / M.L a) ^ 2 := by nlinarith [sq_nonneg (2 * Real.pi / M.L a)]
      _ = _ := by ring
  by_cases h : shiftIndex (M.n 0) c.1 = 0 ∧ shiftIndex (M.n 1) c.2.1 = 0
  · left
    constructor
    · show gridVec _ _ _ _ = _
      rw [u0, h.1]; simp
    · show gridVec _ _ _ _ = _
      rw [u1, h.2]; simp
  · right
    apply Real.le_sqrt_of_sq_le
    rw [sq]
    have e0 : kvec M c 0 = (shiftIndex (M.n 0) c.1 : ℝ) * (2 * Real.pi / M.L 0) := u0
    have e1 : kvec M c 1 = (shiftIndex (M.n 1) c.2.1 : ℝ) * (2 * Real.pi / M.L 1) := u1
    by_cases h0 : shiftIndex (M.n 0) c.1 = 0
    · have := key _ 1 (fun h1 => h ⟨h0, h1⟩)
      rw [← e1] at this
      nlinarith [mul_self_nonneg (kvec M c 0)]
    · have := key _ 0 h0
      rw [← e0] at this
      nlinarith [mul_self_nonneg (kvec M c 1)]

theorem ylm_mirror (E : Env3) (hP : LegendreLike E.P) (hM : GoodMesh E.mesh) (l : ℕ) (m : ℤ)
    (hm : |m| ≤ l) {c : ℤ × ℤ × ℤ} (hc : c ∈ box E.mesh.n) (hq : OffNyquist E.mesh.n c) :
    E.ylm l (-m) (kvec E.mesh (mirrorCell E.mesh.n c)) =
      (-1) ^ m.natAbs * ((-1) ^ l * (starRingEnd ℂ) (E.ylm l m (kvec E.mesh c))) := by
  have hn := fun a => (hM.valid a).1
  have e : E.ylm l (-m) (kvec E.mesh (mirrorCell E.mesh.n c)) =
      (-1) ^ m.natAbs * (starRingEnd ℂ) (E.ylm l m (kvec E.mesh (mirrorCell E.mesh.n c))) :=
    C57_conjugation _ _ _ _ _ _
  rw [e]
  have e2 : E.ylm l m (kvec E.mesh (mirrorCell E.mesh.n c)) = (-1) ^ l * E.ylm l m (kvec E.mesh c) := by
    unfold Env.ylm
    rw [kvec_mirror E.mesh hn hM.even hc hq, kvec_mirror E.mesh hn hM.even hc hq,
      kvec_mirror E.mesh hn hM.even hc hq]
    exact ylm_parity hP l m hm _ _ _ (horizontal E.mesh hM c)
  rw [e2, map_mul, map_pow, map_neg, map_one]

/-! ### Triangles -/

theorem compensated_mirror (E : Env3) (hM : GoodMesh E.mesh) (data rand : List Part) (l : ℕ) (m : ℤ)
    {c : ℤ × ℤ × ℤ} (hc : c ∈ box E.mesh.n) (hq : E.interlace = false ∨ OffNyquist E.mesh.n c) :
    compensated E data rand l (-m) (mirrorCell E.mesh.n c) =
      (-1) ^ m.natAbs * (starRingEnd ℂ) (compensated E data rand l m c) := by
  have hn := fun a => (hM.valid a).1
  unfold compensated
  rw [window_mirror hn hM.even hc, dnField_neg, fourier_sign_mirror E.mesh hn hM.even _ _ hc, map_div₀,
    Complex.conj_ofReal]
  · ring
  · rcases hq with h | h
    · exact Or.inl (dnField_none _ _ _ _ _ _ h)
    · exact Or.inr h

theorem third_mirror {n : Fin 3 → ℤ} (hn : ∀ a, 0 < n a) (a b : ℤ × ℤ × ℤ) :
    third n (mirrorCell n a) (mirrorCell n b) = mirrorCell n (third n a b) := by
  have key : ∀ N x y : ℤ, -(-x % N + -y % N) % N = -(-(x + y) % N) % N := by
    intro N x y
    rw [Int.emod_eq_emod_iff_emod_sub_eq_zero]
    apply Int.emod_eq_zero_of_dvd
    have h1 := Int.emod_add_mul_ediv (-x) N
    have h2 := Int.emod_add_mul_ediv (-y) N
    have h3 := Int.emod_add_mul_ediv (-(x + y)) N
    refine ⟨-x / N + -y / N - -(x + y) / N, ?_⟩
    linear_combination (-1) * h1 - h2 + h3
  unfold third mirrorCell
  simp only
  rw [key, key, key]

theorem third_comm (n : Fin 3 → ℤ) (a b : ℤ × ℤ × ℤ) : third n a b = third n b a := by
  unfold third
  rw [add_comm a.1, add_comm a.2.1, add_comm a.2.2]

theorem comp_le_mag (M : Mesh ℝ) (c : ℤ × ℤ × ℤ) (ax : Fin 3) : |kvec M c ax| ≤ mag (kvec M c) := by
  apply Real.abs_le_sqrt
  match ax with
  | 0 => nlinarith [sq_nonneg (kvec M c 1), sq_nonneg (kvec M c 2)]
  | 1 => nlinarith [sq_nonneg (kvec M c 0), sq_nonneg (kvec M c 2)]
  | 2 => nlinarith [sq_nonneg (kvec M c 0), sq_nonneg (kvec M c 1)]

theorem third_off (M : Mesh ℝ) (hM : M.Valid) {a b : ℤ × ℤ × ℤ}
    (h : ∀ ax, mag (kvec M a) + mag (kvec M b) < Real.pi * M.n ax / M.L ax) :
    OffNyquist M.n (third M.n a b) := by
  have hL := fun a => (hM a).2
  obtain ⟨u0, u1, u2⟩ := gridVec_shift M.n (fun ax => 2 * Real.pi / M.L ax) a
  obtain ⟨v0, v1, v2⟩ := gridVec_shift M.n (fun ax => 2 * Real.pi / M.L ax) b
  have key : ∀ (N i j : ℤ) (L : ℝ), 0 < L →
      |((shiftIndex N i : ℤ) : ℝ) * (2 * Real.pi / L)| + |((shiftIndex N j : ℤ) : ℝ) * (2 * Real.pi / L)| <
        Real.pi * N / L → 2 * (-(i + j) % N) ≠ N := by
    intro N i j L hL hlt he
    have hpi := Real.pi_pos
    have h1 : |(((shiftIndex N i + shiftIndex N j : ℤ)) : ℝ) * (2 * Real.pi / L)| < Real.pi * N / L := by
      push_cast
      rw [add_mul]
      exact lt_of_le_of_lt (abs_add_le _ _) hlt
    have hp : 0 < 2 * Real.pi / L := by positivity
    rw [abs_mul, abs_of_pos hp] at h1
    have h2 : 2 * |((shiftIndex N i + shiftIndex N j : ℤ) : ℝ)| < N := by
      have e : Real.pi * N / L = (N / 2 : ℝ) * (2 * Real.pi / L) := by field_simp
      rw [e] at h1
      have := lt_of_mul_lt_mul_right h1 hp.le
      linarith
    have h3 : 2 * |shiftIndex N i + shiftIndex N j| < N := by exact_mod_cast h2
    have hq := Int.emod_add_mul_ediv (-(i + j)) N
    obtain ⟨q, hq'⟩ : ∃ q, q = -(i + j) / N := ⟨_, rfl⟩
    rw [← hq'] at hq
    have hs : ∀ x : ℤ, ∃ k : ℤ, shiftIndex N x = x - N * k := by
      intro x
      unfold shiftIndex
      split_ifs
      · exact ⟨0, by ring⟩
      · exact ⟨1, by ring⟩
    obtain ⟨k, hk⟩ := hs i
    obtain ⟨k', hk'⟩ := hs j
    have hN : 0 < N := lt_of_le_of_lt (by positivity) h3
    have e : 2 * (shiftIndex N i + shiftIndex N j) = N * (-(2 * (q + k + k') + 1)) := by
      rw [hk, hk']
      linear_combination 2 * hq - he
    have h4 : |2 * (shiftIndex N i + shiftIndex N j)| < N := by
      rw [abs_mul]; simpa using h3
    rw [e, abs_mul, abs_of_pos hN, abs_neg] at h4
    have h5 : |2 * (q + k + k') + 1| < 1 := by
      by_contra hc
      have : 1 ≤ |2 * (q + k + k') + 1| := by omega
      nlinarith
    have := Int.abs_lt_one_iff.1 h5
    omega
  have hb : ∀ ax, |kvec M a ax| + |kvec M b ax| < Real.pi * M.n ax / M.L ax := fun ax =>
    lt_of_le_of_lt (add_le_add (comp_le_mag M a ax) (comp_le_mag M b ax)) (h ax)
  have b0 := hb 0
  have b1 := hb 1
  have b2 := hb 2
  unfold kvec at b0 b1 b2
  rw [u0, v0] at b0
  rw [u1, v1] at b1
  rw [u2, v2] at b2
  exact ⟨key _ _ _ _ (hL 0) b0, key _ _ _ _ (hL 1) b1, key _ _ _ _ (hL 2) b2⟩

theorem mem_binModes (E : Env3) (b : ℤ) (c : ℤ × ℤ × ℤ) : c ∈ binModes E b ↔ c ∈ box E.mesh.n ∧
    lowerEdge E b ≤ mag (kvec E.mesh c) ∧ mag (kvec E.mesh c) < upperEdge E b := by
  rw [binModes_eq, Finset.mem_filter, inBand_iff]

theorem binModes_off (E : Env3) (hM : GoodMesh E.mesh) {b : ℤ}
    (hb : ∀ a, upperEdge E b ≤ Real.pi * E.mesh.n a / E.mesh.L a) {c : ℤ × ℤ × ℤ}
    (hc : c ∈ binModes E b) : OffNyquist E.mesh.n c :=
  off_of_lt E.mesh hM.valid fun ax => lt_of_lt_of_le ((mem_binModes E b c).1 hc).2.2 (hb ax)

theorem binModes_mirror (E : Env3) (hM : GoodMesh E.mesh) {b : ℤ}
    (hb : ∀ a, upperEdge E b ≤ Real.pi * E.mesh.n a / E.mesh.L a) {c : ℤ × ℤ × ℤ}
    (hc : c ∈ binModes E b) : mirrorCell E.mesh.n c ∈ binModes E b := by
  have hn := fun a => (hM.valid a).1
  have hq := binModes_off E hM hb hc
  rw [mem_binModes] at hc ⊢
  rw [mag_neg (kvec_mirror E.mesh hn hM.even hc.1 hq)]
  exact ⟨mirror_mem hn c, hc.2⟩

theorem sum_mirror (E : Env3) (hM : GoodMesh E.mesh) {b : ℤ}
    (hb : ∀ a, upperEdge E b ≤ Real.pi * E.mesh.n a / E.mesh.L a) (f : ℤ × ℤ × ℤ → ℂ) :
    ∑ c ∈ binModes E b, f c = ∑ c ∈ binModes E b, f (mirrorCell E.mesh.n c) := by
  refine Finset.sum_nbij' (mirrorCell E.mesh.n) (mirrorCell E.mesh.n) ?_ ?_ ?_ ?_ ?_
  · intro c hc; exact binModes_mirror E hM hb hc
  · intro c hc; exact binModes_mirror E hM hb hc
  · intro c hc; exact mirror_mirror ((mem_binModes E b c).1 hc).1
  · intro c hc; exact mirror_mirror ((mem_binModes E b c).1 hc).1
  · intro c hc; rw [mirror_mirror ((mem_binModes E b c).1 hc).1]

theorem triangleMean_eq (E : Env3) (hn : ∀ a, 0 < E.mesh.n a) (f h : ℤ × ℤ × ℤ → ℂ) (t : Triplet)
    (row col : ℤ) : triangleMean E f h t row col =
      (∑ a ∈ binModes E row, ∑ b ∈ binModes E col,
        E.ylm E.ell1 t.m1 (kvec E.mesh a) * E.ylm E.ell2 t.m2 (kvec E.mesh b) *
          (f a * f b * h (third E.mesh.n a b))) /
      ((binModes E row).card * (binModes E col).card : ℂ) := by
  unfold triangleMean
  simp only [filter_closed hn, Finset.sum_singleton]

/-- The component of opposite orders. -/
theorem triangles_neg (E : Env3) (hP : LegendreLike E.P) (hM : GoodMesh E.mesh) (data rand : List Part)
    (t : Triplet) (h1 : |t.m1| ≤ E.ell1) (h2 : |t.m2| ≤ E.ell2) (h0 : t.m1 + t.m2 + t.M = 0)
    (row col : ℤ) (hB : Below E row col) :
    triangles E data rand t.neg row col =
      (-1) ^ (E.ell1 + E.ell2) * (starRingEnd ℂ) (triangles E data rand t row col) := by
  have hn := fun a => (hM.valid a).1
  have hr : ∀ a, upperEdge E row ≤ Real.pi * E.mesh.n a / E.mesh.L a := fun a => (hB a).1
  have hc : ∀ a, upperEdge E col ≤ Real.pi * E.mesh.n a / E.mesh.L a := fun a => (hB a).2.1
  unfold triangles
  rw [triangleMean_eq E hn, triangleMean_eq E hn, map_div₀, map_mul, Complex.conj_natCast,
    Complex.conj_natCast, ← mul_div_assoc]
  congr 1
  rw [sum_mirror E hM hr, map_sum, Finset.mul_sum]
  apply Finset.sum_congr rfl
  intro a ha
  rw [sum_mirror E hM hc, map_sum, Finset.mul_sum]
  apply Finset.sum_congr rfl
  intro b hb
  have qa := binModes_off E hM hr ha
  have qb := binModes_off E hM hc hb
  have ma := ((mem_binModes E row a).1 ha)
  have mb := ((mem_binModes E col b).1 hb)
  have q3 : E.interlace = false ∨ OffNyquist E.mesh.n (third E.mesh.n a b) := by
    cases hi : E.interlace with
    | false => exact Or.inl rfl
    | true =>
      right
      apply third_off E.mesh hM.valid
      intro ax
      exact lt_of_lt_of_le (add_lt_add ma.2.2 mb.2.2) ((hB ax).2.2 hi)
  have c0 : ∀ c ∈ box E.mesh.n, OffNyquist E.mesh.n c →
      compensated E data rand 0 0 (mirrorCell E.mesh.n c) =
        (starRingEnd ℂ) (compensated E data rand 0 0 c) := by
    intro c hc hq
    have := compensated_mirror E hM data rand 0 0 hc (Or.inr hq)
    simpa using this
  rw [third_mirror hn]
  show E.ylm E.ell1 (-t.m1) _ * E.ylm E.ell2 (-t.m2) _ * (_ * _ * compensated E data rand E.ELL (-t.M) _) = _
  rw [ylm_mirror E hP hM _ _ h1 ma.1 qa, ylm_mirror E hP hM _ _ h2 mb.1 qb, c0 a ma.1 qa, c0 b mb.1 qb,
    compensated_mirror E hM data rand _ _ (third_mem hn a b) q3]
  simp only [map_mul]
  have hsgn : ((-1 : ℂ) ^ t.m1.natAbs) * (-1) ^ t.m2.natAbs * (-1) ^ t.M.natAbs = 1 := by
    rw [← pow_add, ← pow_add]
    apply Even.neg_one_pow
    rw [Nat.even_iff]
    omega
  rw [pow_add]
  linear_combination ((-1) ^ E.ell1 * (starRingEnd ℂ) (E.ylm E.ell1 t.m1 (kvec E.mesh a)) *
    ((-1) ^ E.ell2 * (starRingEnd ℂ) (E.ylm E.ell2 t.m2 (kvec E.mesh b))) *
    ((starRingEnd ℂ) (compensated E data rand 0 0 a) * (starRingEnd ℂ) (compensated E data rand 0 0 b) *
      (starRingEnd ℂ) (compensated E data rand E.ELL t.M (third E.mesh.n a b)))) * hsgn

end Trv.Bis

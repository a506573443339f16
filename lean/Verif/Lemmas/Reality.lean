import Verif.Lemmas.Yamamoto
import Verif.Lemmas.NoiseOrders
/-
Opposite modes in the two-point multipoles.
-/
namespace Trv.Two
open Trv.Mesh Trv.Stats Trv.Win Trv.Bis Polynomial

theorem legendre_parity (n : ℕ) (x : ℝ) :
    (Wc.legendre n).eval (-x) = (-1) ^ n * (Wc.legendre n).eval x ∧
      (Wc.legendre (n + 1)).eval (-x) = (-1) ^ (n + 1) * (Wc.legendre (n + 1)).eval x := by
  induction n with
  | zero => simp [Wc.legendre]
  | succ n ih =>
    refine ⟨ih.2, ?_⟩
    have h1 := congrArg (eval (-x)) (Wc.bonnet n)
    have h2 := congrArg (eval x) (Wc.bonnet n)
    simp only [eval_mul, eval_sub, eval_C, eval_X] at h1 h2
    rw [ih.1, ih.2] at h1
    have h0 : (n : ℝ) + 2 ≠ 0 := by positivity
    apply mul_left_cancel₀ h0
    show ((n : ℝ) + 2) * (Wc.legendre (n + 2)).eval (-x) =
      ((n : ℝ) + 2) * ((-1) ^ (n + 2) * (Wc.legendre (n + 2)).eval x)
    linear_combination h1 - (-1) ^ n * h2

theorem deriv_parity (l m : ℕ) : (derivative^[m] (Wc.legendre l)).comp (-X) =
    (-1) ^ (l + m) * derivative^[m] (Wc.legendre l) := by
  induction m with
  | zero =>
    apply Polynomial.funext
    intro x
    simp only [Function.iterate_zero, id, eval_comp, eval_neg, eval_X, eval_mul, eval_pow, eval_one, add_zero]
    exact (legendre_parity l x).1
  | succ m ih =>
    have h := congrArg derivative ih
    rw [derivative_comp, ← Function.iterate_succ_apply' (f := ⇑derivative)] at h
    have hc : ((-1 : ℝ[X]) ^ (l + m)) = C ((-1) ^ (l + m)) := by simp
    rw [hc, derivative_C_mul, ← Function.iterate_succ_apply' (f := ⇑derivative), ← hc, derivative_neg,
      derivative_X] at h
    rw [← add_assoc, pow_succ]
    linear_combination (-1 : ℝ[X]) * h

/-- The normalised associated Legendre functions have the symmetries assumed of the library. -/
theorem sphP_like : LegendreLike sphP where
  parity := by
    intro l m mu _
    unfold sphP
    have h := congrArg (eval mu) (deriv_parity l m)
    simp only [eval_comp, eval_neg, eval_X, eval_mul, eval_pow, eval_one] at h
    rw [h, neg_sq]
    ring
  pole := by
    intro l m h0 _
    unfold sphP
    rw [one_pow, sub_self, Real.sqrt_zero, zero_pow h0.ne']
    ring

theorem legAngle_neg (l : ℕ) {u u' : Fin 3 → ℝ} (h : ∀ a, u' a = -u a) (v : Fin 3 → ℝ) :
    legAngle l u' v = (-1) ^ l * legAngle l u v := by
  have hu : u' = 0 ↔ u = 0 := by
    constructor
    · intro h0
      funext a
      have := h a
      rw [h0] at this
      simp only [Pi.zero_apply] at this ⊢
      linarith
    · intro h0
      funext a
      rw [h a, h0]
      simp
  unfold legAngle
  by_cases hl : l = 0
  · simp [hl]
  rw [if_neg hl, if_neg hl]
  simp only [hu]
  split_ifs with h0
  · simp
  · rw [mag_neg h, ← (legendre_parity l _).1]
    congr 1
    unfold dot
    rw [h, h, h]
    ring

/-- A field without imaginary part, at opposite modes. -/
theorem real_opposite (M : Mesh ℝ) (hM : GoodMesh M) (F : MeshField ℝ) (hr : ∀ g, F.field g true = 0)
    (hS : ∀ s, F.fieldS = some s → ∀ g, s g true = 0) {c : ℤ × ℤ × ℤ} (hc : c ∈ box M.n)
    (hq : OffNyquist M.n c) :
    fourier M F (gid M.n (mirrorCell M.n c)) = (starRingEnd ℂ) (fourier M F (gid M.n c)) := by
  have key : ∀ f : Grid ℝ, (∀ g, f g true = 0) → (fun g b => conjSign 0 b * f g b) = f := by
    intro f hf
    funext g b
    cases b
    · simp [conjSign]
    · rw [hf]; simp
  have : F = signF (conjSign 0) F := by
    obtain ⟨f, S⟩ := F
    unfold signF
    simp only at hr hS
    simp only [MeshField.mk.injEq]
    refine ⟨(key f hr).symm, ?_⟩
    cases S with
    | none => rfl
    | some s =>
      simp only [Option.map]
      rw [key s (hS s rfl)]
  conv_lhs => rw [this]
  rw [fourier_sign_mirror M (fun a => (hM.valid a).1) hM.even F 0 hc (Or.inr hq)]
  simp

theorem assign_real (sch : Scheme) (M : Mesh ℝ) (ps : List (Particle ℝ)) (h : ∀ p ∈ ps, p.w true = 0) (g : ℤ) :
    assign sch M ps g true = 0 ∧ assignShifted sch M ps g true = 0 := by
  have : ps = ps.map (signP fun b => if b then 0 else 1) := by
    conv_lhs => rw [← List.map_id ps]
    apply List.map_congr_left
    intro p hp
    obtain ⟨x, w⟩ := p
    simp only [id, signP, Particle.mk.injEq, true_and]
    funext b
    cases b
    · simp
    · have := h _ hp
      simp only at this
      simp [this]
  constructor
  · rw [this, assign_sign]; simp
  · rw [this, assignShifted_sign]; simp

theorem assignField_real (sch : Scheme) (M : Mesh ℝ) (il : Bool) (ps : List (Particle ℝ))
    (h : ∀ p ∈ ps, p.w true = 0) :
    (∀ g, (assignField sch M il ps).field g true = 0) ∧
      ∀ s, (assignField sch M il ps).fieldS = some s → ∀ g, s g true = 0 := by
  refine ⟨fun g => (assign_real sch M ps h g).1, ?_⟩
  intro s hs g
  unfold assignField at hs
  cases il with
  | false => simp at hs
  | true =>
    simp only [if_true, Option.some.injEq] at hs
    rw [← hs]
    exact (assign_real sch M ps h g).2

theorem unitMode_opposite (E : Env) (hM : GoodMesh E.mesh) (x : Fin 3 → ℝ) {c : ℤ × ℤ × ℤ}
    (hc : c ∈ box E.mesh.n) (hq : OffNyquist E.mesh.n c) :
    unitMode E x (mirrorCell E.mesh.n c) = (starRingEnd ℂ) (unitMode E x c) := by
  obtain ⟨h1, h2⟩ := assignField_real E.sch E.mesh E.interlace [⟨x, fun b => if b then 0 else 1⟩]
    (by intro p hp; rw [List.mem_singleton.1 hp]; rfl)
  exact real_opposite E.mesh hM _ h1 h2 hc hq

theorem fluctuations_opposite (E : Env) (hM : GoodMesh E.mesh) (pos : List (Fin 3 → ℝ)) {c : ℤ × ℤ × ℤ}
    (hc : c ∈ box E.mesh.n) (hq : OffNyquist E.mesh.n c) :
    fourier E.mesh (fluctuations E.sch E.mesh E.interlace pos) (gid E.mesh.n (mirrorCell E.mesh.n c)) =
      (starRingEnd ℂ) (fourier E.mesh (fluctuations E.sch E.mesh E.interlace pos) (gid E.mesh.n c)) := by
  obtain ⟨h1, h2⟩ := assignField_real E.sch E.mesh E.interlace (unweighted pos) (by
    intro p hp
    unfold unweighted at hp
    obtain ⟨x, -, rfl⟩ := List.mem_map.1 hp
    rfl)
  refine real_opposite E.mesh hM _ ?_ ?_ hc hq
  · intro g
    unfold fluctuations
    simp only [if_true, h1, ite_self]
  · exact h2

theorem fluctuation_opposite (E : Env) (hM : GoodMesh E.mesh) (f f' : (Fin 3 → ℝ) → ℝ) (s : ℝ)
    (hf : ∀ v, f' v = s * f v) (data rand : List Part) (alpha : ℝ) {c : ℤ × ℤ × ℤ}
    (hc : c ∈ box E.mesh.n) (hq : OffNyquist E.mesh.n c) :
    fluctuation E f' data rand alpha (mirrorCell E.mesh.n c) =
      (s : ℂ) * (starRingEnd ℂ) (fluctuation E f data rand alpha c) := by
  have key : ∀ ps : List Part,
      (ps.map fun p => ((f' p.los * p.w : ℝ) : ℂ) * unitMode E p.pos (mirrorCell E.mesh.n c)).sum =
        (s : ℂ) * (starRingEnd ℂ) (ps.map fun p => ((f p.los * p.w : ℝ) : ℂ) * unitMode E p.pos c).sum := by
    intro ps
    induction ps with
    | nil => simp
    | cons p ps ih =>
      simp only [List.map_cons, List.sum_cons, map_add, map_mul, Complex.conj_ofReal]
      rw [ih, unitMode_opposite E hM p.pos hc hq, hf]
      push_cast
      ring
  unfold fluctuation
  rw [key, key, map_sub, map_mul, Complex.conj_ofReal]
  ring

theorem selfNoise_mul (f f' : (Fin 3 → ℝ) → ℝ) (s : ℝ) (hf : ∀ v, f' v = s * f v)
    (data rand : List Part) (alpha : ℝ) :
    selfNoise f' data rand alpha = s * selfNoise f data rand alpha := by
  have key : ∀ ps : List Part, (ps.map fun p => f' p.los * p.w ^ 2).sum =
      s * (ps.map fun p => f p.los * p.w ^ 2).sum := by
    intro ps
    rw [← List.sum_map_mul_left]
    congr 1
    apply List.map_congr_left
    intro p _
    rw [hf]
    ring
  unfold selfNoise
  rw [key, key]
  ring

theorem alias_opposite (E : Env) (hn : ∀ a, 0 < E.mesh.n a) (he : ∀ a, 2 ∣ E.mesh.n a)
    {c : ℤ × ℤ × ℤ} (hc : c ∈ box E.mesh.n) (hq : OffNyquist E.mesh.n c) :
    E.alias_ (mirrorCell E.mesh.n c) = E.alias_ c := by
  cases hi : E.interlace with
  | false => exact Zeta.alias_mirror E hn he hi hc
  | true =>
    obtain ⟨⟨a, a'⟩, ⟨b, b'⟩, k, k'⟩ := mem_box.1 hc
    have h0 := (shift_mirror (hn 0) (he 0) a a').1 hq.1
    have h1 := (shift_mirror (hn 1) (he 1) b b').1 hq.2.1
    have h2 := (shift_mirror (hn 2) (he 2) k k').1 hq.2.2
    unfold Env.alias_ aliasingInterlaced uHalf mirrorCell
    rw [hi]
    simp only [if_true]
    rw [h0, h1, h2]
    have e : ∀ (z : ℤ) (N : ℝ), Real.pi * ((-z : ℤ) : ℝ) / N * (Real.pi * ((-z : ℤ) : ℝ) / N) =
        Real.pi * (z : ℝ) / N * (Real.pi * (z : ℝ) / N) := by
      intro z N
      push_cast
      ring
    rw [e, e, e]

theorem win_opposite (E : Env) (hn : ∀ a, 0 < E.mesh.n a) (he : ∀ a, 2 ∣ E.mesh.n a)
    {c : ℤ × ℤ × ℤ} (hc : c ∈ box E.mesh.n) (hq : OffNyquist E.mesh.n c) :
    E.win (mirrorCell E.mesh.n c) = E.win c := by
  unfold Env.win
  rw [alias_opposite E hn he hc hq]
  rw [window_mirror hn he hc]

theorem modesIn_below (E : Env) (hM : GoodMesh E.mesh) {i : ℕ} (hb : BelowNyquist E i) {c : ℤ × ℤ × ℤ}
    (hc : c ∈ modesIn E i) : c ∈ box E.mesh.n ∧ OffNyquist E.mesh.n c := by
  unfold modesIn at hc
  rw [Finset.mem_filter, allModes_eq] at hc
  obtain ⟨h1, _, _, h4⟩ := hc
  refine ⟨h1, off_of_lt E.mesh hM.valid fun ax => lt_of_lt_of_le ?_ (hb ax)⟩
  have hf := Int.lt_floor_add_one (mag (kvec E.mesh c) * 100000)
  have : mag (kvec E.mesh c) < (⌊mag (kvec E.mesh c) * 100000⌋ : ℝ) / 100000 + 1 / 100000 := by
    rw [← add_div, lt_div_iff₀ (by norm_num)]
    exact hf
  linarith

theorem modesIn_opposite (E : Env) (hM : GoodMesh E.mesh) {i : ℕ} (hb : BelowNyquist E i)
    {c : ℤ × ℤ × ℤ} (hc : c ∈ modesIn E i) : mirrorCell E.mesh.n c ∈ modesIn E i := by
  have hn := fun a => (hM.valid a).1
  obtain ⟨h1, hq⟩ := modesIn_below E hM hb hc
  unfold modesIn at hc ⊢
  rw [Finset.mem_filter] at hc ⊢
  rw [mag_neg (kvec_mirror E.mesh hn hM.even h1 hq)]
  exact ⟨by rw [allModes_eq]; exact mirror_mem hn c, hc.2⟩

theorem meanOver_opposite (E : Env) (hM : GoodMesh E.mesh) {i : ℕ} (hb : BelowNyquist E i)
    (f : ℤ × ℤ × ℤ → ℂ) :
    meanOver (modesIn E i) f = meanOver (modesIn E i) fun c => f (mirrorCell E.mesh.n c) := by
  unfold meanOver
  congr 1
  refine Finset.sum_nbij' (mirrorCell E.mesh.n) (mirrorCell E.mesh.n) ?_ ?_ ?_ ?_ ?_
  · intro c hc; exact modesIn_opposite E hM hb hc
  · intro c hc; exact modesIn_opposite E hM hb hc
  · intro c hc; exact mirror_mirror (modesIn_below E hM hb hc).1
  · intro c hc; exact mirror_mirror (modesIn_below E hM hb hc).1
  · intro c hc; rw [mirror_mirror (modesIn_below E hM hb hc).1]

theorem meanOver_conj (S : Finset (ℤ × ℤ × ℤ)) (f : ℤ × ℤ × ℤ → ℂ) (s : ℂ) :
    (meanOver S fun c => s * (starRingEnd ℂ) (f c)) = s * (starRingEnd ℂ) (meanOver S f) := by
  unfold meanOver
  rw [map_div₀, map_sum, ← Finset.mul_sum, mul_div_assoc, map_natCast]

theorem meanOver_mul (S : Finset (ℤ × ℤ × ℤ)) (f : ℤ × ℤ × ℤ → ℂ) (s : ℂ) :
    (meanOver S fun c => s * f c) = s * meanOver S f := by
  unfold meanOver
  rw [← Finset.mul_sum, mul_div_assoc]

theorem parity_scaled {x : ℂ} {L : ℕ} (a : ℝ) (h : x = (-1) ^ L * (starRingEnd ℂ) x) :
    (Even L → ((a : ℂ) * ((2 * (L : ℂ) + 1) * x)).im = 0) ∧
      (Odd L → ((a : ℂ) * ((2 * (L : ℂ) + 1) * x)).re = 0) := by
  apply Zeta.real_or_imag
  conv_lhs => rw [h]
  simp only [map_mul, map_add, map_ofNat, map_natCast, map_one, Complex.conj_ofReal]
  ring

end Trv.Two

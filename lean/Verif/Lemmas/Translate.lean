import Verif.Spec.Translate
import Verif.Spec.NoiseOrders
import Verif.Props.FourierMesh
import Verif.Lemmas.ThreePcfProps
import Verif.Lemmas.Mirror
/-
Lemmas on fields of displaced catalogues.
-/
namespace Trv.Zeta
open Trv.Mesh Trv.Stats Trv.Win Trv.Two Trv.ThreePt Trv.Bis

/-- A grid displaced by `d` cells. -/
def MovedGrid (n : Fin 3 → ℤ) (d : Fin 3 → ℤ) (f f' : Grid ℝ) : Prop :=
  ∀ x ∈ box n, ∀ b, f' (gid n (moveCell n d x)) b = f (gid n x) b

/-- A field and its companion displaced by `d` cells. -/
def MovedField (n : Fin 3 → ℤ) (d : Fin 3 → ℤ) (F F' : MeshField ℝ) : Prop :=
  MovedGrid n d F.field F'.field ∧
    ((F.fieldS = none ∧ F'.fieldS = none) ∨
      ∃ s s', F.fieldS = some s ∧ F'.fieldS = some s' ∧ MovedGrid n d s s')

theorem fourier_movedField (M : Mesh ℝ) (hn : ∀ a, 0 < M.n a) (d : Fin 3 → ℤ) {F F' : MeshField ℝ}
    (h : MovedField M.n d F F') (g : ℤ) :
    fourier M F' g = phase3 M.n (-1) (cellOf M.n g) (d 0, d 1, d 2) * fourier M F g := by
  have key : ∀ f f' : Grid ℝ, MovedGrid M.n d f f' →
      dft M.n (-1) (fun g => cplx f' g * (M.volCell : ℂ)) g =
        phase3 M.n (-1) (cellOf M.n g) (d 0, d 1, d 2) *
          dft M.n (-1) (fun g => cplx f g * (M.volCell : ℂ)) g := by
    intro f f' hf
    apply dft_move hn d (-1) _ _ _ g
    intro x hx
    unfold cplx
    rw [hf x hx, hf x hx]
  obtain ⟨f, S⟩ := F
  obtain ⟨f', S'⟩ := F'
  obtain ⟨hm, ⟨h1, h2⟩ | ⟨s, s', h1, h2, h3⟩⟩ := h
  · simp only at hm h1 h2
    subst h1; subst h2
    exact key f f' hm
  · simp only at hm h1 h2
    subst h1; subst h2
    unfold fourier
    simp only
    rw [key f f' hm, key s s' h3]
    ring

/-- Particles moved on the mesh, with the same weights. -/
def MovedParts (M : Mesh ℝ) (d : Fin 3 → ℤ) (qs qs' : List (Particle ℝ)) : Prop :=
  List.Forall₂ (fun p p' : Particle ℝ => p'.w = p.w ∧ ∀ ax, ∃ m : ℤ,
      p'.pos ax = p.pos ax + d ax * (M.L ax / M.n ax) + m * M.L ax) qs qs'

theorem assignField_moved (sch : Scheme) (M : Mesh ℝ) (hM : M.Valid) (il : Bool) (d : Fin 3 → ℤ)
    {qs qs' : List (Particle ℝ)} (hm : MovedParts M d qs qs') (hq : ∀ p ∈ qs, InBox M p)
    (hq' : ∀ p ∈ qs', InBox M p)
    (hg : il = true → ∀ p ∈ qs, ∀ ax, ¬ BadShift sch (M.n ax) (M.L ax) (p.pos ax))
    (hg' : il = true → ∀ p ∈ qs', ∀ ax, ¬ BadShift sch (M.n ax) (M.L ax) (p.pos ax)) :
    MovedField M.n d (assignField sch M il qs) (assignField sch M il qs') := by
  refine ⟨fun x hx b => C08_translation_equivariant sch M hM _ _ d hq hq' hm x.1 x.2.1 x.2.2 (mem_box.1 hx) b, ?_⟩
  cases il with
  | false => exact Or.inl ⟨rfl, rfl⟩
  | true =>
    exact Or.inr ⟨_, _, rfl, rfl, fun x hx b => assignShifted_move sch M hM _ _ d hq hq' (hg rfl) (hg' rfl) hm
      x.1 x.2.1 x.2.2 (mem_box.1 hx) b⟩

/-- Weights which do not depend on the position. -/
theorem displaced_weights {E : Two.Env} {d : Fin 3 → ℤ} {ps ps' : List Part} (h : Displaced E d ps ps')
    (hM : E.mesh.Valid) (W : (Fin 3 → ℝ) → ℝ → ℝ → ℝ → Bool → ℝ) :
    MovedField E.mesh.n d
      (assignField E.sch E.mesh E.interlace (ps.map fun p => ⟨p.pos, W p.los p.nz p.ws p.wc⟩))
      (assignField E.sch E.mesh E.interlace (ps'.map fun p => ⟨p.pos, W p.los p.nz p.ws p.wc⟩)) := by
  apply assignField_moved E.sch E.mesh hM
  · unfold MovedParts
    rw [List.forall₂_map_left_iff, List.forall₂_map_right_iff]
    refine h.moved.imp ?_
    rintro p p' ⟨h1, h2⟩
    refine ⟨?_, h2⟩
    rw [h1]
  · intro q hq
    obtain ⟨p, hp, rfl⟩ := List.mem_map.1 hq
    exact h.inBox p hp
  · intro q hq
    obtain ⟨p, hp, rfl⟩ := List.mem_map.1 hq
    exact h.inBox' p hp
  · intro hi q hq
    obtain ⟨p, hp, rfl⟩ := List.mem_map.1 hq
    exact h.good hi p hp
  · intro hi q hq
    obtain ⟨p, hp, rfl⟩ := List.mem_map.1 hq
    exact h.good' hi p hp

theorem ylmWeights_moved {E : Two.Env} {d : Fin 3 → ℤ} {ps ps' : List Part} (h : Displaced E d ps ps')
    (hM : E.mesh.Valid) (l : ℕ) (m : ℤ) :
    MovedField E.mesh.n d (assignField E.sch E.mesh E.interlace (ylmWeights E l m ps))
      (assignField E.sch E.mesh E.interlace (ylmWeights E l m ps')) :=
  displaced_weights h hM fun los _ ws wc b => if b then (E.ylm l m los).im * (ws * wc) else (E.ylm l m los).re * (ws * wc)

theorem quadWeights_moved {E : Two.Env} {d : Fin 3 → ℤ} {ps ps' : List Part} (h : Displaced E d ps ps')
    (hM : E.mesh.Valid) (l : ℕ) (m : ℤ) :
    MovedField E.mesh.n d (assignField E.sch E.mesh E.interlace (ylmWeightsQuad E l m ps))
      (assignField E.sch E.mesh E.interlace (ylmWeightsQuad E l m ps')) :=
  displaced_weights h hM fun los _ ws wc b =>
    if b then ((starRingEnd ℂ) (E.ylm l m los)).im * (ws * wc) ^ 2
    else ((starRingEnd ℂ) (E.ylm l m los)).re * (ws * wc) ^ 2

/-- A field computed cell by cell from two fields. -/
structure Combined (op : ℝ → ℝ → ℝ) (F R G : MeshField ℝ) : Prop where
  field : ∀ g b, G.field g b = op (F.field g b) (R.field g b)
  both : ∀ f r, F.fieldS = some f → R.fieldS = some r → G.fieldS = some fun g b => op (f g b) (r g b)
  none : F.fieldS = none → G.fieldS = none

theorem two_moved {n d : Fin 3 → ℤ} {F F' R R' G G' : MeshField ℝ} {op : ℝ → ℝ → ℝ} (hG : Combined op F R G)
    (hG' : Combined op F' R' G') (hF : MovedField n d F F')
    (hR : MovedField n d R R') (hs : F.fieldS.isSome = R.fieldS.isSome) : MovedField n d G G' := by
  obtain ⟨h1, h2⟩ := hF
  obtain ⟨k1, k2⟩ := hR
  refine ⟨fun x hx b => ?_, ?_⟩
  · rw [hG.field, hG'.field, h1 x hx, k1 x hx]
  · rcases h2 with ⟨a, b⟩ | ⟨s, s', a, b, e⟩
    · exact Or.inl ⟨hG.none a, hG'.none b⟩
    · rcases k2 with ⟨p, q⟩ | ⟨t, t', p, q, u⟩
      · rw [a, p] at hs; simp at hs
      · refine Or.inr ⟨_, _, hG.both _ _ a p, hG'.both _ _ b q, fun x hx b => ?_⟩
        simp only
        rw [e x hx, u x hx]

theorem ylmFieldTwo_combined (sch : Scheme) (M : Mesh ℝ) (il : Bool) (ps qs : List (Particle ℝ)) (alpha : ℝ) :
    Combined (fun a b => a - alpha * b) (assignField sch M il ps) (assignField sch M il qs)
      (ylmFieldTwo sch M il ps qs alpha) := by
  refine ⟨fun _ _ => rfl, fun f r hf hr => ?_, fun hf => ?_⟩
  · unfold ylmFieldTwo
    simp only [hf, hr]
  · unfold ylmFieldTwo
    simp only [hf]

theorem quadFieldTwo_combined (sch : Scheme) (M : Mesh ℝ) (il : Bool) (ps qs : List (Particle ℝ)) (alpha : ℝ) :
    Combined (fun a b => a + alpha ^ 2 * b) (assignField sch M il ps) (assignField sch M il qs)
      (quadFieldTwo sch M il ps qs alpha) := by
  refine ⟨fun _ _ => rfl, fun f r hf hr => ?_, fun hf => ?_⟩
  · unfold quadFieldTwo
    simp only [hf, hr]
  · unfold quadFieldTwo
    simp only [hf]

section
variable {E : Env3} {d : Fin 3 → ℤ} {data data' rand rand' : List Part}

theorem isSome_eq (sch : Scheme) (M : Mesh ℝ) (il : Bool) (p q : List (Particle ℝ)) :
    (assignField sch M il p).fieldS.isSome = (assignField sch M il q).fieldS.isSome := by
  unfold assignField
  cases il <;> rfl

theorem dnField_moved {E : Two.Env} (hM : E.mesh.Valid) (hd : Displaced E d data data')
    (hr : Displaced E d rand rand') (alpha : ℝ) (l : ℕ) (m : ℤ) :
    MovedField E.mesh.n d (dnField E data rand alpha l m) (dnField E data' rand' alpha l m) :=
  two_moved (ylmFieldTwo_combined _ _ _ _ _ _) (ylmFieldTwo_combined _ _ _ _ _ _)
    (ylmWeights_moved hd hM l m) (ylmWeights_moved hr hM l m)
    (isSome_eq _ _ _ _ _)

theorem quadField_moved {E : Two.Env} (hM : E.mesh.Valid) (hd : Displaced E d data data')
    (hr : Displaced E d rand rand') (alpha : ℝ) (l : ℕ) (m : ℤ) :
    MovedField E.mesh.n d (quadField E data rand alpha l m) (quadField E data' rand' alpha l m) :=
  two_moved (quadFieldTwo_combined _ _ _ _ _ _) (quadFieldTwo_combined _ _ _ _ _ _)
    (quadWeights_moved hd hM l m) (quadWeights_moved hr hM l m)
    (isSome_eq _ _ _ _ _)

theorem one_moved {n d : Fin 3 → ℤ} {F F' : MeshField ℝ} (c : ℝ) (hF : MovedField n d F F') :
    MovedField n d { F with field := fun g b => F.field g b * c }
      { F' with field := fun g b => F'.field g b * c } := by
  refine ⟨fun x hx b => ?_, hF.2⟩
  simp only
  rw [hF.1 x hx]

theorem nField_moved {E : Two.Env} (hM : E.mesh.Valid) (hr : Displaced E d rand rand') (alpha : ℝ) (l : ℕ)
    (m : ℤ) : MovedField E.mesh.n d (nField E rand alpha l m) (nField E rand' alpha l m) :=
  one_moved alpha (ylmWeights_moved hr hM l m)

theorem quadField1_moved {E : Two.Env} (hM : E.mesh.Valid) (hr : Displaced E d rand rand') (alpha : ℝ) (l : ℕ)
    (m : ℤ) : MovedField E.mesh.n d (quadField1 E rand alpha l m) (quadField1 E rand' alpha l m) :=
  one_moved (alpha ^ 2) (quadWeights_moved hr hM l m)

theorem counts_moved {E : Two.Env} (hM : E.mesh.Valid) {pos pos' : List (Fin 3 → ℝ)} (h : DisplacedBox E d pos pos') :
    MovedField E.mesh.n d (assignField E.sch E.mesh E.interlace (unweighted pos))
      (assignField E.sch E.mesh E.interlace (unweighted pos')) := by
  apply assignField_moved E.sch E.mesh hM E.interlace d (unweighted_moved h.moved)
    (unweighted_inBox h.inBox) (unweighted_inBox h.inBox')
  · intro hi q hq
    obtain ⟨p, hp, rfl⟩ := List.mem_map.1 hq
    exact h.good hi p hp
  · intro hi q hq
    obtain ⟨p, hp, rfl⟩ := List.mem_map.1 hq
    exact h.good' hi p hp

theorem sum_map_moved {E : Two.Env} {G : Type} [AddCommMonoid G] (h : Displaced E d data data')
    (f : (Fin 3 → ℝ) → ℝ → ℝ → ℝ → G) :
    (data'.map fun p => f p.los p.nz p.ws p.wc).sum = (data.map fun p => f p.los p.nz p.ws p.wc).sum := by
  have := h.moved
  clear h
  induction this with
  | nil => rfl
  | cons a _ ih =>
    rw [List.map_cons, List.map_cons, List.sum_cons, List.sum_cons, ih, a.1]

theorem alpha_moved {E : Two.Env} (hd : Displaced E d data data') (hr : Displaced E d rand rand') :
    alphaOf data' rand' = alphaOf data rand := by
  unfold alphaOf
  rw [show wsTotal data' = wsTotal data from sum_map_moved hd fun _ _ ws _ => ws,
    show wsTotal rand' = wsTotal rand from sum_map_moved hr fun _ _ ws _ => ws]

theorem ylmSum_moved {E : Two.Env} (hd : Displaced E d data data') (k l : ℕ) (m : ℤ) :
    ylmSum E k l m data' = ylmSum E k l m data :=
  sum_map_moved hd fun los _ ws wc => E.ylm l m los * (((ws * wc) ^ k : ℝ) : ℂ)

end

/-! ### Sums over modes -/

/-- Two fields which differ by the phase of a displacement. -/
def Phased (n : Fin 3 → ℤ) (d : Fin 3 → ℤ) (f f' : ℤ → ℂ) : Prop :=
  ∀ g, f' g = phase3 n (-1) (cellOf n g) (d 0, d 1, d 2) * f g

theorem Phased.mul_conj {n d : Fin 3 → ℤ} {f f' h h' : ℤ → ℂ} (hf : Phased n d f f') (hh : Phased n d h h')
    (g : ℤ) : f' g * (starRingEnd ℂ) (h' g) = f g * (starRingEnd ℂ) (h g) := by
  rw [hf, hh, map_mul]
  have := phase3_mul_conj n (-1) (cellOf n g) (d 0, d 1, d 2)
  linear_combination (f g * (starRingEnd ℂ) (h g)) * this

theorem corr_phased (E : Two.Env) {d : Fin 3 → ℤ} {f f' h h' : ℤ → ℂ} (hf : Phased E.mesh.n d f f')
    (hh : Phased E.mesh.n d h h') (amp : ℂ) (c : ℤ × ℤ × ℤ) : corr E f' h' amp c = corr E f h amp c := by
  unfold corr
  simp only [hf.mul_conj hh]

theorem power_phased (E : Two.Env) {d : Fin 3 → ℤ} {f f' h h' : ℤ → ℂ} (hf : Phased E.mesh.n d f f')
    (hh : Phased E.mesh.n d h h') (c : ℤ × ℤ × ℤ) : power E f' h' c = power E f h c := by
  unfold power
  rw [hf.mul_conj hh]

theorem statsFourier_phased (E : Two.Env) {d : Fin 3 → ℤ} {f f' h h' : ℤ → ℂ} (hf : Phased E.mesh.n d f f')
    (hh : Phased E.mesh.n d h h') (amp : ℂ) (l : ℕ) (m : ℤ) :
    statsFourier E f' h' amp l m = statsFourier E f h amp l m := by
  unfold statsFourier modes2 modePower
  simp only [hf.mul_conj hh]

theorem statsConfig_phased (E : Two.Env) {d : Fin 3 → ℤ} {f f' h h' : ℤ → ℂ} (hf : Phased E.mesh.n d f f')
    (hh : Phased E.mesh.n d h h') (amp : ℂ) (l : ℕ) (m : ℤ) :
    statsConfig E f' h' amp l m = statsConfig E f h amp l m := by
  have e : twopt3d E f' h' amp = twopt3d E f h amp := by
    funext g
    unfold twopt3d modePower
    simp only [hf.mul_conj hh]
  unfold statsConfig
  rw [e]

/-- The phases of a closed triangle. -/
theorem phase_closed {n : Fin 3 → ℤ} (hn : ∀ a, 0 < n a) {a b c : ℤ × ℤ × ℤ} (h : Closed n a b c)
    (x : ℤ × ℤ × ℤ) : phase3 n (-1) a x * phase3 n (-1) b x * phase3 n (-1) c x = 1 := by
  have key : ∀ {N i j k y : ℤ}, 0 < N → N ∣ i + j + k →
      root N (-1 * (i * y)) * root N (-1 * (j * y)) * root N (-1 * (k * y)) = 1 := by
    rintro N i j k y hN ⟨m, hm⟩
    rw [← root_add, ← root_add,
      show -1 * (i * y) + -1 * (j * y) + -1 * (k * y) = N * (-(m * y)) by linear_combination (-y) * hm,
      root_period hN]
  have k0 := key (y := x.1) (hn 0) h.1
  have k1 := key (y := x.2.1) (hn 1) h.2.1
  have k2 := key (y := x.2.2) (hn 2) h.2.2
  rw [phase3_eq, phase3_eq, phase3_eq]
  calc _ = (root (n 0) (-1 * (a.1 * x.1)) * root (n 0) (-1 * (b.1 * x.1)) * root (n 0) (-1 * (c.1 * x.1))) *
        (root (n 1) (-1 * (a.2.1 * x.2.1)) * root (n 1) (-1 * (b.2.1 * x.2.1)) *
          root (n 1) (-1 * (c.2.1 * x.2.1))) *
        (root (n 2) (-1 * (a.2.2 * x.2.2)) * root (n 2) (-1 * (b.2.2 * x.2.2)) *
          root (n 2) (-1 * (c.2.2 * x.2.2))) := by ring
    _ = 1 := by rw [k0, k1, k2]; ring

theorem comp_phased (E : Env3) (hn : ∀ a, 0 < E.mesh.n a) {d : Fin 3 → ℤ} {f f' : ℤ → ℂ}
    (hf : Phased E.mesh.n d f f') {c : ℤ × ℤ × ℤ} (hc : c ∈ box E.mesh.n) :
    comp E f' c = phase3 E.mesh.n (-1) c (d 0, d 1, d 2) * comp E f c := by
  unfold comp
  rw [hf, cellOf_gid hn hc, mul_div_assoc]

open Classical in
theorem triangleMean_phased (E : Env3) (hn : ∀ a, 0 < E.mesh.n a) {d : Fin 3 → ℤ} {f f' h h' : ℤ → ℂ}
    (hf : Phased E.mesh.n d f f') (hh : Phased E.mesh.n d h h') (t : Triplet) (row col : ℤ) :
    triangleMean E (comp E f') (comp E h') t row col = triangleMean E (comp E f) (comp E h) t row col := by
  unfold triangleMean
  congr 1
  apply Finset.sum_congr rfl
  intro a ha
  apply Finset.sum_congr rfl
  intro b hb
  apply Finset.sum_congr rfl
  intro c hc
  rw [Finset.mem_filter, allModes_eq] at hc
  have ma := ((mem_binModes E row a).1 ha).1
  have mb := ((mem_binModes E col b).1 hb).1
  rw [comp_phased E hn hf ma, comp_phased E hn hf mb, comp_phased E hn hh hc.1]
  have := phase_closed hn hc.2 (d 0, d 1, d 2)
  linear_combination (E.ylm E.ell1 t.m1 (kvec E.mesh a) * E.ylm E.ell2 t.m2 (kvec E.mesh b) *
    (comp E f a * comp E f b * comp E h c)) * this

open Classical in
theorem besselTriangles_phased (E : Env3) (hn : ∀ a, 0 < E.mesh.n a) {d : Fin 3 → ℤ} {f f' h h' : ℤ → ℂ}
    (hf : Phased E.mesh.n d f f') (hh : Phased E.mesh.n d h h') (t : Triplet) (ra rb : ℝ) :
    besselTriangles E (comp E f') (comp E h') t ra rb = besselTriangles E (comp E f) (comp E h) t ra rb := by
  unfold besselTriangles
  congr 1
  apply Finset.sum_congr rfl
  intro a ha
  apply Finset.sum_congr rfl
  intro b hb
  apply Finset.sum_congr rfl
  intro c hc
  rw [Finset.mem_filter, allModes_eq] at hc
  rw [allModes_eq] at ha hb
  rw [comp_phased E hn hf ha, comp_phased E hn hf hb, comp_phased E hn hh hc.1]
  have := phase_closed hn hc.2 (d 0, d 1, d 2)
  linear_combination (((E.sj E.ell1 (mag (kvec E.mesh a) * ra) : ℝ) : ℂ) * E.ylm E.ell1 t.m1 (kvec E.mesh a) *
      (((E.sj E.ell2 (mag (kvec E.mesh b) * rb) : ℝ) : ℂ) * E.ylm E.ell2 t.m2 (kvec E.mesh b)) *
    (comp E f a * comp E f b * comp E h c)) * this

/-- The fields of the shot noise of displaced catalogues. -/
structure PhasedNoise (n d : Fin 3 → ℤ) (F F' : NoiseFields) : Prop where
  f : Phased n d F.f F'.f
  fLM : ∀ M, Phased n d (F.fLM M) (F'.fLM M)
  q : Phased n d F.q F'.q
  qLM : ∀ M, Phased n d (F.qLM M) (F'.qLM M)
  s : F'.s = F.s

theorem noiseAt_phased (E : Env3) {d : Fin 3 → ℤ} {F F' : NoiseFields} (h : PhasedNoise E.mesh.n d F F')
    (t : Triplet) (row col : ℤ) : noiseAt E F' t row col = noiseAt E F t row col := by
  unfold noiseAt pairNoise sepNoise
  simp only [h.s, power_phased E.toEnv h.f (h.qLM t.M), corr_phased E.toEnv (h.fLM t.M) h.q]

theorem selfPairs_phased (E : Env3) {d : Fin 3 → ℤ} {F F' : NoiseFields} (h : PhasedNoise E.mesh.n d F F')
    (t : Triplet) (b : ℤ) :
    selfPairs E (F'.fLM t.M) F'.q (F'.s t.M) t b = selfPairs E (F.fLM t.M) F.q (F.s t.M) t b := by
  unfold selfPairs
  simp only [h.s, corr_phased E.toEnv (h.fLM t.M) h.q]

theorem survey_phased (E : Env3) (hM : E.mesh.Valid) {d : Fin 3 → ℤ} {data data' rand rand' : List Part}
    (hd : Displaced E.toEnv d data data') (hr : Displaced E.toEnv d rand rand') :
    PhasedNoise E.mesh.n d (surveyNoise E data rand) (surveyNoise E data' rand') := by
  have hn := fun a => (hM a).1
  have ha := alpha_moved hd hr
  unfold surveyNoise
  rw [ha]
  refine ⟨?_, ?_, ?_, ?_, ?_⟩
  · exact fun g => fourier_movedField E.mesh hn d (dnField_moved hM hd hr _ 0 0) g
  · exact fun M g => fourier_movedField E.mesh hn d (dnField_moved hM hd hr _ E.ELL M) g
  · exact fun g => fourier_movedField E.mesh hn d (quadField_moved hM hd hr _ 0 0) g
  · exact fun M g => fourier_movedField E.mesh hn d (quadField_moved hM hd hr _ E.ELL M) g
  · funext M
    simp only
    unfold shotAmp3
    rw [ylmSum_moved hd, ylmSum_moved hr]

theorem window_phased (E : Env3) (hM : E.mesh.Valid) {d : Fin 3 → ℤ} {rand rand' : List Part}
    (hr : Displaced E.toEnv d rand rand') (alpha : ℝ) :
    PhasedNoise E.mesh.n d (windowNoise E rand alpha) (windowNoise E rand' alpha) := by
  have hn := fun a => (hM a).1
  unfold windowNoise
  refine ⟨?_, ?_, ?_, ?_, ?_⟩
  · exact fun g => fourier_movedField E.mesh hn d (nField_moved hM hr _ 0 0) g
  · exact fun M g => fourier_movedField E.mesh hn d (nField_moved hM hr _ E.ELL M) g
  · exact fun g => fourier_movedField E.mesh hn d (quadField1_moved hM hr _ 0 0) g
  · exact fun M g => fourier_movedField E.mesh hn d (quadField1_moved hM hr _ E.ELL M) g
  · funext M
    simp only
    unfold shotAmp3One
    rw [ylmSum_moved hr]

theorem box_phased (E : Env3) (hM : E.mesh.Valid) {d : Fin 3 → ℤ} {pos pos' : List (Fin 3 → ℝ)}
    (h : DisplacedBox E.toEnv d pos pos') :
    PhasedNoise E.mesh.n d (boxNoise E pos) (boxNoise E pos') := by
  have hn := fun a => (hM a).1
  have hf : Phased E.mesh.n d (boxNoise E pos).f (boxNoise E pos').f := by
    intro g
    apply fourier_moved E.sch E.mesh hM E.interlace d pos pos' h.inBox h.inBox' h.moved
    intro hi x hx
    rcases List.mem_append.1 hx with hx | hx
    · exact h.good hi x hx
    · exact h.good' hi x hx
  have hq : Phased E.mesh.n d (boxNoise E pos).q (boxNoise E pos').q :=
    fun g => fourier_movedField E.mesh hn d (counts_moved hM h) g
  refine ⟨hf, fun _ => hf, hq, fun _ => hq, ?_⟩
  unfold boxNoise
  simp only [h.moved.length_eq]

end Trv.Zeta

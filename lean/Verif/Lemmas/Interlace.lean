import Verif.Spec.Interlace
import Verif.Lemmas.Translate
import Verif.Lemmas.PairCount
/-
Lemmas on interlaced fields of catalogues displaced by half a cell.
-/
namespace Trv.Zeta
open Trv.Mesh Trv.Stats Trv.Win Trv.Two Trv.ThreePt Trv.Bis

/-- The phase of the companion field. -/
noncomputable def ilPhase (n : Fin 3 → ℤ) (c : ℤ × ℤ × ℤ) : ℂ := Complex.exp (Complex.I * (Real.pi * halfShift n c : ℝ))

theorem ilPhase_conj (n : Fin 3 → ℤ) (c : ℤ × ℤ × ℤ) : ilPhase n c * (starRingEnd ℂ) (ilPhase n c) = 1 := by
  unfold ilPhase
  rw [← Complex.exp_conj, ← Complex.exp_add, map_mul, Complex.conj_I, Complex.conj_ofReal]
  simp

/-- The square of the phase of the companion is that of a displacement by one cell on each axis. -/
theorem ilPhase_sq {n : Fin 3 → ℤ} (c : ℤ × ℤ × ℤ) :
    ilPhase n c * ilPhase n c = phase3 n 1 c (1, 1, 1) := by
  unfold ilPhase phase3 halfShift
  rw [← Complex.exp_add, Complex.exp_eq_exp_iff_exists_int]
  have key : ∀ a N : ℤ, ∃ m : ℤ, (if a < N / 2 then (a : ℝ) / N else (a : ℝ) / N - 1) = (a : ℝ) / N + m := by
    intro a N
    split
    · exact ⟨0, by simp⟩
    · exact ⟨-1, by push_cast; ring⟩
  obtain ⟨m0, h0⟩ := key c.1 (n 0)
  obtain ⟨m1, h1⟩ := key c.2.1 (n 1)
  obtain ⟨m2, h2⟩ := key c.2.2 (n 2)
  refine ⟨m0 + m1 + m2, ?_⟩
  rw [h0, h1, h2]
  push_cast
  ring

theorem ilPhase_step (n : Fin 3 → ℤ) (c : ℤ × ℤ × ℤ) :
    ilPhase n c * phase3 n (-1) c (1, 1, 1) = (starRingEnd ℂ) (ilPhase n c) := by
  have h1 := ilPhase_sq (n := n) c
  have h2 := ilPhase_conj n c
  have h3 := phase3_mul_conj n 1 c (1, 1, 1)
  rw [phase3_conj] at h3
  calc ilPhase n c * phase3 n (-1) c (1, 1, 1)
      = ilPhase n c * (ilPhase n c * (starRingEnd ℂ) (ilPhase n c)) * phase3 n (-1) c (1, 1, 1) := by rw [h2, mul_one]
    _ = (ilPhase n c * ilPhase n c) * phase3 n (-1) c (1, 1, 1) * (starRingEnd ℂ) (ilPhase n c) := by ring
    _ = (starRingEnd ℂ) (ilPhase n c) := by rw [h1, h3, one_mul]

/-- A field displaced by `d` cells and a half: the field is the companion, and the companion the field. -/
def HalfField (n : Fin 3 → ℤ) (d : Fin 3 → ℤ) (F F' : MeshField ℝ) : Prop :=
  ∃ s s', F.fieldS = some s ∧ F'.fieldS = some s' ∧ MovedGrid n d s F'.field ∧ MovedGrid n (fun a => d a + 1) F.field s'

/-- The phase of a displacement by `d` cells and a half. -/
noncomputable def halfPhase (n d : Fin 3 → ℤ) (c : ℤ × ℤ × ℤ) : ℂ :=
  phase3 n (-1) c (d 0, d 1, d 2) * (starRingEnd ℂ) (ilPhase n c)

theorem halfPhase_conj (n d : Fin 3 → ℤ) (c : ℤ × ℤ × ℤ) : halfPhase n d c * (starRingEnd ℂ) (halfPhase n d c) = 1 := by
  unfold halfPhase
  rw [map_mul, Complex.conj_conj]
  have h1 := phase3_mul_conj n (-1) c (d 0, d 1, d 2)
  have h2 := ilPhase_conj n c
  linear_combination (ilPhase n c * (starRingEnd ℂ) (ilPhase n c)) * h1 + h2

theorem dft_movedGrid (M : Mesh ℝ) (hn : ∀ a, 0 < M.n a) (d : Fin 3 → ℤ) {f f' : Grid ℝ} (hf : MovedGrid M.n d f f') (g : ℤ) :
    dft M.n (-1) (fun g => cplx f' g * (M.volCell : ℂ)) g =
      phase3 M.n (-1) (cellOf M.n g) (d 0, d 1, d 2) * dft M.n (-1) (fun g => cplx f g * (M.volCell : ℂ)) g := by
  apply dft_move hn d (-1) _ _ _ g
  intro x hx
  unfold cplx
  rw [hf x hx, hf x hx]

theorem phase3_succ (n : Fin 3 → ℤ) (c : ℤ × ℤ × ℤ) (d : Fin 3 → ℤ) :
    phase3 n (-1) c (d 0 + 1, d 1 + 1, d 2 + 1) = phase3 n (-1) c (d 0, d 1, d 2) * phase3 n (-1) c (1, 1, 1) := by
  rw [phase3_eq, phase3_eq, phase3_eq]
  simp only [mul_add, mul_one, root_add]
  ring

theorem fourier_half (M : Mesh ℝ) (hn : ∀ a, 0 < M.n a) (d : Fin 3 → ℤ) {F F' : MeshField ℝ} (h : HalfField M.n d F F') (g : ℤ) :
    fourier M F' g = halfPhase M.n d (cellOf M.n g) * fourier M F g := by
  obtain ⟨f, S⟩ := F
  obtain ⟨f', S'⟩ := F'
  obtain ⟨s, s', h1, h2, h3, h4⟩ := h
  simp only at h1 h2 h3 h4
  subst h1; subst h2
  unfold fourier
  simp only
  rw [dft_movedGrid M hn d h3, dft_movedGrid M hn _ h4, phase3_succ]
  have e := ilPhase_step M.n (cellOf M.n g)
  have e2 := ilPhase_conj M.n (cellOf M.n g)
  unfold halfPhase
  change (_ + ilPhase M.n (cellOf M.n g) * _) / 2 = _ * ((_ + ilPhase M.n (cellOf M.n g) * _) / 2)
  generalize ilPhase M.n (cellOf M.n g) = p at *
  generalize phase3 M.n (-1) (cellOf M.n g) (1, 1, 1) = o at *
  generalize phase3 M.n (-1) (cellOf M.n g) (d 0, d 1, d 2) = q at *
  generalize dft M.n (-1) (fun g => cplx f g * (M.volCell : ℂ)) g = a
  generalize dft M.n (-1) (fun g => cplx s g * (M.volCell : ℂ)) g = b
  linear_combination (q * a / 2) * e - (q * b / 2) * e2

/-- Particles moved by `d` cells and a half, with the same weights. -/
def HalfParts (M : Mesh ℝ) (d : Fin 3 → ℤ) (qs qs' : List (Particle ℝ)) : Prop :=
  List.Forall₂ (fun p p' : Particle ℝ => p'.w = p.w ∧ HalfMoved M d p.pos p'.pos) qs qs'

theorem assignField_half (sch : Scheme) (M : Mesh ℝ) (hM : M.Valid) (d : Fin 3 → ℤ)
    {qs qs' : List (Particle ℝ)} (hm : HalfParts M d qs qs') (hq : ∀ p ∈ qs, InBox M p)
    (hq' : ∀ p ∈ qs', InBox M p)
    (hg : ∀ p ∈ qs, ∀ ax, ¬ BadShift sch (M.n ax) (M.L ax) (p.pos ax))
    (hg' : ∀ p ∈ qs', ∀ ax, ¬ BadShift sch (M.n ax) (M.L ax) (p.pos ax)) :
    HalfField M.n d (assignField sch M true qs) (assignField sch M true qs') := by
  have hn := fun ax => (hM ax).1
  have hin : ∀ (d : Fin 3 → ℤ) (x : ℤ × ℤ × ℤ), InMesh M ((x.1 + d 0) % M.n 0) ((x.2.1 + d 1) % M.n 1) ((x.2.2 + d 2) % M.n 2) := fun d x =>
    ⟨⟨Int.emod_nonneg _ (hn 0).ne', Int.emod_lt_of_pos _ (hn 0)⟩,
     ⟨Int.emod_nonneg _ (hn 1).ne', Int.emod_lt_of_pos _ (hn 1)⟩,
     ⟨Int.emod_nonneg _ (hn 2).ne', Int.emod_lt_of_pos _ (hn 2)⟩⟩
  refine ⟨_, _, rfl, rfl, ?_, ?_⟩
  · intro x hx b
    show assign sch M qs' (gridIndex M.n ((x.1 + d 0) % M.n 0) ((x.2.1 + d 1) % M.n 1) ((x.2.2 + d 2) % M.n 2)) b =
      assignShifted sch M qs (gridIndex M.n x.1 x.2.1 x.2.2) b
    rw [C05_assignment_is_kernel_sum sch M hM qs' hq' _ _ _ (hin d x),
      (C07_interlaced_conserves_partial sch M hM qs hq hg b).2 _ _ _ (mem_box.1 hx)]
    clear hq hq' hg hg'
    induction hm with
    | nil => rfl
    | @cons p p' ps ps' hpp _ ih =>
      obtain ⟨hw, hpos⟩ := hpp
      rw [List.map_cons, List.map_cons, List.sum_cons, List.sum_cons, ih]
      congr 1
      have key : ∀ ax (i : ℤ),
          deposit sch (M.n ax) (M.n ax * p'.pos ax / M.L ax) ((i + d ax) % M.n ax) =
          deposit sch (M.n ax) (M.n ax * p.pos ax / M.L ax + 1 / 2) i := by
        intro ax i
        obtain ⟨m, hm⟩ := hpos ax
        have hL := (hM ax).2.ne'
        have hnK : (M.n ax : ℝ) ≠ 0 := by exact_mod_cast (hn ax).ne'
        have e : (M.n ax : ℝ) * p'.pos ax / M.L ax
            = M.n ax * p.pos ax / M.L ax + 1 / 2 + (d ax : ℝ) + ((m * M.n ax : ℤ) : ℝ) := by
          rw [hm]; push_cast; field_simp; ring
        rw [e, deposit_loc_period, deposit_emod, deposit_shift]
      rw [key 0 x.1, key 1 x.2.1, key 2 x.2.2, hw]
  · intro x hx b
    show assignShifted sch M qs' (gridIndex M.n ((x.1 + (d 0 + 1)) % M.n 0) ((x.2.1 + (d 1 + 1)) % M.n 1) ((x.2.2 + (d 2 + 1)) % M.n 2)) b =
      assign sch M qs (gridIndex M.n x.1 x.2.1 x.2.2) b
    rw [C05_assignment_is_kernel_sum sch M hM qs hq _ _ _ (mem_box.1 hx),
      (C07_interlaced_conserves_partial sch M hM qs' hq' hg' b).2 _ _ _ (hin (fun a => d a + 1) x)]
    clear hq hq' hg hg'
    induction hm with
    | nil => rfl
    | @cons p p' ps ps' hpp _ ih =>
      obtain ⟨hw, hpos⟩ := hpp
      rw [List.map_cons, List.map_cons, List.sum_cons, List.sum_cons, ih]
      congr 1
      have key : ∀ ax (i : ℤ),
          deposit sch (M.n ax) (M.n ax * p'.pos ax / M.L ax + 1 / 2) ((i + (d ax + 1)) % M.n ax) =
          deposit sch (M.n ax) (M.n ax * p.pos ax / M.L ax) i := by
        intro ax i
        obtain ⟨m, hm⟩ := hpos ax
        have hL := (hM ax).2.ne'
        have hnK : (M.n ax : ℝ) ≠ 0 := by exact_mod_cast (hn ax).ne'
        have e : (M.n ax : ℝ) * p'.pos ax / M.L ax + 1 / 2
            = M.n ax * p.pos ax / M.L ax + ((d ax + 1 : ℤ) : ℝ) + ((m * M.n ax : ℤ) : ℝ) := by
          rw [hm]; push_cast; field_simp; ring
        rw [e, deposit_loc_period, deposit_emod, deposit_shift]
      rw [key 0 x.1, key 1 x.2.1, key 2 x.2.2, hw]

theorem half_two {n d : Fin 3 → ℤ} {F F' R R' G G' : MeshField ℝ} {op : ℝ → ℝ → ℝ} (hG : Combined op F R G)
    (hG' : Combined op F' R' G') (hF : HalfField n d F F') (hR : HalfField n d R R') : HalfField n d G G' := by
  obtain ⟨s, s', h1, h2, h3, h4⟩ := hF
  obtain ⟨t, t', k1, k2, k3, k4⟩ := hR
  refine ⟨_, _, hG.both _ _ h1 k1, hG'.both _ _ h2 k2, fun x hx b => ?_, fun x hx b => ?_⟩
  · simp only
    rw [hG'.field, h3 x hx, k3 x hx]
  · simp only
    rw [hG.field, h4 x hx, k4 x hx]

section
variable {d : Fin 3 → ℤ} {data data' rand rand' : List Part} {E : Two.Env}

theorem half_weights (hi : E.interlace = true) (h : HalfDisplaced E d data data')
    (hM : E.mesh.Valid) (W : (Fin 3 → ℝ) → ℝ → ℝ → ℝ → Bool → ℝ) :
    HalfField E.mesh.n d
      (assignField E.sch E.mesh E.interlace (data.map fun p => ⟨p.pos, W p.los p.nz p.ws p.wc⟩))
      (assignField E.sch E.mesh E.interlace (data'.map fun p => ⟨p.pos, W p.los p.nz p.ws p.wc⟩)) := by
  rw [hi]
  apply assignField_half E.sch E.mesh hM
  · unfold HalfParts
    rw [List.forall₂_map_left_iff, List.forall₂_map_right_iff]
    refine h.moved.imp ?_
    rintro p p' ⟨h1, h2⟩
    refine ⟨?_, h2⟩
    rw [h1]
  · intro q hq
    obtain ⟨p, hp, rfl⟩ := List.mem_map.1 hq
    exact (h.use p hp).inBox
  · intro q hq
    obtain ⟨p, hp, rfl⟩ := List.mem_map.1 hq
    exact (h.use' p hp).inBox
  · intro q hq
    obtain ⟨p, hp, rfl⟩ := List.mem_map.1 hq
    exact (h.use p hp).good
  · intro q hq
    obtain ⟨p, hp, rfl⟩ := List.mem_map.1 hq
    exact (h.use' p hp).good

theorem ylmWeights_half (hi : E.interlace = true) (h : HalfDisplaced E d data data')
    (hM : E.mesh.Valid) (l : ℕ) (m : ℤ) :
    HalfField E.mesh.n d (assignField E.sch E.mesh E.interlace (ylmWeights E l m data))
      (assignField E.sch E.mesh E.interlace (ylmWeights E l m data')) :=
  half_weights hi h hM fun los _ ws wc b => if b then (E.ylm l m los).im * (ws * wc) else (E.ylm l m los).re * (ws * wc)

theorem quadWeights_half (hi : E.interlace = true) (h : HalfDisplaced E d data data')
    (hM : E.mesh.Valid) (l : ℕ) (m : ℤ) :
    HalfField E.mesh.n d (assignField E.sch E.mesh E.interlace (ylmWeightsQuad E l m data))
      (assignField E.sch E.mesh E.interlace (ylmWeightsQuad E l m data')) :=
  half_weights hi h hM fun los _ ws wc b =>
    if b then ((starRingEnd ℂ) (E.ylm l m los)).im * (ws * wc) ^ 2
    else ((starRingEnd ℂ) (E.ylm l m los)).re * (ws * wc) ^ 2

theorem dnField_half (hi : E.interlace = true) (hM : E.mesh.Valid) (hd : HalfDisplaced E d data data')
    (hr : HalfDisplaced E d rand rand') (alpha : ℝ) (l : ℕ) (m : ℤ) :
    HalfField E.mesh.n d (dnField E data rand alpha l m) (dnField E data' rand' alpha l m) :=
  half_two (ylmFieldTwo_combined _ _ _ _ _ _) (ylmFieldTwo_combined _ _ _ _ _ _)
    (ylmWeights_half hi hd hM l m) (ylmWeights_half hi hr hM l m)

theorem quadField_half (hi : E.interlace = true) (hM : E.mesh.Valid) (hd : HalfDisplaced E d data data')
    (hr : HalfDisplaced E d rand rand') (alpha : ℝ) (l : ℕ) (m : ℤ) :
    HalfField E.mesh.n d (quadField E data rand alpha l m) (quadField E data' rand' alpha l m) :=
  half_two (quadFieldTwo_combined _ _ _ _ _ _) (quadFieldTwo_combined _ _ _ _ _ _)
    (quadWeights_half hi hd hM l m) (quadWeights_half hi hr hM l m)

theorem nField_half (hi : E.interlace = true) (hM : E.mesh.Valid) (hr : HalfDisplaced E d rand rand') (l : ℕ)
    (m : ℤ) : HalfField E.mesh.n d (nField E rand 1 l m) (nField E rand' 1 l m) := by
  have h := ylmWeights_half hi hr hM l m
  unfold nField ylmFieldOne
  simpa only [mul_one] using h

theorem counts_half (hi : E.interlace = true) (hM : E.mesh.Valid) {pos pos' : List (Fin 3 → ℝ)}
    (h : HalfDisplacedBox E d pos pos') :
    HalfField E.mesh.n d (assignField E.sch E.mesh E.interlace (unweighted pos))
      (assignField E.sch E.mesh E.interlace (unweighted pos')) := by
  rw [hi]
  apply assignField_half E.sch E.mesh hM
  · unfold HalfParts unweighted
    rw [List.forall₂_map_left_iff, List.forall₂_map_right_iff]
    exact h.moved.imp fun _ _ h => ⟨rfl, h⟩
  · exact unweighted_inBox fun x hx => (h.use x hx).inBox
  · exact unweighted_inBox fun x hx => (h.use' x hx).inBox
  · intro q hq
    obtain ⟨p, hp, rfl⟩ := List.mem_map.1 hq
    exact (h.use p hp).good
  · intro q hq
    obtain ⟨p, hp, rfl⟩ := List.mem_map.1 hq
    exact (h.use' p hp).good

theorem sum_map_half {G : Type} [AddCommMonoid G] (h : HalfDisplaced E d data data')
    (f : (Fin 3 → ℝ) → ℝ → ℝ → ℝ → G) :
    (data'.map fun p => f p.los p.nz p.ws p.wc).sum = (data.map fun p => f p.los p.nz p.ws p.wc).sum := by
  have := h.moved
  clear h
  induction this with
  | nil => rfl
  | cons a _ ih =>
    rw [List.map_cons, List.map_cons, List.sum_cons, List.sum_cons, ih, a.1]

theorem alpha_half (hd : HalfDisplaced E d data data') (hr : HalfDisplaced E d rand rand') :
    alphaOf data' rand' = alphaOf data rand := by
  unfold alphaOf
  rw [show wsTotal data' = wsTotal data from sum_map_half hd fun _ _ ws _ => ws,
    show wsTotal rand' = wsTotal rand from sum_map_half hr fun _ _ ws _ => ws]

theorem ylmSum_half (hd : HalfDisplaced E d data data') (k l : ℕ) (m : ℤ) :
    ylmSum E k l m data' = ylmSum E k l m data :=
  sum_map_half hd fun los _ ws wc => E.ylm l m los * (((ws * wc) ^ k : ℝ) : ℂ)

end

/-! ### Sums over modes -/

/-- Two fields which differ by the phase of a displacement by `d` cells and a half at the modes. -/
def HPhased (n : Fin 3 → ℤ) (d : Fin 3 → ℤ) (f f' : ℤ → ℂ) : Prop :=
  ∀ c ∈ box n, f' (gid n c) = halfPhase n d c * f (gid n c)

theorem HalfField.phased {M : Mesh ℝ} (hM : M.Valid) {d : Fin 3 → ℤ} {F F' : MeshField ℝ}
    (h : HalfField M.n d F F') : HPhased M.n d (fourier M F) (fourier M F') := by
  intro c hc
  rw [fourier_half M (fun a => (hM a).1) d h, cellOf_gid (fun a => (hM a).1) hc]

theorem HPhased.mul_conj {n d : Fin 3 → ℤ} {f f' h h' : ℤ → ℂ} (hf : HPhased n d f f') (hh : HPhased n d h h')
    {c : ℤ × ℤ × ℤ} (hc : c ∈ box n) :
    f' (gid n c) * (starRingEnd ℂ) (h' (gid n c)) = f (gid n c) * (starRingEnd ℂ) (h (gid n c)) := by
  rw [hf c hc, hh c hc, map_mul]
  have := halfPhase_conj n d c
  linear_combination (f (gid n c) * (starRingEnd ℂ) (h (gid n c))) * this

theorem statsFourier_half (E : Two.Env) {d : Fin 3 → ℤ} {f f' h h' : ℤ → ℂ} (hf : HPhased E.mesh.n d f f')
    (hh : HPhased E.mesh.n d h h') (amp : ℂ) (l : ℕ) (m : ℤ) :
    statsFourier E f' h' amp l m = statsFourier E f h amp l m := by
  have e : modes2 E f' h' amp l m = modes2 E f h amp l m := by
    unfold modes2
    apply List.map_congr_left
    intro c hc
    simp only [modePower, hf.mul_conj hh (mem_box.2 (mem_cells.1 hc))]
  unfold statsFourier
  rw [e]

theorem statsConfig_half (E : Two.Env) {d : Fin 3 → ℤ} {f f' h h' : ℤ → ℂ} (hf : HPhased E.mesh.n d f f')
    (hh : HPhased E.mesh.n d h h') (amp : ℂ) (l : ℕ) (m : ℤ) :
    statsConfig E f' h' amp l m = statsConfig E f h amp l m := by
  have e : dft E.mesh.n 1 (twopt3d E f' h' amp) = dft E.mesh.n 1 (twopt3d E f h amp) := by
    funext g
    rw [dft_eq, dft_eq]
    apply Finset.sum_congr rfl
    intro c hc
    simp only [twopt3d, modePower, hf.mul_conj hh hc]
  unfold statsConfig
  rw [e]

/-- The transform of a constant on the mesh vanishes but at the zero mode, where the companion has no phase. -/
theorem halfPhase_const {n : Fin 3 → ℤ} (hn : ∀ a, 2 ≤ n a) (d : Fin 3 → ℤ) {c : ℤ × ℤ × ℤ} (hc : c ∈ box n) :
    halfPhase n d c * ∑ x ∈ box n, phase3 n (-1) c x = ∑ x ∈ box n, phase3 n (-1) c x := by
  rw [sum_phase (fun a => by have := hn a; omega) hc]
  split
  · rename_i h
    subst h
    have : halfPhase n d (0, 0, 0) = 1 := by
      unfold halfPhase ilPhase halfShift
      have k : ∀ a, (0 : ℤ) < n a / 2 := fun a => by have := hn a; omega
      rw [(phase3_zero n _ _).1, if_pos (k 0), if_pos (k 1), if_pos (k 2)]
      simp
    rw [this, one_mul]
  · rw [mul_zero]

theorem fluctuations_half {E : Two.Env} (hi : E.interlace = true) (hM : E.mesh.Valid) (hn : ∀ a, 2 ≤ E.mesh.n a)
    {d : Fin 3 → ℤ} {pos pos' : List (Fin 3 → ℝ)} (h : HalfDisplacedBox E d pos pos') :
    HPhased E.mesh.n d (fourier E.mesh (fluctuations E.sch E.mesh E.interlace pos))
      (fourier E.mesh (fluctuations E.sch E.mesh E.interlace pos')) := by
  have h0 := (counts_half hi hM h).phased hM
  intro c hc
  have hsub : ∀ q : List (Fin 3 → ℝ), fourier E.mesh (fluctuations E.sch E.mesh E.interlace q) (gid E.mesh.n c) =
      fourier E.mesh (assignField E.sch E.mesh E.interlace (unweighted q)) (gid E.mesh.n c) -
        ((q.length : ℝ) / (E.mesh.L 0 * E.mesh.L 1 * E.mesh.L 2) * E.mesh.volCell : ℝ) / 2 *
          ∑ x ∈ box E.mesh.n, phase3 E.mesh.n (-1) c x := by
    intro q
    unfold fourier fluctuations assignField
    simp only [hi, if_true]
    rw [dft_eq, dft_eq, dft_eq, cellOf_gid (fun a => (hM a).1) hc]
    have key : ∀ x ∈ box E.mesh.n, cplx (fun g c => if 0 ≤ g ∧ g < E.mesh.nmesh then
        (if c then assign E.sch E.mesh (unweighted q) g c
          else assign E.sch E.mesh (unweighted q) g c - (q.length : ℝ) / (E.mesh.L 0 * E.mesh.L 1 * E.mesh.L 2))
        else assign E.sch E.mesh (unweighted q) g c) (gid E.mesh.n x) =
        cplx (assign E.sch E.mesh (unweighted q)) (gid E.mesh.n x) -
          (((q.length : ℝ) / (E.mesh.L 0 * E.mesh.L 1 * E.mesh.L 2) : ℝ) : ℂ) := by
      intro x hx
      have r : 0 ≤ gid E.mesh.n x ∧ gid E.mesh.n x < E.mesh.nmesh := gid_range hx
      unfold cplx
      simp only [r, and_self, if_true]
      generalize (q.length : ℝ) / (E.mesh.L 0 * E.mesh.L 1 * E.mesh.L 2) = nb
      apply Complex.ext <;> simp
    rw [Finset.sum_congr rfl fun x hx => by rw [key x hx]]
    simp only [sub_mul, Finset.sum_sub_distrib, ← Finset.mul_sum]
    push_cast
    ring
  rw [hsub, hsub, h0 c hc, h.moved.length_eq]
  have := halfPhase_const hn d hc
  linear_combination (-(((pos'.length : ℝ) / (E.mesh.L 0 * E.mesh.L 1 * E.mesh.L 2) * E.mesh.volCell : ℝ) / 2 : ℂ)) * (-this)

/-! ### Triangles -/

/-- The wavenumber of a mode on an axis, in units of the fundamental. -/
def signed (N i : ℤ) : ℤ := if i < N / 2 then i else i - N

theorem kvec_signed (M : Mesh ℝ) (c : ℤ × ℤ × ℤ) :
    kvec M c 0 = signed (M.n 0) c.1 * (2 * Real.pi / M.L 0) ∧
    kvec M c 1 = signed (M.n 1) c.2.1 * (2 * Real.pi / M.L 1) ∧
    kvec M c 2 = signed (M.n 2) c.2.2 * (2 * Real.pi / M.L 2) := by
  unfold kvec signed
  refine ⟨?_, ?_, ?_⟩ <;> simp only [gridVec] <;> split_ifs <;> rfl

theorem halfShift_signed {n : Fin 3 → ℤ} (hn : ∀ a, 0 < n a) (c : ℤ × ℤ × ℤ) :
    halfShift n c = (signed (n 0) c.1 : ℝ) / n 0 + (signed (n 1) c.2.1 : ℝ) / n 1 + (signed (n 2) c.2.2 : ℝ) / n 2 := by
  have key : ∀ N i : ℤ, 0 < N → (if i < N / 2 then (i : ℝ) / N else (i : ℝ) / N - 1) = (signed N i : ℝ) / N := by
    intro N i hN
    have hN' : (N : ℝ) ≠ 0 := by exact_mod_cast hN.ne'
    unfold signed
    split
    · rfl
    · push_cast
      field_simp
  unfold halfShift
  rw [key _ _ (hn 0), key _ _ (hn 1), key _ _ (hn 2)]

theorem signed_sum {N i j k : ℤ} (hN : 0 < N) (hk : 0 ≤ k ∧ k < N) (hd : N ∣ i + j + k)
    (hs : |signed N i + signed N j| < N / 2) : signed N i + signed N j + signed N k = 0 := by
  have h1 : N ∣ signed N i + signed N j + signed N k := by
    unfold signed
    obtain ⟨m, hm⟩ := hd
    split_ifs
    · exact ⟨m, by omega⟩
    all_goals first
      | exact ⟨m - 1, by rw [mul_sub]; omega⟩
      | exact ⟨m - 2, by rw [mul_sub]; omega⟩
      | exact ⟨m - 3, by rw [mul_sub]; omega⟩
  have h2 : N / 2 - N ≤ signed N k ∧ signed N k < N / 2 := by
    unfold signed
    split_ifs <;> omega
  rw [abs_lt] at hs
  apply Int.eq_zero_of_abs_lt_dvd h1
  rw [abs_lt]
  omega

theorem abs_le_mag (v : Fin 3 → ℝ) (ax : Fin 3) : |v ax| ≤ mag v := by
  unfold mag
  apply Real.abs_le_sqrt
  fin_cases ax <;> simp <;> nlinarith [sq_nonneg (v 0), sq_nonneg (v 1), sq_nonneg (v 2)]

theorem halfPhase_triangle {E : Env3} (hM : E.mesh.Valid) {d : Fin 3 → ℤ} {row col : ℤ} (hb : BelowNyquist E row col)
    {a b c : ℤ × ℤ × ℤ} (ha : mag (kvec E.mesh a) < E.edges.getD (row.toNat + 1) 0)
    (hb' : mag (kvec E.mesh b) < E.edges.getD (col.toNat + 1) 0) (hc : c ∈ box E.mesh.n)
    (h : Closed E.mesh.n a b c) :
    halfPhase E.mesh.n d a * halfPhase E.mesh.n d b * halfPhase E.mesh.n d c = 1 := by
  have hn := fun a => (hM a).1
  have key : ∀ (ax : Fin 3) (i j k : ℤ), 0 ≤ k ∧ k < E.mesh.n ax → E.mesh.n ax ∣ i + j + k →
      kvec E.mesh a ax = signed (E.mesh.n ax) i * (2 * Real.pi / E.mesh.L ax) →
      kvec E.mesh b ax = signed (E.mesh.n ax) j * (2 * Real.pi / E.mesh.L ax) →
      signed (E.mesh.n ax) i + signed (E.mesh.n ax) j + signed (E.mesh.n ax) k = 0 := by
    intro ax i j k hk hd h1 h2
    apply signed_sum (hn ax) hk hd
    have p1 := (abs_le_mag (kvec E.mesh a) ax).trans_lt ha
    have p2 := (abs_le_mag (kvec E.mesh b) ax).trans_lt hb'
    have p3 : |kvec E.mesh a ax + kvec E.mesh b ax| < 2 * Real.pi * ((E.mesh.n ax / 2 : ℤ) : ℝ) / E.mesh.L ax :=
      ((abs_add_le _ _).trans_lt (add_lt_add p1 p2)).trans_le (hb ax)
    have hL := (hM ax).2
    have hq : 0 < 2 * Real.pi / E.mesh.L ax := by positivity
    rw [h1, h2, ← add_mul, abs_mul, abs_of_pos hq] at p3
    have : |(signed (E.mesh.n ax) i : ℝ) + signed (E.mesh.n ax) j| < ((E.mesh.n ax / 2 : ℤ) : ℝ) := by
      apply lt_of_mul_lt_mul_right _ hq.le
      calc _ < _ := p3
        _ = _ := by ring
    exact_mod_cast this
  have hc' := mem_box.1 hc
  have ka := kvec_signed E.mesh a
  have kb := kvec_signed E.mesh b
  have k0 := key 0 _ _ _ hc'.1 h.1 ka.1 kb.1
  have k1 := key 1 _ _ _ hc'.2.1 h.2.1 ka.2.1 kb.2.1
  have k2 := key 2 _ _ _ hc'.2.2 h.2.2 ka.2.2 kb.2.2
  have hil : ilPhase E.mesh.n a * ilPhase E.mesh.n b * ilPhase E.mesh.n c = 1 := by
    unfold ilPhase
    rw [← Complex.exp_add, ← Complex.exp_add, ← mul_add, ← mul_add, ← Complex.ofReal_add, ← Complex.ofReal_add,
      ← mul_add, ← mul_add]
    have : halfShift E.mesh.n a + halfShift E.mesh.n b + halfShift E.mesh.n c = 0 := by
      rw [halfShift_signed hn, halfShift_signed hn, halfShift_signed hn]
      have r0 : (signed (E.mesh.n 0) a.1 : ℝ) + signed (E.mesh.n 0) b.1 + signed (E.mesh.n 0) c.1 = 0 := by exact_mod_cast k0
      have r1 : (signed (E.mesh.n 1) a.2.1 : ℝ) + signed (E.mesh.n 1) b.2.1 + signed (E.mesh.n 1) c.2.1 = 0 := by
        exact_mod_cast k1
      have r2 : (signed (E.mesh.n 2) a.2.2 : ℝ) + signed (E.mesh.n 2) b.2.2 + signed (E.mesh.n 2) c.2.2 = 0 := by
        exact_mod_cast k2
      linear_combination r0 / (E.mesh.n 0 : ℝ) + r1 / (E.mesh.n 1 : ℝ) + r2 / (E.mesh.n 2 : ℝ)
    rw [this]
    simp
  have hcl := phase_closed hn h (d 0, d 1, d 2)
  have hil' := congrArg (starRingEnd ℂ) hil
  rw [map_mul, map_mul, map_one] at hil'
  unfold halfPhase
  calc _ = (phase3 E.mesh.n (-1) a (d 0, d 1, d 2) * phase3 E.mesh.n (-1) b (d 0, d 1, d 2) *
        phase3 E.mesh.n (-1) c (d 0, d 1, d 2)) *
      ((starRingEnd ℂ) (ilPhase E.mesh.n a) * (starRingEnd ℂ) (ilPhase E.mesh.n b) *
        (starRingEnd ℂ) (ilPhase E.mesh.n c)) := by ring
    _ = 1 := by rw [hcl, hil', one_mul]

theorem comp_half (E : Env3) {d : Fin 3 → ℤ} {f f' : ℤ → ℂ}
    (hf : HPhased E.mesh.n d f f') {c : ℤ × ℤ × ℤ} (hc : c ∈ box E.mesh.n) :
    comp E f' c = halfPhase E.mesh.n d c * comp E f c := by
  unfold comp
  rw [hf c hc, mul_div_assoc]

open Classical in
theorem triangleMean_half (E : Env3) (hM : E.mesh.Valid) {d : Fin 3 → ℤ} {f f' h h' : ℤ → ℂ}
    (hf : HPhased E.mesh.n d f f') (hh : HPhased E.mesh.n d h h') (t : Triplet) (row col : ℤ)
    (hb : BelowNyquist E row col) :
    triangleMean E (comp E f') (comp E h') t row col = triangleMean E (comp E f) (comp E h) t row col := by
  unfold triangleMean
  congr 1
  apply Finset.sum_congr rfl
  intro a ha
  apply Finset.sum_congr rfl
  intro b hb'
  apply Finset.sum_congr rfl
  intro c hc
  rw [Finset.mem_filter, allModes_eq] at hc
  have ma := (mem_binModes E row a).1 ha
  have mb := (mem_binModes E col b).1 hb'
  rw [comp_half E hf ma.1, comp_half E hf mb.1, comp_half E hh hc.1]
  have := halfPhase_triangle hM (d := d) hb ma.2.2 mb.2.2 hc.1 hc.2
  linear_combination (E.ylm E.ell1 t.m1 (kvec E.mesh a) * E.ylm E.ell2 t.m2 (kvec E.mesh b) *
    (comp E f a * comp E f b * comp E h c)) * this

/-! ### Shot noise of three-point measurements -/

/-- The fields of the shot noise of catalogues displaced by `d` cells and a half. -/
structure HalfNoise (n d : Fin 3 → ℤ) (F F' : NoiseFields) : Prop where
  f : HPhased n d F.f F'.f
  fLM : ∀ M, HPhased n d (F.fLM M) (F'.fLM M)
  q : HPhased n d F.q F'.q
  qLM : ∀ M, HPhased n d (F.qLM M) (F'.qLM M)
  s : F'.s = F.s

theorem corr_half (E : Two.Env) {d : Fin 3 → ℤ} {f f' h h' : ℤ → ℂ} (hf : HPhased E.mesh.n d f f')
    (hh : HPhased E.mesh.n d h h') (amp : ℂ) (c : ℤ × ℤ × ℤ) : corr E f' h' amp c = corr E f h amp c := by
  unfold corr
  congr 1
  apply Finset.sum_congr rfl
  intro x hx
  rw [allModes_eq] at hx
  rw [hf.mul_conj hh hx]

theorem pairNoise_half (E : Env3) {d : Fin 3 → ℤ} {f f' h h' : ℤ → ℂ} (hf : HPhased E.mesh.n d f f')
    (hh : HPhased E.mesh.n d h h') (amp : ℂ) (l : ℕ) (m b : ℤ) :
    pairNoise E f' h' amp l m b = pairNoise E f h amp l m b := by
  unfold pairNoise meanOver
  congr 1
  apply Finset.sum_congr rfl
  intro x hx
  have hx' : x ∈ box E.mesh.n := by
    unfold modesIn at hx
    exact (Finset.mem_filter.1 hx).1
  unfold power
  simp only
  rw [hf.mul_conj hh hx']

theorem noiseAt_half (E : Env3) {d : Fin 3 → ℤ} {F F' : NoiseFields} (h : HalfNoise E.mesh.n d F F')
    (t : Triplet) (row col : ℤ) : noiseAt E F' t row col = noiseAt E F t row col := by
  unfold noiseAt sepNoise
  simp only [h.s, pairNoise_half E h.f (h.qLM t.M), corr_half E.toEnv (h.fLM t.M) h.q]

theorem selfSum_half (E : Env3) {d : Fin 3 → ℤ} {F F' : NoiseFields} (h : HalfNoise E.mesh.n d F F')
    (ts : List Triplet) (b : ℤ) : selfSum E ts F'.fLM F'.q F'.s b = selfSum E ts F.fLM F.q F.s b := by
  unfold selfSum selfPairs
  simp only [h.s, corr_half E.toEnv (h.fLM _) h.q]

theorem survey_half (E : Env3) (hi : E.interlace = true) (hM : E.mesh.Valid) {d : Fin 3 → ℤ}
    {data data' rand rand' : List Part} (hd : HalfDisplaced E.toEnv d data data')
    (hr : HalfDisplaced E.toEnv d rand rand') :
    HalfNoise E.mesh.n d (surveyNoise E data rand) (surveyNoise E data' rand') := by
  have ha := alpha_half hd hr
  unfold surveyNoise
  rw [ha]
  refine ⟨?_, ?_, ?_, ?_, ?_⟩
  · exact (dnField_half (E := E.toEnv) hi hM hd hr _ 0 0).phased hM
  · exact fun M => (dnField_half (E := E.toEnv) hi hM hd hr _ E.ELL M).phased hM
  · exact (quadField_half (E := E.toEnv) hi hM hd hr _ 0 0).phased hM
  · exact fun M => (quadField_half (E := E.toEnv) hi hM hd hr _ E.ELL M).phased hM
  · funext M
    simp only
    unfold shotAmp3
    rw [ylmSum_half hd, ylmSum_half hr]

theorem box_half (E : Env3) (hi : E.interlace = true) (hM : E.mesh.Valid) (hn : ∀ a, 2 ≤ E.mesh.n a) {d : Fin 3 → ℤ}
    {pos pos' : List (Fin 3 → ℝ)} (h : HalfDisplacedBox E.toEnv d pos pos') :
    HalfNoise E.mesh.n d (boxNoise E pos) (boxNoise E pos') := by
  have hf := fluctuations_half (E := E.toEnv) hi hM hn h
  have hq := (counts_half (E := E.toEnv) hi hM h).phased hM
  refine ⟨hf, fun _ => hf, hq, fun _ => hq, ?_⟩
  unfold boxNoise
  simp only [h.moved.length_eq]

end Trv.Zeta

import Verif.Lemmas.FourierMesh
/-
Property theorems on Fourier transforms of mesh fields: C90-C93.
-/
namespace Trv.Two
open Trv.Mesh Trv.Stats Trv.Win

/-! ### C90 -/

/-- **C90.** Without interlacing the inverse transform of the transform restores every cell, on
every mesh. -/
theorem C90_roundtrip (M : Mesh ℝ) (hM : M.Valid) (f : Grid ℝ) (g : ℤ) (h0 : 0 ≤ g)
    (h1 : g < M.nmesh) : invFourier M (fourier M ⟨f, none⟩) g = ⟨f g false, f g true⟩ := by
  have hn := fun a => (hM a).1
  have hV : (vol M : ℂ) ≠ 0 := by
    have := mul_pos (mul_pos (hM 0).2 (hM 1).2) (hM 2).2
    exact_mod_cast this.ne'
  have hN : ((M.n 0 * M.n 1 * M.n 2 : ℤ) : ℂ) ≠ 0 := by
    have := mul_pos (mul_pos (hn 0) (hn 1)) (hn 2)
    exact_mod_cast this.ne'
  have hv : (M.volCell : ℂ) = (vol M : ℂ) / ((M.n 0 * M.n 1 * M.n 2 : ℤ) : ℂ) := by
    unfold Mesh.volCell vol Mesh.nmesh
    push_cast
    rfl
  unfold invFourier fourier
  simp only
  have e : (fun g => dft M.n (-1) (fun g => cplx f g * (M.volCell : ℂ)) g / (vol M : ℂ)) =
      fun g => dft M.n (-1) (fun g => cplx f g * ((M.n 0 * M.n 1 * M.n 2 : ℤ) : ℂ)⁻¹) g := by
    funext g
    rw [dft_eq, dft_eq, Finset.sum_div]
    apply Finset.sum_congr rfl
    intro x _
    rw [hv]
    field_simp
  rw [e]
  have := dft_dft hn (s := -1) (Or.inr rfl)
    (fun g => cplx f g * ((M.n 0 * M.n 1 * M.n 2 : ℤ) : ℂ)⁻¹) h0 h1
  rw [neg_neg] at this
  rw [this, mul_comm (cplx f g), ← mul_assoc, mul_inv_cancel₀ hN, one_mul]
  rfl

/-- A valid mesh with an odd and an even number of cells. -/
noncomputable def exM : Mesh ℝ := ⟨fun a => if a = 0 then 3 else 4, fun _ => 2⟩

theorem exM_valid : exM.Valid := by
  intro a
  unfold exM
  constructor
  · simp only; split_ifs <;> norm_num
  · norm_num

/-- A case: a field with one cell. -/
example : invFourier exM (fourier exM ⟨fun g c => if g = 17 ∧ c then 5 else 0, none⟩) 17 = ⟨0, 5⟩ := by
  rw [C90_roundtrip exM exM_valid _ 17 (by norm_num)
    (by unfold exM Mesh.nmesh; simp only [show (1 : Fin 3) ≠ 0 by decide, show (2 : Fin 3) ≠ 0 by decide, if_true, if_false]; norm_num)]
  simp

/-! ### C91 -/

/-- **C91.** Parseval's identity, on every mesh. -/
theorem C91_parseval (M : Mesh ℝ) (hM : M.Valid) (f : Grid ℝ) :
    ((gids M).map fun g => Complex.normSq (fourier M ⟨f, none⟩ g)).sum / vol M =
      ((gids M).map fun g => f g false ^ 2 + f g true ^ 2).sum * M.volCell := by
  have hn := fun a => (hM a).1
  have hV : vol M ≠ 0 := (mul_pos (mul_pos (hM 0).2 (hM 1).2) (hM 2).2).ne'
  have hN : ((M.n 0 * M.n 1 * M.n 2 : ℤ) : ℝ) ≠ 0 := by
    have := mul_pos (mul_pos (hn 0) (hn 1)) (hn 2)
    exact_mod_cast this.ne'
  rw [gids_sum M hn, gids_sum M hn]
  have h := dft_parseval hn (s := -1) (Or.inr rfl) (fun g => cplx f g * (M.volCell : ℂ))
    (fun g => cplx f g * (M.volCell : ℂ))
  simp only [Complex.mul_conj] at h
  have h' : ∑ c ∈ box M.n, Complex.normSq (fourier M ⟨f, none⟩ (gid M.n c)) =
      ((M.n 0 * M.n 1 * M.n 2 : ℤ) : ℝ) *
        ∑ y ∈ box M.n, Complex.normSq (cplx f (gid M.n y) * (M.volCell : ℂ)) := by
    unfold fourier
    simp only
    exact_mod_cast h
  rw [h', Finset.mul_sum, Finset.sum_div, Finset.sum_mul]
  apply Finset.sum_congr rfl
  intro y _
  rw [Complex.normSq_mul, Complex.normSq_ofReal, Complex.normSq_apply]
  have hv : M.volCell = vol M / ((M.n 0 * M.n 1 * M.n 2 : ℤ) : ℝ) := rfl
  have hc : ((M.n 0 * M.n 1 * M.n 2 : ℤ) : ℝ) * M.volCell = vol M := by
    rw [hv]; field_simp
  show _ * ((f _ false * f _ false + f _ true * f _ true) * _) / _ = _
  generalize f (gid M.n y) false = a
  generalize f (gid M.n y) true = b
  generalize ((M.n 0 * M.n 1 * M.n 2 : ℤ) : ℝ) = N at *
  rw [← hc] at hV ⊢
  have := left_ne_zero_of_mul hV
  have := right_ne_zero_of_mul hV
  field_simp

/-- A case: the right-hand side for a field of ones is the volume. -/
example : ((gids exM).map fun g => ((fun _ c => if c then 0 else 1 : Grid ℝ) g false) ^ 2 +
    ((fun _ c => if c then 0 else 1 : Grid ℝ) g true) ^ 2).sum * exM.volCell = 8 := by
  unfold gids exM Mesh.volCell Mesh.nmesh
  simp [Function.comp_def]
  norm_num

/-! ### C92 -/

theorem fourier_none (M : Mesh ℝ) (f : Grid ℝ) :
    fourier M ⟨f, none⟩ = dft M.n (-1) fun g => cplx f g * (M.volCell : ℂ) := rfl

theorem real_cells {M : Mesh ℝ} {f : Grid ℝ} (hf : IsReal M f) :
    ∀ x ∈ box M.n, (cplx f (gid M.n x) * (M.volCell : ℂ)).im = 0 := by
  intro x hx
  have := hf _ (gid_range hx).1 (gid_range hx).2
  rw [Complex.mul_im, Complex.ofReal_im, Complex.ofReal_re, mul_zero, zero_add]
  show f _ true * _ = 0
  rw [this, zero_mul]

/-- **C92.** The transform of a real field is Hermitian, on every mesh, at every mode. -/
theorem C92_hermitian (M : Mesh ℝ) (hM : M.Valid) (f : Grid ℝ) (hf : IsReal M f) (c : ℤ × ℤ × ℤ)
    (hc : c ∈ cells M.n) :
    fourier M ⟨f, none⟩ (gid M.n (mirrorCell M.n c)) =
      (starRingEnd ℂ) (fourier M ⟨f, none⟩ (gid M.n c)) := by
  have hc' : c ∈ box M.n := mem_box.2 (mem_cells.1 hc)
  rw [fourier_none]
  exact dft_mirror (fun a => (hM a).1) _ _ (real_cells hf) hc'

/-- **C92 (interlacing, part).** With interlacing the transform of a real field is Hermitian on
meshes of even sides away from the Nyquist planes. -/
theorem C92_interlaced_partial (M : Mesh ℝ) (hM : M.Valid) (he : ∀ a, 2 ∣ M.n a) (f s : Grid ℝ)
    (hf : IsReal M f) (hs : IsReal M s) (c : ℤ × ℤ × ℤ) (hc : c ∈ cells M.n)
    (h0 : 2 * c.1 ≠ M.n 0) (h1 : 2 * c.2.1 ≠ M.n 1) (h2 : 2 * c.2.2 ≠ M.n 2) :
    fourier M ⟨f, some s⟩ (gid M.n (mirrorCell M.n c)) =
      (starRingEnd ℂ) (fourier M ⟨f, some s⟩ (gid M.n c)) := by
  have hn := fun a => (hM a).1
  have hc' : c ∈ box M.n := mem_box.2 (mem_cells.1 hc)
  unfold fourier
  simp only
  rw [dft_mirror hn _ _ (real_cells hf) hc', dft_mirror hn _ _ (real_cells hs) hc',
    cellOf_gid hn (mirror_mem hn c), cellOf_gid hn hc', map_div₀, map_add, map_mul,
    ← Complex.exp_conj, map_mul, Complex.conj_I, Complex.conj_ofReal]
  have hh : halfShift M.n (mirrorCell M.n c) = -halfShift M.n c := by
    have key : ∀ {N i : ℤ}, 0 < N → 2 ∣ N → 0 ≤ i → i < N → 2 * i ≠ N →
        (if -i % N < N / 2 then ((-i % N : ℤ) : ℝ) / N else ((-i % N : ℤ) : ℝ) / N - 1) =
          -(if i < N / 2 then (i : ℝ) / N else (i : ℝ) / N - 1) := by
      intro N i hN hN2 hi hi' hne
      have hNR : (N : ℝ) ≠ 0 := by exact_mod_cast hN.ne'
      by_cases hz : i = 0
      · subst hz
        have : (0 : ℤ) < N / 2 := by omega
        simp [this]
      · have hm : -i % N = N - i := by
          rw [← Int.add_emod_right, Int.emod_eq_of_lt] <;> omega
        rw [hm]
        by_cases hlt : i < N / 2
        · rw [if_pos hlt, if_neg (by omega)]
          push_cast
          field_simp
          ring
        · rw [if_neg hlt, if_pos (by omega)]
          push_cast
          field_simp
          ring
    obtain ⟨⟨a, a'⟩, ⟨b, b'⟩, k, k'⟩ := mem_box.1 hc'
    unfold halfShift mirrorCell
    simp only
    rw [key (hn 0) (he 0) a a' h0, key (hn 1) (he 1) b b' h1, key (hn 2) (he 2) k k' h2]
    ring
  rw [hh]
  have : (Complex.I : ℂ) * ((Real.pi * -halfShift M.n c : ℝ) : ℂ) =
      -Complex.I * ((Real.pi * halfShift M.n c : ℝ) : ℂ) := by push_cast; ring
  rw [this, map_ofNat]

/-- **C92 (interlacing, violated).** At the Nyquist mode of the first axis, which is its own mirror
image, the transform of a real field with interlacing is its own conjugate only if the companion
has no contribution. -/
theorem C92_interlaced_violated (M : Mesh ℝ) (hM : M.Valid) (he : 2 ∣ M.n 0) (hn1 : 1 < M.n 1)
    (hn2 : 1 < M.n 2) (f s : Grid ℝ)
    (hf : IsReal M f) (hs : IsReal M s) :
    mirrorCell M.n (M.n 0 / 2, 0, 0) = (M.n 0 / 2, 0, 0) ∧
    (fourier M ⟨f, some s⟩ (gid M.n (M.n 0 / 2, 0, 0)) =
      (starRingEnd ℂ) (fourier M ⟨f, some s⟩ (gid M.n (M.n 0 / 2, 0, 0))) ↔
        fourier M ⟨s, none⟩ (gid M.n (M.n 0 / 2, 0, 0)) = 0) := by
  have hn := fun a => (hM a).1
  have hn0 := hn 0
  have hmir : mirrorCell M.n (M.n 0 / 2, 0, 0) = (M.n 0 / 2, 0, 0) := by
    unfold mirrorCell
    simp only [neg_zero, Int.zero_emod]
    have : -(M.n 0 / 2) % M.n 0 = M.n 0 / 2 := by
      rw [← Int.add_emod_right, Int.emod_eq_of_lt] <;> omega
    rw [this]
  have hc : ((M.n 0 / 2, 0, 0) : ℤ × ℤ × ℤ) ∈ box M.n := by
    rw [← hmir]; exact mirror_mem hn _
  refine ⟨hmir, ?_⟩
  have ha := dft_mirror hn (-1) (fun g => cplx f g * (M.volCell : ℂ)) (real_cells hf) hc
  have hb := dft_mirror hn (-1) (fun g => cplx s g * (M.volCell : ℂ)) (real_cells hs) hc
  rw [hmir] at ha hb
  rw [fourier_none]
  unfold fourier
  simp only
  rw [cellOf_gid hn hc]
  have hh : halfShift M.n (M.n 0 / 2, 0, 0) = -(1 / 2) := by
    unfold halfShift
    simp only
    rw [if_neg (lt_irrefl _), if_pos (by omega), if_pos (by omega)]
    obtain ⟨k, hk⟩ := he
    rw [hk]
    rw [Int.mul_ediv_cancel_left _ (by norm_num)]
    have : (k : ℝ) ≠ 0 := by
      intro h
      have : k = 0 := by exact_mod_cast h
      omega
    push_cast
    field_simp
    ring
  have hexp : Complex.exp (Complex.I * ((Real.pi * -(1 / 2) : ℝ) : ℂ)) = -Complex.I := by
    have : Complex.I * ((Real.pi * -(1 / 2) : ℝ) : ℂ) = -(Real.pi / 2 * Complex.I) := by
      push_cast; ring
    rw [this, Complex.exp_neg, Complex.exp_pi_div_two_mul_I]
    exact Complex.inv_I
  rw [hh, hexp]
  generalize dft M.n (-1) (fun g => cplx f g * (M.volCell : ℂ)) (gid M.n (M.n 0 / 2, 0, 0)) = a at *
  generalize dft M.n (-1) (fun g => cplx s g * (M.volCell : ℂ)) (gid M.n (M.n 0 / 2, 0, 0)) = b at *
  rw [map_div₀, map_add, map_mul, map_neg, Complex.conj_I, ← ha, ← hb, map_ofNat]
  constructor
  · intro h
    have h2 : (2 * Complex.I) * b = 0 := by linear_combination (-2) * h
    rcases mul_eq_zero.1 h2 with h3 | h3
    · exact absurd h3 (by simp)
    · exact h3
  · rintro rfl; simp

/-- A case: on every mesh a companion with a single cell has a contribution at every mode. -/
example (M : Mesh ℝ) (hM : M.Valid) (g : ℤ) : IsReal M (fun g c => if g = 0 ∧ c = false then 1 else 0) ∧
    fourier M ⟨fun g c => if g = 0 ∧ c = false then 1 else 0, none⟩ g ≠ 0 := by
  have hn := fun a => (hM a).1
  constructor
  · intro g _ _; simp
  · have h0 : ((0, 0, 0) : ℤ × ℤ × ℤ) ∈ box M.n :=
      mem_box.2 ⟨⟨le_refl _, hn 0⟩, ⟨le_refl _, hn 1⟩, le_refl _, hn 2⟩
    have hg : ∀ x ∈ box M.n, gid M.n x = 0 → x = (0, 0, 0) := by
      intro x hx h
      have := cellOf_gid hn hx
      rw [h] at this
      rw [← this]
      unfold cellOf; simp
    rw [fourier_none, dft_eq, Finset.sum_eq_single_of_mem (0, 0, 0) h0]
    · have e : gid M.n (0, 0, 0) = 0 := by unfold gid gridIndex; simp
      have hp : phase3 M.n (-1) (cellOf M.n g) (0, 0, 0) = 1 := by
        rw [phase3_eq]; simp [root_zero]
      rw [e, hp, mul_one]
      have : cplx (fun g c => if g = 0 ∧ c = false then 1 else 0) 0 = 1 := by
        apply Complex.ext <;> simp [cplx]
      rw [this, one_mul]
      exact_mod_cast (volCell_pos M hM).ne'
    · intro x hx hne
      have : cplx (fun g c => if g = 0 ∧ c = false then 1 else 0) (gid M.n x) = 0 := by
        have h1 : gid M.n x ≠ 0 := fun h => hne (hg x hx h)
        apply Complex.ext <;> simp [cplx, h1]
      rw [this, zero_mul, zero_mul]

/-! ### C93 -/

theorem unweighted_inBox {M : Mesh ℝ} {pos : List (Fin 3 → ℝ)} (h : ∀ x ∈ pos, PosInBox M x) :
    ∀ p ∈ unweighted pos, InBox M p := by
  intro p hp
  obtain ⟨x, hx, rfl⟩ := List.mem_map.1 hp
  exact h x hx

theorem unweighted_moved {M : Mesh ℝ} {d : Fin 3 → ℤ} {pos pos' : List (Fin 3 → ℝ)}
    (h : List.Forall₂ (Moved M d) pos pos') :
    List.Forall₂ (fun p p' : Particle ℝ => p'.w = p.w ∧ ∀ ax, ∃ m : ℤ,
      p'.pos ax = p.pos ax + d ax * (M.L ax / M.n ax) + m * M.L ax)
      (unweighted pos) (unweighted pos') := by
  unfold unweighted
  induction h with
  | nil => exact List.Forall₂.nil
  | cons a _ ih => exact List.Forall₂.cons ⟨rfl, a⟩ ih

/-- The transform of the moved particles differs by a phase. -/
theorem fourier_moved (sch : Scheme) (M : Mesh ℝ) (hM : M.Valid) (il : Bool) (d : Fin 3 → ℤ)
    (pos pos' : List (Fin 3 → ℝ)) (hp : ∀ x ∈ pos, PosInBox M x) (hp' : ∀ x ∈ pos', PosInBox M x)
    (hm : List.Forall₂ (Moved M d) pos pos')
    (hgood : il = true → ∀ x ∈ pos ++ pos', ∀ ax, ¬ BadShift sch (M.n ax) (M.L ax) (x ax)) (g : ℤ) :
    fourier M (fluctuations sch M il pos') g =
      phase3 M.n (-1) (cellOf M.n g) (d 0, d 1, d 2) * fourier M (fluctuations sch M il pos) g := by
  have hn := fun a => (hM a).1
  have hlen : pos'.length = pos.length := hm.length_eq.symm
  have hmain : ∀ x ∈ box M.n,
      cplx (fluctuations sch M il pos').field (gid M.n (moveCell M.n d x)) * (M.volCell : ℂ) =
        cplx (fluctuations sch M il pos).field (gid M.n x) * (M.volCell : ℂ) := by
    intro x hx
    have h8 := C08_translation_equivariant sch M hM _ _ d (unweighted_inBox hp)
      (unweighted_inBox hp') (unweighted_moved hm) x.1 x.2.1 x.2.2 (mem_box.1 hx)
    have r1 := gid_range (move_mem hn d x)
    have r2 := gid_range hx
    congr 1
    unfold cplx fluctuations assignField
    simp only
    rw [hlen]
    have r1' : 0 ≤ gid M.n (moveCell M.n d x) ∧ gid M.n (moveCell M.n d x) < M.nmesh := r1
    have r2' : 0 ≤ gid M.n x ∧ gid M.n x < M.nmesh := r2
    have h8' : ∀ c, assign sch M (unweighted pos') (gid M.n (moveCell M.n d x)) c =
        assign sch M (unweighted pos) (gid M.n x) c := h8
    simp only [r1', r2', h8', and_self, if_true]
  cases il with
  | false =>
    unfold fourier
    show dft M.n (-1) _ g = _ * dft M.n (-1) _ g
    exact dft_move hn d (-1) _ _ hmain g
  | true =>
    have hg := hgood rfl
    have hcomp : ∀ x ∈ box M.n,
        cplx (assignShifted sch M (unweighted pos')) (gid M.n (moveCell M.n d x)) *
          (M.volCell : ℂ) = cplx (assignShifted sch M (unweighted pos)) (gid M.n x) *
          (M.volCell : ℂ) := by
      intro x hx
      have h8 := assignShifted_move sch M hM _ _ d (unweighted_inBox hp)
        (unweighted_inBox hp')
        (fun p hpp => by
          obtain ⟨y, hy, rfl⟩ := List.mem_map.1 hpp
          exact hg y (List.mem_append_left _ hy))
        (fun p hpp => by
          obtain ⟨y, hy, rfl⟩ := List.mem_map.1 hpp
          exact hg y (List.mem_append_right _ hy))
        (unweighted_moved hm) x.1 x.2.1 x.2.2 (mem_box.1 hx)
      have h8' : ∀ c, assignShifted sch M (unweighted pos') (gid M.n (moveCell M.n d x)) c =
          assignShifted sch M (unweighted pos) (gid M.n x) c := h8
      unfold cplx
      rw [h8', h8']
    unfold fourier
    show (dft M.n (-1) _ g + _ * dft M.n (-1) _ g) / 2 =
      _ * ((dft M.n (-1) _ g + _ * dft M.n (-1) _ g) / 2)
    have e1 := dft_move hn d (-1)
      (fun g => cplx (fluctuations sch M true pos).field g * (M.volCell : ℂ))
      (fun g => cplx (fluctuations sch M true pos').field g * (M.volCell : ℂ)) hmain g
    have e2 := dft_move hn d (-1)
      (fun g => cplx (assignShifted sch M (unweighted pos)) g * (M.volCell : ℂ))
      (fun g => cplx (assignShifted sch M (unweighted pos')) g * (M.volCell : ℂ)) hcomp g
    rw [show (dft M.n (-1) (fun g => cplx (assignShifted sch M (unweighted pos')) g *
      (M.volCell : ℂ)) g) = _ from e2, e1]
    ring

theorem modePower_phase (p a : ℂ) (hp : p * (starRingEnd ℂ) p = 1) (w : ℝ) (y : ℂ) :
    modePower (p * a) (p * a) w y = modePower a a w y := by
  unfold modePower
  rw [map_mul]
  have : p * a * ((starRingEnd ℂ) p * (starRingEnd ℂ) a) =
      p * (starRingEnd ℂ) p * (a * (starRingEnd ℂ) a) := by ring
  rw [this, hp, one_mul]

/-- **C93 (with interlacing: part).** Moving all particles in the box by the same whole number of
cells on each axis, with periodic wrapping, leaves the power spectrum and the correlation function
unchanged, for every scheme, mesh and multipole; with interlacing, if no particle is in the region
in which the companion field is faulty (`C07`). -/
theorem C93_translation_partial (E : Env) (hM : E.mesh.Valid) (d : Fin 3 → ℤ)
    (pos pos' : List (Fin 3 → ℝ)) (hp : ∀ x ∈ pos, PosInBox E.mesh x)
    (hp' : ∀ x ∈ pos', PosInBox E.mesh x) (hm : List.Forall₂ (Moved E.mesh d) pos pos')
    (hgood : E.interlace = true → ∀ x ∈ pos ++ pos', ∀ ax,
      ¬ BadShift E.sch (E.mesh.n ax) (E.mesh.L ax) (x ax)) (norm : ℝ) :
    computePowspecBox E pos' norm = computePowspecBox E pos norm ∧
    computeCorrfuncBox E pos' norm = computeCorrfuncBox E pos norm := by
  have hF := fourier_moved E.sch E.mesh hM E.interlace d pos pos' hp hp' hm hgood
  have hl : (pos'.length : ℂ) = (pos.length : ℂ) := by rw [hm.length_eq]
  constructor
  · unfold computePowspecBox
    simp only
    have : ∀ amp, statsFourier E (fourier E.mesh (fluctuations E.sch E.mesh E.interlace pos'))
        (fourier E.mesh (fluctuations E.sch E.mesh E.interlace pos')) amp E.ELL 0 =
        statsFourier E (fourier E.mesh (fluctuations E.sch E.mesh E.interlace pos))
        (fourier E.mesh (fluctuations E.sch E.mesh E.interlace pos)) amp E.ELL 0 := by
      intro amp
      unfold statsFourier modes2
      congr 1
      apply List.map_congr_left
      intro c _
      simp only
      rw [hF, modePower_phase _ _ (phase3_mul_conj _ _ _ _)]
    rw [this, hl]
  · unfold computeCorrfuncBox
    simp only
    have : ∀ amp, statsConfig E (fourier E.mesh (fluctuations E.sch E.mesh E.interlace pos'))
        (fourier E.mesh (fluctuations E.sch E.mesh E.interlace pos')) amp E.ELL 0 =
        statsConfig E (fourier E.mesh (fluctuations E.sch E.mesh E.interlace pos))
        (fourier E.mesh (fluctuations E.sch E.mesh E.interlace pos)) amp E.ELL 0 := by
      intro amp
      unfold statsConfig
      have e : twopt3d E (fourier E.mesh (fluctuations E.sch E.mesh E.interlace pos'))
          (fourier E.mesh (fluctuations E.sch E.mesh E.interlace pos')) amp =
          twopt3d E (fourier E.mesh (fluctuations E.sch E.mesh E.interlace pos))
          (fourier E.mesh (fluctuations E.sch E.mesh E.interlace pos)) amp := by
        funext g
        unfold twopt3d
        simp only
        rw [hF, modePower_phase _ _ (phase3_mul_conj _ _ _ _)]
      rw [e]
    rw [this, hl]

/-- **C93 (without interlacing).** The power spectrum and the correlation function in a periodic box
are unchanged under translations by whole cells. -/
theorem C93_translation (E : Env) (hM : E.mesh.Valid) (hi : E.interlace = false) (d : Fin 3 → ℤ)
    (pos pos' : List (Fin 3 → ℝ)) (hp : ∀ x ∈ pos, PosInBox E.mesh x)
    (hp' : ∀ x ∈ pos', PosInBox E.mesh x) (hm : List.Forall₂ (Moved E.mesh d) pos pos') (norm : ℝ) :
    computePowspecBox E pos' norm = computePowspecBox E pos norm ∧
    computeCorrfuncBox E pos' norm = computeCorrfuncBox E pos norm :=
  C93_translation_partial E hM d pos pos' hp hp' hm (fun h => by rw [hi] at h; cases h) norm

/-- A case: a particle moved across the boundary of the box. -/
example : PosInBox exM (fun _ => 7 / 4) ∧ PosInBox exM (fun a => if a = 0 then 5 / 12 else 1 / 4) ∧
    Moved exM (fun _ => 1) (fun _ => 7 / 4) (fun a => if a = 0 then 5 / 12 else 1 / 4) := by
  refine ⟨fun _ => by unfold exM; norm_num, fun a => ?_, fun a => ⟨-1, ?_⟩⟩
  · unfold exM
    simp only
    split_ifs <;> norm_num
  · unfold exM
    simp only
    split_ifs <;> norm_num

/-! #### Interlacing -/

theorem gids_total (M : Mesh ℝ) (f : Grid ℝ) (c : Bool) :
    ((gids M).map fun g => f g c).sum = gridTotal M f c := by
  unfold gids gridTotal
  rw [List.map_map]
  rfl

/-- The sum over cells is the transform at the zero mode. -/
theorem dft_zero_mode {M : Mesh ℝ} (hM : M.Valid) (f : Grid ℝ) :
    dft M.n (-1) (fun g => cplx f g * (M.volCell : ℂ)) 0 =
      (⟨gridTotal M f false * M.volCell, gridTotal M f true * M.volCell⟩ : ℂ) := by
  have hn := fun a => (hM a).1
  rw [dft_eq]
  have hc : cellOf M.n 0 = (0, 0, 0) := by unfold cellOf; simp
  have hp : ∀ x, phase3 M.n (-1) (0, 0, 0) x = 1 := by
    intro x; rw [phase3_eq]; simp [root_zero]
  rw [hc]
  simp only [hp, mul_one]
  rw [← gids_sum M hn (fun g => cplx f g * (M.volCell : ℂ)), ← gids_total, ← gids_total]
  induction gids M with
  | nil => apply Complex.ext <;> simp
  | cons a l ih =>
    rw [List.map_cons, List.sum_cons, ih]
    apply Complex.ext
    · simp only [List.map_cons, List.sum_cons, Complex.add_re, Complex.mul_re, Complex.ofReal_re,
        Complex.ofReal_im, mul_zero, sub_zero, cplx]
      ring
    · simp only [List.map_cons, List.sum_cons, Complex.add_im, Complex.mul_im, Complex.ofReal_re,
        Complex.ofReal_im, mul_zero, zero_add, cplx]
      ring

/-- The zero mode of the transform in a box with interlacing: half the total weight of the
companion field, whose mean is not subtracted. -/
theorem zero_mode_interlaced (sch : Scheme) (M : Mesh ℝ) (hM : M.Valid) (hn2 : ∀ a, 2 ≤ M.n a)
    (pos : List (Fin 3 → ℝ)) (hp : ∀ x ∈ pos, PosInBox M x) :
    fourier M (fluctuations sch M true pos) 0 =
      (⟨gridTotal M (assignShifted sch M (unweighted pos)) false * M.volCell / 2,
        gridTotal M (assignShifted sch M (unweighted pos)) true * M.volCell / 2⟩ : ℂ) := by
  have h13 := C13_zero_mean_partial sch M hM true pos hp
  have hc : cellOf M.n 0 = (0, 0, 0) := by unfold cellOf; simp
  have hh : halfShift M.n (0, 0, 0) = 0 := by
    have h0 := hn2 0
    have h1 := hn2 1
    have h2 := hn2 2
    unfold halfShift
    simp only
    rw [if_pos (by omega), if_pos (by omega), if_pos (by omega)]
    simp
  unfold fourier
  show (dft M.n (-1) (fun g => cplx (fluctuations sch M true pos).field g * (M.volCell : ℂ)) 0 +
    Complex.exp (Complex.I * (Real.pi * halfShift M.n (cellOf M.n 0) : ℝ)) *
      dft M.n (-1) (fun g => cplx (assignShifted sch M (unweighted pos)) g * (M.volCell : ℂ)) 0) / 2
    = _
  rw [dft_zero_mode hM, dft_zero_mode hM, h13, h13, hc, hh]
  simp only [mul_zero, zero_mul, Complex.ofReal_zero, Complex.exp_zero, one_mul]
  apply Complex.ext
  · rw [Complex.div_ofNat_re]; simp
  · rw [Complex.div_ofNat_im]; simp

/-- The configuration of the counterexample: two cells of unit size on each axis, nearest grid point
assignment, one bin which holds the zero mode only. -/
noncomputable def exE : Env where
  mesh := ⟨fun _ => 2, fun _ => 2⟩
  sch := .ngp
  interlace := true
  P := fun _ _ _ => 1
  w3j := fun _ _ _ _ _ _ => 1
  ELL := 0
  edges := [0, 1]
  centres := [1 / 2]
  numBins := 1

theorem exE_valid : exE.mesh.Valid := fun _ => ⟨by unfold exE; norm_num, by unfold exE; norm_num⟩

/-- Only the zero mode is in the bin. -/
theorem exE_powspec (pos : List (Fin 3 → ℝ)) :
    (computePowspecBox exE pos 1).map (fun r => r.val.1) =
      [fourier exE.mesh (fluctuations .ngp exE.mesh true pos) 0 *
        (starRingEnd ℂ) (fourier exE.mesh (fluctuations .ngp exE.mesh true pos) 0)] := by
  have hk : ∀ c ∈ cells exE.mesh.n, c ≠ (0, 0, 0) → Real.pi ≤ mag (kvec exE.mesh c) := by
    intro c hc hne
    obtain ⟨⟨a, a'⟩, ⟨b, b'⟩, d, d'⟩ := mem_cells.1 hc
    have hx : ∀ ax, kvec exE.mesh c ax = 0 ∨ kvec exE.mesh c ax = -Real.pi := by
      intro ax
      unfold kvec gridVec exE at *
      simp only at a' b' d' ⊢
      fin_cases ax
      · rcases (by omega : c.1 = 0 ∨ c.1 = 1) with h | h <;> simp [h]
      · rcases (by omega : c.2.1 = 0 ∨ c.2.1 = 1) with h | h <;> simp [h]
      · rcases (by omega : c.2.2 = 0 ∨ c.2.2 = 1) with h | h <;> simp [h]
    have hsome : kvec exE.mesh c 0 = -Real.pi ∨ kvec exE.mesh c 1 = -Real.pi ∨
        kvec exE.mesh c 2 = -Real.pi := by
      unfold kvec gridVec exE at *
      simp only at a' b' d' ⊢
      rcases (by omega : c.1 = 0 ∨ c.1 = 1) with h | h
      · rcases (by omega : c.2.1 = 0 ∨ c.2.1 = 1) with h' | h'
        · rcases (by omega : c.2.2 = 0 ∨ c.2.2 = 1) with h2 | h2
          · exact absurd (Prod.ext h (Prod.ext h' h2)) hne
          · right; right; simp [h2]
        · right; left; simp [h']
      · left; simp [h]
    unfold mag
    apply Real.le_sqrt_of_sq_le
    have s0 := sq_nonneg (kvec exE.mesh c 0)
    have s1 := sq_nonneg (kvec exE.mesh c 1)
    have s2 := sq_nonneg (kvec exE.mesh c 2)
    rcases hsome with h | h | h <;> rw [h, neg_sq] <;> linarith
  have hk0 : mag (kvec exE.mesh (0, 0, 0)) = 0 := by
    unfold mag kvec gridVec exE
    simp
  have hwin : exE.win (0, 0, 0) = 1 := by
    unfold Env.win windowFresh exE
    simp [shiftIndex, sincAxis]
  have hfil : ∀ (F : ℤ → ℂ) (amp : ℂ), (modes2 exE F F amp 0 0).filter
      (sel nSample dkSample 0 1) = [⟨0, modePower (F 0) (F 0) 1 1,
        modeShot amp (exE.alias_ (0, 0, 0)) 1 1⟩] := by
    intro F amp
    have hcells : cells exE.mesh.n = (0, 0, 0) :: [(0, 0, 1), (0, 1, 0), (0, 1, 1), (1, 0, 0),
        (1, 0, 1), (1, 1, 0), (1, 1, 1)] := rfl
    unfold modes2
    rw [hcells, List.map_cons, List.filter_cons_of_pos, List.filter_eq_nil_iff.2]
    · simp only [hk0, hwin, ylm_zero]
      rfl
    · intro x hx
      obtain ⟨c, hc, rfl⟩ := List.mem_map.1 hx
      have hc' : c ∈ cells exE.mesh.n := by rw [hcells]; exact List.mem_cons_of_mem _ hc
      have hne : c ≠ (0, 0, 0) := by
        rintro rfl
        revert hc; decide
      have := hk c hc' hne
      have hpi := Real.two_le_pi
      unfold sel
      simp only [Bool.and_eq_true, decide_eq_true_eq, not_and]
      intro _
      unfold inBin dkSample truncInt
      simp only [decide_eq_true_eq, not_and, not_lt]
      intro _
      have hd : (0 : ℝ) ≤ mag (kvec exE.mesh c) / (1 / 100000) := by
        apply div_nonneg _ (by norm_num)
        linarith
      rw [if_pos hd]
      have := Int.lt_floor_add_one (mag (kvec exE.mesh c) / (1 / 100000))
      rw [div_lt_iff₀ (by norm_num)] at this
      linarith
    · unfold sel inBin truncInt
      simp only [hk0]
      simp [nSample]
  unfold computePowspecBox statsFourier output
  simp only
  rw [binStats_eq]
  have e1 : exE.numBins = 1 := rfl
  have e2 : exE.ELL = 0 := rfl
  have e3 : exE.edges.getD 0 0 = 0 := rfl
  have e4 : exE.edges.getD (0 + 1) 0 = 1 := rfl
  have e5 : exE.sch = .ngp := rfl
  have e6 : exE.interlace = true := rfl
  rw [e1, e2, e5, e6]
  simp only [List.range_one, List.map_cons, List.map_nil, List.getD_cons_zero, e3, e4, hfil]
  unfold binOf modePower
  simp

/-- **C93 (interlacing, violated).** A particle at `(3/2, 0, 0)` in the box of the configuration
above, moved by one cell to `(1/2, 0, 0)`, changes the measured power from 0 to 1/4. -/
theorem C93_interlaced_violated :
    (computePowspecBox exE [fun a => if a = 0 then 3 / 2 else 0] 1).map (fun r => r.val.1) = [0] ∧
    (computePowspecBox exE [fun a => if a = 0 then 1 / 2 else 0] 1).map (fun r => r.val.1) =
      [1 / 4] ∧
    Moved exE.mesh (fun a => if a = 0 then -1 else 0) (fun a => if a = 0 then 3 / 2 else 0)
      (fun a => if a = 0 then 1 / 2 else 0) := by
  have hb1 : ∀ x ∈ [(fun a => if a = 0 then 3 / 2 else 0 : Fin 3 → ℝ)], PosInBox exE.mesh x := by
    intro x hx a
    rw [List.mem_singleton.1 hx]
    unfold exE
    simp only
    split_ifs <;> norm_num
  have hb2 : ∀ x ∈ [(fun a => if a = 0 then 1 / 2 else 0 : Fin 3 → ℝ)], PosInBox exE.mesh x := by
    intro x hx a
    rw [List.mem_singleton.1 hx]
    unfold exE
    simp only
    split_ifs <;> norm_num
  have hn2 : ∀ a, 2 ≤ exE.mesh.n a := fun _ => by unfold exE; norm_num
  refine ⟨?_, ?_, ?_⟩
  · rw [exE_powspec, zero_mode_interlaced .ngp exE.mesh exE_valid hn2 _ hb1]
    have h := fun c => C07_boundary_particle_lost_violated .ngp (Or.inl rfl) exE.mesh exE_valid
      ⟨fun a => if a = 0 then 3 / 2 else 0, fun c => if c then 0 else 1⟩
      (fun ax => hb1 _ (by simp) ax) (by unfold exE; norm_num) (by unfold exE; norm_num)
      (by unfold exE; simp only [show (2 : Fin 3) ≠ 0 by decide, if_false]; norm_num) c
    have h' : ∀ c, gridTotal exE.mesh (assignShifted .ngp exE.mesh
        (unweighted [(fun a => if a = 0 then 3 / 2 else 0 : Fin 3 → ℝ)])) c = 0 := h
    rw [h', h']
    simp only [zero_mul, zero_div, List.cons.injEq, and_true]
    exact zero_mul _
  · rw [exE_powspec, zero_mode_interlaced .ngp exE.mesh exE_valid hn2 _ hb2]
    have hg : ∀ p ∈ unweighted [(fun a => if a = 0 then 1 / 2 else 0 : Fin 3 → ℝ)], ∀ ax,
        ¬ BadShift .ngp (exE.mesh.n ax) (exE.mesh.L ax) (p.pos ax) := by
      intro p hp ax
      obtain ⟨y, hy, rfl⟩ := List.mem_map.1 hp
      rw [List.mem_singleton.1 hy]
      unfold BadShift exE
      simp only
      split_ifs <;> norm_num
    have h := fun c => (C07_interlaced_conserves_partial .ngp exE.mesh exE_valid _
      (unweighted_inBox hb2) hg c).1
    rw [h, h]
    simp only [unweighted, List.map_cons, List.map_nil, List.sum_cons, List.sum_nil]
    simp only [List.cons.injEq, and_true]
    rw [Complex.mul_conj, Complex.normSq_mk]
    norm_num
  · intro a
    refine ⟨0, ?_⟩
    unfold exE
    simp only
    split_ifs <;> norm_num

end Trv.Two

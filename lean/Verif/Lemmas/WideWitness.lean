import Verif.Lemmas.WideAngle
import Verif.Lemmas.PairWitness
import Verif.Props.ThreePcf
/-
A window function with wide-angle corrections on a mesh of two cells on each axis.
-/
namespace Trv.Zeta
open Trv.Mesh Trv.Stats Trv.Win Trv.Two Trv.ThreePt Trv.Bis

/-- Two cells of unit size on each axis; one empty bin with the effective separation 1; the Bessel
functions select the zero mode. -/
noncomputable def exV : Env3 :=
  { exZ 0 0 0 10 11 with
    mesh := ⟨fun _ => 2, fun _ => 2⟩
    centres := [1]
    sj := fun _ x => @ite _ (x = 0) (Classical.dec _) 1 0 }

theorem exV_valid : exV.mesh.Valid := fun _ => ⟨show (0 : ℤ) < 2 by norm_num, show (0 : ℝ) < 2 by norm_num⟩

theorem exV_triplets : triplets exV = [⟨0, 0, 0⟩] := exZ_triplets 0 0 0 10 11

theorem exV_coupling : coupling3 exV ⟨0, 0, 0⟩ = 1 := by
  have : coupling3 exV ⟨0, 0, 0⟩ = coupling3 (exZ 0 0 0 10 11) ⟨0, 0, 0⟩ := rfl
  rw [this, exZ_coupling, if_pos rfl]
  norm_num

/-- A particle at height `z`. -/
def exQ (z : ℕ) : Part := exPart z 1

theorem sum_box2 (f : ℤ × ℤ × ℤ → ℂ) : ∑ x ∈ box (fun _ => 2), f x =
    f (0, 0, 0) + f (0, 0, 1) + f (0, 1, 0) + f (0, 1, 1) + f (1, 0, 0) + f (1, 0, 1) + f (1, 1, 0) +
      f (1, 1, 1) := by
  have : box (fun _ => 2) = {(0, 0, 0), (0, 0, 1), (0, 1, 0), (0, 1, 1), (1, 0, 0), (1, 0, 1), (1, 1, 0),
      (1, 1, 1)} := by decide
  rw [this, Finset.sum_insert (by decide), Finset.sum_insert (by decide), Finset.sum_insert (by decide),
    Finset.sum_insert (by decide), Finset.sum_insert (by decide), Finset.sum_insert (by decide),
    Finset.sum_insert (by decide), Finset.sum_singleton]
  ring

theorem root_two : root 2 0 = 1 ∧ root 2 1 = -1 ∧ root 2 (-1) = -1 := by
  have h1 : root 2 1 = -1 := by
    unfold root
    rw [← Complex.exp_pi_mul_I]
    congr 1
    push_cast
    ring
  refine ⟨root_zero 2, h1, ?_⟩
  rw [← root_conj, h1]
  simp

theorem sinc_two : sincAxis 2 (-1) = 2 / Real.pi := by
  unfold sincAxis
  simp only
  rw [if_pos (by norm_num), show Real.pi * ((-1 : ℤ) : ℝ) / ((2 : ℤ) : ℝ) = -(Real.pi / 2) by push_cast; ring,
    Real.sin_neg, Real.sin_pi_div_two]
  have := Real.pi_ne_zero
  field_simp

/-- The power law at a cell. -/
theorem exV_power (x : ℤ × ℤ × ℤ) (m : ℕ) (hm : 0 < m)
    (h : rvec exV.mesh x 0 ^ 2 + rvec exV.mesh x 1 ^ 2 + rvec exV.mesh x 2 ^ 2 = m) :
    powerLaw 1 1 (mag (rvec exV.mesh x)) = 1 / m := by
  unfold powerLaw mag
  rw [h, if_neg, Real.sq_sqrt (Nat.cast_nonneg m)]
  rw [not_lt]
  apply Real.le_sqrt_of_sq_le
  have : (1 : ℝ) ≤ m := by exact_mod_cast hm
  linarith

theorem exV_fourier (z : ℕ) (hz : z < 2) {k : ℤ × ℤ × ℤ} (hk : k ∈ box exV.mesh.n) :
    fourier exV.mesh (nField exV.toEnv [exQ z] 1 0 0) (gid exV.mesh.n k) = phase3 (fun _ => 2) (-1) k (0, 0, (z : ℤ)) := by
  have hin : AllInside exV.mesh [exQ z] := by
    intro p hp ax
    rw [List.mem_singleton] at hp
    subst hp
    have : ((z : ℕ) : ℝ) < 2 := by exact_mod_cast hz
    fin_cases ax
    · exact ⟨le_refl (0 : ℝ), show (0 : ℝ) < 2 by norm_num⟩
    · exact ⟨le_refl (0 : ℝ), show (0 : ℝ) < 2 by norm_num⟩
    · exact ⟨show (0 : ℝ) ≤ z from Nat.cast_nonneg z, this⟩
  have hnear : nearest exV.mesh (exQ z).pos = (0, 0, (z : ℤ)) := by
    unfold nearest
    show (⌊((2 : ℤ) : ℝ) * 0 / 2 + 1 / 2⌋ % 2, ⌊((2 : ℤ) : ℝ) * 0 / 2 + 1 / 2⌋ % 2,
      ⌊((2 : ℤ) : ℝ) * (z : ℝ) / 2 + 1 / 2⌋ % 2) = _
    have e : ((2 : ℤ) : ℝ) * (z : ℝ) / 2 + 1 / 2 = ((z : ℤ) : ℝ) + 1 / 2 := by push_cast; ring
    have h0 : ⌊((2 : ℤ) : ℝ) * 0 / 2 + 1 / 2⌋ = 0 := by norm_num [Int.floor_eq_iff]
    have h2 : ⌊(1 : ℝ) / 2⌋ = 0 := by norm_num [Int.floor_eq_iff]
    rw [h0, e, Int.floor_intCast_add, h2, add_zero]
    have : (z : ℤ) % 2 = z := Int.emod_eq_of_lt (by omega) (by omega)
    rw [this]
    rfl
  have := fourier_n exV.toEnv exV_valid rfl rfl [exQ z] hin 0 1 0 hk
  refine this.trans ?_
  have hw : (exV.toEnv.ylm exV.toEnv.ELL 0 (exQ z).los) = 1 := exZ_ylm0 0 0 0 10 11 _
  have hp : (exQ z).w = 1 := by
    unfold Part.w exQ exPart
    norm_num
  have e : pointsOf exV.toEnv 0 1 0 [exQ z] = [⟨(0, 0, (z : ℤ)), 1, 1⟩] := by
    unfold pointsOf
    rw [List.map_singleton, hnear, hw, hp]
    norm_num
  rw [e]
  unfold wSum
  show ∑ i : Fin 1, _ = _
  rw [Fin.sum_univ_one]
  show (1 : ℂ) * phase3 exV.mesh.n (-1) k (0, 0, (z : ℤ)) = _
  rw [one_mul]
  rfl

/-- The compensated modes of the particle. -/
theorem exV_comp (z : ℕ) (hz : z < 2) {k : ℤ × ℤ × ℤ} (hk : k ∈ box exV.mesh.n) :
    comp exV (fourier exV.mesh (nField exV.toEnv [exQ z] 1 0 0)) k =
      phase3 (fun _ => 2) (-1) k (0, 0, (z : ℤ)) / (windowFresh (fun _ => 2) k.1 k.2.1 k.2.2 1 : ℂ) := by
  unfold comp
  rw [exV_fourier z hz hk]
  rfl

/-- The triangles are those of the zero mode. -/
theorem exV_triangles (f h : ℤ × ℤ × ℤ → ℂ) :
    besselTriangles exV f h ⟨0, 0, 0⟩ 1 1 = f (0, 0, 0) * f (0, 0, 0) * h (0, 0, 0) / 64 := by
  classical
  have hk : ∀ k ∈ box exV.mesh.n, k ≠ (0, 0, 0) → mag (kvec exV.mesh k) ≠ 0 := by
    intro k hk hne hz
    unfold mag at hz
    rw [Real.sqrt_eq_zero (by positivity)] at hz
    have hpi := Real.pi_pos
    obtain ⟨a, b, c⟩ := k
    obtain ⟨⟨h0, h0'⟩, ⟨h1, h1'⟩, h2, h2'⟩ := mem_box.1 hk
    have h0' : a < 2 := h0'
    have h1' : b < 2 := h1'
    have h2' : c < 2 := h2'
    have key : ∀ i : ℤ, 0 ≤ i → i < 2 → i ≠ 0 →
        (if i < (2 : ℤ) / 2 then (i : ℝ) * (2 * Real.pi / 2) else ((i - 2 : ℤ) : ℝ) * (2 * Real.pi / 2)) ^ 2 = Real.pi ^ 2 := by
      intro i hi hi' hi0
      have : i = 1 := by omega
      subst this
      norm_num
    have hx : kvec exV.mesh (a, b, c) 0 ^ 2 = if a = 0 then 0 else Real.pi ^ 2 := by
      split_ifs with h
      · subst h
        show (if (0 : ℤ) < (2 : ℤ) / 2 then ((0 : ℤ) : ℝ) * (2 * Real.pi / 2) else ((0 - 2 : ℤ) : ℝ) * (2 * Real.pi / 2)) ^ 2 = 0
        norm_num
      · exact key a h0 h0' h
    have hy : kvec exV.mesh (a, b, c) 1 ^ 2 = if b = 0 then 0 else Real.pi ^ 2 := by
      split_ifs with h
      · subst h
        show (if (0 : ℤ) < (2 : ℤ) / 2 then ((0 : ℤ) : ℝ) * (2 * Real.pi / 2) else ((0 - 2 : ℤ) : ℝ) * (2 * Real.pi / 2)) ^ 2 = 0
        norm_num
      · exact key b h1 h1' h
    have hw : kvec exV.mesh (a, b, c) 2 ^ 2 = if c = 0 then 0 else Real.pi ^ 2 := by
      split_ifs with h
      · subst h
        show (if (0 : ℤ) < (2 : ℤ) / 2 then ((0 : ℤ) : ℝ) * (2 * Real.pi / 2) else ((0 - 2 : ℤ) : ℝ) * (2 * Real.pi / 2)) ^ 2 = 0
        norm_num
      · exact key c h2 h2' h
    rw [hx, hy, hw] at hz
    have hp2 : 0 < Real.pi ^ 2 := by positivity
    split_ifs at hz with e0 e1 e2 <;> first | exact hne (by rw [e0, e1, e2]) | linarith
  have hk0 : mag (kvec exV.mesh (0, 0, 0)) = 0 := by
    unfold mag kvec gridVec exV
    simp
  have hsj : ∀ k ∈ box exV.mesh.n, k ≠ (0, 0, 0) → ∀ l, exV.sj l (mag (kvec exV.mesh k) * 1) = 0 := by
    intro k h1 h2 l
    show @ite _ (mag (kvec exV.mesh k) * 1 = 0) (Classical.dec _) (1 : ℝ) 0 = 0
    rw [if_neg]
    rw [mul_one]
    exact hk k h1 h2
  have hsj0 : ∀ l, exV.sj l (mag (kvec exV.mesh (0, 0, 0)) * 1) = 1 := by
    intro l
    show @ite _ (mag (kvec exV.mesh (0, 0, 0)) * 1 = 0) (Classical.dec _) (1 : ℝ) 0 = 1
    rw [if_pos]
    rw [hk0, zero_mul]
  have h00 : ((0, 0, 0) : ℤ × ℤ × ℤ) ∈ box exV.mesh.n := by
    rw [mem_box]
    exact ⟨⟨le_refl _, show (0 : ℤ) < 2 by norm_num⟩, ⟨le_refl _, show (0 : ℤ) < 2 by norm_num⟩, le_refl _,
      show (0 : ℤ) < 2 by norm_num⟩
  have hylm : ∀ v, exV.ylm 0 0 v = 1 := fun v => exZ_ylm0 0 0 0 10 11 v
  have hn : ∀ a, 0 < exV.mesh.n a := fun a => (exV_valid a).1
  unfold besselTriangles
  rw [allModes_eq, Finset.sum_eq_single_of_mem _ h00, Finset.sum_eq_single_of_mem _ h00]
  · have hf := filter_closed hn (0, 0, 0) (0, 0, 0)
    rw [allModes_eq] at hf
    rw [hf, Finset.sum_singleton]
    have ht : third exV.mesh.n (0, 0, 0) (0, 0, 0) = (0, 0, 0) := rfl
    have hV : (vol exV.mesh : ℂ) ^ 2 = 64 := by
      have : vol exV.mesh = 8 := by unfold vol exV; norm_num
      rw [this]; norm_num
    rw [ht, hV, hsj0, hsj0]
    show ((1 : ℝ) : ℂ) * exV.ylm 0 0 _ * (((1 : ℝ) : ℂ) * exV.ylm 0 0 _) * _ / 64 = _
    rw [hylm]
    push_cast
    ring
  · intro b hb hb0
    apply Finset.sum_eq_zero
    intro c _
    rw [hsj b hb hb0]
    push_cast
    ring
  · intro a ha ha0
    apply Finset.sum_eq_zero
    intro b _
    apply Finset.sum_eq_zero
    intro c _
    rw [hsj a ha ha0]
    push_cast
    ring

/-- The window of a mode, by axis. -/
noncomputable def ax2 (i : ℤ) : ℝ := if i = 0 then 1 else Real.pi / 2

theorem exV_window {i j k : ℤ} (hi : i = 0 ∨ i = 1) (hj : j = 0 ∨ j = 1) (hk : k = 0 ∨ k = 1) :
    windowFresh (fun _ => 2) i j k 1 = (ax2 i * ax2 j * ax2 k)⁻¹ := by
  have key : ∀ i : ℤ, i = 0 ∨ i = 1 → sincAxis 2 (shiftIndex 2 i) = (ax2 i)⁻¹ := by
    rintro i (rfl | rfl)
    · unfold shiftIndex sincAxis ax2
      simp
    · rw [show shiftIndex 2 1 = -1 from rfl, sinc_two]
      unfold ax2
      rw [if_neg (by norm_num), inv_div]
  unfold windowFresh
  simp only
  rw [key i hi, key j hj, key k hk, pow_one, mul_inv, mul_inv]

theorem phase_two (s : ℤ) (c x : ℤ × ℤ × ℤ) : phase3 (fun _ => 2) s c x =
    root 2 (s * (c.1 * x.1)) * root 2 (s * (c.2.1 * x.2.1)) * root 2 (s * (c.2.2 * x.2.2)) := phase3_eq _ s c x

/-- The restored field of the particle. -/
theorem exV_restored (z : ℕ) (hz : z < 2) (x : ℤ × ℤ × ℤ) :
    restored exV (fourier exV.mesh (nField exV.toEnv [exQ z] 1 0 0)) x =
      (1 + root 2 x.1 * (Real.pi / 2 : ℂ)) * (1 + root 2 x.2.1 * (Real.pi / 2 : ℂ)) *
      (1 + root 2 (x.2.2 - z) * (Real.pi / 2 : ℂ)) / 8 := by
  unfold restored
  have hV : (vol exV.mesh : ℂ) = 8 := by
    have : vol exV.mesh = 8 := by unfold vol exV; norm_num
    rw [this]; norm_num
  rw [hV, allModes_eq, Finset.sum_congr rfl fun k hk => by rw [exV_comp z hz hk]]
  congr 1
  show ∑ k ∈ box (fun _ => 2), _ = _
  rw [sum_box2]
  have o0 : (0 : ℤ) = 0 ∨ (0 : ℤ) = 1 := Or.inl rfl
  have o1 : (1 : ℤ) = 0 ∨ (1 : ℤ) = 1 := Or.inr rfl
  have a0 : ax2 0 = 1 := if_pos rfl
  have a1 : ax2 1 = Real.pi / 2 := if_neg (by norm_num)
  show _ / (windowFresh (fun _ => 2) 0 0 0 1 : ℂ) * phase3 (fun _ => 2) 1 x _ +
    _ / (windowFresh (fun _ => 2) 0 0 1 1 : ℂ) * phase3 (fun _ => 2) 1 x _ +
    _ / (windowFresh (fun _ => 2) 0 1 0 1 : ℂ) * phase3 (fun _ => 2) 1 x _ +
    _ / (windowFresh (fun _ => 2) 0 1 1 1 : ℂ) * phase3 (fun _ => 2) 1 x _ +
    _ / (windowFresh (fun _ => 2) 1 0 0 1 : ℂ) * phase3 (fun _ => 2) 1 x _ +
    _ / (windowFresh (fun _ => 2) 1 0 1 1 : ℂ) * phase3 (fun _ => 2) 1 x _ +
    _ / (windowFresh (fun _ => 2) 1 1 0 1 : ℂ) * phase3 (fun _ => 2) 1 x _ +
    _ / (windowFresh (fun _ => 2) 1 1 1 1 : ℂ) * phase3 (fun _ => 2) 1 x _ = _
  rw [exV_window o0 o0 o0, exV_window o0 o0 o1, exV_window o0 o1 o0, exV_window o0 o1 o1,
    exV_window o1 o0 o0, exV_window o1 o0 o1, exV_window o1 o1 o0, exV_window o1 o1 o1, a0, a1]
  simp only [phase_two, mul_zero, zero_mul, mul_one, one_mul, root_zero, Complex.ofReal_inv, div_inv_eq_mul]
  rw [show x.2.2 - (z : ℤ) = x.2.2 + -1 * z by ring, root_add]
  push_cast
  ring

theorem exV_r (x : ℤ × ℤ × ℤ) :
    rvec exV.mesh x 0 ^ 2 + rvec exV.mesh x 1 ^ 2 + rvec exV.mesh x 2 ^ 2 =
      (if x.1 < 1 then (x.1 : ℝ) else ((x.1 - 2 : ℤ) : ℝ)) ^ 2 + (if x.2.1 < 1 then (x.2.1 : ℝ) else ((x.2.1 - 2 : ℤ) : ℝ)) ^ 2 +
      (if x.2.2 < 1 then (x.2.2 : ℝ) else ((x.2.2 - 2 : ℤ) : ℝ)) ^ 2 := by
  have key : ∀ i : ℤ, (if i < (2 : ℤ) / 2 then (i : ℝ) * (2 / ((2 : ℤ) : ℝ)) else ((i - 2 : ℤ) : ℝ) * (2 / ((2 : ℤ) : ℝ))) =
      if i < 1 then (i : ℝ) else ((i - 2 : ℤ) : ℝ) := by
    intro i
    rw [show (2 : ℝ) / ((2 : ℤ) : ℝ) = 1 by norm_num, mul_one, mul_one]
    rfl
  have h0 : rvec exV.mesh x 0 = if x.1 < 1 then (x.1 : ℝ) else ((x.1 - 2 : ℤ) : ℝ) := key x.1
  have h1 : rvec exV.mesh x 1 = if x.2.1 < 1 then (x.2.1 : ℝ) else ((x.2.1 - 2 : ℤ) : ℝ) := key x.2.1
  have h2 : rvec exV.mesh x 2 = if x.2.2 < 1 then (x.2.2 : ℝ) else ((x.2.2 - 2 : ℤ) : ℝ) := key x.2.2
  rw [h0, h1, h2]

/-- The field at the vertex. -/
theorem exV_weighted (z : ℕ) (hz : z < 2) :
    weighted exV 1 1 (fourier exV.mesh (nField exV.toEnv [exQ z] 1 0 0)) (0, 0, 0) =
      ((if z = 0 then 35 / 48 + 7 / 32 * Real.pi - 1 / 64 * Real.pi ^ 2 - 5 / 384 * Real.pi ^ 3
        else 35 / 48 + 7 / 96 * Real.pi + 1 / 192 * Real.pi ^ 2 + 5 / 384 * Real.pi ^ 3 : ℝ) : ℂ) := by
  have hvc : (exV.mesh.volCell : ℂ) = 1 := by
    have : exV.mesh.volCell = 1 := by unfold Mesh.volCell Mesh.nmesh exV; norm_num
    rw [this]; norm_num
  have p0 : powerLaw 1 1 (mag (rvec exV.mesh (0, 0, 0))) = 1 := by
    unfold powerLaw mag
    rw [exV_r]
    norm_num
  have p1 := exV_power (0, 0, 1) 1 (by norm_num) (by rw [exV_r]; norm_num)
  have p2 := exV_power (0, 1, 0) 1 (by norm_num) (by rw [exV_r]; norm_num)
  have p3 := exV_power (0, 1, 1) 2 (by norm_num) (by rw [exV_r]; norm_num)
  have p4 := exV_power (1, 0, 0) 1 (by norm_num) (by rw [exV_r]; norm_num)
  have p5 := exV_power (1, 0, 1) 2 (by norm_num) (by rw [exV_r]; norm_num)
  have p6 := exV_power (1, 1, 0) 2 (by norm_num) (by rw [exV_r]; norm_num)
  have p7 := exV_power (1, 1, 1) 3 (by norm_num) (by rw [exV_r]; norm_num)
  unfold weighted
  rw [hvc, one_mul, allModes_eq]
  show ∑ x ∈ box (fun _ => 2), _ = _
  obtain ⟨r0, r1, r2⟩ := root_two
  have hph : ∀ x, phase3 exV.mesh.n (-1) (0, 0, 0) x = 1 := by
    intro x
    show phase3 (fun _ => 2) (-1) (0, 0, 0) x = 1
    rw [phase_two]
    simp [root_zero]
  rw [sum_box2, p0, p1, p2, p3, p4, p5, p6, p7]
  simp only [exV_restored z hz, hph, mul_one]
  rcases (by omega : z = 0 ∨ z = 1) with rfl | rfl
  · norm_num [r0, r1, r2]
    ring
  · norm_num [r0, r1, r2]
    ring

theorem exV_sep : meanSep exV 0 = 1 := by
  have hs : shell exV 0 = ∅ := by
    classical
    apply Finset.eq_empty_of_forall_notMem
    intro c hc
    unfold shell at hc
    rw [Finset.mem_filter, allModes_eq] at hc
    obtain ⟨hb, _, h10, _⟩ := hc
    have h10 : (10 : ℝ) ≤ (⌊mag (rvec exV.mesh c)⌋ : ℝ) := h10
    have hf := Int.floor_le (mag (rvec exV.mesh c))
    obtain ⟨⟨h0, h0'⟩, ⟨h1, h1'⟩, h2, h2'⟩ := mem_box.1 hb
    have h0' : c.1 < 2 := h0'
    have h1' : c.2.1 < 2 := h1'
    have h2' : c.2.2 < 2 := h2'
    have hm : mag (rvec exV.mesh c) ≤ 2 := by
      unfold mag
      rw [exV_r]
      apply Real.sqrt_le_iff.2
      refine ⟨by norm_num, ?_⟩
      rcases (by omega : c.1 = 0 ∨ c.1 = 1) with e | e <;>
      rcases (by omega : c.2.1 = 0 ∨ c.2.1 = 1) with e' | e' <;>
      rcases (by omega : c.2.2 = 0 ∨ c.2.2 = 1) with e'' | e'' <;>
      rw [e, e', e''] <;> norm_num
    linarith
  unfold meanSep
  rw [hs, Finset.card_empty, if_pos rfl]
  rfl

end Trv.Zeta

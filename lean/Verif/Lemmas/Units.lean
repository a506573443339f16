import Verif.Spec.Units
import Verif.Props.BinnedVectors
import Verif.Lemmas.ThreePcf
/-
Lemmas about measurements with lengths expressed in another unit.
-/
namespace Trv.Unit
open Trv.Mesh Trv.Stats Trv.Win Trv.Two Trv.Bis

variable {u : ℝ}

/-! ### Mesh assignment -/

theorem locMain_in (hu : u ≠ 0) (n : ℤ) (L x : ℝ) : locMain n (u * L) (u * x) = locMain n L x := by
  unfold locMain
  rw [show (n : ℝ) * (u * x) = u * (n * x) by ring, mul_div_mul_left _ _ hu]

theorem locShifted_in (hu : u ≠ 0) (n : ℤ) (L x : ℝ) : locShifted n (u * L) (u * x) = locShifted n L x := by
  unfold locShifted
  rw [show (n : ℝ) * (u * x) = u * (n * x) by ring, mul_div_mul_left _ _ hu]

theorem volCell_in (u : ℝ) (M : Mesh ℝ) : (meshIn u M).volCell = u ^ 3 * M.volCell := by
  show (u * M.L 0 * (u * M.L 1) * (u * M.L 2)) / (M.nmesh : ℝ) = u ^ 3 * ((M.L 0 * M.L 1 * M.L 2) / (M.nmesh : ℝ))
  ring

theorem vol_in (u : ℝ) (M : Mesh ℝ) : vol (meshIn u M) = u ^ 3 * vol M := by
  show u * M.L 0 * (u * M.L 1) * (u * M.L 2) = u ^ 3 * (M.L 0 * M.L 1 * M.L 2)
  ring

/-- A mesh particle in the other unit. -/
def mpIn (u : ℝ) (p : Particle ℝ) : Particle ℝ := ⟨posIn u p.pos, p.w⟩

/-- An update multiplied by a number. -/
def updIn (s : ℝ) (x : Update ℝ) : Update ℝ := ⟨x.gid, x.comp, s * x.val⟩

theorem updatesOfStencils_in (u : ℝ) (M : Mesh ℝ) (sx sy sz : List (ℤ × ℝ)) (w : Bool → ℝ) :
    updatesOfStencils (meshIn u M) sx sy sz w = (updatesOfStencils M sx sy sz w).map (updIn (1 / u ^ 3)) := by
  unfold updatesOfStencils
  simp only [List.map_flatMap]
  congr 1; funext a
  congr 1; funext b
  congr 1; funext c
  have hm : (meshIn u M).nmesh = M.nmesh := rfl
  have hn : (meshIn u M).n = M.n := rfl
  rw [hm, hn, volCell_in]
  split_ifs
  · simp only [List.map_cons, List.map_nil, updIn]
    have : ∀ x : ℝ, 1 / (u ^ 3 * M.volCell) * x = 1 / u ^ 3 * (1 / M.volCell * x) := by
      intro x
      rw [one_div, mul_inv, one_div, one_div]
      ring
    simp only [mul_assoc]
    simp only [this]
  · rfl

theorem particleUpdates_in (hu : u ≠ 0) (sch : Scheme) (M : Mesh ℝ) (p : Particle ℝ) :
    particleUpdates sch (meshIn u M) (mpIn u p) = (particleUpdates sch M p).map (updIn (1 / u ^ 3)) := by
  unfold particleUpdates
  rw [updatesOfStencils_in]
  simp only [meshIn, mpIn, posIn, locMain_in hu]

theorem particleUpdatesShifted_in (hu : u ≠ 0) (sch : Scheme) (M : Mesh ℝ) (p : Particle ℝ) :
    particleUpdatesShifted sch (meshIn u M) (mpIn u p) =
      (particleUpdatesShifted sch M p).map (updIn (1 / u ^ 3)) := by
  unfold particleUpdatesShifted
  rw [updatesOfStencils_in]
  simp only [meshIn, mpIn, posIn, locShifted_in hu]

theorem runUpdates_in (s : ℝ) (us : List (Update ℝ)) (g : ℤ) (c : Bool) :
    runUpdates (us.map (updIn s)) g c = s * runUpdates us g c := by
  unfold runUpdates
  have : ∀ f f' : Grid ℝ, (∀ g c, f' g c = s * f g c) →
      ∀ g c, (us.map (updIn s)).foldl applyUpdate f' g c = s * us.foldl applyUpdate f g c := by
    induction us with
    | nil => intro f f' h; exact h
    | cons x us ih =>
      intro f f' h
      simp only [List.map_cons, List.foldl_cons]
      apply ih
      intro g c
      unfold applyUpdate updIn
      simp only
      split_ifs
      · rw [h, mul_add]
      · exact h g c
  exact this _ _ (fun _ _ => by rw [mul_zero]) g c

theorem assign_in (hu : u ≠ 0) (sch : Scheme) (M : Mesh ℝ) (ps : List (Particle ℝ)) (g : ℤ) (c : Bool) :
    assign sch (meshIn u M) (ps.map (mpIn u)) g c = 1 / u ^ 3 * assign sch M ps g c := by
  unfold assign allUpdates
  rw [← runUpdates_in, List.map_flatMap, List.flatMap_map]
  simp only [particleUpdates_in hu]

theorem assignShifted_in (hu : u ≠ 0) (sch : Scheme) (M : Mesh ℝ) (ps : List (Particle ℝ)) (g : ℤ) (c : Bool) :
    assignShifted sch (meshIn u M) (ps.map (mpIn u)) g c = 1 / u ^ 3 * assignShifted sch M ps g c := by
  unfold assignShifted allUpdatesShifted
  rw [← runUpdates_in, List.map_flatMap, List.flatMap_map]
  simp only [particleUpdatesShifted_in hu]

/-- A field multiplied by a number. -/
def fieldIn (s : ℝ) (F : MeshField ℝ) : MeshField ℝ :=
  ⟨fun g c => s * F.field g c, F.fieldS.map fun f g c => s * f g c⟩

theorem assignField_in (hu : u ≠ 0) (sch : Scheme) (M : Mesh ℝ) (il : Bool) (ps : List (Particle ℝ)) :
    assignField sch (meshIn u M) il (ps.map (mpIn u)) = fieldIn (1 / u ^ 3) (assignField sch M il ps) := by
  unfold assignField fieldIn
  have h1 : assign sch (meshIn u M) (ps.map (mpIn u)) = fun g c => 1 / u ^ 3 * assign sch M ps g c := by
    funext g c; exact assign_in hu sch M ps g c
  have h2 : assignShifted sch (meshIn u M) (ps.map (mpIn u)) = fun g c => 1 / u ^ 3 * assignShifted sch M ps g c := by
    funext g c; exact assignShifted_in hu sch M ps g c
  rw [h1, h2]
  cases il <;> rfl

theorem ylmFieldTwo_in (hu : u ≠ 0) (sch : Scheme) (M : Mesh ℝ) (il : Bool) (d r : List (Particle ℝ)) (alpha : ℝ) :
    ylmFieldTwo sch (meshIn u M) il (d.map (mpIn u)) (r.map (mpIn u)) alpha =
      fieldIn (1 / u ^ 3) (ylmFieldTwo sch M il d r alpha) := by
  unfold ylmFieldTwo
  rw [assignField_in hu, assignField_in hu]
  cases il
  · simp only [fieldIn, assignField, Bool.false_eq_true, if_false, Option.map_none]
    congr 1; funext g c; ring
  · simp only [fieldIn, assignField, if_true, Option.map_some]
    congr 1
    · funext g c; ring
    · congr 1; funext g c; ring

theorem quadFieldTwo_in (hu : u ≠ 0) (sch : Scheme) (M : Mesh ℝ) (il : Bool) (d r : List (Particle ℝ)) (alpha : ℝ) :
    quadFieldTwo sch (meshIn u M) il (d.map (mpIn u)) (r.map (mpIn u)) alpha =
      fieldIn (1 / u ^ 3) (quadFieldTwo sch M il d r alpha) := by
  unfold quadFieldTwo
  rw [assignField_in hu, assignField_in hu]
  cases il
  · simp only [fieldIn, assignField, Bool.false_eq_true, if_false, Option.map_none]
    congr 1; funext g c; ring
  · simp only [fieldIn, assignField, if_true, Option.map_some]
    congr 1
    · funext g c; ring
    · congr 1; funext g c; ring

theorem unweighted_in (u : ℝ) (pos : List (Fin 3 → ℝ)) :
    unweighted (pos.map (posIn u)) = (unweighted pos).map (mpIn u) := by
  unfold unweighted
  rw [List.map_map, List.map_map]
  rfl

theorem fluctuations_in (hu : u ≠ 0) (sch : Scheme) (M : Mesh ℝ) (il : Bool) (pos : List (Fin 3 → ℝ)) :
    fluctuations sch (meshIn u M) il (pos.map (posIn u)) = fieldIn (1 / u ^ 3) (fluctuations sch M il pos) := by
  unfold fluctuations
  rw [unweighted_in, assignField_in hu]
  simp only [List.length_map]
  unfold fieldIn
  simp only
  congr 1
  funext g c
  have hm : (meshIn u M).nmesh = M.nmesh := rfl
  rw [hm]
  have hv : (pos.length : ℝ) / ((meshIn u M).L 0 * (meshIn u M).L 1 * (meshIn u M).L 2) =
      1 / u ^ 3 * ((pos.length : ℝ) / (M.L 0 * M.L 1 * M.L 2)) := by
    have := vol_in u M
    unfold vol at this
    rw [this, div_mul_div_comm, one_mul]
  rw [hv]
  split_ifs <;> ring

/-! ### Fourier transforms -/

theorem cplx_in (s : ℝ) (f : Grid ℝ) (g : ℤ) : cplx (fun g c => s * f g c) g = (s : ℂ) * cplx f g := by
  unfold cplx
  apply Complex.ext <;> simp

theorem fourier_in (hu : u ≠ 0) (M : Mesh ℝ) (F : MeshField ℝ) :
    fourier (meshIn u M) (fieldIn (1 / u ^ 3) F) = fourier M F := by
  have key : ∀ f : Grid ℝ, (fun g => cplx (fun g c => 1 / u ^ 3 * f g c) g * ((meshIn u M).volCell : ℂ)) =
      fun g => cplx f g * (M.volCell : ℂ) := by
    intro f
    funext g
    rw [cplx_in, volCell_in]
    have h : ((u : ℝ) : ℂ) ≠ 0 := by exact_mod_cast hu
    push_cast
    field_simp
  unfold fourier fieldIn
  have hn : (meshIn u M).n = M.n := rfl
  cases F.fieldS with
  | none => simp only [Option.map_none, hn, key]
  | some s => simp only [Option.map_some, hn, key]

theorem alpha_in (u : ℝ) (data rand : List Part) :
    alphaOf (data.map (partIn u)) (rand.map (partIn u)) = alphaOf data rand := by
  unfold alphaOf wsTotal
  rw [List.map_map, List.map_map]
  rfl

theorem ylmWeights_in (u v : ℝ) (E : Two.Env) (ell : ℕ) (m : ℤ) (c : List Part) :
    ylmWeights (envIn u v E) ell m (c.map (partIn u)) = (ylmWeights E ell m c).map (mpIn u) := by
  unfold ylmWeights
  rw [List.map_map, List.map_map]
  rfl

theorem ylmWeightsQuad_in (u v : ℝ) (E : Two.Env) (ell : ℕ) (m : ℤ) (c : List Part) :
    ylmWeightsQuad (envIn u v E) ell m (c.map (partIn u)) = (ylmWeightsQuad E ell m c).map (mpIn u) := by
  unfold ylmWeightsQuad
  rw [List.map_map, List.map_map]
  rfl

theorem dn_in (hu : u ≠ 0) (v : ℝ) (E : Two.Env) (data rand : List Part) (alpha : ℝ) (ell : ℕ) (m : ℤ) :
    fourier (meshIn u E.mesh) (dnField (envIn u v E) (data.map (partIn u)) (rand.map (partIn u)) alpha ell m) =
      fourier E.mesh (dnField E data rand alpha ell m) := by
  unfold dnField
  rw [ylmWeights_in, ylmWeights_in]
  show fourier (meshIn u E.mesh) (ylmFieldTwo E.sch (meshIn u E.mesh) E.interlace _ _ alpha) = _
  rw [ylmFieldTwo_in hu, fourier_in hu]

theorem quad_in (hu : u ≠ 0) (v : ℝ) (E : Two.Env) (data rand : List Part) (alpha : ℝ) (ell : ℕ) (m : ℤ) :
    fourier (meshIn u E.mesh) (quadField (envIn u v E) (data.map (partIn u)) (rand.map (partIn u)) alpha ell m) =
      fourier E.mesh (quadField E data rand alpha ell m) := by
  unfold quadField
  rw [ylmWeightsQuad_in, ylmWeightsQuad_in]
  show fourier (meshIn u E.mesh) (quadFieldTwo E.sch (meshIn u E.mesh) E.interlace _ _ alpha) = _
  rw [quadFieldTwo_in hu, fourier_in hu]

theorem box_in (hu : u ≠ 0) (E : Two.Env) (pos : List (Fin 3 → ℝ)) :
    fourier (meshIn u E.mesh) (fluctuations E.sch (meshIn u E.mesh) E.interlace (pos.map (posIn u))) =
      fourier E.mesh (fluctuations E.sch E.mesh E.interlace pos) := by
  rw [fluctuations_in hu, fourier_in hu]

theorem boxCounts_in (hu : u ≠ 0) (E : Two.Env) (pos : List (Fin 3 → ℝ)) :
    fourier (meshIn u E.mesh) (assignField E.sch (meshIn u E.mesh) E.interlace (unweighted (pos.map (posIn u)))) =
      fourier E.mesh (assignField E.sch E.mesh E.interlace (unweighted pos)) := by
  rw [unweighted_in, assignField_in hu, fourier_in hu]

theorem ylmSum_in (u v : ℝ) (E : Two.Env) (n ell : ℕ) (m : ℤ) (c : List Part) :
    ylmSum (envIn u v E) n ell m (c.map (partIn u)) = ylmSum E n ell m c := by
  unfold ylmSum
  rw [List.map_map]
  rfl

theorem shotAmp2_in (u v : ℝ) (E : Two.Env) (data rand : List Part) (alpha : ℝ) (ell : ℕ) (m : ℤ) :
    shotAmp2 (envIn u v E) (data.map (partIn u)) (rand.map (partIn u)) alpha ell m = shotAmp2 E data rand alpha ell m := by
  unfold shotAmp2
  rw [ylmSum_in, ylmSum_in]

theorem shotAmp3_in (u v : ℝ) (E : Two.Env) (data rand : List Part) (alpha : ℝ) (ell : ℕ) (m : ℤ) :
    shotAmp3 (envIn u v E) (data.map (partIn u)) (rand.map (partIn u)) alpha ell m = shotAmp3 E data rand alpha ell m := by
  unfold shotAmp3
  rw [ylmSum_in, ylmSum_in]

/-! ### Vectors on the mesh -/

theorem kvec_in (u : ℝ) (M : Mesh ℝ) (c : ℤ × ℤ × ℤ) : kvec (meshIn u M) c = posIn (1 / u) (kvec M c) := by
  have hd : ∀ a, 2 * Real.pi / (u * M.L a) = 1 / u * (2 * Real.pi / M.L a) := by
    intro a
    rw [div_mul_div_comm, one_mul]
  funext a
  unfold kvec gridVec posIn
  simp only [meshIn, hd]
  match a with
  | 0 => simp; ring
  | 1 => simp; ring
  | 2 => simp; ring

theorem rvec_in (u : ℝ) (M : Mesh ℝ) (c : ℤ × ℤ × ℤ) : rvec (meshIn u M) c = posIn u (rvec M c) := by
  funext a
  unfold rvec gridVec posIn
  simp only [meshIn, mul_div_assoc]
  match a with
  | 0 => simp; ring
  | 1 => simp; ring
  | 2 => simp; ring

theorem mag_in {s : ℝ} (hs : 0 ≤ s) (v : Fin 3 → ℝ) : mag (posIn s v) = s * mag v := by
  unfold mag posIn
  rw [show (s * v 0) ^ 2 + (s * v 1) ^ 2 + (s * v 2) ^ 2 = s ^ 2 * (v 0 ^ 2 + v 1 ^ 2 + v 2 ^ 2) by ring,
    Real.sqrt_mul (sq_nonneg s), Real.sqrt_sq hs]

/-- A vector whose components vanish or are not negligible. -/
def Res (v : Fin 3 → ℝ) : Prop := ∀ a, v a = 0 ∨ 1 / 1000000000 ≤ |v a|

theorem azimuth_in {s : ℝ} (hs : 0 < s) {x y : ℝ} (hx : x = 0 ∨ 1 / 1000000000 ≤ |x|) (hy : y = 0 ∨ 1 / 1000000000 ≤ |y|)
    (hx' : s * x = 0 ∨ 1 / 1000000000 ≤ |s * x|) (hy' : s * y = 0 ∨ 1 / 1000000000 ≤ |s * y|) :
    azimuth (s * x) (s * y) = azimuth x y := by
  have hr : Real.sqrt (s * x * (s * x) + s * y * (s * y)) = s * Real.sqrt (x * x + y * y) := by
    rw [show s * x * (s * x) + s * y * (s * y) = s ^ 2 * (x * x + y * y) by ring, Real.sqrt_mul (sq_nonneg s),
      Real.sqrt_sq hs.le]
  unfold azimuth
  simp only [hr]
  have big : ∀ {a b : ℝ}, (a = 0 ∨ 1 / 1000000000 ≤ |a|) → (b = 0 ∨ 1 / 1000000000 ≤ |b|) → ¬ (a = 0 ∧ b = 0) →
      |Real.sqrt (a * a + b * b)| ≥ 1 / 1000000000 := by
    intro a b ha hb hab
    rw [abs_of_nonneg (Real.sqrt_nonneg _)]
    rcases ha with ha | ha
    · rcases hb with hb | hb
      · exact absurd ⟨ha, hb⟩ hab
      · exact hb.trans (Real.abs_le_sqrt (by nlinarith [mul_self_nonneg a]))
    · exact ha.trans (Real.abs_le_sqrt (by nlinarith [mul_self_nonneg b]))
  by_cases h0 : x = 0 ∧ y = 0
  · obtain ⟨rfl, rfl⟩ := h0
    simp
  · have h0' : ¬ (s * x = 0 ∧ s * y = 0) := by
      rintro ⟨a, b⟩
      exact h0 ⟨(mul_eq_zero.1 a).resolve_left hs.ne', (mul_eq_zero.1 b).resolve_left hs.ne'⟩
    have b1 := big hx hy h0
    have b2 := big hx' hy' h0'
    rw [hr] at b2
    rw [if_pos b2, if_pos b1, mul_div_mul_left _ _ hs.ne']
    have : s * y < 0 ↔ y < 0 := by
      constructor
      · intro h
        by_contra hy0
        exact absurd h (not_lt.2 (mul_nonneg hs.le (not_lt.1 hy0)))
      · exact fun h => mul_neg_of_pos_of_neg hs h
    simp only [this]

/-- Harmonics depend only on the direction of a vector that is not negligible. -/
theorem reducedYlm_in {s : ℝ} (hs : 0 < s) (P : ℕ → ℕ → ℝ → ℝ) (ell : ℕ) (m : ℤ) {v : Fin 3 → ℝ} (hv : Res v)
    (hv' : Res (posIn s v)) :
    reducedYlm P ell m (posIn s v 0) (posIn s v 1) (posIn s v 2) = reducedYlm P ell m (v 0) (v 1) (v 2) := by
  have hr : ∀ x y z : ℝ, Real.sqrt (s * x * (s * x) + s * y * (s * y) + s * z * (s * z)) =
      s * Real.sqrt (x * x + y * y + z * z) := by
    intro x y z
    rw [show s * x * (s * x) + s * y * (s * y) + s * z * (s * z) = s ^ 2 * (x * x + y * y + z * z) by ring,
      Real.sqrt_mul (sq_nonneg s), Real.sqrt_sq hs.le]
  have big : ∀ w : Fin 3 → ℝ, Res w → (∃ a, w a ≠ 0) →
      ¬ |Real.sqrt (w 0 * w 0 + w 1 * w 1 + w 2 * w 2)| < 1 / 1000000000 := by
    rintro w hw ⟨a, ha⟩
    have h := (hw a).resolve_left ha
    rw [abs_of_nonneg (Real.sqrt_nonneg _), not_lt]
    refine h.trans (Real.abs_le_sqrt ?_)
    match a with
    | 0 => nlinarith [mul_self_nonneg (w 1), mul_self_nonneg (w 2)]
    | 1 => nlinarith [mul_self_nonneg (w 0), mul_self_nonneg (w 2)]
    | 2 => nlinarith [mul_self_nonneg (w 0), mul_self_nonneg (w 1)]
  by_cases h0 : ∃ a, v a ≠ 0
  · have h0' : ∃ a, posIn s v a ≠ 0 := by
      obtain ⟨a, ha⟩ := h0
      exact ⟨a, mul_ne_zero hs.ne' ha⟩
    have b1 := big v hv h0
    have b2 := big _ hv' h0'
    unfold reducedYlm
    simp only [if_neg b1, if_neg b2]
    unfold posIn at hv' ⊢
    rw [hr, azimuth_in hs (hv 0) (hv 1) (hv' 0) (hv' 1), mul_div_mul_left _ _ hs.ne']
  · push Not at h0
    unfold posIn
    simp only [h0, mul_zero]

theorem gridVec_res (n : Fin 3 → ℤ) (d : Fin 3 → ℝ) (hd : ∀ a, 1 / 1000000000 ≤ d a) (c : ℤ × ℤ × ℤ) :
    Res (gridVec n d c) := by
  have key : ∀ (i : ℤ) (x : ℝ), 1 / 1000000000 ≤ x → (i : ℝ) * x = 0 ∨ 1 / 1000000000 ≤ |(i : ℝ) * x| := by
    intro i x hx
    by_cases hi : i = 0
    · left; rw [hi]; simp
    · right
      have h1 : (1 : ℝ) ≤ |(i : ℝ)| := by exact_mod_cast Int.one_le_abs hi
      rw [abs_mul]
      have h2 : x ≤ |x| := le_abs_self x
      nlinarith [abs_nonneg x]
  intro a
  unfold gridVec
  match a with
  | 0 => simp only; split_ifs <;> exact key _ _ (hd 0)
  | 1 => simp only; split_ifs <;> exact key _ _ (hd 1)
  | 2 => simp only; split_ifs <;> exact key _ _ (hd 2)

theorem ylm_k_in (hu : 0 < u) (v : ℝ) (E : Two.Env) (h : ResolvedK E.mesh) (h' : ResolvedK (meshIn u E.mesh)) (ell : ℕ)
    (m : ℤ) (c : ℤ × ℤ × ℤ) :
    (envIn u v E).ylm ell m (kvec (meshIn u E.mesh) c) = E.ylm ell m (kvec E.mesh c) := by
  show reducedYlm E.P ell m _ _ _ = reducedYlm E.P ell m _ _ _
  have h2 := gridVec_res (meshIn u E.mesh).n _ h' c
  have h3 : gridVec (meshIn u E.mesh).n (fun a => 2 * Real.pi / (meshIn u E.mesh).L a) c = posIn (1 / u) (kvec E.mesh c) :=
    kvec_in u E.mesh c
  rw [h3] at h2
  rw [kvec_in]
  exact reducedYlm_in (one_div_pos.2 hu) _ _ _ (gridVec_res _ _ h c) h2

theorem ylm_r_in (hu : 0 < u) (v : ℝ) (E : Two.Env) (h : ResolvedR E.mesh) (h' : ResolvedR (meshIn u E.mesh)) (ell : ℕ)
    (m : ℤ) (c : ℤ × ℤ × ℤ) :
    (envIn u v E).ylm ell m (rvec (meshIn u E.mesh) c) = E.ylm ell m (rvec E.mesh c) := by
  show reducedYlm E.P ell m _ _ _ = reducedYlm E.P ell m _ _ _
  have h2 := gridVec_res (meshIn u E.mesh).n _ h' c
  have h3 : gridVec (meshIn u E.mesh).n (fun a => (meshIn u E.mesh).L a / (meshIn u E.mesh).n a) c =
      posIn u (rvec E.mesh c) := rvec_in u E.mesh c
  rw [h3] at h2
  rw [rvec_in]
  exact reducedYlm_in hu _ _ _ (gridVec_res _ _ h c) h2

/-! ### Bins -/

theorem getD_scaled (v : ℝ) (l : List ℝ) (i : ℕ) : (l.map (v * ·)).getD i 0 = v * l.getD i 0 := by
  rw [List.getD_eq_getElem?_getD, List.getD_eq_getElem?_getD, List.getElem?_map]
  cases l[i]? <;> simp

theorem win_in (u v : ℝ) (E : Two.Env) (c : ℤ × ℤ × ℤ) : (envIn u v E).win c = E.win c := rfl

theorem alias_in (u v : ℝ) (E : Two.Env) (c : ℤ × ℤ × ℤ) : (envIn u v E).alias_ c = E.alias_ c := rfl

theorem inBin_in {v : ℝ} (hv : 0 < v) (lo up x : ℝ) : inBin (v * lo) (v * up) (v * x) = inBin lo up x := by
  unfold inBin
  rw [decide_eq_decide, mul_le_mul_iff_right₀ hv, mul_lt_mul_iff_right₀ hv]

theorem modesIn_in (hu : 0 < u) {E : Two.Env} (hg : OnGrid E (1 / 100000) 1000000)
    (hg' : OnGrid (envIn u (1 / u) E) (1 / 100000) 1000000) {i : ℕ} (hi : i < E.numBins) :
    modesIn (envIn u (1 / u) E) i = modesIn E i := by
  ext c
  rw [modesIn_grid hg' hi, modesIn_grid hg hi]
  have e1 : (envIn u (1 / u) E).edges = E.edges.map (1 / u * ·) := rfl
  have e2 : (envIn u (1 / u) E).mesh = meshIn u E.mesh := rfl
  have e3 : (meshIn u E.mesh).n = E.mesh.n := rfl
  rw [e1, e2, e3, getD_scaled, getD_scaled, kvec_in, mag_in (one_div_pos.2 hu).le, inBin_in (one_div_pos.2 hu)]

theorem sepsIn_in (hu : 0 < u) {E : Two.Env} (hg : OnGrid E (1 / 10) 1000000)
    (hg' : OnGrid (envIn u u E) (1 / 10) 1000000) {i : ℕ} (hi : i < E.numBins) :
    sepsIn (envIn u u E) i = sepsIn E i := by
  ext c
  rw [sepsIn_grid hg' hi, sepsIn_grid hg hi]
  have e1 : (envIn u u E).edges = E.edges.map (u * ·) := rfl
  have e2 : (envIn u u E).mesh = meshIn u E.mesh := rfl
  have e3 : (meshIn u E.mesh).n = E.mesh.n := rfl
  rw [e1, e2, e3, getD_scaled, getD_scaled, rvec_in, mag_in hu.le, inBin_in hu]

theorem meanLen_in (v : ℝ) (S : Finset (ℤ × ℤ × ℤ)) (f : ℤ × ℤ × ℤ → ℝ) (centre : ℝ) :
    meanLen S (fun c => v * f c) (v * centre) = v * meanLen S f centre := by
  unfold meanLen
  split_ifs
  · rfl
  · rw [← Finset.mul_sum, mul_div_assoc]

theorem meanOver_in (s : ℂ) (S : Finset (ℤ × ℤ × ℤ)) (f : ℤ × ℤ × ℤ → ℂ) :
    meanOver S (fun c => s * f c) = s * meanOver S f := by
  unfold meanOver
  rw [← Finset.mul_sum, mul_div_assoc]

/-- A bin with its length and value multiplied. -/
noncomputable def binIn {V : Type} [AddCommGroup V] [Module ℝ V] (v s : ℝ) (b : Bin ℝ V) : Bin ℝ V :=
  ⟨b.num, v * b.len, s • b.val⟩

theorem statsFourier_length (E : Two.Env) (fa fb : ℤ → ℂ) (amp : ℂ) (ell : ℕ) (m : ℤ) :
    (statsFourier E fa fb amp ell m).length = E.numBins := by
  unfold statsFourier
  rw [binStats_eq, List.length_map, List.length_range]

theorem statsConfig_length (E : Two.Env) (fa fb : ℤ → ℂ) (amp : ℂ) (ell : ℕ) (m : ℤ) :
    (statsConfig E fa fb amp ell m).length = E.numBins := by
  unfold statsConfig
  simp only
  rw [binStats_eq, List.length_map, List.length_range]

theorem getD_out {α : Type} {l : List α} {i : ℕ} (h : l.length ≤ i) (d : α) : l.getD i d = d := by
  rw [List.getD_eq_getElem?_getD, List.getElem?_eq_none h]
  rfl

/-- The statistics in Fourier space of the same coefficients. -/
theorem statsFourier_in (hu : 0 < u) {E : Two.Env} (hk : ResolvedK E.mesh) (hk' : ResolvedK (meshIn u E.mesh))
    (hg : OnGrid E (1 / 100000) 1000000) (hg' : OnGrid (envIn u (1 / u) E) (1 / 100000) 1000000) (fa fb : ℤ → ℂ)
    (amp : ℂ) (ell : ℕ) (m : ℤ) (i : ℕ) :
    (statsFourier (envIn u (1 / u) E) fa fb amp ell m).getD i ⟨0, 0, 0⟩ =
      binIn (1 / u) 1 ((statsFourier E fa fb amp ell m).getD i ⟨0, 0, 0⟩) := by
  by_cases hi : i < E.numBins
  · rw [statsFourier_bin _ _ _ _ _ _ (show i < (envIn u (1 / u) E).numBins from hi), statsFourier_bin _ _ _ _ _ _ hi,
      modesIn_in hu hg hg' hi]
    unfold binIn
    rw [one_smul]
    have e2 : (envIn u (1 / u) E).mesh = meshIn u E.mesh := rfl
    have e4 : (envIn u (1 / u) E).centres.getD i 0 = 1 / u * E.centres.getD i 0 := getD_scaled _ _ _
    have e5 : (fun c => mag (kvec (meshIn u E.mesh) c)) = fun c => 1 / u * mag (kvec E.mesh c) := by
      funext c
      rw [kvec_in, mag_in (one_div_pos.2 hu).le]
    have e6 : ∀ c, power (envIn u (1 / u) E) fa fb c = power E fa fb c := fun _ => rfl
    rw [e2, e4, e5, meanLen_in]
    simp only [e6, alias_in, win_in, ylm_k_in hu _ E hk hk']
  · rw [getD_out (by rw [statsFourier_length]; exact not_lt.1 hi) _,
      getD_out (by rw [statsFourier_length]; exact not_lt.1 hi) _]
    unfold binIn
    simp

theorem corr_in (v : ℝ) (E : Two.Env) (fa fb : ℤ → ℂ) (amp : ℂ) (c : ℤ × ℤ × ℤ) :
    Zeta.corr (envIn u v E) fa fb amp c = ((1 / u ^ 3 : ℝ) : ℂ) * Zeta.corr E fa fb amp c := by
  unfold Zeta.corr
  have e2 : (envIn u v E).mesh = meshIn u E.mesh := rfl
  have e3 : (meshIn u E.mesh).n = E.mesh.n := rfl
  rw [e2, e3, vol_in]
  simp only [alias_in, win_in]
  push_cast
  rw [div_mul_div_comm, one_mul]

theorem twopt3d_in (v : ℝ) (E : Two.Env) (fa fb : ℤ → ℂ) (amp : ℂ) (g : ℤ) :
    twopt3d (envIn u v E) fa fb amp g = ((1 / u ^ 3 : ℝ) : ℂ) * twopt3d E fa fb amp g := by
  unfold twopt3d
  have e2 : (envIn u v E).mesh = meshIn u E.mesh := rfl
  have e3 : (meshIn u E.mesh).n = E.mesh.n := rfl
  rw [e2, e3, vol_in]
  simp only [alias_in, win_in]
  push_cast
  rw [div_mul_div_comm, one_mul]

theorem statsConfig_in (hu : 0 < u) {E : Two.Env} (hn : ∀ a, 0 < E.mesh.n a) (hr : ResolvedR E.mesh)
    (hr' : ResolvedR (meshIn u E.mesh)) (hg : OnGrid E (1 / 10) 1000000)
    (hg' : OnGrid (envIn u u E) (1 / 10) 1000000) (fa fb : ℤ → ℂ) (amp : ℂ) (ell : ℕ) (m : ℤ) (i : ℕ) :
    (statsConfig (envIn u u E) fa fb amp ell m).getD i ⟨0, 0, 0⟩ =
      binIn u (1 / u ^ 3) ((statsConfig E fa fb amp ell m).getD i ⟨0, 0, 0⟩) := by
  by_cases hi : i < E.numBins
  · rw [statsConfig_bin _ (show ∀ a, 0 < (envIn u u E).mesh.n a from hn) _ _ _ _ _
      (show i < (envIn u u E).numBins from hi), statsConfig_bin _ hn _ _ _ _ _ hi, sepsIn_in hu hg hg' hi]
    unfold binIn
    have e2 : (envIn u u E).mesh = meshIn u E.mesh := rfl
    have e4 : (envIn u u E).centres.getD i 0 = u * E.centres.getD i 0 := getD_scaled _ _ _
    have e5 : (fun c => mag (rvec (meshIn u E.mesh) c)) = fun c => u * mag (rvec E.mesh c) := by
      funext c
      rw [rvec_in, mag_in hu.le]
    rw [e2, e4, e5, meanLen_in, Complex.real_smul, ← meanOver_in]
    simp only [corr_in, ylm_r_in hu _ E hr hr', mul_assoc]
  · rw [getD_out (by rw [statsConfig_length]; exact not_lt.1 hi) _,
      getD_out (by rw [statsConfig_length]; exact not_lt.1 hi) _]
    unfold binIn
    simp

/-! ### The sums over orders -/

theorem foldl_rel {α β γ : Type} (R : β → γ → Prop) {f : β → α → β} {g : γ → α → γ}
    (h : ∀ b c a, R b c → R (f b a) (g c a)) : ∀ (l : List α) {b : β} {c : γ}, R b c → R (l.foldl f b) (l.foldl g c)
  | [], _, _, hbc => hbc
  | a :: l, b, c, hbc => foldl_rel R h l (h b c a hbc)

theorem sumOrders_in {V : Type} [AddCommGroup V] [Module ℝ V] (u v w s : ℝ) (E : Two.Env)
    (bins bins' : ℤ → ℤ → List (Bin ℝ V))
    (h : ∀ M m i, (bins' M m).getD i ⟨0, 0, 0⟩ = binIn w s ((bins M m).getD i ⟨0, 0, 0⟩)) (i : ℕ) :
    sumOrders (envIn u v E) bins' i =
      ⟨(sumOrders E bins i).num, w * (sumOrders E bins i).len, s • (sumOrders E bins i).val⟩ := by
  unfold sumOrders
  have hc : ∀ a b c d, coupling2 (envIn u v E) a b c d = coupling2 E a b c d := fun _ _ _ _ => rfl
  have hE : (envIn u v E).ELL = E.ELL := rfl
  simp only [hc, hE]
  refine foldl_rel (fun (b c : ℕ → Saved V) => ∀ i, b i = ⟨(c i).num, w * (c i).len, s • (c i).val⟩) ?_ _ ?_ i
  · intro b c M hbc
    refine foldl_rel (fun (b c : ℕ → Saved V) => ∀ i, b i = ⟨(c i).num, w * (c i).len, s • (c i).val⟩) ?_ _ hbc
    intro b c m hbc i
    unfold accumulate
    by_cases hc0 : |coupling2 E E.ELL E.ELL m M| < epsCoupling
    · simp only [if_pos hc0]
      exact hbc i
    · simp only [if_neg hc0, h, hbc]
      unfold binIn
      by_cases hM : M = 0 ∧ m = 0
      · simp only [if_pos hM, smul_add, smul_smul, mul_comm]
      · simp only [if_neg hM, smul_add, smul_smul, mul_comm]
  · intro i
    simp

/-- The output from statistics in the other unit. -/
theorem output_in {V : Type} [AddCommGroup V] [Module ℝ V] (u v s t norm : ℝ) (E : Two.Env) (st st' : ℕ → Saved V)
    (h : ∀ i, st' i = ⟨(st i).num, v * (st i).len, s • (st i).val⟩) :
    output (envIn u v E) (t * norm) st' = (output E norm st).map (rowIn v (t * s)) := by
  unfold output
  rw [List.map_map]
  have hE : (envIn u v E).numBins = E.numBins := rfl
  rw [hE]
  apply List.map_congr_left
  intro i _
  unfold rowIn
  simp only [Function.comp, h, smul_smul]
  have : (envIn u v E).centres.getD i 0 = v * E.centres.getD i 0 := getD_scaled _ _ _
  rw [this, show t * norm * s = t * s * norm by ring]

/-! ### The bispectrum -/

theorem window_in (u v : ℝ) (E : Env3) (g : ℤ) : window (envIn3 u v E) g = window E g := rfl

theorem lowerEdge_in (u v : ℝ) (E : Env3) (b : ℤ) : lowerEdge (envIn3 u v E) b = v * lowerEdge E b := getD_scaled _ _ _

theorem upperEdge_in (u v : ℝ) (E : Env3) (b : ℤ) : upperEdge (envIn3 u v E) b = v * upperEdge E b := getD_scaled _ _ _

theorem inBand_in (hu : 0 < u) (v : ℝ) (E : Env3) (lo up : ℝ) (c : ℤ × ℤ × ℤ) :
    inBand (envIn3 u v E) (1 / u * lo) (1 / u * up) c = inBand E lo up c := by
  have hu' := one_div_pos.2 hu
  unfold inBand
  have e : mag (kvec (envIn3 u v E).mesh c) = 1 / u * mag (kvec E.mesh c) := by
    show mag (kvec (meshIn u E.mesh) c) = _
    rw [kvec_in, mag_in hu'.le]
  rw [decide_eq_decide, e, mul_le_mul_iff_right₀ hu', mul_lt_mul_iff_right₀ hu']

theorem nmodesBand_in (hu : 0 < u) (v : ℝ) (E : Env3) (lo up : ℝ) :
    nmodesBand (envIn3 u v E) (1 / u * lo) (1 / u * up) = nmodesBand E lo up := by
  unfold nmodesBand
  have : inBand (envIn3 u v E) (1 / u * lo) (1 / u * up) = inBand E lo up := by
    funext c; exact inBand_in hu v E lo up c
  rw [this]
  rfl

theorem keffBand_in (hu : 0 < u) (v : ℝ) (E : Env3) (lo up : ℝ) :
    keffBand (envIn3 u v E) (1 / u * lo) (1 / u * up) = 1 / u * keffBand E lo up := by
  unfold keffBand
  rw [nmodesBand_in hu]
  have h1 : inBand (envIn3 u v E) (1 / u * lo) (1 / u * up) = inBand E lo up := by
    funext c; exact inBand_in hu v E lo up c
  have h2 : (fun c => mag (kvec (envIn3 u v E).mesh c)) = fun c => 1 / u * mag (kvec E.mesh c) := by
    funext c
    show mag (kvec (meshIn u E.mesh) c) = _
    rw [kvec_in, mag_in (one_div_pos.2 hu).le]
  rw [h1, h2]
  show (((cells E.mesh.n).filter (inBand E lo up)).map fun c => 1 / u * mag (kvec E.mesh c)).sum / _ = _
  rw [List.sum_map_mul_left, mul_div_assoc]

theorem bandLimited_in (hu : 0 < u) (v : ℝ) (E : Env3) (hk : ResolvedK E.mesh) (hk' : ResolvedK (meshIn u E.mesh))
    (fk : ℤ → ℂ) (ell : ℕ) (m : ℤ) (lo up : ℝ) (g : ℤ) :
    bandLimited (envIn3 u v E) fk ell m (1 / u * lo) (1 / u * up) g = bandLimited E fk ell m lo up g := by
  unfold bandLimited
  rw [nmodesBand_in hu]
  congr 1
  show dft E.mesh.n 1 _ g = dft E.mesh.n 1 _ g
  congr 1
  funext g
  simp only [inBand_in hu, window_in]
  show (if inBand E lo up (cellOf E.mesh.n g) = true then (envIn u v E.toEnv).ylm ell m
    (kvec (meshIn u E.mesh) (cellOf E.mesh.n g)) * _ else 0) = _
  rw [ylm_k_in hu v E.toEnv hk hk']

theorem dft_in (n : Fin 3 → ℤ) (s : ℤ) (a : ℂ) (f : ℤ → ℂ) (g : ℤ) : dft n s (fun x => a * f x) g = a * dft n s f g := by
  unfold dft
  rw [← List.sum_map_mul_left]
  simp only [mul_assoc]

theorem invFourier_in (u : ℝ) (M : Mesh ℝ) (f : ℤ → ℂ) (g : ℤ) :
    invFourier (meshIn u M) f g = ((1 / u ^ 3 : ℝ) : ℂ) * invFourier M f g := by
  unfold invFourier
  rw [← dft_in]
  show dft M.n 1 _ g = _
  congr 1
  funext x
  rw [vol_in]
  push_cast
  rw [div_mul_div_comm, one_mul]

theorem gField_in (hu : u ≠ 0) (v : ℝ) (E : Env3) (data rand : List Part) (alpha : ℝ) (M : ℤ) (g : ℤ) :
    gField (envIn3 u v E) (data.map (partIn u)) (rand.map (partIn u)) alpha M g =
      ((1 / u ^ 3 : ℝ) : ℂ) * gField E data rand alpha M g := by
  unfold gField
  simp only [window_in]
  show invFourier (meshIn u E.mesh) (fun g => fourier (meshIn u E.mesh) (dnField (envIn u v E.toEnv) _ _ alpha E.ELL M) g /
    (window E g : ℂ)) g = _
  rw [invFourier_in, dn_in hu]

theorem bkComponent_in (hu : 0 < u) (v : ℝ) (E : Env3) (hk : ResolvedK E.mesh) (hk' : ResolvedK (meshIn u E.mesh))
    (hv : v = 1 / u) (dn00 G G' : ℤ → ℂ) (a : ℂ) (hG : ∀ g, G' g = a * G g) (t : ThreePt.Triplet) (row col : ℤ) :
    bkComponent (envIn3 u v E) dn00 G' t row col = a * bkComponent E dn00 G t row col := by
  unfold bkComponent
  simp only [lowerEdge_in, upperEdge_in, hv, bandLimited_in hu _ E hk hk', hG]
  show ((gids E.mesh).map fun g => bandLimited E dn00 E.ell1 _ _ _ g * bandLimited E dn00 E.ell2 _ _ _ g * (a * G g)).sum = _
  rw [← List.sum_map_mul_left]
  congr 1
  apply List.map_congr_left
  intro g _
  ring

theorem mirrored_in (f s : ℝ) (x : ℂ) : mirrored f ((s : ℂ) * x) = (s : ℂ) * mirrored f x := by
  unfold mirrored
  rw [map_mul, Complex.conj_ofReal]
  ring

theorem coupling3_in (u v : ℝ) (E : Env3) (t : ThreePt.Triplet) : coupling3 (envIn3 u v E) t = coupling3 E t := rfl

/-- A component and its volume element. -/
theorem cell_in (hu : u ≠ 0) (v : ℝ) (E : Env3) (t : ThreePt.Triplet) (f : ℝ) (x : ℂ) :
    ((coupling3 (envIn3 u v E) t * (envIn3 u v E).mesh.volCell : ℝ) : ℂ) * mirrored f (((1 / u ^ 3 : ℝ) : ℂ) * x) =
      ((coupling3 E t * E.mesh.volCell : ℝ) : ℂ) * mirrored f x := by
  rw [mirrored_in, coupling3_in]
  have : (envIn3 u v E).mesh.volCell = u ^ 3 * E.mesh.volCell := volCell_in u E.mesh
  rw [this]
  have h : (u : ℂ) ≠ 0 := by exact_mod_cast hu
  push_cast
  field_simp

theorem bkAdds_in (hu : 0 < u) (E : Env3) (hk : ResolvedK E.mesh) (hk' : ResolvedK (meshIn u E.mesh))
    (data rand : List Part) (alpha : ℝ) (dn00 : ℤ → ℂ) (t : ThreePt.Triplet) :
    bkAdds (envIn3 u (1 / u) E) (data.map (partIn u)) (rand.map (partIn u)) alpha dn00 t =
      bkAdds E data rand alpha dn00 t := by
  unfold bkAdds
  apply List.map_congr_left
  intro e _
  simp only [bkComponent_in hu _ E hk hk' rfl dn00 _ _ _ (gField_in hu.ne' _ E data rand alpha t.M), cell_in hu.ne']
  rfl

theorem bkAddsBox_in (hu : 0 < u) (E : Env3) (hk : ResolvedK E.mesh) (hk' : ResolvedK (meshIn u E.mesh))
    (pos : List (Fin 3 → ℝ)) (t : ThreePt.Triplet) :
    Zeta.bkAddsBox (envIn3 u (1 / u) E) (pos.map (posIn u)) t = Zeta.bkAddsBox E pos t := by
  have h1 : Zeta.boxDn (envIn3 u (1 / u) E) (pos.map (posIn u)) = Zeta.boxDn E pos := box_in hu.ne' E.toEnv pos
  have h2 : ∀ g, Zeta.boxG (envIn3 u (1 / u) E) (pos.map (posIn u)) g = ((1 / u ^ 3 : ℝ) : ℂ) * Zeta.boxG E pos g := by
    intro g
    unfold Zeta.boxG
    rw [h1]
    exact invFourier_in u E.mesh _ g
  unfold Zeta.bkAddsBox
  apply List.map_congr_left
  intro e _
  rw [h1]
  simp only [bkComponent_in hu _ E hk hk' rfl _ _ _ _ h2, cell_in hu.ne']
  rfl

theorem triplets_in (u v : ℝ) (E : Env3) : triplets (envIn3 u v E) = triplets E := rfl

theorem entryAt_in (u v : ℝ) (E : Env3) (i : ℤ) : entryAt (envIn3 u v E) i = entryAt E i := rfl

theorem k1eff_in (hu : 0 < u) (E : Env3) (i : ℤ) : k1eff (envIn3 u (1 / u) E) i = 1 / u * k1eff E i := by
  unfold k1eff
  rw [entryAt_in]
  cases entryAt E i with
  | none => simp
  | some e => simp only [lowerEdge_in, upperEdge_in, keffBand_in hu]

theorem k2eff_in (hu : 0 < u) (E : Env3) (i : ℤ) : k2eff (envIn3 u (1 / u) E) i = 1 / u * k2eff E i := by
  unfold k2eff
  rw [entryAt_in]
  cases entryAt E i with
  | none => simp
  | some e => simp only [lowerEdge_in, upperEdge_in, keffBand_in hu]

theorem keffBox_in (hu : 0 < u) (E : Env3) (side : ThreePt.Entry → ℤ) (i : ℤ) :
    Zeta.keffBox (envIn3 u (1 / u) E) side i = 1 / u * Zeta.keffBox E side i := by
  unfold Zeta.keffBox
  have : Zeta.entryBox (envIn3 u (1 / u) E) i = Zeta.entryBox E i := rfl
  rw [this]
  cases Zeta.entryBox E i with
  | none => simp
  | some e => simp only [lowerEdge_in, upperEdge_in, keffBand_in hu]

theorem nmodesBox_in (hu : 0 < u) (E : Env3) (side : ThreePt.Entry → ℤ) (i : ℤ) :
    Zeta.nmodesBox (envIn3 u (1 / u) E) side i = Zeta.nmodesBox E side i := by
  unfold Zeta.nmodesBox
  have : Zeta.entryBox (envIn3 u (1 / u) E) i = Zeta.entryBox E i := rfl
  rw [this]
  cases Zeta.entryBox E i with
  | none => rfl
  | some e => simp only [lowerEdge_in, upperEdge_in, nmodesBand_in hu]

theorem uncoupled_in (hu : 0 < u) (v : ℝ) (E : Env3) (hr : ResolvedR E.mesh) (hr' : ResolvedR (meshIn u E.mesh))
    (fa fb : ℤ → ℂ) (amp : ℂ) (t : ThreePt.Triplet) (ka kb : ℝ) :
    uncoupled (envIn3 u v E) fa fb amp t (1 / u * ka) (1 / u * kb) = uncoupled E fa fb amp t ka kb := by
  unfold uncoupled
  have e1 : ((envIn3 u v E).mesh.volCell : ℂ) = (u : ℂ) ^ 3 * (E.mesh.volCell : ℂ) := by
    have := volCell_in u E.mesh
    show ((meshIn u E.mesh).volCell : ℂ) = _
    rw [this]
    push_cast
    rfl
  have e2 : ∀ g, dft E.mesh.n 1 (twopt3d (envIn u v E.toEnv) fa fb amp) g =
      ((1 / u ^ 3 : ℝ) : ℂ) * dft E.mesh.n 1 (twopt3d E.toEnv fa fb amp) g := by
    intro g
    rw [← dft_in]
    congr 1
    funext x
    exact twopt3d_in v E.toEnv fa fb amp x
  have e3 : ∀ (k : ℝ) (c : ℤ × ℤ × ℤ), 1 / u * k * mag (rvec (meshIn u E.mesh) c) = k * mag (rvec E.mesh c) := by
    intro k c
    rw [rvec_in, mag_in hu.le]
    field_simp
  rw [e1]
  show ((cells E.mesh.n).map fun c => dft E.mesh.n 1 (twopt3d (envIn u v E.toEnv) fa fb amp) (gid E.mesh.n c) *
    ((E.sj E.ell1 (1 / u * ka * mag (rvec (meshIn u E.mesh) c)) * E.sj E.ell2 (1 / u * kb * mag (rvec (meshIn u E.mesh) c)) : ℝ) *
      (envIn u v E.toEnv).ylm E.ell1 t.m1 (rvec (meshIn u E.mesh) c) *
      (envIn u v E.toEnv).ylm E.ell2 t.m2 (rvec (meshIn u E.mesh) c))).sum * _ = _
  simp only [e2, e3, ylm_r_in hu v E.toEnv hr hr']
  simp only [mul_assoc]
  rw [List.sum_map_mul_left]
  have h : (u : ℂ) ≠ 0 := by exact_mod_cast hu.ne'
  rw [show ((1 / u ^ 3 : ℝ) : ℂ) = 1 / (u : ℂ) ^ 3 by push_cast; rfl]
  generalize (List.map _ _ : List ℂ).sum = S
  field_simp

theorem pairShot_in (u v : ℝ) (E : Env3) (t : ThreePt.Triplet) (bins bins' : List (Bin ℝ (ℂ × ℂ)))
    (h : ∀ i, bins'.getD i ⟨0, 0, 0⟩ = binIn (1 / u) 1 (bins.getD i ⟨0, 0, 0⟩)) (b : ℤ) :
    pairShot (envIn3 u v E) t bins' b = pairShot E t bins b := by
  unfold pairShot
  rw [h]
  unfold binIn
  simp only [one_smul]
  rfl

theorem snAdds_in (hu : 0 < u) (E : Env3) (hk : ResolvedK E.mesh) (hk' : ResolvedK (meshIn u E.mesh))
    (hr : ResolvedR E.mesh) (hr' : ResolvedR (meshIn u E.mesh)) (hg : OnGrid E.toEnv (1 / 100000) 1000000)
    (hg' : OnGrid (envIn u (1 / u) E.toEnv) (1 / 100000) 1000000)
    (data rand : List Part) (alpha : ℝ) (dn00 : ℤ → ℂ) (t : ThreePt.Triplet) :
    snAdds (envIn3 u (1 / u) E) (data.map (partIn u)) (rand.map (partIn u)) alpha dn00 t =
      snAdds E data rand alpha dn00 t := by
  have e1 : fourier (envIn3 u (1 / u) E).mesh (dnField (envIn3 u (1 / u) E).toEnv (data.map (partIn u))
      (rand.map (partIn u)) alpha E.ELL t.M) = fourier E.mesh (dnField E.toEnv data rand alpha E.ELL t.M) :=
    dn_in hu.ne' _ _ _ _ _ _ _
  have e2 : ∀ ell m, fourier (envIn3 u (1 / u) E).mesh (quadField (envIn3 u (1 / u) E).toEnv (data.map (partIn u))
      (rand.map (partIn u)) alpha ell m) = fourier E.mesh (quadField E.toEnv data rand alpha ell m) :=
    fun _ _ => quad_in hu.ne' _ _ _ _ _ _ _
  have e3 : shotAmp3 (envIn3 u (1 / u) E).toEnv (data.map (partIn u)) (rand.map (partIn u)) alpha E.ELL t.M =
      shotAmp3 E.toEnv data rand alpha E.ELL t.M := shotAmp3_in _ _ _ _ _ _ _ _
  have e4 : ∀ fa fb amp ell m i, (statsFourier (envIn3 u (1 / u) E).toEnv fa fb amp ell m).getD i ⟨0, 0, 0⟩ =
      binIn (1 / u) 1 ((statsFourier E.toEnv fa fb amp ell m).getD i ⟨0, 0, 0⟩) :=
    fun _ _ _ _ _ _ => statsFourier_in hu hk hk' hg hg' _ _ _ _ _ _
  have e5 : (envIn3 u (1 / u) E).ELL = E.ELL := rfl
  unfold snAdds
  simp only [e5, e1, e2, e3, k1eff_in hu, k2eff_in hu, uncoupled_in hu _ E hr hr', coupling3_in,
    pairShot_in _ _ _ _ _ _ (e4 _ _ _ _ _)]
  rfl

theorem snAddsBox_in (hu : 0 < u) (E : Env3) (hk : ResolvedK E.mesh) (hk' : ResolvedK (meshIn u E.mesh))
    (hr : ResolvedR E.mesh) (hr' : ResolvedR (meshIn u E.mesh)) (hg : OnGrid E.toEnv (1 / 100000) 1000000)
    (hg' : OnGrid (envIn u (1 / u) E.toEnv) (1 / 100000) 1000000)
    (pos : List (Fin 3 → ℝ)) (t : ThreePt.Triplet) :
    Zeta.snAddsBox (envIn3 u (1 / u) E) (pos.map (posIn u)) t = Zeta.snAddsBox E pos t := by
  have e1 : Zeta.boxDn (envIn3 u (1 / u) E) (pos.map (posIn u)) = Zeta.boxDn E pos := box_in hu.ne' E.toEnv pos
  have e2 : Zeta.boxN (envIn3 u (1 / u) E) (pos.map (posIn u)) = Zeta.boxN E pos := boxCounts_in hu.ne' E.toEnv pos
  have e4 : ∀ fa fb amp ell m i, (statsFourier (envIn3 u (1 / u) E).toEnv fa fb amp ell m).getD i ⟨0, 0, 0⟩ =
      binIn (1 / u) 1 ((statsFourier E.toEnv fa fb amp ell m).getD i ⟨0, 0, 0⟩) :=
    fun _ _ _ _ _ _ => statsFourier_in hu hk hk' hg hg' _ _ _ _ _ _
  unfold Zeta.snAddsBox
  simp only [e1, e2, keffBox_in hu, uncoupled_in hu _ E hr hr', coupling3_in,
    pairShot_in _ _ _ _ _ _ (e4 _ _ _ _ _), List.length_map]
  rfl

/-! ### The three-point correlation function -/

theorem shell_grid {E : Env3} (hg : OnGrid E.toEnv 1 100000) {b : ℤ} (h0 : 0 ≤ b) (h1 : b < E.numBins) (c : ℤ × ℤ × ℤ) :
    c ∈ Zeta.shell E b ↔ c ∈ cells E.mesh.n ∧
      inBin (E.edges.getD b.toNat 0) (E.edges.getD (b.toNat + 1) 0) (mag (rvec E.mesh c)) = true := by
  obtain ⟨x, hx, -⟩ := hg b.toNat (by omega)
  obtain ⟨y, hy, hy'⟩ := hg (b.toNat + 1) (by omega)
  have := floor_in_bin (x := mag (rvec E.mesh c)) (d := 1) (by norm_num) hx hy hy'
  unfold Zeta.shell inBin
  rw [Finset.mem_filter, allModes_eq, mem_box, mem_cells, decide_eq_true_iff, ← this, div_one, mul_one, mul_one]
  norm_num

theorem shell_in (hu : 0 < u) {E : Env3} (hg : OnGrid E.toEnv 1 100000) (hg' : OnGrid (envIn u u E.toEnv) 1 100000) {b : ℤ}
    (h0 : 0 ≤ b) (h1 : b < E.numBins) : Zeta.shell (envIn3 u u E) b = Zeta.shell E b := by
  ext c
  rw [shell_grid (E := envIn3 u u E) hg' h0 h1, shell_grid hg h0 h1]
  have e1 : (envIn3 u u E).edges = E.edges.map (u * ·) := rfl
  have e2 : (envIn3 u u E).mesh = meshIn u E.mesh := rfl
  have e3 : (meshIn u E.mesh).n = E.mesh.n := rfl
  rw [e1, e2, e3, getD_scaled, getD_scaled, rvec_in, mag_in hu.le, inBin_in hu]

theorem uncoupled3_length (E : Env3) (fa fb : ℤ → ℂ) (amp : ℂ) (t : ThreePt.Triplet) :
    (Zeta.uncoupled3 E fa fb amp t).length = E.numBins := by
  unfold Zeta.uncoupled3
  rw [binStats_eq, List.length_map, List.length_map, List.length_range]

theorem uncoupled3_in (hu : 0 < u) {E : Env3} (hn : ∀ a, 0 < E.mesh.n a) (hr : ResolvedR E.mesh)
    (hr' : ResolvedR (meshIn u E.mesh)) (hg : OnGrid E.toEnv 1 100000) (hg' : OnGrid (envIn u u E.toEnv) 1 100000)
    (fa fb : ℤ → ℂ) (amp : ℂ) (t : ThreePt.Triplet) (i : ℕ) :
    (Zeta.uncoupled3 (envIn3 u u E) fa fb amp t).getD i ⟨0, 0, 0⟩ =
      binIn u (1 / u ^ 6) ((Zeta.uncoupled3 E fa fb amp t).getD i ⟨0, 0, 0⟩) := by
  by_cases hi : i < E.numBins
  · have h0 : (0 : ℤ) ≤ (i : ℤ) := by omega
    have h1 : (i : ℤ) < E.numBins := by omega
    have k := Zeta.uncoupled3_bin E hn fa fb amp t h0 h1
    have k' := Zeta.uncoupled3_bin (envIn3 u u E) hn fa fb amp t h0 h1
    simp only [Int.toNat_natCast] at k k'
    rw [k, k', shell_in hu hg hg' h0 h1]
    have e5 : ∀ c, mag (rvec (meshIn u E.mesh) c) = u * mag (rvec E.mesh c) := by
      intro c
      rw [rvec_in, mag_in hu.le]
    have m1 : Zeta.meanSep (envIn3 u u E) i = u * Zeta.meanSep E i := by
      unfold Zeta.meanSep
      rw [shell_in hu hg hg' h0 h1]
      split_ifs
      · exact getD_scaled _ _ _
      · show (∑ c ∈ Zeta.shell E i, mag (rvec (meshIn u E.mesh) c)) / _ = _
        simp only [e5]
        rw [← Finset.mul_sum, mul_div_assoc]
    have m2 : Zeta.shellMean (envIn3 u u E) fa fb amp t i = ((1 / u ^ 6 : ℝ) : ℂ) * Zeta.shellMean E fa fb amp t i := by
      unfold Zeta.shellMean
      rw [shell_in hu hg hg' h0 h1]
      show (∑ c ∈ Zeta.shell E i, Zeta.corr (envIn u u E.toEnv) fa fb amp c *
        ((envIn u u E.toEnv).ylm E.ell1 t.m1 (rvec (meshIn u E.mesh) c) *
          (envIn u u E.toEnv).ylm E.ell2 t.m2 (rvec (meshIn u E.mesh) c))) / _ / (_ * ((meshIn u E.mesh).volCell : ℂ)) = _
      simp only [ylm_r_in hu u E.toEnv hr hr', corr_in, volCell_in, mul_assoc]
      rw [← Finset.mul_sum]
      push_cast
      generalize (∑ c ∈ Zeta.shell E i, _ : ℂ) = S
      rw [show (u : ℂ) ^ 6 = u ^ 3 * u ^ 3 by ring]
      simp only [div_eq_mul_inv, mul_inv, one_mul]
      ring
    unfold binIn
    rw [m1, m2, Complex.real_smul]
    congr 1
    show (-1) ^ (E.ell1 + E.ell2) * _ = _
    ring
  · rw [getD_out (by rw [uncoupled3_length]; exact not_lt.1 hi) _,
      getD_out (by rw [uncoupled3_length]; exact not_lt.1 hi) _]
    unfold binIn
    simp

theorem sjlField_in (hu : 0 < u) (v : ℝ) (E : Env3) (hk : ResolvedK E.mesh) (hk' : ResolvedK (meshIn u E.mesh))
    (fk : ℤ → ℂ) (ell : ℕ) (m : ℤ) (r : ℝ) (g : ℤ) :
    Zeta.sjlField (envIn3 u v E) fk ell m (u * r) g = ((1 / u ^ 3 : ℝ) : ℂ) * Zeta.sjlField E fk ell m r g := by
  unfold Zeta.sjlField
  rw [← dft_in]
  show dft E.mesh.n 1 _ g = dft E.mesh.n 1 _ g
  congr 1
  funext g
  have e3 : ∀ c, mag (kvec (meshIn u E.mesh) c) * (u * r) = mag (kvec E.mesh c) * r := by
    intro c
    rw [kvec_in, mag_in (one_div_pos.2 hu).le]
    field_simp
  show ((E.sj ell (mag (kvec (meshIn u E.mesh) (cellOf E.mesh.n g)) * (u * r)) : ℝ) : ℂ) *
    ((envIn u v E.toEnv).ylm ell m (kvec (meshIn u E.mesh) (cellOf E.mesh.n g)) * (fk g / (window E g : ℂ))) /
      (vol (meshIn u E.mesh) : ℂ) = _
  rw [e3, ylm_k_in hu v E.toEnv hk hk', vol_in]
  push_cast
  rw [div_mul_div_comm, one_mul]

theorem zetaComponent_in (hu : 0 < u) (v : ℝ) (E : Env3) (hk : ResolvedK E.mesh) (hk' : ResolvedK (meshIn u E.mesh))
    (F F' : Zeta.Fields) (h1 : F'.f00 = F.f00) (h2 : ∀ M g, F'.G M g = ((1 / u ^ 3 : ℝ) : ℂ) * F.G M g)
    (t : ThreePt.Triplet) (ra rb : ℝ) :
    Zeta.zetaComponent (envIn3 u v E) F' t (u * ra) (u * rb) =
      ((1 / u ^ 9 : ℝ) : ℂ) * Zeta.zetaComponent E F t ra rb := by
  unfold Zeta.zetaComponent
  simp only [sjlField_in hu v E hk hk', h1, h2]
  show ((gids E.mesh).map fun g => ((1 / u ^ 3 : ℝ) : ℂ) * Zeta.sjlField E F.f00 E.ell1 t.m1 ra g *
    (((1 / u ^ 3 : ℝ) : ℂ) * Zeta.sjlField E F.f00 E.ell2 t.m2 rb g) * (((1 / u ^ 3 : ℝ) : ℂ) * F.G t.M g)).sum = _
  rw [← List.sum_map_mul_left]
  congr 1
  apply List.map_congr_left
  intro g _
  have : ((1 / u ^ 9 : ℝ) : ℂ) = ((1 / u ^ 3 : ℝ) : ℂ) * ((1 / u ^ 3 : ℝ) : ℂ) * ((1 / u ^ 3 : ℝ) : ℂ) := by
    rw [← Complex.ofReal_mul, ← Complex.ofReal_mul]
    congr 1
    rw [div_mul_div_comm, div_mul_div_comm]
    congr 1
    · ring
    · ring
  rw [this]
  ring

theorem runAdds_in (a : ℂ) (l : List Add) (i : ℤ) :
    runAdds (l.map fun x => ⟨x.idx, a * x.val⟩) i = a * runAdds l i := by
  unfold runAdds
  have : ∀ f f' : ℤ → ℂ, (∀ i, f' i = a * f i) → ∀ i,
      (l.map fun x : Add => (⟨x.idx, a * x.val⟩ : Add)).foldl (fun b y i => if i = y.idx then b i + y.val else b i) f' i =
        a * l.foldl (fun b y i => if i = y.idx then b i + y.val else b i) f i := by
    induction l with
    | nil => intro f f' h; exact h
    | cons x l ih =>
      intro f f' h
      simp only [List.map_cons, List.foldl_cons]
      apply ih
      intro i
      simp only [h]
      split_ifs
      · rw [mul_add]
      · rfl
  exact this _ _ (fun _ => by rw [mul_zero]) i

theorem recBin_in (hu : 0 < u) {E : Env3} (hn : ∀ a, 0 < E.mesh.n a) (hr : ResolvedR E.mesh)
    (hr' : ResolvedR (meshIn u E.mesh)) (hg : OnGrid E.toEnv 1 100000) (hg' : OnGrid (envIn u u E.toEnv) 1 100000)
    (F F' : Zeta.Fields) (h1 : F'.n00 = F.n00) (h2 : F'.fLM = F.fLM) (h3 : F'.sbar = F.sbar)
    (ts : List ThreePt.Triplet) (side : ThreePt.Entry → ℤ) (i : ℤ) :
    Zeta.recBin (envIn3 u u E) F' ts side i = binIn u (1 / u ^ 6) (Zeta.recBin E F ts side i) := by
  have z : (⟨0, 0, 0⟩ : Bin ℝ ℂ) = binIn u (1 / u ^ 6) ⟨0, 0, 0⟩ := by
    unfold binIn
    simp
  unfold Zeta.recBin
  have e : Zeta.recorded (envIn3 u u E) i = Zeta.recorded E i := rfl
  rw [e]
  cases ts with
  | nil => exact z
  | cons t ts =>
    cases Zeta.recorded E i with
    | none => exact z
    | some en =>
      simp only
      unfold Zeta.stats3
      rw [h1, h2, h3, uncoupled3_in hu hn hr hr' hg hg']

theorem zetaAdds_in (hu : 0 < u) {E : Env3} (hn : ∀ a, 0 < E.mesh.n a) (hk : ResolvedK E.mesh)
    (hk' : ResolvedK (meshIn u E.mesh)) (hr : ResolvedR E.mesh)
    (hr' : ResolvedR (meshIn u E.mesh)) (hg : OnGrid E.toEnv 1 100000) (hg' : OnGrid (envIn u u E.toEnv) 1 100000)
    (F F' : Zeta.Fields) (h0 : F'.f00 = F.f00) (h1 : F'.n00 = F.n00) (h2 : F'.fLM = F.fLM) (h3 : F'.sbar = F.sbar)
    (h4 : ∀ M g, F'.G M g = ((1 / u ^ 3 : ℝ) : ℂ) * F.G M g)
    (ts : List ThreePt.Triplet) (t : ThreePt.Triplet) :
    Zeta.zetaAdds (envIn3 u u E) F' ts t =
      (Zeta.zetaAdds E F ts t).map fun x => ⟨x.idx, ((1 / u ^ 6 : ℝ) : ℂ) * x.val⟩ := by
  unfold Zeta.zetaAdds
  rw [List.map_map]
  apply List.map_congr_left
  intro i _
  simp only [recBin_in hu hn hr hr' hg hg' F F' h1 h2 h3, binIn, Function.comp]
  rw [zetaComponent_in hu u E hk hk' F F' h0 h4, mirrored_in, coupling3_in]
  have hv : (envIn3 u u E).mesh.volCell = u ^ 3 * E.mesh.volCell := volCell_in u E.mesh
  rw [hv]
  have h : (u : ℂ) ≠ 0 := by exact_mod_cast hu.ne'
  congr 1
  show _ * Complex.I ^ (E.ell1 + E.ell2) * (_ * mirrored (fMirror E t) _) = _
  generalize mirrored (fMirror E t) _ = X
  push_cast
  field_simp

theorem noiseAdds_in (hu : 0 < u) {E : Env3} (hn : ∀ a, 0 < E.mesh.n a) (hr : ResolvedR E.mesh)
    (hr' : ResolvedR (meshIn u E.mesh)) (hg : OnGrid E.toEnv 1 100000) (hg' : OnGrid (envIn u u E.toEnv) 1 100000)
    (F F' : Zeta.Fields) (h1 : F'.n00 = F.n00) (h2 : F'.fLM = F.fLM) (h3 : F'.sbar = F.sbar) (t : ThreePt.Triplet) :
    Zeta.noiseAdds (envIn3 u u E) F' t =
      (Zeta.noiseAdds E F t).map fun x => ⟨x.idx, ((1 / u ^ 6 : ℝ) : ℂ) * x.val⟩ := by
  unfold Zeta.noiseAdds Zeta.stats3
  rw [List.map_map]
  apply List.map_congr_left
  intro w _
  simp only [Function.comp, h1, h2, h3, uncoupled3_in hu hn hr hr' hg hg', binIn, Complex.real_smul, mirrored_in, coupling3_in]
  congr 1
  show ((coupling3 E t * (-1) ^ (E.ell1 + E.ell2) : ℝ) : ℂ) * _ = _
  ring

end Trv.Unit

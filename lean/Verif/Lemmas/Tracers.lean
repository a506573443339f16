import Verif.Lemmas.Harmonics
import Verif.Lemmas.PairCount
/-
The transform of a field as a sum over its particles.
-/
namespace Trv.Two
open Trv.Mesh Trv.Stats Trv.Win Trv.Bis Trv.Zeta

/-- The weights of a unit particle. -/
def unitW (b : Bool) : ℝ := if b then 0 else 1

theorem run_unit (M : Mesh ℝ) (sx sy sz : List (ℤ × ℝ)) (g : ℤ) :
    runUpdates (updatesOfStencils M sx sy sz fun _ => 1) g true =
      runUpdates (updatesOfStencils M sx sy sz fun _ => 1) g false := by
  unfold updatesOfStencils
  simp only [runUpdates_flatMap]
  congr 1
  apply List.map_congr_left
  intro a _
  congr 1
  apply List.map_congr_left
  intro b _
  congr 1
  apply List.map_congr_left
  intro c _
  split_ifs
  · simp [runUpdates_apply, Update.at]
  · rfl

theorem run_particle (M : Mesh ℝ) (sx sy sz : List (ℤ × ℝ)) (w : Bool → ℝ) (g : ℤ) :
    cplx (runUpdates (updatesOfStencils M sx sy sz w)) g =
      (⟨w false, w true⟩ : ℂ) * cplx (runUpdates (updatesOfStencils M sx sy sz unitW)) g := by
  have h : ∀ (s : Bool → ℝ) (b : Bool), runUpdates (updatesOfStencils M sx sy sz s) g b =
      s b * runUpdates (updatesOfStencils M sx sy sz fun _ => 1) g b := by
    intro s b
    rw [← run_sign, ← updates_sign]
    simp only [mul_one]
  unfold cplx
  rw [h w, h w, h unitW, h unitW, run_unit]
  apply Complex.ext <;> simp [unitW]

theorem cplx_sum {α : Type} (l : List α) (f : α → Grid ℝ) (g : ℤ) :
    cplx (fun g b => (l.map fun a => f a g b).sum) g = (l.map fun a => cplx (f a) g).sum := by
  induction l with
  | nil => rfl
  | cons a l ih =>
    simp only [List.map_cons, List.sum_cons]
    rw [← ih]
    apply Complex.ext <;> simp [cplx]

theorem cplx_assign (sch : Scheme) (M : Mesh ℝ) (ps : List (Particle ℝ)) (g : ℤ) :
    cplx (assign sch M ps) g = (ps.map fun p => cw p * cplx (assign sch M [⟨p.pos, unitW⟩]) g).sum := by
  have h : assign sch M ps = fun g b => (ps.map fun p => runUpdates (particleUpdates sch M p) g b).sum := by
    funext g b
    exact runUpdates_flatMap _ _ _ _
  rw [h, cplx_sum]
  congr 1
  apply List.map_congr_left
  intro p _
  rw [show assign sch M [⟨p.pos, unitW⟩] = runUpdates (particleUpdates sch M ⟨p.pos, unitW⟩) by
    unfold assign allUpdates; simp]
  exact run_particle M _ _ _ _ g

theorem cplx_assignShifted (sch : Scheme) (M : Mesh ℝ) (ps : List (Particle ℝ)) (g : ℤ) :
    cplx (assignShifted sch M ps) g =
      (ps.map fun p => cw p * cplx (assignShifted sch M [⟨p.pos, unitW⟩]) g).sum := by
  have h : assignShifted sch M ps =
      fun g b => (ps.map fun p => runUpdates (particleUpdatesShifted sch M p) g b).sum := by
    funext g b
    exact runUpdates_flatMap _ _ _ _
  rw [h, cplx_sum]
  congr 1
  apply List.map_congr_left
  intro p _
  rw [show assignShifted sch M [⟨p.pos, unitW⟩] = runUpdates (particleUpdatesShifted sch M ⟨p.pos, unitW⟩) by
    unfold assignShifted allUpdatesShifted; simp]
  exact run_particle M _ _ _ _ g

theorem dft_list {α : Type} (n : Fin 3 → ℤ) (s : ℤ) (l : List α) (c : α → ℂ) (f : α → ℤ → ℂ) (V : ℂ) (g : ℤ) :
    dft n s (fun g => (l.map fun a => c a * f a g).sum * V) g =
      (l.map fun a => c a * dft n s (fun g => f a g * V) g).sum := by
  induction l with
  | nil =>
    simp only [List.map_nil, List.sum_nil, zero_mul]
    rw [dft_eq]
    simp
  | cons a l ih =>
    simp only [List.map_cons, List.sum_cons, add_mul]
    rw [dft_sum, ih]
    congr 1
    simp only [mul_assoc]
    rw [dft_smul]

theorem list_half {α : Type} (l : List α) (c f h : α → ℂ) (e : ℂ) :
    ((l.map fun a => c a * f a).sum + e * (l.map fun a => c a * h a).sum) / 2 =
      (l.map fun a => c a * ((f a + e * h a) / 2)).sum := by
  induction l with
  | nil => simp
  | cons a l ih =>
    simp only [List.map_cons, List.sum_cons]
    rw [← ih]
    ring

/-- The transform of the field of a catalogue. -/
theorem fourier_assignField (sch : Scheme) (M : Mesh ℝ) (il : Bool) (ps : List (Particle ℝ)) (g : ℤ) :
    fourier M (assignField sch M il ps) g =
      (ps.map fun p => cw p * fourier M (assignField sch M il [⟨p.pos, unitW⟩]) g).sum := by
  cases il with
  | false =>
    show dft M.n (-1) (fun g => cplx (assign sch M ps) g * (M.volCell : ℂ)) g = _
    rw [show (fun g => cplx (assign sch M ps) g * (M.volCell : ℂ)) = fun g =>
      (ps.map fun p => cw p * cplx (assign sch M [⟨p.pos, unitW⟩]) g).sum * (M.volCell : ℂ) from
        funext fun g => by rw [cplx_assign], dft_list]
    rfl
  | true =>
    show (dft M.n (-1) (fun g => cplx (assign sch M ps) g * (M.volCell : ℂ)) g + _ *
      dft M.n (-1) (fun g => cplx (assignShifted sch M ps) g * (M.volCell : ℂ)) g) / 2 = _
    rw [show (fun g => cplx (assign sch M ps) g * (M.volCell : ℂ)) = fun g =>
      (ps.map fun p => cw p * cplx (assign sch M [⟨p.pos, unitW⟩]) g).sum * (M.volCell : ℂ) from
        funext fun g => by rw [cplx_assign], dft_list,
      show (fun g => cplx (assignShifted sch M ps) g * (M.volCell : ℂ)) = fun g =>
      (ps.map fun p => cw p * cplx (assignShifted sch M [⟨p.pos, unitW⟩]) g).sum * (M.volCell : ℂ) from
        funext fun g => by rw [cplx_assignShifted], dft_list]
    exact list_half ps _ _ _ _

theorem fourier_two (sch : Scheme) (M : Mesh ℝ) (il : Bool) (ps qs : List (Particle ℝ)) (alpha : ℝ) (g : ℤ) :
    fourier M (ylmFieldTwo sch M il ps qs alpha) g =
      fourier M (assignField sch M il ps) g - (alpha : ℂ) * fourier M (assignField sch M il qs) g := by
  have key : ∀ f h : Grid ℝ, dft M.n (-1) (fun g => cplx (fun g c => f g c - alpha * h g c) g * (M.volCell : ℂ)) g =
      dft M.n (-1) (fun g => cplx f g * (M.volCell : ℂ)) g -
        (alpha : ℂ) * dft M.n (-1) (fun g => cplx h g * (M.volCell : ℂ)) g := by
    intro f h
    simp only [sub_eq_add_neg, ← neg_mul]
    simp only [cplx_comb, add_mul, mul_assoc]
    rw [dft_sum, dft_smul]
    push_cast
    ring
  cases il with
  | false => exact key _ _
  | true =>
    show (dft M.n (-1) (fun g => cplx (fun g c => assign sch M ps g c - alpha * assign sch M qs g c) g *
        (M.volCell : ℂ)) g + _ * dft M.n (-1) (fun g => cplx (fun g c => assignShifted sch M ps g c -
        alpha * assignShifted sch M qs g c) g * (M.volCell : ℂ)) g) / 2 = _
    rw [key, key]
    unfold fourier assignField
    simp only [if_true]
    ring

/-- The transform of the fluctuations at an order, as a sum over particles. -/
theorem fourier_dnField (E : Env) (data rand : List Part) (alpha : ℝ) (l : ℕ) (m : ℤ) (c : ℤ × ℤ × ℤ) :
    fourier E.mesh (dnField E data rand alpha l m) (gid E.mesh.n c) =
      (data.map fun p => E.ylm l m p.los * (p.w : ℂ) * unitMode E p.pos c).sum -
        (alpha : ℂ) * (rand.map fun p => E.ylm l m p.los * (p.w : ℂ) * unitMode E p.pos c).sum := by
  have h : ∀ ps : List Part, fourier E.mesh (assignField E.sch E.mesh E.interlace (ylmWeights E l m ps))
      (gid E.mesh.n c) = (ps.map fun p => E.ylm l m p.los * (p.w : ℂ) * unitMode E p.pos c).sum := by
    intro ps
    rw [fourier_assignField]
    unfold ylmWeights
    rw [List.map_map]
    congr 1
    apply List.map_congr_left
    intro p _
    simp only [Function.comp]
    congr 1
    unfold cw
    apply Complex.ext <;> simp
  unfold dnField
  rw [fourier_two, h, h]

theorem list_orders {α : Type} (S : Finset ℤ) (a : ℤ → ℂ) (l : List α) (f : ℤ → α → ℂ) :
    ∑ M ∈ S, a M * (l.map fun p => f M p).sum = (l.map fun p => ∑ M ∈ S, a M * f M p).sum := by
  induction l with
  | nil => simp
  | cons p l ih =>
    simp only [List.map_cons, List.sum_cons, mul_add]
    rw [Finset.sum_add_distrib, ih]

/-- The sum over orders of the fluctuations, each with the harmonic of a vector. -/
theorem orders_fluctuation (E : Env)
    (hP : ∀ (l m : ℕ) (mu : ℝ), m ≤ l → |mu| ≤ 1 → E.P l m mu = sphP l m mu) (l : ℕ)
    (u : Fin 3 → ℝ) (hu : Resolved u) (data rand : List Part) (hd : ∀ p ∈ data, Resolved p.los)
    (hr : ∀ p ∈ rand, Resolved p.los) (alpha : ℝ) (c : ℤ × ℤ × ℤ) :
    ∑ M ∈ Finset.Icc (-(l : ℤ)) l, (starRingEnd ℂ) (E.ylm l M u) *
        fourier E.mesh (dnField E data rand alpha l M) (gid E.mesh.n c) =
      fluctuation E (legAngle l u) data rand alpha c := by
  have h : ∀ ps : List Part, (∀ p ∈ ps, Resolved p.los) →
      ∑ M ∈ Finset.Icc (-(l : ℤ)) l, (starRingEnd ℂ) (E.ylm l M u) *
        (ps.map fun p => E.ylm l M p.los * (p.w : ℂ) * unitMode E p.pos c).sum =
      (ps.map fun p => ((legAngle l u p.los * p.w : ℝ) : ℂ) * unitMode E p.pos c).sum := by
    intro ps hps
    rw [list_orders]
    congr 1
    apply List.map_congr_left
    intro p hp
    rw [Complex.ofReal_mul, ← ylm_addition E hP l u p.los hu (hps p hp), Finset.sum_mul, Finset.sum_mul]
    apply Finset.sum_congr rfl
    intro M _
    ring
  simp only [fourier_dnField, mul_sub, Finset.sum_sub_distrib]
  unfold fluctuation
  rw [h data hd]
  congr 1
  rw [← h rand hr, Finset.mul_sum]
  apply Finset.sum_congr rfl
  intro M _
  ring

/-- The sum over orders of the shot-noise amplitudes. -/
theorem orders_noise (E : Env)
    (hP : ∀ (l m : ℕ) (mu : ℝ), m ≤ l → |mu| ≤ 1 → E.P l m mu = sphP l m mu) (l : ℕ)
    (u : Fin 3 → ℝ) (hu : Resolved u) (data rand : List Part) (hd : ∀ p ∈ data, Resolved p.los)
    (hr : ∀ p ∈ rand, Resolved p.los) (alpha : ℝ) :
    ∑ M ∈ Finset.Icc (-(l : ℤ)) l, (starRingEnd ℂ) (E.ylm l M u) * shotAmp2 E data rand alpha l M =
      (selfNoise (legAngle l u) data rand alpha : ℂ) := by
  have h : ∀ ps : List Part, (∀ p ∈ ps, Resolved p.los) →
      ∑ M ∈ Finset.Icc (-(l : ℤ)) l, (starRingEnd ℂ) (E.ylm l M u) * ylmSum E 2 l M ps =
      (((ps.map fun p => legAngle l u p.los * p.w ^ 2).sum : ℝ) : ℂ) := by
    intro ps hps
    unfold ylmSum
    rw [list_orders]
    have e : (((ps.map fun p => legAngle l u p.los * p.w ^ 2).sum : ℝ) : ℂ) =
        (ps.map fun p => ((legAngle l u p.los * p.w ^ 2 : ℝ) : ℂ)).sum := by
      clear hps
      induction ps with
      | nil => simp
      | cons p ps ih => simp only [List.map_cons, List.sum_cons, Complex.ofReal_add, ih]
    rw [e]
    congr 1
    apply List.map_congr_left
    intro p hp
    rw [Complex.ofReal_mul, ← ylm_addition E hP l u p.los hu (hps p hp), Finset.sum_mul]
    apply Finset.sum_congr rfl
    intro M _
    ring
  unfold shotAmp2 selfNoise
  simp only [mul_add, Finset.sum_add_distrib]
  rw [h data hd, Complex.ofReal_add, Complex.ofReal_mul, ← h rand hr, Finset.mul_sum]
  congr 1
  apply Finset.sum_congr rfl
  intro M _
  ring

end Trv.Two

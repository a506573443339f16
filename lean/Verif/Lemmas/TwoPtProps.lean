import Verif.Spec.TwoPt
import Verif.Lemmas.TwoPt
import Verif.Lemmas.Bispec
import Verif.Props.Window
/-
Lemmas for the properties of the two-point measurements.
-/
namespace Trv.Two
open Trv.Mesh Trv.Stats Trv.Win

theorem map_map_eq {ε α β γ : Type} (f : β → γ) (g : α → β) (h : α → γ) (x : Except ε α)
    (e : ∀ v, f (g v) = h v) : (x.map g).map f = x.map h := by
  cases x with
  | error _ => rfl
  | ok v => exact congrArg Except.ok (e v)

theorem map_bind_eq {ε α β γ : Type} (f : β → Except ε γ) (g : α → β) (h : α → Except ε γ)
    (x : Except ε α) (e : ∀ v, f (g v) = h v) : (x.map g).bind f = x.bind h := by
  cases x with
  | error _ => rfl
  | ok v => exact e v

/-- The chosen factor. -/
noncomputable def pick (conv : Convention) (a b c : ℝ) : ℝ :=
  match conv with | .none => 1 | .particle => a | .mesh => b | .meshMixed => c

theorem driverNorm_survey (E En : Env) (oD oR : Fin 3 → ℝ) (conv : Convention)
    (data rand : List Part) :
    driverNorm E En oD oR .survey conv data rand =
      (normParticles rand (alphaOf data rand)).map fun part => pick conv part
        (normMesh E rand (alphaOf data rand))
        (normMeshes En oD oR data rand (alphaOf data rand)) := by
  unfold driverNorm
  simp only
  generalize normParticles rand (alphaOf data rand) = x
  generalize normMesh E rand (alphaOf data rand) = y
  generalize normMeshes En oD oR data rand (alphaOf data rand) = z
  cases x <;> cases conv <;> rfl

theorem driverNorm_scale (c : ℝ) (hc : c ≠ 0) (E En : Env) (oD oR : Fin 3 → ℝ) (conv : Convention)
    (hconv : conv ≠ .none) (data rand : List Part) :
    driverNorm E En oD oR .survey conv (scaleWc c data) (scaleWc c rand) =
      (driverNorm E En oD oR .survey conv data rand).map (· / (c * c)) := by
  rw [driverNorm_survey, driverNorm_survey, alpha_scale, normParticles_scale c hc, normMesh_scale,
    normMeshes_scale]
  cases normParticles rand (alphaOf data rand) with
  | error e => rfl
  | ok part =>
    simp only [Except.map]
    cases conv with
    | none => exact absurd rfl hconv
    | particle => rfl
    | mesh => rfl
    | meshMixed => rfl

theorem driverNorm3_scale (c : ℝ) (hc : c ≠ 0) (E : Env) (conv : Convention)
    (hconv : conv ≠ .none) (data rand : List Part) :
    Bis.driverNorm3 E conv (scaleWc c data) (scaleWc c rand) =
      (Bis.driverNorm3 E conv data rand).map (· / c ^ 3) := by
  unfold Bis.driverNorm3
  simp only
  rw [alpha_scale, Bis.normParticles3_scale c hc, Bis.normMesh3_scale]
  generalize Bis.normParticles3 rand (alphaOf data rand) = x
  generalize Bis.normMesh3 E rand (alphaOf data rand) = y
  cases x with
  | error e => rfl
  | ok part =>
    cases conv with
    | none => exact absurd rfl hconv
    | particle => rfl
    | mesh => rfl
    | meshMixed => rfl

/-! ### Real and non-negative numbers -/

theorem RealNonneg.zero : RealNonneg 0 := ⟨rfl, le_refl _⟩

theorem RealNonneg.add {a b : ℂ} (ha : RealNonneg a) (hb : RealNonneg b) : RealNonneg (a + b) :=
  ⟨by rw [Complex.add_im, ha.1, hb.1, add_zero], by rw [Complex.add_re]; exact add_nonneg ha.2 hb.2⟩

theorem RealNonneg.smul {a : ℂ} (ha : RealNonneg a) {r : ℝ} (hr : 0 ≤ r) : RealNonneg (r • a) :=
  ⟨by rw [Complex.smul_im, ha.1, smul_zero], by rw [Complex.smul_re]; exact mul_nonneg hr ha.2⟩

theorem RealNonneg.ofReal {r : ℝ} (hr : 0 ≤ r) : RealNonneg (r : ℂ) :=
  ⟨Complex.ofReal_im r, by rwa [Complex.ofReal_re]⟩

theorem RealNonneg.eq {a : ℂ} (ha : RealNonneg a) : a = ((a.re : ℝ) : ℂ) :=
  Complex.ext rfl (by rw [Complex.ofReal_im]; exact ha.1)

theorem RealNonneg.mul {a b : ℂ} (ha : RealNonneg a) (hb : RealNonneg b) : RealNonneg (a * b) := by
  rw [ha.eq, hb.eq, ← Complex.ofReal_mul]
  exact RealNonneg.ofReal (mul_nonneg ha.2 hb.2)

theorem RealNonneg.sum {l : List ℂ} (h : ∀ x ∈ l, RealNonneg x) : RealNonneg l.sum := by
  induction l with
  | nil => exact RealNonneg.zero
  | cons a l ih =>
    rw [List.sum_cons]
    exact (h a (by simp)).add (ih fun x hx => h x (by simp [hx]))

/-! ### Propagation of a property of modes to the output -/

section
variable {V : Type} [AddCommGroup V] [Module ℝ V]

/-- A cone: closed under zero, sums and non-negative multiples. -/
structure Cone (Q : V → Prop) : Prop where
  zero : Q 0
  add : ∀ {a b}, Q a → Q b → Q (a + b)
  smul : ∀ {a} {r : ℝ}, 0 ≤ r → Q a → Q (r • a)

theorem Cone.sum {Q : V → Prop} (h : Cone Q) {l : List V} (hl : ∀ x ∈ l, Q x) : Q l.sum := by
  induction l with
  | nil => exact h.zero
  | cons a l ih =>
    rw [List.sum_cons]
    exact h.add (hl a (by simp)) (ih fun x hx => hl x (by simp [hx]))

theorem binStats_cone {Q : V → Prop} (h : Cone Q) (ns : ℕ) (d : ℝ) (edges centres : List ℝ) (nb : ℕ)
    (ms : List (Mode ℝ V)) (hm : ∀ x ∈ ms, Q x.val) (i : ℕ) :
    Q ((binStats ns d edges centres nb ms).getD i ⟨0, 0, 0⟩).val := by
  rw [binStats_eq, List.getD_eq_getElem?_getD, List.getElem?_map]
  cases (List.range nb)[i]? with
  | none => exact h.zero
  | some b =>
    show Q (binOf _ _).val
    unfold binOf
    split_ifs
    · exact h.zero
    · refine h.smul (inv_nonneg.2 (Nat.cast_nonneg _)) (h.sum ?_)
      intro x hx
      obtain ⟨y, hy, rfl⟩ := List.mem_map.1 hx
      exact hm y (List.mem_of_mem_filter hy)

theorem accumulate_cone {Q : V → Prop} (h : Cone Q) {cpl : ℝ} (hc : 0 ≤ cpl) (M m1 : ℤ)
    (st : ℕ → Saved V) (hst : ∀ i, Q (st i).val) (bins : List (Bin ℝ V))
    (hb : ∀ i, Q (bins.getD i ⟨0, 0, 0⟩).val) (i : ℕ) : Q (accumulate cpl M m1 st bins i).val := by
  unfold accumulate
  by_cases hk : |cpl| < epsCoupling
  · rw [if_pos hk]; exact hst i
  · rw [if_neg hk]
    simp only
    by_cases hM : M = 0 ∧ m1 = 0
    · rw [if_pos hM]; exact h.add (hst i) (h.smul hc (hb i))
    · rw [if_neg hM]; exact h.add (hst i) (h.smul hc (hb i))

theorem output_cone {Q : V → Prop} (h : Cone Q) (E : Env) {norm : ℝ} (hn : 0 ≤ norm)
    (st : ℕ → Saved V) (hst : ∀ i, Q (st i).val) : ∀ r ∈ output E norm st, Q r.val := by
  intro r hr
  unfold output at hr
  obtain ⟨i, _, rfl⟩ := List.mem_map.1 hr
  exact h.smul hn (hst i)

/-- For a subspace signs do not matter. -/
theorem accumulate_sub (Q : V → Prop) (h : Cone Q) (hneg : ∀ {a} {r : ℝ}, Q a → Q (r • a)) {cpl : ℝ}
    (M m1 : ℤ) (st : ℕ → Saved V) (hst : ∀ i, Q (st i).val)
    (bins : List (Bin ℝ V)) (hb : ∀ i, Q (bins.getD i ⟨0, 0, 0⟩).val) (i : ℕ) :
    Q (accumulate cpl M m1 st bins i).val := by
  unfold accumulate
  by_cases hk : |cpl| < epsCoupling
  · rw [if_pos hk]; exact hst i
  · rw [if_neg hk]
    simp only
    by_cases hM : M = 0 ∧ m1 = 0
    · rw [if_pos hM]; exact h.add (hst i) (hneg (hb i))
    · rw [if_neg hM]; exact h.add (hst i) (hneg (hb i))

theorem sumOrders_sub (Q : V → Prop) (h : Cone Q) (hneg : ∀ {a} {r : ℝ}, Q a → Q (r • a)) (E : Env)
    (bins : ℤ → ℤ → List (Bin ℝ V))
    (hb : ∀ M m1 i, Q ((bins M m1).getD i ⟨0, 0, 0⟩).val) (i : ℕ) :
    Q (sumOrders E bins i).val := by
  unfold sumOrders
  have inner : ∀ (M : ℤ) (l : List ℤ) (st : ℕ → Saved V), (∀ i, Q (st i).val) → ∀ i,
      Q (l.foldl (fun st m1 =>
        accumulate (coupling2 E E.ELL E.ELL m1 M) M m1 st (bins M m1)) st i).val := by
    intro M l
    induction l with
    | nil => intro st h i; exact h i
    | cons a l ih =>
      intro st hs i
      rw [List.foldl_cons]
      exact ih _ (fun i => accumulate_sub Q h hneg M a st hs _ (hb M a) i) i
  have outer : ∀ (l : List ℤ) (st : ℕ → Saved V), (∀ i, Q (st i).val) → ∀ i,
      Q (l.foldl (fun st M => (orders E.ELL).foldl (fun st m1 =>
        accumulate (coupling2 E E.ELL E.ELL m1 M) M m1 st (bins M m1)) st) st i).val := by
    intro l
    induction l with
    | nil => intro st h i; exact h i
    | cons a l ih =>
      intro st hs i
      rw [List.foldl_cons]
      exact ih _ (inner a _ st hs) i
  exact outer _ _ (fun _ => h.zero) i

end

/-- Both components. -/
def NN (v : ℂ × ℂ) : Prop := RealNonneg v.1 ∧ RealNonneg v.2

theorem NN_cone : Cone NN where
  zero := ⟨RealNonneg.zero, RealNonneg.zero⟩
  add := fun ha hb => ⟨ha.1.add hb.1, ha.2.add hb.2⟩
  smul := fun hr ha => ⟨ha.1.smul hr, ha.2.smul hr⟩

theorem ylm_zero (E : Env) (v : Fin 3 → ℝ) : E.ylm 0 0 v = 1 := by
  unfold Env.ylm reducedYlm
  rw [if_pos ⟨rfl, rfl⟩]

theorem aliasingInterlaced_nonneg (sch : Scheme) (n : Fin 3 → ℤ) (i j k : ℤ) :
    0 ≤ aliasingInterlaced sch n i j k := by
  unfold aliasingInterlaced
  simp only
  have h := Real.sin_sq_add_cos_sq (uHalf n i j k)
  refine mul_nonneg (pow_nonneg (mul_self_nonneg _) _)
    (aliasAxis_range sch (mul_self_nonneg _) ?_).1.le
  nlinarith [sq_nonneg (Real.cos (uHalf n i j k))]

theorem alias_nonneg (E : Env) (c : ℤ × ℤ × ℤ) : 0 ≤ E.alias_ c := by
  unfold Env.alias_
  split_ifs
  · exact aliasingInterlaced_nonneg _ _ _ _ _
  · exact (C12_positive _ _ _ _ _).1.le

theorem win_pos (E : Env) (hn : ∀ a, 2 ≤ E.mesh.n a) {c : ℤ × ℤ × ℤ} (hc : c ∈ cells E.mesh.n) :
    0 < E.win c := by
  unfold Env.win
  by_cases hi : E.interlace = true
  · rw [if_pos hi]
    have := (C11_window_range_partial E.mesh.n hn c hc (orderOf E.sch)).1
    exact mul_pos this this
  · rw [if_neg hi]
    unfold Env.alias_
    rw [if_neg hi]
    exact (C12_positive _ _ _ _ _).1

theorem RealNonneg.div_ofReal {a : ℂ} (ha : RealNonneg a) {r : ℝ} (hr : 0 < r) :
    RealNonneg (a / (r : ℂ)) := by
  rw [ha.eq, ← Complex.ofReal_div]
  exact RealNonneg.ofReal (div_nonneg ha.2 hr.le)

theorem RealNonneg.normSq (z : ℂ) : RealNonneg (z * (starRingEnd ℂ) z) := by
  rw [Complex.mul_conj]
  exact RealNonneg.ofReal (Complex.normSq_nonneg z)

theorem statsFourier_nn (E : Env) (hn : ∀ a, 2 ≤ E.mesh.n a) (f : ℤ → ℂ) {amp : ℂ}
    (ha : RealNonneg amp) (i : ℕ) : NN ((statsFourier E f f amp 0 0).getD i ⟨0, 0, 0⟩).val := by
  unfold statsFourier
  apply binStats_cone NN_cone
  intro x hx
  unfold modes2 at hx
  obtain ⟨c, hc, rfl⟩ := List.mem_map.1 hx
  simp only [ylm_zero]
  constructor
  · show RealNonneg (modePower _ _ _ _)
    unfold modePower
    rw [mul_one]
    exact (RealNonneg.normSq _).div_ofReal (win_pos E hn hc)
  · show RealNonneg (modeShot _ _ _ _)
    unfold modeShot
    rw [mul_one]
    exact (ha.mul (RealNonneg.ofReal (alias_nonneg E c))).div_ofReal (win_pos E hn hc)

theorem ylmSum_nn (E : Env) (l : List Part) : RealNonneg (ylmSum E 2 0 0 l) := by
  unfold ylmSum
  apply RealNonneg.sum
  intro x hx
  obtain ⟨p, _, rfl⟩ := List.mem_map.1 hx
  rw [ylm_zero, one_mul]
  exact RealNonneg.ofReal (sq_nonneg _)

theorem shotAmp2_nn (E : Env) (d r : List Part) (alpha : ℝ) :
    RealNonneg (shotAmp2 E d r alpha 0 0) := by
  unfold shotAmp2
  exact (ylmSum_nn E d).add ((RealNonneg.ofReal (sq_nonneg alpha)).mul (ylmSum_nn E r))

/-! ### Identical catalogues -/

theorem first_zero_cone : Cone (fun v : ℂ × ℂ => v.1 = 0) where
  zero := rfl
  add := fun ha hb => by rw [Prod.fst_add, ha, hb, add_zero]
  smul := fun _ ha => by rw [Prod.smul_fst, ha, smul_zero]

theorem dft_zero (n : Fin 3 → ℤ) (s : ℤ) : dft n s (fun _ => 0) = fun _ => 0 := by
  funext g
  unfold dft
  apply List.sum_eq_zero
  intro x hx
  obtain ⟨c, _, rfl⟩ := List.mem_map.1 hx
  rw [zero_mul]

theorem cplx_zero (g : ℤ) : cplx (fun _ _ => 0) g = 0 := rfl

theorem fourier_same (E : Env) (cat : List Part) (hw : wsTotal cat ≠ 0) (ell : ℕ) (m : ℤ) :
    fourier E.mesh (dnField E cat cat (alphaOf cat cat) ell m) = fun _ => 0 := by
  have ha : alphaOf cat cat = 1 := div_self hw
  rw [ha]
  unfold dnField ylmFieldTwo
  generalize assignField E.sch E.mesh E.interlace (ylmWeights E ell m cat) = F
  obtain ⟨f, s⟩ := F
  have z : ∀ f : Grid ℝ, (fun g c => f g c - 1 * f g c) = fun _ _ => (0 : ℝ) := by
    intro f; funext g c; ring
  unfold fourier
  cases s with
  | none =>
    simp only [z, cplx_zero, zero_mul, dft_zero]
  | some s =>
    simp only [z, cplx_zero, zero_mul, dft_zero, mul_zero, add_zero, zero_div]

end Trv.Two

namespace Trv.Bis
open Trv.Mesh Trv.Stats Trv.Win Trv.Two Trv.ThreePt

theorem runAdds_zero (l : List Add) (h : ∀ u ∈ l, u.val = 0) (i : ℤ) : runAdds l i = 0 := by
  unfold runAdds
  have : ∀ (l : List Add) (a : ℤ → ℂ), (∀ u ∈ l, u.val = 0) → a i = 0 →
      l.foldl (fun a u i => if i = u.idx then a i + u.val else a i) a i = 0 := by
    intro l
    induction l with
    | nil => intro a _ h; exact h
    | cons u l ih =>
      intro a hl ha
      rw [List.foldl_cons]
      apply ih _ fun v hv => hl v (by simp [hv])
      simp only [ha, hl u (by simp), add_zero, ite_self]
  exact this l _ h rfl

theorem bkComponent_zero (E : Env3) (G : ℤ → ℂ) (t : Triplet) (row col : ℤ) :
    bkComponent E (fun _ => 0) G t row col = 0 := by
  unfold bkComponent bandLimited
  simp only [zero_div, mul_zero, ite_self, dft_zero, zero_mul]
  apply List.sum_eq_zero
  intro x hx
  obtain ⟨g, _, rfl⟩ := List.mem_map.1 hx
  rfl

end Trv.Bis

import Verif.Model.Crossing
import Verif.Spec.Crossing
import Verif.Props.NormMesh
import Verif.Props.Wigner
import Verif.Props.OptionCase
/-
C151: C++ failures in Python.
-/
set_option linter.unusedSectionVars false
namespace Trv.Ext

open Trv Trv.Par Trv.Mon Trv.Cat Trv.Two Trv.Bis Trv.Zeta

/-! ### Declared functions -/

/-- **C151 (declared).** A C++ exception thrown by a function which is declared to throw is the Python exception
which stands for it, and its result is returned otherwise.  (Partial: not for the other functions, see below.) -/
theorem C151_declared_partial {α : Type} (f : Fn) (hf : exceptPlus f = true) (r : Except CppErr α) :
    (cross f r).Safe ∧ (∀ a, cross f r = .value a ↔ r = .ok a) ∧
    ∀ x y, r = .error x → Stands x y → cross f r = .raised y := by
  refine ⟨?_, ?_, ?_⟩
  · cases r with
    | ok a => simp [cross, Crossed.Safe]
    | error x => cases x <;> simp [cross, translate, hf, Crossed.Safe]
  · intro a
    cases r with
    | ok b => simp [cross]
    | error x => cases x <;> simp [cross, translate, hf]
  · rintro x y rfl hs
    cases x <;> simp [Stands] at hs <;> subst hs <;> simp [cross, translate, hf]

/-- Functions not declared to throw end the process whenever they do. -/
theorem undeclared {α : Type} {f : Fn} (hf : exceptPlus f = false) {x : CppErr} {y : Raised} (hx : Stands x y) :
    cross f (.error x : Except CppErr α) = .terminated := by
  cases x <;> simp [Stands] at hx <;> simp [cross, translate, hf]

/-- **C151 (normalisation).** The particle-based normalisation factors of two- and three-point statistics are
returned, or there is a `RuntimeError`, exactly when the weighted sums over particles vanish. -/
theorem C151_particles (c : List Part) (alpha : ℝ) :
    (cross .powspecNormParticles (normParticles c alpha) = .raised .runtimeError ↔
      (c.map fun p => p.ws * p.nz * p.wc ^ 2).sum = 0) ∧
    (cross .bispecNormParticles (normParticles3 c alpha) = .raised .runtimeError ↔
      (c.map fun p => p.ws * p.nz ^ 2 * p.wc ^ 3).sum = 0) ∧
    (cross .powspecNormParticles (normParticles c alpha)).Safe ∧
    (cross .bispecNormParticles (normParticles3 c alpha)).Safe := by
  refine ⟨?_, ?_, (C151_declared_partial _ rfl _).1, (C151_declared_partial _ rfl _).1⟩
  · unfold normParticles
    simp only
    split_ifs with h <;> simp [cross, translate, exceptPlus, h]
  · unfold normParticles3
    simp only
    split_ifs with h <;> simp [cross, translate, exceptPlus, h]

/-! ### Three-point statistics -/

/-- The degrees are no part of what validation decides on. -/
def setDegrees {K : Type} (a b c : ℤ) (p : Params K) : Params K := { p with ell1 := a, ell2 := b, ELL := c }

section
variable {K : Type} [Field K] [LinearOrder K] [IsStrictOrderedRing K] [FloorRing K]

/-- The shape which validation derives. -/
def shapeOf (form : String) (a b : ℤ) : String := if form = "full" ∧ a = b then "triu" else form

def shaped (p : Params K) : Params K := { p with shape := shapeOf p.form p.ell1 p.ell2 }

theorem pre_degrees (e : Env K) (init : Bool) (p : Params K) (a b c : ℤ) :
    pre e init (setDegrees a b c p) = (pre e init p).map fun q => shaped (setDegrees a b c q) := by
  have h1 : vFiles e init (vDirs e init (setDegrees a b c p)) =
      (vFiles e init (vDirs e init p)).map fun q => setDegrees a b c q := by
    show vFiles e init (vDirs e init { p with ell1 := a, ell2 := b, ELL := c }) =
      (vFiles e init (vDirs e init p)).map fun q => { q with ell1 := a, ell2 := b, ELL := c }
    simp only [vFiles, vDirs]
    split_ifs <;> rfl
  have h2 : ∀ q : Params K, vMesh (setDegrees a b c q) = (vMesh q).map fun r => setDegrees a b c r := by
    intro q
    show vMesh { q with ell1 := a, ell2 := b, ELL := c } =
      (vMesh q).map fun r => { r with ell1 := a, ell2 := b, ELL := c }
    simp only [vMesh, bind, Except.bind]
    cases orderOf q.assignment with
    | error _ => split_ifs <;> rfl
    | ok _ => cases interlaceOf q.interlace <;> split_ifs <;> rfl
  have h3 : ∀ q : Params K, vStat e (setDegrees a b c q) = (vStat e q).map fun r => setDegrees a b c r := by
    intro q
    show vStat e { q with ell1 := a, ell2 := b, ELL := c } =
      (vStat e q).map fun r => { r with ell1 := a, ell2 := b, ELL := c }
    simp only [vStat]
    cases statOf e.extcall q.statType q.catType with
    | error _ => rfl
    | ok y => cases y <;> rfl
  have h4 : ∀ q : Params K, vForm (setDegrees a b c q) =
      (vForm q).map fun r => shaped (setDegrees a b c r) := by
    intro q
    show vForm { q with ell1 := a, ell2 := b, ELL := c } = (vForm q).map fun r => { r with ell1 := a, ell2 := b, ELL := c, shape := shapeOf r.form a b }
    simp only [vForm]
    have hs : ∀ f : String, (if f = "full" ∧ a = b then "triu" else f) = shapeOf f a b := fun _ => rfl
    simp only [hs]
    generalize (if q.form = "full" ∧ q.ell1 = q.ell2 then "triu" else q.form) = x
    split_ifs <;> rfl
  have h5 : ∀ q : Params K, vFftw e init (shaped (setDegrees a b c q)) =
      (vFftw e init q).map fun r => shaped (setDegrees a b c r) := by
    intro q
    show vFftw e init { q with ell1 := a, ell2 := b, ELL := c, shape := shapeOf q.form a b } =
      (vFftw e init q).map fun r => { r with ell1 := a, ell2 := b, ELL := c, shape := shapeOf r.form a b }
    simp only [vFftw, bind, Except.bind]
    cases schemeOf e.gpu q.scheme q.plannerFlag with
    | error _ => rfl
    | ok sf => simp only; split_ifs <;> rfl
  have h6 : ∀ q : Params K, vDerive (vBvec e init (shaped (setDegrees a b c q))) =
      (vDerive (vBvec e init q)).map fun r => shaped (setDegrees a b c r) := by
    intro q
    have hv : ∀ r : Params K, vDerive (shaped (setDegrees a b c r)) =
        (vDerive r).map fun r => shaped (setDegrees a b c r) := by
      intro q
      show vDerive { q with ell1 := a, ell2 := b, ELL := c, shape := shapeOf q.form a b } = (vDerive q).map fun r => { r with ell1 := a, ell2 := b, ELL := c, shape := shapeOf r.form a b }
      simp only [vDerive]
      split_ifs <;> rfl
    exact hv (vBvec e init q)
  unfold pre
  simp only [bind, Except.bind]
  rw [h1]
  cases vFiles e init (vDirs e init p) with
  | error _ => rfl
  | ok q1 =>
    simp only [Except.map]
    rw [h2]
    cases vMesh q1 with
    | error _ => rfl
    | ok q2 =>
      simp only [Except.map]
      rw [h3]
      cases vStat e q2 with
      | error _ => rfl
      | ok q3 =>
        simp only [Except.map]
        rw [h4]
        cases vForm q3 with
        | error _ => rfl
        | ok q4 =>
          simp only [Except.map]
          rw [h5]
          cases vFftw e init q4 with
          | error _ => rfl
          | ok q5 =>
            simp only [Except.map]
            rw [h6]
            rfl

theorem validate_shape (e : Env K) (fuel : ℕ) (init : Bool) (p : Params K) (x : String) :
    validate e fuel init { p with shape := x } = validate e fuel init p := by
  cases fuel with
  | zero => rfl
  | succ fuel =>
    unfold validate
    rw [pre_shape]

theorem map_ite_error {α β : Type} (f : α → β) (c : Prop) [Decidable c] (x : CppErr) (r : Except CppErr α) :
    (if c then .error x else r : Except CppErr α).map f = if c then .error x else r.map f := by
  split_ifs <;> rfl

theorem post_degrees (d : Str) (q : Params K) (a b c : ℤ) :
    post d (shaped (setDegrees a b c q)) = (post d q).map fun r => shaped (setDegrees a b c r) := by
  show post d { q with ell1 := a, ell2 := b, ELL := c, shape := shapeOf q.form a b } =
    (post d q).map fun r => { r with ell1 := a, ell2 := b, ELL := c, shape := shapeOf r.form a b }
  unfold post
  simp only [map_ite_error]
  rfl

theorem validate_degrees (e : Env K) (fuel : ℕ) (init : Bool) (p : Params K) (a b c : ℤ) :
    validate e fuel init (setDegrees a b c p) =
      (validate e fuel init p).map (Except.map fun r => shaped (setDegrees a b c r)) := by
  induction fuel generalizing init p with
  | zero => rfl
  | succ fuel ih =>
    unfold validate
    rw [pre_degrees]
    cases pre e init p with
    | error _ => rfl
    | ok q =>
      simp only [Except.map]
      have hd : bvecDefault (shaped (setDegrees a b c q)) = bvecDefault q := rfl
      have e1 : (shaped (setDegrees a b c q)).nmesh = q.nmesh := rfl
      have e2 : (shaped (setDegrees a b c q)).cutoff = q.cutoff := rfl
      have e3 : (shaped (setDegrees a b c q)).volume = q.volume := rfl
      have e4 : setNgrid e (shaped (setDegrees a b c q)) =
          (setNgrid e q).map fun r => shaped (setDegrees a b c r) := by
        simp only [setNgrid, shaped, setDegrees, bind, Except.bind]
        cases ngridCpp e.pi q.space (q.box 0) q.cutoff with
        | error _ => rfl
        | ok _ =>
          cases ngridCpp e.pi q.space (q.box 1) q.cutoff with
          | error _ => rfl
          | ok _ =>
            cases ngridCpp e.pi q.space (q.box 2) q.cutoff <;> rfl
      rw [hd, e1, e2, e3, e4, post_degrees]
      split_ifs
      · rfl
      · cases setNgrid e q with
        | error _ => rfl
        | ok r =>
          simp only [Except.map]
          have : validate e fuel false (shaped (setDegrees a b c r)) = validate e fuel false (setDegrees a b c r) :=
            validate_shape e fuel false (setDegrees a b c r) _
          rw [this, ih]
          cases validate e fuel false r with
          | none => rfl
          | some s =>
            cases s with
            | error _ => rfl
            | ok s =>
              simp only [Option.map, Except.map]
              rw [post_degrees]
              rfl
      · rfl
      · rfl

/-- **C151 (degrees).** Parameters are accepted or rejected whatever the degrees. -/
theorem C151_degrees_accepted (e : Env K) (fuel : ℕ) (init : Bool) (p : Params K) (a b c : ℤ) :
    (∃ q, validate e fuel init (setDegrees a b c p) = some (.ok q) ∧ (q.ell1, q.ell2, q.ELL) = (a, b, c)) ↔
    ∃ q, validate e fuel init p = some (.ok q) := by
  rw [validate_degrees]
  cases validate e fuel init p with
  | none => simp
  | some r =>
    cases r with
    | error x => simp [Except.map]
    | ok q =>
      simp only [Option.map, Except.map, Option.some.injEq, Except.ok.injEq, exists_eq_left', exists_eq', iff_true]
      rfl

end

/-- **C151 (three-point, violated).** A three-point measurement from Python ends the process exactly when the degrees
cannot form a triangle or have an odd sum, with whatever catalogues; such degrees are accepted as parameters
(`C151_degrees_accepted`). -/
theorem C151_three_point_violated (E : Env3) (h : Exact E) (hl : E.ell1 + E.ell2 + E.ELL ≤ 30000) (data rand : List Part)
    (pos : List (Fin 3 → ℝ)) (alpha norm : ℝ) (wa : Option (ℕ × ℕ)) :
    ((cross .bispec (computeBispec E data rand norm)).Safe ↔ Wc.Allowed E.ell1 E.ell2 E.ELL) ∧
    ((cross .bispecBox (computeBispecBox E pos norm)).Safe ↔ Wc.Allowed E.ell1 E.ell2 E.ELL) ∧
    ((cross .threepcf (compute3pcf E data rand norm)).Safe ↔ Wc.Allowed E.ell1 E.ell2 E.ELL) ∧
    ((cross .threepcfBox (compute3pcfBox E pos norm)).Safe ↔ Wc.Allowed E.ell1 E.ell2 E.ELL) ∧
    ((cross .threepcfWindow (compute3pcfWindow E rand alpha wa norm)).Safe ↔ Wc.Allowed E.ell1 E.ell2 E.ELL) := by
  have key : ∀ {α : Type} (f : Fn) (hf : exceptPlus f = false) (r : Except CppErr α),
      (∀ x, r = .error x → x = .invalidParameter ∨ x = .outOfBounds) →
      (r = .error .invalidParameter ↔ ¬ Wc.Allowed E.ell1 E.ell2 E.ELL) →
      ((cross f r).Safe ↔ Wc.Allowed E.ell1 E.ell2 E.ELL) := by
    intro α f hf r hx hr
    rw [← not_iff_not, ← hr]
    cases r with
    | ok a => simp [cross, Crossed.Safe]
    | error x =>
      rcases hx x rfl with rfl | rfl
      · simp [cross, translate, hf, Crossed.Safe]
      · simp [cross, translate, Crossed.Safe]
  have hm : ∀ (F : Fields) (ts : List ThreePt.Triplet) (x : CppErr), Zeta.measure E F ts norm = .error x →
      x = .invalidParameter ∨ x = .outOfBounds := by
    intro F ts x hx
    unfold Zeta.measure at hx
    split_ifs at hx <;> cases hx <;> simp
  obtain ⟨r1, r2, r3, r4, r5⟩ := C146_rejected E h hl data rand pos alpha norm wa
  refine ⟨key _ rfl _ ?_ r1, key _ rfl _ ?_ r2, key _ rfl _ (hm _ _) r3, key _ rfl _ (hm _ _) r4,
    key _ rfl _ (hm _ _) r5⟩
  · intro x hx
    unfold computeBispec at hx
    simp only at hx
    split_ifs at hx <;> cases hx <;> simp
  · intro x hx
    unfold computeBispecBox at hx
    simp only at hx
    split_ifs at hx <;> cases hx <;> simp

/-! ### Two-point statistics -/

/-- **C151 (two-point, violated).** For parameters accepted by Python, and catalogues with an extent whose
particle-based factor is defined, the normalisation of a survey two-point statistic ends the process exactly if the
planner scheme is `estimate` or the padding does not fit the normalisation mesh; otherwise the factors are returned. -/
theorem C151_two_point_violated {K : Type} [Field K] [LinearOrder K] [IsStrictOrderedRing K] [FloorRing K]
    (e : Env K) (hg : e.gpu = false) (fuel : ℕ) (f : Dict K → Dict K) (s s' : PySet K)
    (h : assign e fuel f s = some (s', none)) (c : List Part) (alpha : ℝ)
    (hc : (c.map fun p => p.ws * p.nz * p.wc ^ 2).sum ≠ 0) (a b : V3 K) (hs : ∀ i, 0 ≤ a i)
    (hp : 0 < Prog.largestSpan a b) (k : ℕ) :
    (surveyNorms e (k + 1) (normParticles c alpha) a b s'.c = .terminated ↔
      ¬ Prog.Normalisable s'.c (Prog.normNgrid (1 / 10) 10 a b)) ∧
    (Prog.Normalisable s'.c (Prog.normNgrid (1 / 10) 10 a b) →
      ∃ q, surveyNorms e (k + 1) (normParticles c alpha) a b s'.c =
        .value (1 / (alpha * (c.map fun p => p.ws * p.nz * p.wc ^ 2).sum), q)) := by
  obtain ⟨p, hp'⟩ : ∃ p, validate e fuel true p = some (.ok s'.c) := by
    obtain ⟨s1, s2, s3, s4, -, -, -, -, h5⟩ := pParse_steps h
    unfold pValidate at h5
    split at h5
    · cases h5
    · simp at h5
    · rename_i x hx
      simp only [Option.some.injEq, Prod.mk.injEq, and_true] at h5
      subst h5
      exact ⟨_, hx⟩
  have hn := (Prog.C150_mesh (1 / 10) 10 a b s'.c "cic" (by norm_num) (by norm_num) hs).2.2.1 hp
  obtain ⟨k1, k2⟩ := Prog.C150_normalisable e hg fuel true p s'.c hp' (1 / 10) 10 (by norm_num) "cic" 2
    (by simp [orderTable]) a b hn k
  have hpart : normParticles c alpha = .ok (1 / (alpha * (c.map fun p => p.ws * p.nz * p.wc ^ 2).sum)) := by
    unfold normParticles
    simp only
    rw [if_neg hc]
  unfold surveyNorms
  rw [hpart]
  by_cases hN : Prog.Normalisable s'.c (Prog.normNgrid (1 / 10) 10 a b)
  · obtain ⟨q, hq, -⟩ := k1 hN
    rw [hq]
    refine ⟨⟨fun h => (by cases h), fun h => absurd hN h⟩, fun _ => ⟨q, rfl⟩⟩
  · rw [k2 hN]
    exact ⟨⟨fun _ => hN, fun _ => rfl⟩, fun h => absurd h hN⟩

/-! ### Transforms -/

theorem pole_iff (x : ℝ) : (x ≤ 0 ∧ (⌊x⌋ : ℝ) = x) ↔ Pole x := by
  constructor
  · rintro ⟨h1, h2⟩
    have h3 : ⌊x⌋ ≤ 0 := by
      have : (⌊x⌋ : ℝ) ≤ 0 := by rw [h2]; exact h1
      exact_mod_cast this
    refine ⟨(-⌊x⌋).toNat, ?_⟩
    have h4 : ((-⌊x⌋).toNat : ℤ) = -⌊x⌋ := Int.toNat_of_nonneg (by omega)
    have h5 : (((-⌊x⌋).toNat : ℤ) : ℝ) = -(⌊x⌋ : ℝ) := by rw [h4]; push_cast; ring
    rw [Int.cast_natCast] at h5
    rw [h5, h2]; ring
  · rintro ⟨n, rfl⟩
    refine ⟨by simp, ?_⟩
    have : (-(n : ℝ)) = ((-(n : ℤ) : ℤ) : ℝ) := by push_cast; ring
    rw [this, Int.floor_intCast]

/-- **C151 (transforms, violated).** The construction of a Hankel transform ends the process exactly when its order
and bias meet a pole of the gamma function, and returns otherwise: so for a spherical Bessel transform whose bias
is, but for the sign, its degree plus three halves, or more by a whole number. -/
theorem C151_transform_violated (mu q : ℝ) :
    (hankel mu q = .terminated ↔ Pole (mu + 1 + q) ∨ Pole (mu + 1 - q)) ∧
    (¬ (Pole (mu + 1 + q) ∨ Pole (mu + 1 - q)) → hankel mu q = .value ()) ∧
    ∀ l n : ℕ, sphericalBessel l (l + 3 / 2 + n) = .terminated ∧ sphericalBessel l (-(l + 3 / 2 + n)) = .terminated := by
  have key : ∀ mu q : ℝ, hankel mu q = .terminated ↔ Pole (mu + 1 + q) ∨ Pole (mu + 1 - q) := by
    intro mu q
    rw [← pole_iff, ← pole_iff]
    unfold hankel Fft.construct
    split_ifs with h
    · simp only [cross, translate, exceptPlus, h]; simp
    · simp only [cross, h]; simp
  refine ⟨key mu q, ?_, ?_⟩
  · rw [← pole_iff, ← pole_iff]
    intro h
    unfold hankel Fft.construct
    rw [if_neg h]
    rfl
  · intro l n
    unfold sphericalBessel
    exact ⟨(key _ _).2 (Or.inr ⟨n, by ring⟩), (key _ _).2 (Or.inl ⟨n, by ring⟩)⟩

/-! ### Cases -/

/-- A bispectrum of degrees 1, 1, 2 can be measured; one of degrees 1, 1, 1 ends the process. -/
example (data rand : List Part) (norm : ℝ) :
    (cross .bispec (computeBispec (exX 1 1 2) data rand norm)).Safe ∧
    ¬ (cross .bispec (computeBispec (exX 1 1 1) data rand norm)).Safe := by
  constructor
  · exact (C151_three_point_violated (exX 1 1 2) (exX_exact _ _ _) (by decide) data rand [] 0 norm none).1.2
      ⟨by decide, by decide, by decide, by decide⟩
  · intro h
    obtain ⟨-, -, -, hh⟩ :=
      (C151_three_point_violated (exX 1 1 1) (exX_exact _ _ _) (by decide) data rand [] 0 norm none).1.1 h
    exact absurd hh (show ¬ Even (1 + 1 + 1) by decide)

/-- Parameters of a bispectrum are accepted with the degrees 1, 1, 1. -/
example : (match validate (exEnv true) 1 true (setDegrees 1 1 1 { exPar with statType := "bispec" }) with
    | some (.ok q) => decide (q.ell1 = 1 ∧ q.ell2 = 1 ∧ q.ELL = 1) | _ => false) = true := by
  decide +kernel

/-- A catalogue of one particle, 500 across with the randoms: the factors are returned with the default planner
scheme, and the process ends with the scheme `estimate`, after either set of parameters was accepted. -/
example : ∃ s t : PySet ℚ, construct (exEnv true) 1 { exDict with catType := some "survey" } = some (s, none) ∧
    construct (exEnv true) 1 { exDict with
      catType := some "survey", scheme := some "estimate" } = some (t, none) ∧
    (∃ q, surveyNorms (exEnv true) 1 (normParticles [⟨fun _ => 0, fun _ => 0, 1, 1, 1⟩] 1)
      (fun _ => 500) (fun _ => 500) s.c = .value (1, q)) ∧
    surveyNorms (exEnv true) 1 (normParticles [⟨fun _ => 0, fun _ => 0, 1, 1, 1⟩] 1)
      (fun _ => 500) (fun _ => 500) t.c = .terminated := by
  obtain ⟨s, h1, h2, h3⟩ := construct_some (d := { exDict with catType := some "survey" })
    (P := fun s => s.c.scheme = "measure" ∧ s.c.alignment = "centre") (by decide +kernel)
  obtain ⟨t, k1, k2⟩ := construct_some (d := { exDict with
      catType := some "survey", scheme := some "estimate" })
    (P := fun s => s.c.scheme = "estimate") (by decide +kernel)
  have hl : (0 : ℚ) < Prog.largestSpan (fun _ => 500) (fun _ => 500) := by decide +kernel
  refine ⟨s, t, h1, k1, ?_, ?_⟩
  · obtain ⟨q, hq⟩ := (C151_two_point_violated (exEnv true) rfl 1 id { d := _, c := _ } s h1 [⟨fun _ => 0, fun _ => 0, 1, 1, 1⟩] 1
      (by norm_num) (fun _ => 500) (fun _ => 500) (by norm_num) hl 0).2 ⟨by simp [h2], by simp [h3]⟩
    exact ⟨q, by rw [hq]; norm_num⟩
  · exact (C151_two_point_violated (exEnv true) rfl 1 id { d := _, c := _ } t k1 [⟨fun _ => 0, fun _ => 0, 1, 1, 1⟩] 1
      (by norm_num) (fun _ => 500) (fun _ => 500) (by norm_num) hl 0).1.2 (by rintro ⟨h, -⟩; simp [k2] at h)

/-- The monopole transform with a bias of three halves. -/
example : sphericalBessel 0 (3 / 2) = .terminated ∧ sphericalBessel 0 0 = .value () := by
  obtain ⟨-, -, h⟩ := C151_transform_violated 0 0
  obtain ⟨-, h2, -⟩ := C151_transform_violated (0 + 1 / 2) 0
  refine ⟨by have := (h 0 0).1; norm_num at this; exact this, h2 ?_⟩
  rintro (⟨n, hn⟩ | ⟨n, hn⟩) <;> (have : (0 : ℝ) ≤ n := Nat.cast_nonneg n; linarith)

end Trv.Ext

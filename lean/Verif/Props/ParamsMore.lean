import Verif.Props.Params
import Verif.Lemmas.ParamsAgain
/-
C32-C34, C69: termination, repeated validation, copies and usable meshes.
-/
set_option linter.unusedSectionVars false
namespace Trv.Par
open Trv.Mon

section
variable {K : Type} [Field K] [LinearOrder K] [IsStrictOrderedRing K] [FloorRing K]

/-! ### C32 -/

/-- The mesh has to be derived from the cutoff, and the derived grid numbers do not define
a mesh either. -/
def Stuck (e : Env K) (q : Params K) : Prop :=
  q.nmesh ≤ 0 ∧ 0 ≤ q.cutoff ∧ 0 < q.volume ∧
  ∃ n : Fin 3 → ℤ, (∀ i, ngridCpp e.pi q.space (q.box i) q.cutoff = .ok (n i)) ∧
    n 0 * n 1 * n 2 ≤ 0

theorem setNgrid_of {e : Env K} {q : Params K} {n : Fin 3 → ℤ}
    (h : ∀ i, ngridCpp e.pi q.space (q.box i) q.cutoff = .ok (n i)) :
    setNgrid e q = .ok { q with ngrid := n } := by
  unfold setNgrid
  rw [h 0, h 1, h 2]
  simp only [bind, Except.bind]
  congr 2
  funext i
  fin_cases i <;> rfl

theorem stuck_forever (e : Env K) (fuel : ℕ) (init : Bool) (p q : Params K)
    (hp : pre e init p = .ok q) (hs : Stuck e q) : validate e fuel init p = none := by
  induction fuel generalizing init p q with
  | zero => rfl
  | succ fuel ih =>
    obtain ⟨h1, h2, h3, n, h4, h5⟩ := hs
    obtain ⟨q', hq', hsp⟩ := pre_again hp n
    have hnone := ih false { q with ngrid := n } q' hq' (by
      have f := pre_frame hq'
      obtain ⟨g1, g2⟩ := pre_nmesh hq'
      have hv := (pre_nmesh hp).2
      refine ⟨by rw [g1]; exact h5, by rw [f.2.2.1]; exact h2, ?_, n, ?_, h5⟩
      · rw [g2]
        show 0 < q.box 0 * q.box 1 * q.box 2
        rw [(pre_frame hp).1, ← hv]; exact h3
      · intro i
        rw [hsp, f.1, f.2.2.1]
        exact h4 i)
    unfold validate
    rw [hp]
    simp only
    rw [if_pos h1, if_neg (not_lt.2 h2), if_pos h3, setNgrid_of h4]
    simp only [hnone]

/-- **C32.** Exactly when validation finishes: if the first checks reject the parameters, or
if the derived grid numbers define a mesh whenever they are needed. -/
theorem C32_finishes_iff (e : Env K) (init : Bool) (p : Params K) :
    (∃ fuel x, validate e fuel init p = some x) ↔ ∀ q, pre e init p = .ok q → ¬ Stuck e q := by
  constructor
  · rintro ⟨fuel, x, h⟩ q hq hs
    rw [stuck_forever e fuel init p q hq hs] at h
    cases h
  · intro h
    refine ⟨2, ?_⟩
    unfold validate
    cases hp : pre e init p with
    | error x => exact ⟨_, rfl⟩
    | ok q =>
      simp only
      by_cases hm : q.nmesh ≤ 0
      · rw [if_pos hm]
        by_cases hc : q.cutoff < 0
        · rw [if_pos hc]; exact ⟨_, rfl⟩
        · rw [if_neg hc]
          by_cases hv : 0 < q.volume
          · rw [if_pos hv]
            cases hr : setNgrid e q with
            | error x => exact ⟨_, rfl⟩
            | ok r =>
              simp only
              have hpos : 0 < r.ngrid 0 * r.ngrid 1 * r.ngrid 2 := by
                by_contra hn
                exact h q hp ⟨hm, not_lt.1 hc, hv, r.ngrid, setNgrid_ok hr, not_lt.1 hn⟩
              obtain ⟨x, hx⟩ := validate_one (e := e) 0 false r (Or.inl hpos)
              rw [hx]
              cases x <;> exact ⟨_, rfl⟩
          · rw [if_neg hv]; exact ⟨_, rfl⟩
      · rw [if_neg hm]; exact ⟨_, rfl⟩

end

/-- An environment for examples: the program, without environment variables. -/
def exEnv (extcall : Bool) : Env ℚ := ⟨22 / 7, fun _ => none, extcall, false, true⟩

/-- Parameters for examples: a simulation power spectrum in a box with a given mesh. -/
def exPar : Params ℚ :=
  { (Params.default : Params ℚ) with
    catType := "sim", statType := "powspec", box := fun _ => 1000, ngrid := fun _ => 64,
    binMin := 1 / 100, binMax := 1 / 10, numBins := 9, dataFile := "a.dat".toList,
    measDir := "out".toList, tag := "_t".toList }

/-- **C32 (violated).** Validation of Fourier-space parameters with a box but neither mesh
nor cutoff (the default cutoff is zero) never finishes: it derives a zero mesh and validates
again, without end. -/
theorem C32_zero_cutoff_violated :
    ¬ ∀ (init : Bool) (p : Params ℚ), ∃ fuel x, validate (exEnv false) fuel init p = some x := by
  intro h
  have h := (C32_finishes_iff (exEnv false) true { exPar with ngrid := fun _ => 0 }).1 (h _ _)
  cases hp : pre (exEnv false) true { exPar with ngrid := fun _ => 0 } with
  | error x =>
    have : (match pre (exEnv false) true { exPar with ngrid := fun _ => 0 } with
      | .ok _ => true | .error _ => false) = true := by decide +kernel
    rw [hp] at this
    cases this
  | ok q =>
    have hsp : (match pre (exEnv false) true { exPar with ngrid := fun _ => 0 } with
      | .ok q => decide (q.space = "fourier") | .error _ => false) = true := by decide +kernel
    rw [hp] at hsp
    simp only [decide_eq_true_eq] at hsp
    refine h q hp ⟨?_, ?_, ?_, fun _ => 0, ?_, by simp⟩
    · rw [(pre_nmesh hp).1]; simp
    · rw [(pre_frame hp).2.2.1]; exact le_refl _
    · rw [(pre_nmesh hp).2]
      show (0 : ℚ) < 1000 * 1000 * 1000
      norm_num
    · intro i
      rw [hsp, (pre_frame hp).2.2.1]
      simp [ngridCpp, exPar, Params.default]

example : (match validate (exEnv false) 2 true { exPar with ngrid := fun _ => 0, cutoff := 1 / 5 } with
    | some (.ok q) => decide (q.ngrid 0 = 64 ∧ q.nmesh = 262144) | _ => false) = true := by
  decide +kernel

section
variable {K : Type} [Field K] [LinearOrder K] [IsStrictOrderedRing K] [FloorRing K]

/-! ### C33: validating again -/

theorem post_paths {e : Env K} {dflt : Str} {p q : Params K} (h : post dflt p = .ok q)
    (hi : PathInv e p) (h1 : '$' ∉ dflt) (h2 : 14 ≤ dflt.length) : PathInv e q := by
  have f := post_frame h
  have hb : q.saveBvec = dflt ∨ q.saveBvec = p.saveBvec := by
    simp only [post] at h
    split_ifs at h <;> cases h <;> simp
  obtain ⟨g1, g2, g3, g4, g5, g6, g7, g8, g9, g10, g11, g12⟩ := hi
  obtain ⟨k1, k2, k3, k4, k5, k6, k7⟩ := g2
  have hb' : '$' ∉ q.saveBvec ∧ q.saveBvec ≠ "false".toList ∧ q.saveBvec ≠ "true".toList := by
    rcases hb with hb | hb <;> rw [hb]
    · exact ⟨h1, long_ne h2⟩
    · exact ⟨k6, g12⟩
  obtain ⟨sb, hsb⟩ : ∃ sb, sb = q.saveBvec := ⟨_, rfl⟩
  rw [← hsb] at f hb'
  rw [f]
  exact ⟨g1, ⟨k1, k2, k3, k4, k5, hb'.1, k7⟩, g3, g4, g5, g6, g7, g8, g9, g10, g11, hb'.2⟩

theorem validate_paths (e : Env K) (fuel : ℕ) (init : Bool) (p p' : Params K) (hp : Plain p)
    (h : validate e fuel init p = some (.ok p')) : PathInv e p' := by
  induction fuel generalizing init p p' with
  | zero => cases h
  | succ fuel ih =>
    obtain ⟨q, hq, ⟨h1, -⟩ | ⟨-, -, -, r, s, h3, h4, h5⟩⟩ := validate_cases h
    · have hi := pre_paths hq hp
      exact post_paths h1 hi (bvecDefault_plain hi.plain.2.1 hi.plain.2.2.2.2.2.2)
        (bvecDefault_long q)
    · have hi := pre_paths hq hp
      have hr : Plain r := by rw [setNgrid_inputs h3]; exact hi.plain
      exact post_paths h5 (ih _ _ _ hr h4) (bvecDefault_plain hi.plain.2.1 hi.plain.2.2.2.2.2.2)
        (bvecDefault_long q)

theorem post_fixed {p : Params K} (dflt : Str) (h : WellFormed p) : post dflt p = .ok p := by
  have hpad : padOk p := by
    intro ha
    obtain ⟨h1, h2, h3⟩ := h.padbox ha
    refine ⟨not_lt.2 h1, fun hb => absurd (h2 hb.1) (not_lt.2 hb.2), ?_⟩
    rintro ⟨hg, hh⟩
    rcases hh with hh | hh | hh
    · exact absurd (h3 hg 0) (not_lt.2 hh)
    · exact absurd (h3 hg 1) (not_lt.2 hh)
    · exact absurd (h3 hg 2) (not_lt.2 hh)
  simp only [post]
  rw [if_neg (not_not.2 hpad), if_neg (not_lt.2 h.range.1), if_neg (not_le.2 h.range.2),
    if_neg (not_lt.2 h.bins.1), if_neg, if_neg, if_neg (not_le.2 h.bins.2), if_neg, if_neg]
  · rintro ⟨h1, h2⟩
    exact h.saved (by simpa using h1) h2
  · rintro ⟨h1, h2⟩
    rw [h.interlace3 h1] at h2
    simp at h2
  · rintro ⟨h1, h2⟩
    have := h.padbins (by simpa using h1)
    omega
  · rintro ⟨h1, h2, h3⟩
    exact absurd (h.row h2 h3) (not_le.2 h1)

/-- **C33.** Validating an accepted parameter set again accepts it and changes nothing, if
the paths contain no environment variables and the file names can be separated. -/
theorem C33_again (e : Env K) (he : e.extcall = false) (fuel : ℕ) (init : Bool) (p p' : Params K)
    (hp : Plain p) (h : validate e fuel init p = some (.ok p')) (g1 : GoodFiles p'.dataFiles)
    (g2 : GoodFiles p'.randFiles) (k : ℕ) : validate e (k + 1) false p' = some (.ok p') := by
  have hw := C33_well_formed e he fuel init p p' h
  have hi := validate_paths e fuel init p p' hp h
  have hpre := pre_fixed he hw.toDerived hi (fun hv => not_lt.2 (hw.expanded hv)) g1 g2
  unfold validate
  rw [hpre]
  simp only
  rw [post_fixed _ hw]
  by_cases hm : p'.nmesh ≤ 0
  · obtain ⟨h1, h2, h3⟩ := hw.meshed.resolve_left (not_lt.2 hm)
    rw [if_pos hm, if_neg (not_lt.2 h3), if_neg (not_lt.2 h1)]
  · rw [if_neg hm]

end

example : (match validate (exEnv false) 1 true exPar with
    | some (.ok q) => decide (q.dataFiles = ["a.dat".toList] ∧ q.measDir = "out/".toList ∧
        q.assignOrder = 3 ∧ q.npoint = "2pt" ∧ q.space = "fourier" ∧ q.nmesh = 262144) | _ => false)
    = true := by decide +kernel

/-- **C33 (violated).** An empty name in a list of files is accepted and dropped when the
parameters are validated again. -/
theorem C33_again_violated :
    ∃ p p' p'' : Params ℚ, validate (exEnv false) 1 true p = some (.ok p') ∧
      validate (exEnv false) 1 false p' = some (.ok p'') ∧ p''.dataFiles ≠ p'.dataFiles := by
  have hk : (match validate (exEnv false) 1 true { exPar with dataFile := "a.dat::::".toList } with
    | some (.ok q) => (match validate (exEnv false) 1 false q with
      | some (.ok r) => decide (r.dataFiles ≠ q.dataFiles) | _ => false)
    | _ => false) = true := by decide +kernel
  refine ⟨{ exPar with dataFile := "a.dat::::".toList }, ?_⟩
  cases h1 : validate (exEnv false) 1 true { exPar with dataFile := "a.dat::::".toList } with
  | none => rw [h1] at hk; cases hk
  | some x =>
    rw [h1] at hk
    cases x with
    | error x => cases hk
    | ok q =>
      simp only at hk
      cases h2 : validate (exEnv false) 1 false q with
      | none => rw [h2] at hk; cases hk
      | some y =>
        rw [h2] at hk
        cases y with
        | error y => cases hk
        | ok r => exact ⟨q, r, rfl, h2, by simpa using hk⟩

/-- **C33 (violated).** The library built for external calls accepts parameters whose
statistic is not recognised, and then leaves the number of points as it was. -/
theorem C33_external_violated :
    ∃ p p' : Params ℚ, validate (exEnv true) 1 true p = some (.ok p') ∧ ¬ WellFormed p' := by
  have hk : (match validate (exEnv true) 1 true { exPar with statType := "power" } with
    | some (.ok q) => decide (q.statType = "power" ∧ q.npoint = "") | _ => false) = true := by
    decide +kernel
  refine ⟨{ exPar with statType := "power" }, ?_⟩
  cases h1 : validate (exEnv true) 1 true { exPar with statType := "power" } with
  | none => rw [h1] at hk; cases hk
  | some x =>
    rw [h1] at hk
    cases x with
    | error x => cases hk
    | ok q =>
      simp only [decide_eq_true_eq] at hk
      refine ⟨q, rfl, fun hw => ?_⟩
      obtain ⟨cats, hc, -⟩ := hw.stat
      rw [hk.1, hk.2] at hc
      simp [statTable] at hc

section
variable {K : Type} [Field K] [LinearOrder K] [IsStrictOrderedRing K] [FloorRing K]

/-! ### C34 -/

/-- **C34.** A copy differs from the original at most in its `shape`; it is the same exactly
if the shape is the default. -/
theorem C34_copy (p : Params K) :
    p.copy = { p with shape := "diag" } ∧ (p.copy = p ↔ p.shape = "diag") := by
  refine ⟨rfl, fun h => ?_, fun h => ?_⟩
  · rw [← h]; rfl
  · cases p; simp only at h; subst h; rfl

theorem pre_shape (e : Env K) (init : Bool) (p : Params K) (x : String) :
    pre e init { p with shape := x } = pre e init p := by
  have h1 : vFiles e init (vDirs e init { p with shape := x }) =
      (vFiles e init (vDirs e init p)).map fun q => { q with shape := x } := by
    simp only [vFiles, vDirs]
    split_ifs <;> rfl
  have h2 : ∀ q : Params K, vMesh { q with shape := x } =
      (vMesh q).map fun r => { r with shape := x } := by
    intro q
    simp only [vMesh, bind, Except.bind]
    cases orderOf q.assignment with
    | error _ => split_ifs <;> rfl
    | ok _ => cases interlaceOf q.interlace <;> split_ifs <;> rfl
  have h3 : ∀ q : Params K, vStat e { q with shape := x } =
      (vStat e q).map fun r => { r with shape := x } := by
    intro q
    simp only [vStat]
    cases statOf e.extcall q.statType q.catType with
    | error _ => rfl
    | ok y => cases y <;> rfl
  have h4 : ∀ q : Params K, vForm { q with shape := x } = vForm q := fun q => rfl
  unfold pre
  simp only [bind, Except.bind]
  rw [h1]
  cases vFiles e init (vDirs e init p) with
  | error _ => rfl
  | ok a =>
    simp only [Except.map]
    rw [h2]
    cases vMesh a with
    | error _ => rfl
    | ok b =>
      simp only [Except.map]
      rw [h3]
      cases vStat e b with
      | error _ => rfl
      | ok c =>
        simp only [Except.map]
        rw [h4]

/-- **C34.** Validating a copy gives what validating the original gives. -/
theorem C34_copy_validated (e : Env K) (fuel : ℕ) (init : Bool) (p : Params K) :
    validate e fuel init p.copy = validate e fuel init p := by
  cases fuel with
  | zero => rfl
  | succ fuel =>
    unfold validate
    rw [(C34_copy p).1, pre_shape]

end

/-- **C34 (violated).** An accepted parameter set for the full form with equal degrees has
the shape "triu", and its copy has not. -/
theorem C34_copy_violated :
    ∃ p p' : Params ℚ, validate (exEnv false) 1 true p = some (.ok p') ∧ p'.copy ≠ p' := by
  have hk : (match validate (exEnv false) 1 true { exPar with statType := "bispec", form := "full" } with
    | some (.ok q) => decide (q.shape = "triu") | _ => false) = true := by
    decide +kernel
  refine ⟨{ exPar with statType := "bispec", form := "full" }, ?_⟩
  cases h1 : validate (exEnv false) 1 true { exPar with statType := "bispec", form := "full" } with
  | none => rw [h1] at hk; cases hk
  | some x =>
    rw [h1] at hk
    cases x with
    | error x => cases hk
    | ok q =>
      simp only [decide_eq_true_eq] at hk
      refine ⟨q, rfl, fun hc => ?_⟩
      rw [(C34_copy q).2.1 hc] at hk
      simp at hk

/-! ### C69 -/

section
variable {K : Type} [Field K] [LinearOrder K] [IsStrictOrderedRing K] [FloorRing K]

/-- **C69 (partial).** The box and mesh of an accepted parameter set are usable if the given
sides are positive and the grid numbers are positive, or do not define a mesh while the cutoff
is positive. -/
theorem C69_usable_partial (e : Env K) (hpi : 0 < e.pi) (fuel : ℕ) (init : Bool) (p p' : Params K)
    (hb : ∀ i, 0 < p.box i)
    (hn : (∀ i, 0 < p.ngrid i) ∨ (p.ngrid 0 * p.ngrid 1 * p.ngrid 2 ≤ 0 ∧ 0 < p.cutoff))
    (h : validate e fuel init p = some (.ok p')) : Usable p' := by
  have hkept := C33_inputs_kept e fuel init p p' h
  have hbox : p'.box = p.box := congrArg (fun t => t.1) hkept.1
  refine ⟨fun i => by rw [hbox]; exact hb i, ?_⟩
  rcases hn with hn | ⟨hn, hc⟩
  · rw [hkept.2 (Int.mul_pos (Int.mul_pos (hn 0) (hn 1)) (hn 2))]
    exact hn
  · cases fuel with
    | zero => cases h
    | succ fuel =>
      obtain ⟨q, hq, ⟨-, h2⟩ | ⟨-, -, -, r, s, h3, h4, h5⟩⟩ := validate_cases h
      · exfalso
        obtain ⟨m1, m2⟩ := pre_nmesh hq
        rcases h2 with h2 | ⟨h2, -⟩
        · rw [m1] at h2; omega
        · rw [m2] at h2
          exact absurd (mul_pos (mul_pos (hb 0) (hb 1)) (hb 2)) (not_lt.2 h2)
      · have hr : ∀ i, 0 < r.ngrid i := by
          intro i
          have := setNgrid_ok h3 i
          rw [(pre_frame hq).1, (pre_frame hq).2.2.1] at this
          exact ngridCpp_pos hpi (hb i) hc this
        have hs := (C33_inputs_kept e fuel false r s h4).2
          (Int.mul_pos (Int.mul_pos (hr 0) (hr 1)) (hr 2))
        rw [post_frame h5]
        show ∀ i, 0 < s.ngrid i
        rw [hs]
        exact hr

/-! ### C33: the planner -/

theorem pre_planner {e : Env K} (hg : e.gpu = false) {init : Bool} {p q : Params K}
    (h : pre e init p = .ok q) : (q.scheme, q.plannerFlag) ∈ plannerTable ∧
      (q.wisdom ≠ [] → q.scheme ≠ "estimate") ∧ q.scheme = p.scheme := by
  obtain ⟨a, b, c, d, f, h1, h2, h3, h4, h5, h6⟩ := pre_steps h
  have hd : d.scheme = p.scheme := by
    rw [(vForm_frame h4).1]
    show c.scheme = _
    rw [(vStat_frame h3).1]
    show b.scheme = _
    rw [(vMesh_frame h2).1]
    show a.scheme = _
    rw [(vFiles_frame h1).1]
    rfl
  rw [(vDerive_frame h6).1]
  simp only [vBvec]
  unfold vFftw at h5
  simp only [bind, Except.bind] at h5
  cases hs : schemeOf e.gpu d.scheme d.plannerFlag with
  | error x => rw [hs] at h5; cases h5
  | ok sf =>
    rw [hs] at h5
    simp only at h5
    have key : sf ∈ plannerTable ∧ sf.1 = d.scheme := by
      simp only [schemeOf, hg, Bool.false_eq_true, not_false_eq_true, if_true] at hs
      split_ifs at hs with g1 g2 g3 <;> cases hs
      · exact ⟨by rw [g1]; simp [plannerTable], rfl⟩
      · exact ⟨by rw [g2]; simp [plannerTable], rfl⟩
      · exact ⟨by rw [g3]; simp [plannerTable], rfl⟩
    split_ifs at h5 with g1 g2
    · cases h5
      exact ⟨key.1, fun hn => absurd g1 hn, key.2.trans hd⟩
    · cases h5
      refine ⟨key.1, fun _ he => ?_, key.2.trans hd⟩
      apply g2
      simp only at he
      rw [he]
      exact ⟨by decide, by decide⟩

/-- **C33 (planner).** In an accepted parameter set the planner scheme is the one given, the
planner flag is the one FFTW defines for it, and no wisdom is used with the scheme which makes
none. -/
theorem C33_planner (e : Env K) (hg : e.gpu = false) (fuel : ℕ) (init : Bool) (p p' : Params K)
    (h : validate e fuel init p = some (.ok p')) :
    p'.scheme = p.scheme ∧ (p'.scheme, p'.plannerFlag) ∈ plannerTable ∧
      (p'.wisdom ≠ [] → p'.scheme ≠ "estimate") := by
  induction fuel generalizing init p p' with
  | zero => cases h
  | succ fuel ih =>
    obtain ⟨q, hq, ⟨h1, h2⟩ | ⟨-, -, -, r, s, h3, h4, h5⟩⟩ := validate_cases h
    · obtain ⟨a, b, c⟩ := pre_planner hg hq
      rw [post_frame h1]
      exact ⟨c, a, b⟩
    · obtain ⟨-, -, c⟩ := pre_planner hg hq
      obtain ⟨k1, k2, k3⟩ := ih _ _ _ h4
      rw [post_frame h5]
      refine ⟨?_, k2, k3⟩
      simp only
      rw [k1, setNgrid_inputs h3]
      exact c

end

/-- **C69 (violated).** Two negative sides and two negative grid numbers are accepted. -/
theorem C69_usable_violated :
    ∃ p p' : Params ℚ, validate (exEnv false) 1 true p = some (.ok p') ∧ ¬ Usable p' := by
  have hk : (match validate (exEnv false) 1 true
      { exPar with box := ![-1000, -1000, 1000], ngrid := ![-64, -64, 64] } with
    | some (.ok q) => decide (q.box 0 = -1000 ∧ q.ngrid 0 = -64) | _ => false) = true := by
    decide +kernel
  refine ⟨{ exPar with box := ![-1000, -1000, 1000], ngrid := ![-64, -64, 64] }, ?_⟩
  cases h1 : validate (exEnv false) 1 true
      { exPar with box := ![-1000, -1000, 1000], ngrid := ![-64, -64, 64] } with
  | none => rw [h1] at hk; cases hk
  | some x =>
    rw [h1] at hk
    cases x with
    | error x => cases hk
    | ok q =>
      simp only [decide_eq_true_eq] at hk
      refine ⟨q, rfl, fun hc => ?_⟩
      have := hc.2 0
      rw [hk.2] at this
      omega

end Trv.Par

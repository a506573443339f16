import Verif.Model.Program
import Verif.Props.ParamsMore
/-
Lemmas on overriding accepted parameters: validation of an accepted parameter set with other
planner settings, and commutation of validation with changes of tag, verbosity, progress bar and
planner scheme.
-/
set_option linter.unusedSectionVars false
namespace Trv.Prog
open Trv.Mon Trv.Par

variable {K : Type} [Field K] [LinearOrder K] [IsStrictOrderedRing K] [FloorRing K]

/-- What validation has made of the paths, leaving out the planner settings and the tag. -/
structure Paths (p : Params K) : Prop where
  meas : blank p.measDir = false
  plainC : '$' ∉ p.catDir
  plainM : '$' ∉ p.measDir
  plainB : '$' ∉ p.saveBvec
  dataJoin : p.dataFile = join fnDelim p.dataFiles
  randJoin : p.randFile = join fnDelim p.randFiles
  dataPlain : ∀ f ∈ p.dataFiles, '$' ∉ f
  randPlain : ∀ f ∈ p.randFiles, '$' ∉ f
  dataNone : p.catType ≠ "survey" → p.catType ≠ "sim" → p.dataFiles = []
  randNone : p.catType ≠ "survey" → p.catType ≠ "random" → p.randFiles = []
  bvec : p.saveBvec ≠ "false".toList ∧ p.saveBvec ≠ "true".toList
  dataGood : GoodFiles p.dataFiles
  randGood : GoodFiles p.randFiles

theorem Paths.of {e : Env K} {p : Params K} (h : PathInv e p) (g1 : GoodFiles p.dataFiles)
    (g2 : GoodFiles p.randFiles) : Paths p :=
  ⟨h.meas, h.plain.1, h.plain.2.1, h.plain.2.2.2.2.2.1, h.dataJoin, h.randJoin, h.dataPlain,
    h.randPlain, h.dataNone, h.randNone, h.bvec, g1, g2⟩

/-- The parameters which can be overridden. -/
structure Change where
  tag : Str
  scheme : String
  flag : ℤ
  wisdom : Str
  wisdomF : Str
  wisdomB : Str
  verbose : ℤ
  progbar : Str

/-- Setting them. -/
def Change.set (c : Change) (p : Params K) : Params K :=
  { p with tag := c.tag, scheme := c.scheme, plannerFlag := c.flag, wisdom := c.wisdom,
           wisdomF := c.wisdomF, wisdomB := c.wisdomB, verbose := c.verbose, progbar := c.progbar }

theorem Paths.set {p : Params K} (h : Paths p) (c : Change) : Paths (c.set p) :=
  ⟨h.meas, h.plainC, h.plainM, h.plainB, h.dataJoin, h.randJoin, h.dataPlain, h.randPlain,
    h.dataNone, h.randNone, h.bvec, h.dataGood, h.randGood⟩

theorem WellFormed.set {p : Params K} (h : WellFormed p) (c : Change) : WellFormed (c.set p) :=
  { align := h.align, padscale := h.padscale, order := h.order, stat := h.stat,
    interlace := h.interlace, form := h.form, shape := h.shape, norm := h.norm, mixed := h.mixed,
    binning := h.binning, volume := h.volume, nmesh := h.nmesh, meshed := h.meshed,
    expanded := h.expanded, range := h.range, bins := h.bins, padbins := h.padbins, row := h.row,
    interlace3 := h.interlace3, padbox := h.padbox, saved := h.saved }

theorem vFftw_change {e : Env K} {init : Bool} {p q : Params K} (h : vFftw e init p = .ok q) :
    ∃ c : Change, q = c.set p ∧ c.tag = p.tag ∧ c.verbose = p.verbose ∧ c.progbar = p.progbar := by
  refine ⟨⟨p.tag, q.scheme, q.plannerFlag, q.wisdom, q.wisdomF, q.wisdomB, p.verbose, p.progbar⟩,
    ?_, rfl, rfl, rfl⟩
  exact vFftw_frame h

/-- Validating a set which is as validation left it but for the planner settings validates the
planner settings. -/
theorem validate_planner {e : Env K} (he : e.extcall = false) {p : Params K} (hw : WellFormed p)
    (hi : Paths p) (k : ℕ) : validate e (k + 1) false p = some (vFftw e false p) := by
  have s1 : vDirs e false p = p := by
    simp only [vDirs, Bool.false_eq_true, and_false, if_false, hi.meas]
    rw [C68_no_variables _ _ hi.plainC, C68_no_variables _ _ hi.plainM]
  have s2 : vFiles e false p = .ok p := by
    have k1 := filesOf_join (e := e) p.catDir p.dataFiles hi.dataGood hi.dataPlain
    have k2 := filesOf_join (e := e) p.catDir p.randFiles hi.randGood hi.randPlain
    simp only [vFiles, hi.dataJoin, hi.randJoin, k1, k2]
    have hdj := hi.dataJoin
    have hrj := hi.randJoin
    obtain ⟨cats, hc1, hc2⟩ := hw.stat
    have hcat : p.catType = "survey" ∨ p.catType = "random" ∨ p.catType = "sim" ∨ p.catType = "none" := by
      simp only [statTable, List.mem_cons, Prod.mk.injEq, List.not_mem_nil, or_false] at hc1
      rcases hc1 with h | h | h | h | h | h | h | h | h <;> (obtain ⟨-, -, -, rfl⟩ := h; simp at hc2; tauto)
    have hdn := hi.dataNone
    have hrn := hi.randNone
    have eta : ∀ (a b : List Str), p.dataFiles = a → p.randFiles = b →
        ({ p with dataFiles := a, randFiles := b, dataFile := join fnDelim a,
                  randFile := join fnDelim b } : Params K) = p := by
      rintro a b rfl rfl
      rw [← hdj, ← hrj]
    split_ifs with y1 y2 y3 y4 y5
    · exact congrArg Except.ok (eta _ _ rfl rfl)
    · exact congrArg Except.ok (eta _ _ (hdn y1 (by simp [y2])) rfl)
    · exact congrArg Except.ok (eta _ _ rfl (hrn y1 y2))
    · exact congrArg Except.ok (eta _ _ (hdn y1 y3) (hrn y1 y2))
    · tauto
    · tauto
  have s3 : vMesh p = .ok p := vMesh_again hw.align hw.padscale hw.order hw.interlace
  have s4 : vStat e p = .ok p := by
    obtain ⟨cats, hc1, hc2⟩ := hw.stat
    unfold vStat
    rw [statOf_of_table hc1 hc2]
  have s5 : vForm p = .ok p := vForm_again hw.form hw.norm hw.mixed hw.binning hw.shape
  have hpre : pre e false p = vFftw e false p := by
    unfold pre
    simp only [bind, Except.bind, s1, s2, s3, s4, s5]
    cases h6 : vFftw e false p with
    | error x => rfl
    | ok q =>
      simp only
      obtain ⟨c, rfl, -⟩ := vFftw_change h6
      have hi' := hi.set c
      have hw' := WellFormed.set hw c
      have s7 : vBvec e false (c.set p) = c.set p := by
        simp only [vBvec]
        rw [if_neg hi'.bvec.1, if_neg hi'.bvec.2]
        simp only [Bool.false_eq_true, and_false, if_false]
        rw [C68_no_variables _ _ hi'.plainB]
      rw [s7]
      simp only [vDerive]
      rw [← hw'.volume, ← hw'.nmesh, if_neg fun h => not_lt.2 (hw'.expanded h.1) h.2]
  unfold validate
  rw [hpre]
  cases h6 : vFftw e false p with
  | error x => rfl
  | ok q =>
    simp only
    obtain ⟨c, rfl, -⟩ := vFftw_change h6
    have hw' := WellFormed.set hw c
    rw [post_fixed _ hw']
    by_cases hm : (c.set p).nmesh ≤ 0
    · obtain ⟨h1, h2, h3⟩ := hw'.meshed.resolve_left (not_lt.2 hm)
      rw [if_pos hm, if_neg (not_lt.2 h3), if_neg (not_lt.2 h1)]
    · rw [if_neg hm]

/-! ### Changing tag, scheme, verbosity and progress bar before validation -/

/-- What can be changed without changing the rest. -/
structure Plain4 where
  tag : Str
  scheme : String
  flag : ℤ
  verbose : ℤ
  progbar : Str

/-- Setting them. -/
def Plain4.set (c : Plain4) (p : Params K) : Params K :=
  { p with tag := c.tag, scheme := c.scheme, plannerFlag := c.flag, verbose := c.verbose,
           progbar := c.progbar }

/-- The binned vectors do not take their path from the tag, or the tag is the same. -/
def TagFree (t : Str) (p : Params K) : Prop :=
  t = p.tag ∨ (p.saveBvec ≠ "true".toList ∧ p.statType ∉ ["modes", "pairs"])

theorem pre_set {e : Env K} {init : Bool} {p q : Params K} (h : pre e init p = .ok q) (c : Plain4)
    (hs : ∀ f, schemeOf e.gpu c.scheme f = .ok (c.scheme, c.flag))
    (hw : q.wisdom ≠ [] → c.scheme = "measure" ∨ c.scheme = "patient") (ht : TagFree c.tag p) :
    pre e init (c.set p) = .ok (c.set q) := by
  obtain ⟨a, b, c', d, f, h1, h2, h3, h4, h5, h6⟩ := pre_steps h
  have k1 : vFiles e init (vDirs e init (c.set p)) = .ok (c.set a) := by
    have hm : vFiles e init (vDirs e init (c.set p)) = (vFiles e init (vDirs e init p)).map fun q => c.set q := by
      unfold Plain4.set
      simp only [vFiles, vDirs]
      split_ifs <;> rfl
    rw [hm, h1]; rfl
  have k2 : vMesh (c.set a) = .ok (c.set b) := by
    have hm : vMesh (c.set a) = (vMesh a).map fun q => c.set q := by
      unfold Plain4.set
      simp only [vMesh, bind, Except.bind]
      cases orderOf a.assignment with
      | error _ => split_ifs <;> rfl
      | ok _ => cases interlaceOf a.interlace <;> split_ifs <;> rfl
    rw [hm, h2]; rfl
  have k3 : vStat e (c.set b) = .ok (c.set c') := by
    have hm : vStat e (c.set b) = (vStat e b).map fun q => c.set q := by
      unfold Plain4.set
      simp only [vStat]
      cases statOf e.extcall b.statType b.catType with
      | error _ => rfl
      | ok y => cases y <;> rfl
    rw [hm, h3]; rfl
  have k4 : vForm (c.set c') = .ok (c.set d) := by
    have hm : vForm (c.set c') = (vForm c').map fun q => c.set q := by
      unfold Plain4.set
      simp only [vForm]
      split_ifs <;> rfl
    rw [hm, h4]; rfl
  have hwf : f.wisdom = q.wisdom := by rw [(vDerive_frame h6).1]; rfl
  have k5 : vFftw e init (c.set d) = .ok (c.set f) := by
    obtain ⟨-, a2, a3⟩ := vFftw_spec h5
    have hd : (c.set d).scheme = c.scheme ∧ (c.set d).wisdom = d.wisdom ∧ (c.set d).ngrid = d.ngrid :=
      ⟨rfl, rfl, rfl⟩
    unfold vFftw
    rw [hd.1, hs, hd.2.1, hd.2.2, ← a2]
    simp only [bind, Except.bind]
    by_cases hw0 : f.wisdom = []
    · rw [if_pos hw0]
      have hnm : f.wisdomF = d.wisdomF ∧ f.wisdomB = d.wisdomB := by
        unfold vFftw at h5
        simp only [bind, Except.bind] at h5
        cases hsd : schemeOf e.gpu d.scheme d.plannerFlag with
        | error x => rw [hsd] at h5; cases h5
        | ok sf =>
          rw [hsd] at h5
          simp only at h5
          rw [a2] at hw0
          rw [if_pos hw0] at h5
          cases h5
          exact ⟨rfl, rfl⟩
      rw [vFftw_frame h5]
      simp only [Plain4.set, hnm.1, hnm.2]
    · rw [if_neg hw0, if_neg (by
        rintro ⟨x, y⟩
        rcases hw (hwf ▸ hw0) with z | z
        · exact x z
        · exact y z)]
      obtain ⟨-, a4, a5⟩ := a3 hw0
      rw [← a4, ← a5]
      conv_rhs => rw [vFftw_frame h5]
      rfl
  have hin : f.tag = p.tag ∧ f.saveBvec = p.saveBvec := by
    rw [vFftw_frame h5]; simp only
    rw [(vForm_frame h4).1]; simp only
    rw [(vStat_frame h3).1]; simp only
    rw [(vMesh_frame h2).1]; simp only
    rw [(vFiles_frame h1).1]
    exact ⟨rfl, rfl⟩
  have k6 : vBvec e init (c.set f) = c.set (vBvec e init f) := by
    have hx : ∀ r : Params K, vBvec e init r = { r with saveBvec := expandVars e.getenv <|
        (if r.saveBvec = "false".toList then [] else if r.saveBvec = "true".toList then bvecDefault r
          else if r.saveBvec ≠ [] ∧ r.saveBvec.head? ≠ some '/' ∧ init then r.measDir ++ r.saveBvec
          else r.saveBvec) } := fun _ => rfl
    have hr : (c.set f).saveBvec = f.saveBvec ∧ (c.set f).measDir = f.measDir := ⟨rfl, rfl⟩
    rw [hx, hx, hr.1, hr.2]
    rcases ht with ht | ⟨ht, -⟩
    · have hb : bvecDefault (c.set f) = bvecDefault f := by
        have : (c.set f).tag = f.tag := ht.trans hin.1.symm
        unfold bvecDefault
        rw [this]
        rfl
      rw [hb]
      rfl
    · rw [← hin.2] at ht
      rw [if_neg ht, if_neg ht]
      rfl
  have k7 : vDerive (c.set (vBvec e init f)) = .ok (c.set q) := by
    have hm : ∀ r : Params K, vDerive (c.set r) = (vDerive r).map fun q => c.set q := by
      intro r
      unfold Plain4.set
      simp only [vDerive]
      split_ifs <;> rfl
    rw [hm, h6]; rfl
  unfold pre
  simp only [bind, Except.bind, k1, k2, k3, k4, k5, k6, k7]

theorem post_other {d d' : Str} {p : Params K} (h : p.statType ∉ ["modes", "pairs"]) :
    post d' p = post d p := by
  have h0 : ¬ (p.statType = "modes" ∨ p.statType = "pairs") := by simpa using h
  simp only [post, h0, false_and, if_false]

theorem post_set {d d' : Str} {p q : Params K} (h : post d p = .ok q) (c : Plain4)
    (ht : d' = d ∨ p.statType ∉ ["modes", "pairs"]) : post d' (c.set p) = .ok (c.set q) := by
  have hd : post d' (c.set p) = post d (c.set p) := by
    rcases ht with rfl | ht
    · rfl
    · exact post_other ht
  have hp : padOk (c.set p) ↔ padOk p := Iff.rfl
  have hm : post d (c.set p) = (post d p).map fun q => c.set q := by
    unfold Plain4.set at hp ⊢
    simp only [post, hp]
    split_ifs <;> rfl
  rw [hd, hm, h]; rfl

theorem setNgrid_set {e : Env K} {p q : Params K} (h : setNgrid e p = .ok q) (c : Plain4) :
    setNgrid e (c.set p) = .ok (c.set q) := by
  have hm : setNgrid e (c.set p) = (setNgrid e p).map fun q => c.set q := by
    unfold setNgrid
    have : (c.set p).space = p.space ∧ (c.set p).box = p.box ∧ (c.set p).cutoff = p.cutoff :=
      ⟨rfl, rfl, rfl⟩
    rw [this.1, this.2.1, this.2.2]
    cases ngridCpp e.pi p.space (p.box 0) p.cutoff with
    | error _ => rfl
    | ok _ =>
      cases ngridCpp e.pi p.space (p.box 1) p.cutoff with
      | error _ => rfl
      | ok _ =>
        cases ngridCpp e.pi p.space (p.box 2) p.cutoff with
        | error _ => rfl
        | ok _ => rfl
  rw [hm, h]; rfl

theorem validate_wisdom {e : Env K} {fuel : ℕ} {p p' : Params K} (hp : '$' ∉ p.wisdom)
    (h : validate e fuel false p = some (.ok p')) (hw : wisdomOf e false p.wisdom = p.wisdom) :
    p'.wisdom = p.wisdom := by
  induction fuel generalizing p p' with
  | zero => cases h
  | succ fuel ih =>
    have key : ∀ q, pre e false p = .ok q → q.wisdom = p.wisdom := by
      intro q hq
      obtain ⟨a, b, c, d, f, h1, h2, h3, h4, h5, h6⟩ := pre_steps hq
      have hd : d.wisdom = p.wisdom := by
        rw [(vForm_frame h4).1]; simp only
        rw [(vStat_frame h3).1]; simp only
        rw [(vMesh_frame h2).1]; simp only
        rw [(vFiles_frame h1).1]
        rfl
      have : q.wisdom = f.wisdom := by rw [(vDerive_frame h6).1]; rfl
      rw [this, (vFftw_spec h5).2.1, hd, hw]
    obtain ⟨q, hq, ⟨h1, -⟩ | ⟨-, -, -, r, s, h3, h4, h5⟩⟩ := validate_cases h
    · rw [post_frame h1]; exact key q hq
    · have hr : r.wisdom = p.wisdom := by rw [setNgrid_inputs h3]; exact key q hq
      rw [post_frame h5]
      show s.wisdom = _
      rw [ih (by rw [hr]; exact hp) h4 (by rw [hr]; exact hw), hr]

theorem validate_wisdom_init {e : Env K} {fuel : ℕ} {init : Bool} {p p' : Params K} (hp : '$' ∉ p.wisdom)
    (h : validate e fuel init p = some (.ok p')) : p'.wisdom = wisdomOf e init p.wisdom := by
  cases fuel with
  | zero => cases h
  | succ fuel =>
    have key : ∀ q, pre e init p = .ok q → q.wisdom = wisdomOf e init p.wisdom := by
      intro q hq
      obtain ⟨a, b, c, d, f, h1, h2, h3, h4, h5, h6⟩ := pre_steps hq
      have hd : d.wisdom = p.wisdom := by
        rw [(vForm_frame h4).1]; simp only
        rw [(vStat_frame h3).1]; simp only
        rw [(vMesh_frame h2).1]; simp only
        rw [(vFiles_frame h1).1]
        rfl
      have : q.wisdom = f.wisdom := by rw [(vDerive_frame h6).1]; rfl
      rw [this, (vFftw_spec h5).2.1, hd]
    obtain ⟨q, hq, ⟨h1, -⟩ | ⟨-, -, -, r, s, h3, h4, h5⟩⟩ := validate_cases h
    · rw [post_frame h1]; exact key q hq
    · obtain ⟨w1, w2⟩ := wisdomOf_again (e := e) (init := init) hp
      have hr : r.wisdom = wisdomOf e init p.wisdom := by rw [setNgrid_inputs h3]; exact key q hq
      rw [post_frame h5]
      show s.wisdom = _
      rw [validate_wisdom (by rw [hr]; exact w2) h4 (by rw [hr]; exact w1), hr]

theorem pre_tag {e : Env K} {init : Bool} {p q : Params K} (h : pre e init p = .ok q) :
    q.tag = p.tag ∧ q.statType = p.statType := by
  have := pre_inputs h
  simp only [inputs, Prod.mk.injEq] at this
  tauto

/-- Validation commutes with the change of tag, scheme, verbosity and progress bar. -/
theorem validate_set {e : Env K} {fuel : ℕ} {init : Bool} {p p' : Params K} (hp : Plain p)
    (h : validate e fuel init p = some (.ok p')) (c : Plain4)
    (hs : ∀ f, schemeOf e.gpu c.scheme f = .ok (c.scheme, c.flag))
    (hw : wisdomOf e init p.wisdom ≠ [] → c.scheme = "measure" ∨ c.scheme = "patient")
    (ht : TagFree c.tag p) : validate e fuel init (c.set p) = some (.ok (c.set p')) := by
  induction fuel generalizing init p p' with
  | zero => cases h
  | succ fuel ih =>
    have hval := h
    obtain ⟨q, hq, hrest⟩ := validate_cases h
    have hwq : q.wisdom = wisdomOf e init p.wisdom := by
      obtain ⟨a, b, c, d, f, h1, h2, h3, h4, h5, h6⟩ := pre_steps hq
      have hd : d.wisdom = p.wisdom := by
        rw [(vForm_frame h4).1]; simp only
        rw [(vStat_frame h3).1]; simp only
        rw [(vMesh_frame h2).1]; simp only
        rw [(vFiles_frame h1).1]
        rfl
      have : q.wisdom = f.wisdom := by rw [(vDerive_frame h6).1]; rfl
      rw [this, (vFftw_spec h5).2.1, hd]
    have kq := pre_set hq c hs (by rw [hwq]; exact hw) ht
    have hi := pre_paths hq hp
    obtain ⟨htag, hst⟩ := pre_tag hq
    have hdef : bvecDefault (c.set q) = bvecDefault q ∨ p.statType ∉ ["modes", "pairs"] := by
      rcases ht with ht | ht
      · left
        have : (c.set q).tag = q.tag := ht.trans htag.symm
        unfold bvecDefault
        rw [this]
        rfl
      · exact Or.inr ht.2
    have hr : (c.set q).nmesh = q.nmesh ∧ (c.set q).cutoff = q.cutoff ∧ (c.set q).volume = q.volume :=
      ⟨rfl, rfl, rfl⟩
    rcases hrest with ⟨hpost, hcond⟩ | ⟨n1, n2, n3, r, s, h', h2, hpost⟩
    · have k := post_set hpost c (by rw [hst]; exact hdef)
      unfold validate
      rw [kq]
      simp only
      rw [hr.1, hr.2.1, hr.2.2]
      rcases hcond with m | ⟨m1, m2, m3⟩
      · rw [if_neg (not_le.2 m), k]
      · by_cases m : q.nmesh ≤ 0
        · rw [if_pos m, if_neg (not_lt.2 m3), if_neg (not_lt.2 m1), k]
        · rw [if_neg m, k]
    · have hrq := setNgrid_inputs h'
      have e1 : r.wisdom = q.wisdom ∧ r.tag = q.tag ∧ r.saveBvec = q.saveBvec ∧
          r.statType = q.statType := by
        rw [hrq]; exact ⟨rfl, rfl, rfl, rfl⟩
      have hpr : Plain r := by rw [hrq]; exact hi.plain
      have kr := ih hpr h2 (by
          rw [e1.1, hi.wisdom, hwq]
          exact hw) (by
          rcases ht with ht | ht
          · exact Or.inl (by rw [ht, e1.2.1, htag])
          · exact Or.inr ⟨by rw [e1.2.2.1]; exact hi.bvec.2, by rw [e1.2.2.2, hst]; exact ht.2⟩)
      have hss : s.statType = p.statType := by
        have := (C33_inputs_kept e fuel false r s h2).1
        simp only [inputs, Prod.mk.injEq] at this
        rw [← hst, ← e1.2.2.2]
        tauto
      have k := post_set hpost c (by rw [hss]; exact hdef)
      unfold validate
      rw [kq]
      simp only
      rw [hr.1, hr.2.1, hr.2.2, if_pos n1, if_neg (not_lt.2 n2), if_pos n3, setNgrid_set h' c]
      simp only
      rw [kr]
      simp only
      rw [k]

/-- Validation does not read the planner flag. -/
theorem pre_flag {e : Env K} (hg : e.gpu = false) (init : Bool) (p : Params K) (g : ℤ) :
    pre e init { p with plannerFlag := g } = pre e init p := by
  have m1 : vFiles e init (vDirs e init { p with plannerFlag := g }) =
      (vFiles e init (vDirs e init p)).map fun q => { q with plannerFlag := g } := by
    simp only [vFiles, vDirs]
    split_ifs <;> rfl
  have m2 : ∀ a : Params K, vMesh { a with plannerFlag := g } =
      (vMesh a).map fun q => { q with plannerFlag := g } := by
    intro a
    simp only [vMesh, bind, Except.bind]
    cases orderOf a.assignment with
    | error _ => split_ifs <;> rfl
    | ok _ => cases interlaceOf a.interlace <;> split_ifs <;> rfl
  have m3 : ∀ b : Params K, vStat e { b with plannerFlag := g } =
      (vStat e b).map fun q => { q with plannerFlag := g } := by
    intro b
    simp only [vStat]
    cases statOf e.extcall b.statType b.catType with
    | error _ => rfl
    | ok y => cases y <;> rfl
  have m4 : ∀ c : Params K, vForm { c with plannerFlag := g } =
      (vForm c).map fun q => { q with plannerFlag := g } := by
    intro c
    simp only [vForm]
    split_ifs <;> rfl
  have m5 : ∀ d : Params K, vFftw e init { d with plannerFlag := g } = vFftw e init d := by
    intro d
    have : schemeOf e.gpu d.scheme g = schemeOf e.gpu d.scheme d.plannerFlag := by
      simp only [schemeOf, hg, Bool.false_eq_true, not_false_iff, if_true]
    unfold vFftw
    simp only [this]
  unfold pre
  simp only [bind, Except.bind]
  rw [m1]
  cases vFiles e init (vDirs e init p) with
  | error _ => rfl
  | ok a =>
    simp only [Except.map]
    rw [m2]
    cases vMesh a with
    | error _ => rfl
    | ok b =>
      simp only [Except.map]
      rw [m3]
      cases vStat e b with
      | error _ => rfl
      | ok c =>
        simp only [Except.map]
        rw [m4]
        cases vForm c with
        | error _ => rfl
        | ok d =>
          simp only [Except.map]
          rw [m5]

theorem validate_flag {e : Env K} (hg : e.gpu = false) (fuel : ℕ) (init : Bool) (p : Params K) (g : ℤ) :
    validate e fuel init { p with plannerFlag := g } = validate e fuel init p := by
  cases fuel with
  | zero => rfl
  | succ fuel =>
    unfold validate
    rw [pre_flag hg]

end Trv.Prog

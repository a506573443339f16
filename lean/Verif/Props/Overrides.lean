import Verif.Spec.Overrides
import Verif.Lemmas.Overrides
/-
C128: the environment variables which override the parameters of the program.
-/
namespace Trv.Prog
open Trv.Mon Trv.Par

section
variable {K : Type} [Field K] [LinearOrder K] [IsStrictOrderedRing K] [FloorRing K]

theorem wisdomOf_dir {e : Env K} (hg : e.gpu = false) (o : Overrides) {p : Params K}
    (h : wisdomOf e false p.wisdom = p.wisdom) :
    wisdomOf e false (o.wisdom.getD p.wisdom) = o.dir e.getenv p := by
  unfold Overrides.dir
  cases hw : o.wisdom with
  | none => exact h
  | some w =>
    simp only [Option.getD_some, wisdomOf, hg, Bool.false_eq_true, if_false]
    split_ifs
    · exact expandVars_nil _
    · rfl

theorem scheme_known (s : String) (g : ℤ) :
    (s ∈ ["estimate", "measure", "patient"] ∧ ∃ f, (s, f) ∈ plannerTable ∧ schemeOf false s g = .ok (s, f)) ∨
    (s ∉ ["estimate", "measure", "patient"] ∧ schemeOf false s g = .error .invalidParameter) := by
  by_cases h1 : s = "estimate"
  · subst h1; left; exact ⟨by simp, 64, by simp [plannerTable], by simp [schemeOf]⟩
  by_cases h2 : s = "measure"
  · subst h2; left; exact ⟨by simp, 0, by simp [plannerTable], by simp [schemeOf]⟩
  by_cases h3 : s = "patient"
  · subst h3; left; exact ⟨by simp, 32, by simp [plannerTable], by simp [schemeOf]⟩
  · right; simp [schemeOf, h1, h2, h3]

/-- **C128.** The parameters read by the program, overridden by environment variables, are
accepted exactly if the verbosity is a number, the planner scheme is known, and the scheme
makes wisdom whenever a wisdom directory is set; and then nothing but the overridden parameters
(with the planner flag and the names of the wisdom files) changes. -/
theorem C128_override (e : Env K) (he : e.extcall = false) (hg : e.gpu = false)
    (toInt : Str → Option ℤ) (o : Overrides) (fuel : ℕ) (init : Bool) (p p' : Params K) (hp : Plain p)
    (h : validate e fuel init p = some (.ok p')) (g1 : GoodFiles p'.dataFiles)
    (g2 : GoodFiles p'.randFiles) (k : ℕ) :
    ∃ x, override e toInt (k + 1) o p' = some x ∧
      (o.Fit e.getenv toInt p' → ∃ q, x = .ok q ∧ o.Replaces e toInt p' q) ∧
      (¬ o.Fit e.getenv toInt p' → ∃ y, x = .error y) := by
  have hw := C33_well_formed e he fuel init p p' h
  have hi := validate_paths e fuel init p p' hp h
  have hd := wisdomOf_dir hg o hi.wisdom
  unfold override
  have hbad : ∀ v, o.verbose = some v → toInt v = none →
      overridden e toInt o p' = .error .runtimeError := by
    intro v h1 h2
    simp only [overridden, h1, h2]
  have hgood : (∀ v, o.verbose = some v → ∃ n, toInt v = some n) →
      overridden e toInt o p' = .ok ((⟨o.tag.getD p'.tag, o.scheme.getD p'.scheme, p'.plannerFlag,
        o.wisdom.getD p'.wisdom, p'.wisdomF, p'.wisdomB, (o.verbose.bind toInt).getD p'.verbose,
        o.progbar.getD p'.progbar⟩ : Change).set p') := by
    intro h1
    simp only [overridden, hg, Bool.false_eq_true, if_false]
    cases hv : o.verbose with
    | none => rfl
    | some v =>
      obtain ⟨n, hn⟩ := h1 v hv
      simp only [hn, Option.bind_some]
      rfl
  by_cases hn : ∀ v, o.verbose = some v → ∃ n, toInt v = some n
  · rw [hgood hn]
    simp only
    rw [validate_planner he (WellFormed.set hw _) ((Paths.of hi g1 g2).set _)]
    refine ⟨_, rfl, ?_⟩
    unfold vFftw
    simp only [Change.set, hg, hd, bind, Except.bind]
    rcases scheme_known (o.scheme.getD p'.scheme) p'.plannerFlag with ⟨s1, f, s2, s3⟩ | ⟨s1, s2⟩
    · simp only [s3]
      by_cases hwd : o.dir e.getenv p' = []
      · rw [if_pos hwd]
        refine ⟨fun _ => ⟨_, rfl, ⟨rfl, rfl, rfl, rfl, rfl, s2, rfl, fun hc => absurd hwd hc,
          fun _ => ⟨rfl, rfl⟩⟩⟩, fun hc => absurd ⟨hn, s1, fun hc => absurd hwd hc⟩ hc⟩
      · rw [if_neg hwd]
        by_cases hm : o.scheme.getD p'.scheme ∈ ["measure", "patient"]
        · rw [if_neg (by
            rintro ⟨x, y⟩
            simp only [List.mem_cons, List.not_mem_nil, or_false] at hm
            tauto)]
          refine ⟨fun _ => ⟨_, rfl, ⟨rfl, rfl, rfl, rfl, rfl, s2, rfl, fun _ => ⟨rfl, rfl⟩,
            fun hc => absurd hc hwd⟩⟩, fun hc => absurd ⟨hn, s1, fun _ => hm⟩ hc⟩
        · rw [if_pos (by simpa using hm)]
          exact ⟨fun hc => absurd (hc.2.2 hwd) hm, fun _ => ⟨_, rfl⟩⟩
    · simp only [s2]
      exact ⟨fun hc => absurd hc.2.1 s1, fun _ => ⟨_, rfl⟩⟩
  · push Not at hn
    obtain ⟨v, h1, h2⟩ := hn
    have h3 : toInt v = none := by
      cases h : toInt v with
      | none => rfl
      | some n => exact absurd h (h2 n)
    rw [hbad v h1 h3]
    exact ⟨_, rfl, fun hc => (hc.1 v h1).elim fun n h => absurd h (h2 n), fun _ => ⟨_, rfl⟩⟩

/-- **C128 (partial).** Overriding output tag, planner scheme, verbosity and progress bar gives
the parameters of a file in which the overriding values stand.  Missing: the wisdom directory
(see `C128_wisdom_violated`) and the tag when the binned vectors take their path from it (see
`C128_tag_violated`). -/
theorem C128_as_file_partial (e : Env K) (he : e.extcall = false) (hg : e.gpu = false)
    (toInt : Str → Option ℤ) (o : Overrides) (fuel : ℕ) (p p' q : Params K) (hp : Plain p)
    (h : validate e fuel true p = some (.ok p')) (g1 : GoodFiles p'.dataFiles)
    (g2 : GoodFiles p'.randFiles) (ho : o.wisdom = none)
    (ht : o.tag.getD p.tag = p.tag ∨
      (p.saveBvec ≠ "true".toList ∧ p.statType ≠ "modes" ∧ p.statType ≠ "pairs"))
    (k : ℕ) (hq : override e toInt (k + 1) o p' = some (.ok q)) :
    validate e fuel true (o.inFile toInt p) = some (.ok q) := by
  have hi := validate_paths e fuel true p p' hp h
  obtain ⟨x, h1, h2, h3⟩ := C128_override e he hg toInt o fuel true p p' hp h g1 g2 k
  rw [hq] at h1
  cases h1
  have hfit : o.Fit e.getenv toInt p' := by
    by_contra hc
    obtain ⟨y, hy⟩ := h3 hc
    cases hy
  obtain ⟨_, h1, hr⟩ := h2 hfit
  cases h1
  have hin := (C33_inputs_kept e fuel true p p' h).1
  simp only [inputs, Prod.mk.injEq] at hin
  have htag : p'.tag = p.tag := by tauto
  have hverb : p'.verbose = p.verbose := by tauto
  have hprog : p'.progbar = p.progbar := by tauto
  have hsch := (C33_planner e hg fuel true p p' h).1
  have hwis : q.wisdom = p'.wisdom := by rw [hr.wisdom]; simp only [Overrides.dir, ho]
  have hwis' := validate_wisdom_init hp.2.2.2.2.1 h
  have hnames : q.wisdomF = p'.wisdomF ∧ q.wisdomB = p'.wisdomB := by
    by_cases hw0 : q.wisdom = []
    · exact hr.noNames hw0
    · obtain ⟨a, b⟩ := hr.names hw0
      have hw1 : p'.wisdom ≠ [] := hwis ▸ hw0
      obtain ⟨-, c, d⟩ := hi.names hw1
      rw [a, b, c, d, hwis]
      exact ⟨rfl, rfl⟩
  let c : Plain4 := ⟨q.tag, q.scheme, q.plannerFlag, q.verbose, q.progbar⟩
  have key := validate_set hp h c (by
      intro f
      rw [hg]
      have hf := hr.flag
      simp only [plannerTable, List.mem_cons, Prod.mk.injEq, List.not_mem_nil, or_false] at hf
      show schemeOf false q.scheme f = .ok (q.scheme, q.plannerFlag)
      rcases hf with ⟨a, b⟩ | ⟨a, b⟩ | ⟨a, b⟩ <;> rw [a, b] <;> simp [schemeOf])
    (by
      intro hw0
      rw [← hwis', ← hwis, hr.wisdom] at hw0
      have := hfit.2.2 hw0
      rw [← hr.scheme] at this
      simpa using this)
    (by
      show q.tag = p.tag ∨ _
      rw [hr.tag, htag]
      rcases ht with ht | ht
      · exact Or.inl ht
      · exact Or.inr ⟨ht.1, by simp [ht.2]⟩)
  have e1 : c.set p' = q := by
    rw [hr.rest, hwis, hnames.1, hnames.2]
    rfl
  have e2 : c.set p = { o.inFile toInt p with plannerFlag := q.plannerFlag } := by
    have : o.inFile toInt p = { p with tag := q.tag, scheme := q.scheme, verbose := q.verbose, progbar := q.progbar } := by
      unfold Overrides.inFile
      rw [hr.tag, hr.scheme, hr.verbose, hr.progbar, htag, hsch, hverb, hprog, ho]
      rfl
    rw [this]
    rfl
  rw [e1, e2, validate_flag hg] at key
  exact key

end

/-- A verbosity is 30, for examples. -/
def exInt (s : Str) : Option ℤ := if s = "30".toList then some 30 else none

/-- What the overriding of examples gives. -/
def exOver (o : Overrides) (p : Params ℚ) : Option (Params ℚ × Params ℚ × Params ℚ) :=
  match validate (exEnv false) 1 true p with
  | some (.ok p') =>
    match override (exEnv false) exInt 1 o p', validate (exEnv false) 1 true (o.inFile exInt p) with
    | some (.ok q), some (.ok r) => some (p', q, r)
    | _, _ => none
  | _ => none

theorem exOver_spec {o : Overrides} {p : Params ℚ} {f : Params ℚ → Params ℚ → Params ℚ → Bool}
    (h : (exOver o p).any (fun x => f x.1 x.2.1 x.2.2) = true) :
    ∃ p' q r, validate (exEnv false) 1 true p = some (.ok p') ∧
      override (exEnv false) exInt 1 o p' = some (.ok q) ∧
      validate (exEnv false) 1 true (o.inFile exInt p) = some (.ok r) ∧ f p' q r = true := by
  unfold exOver at h
  split at h
  · rename_i p' h1
    split at h
    · rename_i q r h2 h3
      exact ⟨p', q, r, h1, h2, h3, by simpa using h⟩
    · cases h
  · cases h

example : (exOver ⟨some "_u".toList, some "patient", none, some "30".toList, some "true".toList⟩ exPar).any (fun x => decide (x.2.1.plannerFlag = 32 ∧
      x.2.1.verbose = 30 ∧ x.2.1.tag = "_u".toList ∧ x.2.2.plannerFlag = 32 ∧ x.1.verbose ≠ 30)) = true := by
  decide +kernel

/-- **C128 (violated).** A wisdom directory given by the environment variable is not ended by a
slash, unlike one given in the parameter file: the wisdom files are put beside the directory,
under names which begin with its name. -/
theorem C128_wisdom_violated :
    ∃ (o : Overrides) (p p' q r : Params ℚ), validate (exEnv false) 1 true p = some (.ok p') ∧
      override (exEnv false) exInt 1 o p' = some (.ok q) ∧
      validate (exEnv false) 1 true (o.inFile exInt p) = some (.ok r) ∧
      q.wisdomF = "/wfftw_omp_cif_64x64x64.wisdom".toList ∧
      r.wisdomF = "/w/fftw_omp_cif_64x64x64.wisdom".toList := by
  obtain ⟨p', q, r, h1, h2, h3, h4⟩ := exOver_spec
    (o := { wisdom := some "/w".toList, scheme := some "measure" }) (p := exPar)
    (f := fun _ q r => decide (q.wisdomF = "/wfftw_omp_cif_64x64x64.wisdom".toList ∧
      r.wisdomF = "/w/fftw_omp_cif_64x64x64.wisdom".toList)) (by decide +kernel)
  exact ⟨_, _, p', q, r, h1, h2, h3, of_decide_eq_true h4⟩

/-- **C128 (violated).** An output tag given by the environment variable does not reach the
path of the binned vectors, which keeps the tag of the parameter file. -/
theorem C128_tag_violated :
    ∃ (o : Overrides) (p p' q r : Params ℚ), validate (exEnv false) 1 true p = some (.ok p') ∧
      override (exEnv false) exInt 1 o p' = some (.ok q) ∧
      validate (exEnv false) 1 true (o.inFile exInt p) = some (.ok r) ∧
      q.saveBvec = "out/binned_vectors_t".toList ∧ r.saveBvec = "out/binned_vectors_u".toList := by
  obtain ⟨p', q, r, h1, h2, h3, h4⟩ := exOver_spec
    (o := { tag := some "_u".toList }) (p := { exPar with saveBvec := "true".toList })
    (f := fun _ q r => decide (q.saveBvec = "out/binned_vectors_t".toList ∧
      r.saveBvec = "out/binned_vectors_u".toList)) (by decide +kernel)
  exact ⟨_, _, p', q, r, h1, h2, h3, of_decide_eq_true h4⟩

end Trv.Prog

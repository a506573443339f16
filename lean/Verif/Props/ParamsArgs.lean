import Verif.Props.ParamsMod
/-
C33, C35, C95: the interlacing switch, the cutoff and the arguments of a measurement.
-/
set_option linter.unusedSectionVars false
namespace Trv.Par
open Trv.Mon

section
variable {K : Type} [Field K] [LinearOrder K] [IsStrictOrderedRing K] [FloorRing K]

/-! ### C33: the interlacing switch -/

theorem interlaceOf_table {s i : String} (h : interlaceOf s = .ok i) :
    s ∈ ["true", "on", "false", "off"] ∧ i = if s ∈ ["true", "on"] then "true" else "false" := by
  unfold interlaceOf at h
  simp only [List.mem_cons, List.not_mem_nil, or_false]
  split_ifs at h with h1 h2
  · cases h
    exact ⟨by tauto, (if_pos h1).symm⟩
  · cases h
    exact ⟨by tauto, (if_neg h1).symm⟩

theorem pre_interlace {e : Env K} {init : Bool} {p q : Params K} (h : pre e init p = .ok q) :
    p.interlace ∈ ["true", "on", "false", "off"] ∧
      q.interlace = if p.interlace ∈ ["true", "on"] then "true" else "false" := by
  obtain ⟨a, b, c, d, f, h1, h2, h3, h4, h5, h6⟩ := pre_steps h
  have ha : a.interlace = p.interlace := by rw [(vFiles_frame h1).1]; rfl
  have hq : q.interlace = b.interlace := by
    rw [(vDerive_frame h6).1]
    show f.interlace = _
    rw [vFftw_frame h5]
    show d.interlace = _
    rw [(vForm_frame h4).1]
    show c.interlace = _
    rw [(vStat_frame h3).1]
  rw [hq, ← ha]
  unfold vMesh at h2
  split_ifs at h2
  simp only [bind, Except.bind] at h2
  split at h2
  · cases h2
  split at h2
  · cases h2
  · rename_i i hi
    cases h2
    exact interlaceOf_table hi

theorem post_interlace {dflt : Str} {p q : Params K} (h : post dflt p = .ok q) :
    q.interlace = if p.npoint = "3pt" ∧ p.interlace = "true" then "false" else p.interlace := by
  simp only [post] at h
  split_ifs at h with h1 h2 h3 h4 h5 h6 h7 h8 h9 <;> cases h <;> simp [h8]

/-- **C33 (interlacing).** An accepted parameter set had one of the four switches, and
interlacing is on exactly when it was switched on and the statistic is not a three-point one. -/
theorem C33_interlace (e : Env K) (fuel : ℕ) (init : Bool) (p p' : Params K)
    (h : validate e fuel init p = some (.ok p')) :
    p.interlace ∈ ["true", "on", "false", "off"] ∧
      p'.interlace = if p'.npoint ≠ "3pt" ∧ p.interlace ∈ ["true", "on"] then "true" else "false" := by
  have key : ∀ (n i : String), (if n = "3pt" ∧ (if i ∈ ["true", "on"] then "true" else "false") = "true"
      then "false" else (if i ∈ ["true", "on"] then "true" else "false"))
      = if n ≠ "3pt" ∧ i ∈ ["true", "on"] then "true" else "false" := by
    intro n i
    by_cases h1 : n = "3pt" <;> by_cases h2 : i ∈ ["true", "on"] <;> simp [h1, h2]
  induction fuel generalizing init p p' with
  | zero => cases h
  | succ fuel ih =>
    obtain ⟨q, hq, ⟨h1, -⟩ | ⟨-, -, -, r, s, h3, h4, h5⟩⟩ := validate_cases h
    · obtain ⟨a, b⟩ := pre_interlace hq
      refine ⟨a, ?_⟩
      have hn : p'.npoint = q.npoint := by rw [post_frame h1]
      rw [post_interlace h1, b, hn, key]
    · obtain ⟨a, b⟩ := pre_interlace hq
      refine ⟨a, ?_⟩
      obtain ⟨-, c⟩ := ih _ _ _ h4
      have hn : p'.npoint = s.npoint := by rw [post_frame h5]
      have hr : r.interlace = q.interlace := by rw [setNgrid_inputs h3]
      rw [hr, b] at c
      rw [post_interlace h5, c, hn]
      by_cases h6 : s.npoint = "3pt" <;> by_cases h7 : p.interlace ∈ ["true", "on"] <;> simp [h6, h7]

/-! ### C35: the cutoff -/

theorem pCutoff_spec {e : Env K} {s s' : PySet K} (h : pCutoff e s = (s', none))
    (hm : s.d.nmesh = 0) : ∃ c, s.d.cutoff = some c ∧ s'.c.cutoff = c := by
  unfold pCutoff at h
  rw [if_pos hm] at h
  split at h
  · cases h
  · rename_i c hc
    refine ⟨c, hc, ?_⟩
    simp only at h
    split at h
    · cases h; rfl
    · split_ifs at h
      · split at h
        · cases h
        · cases h; rfl
      · cases h; rfl

/-- **C35 (cutoff, partial).** Without a mesh an accepted assignment has a cutoff, and it is the
one in the C++ parameters. -/
theorem C35_cutoff_partial (e : Env K) (fuel : ℕ) (f : Dict K → Dict K) (s s' : PySet K)
    (hn : ∃ i, (f s.d).ngrid i = none) (h : assign e fuel f s = some (s', none)) :
    ∃ c, (f s.d).cutoff = some c ∧ s'.d.cutoff = some c ∧ s'.c.cutoff = c := by
  obtain ⟨s1, s2, s3, s4, h1, h2, h3, h4, h5⟩ := pParse_steps h
  generalize hs0 : ({ s with d := f s.d } : PySet K) = s0 at h1
  have hn' : all3 s0.d.ngrid = none := by
    rw [← hs0]; exact all3_none hn
  have hd0 : (f s.d).cutoff = s0.d.cutoff := by rw [← hs0]
  rw [hd0]
  unfold pRange at h1
  split at h1
  swap
  · simp at h1
  simp only [Prod.mk.injEq, and_true] at h1
  subst h1
  unfold pBins at h2
  split at h2
  swap
  · simp at h2
  simp only [Prod.mk.injEq, and_true] at h2
  subst h2
  obtain ⟨c, c1, c2⟩ := pCutoff_spec h3 (by simp only [pDegrees, pMesh, pPaths, hn'])
  have d3 := (pCutoff_frame h3).2
  unfold pForm at h4
  simp only at h4
  split_ifs at h4
  · simp at h4
  simp only [Prod.mk.injEq, and_true] at h4
  subst h4
  unfold pValidate at h5
  split at h5
  · cases h5
  · simp at h5
  rename_i cc hcc
  simp only [Option.some.injEq, Prod.mk.injEq, and_true] at h5
  have hin := congrArg (fun t => t.2.2.1) (C33_inputs_kept e fuel true _ cc hcc).1
  simp only [inputs, pMisc] at hin
  subst h5
  refine ⟨c, c1, ?_, hin.trans c2⟩
  show s3.d.cutoff = some c
  rw [d3]
  exact c1

/-! ### C95: the arguments of a measurement -/

/-- **C95 (arguments, partial).** A two-point measurement without a parameter set is rejected
exactly when the sampling parameters, the degree or the binning are missing, or both paddings of a
padded box are given.  Otherwise the degree and the binning of the call are in effect, the form and
the normalisation are those of the template. -/
theorem C95_two_point_partial (m : Option (Sampling K)) (degree : Option ℤ)
    (bins : Option (K × K × ℤ)) (cat stat : Option String) :
    ((m = none ∨ degree = none ∨ bins = none ∨ ∃ m', m = some m' ∧ BothPads m' (some "centre")) →
      ∃ d, amalgamate2None m degree bins cat stat = some (d, some .valueError)) ∧
    (∀ m' n a b k, m = some m' → degree = some n → bins = some (a, b, k) →
      ¬ BothPads m' (some "centre") →
      ∃ d, amalgamate2None m degree bins cat stat = some (d, none) ∧ d.ELL = some n ∧
        d.binMin = some a ∧ d.binMax = some b ∧ d.numBins = some k ∧ d.ell1 = none ∧ d.ell2 = none ∧
        d.idxBin = none ∧ d.form = some "diag" ∧ d.norm = some "particle" ∧ d.catType = cat ∧
        d.statType = stat) := by
  constructor
  · intro h
    unfold amalgamate2None
    by_cases h0 : m.isNone ∨ degree.isNone ∨ bins.isNone
    · rw [if_pos h0]; exact ⟨_, rfl⟩
    · rw [if_neg h0]
      simp only [Option.isNone_iff_eq_none, not_or] at h0
      rcases h with h | h | h | ⟨m', rfl, hb⟩
      · exact absurd h h0.1
      · exact absurd h h0.2.1
      · exact absurd h h0.2.2
      · exact (C95_template_partial m' _ cat stat template).1 hb
  · rintro m' n a b k rfl rfl rfl hb
    obtain ⟨d, h1, h2⟩ := (C95_template_partial m' (measure2 (some n) (some (a, b, k))) cat stat
      template).2 hb
    refine ⟨d, ?_, ?_⟩
    · unfold amalgamate2None
      rw [if_neg (by simp)]
      exact h1
    · exact ⟨congrArg Kept.ELL h2, congrArg Kept.binMin h2, congrArg Kept.binMax h2,
        congrArg Kept.numBins h2, congrArg Kept.ell1 h2, congrArg Kept.ell2 h2,
        congrArg Kept.idxBin h2, congrArg Kept.form h2, congrArg Kept.norm h2,
        (congrArg Kept.catType h2).trans (Option.or_none), (congrArg Kept.statType h2).trans
          (Option.or_none)⟩

/-- **C95 (arguments, partial).** A three-point measurement without a parameter set is rejected
exactly when the sampling parameters, the degrees, the binning or the form are missing, the form is
`"row"` or `"off-diag"` and the bin index is missing, or both paddings of a padded box are given.
Otherwise the arguments of the call are in effect, each for the entry of its name. -/
theorem C95_three_point_partial (m : Option (Sampling K)) (degrees : Option (ℤ × ℤ × ℤ))
    (wa : Option (ℤ × ℤ)) (bins : Option (K × K × ℤ)) (form : Option String) (idx : Option ℤ)
    (cat stat : Option String) :
    ((m = none ∨ degrees = none ∨ bins = none ∨ form = none ∨
        (form = some "row" ∧ idx = none) ∨ (form = some "off-diag" ∧ idx = none) ∨
        ∃ m', m = some m' ∧ BothPads m' (some "centre")) →
      ∃ d, amalgamate3None m degrees wa bins form idx cat stat = some (d, some .valueError)) ∧
    (∀ m' l1 l2 L a b k s, m = some m' → degrees = some (l1, l2, L) → bins = some (a, b, k) →
      form = some s → (s = "row" ∨ s = "off-diag" → idx ≠ none) → ¬ BothPads m' (some "centre") →
      ∃ d, amalgamate3None m degrees wa bins form idx cat stat = some (d, none) ∧
        d.ell1 = some l1 ∧ d.ell2 = some l2 ∧ d.ELL = some L ∧ d.binMin = some a ∧
        d.binMax = some b ∧ d.numBins = some k ∧ d.form = some s ∧ d.idxBin = idx ∧
        d.iWa = wa.map Prod.fst ∧ d.jWa = wa.map Prod.snd ∧ d.catType = cat ∧ d.statType = stat) := by
  constructor
  · intro h
    unfold amalgamate3None
    by_cases h0 : m.isNone ∨ degrees.isNone ∨ bins.isNone ∨ form.isNone
    · rw [if_pos h0]; exact ⟨_, rfl⟩
    rw [if_neg h0]
    by_cases h1 : (form = some "row" ∨ form = some "off-diag") ∧ idx.isNone
    · rw [if_pos h1]; exact ⟨_, rfl⟩
    rw [if_neg h1]
    simp only [Option.isNone_iff_eq_none, not_or] at h0 h1
    rcases h with h | h | h | h | h | h | ⟨m', rfl, hb⟩
    · exact absurd h h0.1
    · exact absurd h h0.2.1
    · exact absurd h h0.2.2.1
    · exact absurd h h0.2.2.2
    · exact absurd ⟨Or.inl h.1, h.2⟩ h1
    · exact absurd ⟨Or.inr h.1, h.2⟩ h1
    · exact (C95_template_partial m' _ cat stat template).1 hb
  · rintro m' l1 l2 L a b k s rfl rfl rfl rfl hi hb
    obtain ⟨d, h1, h2⟩ := (C95_template_partial m'
      (measure3 (some (l1, l2, L)) wa (some (a, b, k)) (some s) idx) cat stat template).2 hb
    refine ⟨d, ?_, ?_⟩
    · unfold amalgamate3None
      rw [if_neg (by simp), if_neg ?_]
      · exact h1
      · rintro ⟨h3, h4⟩
        rw [Option.some.injEq, Option.some.injEq] at h3
        exact hi h3 (Option.isNone_iff_eq_none.1 h4)
    · exact ⟨congrArg Kept.ell1 h2, congrArg Kept.ell2 h2, congrArg Kept.ELL h2,
        congrArg Kept.binMin h2, congrArg Kept.binMax h2, congrArg Kept.numBins h2,
        congrArg Kept.form h2, (congrArg Kept.idxBin h2).trans Option.or_none,
        (congrArg Kept.iWa h2).trans Option.or_none, (congrArg Kept.jWa h2).trans Option.or_none,
        (congrArg Kept.catType h2).trans Option.or_none,
        (congrArg Kept.statType h2).trans Option.or_none⟩

end

/-- Interlacing switched on with `on` is on for a two-point and off for a three-point statistic. -/
example : (match validate (exEnv false) 1 true { exPar with interlace := "on" } with
    | some (.ok q) => decide (q.interlace = "true") | _ => false) = true ∧
  (match validate (exEnv false) 1 true { exPar with interlace := "on", statType := "bispec" } with
    | some (.ok q) => decide (q.interlace = "false") | _ => false) = true := by decide +kernel

/-- An accepted assignment of a cutoff in place of a mesh, after the space is known. -/
example : (match construct (exEnv true) 2 exDict with
    | some (s, none) => (match assign (exEnv true) 2
          (fun d => { d with ngrid := fun _ => none, cutoff := some (1 / 5) }) s with
      | some (s', none) => decide (s'.c.cutoff = 1 / 5) | _ => false)
    | _ => false) = true := by decide +kernel

end Trv.Par

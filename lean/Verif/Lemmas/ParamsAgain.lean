import Verif.Lemmas.Params
/-
Validating again.
-/
set_option linter.unusedSectionVars false
namespace Trv.Par
open Trv.Mon

section
variable {K : Type} [Field K] [LinearOrder K]

theorem expandVars_nil (env : Str → Option Str) : expandVars env [] = [] :=
  C68_no_variables env [] (by simp)

theorem vFiles_cat {e : Env K} {init : Bool} {p q : Params K} (h : vFiles e init p = .ok q) :
    p.catType ∈ ["survey", "random", "sim", "none"] ∨ e.extcall = true := by
  cases he : e.extcall with
  | true => exact Or.inr rfl
  | false => exact Or.inl ((vFiles_frame h).2 he)

theorem vFiles_ok (e : Env K) (init : Bool) (p : Params K)
    (h : p.catType ∈ ["survey", "random", "sim", "none"] ∨ e.extcall = true) :
    ∃ q, vFiles e init p = .ok q := by
  simp only [vFiles]
  split_ifs with h1 h2 h3 h4 h5
  · exact ⟨_, rfl⟩
  · exact ⟨_, rfl⟩
  · exact ⟨_, rfl⟩
  · exact ⟨_, rfl⟩
  · exact ⟨_, rfl⟩
  · simp_all

theorem orderOf_table {s : String} {o : ℤ} (h : (s, o) ∈ orderTable) : orderOf s = .ok o := by
  simp only [orderTable, List.mem_cons, Prod.mk.injEq, List.not_mem_nil, or_false] at h
  rcases h with ⟨rfl, rfl⟩ | ⟨rfl, rfl⟩ | ⟨rfl, rfl⟩ | ⟨rfl, rfl⟩ <;> rfl

theorem interlaceOf_again {s : String} (h : s ∈ ["true", "false"]) : interlaceOf s = .ok s := by
  simp only [List.mem_cons, List.not_mem_nil, or_false] at h
  rcases h with rfl | rfl <;> simp [interlaceOf]

theorem vMesh_again {p : Params K} (h1 : p.alignment ∈ ["centre", "pad"])
    (h2 : p.padscale ∈ ["box", "grid"]) (h3 : (p.assignment, p.assignOrder) ∈ orderTable)
    (h4 : p.interlace ∈ ["true", "false"]) : vMesh p = .ok p := by
  simp only [List.mem_cons, List.not_mem_nil, or_false] at h1 h2
  unfold vMesh
  rw [if_neg (not_not.2 h1), if_neg (not_not.2 h2), orderOf_table h3, interlaceOf_again h4]
  rfl

theorem stat_eta {p : Params K} {a b : String} (h1 : p.npoint = a) (h2 : p.space = b) :
    { p with npoint := a, space := b } = p := by
  subst h1 h2; rfl

theorem vStat_again {e : Env K} {p q p' : Params K} (h : vStat e p = .ok q)
    (h1 : p'.statType = q.statType) (h2 : p'.catType = q.catType) (h3 : p'.npoint = q.npoint)
    (h4 : p'.space = q.space) : vStat e p' = .ok p' := by
  have f := (vStat_frame h).1
  have hs : p'.statType = p.statType := by rw [h1, f]
  have hc : p'.catType = p.catType := by rw [h2, f]
  clear f
  unfold vStat at h ⊢
  rw [hs, hc]
  split at h
  · cases h
  · rfl
  · cases h
    rw [← hs, ← hc]
    exact congrArg Except.ok (stat_eta h3 h4)

theorem vForm_again {p : Params K} (h1 : p.form ∈ ["full", "diag", "off-diag", "row"])
    (h2 : p.norm ∈ ["none", "particle", "mesh", "mesh-mixed"])
    (h3 : p.norm = "mesh-mixed" → p.npoint = "2pt")
    (h4 : p.binning ∈ ["lin", "log", "linpad", "logpad", "custom"])
    (h5 : p.shape = if p.form = "full" ∧ p.ell1 = p.ell2 then "triu" else p.form) :
    vForm p = .ok p := by
  simp only [List.mem_cons, List.not_mem_nil, or_false] at h1 h2 h4
  simp only [vForm]
  rw [if_neg (not_not.2 h1), if_neg (not_not.2 h2), if_neg (fun hc => hc.2 (h3 hc.1)),
    if_neg (not_not.2 h4), ← h5]

/-- What the planner step leaves. -/
theorem vFftw_spec {e : Env K} {init : Bool} {p q : Params K} (h : vFftw e init p = .ok q) :
    schemeOf e.gpu q.scheme q.plannerFlag = .ok (q.scheme, q.plannerFlag) ∧
    q.wisdom = wisdomOf e init p.wisdom ∧
    (q.wisdom ≠ [] → (q.scheme = "measure" ∨ q.scheme = "patient") ∧
      q.wisdomF = wisdomName e q.wisdom 'f' p.ngrid ∧ q.wisdomB = wisdomName e q.wisdom 'b' p.ngrid) := by
  unfold vFftw at h
  simp only [bind, Except.bind] at h
  cases hs : schemeOf e.gpu p.scheme p.plannerFlag with
  | error x => rw [hs] at h; cases h
  | ok sf =>
    rw [hs] at h
    simp only at h
    have hs' : schemeOf e.gpu sf.1 sf.2 = .ok (sf.1, sf.2) := by
      unfold schemeOf at hs ⊢
      split_ifs at hs <;> cases hs <;> simp_all
    split_ifs at h with h1 h2
    · cases h
      exact ⟨hs', rfl, fun hc => absurd h1 hc⟩
    · cases h
      refine ⟨hs', rfl, fun _ => ⟨?_, rfl, rfl⟩⟩
      simp only
      tauto

theorem vFftw_ok_again {e : Env K} {init : Bool} {p q p' : Params K} (h : vFftw e init p = .ok q)
    (h1 : p'.scheme = q.scheme) (h2 : p'.plannerFlag = q.plannerFlag) (h3 : p'.wisdom = q.wisdom) :
    ∃ q', vFftw e false p' = .ok q' := by
  obtain ⟨a1, a2, a3⟩ := vFftw_spec h
  unfold vFftw
  rw [h1, h2, a1, h3]
  simp only [bind, Except.bind]
  split_ifs with h4 h5
  · exact ⟨_, rfl⟩
  · exfalso
    have hw : q.wisdom ≠ [] := by
      intro hw
      apply h4
      unfold wisdomOf
      rw [hw]
      simp [expandVars_nil]
    rcases (a3 hw).1 with hh | hh
    · exact h5.1 hh
    · exact h5.2 hh
  · exact ⟨_, rfl⟩

/-- The first part of the validation succeeds again, with whatever grid numbers, and
finds the same space. -/
theorem pre_again {e : Env K} {init : Bool} {p q : Params K} (h : pre e init p = .ok q)
    (n : Fin 3 → ℤ) : ∃ q', pre e false { q with ngrid := n } = .ok q' ∧ q'.space = q.space := by
  obtain ⟨a, b, c, d, f, h1, h2, h3, h4, h5, h6⟩ := pre_steps h
  obtain ⟨f1, -⟩ := vFiles_frame h1
  obtain ⟨f2, m1, m2, m3, m4⟩ := vMesh_frame h2
  obtain ⟨f3, -⟩ := vStat_frame h3
  obtain ⟨f4, g1, g2, g3, g4⟩ := vForm_frame h4
  have f5 := vFftw_frame h5
  obtain ⟨f6, f7⟩ := vDerive_frame h6
  have eq1 : q.catType = c.catType ∧ q.statType = c.statType ∧ q.npoint = c.npoint ∧
      q.space = c.space ∧ q.form = c.form ∧ q.norm = c.norm ∧ q.binning = c.binning ∧
      q.ell1 = c.ell1 ∧ q.ell2 = c.ell2 ∧ q.interlace = c.interlace ∧ q.alignment = c.alignment ∧
      q.padscale = c.padscale ∧ q.assignment = c.assignment ∧ q.assignOrder = c.assignOrder := by
    refine ⟨?_, ?_, ?_, ?_, ?_, ?_, ?_, ?_, ?_, ?_, ?_, ?_, ?_, ?_⟩ <;>
      (rw [f6]; simp only [vBvec]; rw [f5]; simp only; rw [f4])
  obtain ⟨q1, q2, q3, q4, q5, q6, q7, q8, q9, q10, q11, q12, q13, q14⟩ := eq1
  have eq2 : c.catType = a.catType ∧ c.interlace = b.interlace ∧ c.alignment = a.alignment ∧
      c.padscale = a.padscale ∧ c.assignment = a.assignment ∧ c.assignOrder = b.assignOrder := by
    refine ⟨?_, ?_, ?_, ?_, ?_, ?_⟩ <;> rw [f3] <;> simp only <;> rw [f2]
  obtain ⟨c1, c2, c3, c4, c5, c6⟩ := eq2
  have qs : q.scheme = f.scheme ∧ q.plannerFlag = f.plannerFlag ∧ q.wisdom = f.wisdom := by
    refine ⟨?_, ?_, ?_⟩ <;> rw [f6] <;> rfl
  have qshape : q.shape = if q.form = "full" ∧ q.ell1 = q.ell2 then "triu" else q.form := by
    have : q.shape = if c.form = "full" ∧ c.ell1 = c.ell2 then "triu" else c.form := by
      rw [f6]; simp only [vBvec]; rw [f5]; simp only; rw [f4]
    rw [this]; simp only [q5, q8, q9]
  have hcat : a.catType ∈ ["survey", "random", "sim", "none"] ∨ e.extcall = true := by
    have := vFiles_cat h1
    rw [f1]; exact this
  -- the second pass
  obtain ⟨a', ha'⟩ := vFiles_ok e false (vDirs e false { q with ngrid := n })
    (by show q.catType ∈ _ ∨ _; rw [q1, c1]; exact hcat)
  have fa := (vFiles_frame ha').1
  have hmesh : vMesh a' = .ok a' := by
    apply vMesh_again
    · rw [fa]; simp only [vDirs]; rw [q11, c3]; exact m1
    · rw [fa]; simp only [vDirs]; rw [q12, c4]; exact m2
    · rw [fa]; simp only [vDirs]; rw [q13, q14, c5, c6]; exact m3
    · rw [fa]; simp only [vDirs]; rw [q10, c2]; exact m4
  have hstat : vStat e a' = .ok a' := by
    apply vStat_again h3
    · rw [fa]; simp only [vDirs]; exact q2
    · rw [fa]; simp only [vDirs]; exact q1
    · rw [fa]; simp only [vDirs]; exact q3
    · rw [fa]; simp only [vDirs]; exact q4
  have hform : vForm a' = .ok a' := by
    apply vForm_again
    · rw [fa]; simp only [vDirs]; rw [q5]; exact g1
    · rw [fa]; simp only [vDirs]; rw [q6]; exact g2
    · rw [fa]; simp only [vDirs]; rw [q6, q3]; exact g3
    · rw [fa]; simp only [vDirs]; rw [q7]; exact g4
    · rw [fa]; simp only [vDirs]; exact qshape
  obtain ⟨f', hf'⟩ := vFftw_ok_again (p' := a') h5
    (by rw [fa]; simp only [vDirs]; exact qs.1) (by rw [fa]; simp only [vDirs]; exact qs.2.1)
    (by rw [fa]; simp only [vDirs]; exact qs.2.2)
  have ff := vFftw_frame hf'
  have hbox : f'.box = q.box ∧ f'.expand = q.expand := by
    constructor <;> (rw [ff]; simp only; rw [fa]; simp only [vDirs])
  have hder : ∃ q', vDerive (vBvec e false f') = .ok q' := by
    have hb : (vBvec e false f').box = q.box ∧ (vBvec e false f').expand = q.expand := hbox
    generalize vBvec e false f' = y at hb
    simp only [vDerive]
    rw [if_neg]
    · exact ⟨_, rfl⟩
    · rw [hb.1, hb.2]
      rintro ⟨x1, x2⟩
      refine f7 ?_ x2
      have : q.volume = q.box 0 * q.box 1 * q.box 2 := by rw [f6]
      rw [this]; exact x1
  obtain ⟨q', hq'⟩ := hder
  refine ⟨q', ?_, ?_⟩
  · unfold pre
    simp only [bind, Except.bind, ha', hmesh, hstat, hform, hf', hq']
  · rw [(vDerive_frame hq').1]; simp only [vBvec]
    rw [ff]; simp only; rw [fa]; simp only [vDirs]

/-! ### Paths -/

theorem mem_splitLoop {d : Str} (hd : d ≠ []) {s f : Str} (h : f ∈ (splitLoop d hd s).1) {c : Char}
    (hc : c ∈ f) : c ∈ s := by
  rw [(splitLoop_spec hd s).1]
  simp only [List.mem_append, List.mem_flatten, List.mem_map]
  exact Or.inl ⟨f ++ d, ⟨f, h, rfl⟩, by simp [hc]⟩

theorem mem_endDelim {s : Str} {c : Char} (h : c ∈ endDelim s) : c ∈ s ∨ c = ':' := by
  unfold endDelim at h
  split_ifs at h
  all_goals first
    | exact Or.inl h
    | (simp only [fnDelim, List.mem_append, List.mem_cons, List.not_mem_nil, or_false] at h; tauto)

theorem filesOf_plain {e : Env K} {init : Bool} {catDir s : Str} (h1 : '$' ∉ catDir) (h2 : '$' ∉ s) :
    ∀ f ∈ filesOf e init catDir (endDelim s), '$' ∉ f := by
  intro f hf
  unfold filesOf at hf
  split_ifs at hf
  · simp at hf
  · obtain ⟨g, hg, rfl⟩ := List.mem_map.1 hf
    have hg' : '$' ∉ g := by
      intro hc
      rcases mem_endDelim (mem_splitLoop _ hg hc) with h | h
      · exact h2 h
      · exact absurd h (by decide)
    have : '$' ∉ (if g.head? ≠ some '/' ∧ init then catDir ++ g else g) := by
      split_ifs
      · simp [h1, hg']
      · exact hg'
    rw [C68_no_variables _ _ this]
    exact this

theorem mem_join {d : Str} {l : List Str} {c : Char} (h : c ∈ join d l) :
    c ∈ d ∨ ∃ f ∈ l, c ∈ f := by
  induction l with
  | nil => simp [join] at h
  | cons s l ih =>
    cases l with
    | nil => exact Or.inr ⟨s, by simp, by simpa [join] using h⟩
    | cons t l =>
      simp only [join, List.mem_append] at h
      rcases h with (h | h) | h
      · exact Or.inr ⟨s, by simp, h⟩
      · exact Or.inl h
      · rcases ih h with h | ⟨f, hf, hc⟩
        · exact Or.inl h
        · exact Or.inr ⟨f, by simp only [List.mem_cons] at hf ⊢; tauto, hc⟩

theorem join_plain {l : List Str} (h : ∀ f ∈ l, '$' ∉ f) : '$' ∉ join fnDelim l := by
  intro hc
  rcases mem_join hc with h1 | ⟨f, hf, h1⟩
  · exact absurd h1 (by decide)
  · exact h f hf h1

theorem blank_of_subset {s t : Str} (h : ∀ c ∈ s, c ∈ t) (hs : blank s = false) : blank t = false := by
  unfold blank at *
  rw [List.all_eq_false] at *
  obtain ⟨x, hx, hx'⟩ := hs
  exact ⟨x, h x hx, hx'⟩

theorem subset_join {d : Str} {l : List Str} {f : Str} (hf : f ∈ l) : ∀ c ∈ f, c ∈ join d l := by
  induction l with
  | nil => simp at hf
  | cons s l ih =>
    intro c hc
    cases l with
    | nil =>
      rw [List.mem_singleton] at hf
      subst hf; simpa [join] using hc
    | cons t l =>
      simp only [join, List.mem_append]
      rcases List.mem_cons.1 hf with rfl | hf
      · exact Or.inl (Or.inl hc)
      · exact Or.inr (ih hf c hc)

/-- Separable names are found again after joining. -/
theorem filesOf_join {e : Env K} (catDir : Str) (l : List Str) (hg : GoodFiles l)
    (hp : ∀ f ∈ l, '$' ∉ f) : filesOf e false catDir (endDelim (join fnDelim l)) = l := by
  rcases List.eq_nil_or_concat l with rfl | ⟨l', r, rfl⟩
  · simp [join, endDelim, filesOf, blank]
  simp only [List.concat_eq_append] at *
  have hr := hg r (by simp)
  have hr0 : r ≠ [] := by
    rintro rfl; simp [blank] at hr
  have hb : blank (join fnDelim (l' ++ [r])) = false :=
    blank_of_subset (subset_join (f := r) (by simp)) hr.1
  have hext : hasExtension (join fnDelim (l' ++ [r])) fnDelim = false := by
    rw [Bool.eq_false_iff]
    intro hc
    have hc := (C56_extension _ _).1 hc
    rw [join_snoc] at hc
    obtain ⟨r0, x, rfl⟩ := (List.eq_nil_or_concat r).resolve_left hr0
    rw [List.concat_eq_append] at *
    obtain ⟨t, ht⟩ := hc
    rw [← List.append_assoc, fnDelim, show t ++ [':', ':'] = (t ++ [':']) ++ [':'] by simp] at ht
    have := List.append_inj_right' ht (by simp)
    apply hr.2
    simp only [List.cons.injEq, and_true] at this
    rw [← this]
    exact ⟨r0, [], by simp⟩
  have hend : endDelim (join fnDelim (l' ++ [r])) = join fnDelim (l' ++ [r] ++ [[]]) := by
    unfold endDelim
    rw [if_pos (by simp [hb]), hext, join_snoc (l := l' ++ [r])]
    simp only [List.append_nil]
    rw [← join_append_delim _ _ (by simp)]
    simp
  rw [hend]
  unfold filesOf
  rw [if_neg, splitLoop_join (d := fnDelim) (by simp [fnDelim]) (l' ++ [r]) []]
  · simp only [Bool.false_eq_true, and_false, if_false]
    conv_rhs => rw [← List.map_id (l' ++ [r])]
    apply List.map_congr_left
    intro f hf
    exact C68_no_variables _ _ (hp f hf)
  · intro f hf
    have := (hg f hf).2
    simpa [fnDelim, Occurs] using this
  · intro hc
    have := hc.length_le
    simp [fnDelim] at this
  · rw [← hend]
    intro hc
    have : join fnDelim (l' ++ [r]) = [] := by
      unfold endDelim at hc
      split_ifs at hc
      all_goals first
        | exact hc
        | exact (List.append_eq_nil_iff.1 hc).1
    rw [this] at hb
    simp [blank] at hb

/-- What holds of the paths after the first part. -/
structure PathInv (e : Env K) (p : Params K) : Prop where
  meas : blank p.measDir = false
  plain : Plain p
  dataJoin : p.dataFile = join fnDelim p.dataFiles
  randJoin : p.randFile = join fnDelim p.randFiles
  dataPlain : ∀ f ∈ p.dataFiles, '$' ∉ f
  randPlain : ∀ f ∈ p.randFiles, '$' ∉ f
  dataNone : p.catType ≠ "survey" → p.catType ≠ "sim" → p.dataFiles = []
  randNone : p.catType ≠ "survey" → p.catType ≠ "random" → p.randFiles = []
  scheme : schemeOf e.gpu p.scheme p.plannerFlag = .ok (p.scheme, p.plannerFlag)
  wisdom : wisdomOf e false p.wisdom = p.wisdom
  names : p.wisdom ≠ [] → (p.scheme = "measure" ∨ p.scheme = "patient") ∧
      p.wisdomF = wisdomName e p.wisdom 'f' p.ngrid ∧ p.wisdomB = wisdomName e p.wisdom 'b' p.ngrid
  bvec : p.saveBvec ≠ "false".toList ∧ p.saveBvec ≠ "true".toList

theorem wisdomOf_again {e : Env K} {init : Bool} {w : Str} (h : '$' ∉ w) :
    wisdomOf e false (wisdomOf e init w) = wisdomOf e init w ∧ '$' ∉ wisdomOf e init w := by
  unfold wisdomOf
  by_cases hg : e.gpu = true
  · simp [hg, expandVars_nil]
  · simp only [hg, Bool.false_eq_true, if_false]
    by_cases hw : w = "false".toList
    · simp [hw, expandVars_nil]
    · simp only [hw, if_false]
      cases init with
      | true =>
        simp only [if_true]
        have h1 : '$' ∉ w ++ ['/'] := by simp [h]
        rw [C68_no_variables _ _ h1]
        have h2 : w ++ ['/'] ≠ "false".toList := by
          intro hc
          have := congrArg List.getLast? hc
          simp at this
        rw [if_neg h2, C68_no_variables _ _ h1]
        exact ⟨rfl, h1⟩
      | false =>
        simp only [Bool.false_eq_true, if_false]
        rw [C68_no_variables _ _ h, if_neg hw, C68_no_variables _ _ h]
        exact ⟨rfl, h⟩

theorem bvecDefault_long (p : Params K) : 14 ≤ (bvecDefault p).length := by
  unfold bvecDefault
  rw [List.length_take, List.length_append, List.length_append]
  have : ("binned_vectors".toList).length = 14 := rfl
  omega

theorem bvecDefault_plain {p : Params K} (h1 : '$' ∉ p.measDir) (h2 : '$' ∉ p.tag) :
    '$' ∉ bvecDefault p := by
  intro h
  unfold bvecDefault at h
  have := List.mem_of_mem_take h
  simp only [List.mem_append] at this
  rcases this with (h | h) | h
  · exact h1 h
  · exact absurd h (by decide)
  · exact h2 h

theorem long_ne {s : Str} (h : 14 ≤ s.length) : s ≠ "false".toList ∧ s ≠ "true".toList := by
  constructor <;> (rintro rfl; simp at h)

theorem pre_paths {e : Env K} {init : Bool} {p q : Params K} (h : pre e init p = .ok q)
    (hp : Plain p) : PathInv e q := by
  obtain ⟨a, b, c, d, f, h1, h2, h3, h4, h5, h6⟩ := pre_steps h
  obtain ⟨f2, -⟩ := vMesh_frame h2
  obtain ⟨f3, -⟩ := vStat_frame h3
  obtain ⟨f4, -⟩ := vForm_frame h4
  have f5 := vFftw_frame h5
  obtain ⟨f6, -⟩ := vDerive_frame h6
  obtain ⟨p1, p2, p3, p4, p5, p6, p7⟩ := hp
  -- directories
  have hcd : '$' ∉ (if ¬ blank p.catDir ∧ init then p.catDir ++ ['/'] else p.catDir) := by
    split_ifs
    · simp [p1]
    · exact p1
  have hmd : '$' ∉ (if blank p.measDir then ['.', '/']
      else if init then p.measDir ++ ['/'] else p.measDir) := by
    split_ifs
    · decide
    · simp [p2]
    · exact p2
  have hdirs : vDirs e init p = { p with
      catDir := if ¬ blank p.catDir ∧ init then p.catDir ++ ['/'] else p.catDir,
      measDir := if blank p.measDir then ['.', '/']
        else if init then p.measDir ++ ['/'] else p.measDir } := by
    simp only [vDirs]
    rw [C68_no_variables _ _ hcd, C68_no_variables _ _ hmd]
  obtain ⟨cd, hcd'⟩ : ∃ cd, cd = if ¬ blank p.catDir ∧ init then p.catDir ++ ['/'] else p.catDir :=
    ⟨_, rfl⟩
  obtain ⟨md, hmd'⟩ : ∃ md, md = if blank p.measDir then ['.', '/']
      else if init then p.measDir ++ ['/'] else p.measDir := ⟨_, rfl⟩
  rw [← hcd'] at hcd
  rw [← hmd'] at hmd
  rw [← hcd', ← hmd'] at hdirs
  have hmb : blank md = false := by
    rw [hmd']
    split_ifs with x1 x2
    · rfl
    · exact blank_of_subset (s := p.measDir) (by intro c hc; simp [hc]) (by simpa using x1)
    · simpa using x1
  rw [hdirs] at h1
  have f1 := (vFiles_frame h1).1
  -- files
  have hfiles : a.dataFile = join fnDelim a.dataFiles ∧ a.randFile = join fnDelim a.randFiles ∧
      (∀ x ∈ a.dataFiles, '$' ∉ x) ∧ (∀ x ∈ a.randFiles, '$' ∉ x) ∧
      (p.catType ≠ "survey" → p.catType ≠ "sim" → a.dataFiles = []) ∧
      (p.catType ≠ "survey" → p.catType ≠ "random" → a.randFiles = []) := by
    have k1 := filesOf_plain (e := e) (init := init) hcd p3
    have k2 := filesOf_plain (e := e) (init := init) hcd p4
    simp only [vFiles] at h1
    have k0 : ∀ x ∈ ([] : List Str), '$' ∉ x := by simp
    split_ifs at h1 with y1 y2 y3 y4 y5 <;> cases h1
    · exact ⟨rfl, rfl, k1, k2, fun h => absurd y1 h, fun h => absurd y1 h⟩
    · exact ⟨rfl, rfl, k0, k2, fun _ _ => rfl, fun _ h => absurd y2 h⟩
    · exact ⟨rfl, rfl, k1, k0, fun _ h => absurd y3 h, fun _ _ => rfl⟩
    · exact ⟨rfl, rfl, k0, k0, fun _ _ => rfl, fun _ _ => rfl⟩
    · exact ⟨rfl, rfl, k0, k0, fun _ _ => rfl, fun _ _ => rfl⟩
  obtain ⟨z1, z2, z3, z4, z5, z6⟩ := hfiles
  have eqf : f.measDir = md ∧ f.catDir = cd ∧ f.tag = p.tag ∧ f.saveBvec = p.saveBvec ∧
      f.dataFile = a.dataFile ∧ f.randFile = a.randFile ∧ f.dataFiles = a.dataFiles ∧
      f.randFiles = a.randFiles ∧ f.catType = p.catType ∧ d.wisdom = p.wisdom ∧ d.ngrid = f.ngrid := by
    have c1 : ∀ {T : Type} (g : Params K → T), (∀ x y : Params K, g { x with interlace := y.interlace, assignOrder := y.assignOrder } = g x) →
      (∀ x y : Params K, g { x with npoint := y.npoint, space := y.space } = g x) →
      (∀ (x : Params K) y, g { x with shape := y } = g x) → g d = g a := by
      intro T g k1 k2 k3
      rw [f4, k3, f3, k2, f2, k1]
    have c2 : ∀ {T : Type} (g : Params K → T), (∀ x y : Params K, g { x with interlace := y.interlace, assignOrder := y.assignOrder } = g x) →
      (∀ x y : Params K, g { x with npoint := y.npoint, space := y.space } = g x) →
      (∀ (x : Params K) y, g { x with shape := y } = g x) →
      (∀ x y : Params K, g { x with scheme := y.scheme, plannerFlag := y.plannerFlag, wisdom := y.wisdom, wisdomF := y.wisdomF, wisdomB := y.wisdomB } = g x) → g f = g a := by
      intro T g k1 k2 k3 k4
      rw [f5, k4, c1 g k1 k2 k3]
    refine ⟨?_, ?_, ?_, ?_, ?_, ?_, ?_, ?_, ?_, ?_, ?_⟩
    · rw [c2 (fun x => x.measDir) (fun _ _ => rfl) (fun _ _ => rfl) (fun _ _ => rfl) (fun _ _ => rfl), f1]
    · rw [c2 (fun x => x.catDir) (fun _ _ => rfl) (fun _ _ => rfl) (fun _ _ => rfl) (fun _ _ => rfl), f1]
    · rw [c2 (fun x => x.tag) (fun _ _ => rfl) (fun _ _ => rfl) (fun _ _ => rfl) (fun _ _ => rfl), f1]
    · rw [c2 (fun x => x.saveBvec) (fun _ _ => rfl) (fun _ _ => rfl) (fun _ _ => rfl) (fun _ _ => rfl), f1]
    · exact c2 (fun x => x.dataFile) (fun _ _ => rfl) (fun _ _ => rfl) (fun _ _ => rfl) (fun _ _ => rfl)
    · exact c2 (fun x => x.randFile) (fun _ _ => rfl) (fun _ _ => rfl) (fun _ _ => rfl) (fun _ _ => rfl)
    · exact c2 (fun x => x.dataFiles) (fun _ _ => rfl) (fun _ _ => rfl) (fun _ _ => rfl) (fun _ _ => rfl)
    · exact c2 (fun x => x.randFiles) (fun _ _ => rfl) (fun _ _ => rfl) (fun _ _ => rfl) (fun _ _ => rfl)
    · rw [c2 (fun x => x.catType) (fun _ _ => rfl) (fun _ _ => rfl) (fun _ _ => rfl) (fun _ _ => rfl), f1]
    · rw [c1 (fun x => x.wisdom) (fun _ _ => rfl) (fun _ _ => rfl) (fun _ _ => rfl), f1]
    · rw [f5]
  obtain ⟨w1, w2, w3, w4, w5, w6, w7, w8, w9, w10, w11⟩ := eqf
  obtain ⟨v1, v2, v3⟩ := vFftw_spec h5
  have hw := wisdomOf_again (e := e) (init := init) p5
  have hbd : bvecDefault f = (md ++ "binned_vectors".toList ++ p.tag).take 1023 := by
    unfold bvecDefault; rw [w1, w3]
  have hbv : '$' ∉ bvecDefault f := bvecDefault_plain (by rw [w1]; exact hmd) (by rw [w3]; exact p7)
  -- binned vectors
  obtain ⟨sb, hsb⟩ : ∃ sb, sb = (if f.saveBvec = "false".toList then []
    else if f.saveBvec = "true".toList then bvecDefault f
    else if f.saveBvec ≠ [] ∧ f.saveBvec.head? ≠ some '/' ∧ init then f.measDir ++ f.saveBvec
    else f.saveBvec) := ⟨_, rfl⟩
  have hsb1 : '$' ∉ sb ∧ sb ≠ "false".toList ∧ sb ≠ "true".toList := by
    rw [hsb]
    split_ifs with x1 x2 x3
    · exact ⟨by simp, by decide, by decide⟩
    · exact ⟨hbv, long_ne (bvecDefault_long f)⟩
    · rw [w1, w4]
      refine ⟨by simp [hmd, p6], ?_⟩
      have hin : init = true := x3.2.2
      have hsl : '/' ∈ md := by
        rw [hmd', hin]
        split_ifs with y1 y2
        · simp
        · simp
        · exact absurd rfl y2
      constructor
      · intro hc
        have : '/' ∈ md ++ p.saveBvec := by simp [hsl]
        rw [hc] at this
        exact absurd this (by decide)
      · intro hc
        have : '/' ∈ md ++ p.saveBvec := by simp [hsl]
        rw [hc] at this
        exact absurd this (by decide)
    · exact ⟨by rw [w4]; exact p6, x1, x2⟩
  have hbvec : vBvec e init f = { f with saveBvec := sb } := by
    simp only [vBvec]
    rw [← hsb, C68_no_variables _ _ hsb1.1]
  rw [hbvec] at f6
  rw [f6]
  refine ⟨?_, ⟨?_, ?_, ?_, ?_, ?_, ?_, ?_⟩, ?_, ?_, ?_, ?_, ?_, ?_, ?_, ?_, ?_, ?_⟩ <;> simp only
  · rw [w1]; exact hmb
  · rw [w2]; exact hcd
  · rw [w1]; exact hmd
  · rw [w5, z1]; exact join_plain z3
  · rw [w6, z2]; exact join_plain z4
  · rw [v2, w10]; exact hw.2
  · exact hsb1.1
  · rw [w3]; exact p7
  · rw [w5, w7]; exact z1
  · rw [w6, w8]; exact z2
  · rw [w7]; exact z3
  · rw [w8]; exact z4
  · rw [w9, w7]; exact z5
  · rw [w9, w8]; exact z6
  · exact v1
  · rw [v2, w10]; exact hw.1
  · rw [← w11]; exact v3
  · exact hsb1.2

/-- A parameter set with settled paths and derived parameters is left alone. -/
theorem pre_fixed {e : Env K} (he : e.extcall = false) {p : Params K} (hd : Derived p)
    (hi : PathInv e p) (hx : p.volume ≤ 0 → ¬ p.expand < 1) (g1 : GoodFiles p.dataFiles)
    (g2 : GoodFiles p.randFiles) : pre e false p = .ok p := by
  have s1 : vDirs e false p = p := by
    simp only [vDirs, Bool.false_eq_true, and_false, if_false, hi.meas]
    rw [C68_no_variables _ _ hi.plain.1, C68_no_variables _ _ hi.plain.2.1]
  have s2 : vFiles e false p = .ok p := by
    have k1 := filesOf_join (e := e) p.catDir p.dataFiles g1 hi.dataPlain
    have k2 := filesOf_join (e := e) p.catDir p.randFiles g2 hi.randPlain
    simp only [vFiles, hi.dataJoin, hi.randJoin, k1, k2]
    have hdj := hi.dataJoin
    have hrj := hi.randJoin
    obtain ⟨cats, hc1, hc2⟩ := hd.stat
    have hcat : p.catType = "survey" ∨ p.catType = "random" ∨ p.catType = "sim" ∨ p.catType = "none" := by
      simp only [statTable, List.mem_cons, Prod.mk.injEq, List.not_mem_nil, or_false] at hc1
      rcases hc1 with h | h | h | h | h | h | h | h | h <;> (obtain ⟨-, -, -, rfl⟩ := h; simp at hc2; tauto)
    have hdn := hi.dataNone
    have hrn := hi.randNone
    have eta : ∀ (a b : List Str), p.dataFiles = a → p.randFiles = b →
        ({ p with dataFiles := a, randFiles := b, dataFile := join fnDelim a,
                  randFile := join fnDelim b } : Params K) = p := by
      rintro a b rfl rfl
      rw [← hdj, ← hrj]
    split_ifs with y1 y2 y3 y4 y5
    · exact congrArg Except.ok (eta _ _ rfl rfl)
    · exact congrArg Except.ok (eta _ _ (hdn y1 (by simp [y2])) rfl)
    · exact congrArg Except.ok (eta _ _ rfl (hrn y1 y2))
    · exact congrArg Except.ok (eta _ _ (hdn y1 y3) (hrn y1 y2))
    · tauto
    · tauto
  have s3 : vMesh p = .ok p := vMesh_again hd.align hd.padscale hd.order hd.interlace
  have s4 : vStat e p = .ok p := by
    obtain ⟨cats, hc1, hc2⟩ := hd.stat
    unfold vStat
    rw [statOf_of_table hc1 hc2]
  have s5 : vForm p = .ok p := vForm_again hd.form hd.norm hd.mixed hd.binning hd.shape
  have s6 : vFftw e false p = .ok p := by
    unfold vFftw
    rw [hi.scheme]
    simp only [bind, Except.bind, hi.wisdom]
    by_cases hw : p.wisdom = []
    · rw [if_pos hw]
    · rw [if_neg hw, if_neg]
      · rw [← (hi.names hw).2.1, ← (hi.names hw).2.2]
      · rintro ⟨x, y⟩
        rcases (hi.names hw).1 with h | h
        · exact x h
        · exact y h
  have s7 : vBvec e false p = p := by
    simp only [vBvec]
    rw [if_neg hi.bvec.1, if_neg hi.bvec.2]
    simp only [Bool.false_eq_true, and_false, if_false]
    rw [C68_no_variables _ _ hi.plain.2.2.2.2.2.1]
  have s8 : vDerive p = .ok p := by
    simp only [vDerive]
    rw [← hd.volume, ← hd.nmesh, if_neg fun h => hx h.1 h.2]
  unfold pre
  simp only [bind, Except.bind, s1, s2, s3, s4, s5, s6, s7, s8]

end
end Trv.Par

import Verif.Model.NormMesh
import Verif.Spec.NormMesh
import Verif.Props.Program
import Verif.Props.ParamsMore
import Verif.Props.ParamsArgs
/-
C150: which accepted parameters can be used for the mixed-mesh normalisation.
-/
set_option linter.unusedSectionVars false
namespace Trv.Prog

open Trv Trv.Par Trv.Mon Trv.Cat

section
variable {K : Type} [Field K] [LinearOrder K] [IsStrictOrderedRing K] [FloorRing K]

/-! ### What acceptance says -/

/-- The options of parameters which passed the first part of the validation. -/
structure PreOk (e : Env K) (p : Params K) : Prop where
  align : p.alignment ∈ ["centre", "pad"]
  padscale : p.padscale ∈ ["box", "grid"]
  interlace : p.interlace ∈ ["true", "false"]
  form : p.form ∈ ["full", "diag", "off-diag", "row"]
  norm : p.norm ∈ ["none", "particle", "mesh", "mesh-mixed"]
  mixed : p.norm = "mesh-mixed" → p.npoint = "2pt"
  binning : p.binning ∈ ["lin", "log", "linpad", "logpad", "custom"]
  cat : p.catType ∈ ["survey", "random", "sim", "none"] ∨ e.extcall = true
  stat : ∀ r : Params K, r.statType = p.statType → r.catType = p.catType → r.npoint = p.npoint →
    r.space = p.space → vStat e r = .ok r

theorem pre_preOk {e : Env K} {init : Bool} {p q : Params K} (h : pre e init p = .ok q) : PreOk e q := by
  obtain ⟨a, b, c, d, f, h1, h2, h3, h4, h5, h6⟩ := pre_steps h
  obtain ⟨f1, -⟩ := vFiles_frame h1
  obtain ⟨f2, m1, m2, -, m4⟩ := vMesh_frame h2
  obtain ⟨f3, -⟩ := vStat_frame h3
  obtain ⟨f4, g1, g2, g3, g4⟩ := vForm_frame h4
  have f5 := vFftw_frame h5
  obtain ⟨f6, -⟩ := vDerive_frame h6
  have eq1 : q.catType = c.catType ∧ q.statType = c.statType ∧ q.npoint = c.npoint ∧
      q.space = c.space ∧ q.form = c.form ∧ q.norm = c.norm ∧ q.binning = c.binning ∧
      q.interlace = c.interlace ∧ q.alignment = c.alignment ∧ q.padscale = c.padscale := by
    refine ⟨?_, ?_, ?_, ?_, ?_, ?_, ?_, ?_, ?_, ?_⟩ <;>
      (rw [f6]; simp only [vBvec]; rw [f5]; simp only; rw [f4])
  obtain ⟨q1, q2, q3, q4, q5, q6, q7, q8, q9, q10⟩ := eq1
  have eq2 : c.catType = a.catType ∧ c.interlace = b.interlace ∧ c.alignment = a.alignment ∧
      c.padscale = a.padscale := by
    refine ⟨?_, ?_, ?_, ?_⟩ <;> rw [f3] <;> simp only <;> rw [f2]
  obtain ⟨c1, c2, c3, c4⟩ := eq2
  have hcat : a.catType ∈ ["survey", "random", "sim", "none"] ∨ e.extcall = true := by
    have := vFiles_cat h1
    rw [f1]; exact this
  refine ⟨?_, ?_, ?_, ?_, ?_, ?_, ?_, ?_, ?_⟩
  · rw [q9, c3]; exact m1
  · rw [q10, c4]; exact m2
  · rw [q8, c2]; exact m4
  · rw [q5]; exact g1
  · rw [q6]; exact g2
  · rw [q6, q3]; exact g3
  · rw [q7]; exact g4
  · rw [q1, c1]; exact hcat
  · intro r r1 r2 r3 r4
    exact vStat_again h3 (r1.trans q2) (r2.trans q1) (r3.trans q3) (r4.trans q4)

/-- What the second part of the validation has tested. -/
structure PostOk (p : Params K) : Prop where
  pad : p.alignment = "pad" → ¬ p.padfactor < 0 ∧ ¬ (p.padscale = "box" ∧ 1 ≤ p.padfactor)
  low : ¬ p.binMin < 0
  range : ¬ p.binMax ≤ p.binMin
  bins : ¬ p.numBins < 2
  row : ¬ (p.idxBin < 0 ∧ p.npoint = "3pt" ∧ p.form = "row")
  padbins : ¬ ((p.binning = "linpad" ∨ p.binning = "logpad") ∧ p.numBins < 5 + 2)
  idx : ¬ p.numBins ≤ |p.idxBin|

theorem post_postOk {e : Env K} {d : Str} {q p : Params K} (h : post d q = .ok p) (hq : PreOk e q) :
    PostOk p ∧ PreOk e p := by
  have hf := post_frame h
  simp only [post] at h
  by_cases h1 : ¬ padOk q
  · rw [if_pos h1] at h; cases h
  rw [if_neg h1] at h
  by_cases h2 : q.binMin < 0
  · rw [if_pos h2] at h; cases h
  rw [if_neg h2] at h
  by_cases h3 : q.binMax ≤ q.binMin
  · rw [if_pos h3] at h; cases h
  rw [if_neg h3] at h
  by_cases h4 : q.numBins < 2
  · rw [if_pos h4] at h; cases h
  rw [if_neg h4] at h
  by_cases h5 : q.idxBin < 0 ∧ q.npoint = "3pt" ∧ q.form = "row"
  · rw [if_pos h5] at h; cases h
  rw [if_neg h5] at h
  by_cases h6 : (q.binning = "linpad" ∨ q.binning = "logpad") ∧ q.numBins < 5 + 2
  · rw [if_pos h6] at h; cases h
  rw [if_neg h6] at h
  by_cases h7 : q.numBins ≤ |q.idxBin|
  · rw [if_pos h7] at h; cases h
  rw [if_neg h7] at h
  have hi : p.interlace ∈ ["true", "false"] := by
    cases h
    simp only
    split_ifs
    · simp
    · exact hq.interlace
  rw [hf]
  refine ⟨⟨?_, h2, h3, h4, h5, h6, h7⟩,
    ⟨hq.align, hq.padscale, hi, hq.form, hq.norm, hq.mixed, hq.binning, hq.cat, hq.stat⟩⟩
  intro ha
  have := not_not.1 h1 ha
  exact ⟨this.1, this.2.1⟩

theorem accepted_ok {e : Env K} {fuel : ℕ} {init : Bool} {p p' : Params K}
    (h : validate e fuel init p = some (.ok p')) : PostOk p' ∧ PreOk e p' := by
  induction fuel generalizing init p p' with
  | zero => cases h
  | succ fuel ih =>
    obtain ⟨q, hq, ⟨h1, -⟩ | ⟨-, -, -, r, s, -, h4, h5⟩⟩ := validate_cases h
    · exact post_postOk h1 (pre_preOk hq)
    · exact post_postOk h5 (ih h4).2

/-! ### The normalisation mesh -/

theorem tmod_two_cases (n : ℤ) (hn : 0 ≤ n) : n.tmod 2 = n % 2 := Int.tmod_eq_emod_of_nonneg hn

/-- **C150 (mesh).** The normalisation mesh has the least even number of cells of the given size which
cover the larger of the extents of the catalogues, enlarged by the padding: both catalogues fit into its box. -/
theorem C150_mesh (padding cell : K) (a b : V3 K) (p : Params K) (asg : String) (hp : 0 ≤ padding) (hc : 0 < cell)
    (ha : ∀ i, 0 ≤ a i) :
    LeastEvenCover cell ((1 + padding) * largestSpan a b) (normNgrid padding cell a b) ∧
    (∀ i, a i ≤ (normParams padding cell asg a b p).box i ∧ b i ≤ (normParams padding cell asg a b p).box i) ∧
    (0 < largestSpan a b ↔ 0 < normNgrid padding cell a b) := by
  have hle : ∀ i, a i ≤ largestSpan a b ∧ b i ≤ largestSpan a b := by
    intro i
    unfold largestSpan
    fin_cases i <;> simp
  have h0 : 0 ≤ largestSpan a b := le_trans (ha 0) (hle 0).1
  have hL : 0 ≤ (1 + padding) * largestSpan a b := by positivity
  set L := (1 + padding) * largestSpan a b with hLdef
  have hn0 : 0 ≤ ⌈L / cell⌉ := Int.ceil_nonneg (div_nonneg hL hc.le)
  have hN : normNgrid padding cell a b = ⌈L / cell⌉ + ⌈L / cell⌉ % 2 := by
    unfold normNgrid
    simp only
    rw [← hLdef, tmod_two_cases _ hn0]
  have hcover : L ≤ (normNgrid padding cell a b : K) * cell := by
    rw [← div_le_iff₀ hc, hN]
    have h1 : L / cell ≤ (⌈L / cell⌉ : K) := Int.le_ceil _
    have h2 : (0 : K) ≤ ((⌈L / cell⌉ % 2 : ℤ) : K) := by
      exact_mod_cast Int.emod_nonneg _ (by norm_num)
    push_cast at h2 ⊢
    linarith
  have hspan : largestSpan a b ≤ L := by
    rw [hLdef]; nlinarith
  refine ⟨⟨⟨by rw [hN]; omega, hcover⟩, ?_⟩, ?_, ?_⟩
  · rintro k ⟨hk1, hk2⟩
    have : ⌈L / cell⌉ ≤ k := Int.ceil_le.2 (by rw [div_le_iff₀ hc]; exact hk2)
    rw [hN]; omega
  · intro i
    have := hle i
    constructor <;> (simp only [normParams]; linarith)
  · constructor
    · intro h
      have : 0 < ⌈L / cell⌉ := Int.ceil_pos.2 (div_pos (by linarith) hc)
      rw [hN]; omega
    · intro h
      by_contra hne
      have : largestSpan a b = 0 := le_antisymm (not_lt.1 hne) h0
      rw [hN, hLdef, this] at h
      simp at h

/-- The planner step of the normalisation: the empty name of the wisdom directory becomes the root
directory, for which a planner scheme which makes wisdom is asked. -/
theorem vFftw_norm {e : Env K} (hg : e.gpu = false) {p : Params K} (hs : (p.scheme, p.plannerFlag) ∈ plannerTable)
    (hw : p.wisdom ≠ [] → p.scheme ≠ "estimate") :
    (p.scheme ≠ "estimate" → ∃ q, vFftw e true p = .ok q) ∧
    (p.scheme = "estimate" → vFftw e true p = .error .invalidParameter) := by
  simp only [plannerTable, List.mem_cons, Prod.mk.injEq, List.not_mem_nil, or_false] at hs
  have hsch : ∃ f, schemeOf e.gpu p.scheme p.plannerFlag = .ok (p.scheme, f) := by
    rw [hg]
    rcases hs with ⟨h, -⟩ | ⟨h, -⟩ | ⟨h, -⟩ <;> rw [h] <;> simp [schemeOf]
  obtain ⟨f, hf⟩ := hsch
  constructor
  · intro hne
    unfold vFftw
    rw [hf]
    simp only [bind, Except.bind]
    split_ifs with h1 h2
    · exact ⟨_, rfl⟩
    · exfalso
      rcases hs with ⟨h, -⟩ | ⟨h, -⟩ | ⟨h, -⟩
      · exact hne h
      · exact h2.1 h
      · exact h2.2 h
    · exact ⟨_, rfl⟩
  · intro he
    have hnil : p.wisdom = [] := by
      by_contra hc
      exact hw hc he
    have hroot : wisdomOf e true p.wisdom = ['/'] := by
      unfold wisdomOf
      rw [hg, hnil]
      simp only [Bool.false_eq_true, if_false, if_true, List.nil_append]
      rw [if_neg (by decide)]
      exact C68_no_variables _ _ (by decide)
    unfold vFftw
    rw [hf]
    simp only [bind, Except.bind, hroot]
    rw [if_neg (by simp), if_pos]
    rw [he]
    exact ⟨by decide, by decide⟩

/-- **C150 (which parameters).** When parameters accepted for a measurement are taken for the mixed-mesh
normalisation, on a mesh which is not empty, then they are accepted again exactly if the planner scheme is not
`estimate` and, for a padding in units of the grid, this is less than the grid number of the NORMALISATION mesh;
otherwise there is the invalid-parameter exception. -/
theorem C150_normalisable (e : Env K) (hg : e.gpu = false) (fuel : ℕ) (init : Bool) (p p' : Params K)
    (h : validate e fuel init p = some (.ok p')) (padding cell : K) (hc : 0 < cell) (asg : String) (o : ℤ)
    (ha : (asg, o) ∈ orderTable) (a b : V3 K) (hn : 0 < normNgrid padding cell a b) (k : ℕ) :
    (Normalisable p' (normNgrid padding cell a b) →
      ∃ q, normValidated e (k + 1) padding cell asg a b p' = some (.ok q) ∧
        q.ngrid = (fun _ => normNgrid padding cell a b) ∧ q.assignment = asg ∧ q.assignOrder = o ∧
        (∀ i, q.box i = (normNgrid padding cell a b : K) * cell) ∧
        q.alignment = p'.alignment ∧ q.padscale = p'.padscale ∧ q.padfactor = p'.padfactor) ∧
    (¬ Normalisable p' (normNgrid padding cell a b) →
      normValidated e (k + 1) padding cell asg a b p' = some (.error .invalidParameter)) := by
  obtain ⟨hpost, hpre⟩ := accepted_ok h
  obtain ⟨-, hsch, hwis⟩ := C33_planner e hg fuel init p p' h
  set n := normNgrid padding cell a b with hndef
  have hN : normParams padding cell asg a b p' =
      { p'.copy with box := fun _ => (n : K) * cell, ngrid := fun _ => n, assignment := asg } := rfl
  unfold normValidated
  set P := normParams padding cell asg a b p' with hP
  -- files and directories
  obtain ⟨A, hA⟩ := vFiles_ok e true (vDirs e true P) hpre.cat
  have fA := (vFiles_frame hA).1
  -- mesh options
  obtain ⟨B, hB, hBo⟩ : ∃ B, vMesh A = .ok B ∧ B = { A with assignOrder := o } := by
    refine ⟨{ A with assignOrder := o }, ?_, rfl⟩
    have e1 : A.alignment = p'.alignment := by rw [fA]; rfl
    have e2 : A.padscale = p'.padscale := by rw [fA]; rfl
    have e3 : A.assignment = asg := by rw [fA]; rfl
    have e4 : A.interlace = p'.interlace := by rw [fA]; rfl
    have m1 := hpre.align
    have m2 := hpre.padscale
    have m3 := hpre.interlace
    rw [← e1] at m1; rw [← e2] at m2; rw [← e4] at m3
    simp only [List.mem_cons, List.not_mem_nil, or_false] at m1 m2
    unfold vMesh
    rw [if_neg (not_not.2 m1), if_neg (not_not.2 m2), e3, orderOf_table ha, interlaceOf_again m3]
    rfl
  have hC : vStat e B = .ok B := by
    apply hpre.stat <;> (rw [hBo]; simp only; rw [fA]; rfl)
  obtain ⟨D, hD⟩ : ∃ D, vForm B = .ok D := by
    have e1 : B.form = p'.form := by rw [hBo]; simp only; rw [fA]; rfl
    have e2 : B.norm = p'.norm := by rw [hBo]; simp only; rw [fA]; rfl
    have e3 : B.npoint = p'.npoint := by rw [hBo]; simp only; rw [fA]; rfl
    have e4 : B.binning = p'.binning := by rw [hBo]; simp only; rw [fA]; rfl
    have m1 := hpre.form
    have m2 := hpre.norm
    have m3 := hpre.mixed
    have m4 := hpre.binning
    rw [← e1] at m1; rw [← e2] at m2; rw [← e2, ← e3] at m3; rw [← e4] at m4
    simp only [List.mem_cons, List.not_mem_nil, or_false] at m1 m2 m4
    simp only [vForm]
    rw [if_neg (not_not.2 m1), if_neg (not_not.2 m2), if_neg (fun hc => hc.2 (m3 hc.1)), if_neg (not_not.2 m4)]
    exact ⟨_, rfl⟩
  have fD := (vForm_frame hD).1
  have eDs : D.scheme = p'.scheme ∧ D.plannerFlag = p'.plannerFlag ∧ D.wisdom = p'.wisdom := by
    refine ⟨?_, ?_, ?_⟩ <;> (rw [fD]; simp only; rw [hBo]; simp only; rw [fA]; rfl)
  obtain ⟨s1, s2, s3⟩ := eDs
  have hF := vFftw_norm hg (p := D) (by rw [s1, s2]; exact hsch) (by rw [s1, s3]; exact hwis)
  have hpreEq : pre e true P = (do let f ← vFftw e true D; vDerive (vBvec e true f)) := by
    unfold pre
    simp only [bind, Except.bind, hA, hB, hC, hD]
  by_cases hest : p'.scheme = "estimate"
  · have : pre e true P = .error .invalidParameter := by
      rw [hpreEq, hF.2 (s1.trans hest)]; rfl
    refine ⟨fun hh => absurd hest hh.1, fun _ => ?_⟩
    unfold validate
    rw [this]
  obtain ⟨F, hF'⟩ := hF.1 (by rw [s1]; exact hest)
  have fF := vFftw_frame hF'
  have hnK : (0 : K) < n := by exact_mod_cast hn
  have hbox : F.box = fun _ => (n : K) * cell := by
    rw [fF]; simp only; rw [fD]; simp only; rw [hBo]; simp only; rw [fA]; rfl
  have hgrid : F.ngrid = fun _ => n := by
    rw [fF]; simp only; rw [fD]; simp only; rw [hBo]; simp only; rw [fA]; rfl
  have hvol : 0 < (n : K) * cell * ((n : K) * cell) * ((n : K) * cell) := by positivity
  obtain ⟨q, hq⟩ : ∃ q, vDerive (vBvec e true F) = .ok q := by
    simp only [vDerive]
    rw [if_neg]
    · exact ⟨_, rfl⟩
    · rintro ⟨h1, -⟩
      have : (vBvec e true F).box = fun _ => (n : K) * cell := hbox
      rw [this] at h1
      exact absurd hvol (not_lt.2 h1)
  have hpre' : pre e true P = .ok q := by
    rw [hpreEq, hF']; exact hq
  have fq := (vDerive_frame hq).1
  have hqn : 0 < q.nmesh := by
    rw [fq]
    simp only [vBvec, hgrid]
    positivity
  have hval : validate e (k + 1) true P = some (post (bvecDefault q) q) := by
    unfold validate
    rw [hpre']
    simp only
    rw [if_neg (not_le.2 hqn)]
  rw [hval]
  have hqin := pre_inputs hpre'
  simp only [inputs, Prod.mk.injEq] at hqin
  obtain ⟨i1, -, -, i4, i5, i6, i7, i8, -, -, -, -, -, i14, i15, i16, -, -, i19, -, i21, -⟩ := hqin
  have j4 : q.padfactor = p'.padfactor := i4
  have j5 : q.binMin = p'.binMin := i5
  have j6 : q.binMax = p'.binMax := i6
  have j7 : q.numBins = p'.numBins := i7
  have j8 : q.idxBin = p'.idxBin := i8
  have j14 : q.alignment = p'.alignment := i14
  have j15 : q.padscale = p'.padscale := i15
  have j19 : q.form = p'.form := i19
  have j21 : q.binning = p'.binning := i21
  have j0 : q.npoint = p'.npoint := by
    rw [fq]; simp only [vBvec]; rw [fF]; simp only; rw [fD]; simp only; rw [hBo]; simp only; rw [fA]; rfl
  have jo : q.assignOrder = o := by
    rw [fq]; simp only [vBvec]; rw [fF]; simp only; rw [fD]; simp only; rw [hBo]
  have jn : q.ngrid = fun _ => n := by rw [fq]; exact hgrid
  have hpad : padOk q ↔ Normalisable p' n := by
    unfold padOk Normalisable
    rw [j14, j15, j4, jn]
    simp only [or_self]
    constructor
    · intro hh
      refine ⟨hest, fun x y => ?_⟩
      have := (hh x).2.2
      simp only [y, true_and, not_le] at this
      exact this
    · rintro ⟨-, hh⟩ x
      refine ⟨(hpost.pad x).1, (hpost.pad x).2, ?_⟩
      rintro ⟨y, z⟩
      exact absurd (hh x y) (not_lt.2 z)
  constructor
  · intro hh
    have hp := hpad.2 hh
    have : ∃ r, post (bvecDefault q) q = .ok r := by
      simp only [post]
      rw [if_neg (not_not.2 hp), if_neg (by rw [j5]; exact hpost.low), if_neg (by rw [j5, j6]; exact hpost.range),
        if_neg (by rw [j7]; exact hpost.bins), if_neg (by rw [j8, j0, j19]; exact hpost.row),
        if_neg (by rw [j21, j7]; exact hpost.padbins), if_neg (by rw [j7, j8]; exact hpost.idx)]
      exact ⟨_, rfl⟩
    obtain ⟨r, hr⟩ := this
    refine ⟨r, by rw [hr], ?_⟩
    rw [post_frame hr]
    refine ⟨jn, i16, jo, fun i => ?_, j14, j15, j4⟩
    simp only
    rw [i1]
    rfl
  · intro hh
    have hp : ¬ padOk q := fun hp => hh (hpad.1 hp)
    simp only [post]
    rw [if_pos hp]

/-! ### The program -/

/-- What deriving the box keeps. -/
theorem deriveBox_keeps {e : Env K} (hg : e.gpu = false) {fuel : ℕ} {span : V3 K} {p q : Params K}
    (h : deriveBox e fuel span p = some (.ok q)) :
    q.scheme = p.scheme ∧ q.catType = p.catType ∧ q.statType = p.statType := by
  have key : ∀ {f : ℕ} {r s : Params K}, validate e f false r = some (.ok s) →
      s.scheme = r.scheme ∧ s.catType = r.catType ∧ s.statType = r.statType := by
    intro f r s hv
    have h1 := (C33_planner e hg f false r s hv).1
    have h2 := (C33_inputs_kept e f false r s hv).1
    simp only [inputs, Prod.mk.injEq] at h2
    exact ⟨h1, by tauto, by tauto⟩
  unfold deriveBox at h
  by_cases hv : p.volume = 0
  · rw [if_pos hv] at h
    split at h
    · rename_i p1 h1
      have k1 := key h1
      split_ifs at h
      · split at h
        · cases h
        · rename_i r hr
          have k2 := key h
          have k3 := setNgrid_inputs hr
          rw [k3] at k2
          simp only at k1 k2
          rw [k2.1, k2.2.1, k2.2.2]
          exact k1
      · cases h
        exact k1
    · have k1 := key h
      exact k1
  · rw [if_neg hv] at h
    cases h
    exact ⟨rfl, rfl, rfl⟩

theorem alignStage_keeps {e : Env K} (hg : e.gpu = false) {fuel : ℕ} {σ τ : CStore Which K} {p q : Params K}
    (h : alignStage e fuel σ p = .ok (q, τ)) :
    q.scheme = p.scheme ∧ q.catType = p.catType ∧ q.statType = p.statType := by
  unfold alignStage at h
  simp only at h
  by_cases hc : p.catType = "none"
  · simp only [hc, if_true] at h
    cases h1 : alignCats σ p with
    | error x => rw [h1] at h; cases h
    | ok σ' => rw [h1] at h; cases h; exact ⟨rfl, rfl, rfl⟩
  · simp only [hc, if_false] at h
    split at h
    · cases h
    · cases h
    · rename_i p1 h1
      cases h2 : alignCats σ p1 with
      | error x => rw [h2] at h; cases h
      | ok σ' =>
        rw [h2] at h; cases h
        exact deriveBox_keeps hg h1

/-- Parameters with the scheme `estimate` fail the validation for the normalisation, also when the mesh is empty. -/
theorem estimate_fails {e : Env K} (hg : e.gpu = false) {fuel : ℕ} {init : Bool} {p p' : Params K}
    (h : validate e fuel init p = some (.ok p')) (hs : p'.scheme = "estimate") (padding cell : K) (asg : String)
    (a b : V3 K) (k : ℕ) (q : Params K) : normValidated e k padding cell asg a b p' ≠ some (.ok q) := by
  intro hv
  obtain ⟨-, hsch, hwis⟩ := C33_planner e hg fuel init p p' h
  unfold normValidated at hv
  cases k with
  | zero => cases hv
  | succ k =>
    obtain ⟨r, hr, -⟩ := validate_cases hv
    obtain ⟨a', b', c', d', f', h1, h2, h3, h4, h5, h6⟩ := pre_steps hr
    have e1 : d'.scheme = p'.scheme ∧ d'.plannerFlag = p'.plannerFlag ∧ d'.wisdom = p'.wisdom := by
      refine ⟨?_, ?_, ?_⟩ <;>
        (rw [(vForm_frame h4).1]; simp only; rw [(vStat_frame h3).1]; simp only; rw [(vMesh_frame h2).1]; simp only
         rw [(vFiles_frame h1).1]; rfl)
    obtain ⟨s1, s2, s3⟩ := e1
    have := (vFftw_norm hg (p := d') (by rw [s1, s2]; exact hsch) (by rw [s1, s3]; exact hwis)).2 (s1.trans hs)
    rw [this] at h5
    cases h5

/-- **C150 (program, violated).** With the planner scheme `estimate`, no run of the program on paired catalogues
measures a two-point statistic: whatever the normalisation convention and the catalogues, it does not exit with
status 0 and writes nothing but the file of used parameters. -/
theorem C150_program_violated {α : Type} (losf : V3 K → V3 K) (e : Env K) (he : e.extcall = false)
    (hg : e.gpu = false) (ps : Parse K) (toInt : Str → Option ℤ) (m : Binning.MathLib K)
    (first : Input K → Except CppErr Unit) (alg : Input K → Except CppErr α) (o : Overrides) (fuel : ℕ) (D : Disk K)
    (argv : List Str) (ho : options argv argv = none) (p : Params K)
    (hp : readParams e ps toInt o fuel D argv = .ok p) (hs : p.scheme = "estimate") (hc : p.catType = "survey")
    (hn : p.npoint = "2pt") :
    (run losf e ps toInt m (withNorms e fuel first alg) o fuel D argv).2 ≠ .exit 0 ∧
    ∀ f ∈ (run losf e ps toInt m (withNorms e fuel first alg) o fuel D argv).1, f = .used (usedPath p) p := by
  rcases run_cases losf e ps toInt m (withNorms e fuel first alg) o fuel D argv ho with ⟨x, hx, hc'⟩ |
    ⟨p1, hp1, ⟨x, hx, hc'⟩ | ⟨σ, I, r, h1, h2, h3, -⟩⟩
  · rw [hx]
    refine ⟨fun h0 => ?_, by simp⟩
    have := hc' 0 h0
    omega
  · rw [hp] at hp1
    cases hp1
    rw [hx]
    refine ⟨fun h0 => ?_, by simp⟩
    have := hc' 0 h0
    omega
  · exfalso
    rw [hp] at hp1
    cases hp1
    obtain ⟨q, hq⟩ := readParams_ok hp
    obtain ⟨-, τ, h5, -⟩ := prepare_ok h2
    obtain ⟨k1, k2, k3⟩ := alignStage_keeps hg h5
    have hv : ∃ (r : Params K), validate e fuel false r = some (.ok I.p) := by
      obtain ⟨h6, -⟩ := alignStage_ok h5
      rcases h6 with ⟨-, h6⟩ | ⟨-, r, hr⟩
      · rw [h6]; exact ⟨q, hq⟩
      · exact ⟨r, hr⟩
    obtain ⟨r', hr'⟩ := hv
    have w1 := C33_well_formed e he fuel false q p hq
    have w2 := C33_well_formed e he fuel false r' I.p hr'
    have hnI : I.p.npoint = "2pt" := by
      obtain ⟨c1, d1, -⟩ := w1.stat
      obtain ⟨c2, d2, -⟩ := w2.stat
      rw [k3] at d2
      rw [hn] at d1
      simp only [statTable, List.mem_cons, Prod.mk.injEq, List.not_mem_nil, or_false] at d1 d2
      rcases d1 with ⟨x, -, -⟩ | ⟨x, -, -⟩ | ⟨x, -, -⟩ | ⟨-, x, -⟩ | ⟨-, x, -⟩ | ⟨-, x, -⟩ | ⟨-, x, -⟩ | ⟨-, x, -⟩ |
        ⟨-, x, -⟩
      · rw [x] at d2; simp at d2; exact d2.1
      · rw [x] at d2; simp at d2; exact d2.1
      · rw [x] at d2; simp at d2; exact d2.1
      all_goals exact absurd x (by decide)
    unfold withNorms at h3
    simp only [bind, Except.bind] at h3
    cases hfst : first I with
    | error x => rw [hfst] at h3; cases h3
    | ok u =>
      rw [hfst] at h3
      simp only at h3
      rw [if_pos ⟨hnI, k2.trans hc⟩] at h3
      split at h3
      · cases h3
      · cases h3
      · rename_i q' hq'
        exact estimate_fails hg hr' (k1.trans hs) _ _ _ _ _ _ _ hq'

end

/-! ### Cases -/

/-- Parameters of a survey power spectrum. -/
def exSurvey : Params ℚ :=
  { exPar with catType := "survey", randFile := "b.dat".toList, alignment := "pad", padscale := "grid", padfactor := 20 }

/-- Whether the parameters are accepted, and then accepted again for the normalisation of catalogues in a cube. -/
def exAgain (p : Params ℚ) (side : ℚ) : Option Bool :=
  match validate (exEnv false) 1 true p with
  | some (.ok p') =>
    match normValidated (exEnv false) 1 (1 / 10) 10 "cic" (fun _ => side) (fun _ => side) p' with
    | some (.ok _) => some true
    | _ => some false
  | _ => none

/-- A padding of 20 cells of the measurement mesh is accepted, and fits the normalisation mesh of catalogues 500
wide but not of those 100 wide. -/
example : exAgain exSurvey 500 = some true ∧ exAgain exSurvey 100 = some false ∧
    normNgrid (1 / 10 : ℚ) 10 (fun _ => 500) (fun _ => 500) = 56 ∧
    normNgrid (1 / 10 : ℚ) 10 (fun _ => 100) (fun _ => 100) = 12 ∧
    exAgain { exSurvey with scheme := "estimate" } 500 = some false := by
  decide +kernel

/-- **C150 (violated).** There are accepted parameters, with either cause of failure, with which the mixed-mesh
normalisation fails; it is computed for every two-point statistic of a survey, whatever the convention. -/
theorem C150_accepted_violated : ∃ p p' q q' : Params ℚ, validate (exEnv false) 1 true p = some (.ok p') ∧
    validate (exEnv false) 1 true q = some (.ok q') ∧ p'.norm = "particle" ∧ q'.norm = "particle" ∧
    p'.alignment = "centre" ∧ q'.scheme = "measure" ∧
    (∀ (padding cell : ℚ) (asg : String) (a b : V3 ℚ) (k : ℕ) (r : Params ℚ),
      normValidated (exEnv false) k padding cell asg a b p' ≠ some (.ok r)) ∧
    ∀ a b : V3 ℚ, (∀ i, 0 ≤ a i) → 0 < largestSpan a b → largestSpan a b ≤ 100 → ∀ k,
      normValidated (exEnv false) (k + 1) (1 / 10) 10 "cic" a b q' = some (.error .invalidParameter) := by
  have h1 : (match validate (exEnv false) 1 true { exPar with catType := "survey", scheme := "estimate" } with
      | some (.ok q) => decide (q.norm = "particle" ∧ q.alignment = "centre" ∧ q.scheme = "estimate")
      | _ => false) = true := by decide +kernel
  have h2 : (match validate (exEnv false) 1 true exSurvey with
      | some (.ok q) => decide (q.norm = "particle" ∧ q.alignment = "pad" ∧ q.padscale = "grid" ∧ q.padfactor = 20 ∧
          q.scheme = "measure")
      | _ => false) = true := by decide +kernel
  split at h1
  · rename_i p' hp'
    split at h2
    · rename_i q' hq'
      obtain ⟨a1, a2, a3⟩ := of_decide_eq_true h1
      obtain ⟨b1, b2, b3, b4, b5⟩ := of_decide_eq_true h2
      refine ⟨_, p', _, q', hp', hq', a1, b1, a2, b5, ?_, ?_⟩
      · intro padding cell asg a b k r
        exact estimate_fails rfl hp' a3 padding cell asg a b k r
      · intro a b ha hpos hle k
        obtain ⟨hl, -, hn⟩ := C150_mesh (1 / 10) 10 a b q' "cic" (by norm_num) (by norm_num) ha
        refine (C150_normalisable (exEnv false) rfl 1 true _ q' hq' (1 / 10) 10 (by norm_num) "cic" 2
          (by simp [orderTable]) a b (hn.1 hpos) k).2 ?_
        rintro ⟨-, hh⟩
        have := hh b2 b3
        rw [b4] at this
        have h12 : normNgrid (1 / 10) 10 a b ≤ 12 := hl.2 ⟨by norm_num, by push_cast; linarith⟩
        have h13 : ((normNgrid (1 / 10) 10 a b : ℤ) : ℚ) ≤ 12 := by exact_mod_cast h12
        linarith
    · cases h2
  · cases h1

/-- A disk with a parameter file of a survey and two catalogues. -/
def exPair (extra : List String) : Disk ℚ :=
  { params := fun s => if s = "p.ini".toList then
      some (((exLines extra).filter fun l => l ≠ "catalogue_type = sim".toList)) else none
    cat := fun s => if s = "/d".toList ∨ s = "/r".toList then some [.row [1, 2, 3], .row [5, 6, 7]] else none
    canMake := fun _ => true
    canOpen := fun _ => true }

/-- The run of the program on such a disk. -/
def exPairRun (extra : List String) : List (File ℚ Bool) × Outcome :=
  run id (exEnv false) exParse exParse.int ⟨id, id, 22 / 7⟩
    (withNorms (exEnv false) 3 (fun _ => .ok ()) fun _ => .ok true) {} 3 (exPair extra) ["p.ini".toList]

/-- A survey power spectrum is measured with the default planner scheme, and not with `estimate`. -/
example : options ["p.ini".toList] ["p.ini".toList] = none ∧
    exFiles (exPairRun (["catalogue_type = survey", "rand_catalogue_file = /r"] ++ exBox)) =
      some ("out/parameters_used_t".toList, 1000, "out//pk0_t".toList, 1000, true) ∧
    (exPairRun (["catalogue_type = survey", "rand_catalogue_file = /r", "fftw_scheme = estimate"] ++ exBox)).2 =
      .aborted .invalidParameter := by
  decide +kernel

/-- The parameters which `C150_program_violated` is about are read. -/
example : (match readParams (exEnv false) exParse exParse.int {} 3
      (exPair (["catalogue_type = survey", "rand_catalogue_file = /r", "fftw_scheme = estimate"] ++ exBox))
      ["p.ini".toList] with
    | .ok p => decide (p.scheme = "estimate" ∧ p.catType = "survey" ∧ p.npoint = "2pt" ∧ p.norm = "particle")
    | .error _ => false) = true := by
  decide +kernel

end Trv.Prog

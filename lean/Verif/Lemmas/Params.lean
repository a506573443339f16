import Verif.Spec.Params
import Verif.Props.Monitor
/-
Each step of the validation: what it accepts and what it changes.
-/
set_option linter.unusedSectionVars false
namespace Trv.Par
open Trv.Mon

section
variable {K : Type} [Field K] [LinearOrder K]

theorem vFiles_frame {e : Env K} {init : Bool} {p q : Params K} (h : vFiles e init p = .ok q) :
    q = { p with dataFile := q.dataFile, randFile := q.randFile, dataFiles := q.dataFiles,
                 randFiles := q.randFiles } ∧
    (e.extcall = false → p.catType ∈ ["survey", "random", "sim", "none"]) := by
  simp only [vFiles] at h
  split_ifs at h with h1 h2 h3 h4 h5 <;> cases h <;> refine ⟨rfl, fun he => ?_⟩
  · simp [h1]
  · simp [h2]
  · simp [h3]
  · simp [h4]
  · rw [he] at h5; cases h5

theorem orderOf_spec {s : String} {o : ℤ} (h : orderOf s = .ok o) : (s, o) ∈ orderTable := by
  unfold orderOf at h
  split_ifs at h with h1 h2 h3 h4 <;> cases h <;> simp [orderTable, *]

theorem interlaceOf_spec {s i : String} (h : interlaceOf s = .ok i) : i ∈ ["true", "false"] := by
  unfold interlaceOf at h
  split_ifs at h <;> cases h <;> simp

theorem vMesh_frame {p q : Params K} (h : vMesh p = .ok q) :
    q = { p with assignOrder := q.assignOrder, interlace := q.interlace } ∧
    p.alignment ∈ ["centre", "pad"] ∧ p.padscale ∈ ["box", "grid"] ∧
    (p.assignment, q.assignOrder) ∈ orderTable ∧ q.interlace ∈ ["true", "false"] := by
  unfold vMesh at h
  split_ifs at h with h1 h2
  simp only [bind, Except.bind] at h
  cases ho : orderOf p.assignment with
  | error x => rw [ho] at h; cases h
  | ok o =>
    rw [ho] at h
    cases hi : interlaceOf p.interlace with
    | error x => rw [hi] at h; cases h
    | ok i =>
      rw [hi] at h
      cases h
      exact ⟨rfl, by simpa using h1, by simpa using h2, orderOf_spec ho, interlaceOf_spec hi⟩

theorem statOf_table {x : Bool} {st ct n s : String} (h : statOf x st ct = .ok (some (n, s)))
    (hc : ct ∈ ["survey", "random", "sim", "none"]) :
    ∃ cats, (st, n, s, cats) ∈ statTable ∧ ct ∈ cats := by
  unfold statOf at h
  split_ifs at h <;> cases h <;> simp_all [statTable] <;>
    first | tauto | exact ⟨["random"], by tauto, by simp⟩

theorem statOf_none {st ct : String} : statOf false st ct ≠ .ok none := by
  intro h
  unfold statOf at h
  split_ifs at h <;> simp_all

theorem statOf_of_table {x : Bool} {st ct n s : String} {cats : List String}
    (h : (st, n, s, cats) ∈ statTable) (hc : ct ∈ cats) : statOf x st ct = .ok (some (n, s)) := by
  simp only [statTable, List.mem_cons, Prod.mk.injEq, List.not_mem_nil, or_false] at h
  rcases h with h | h | h | h | h | h | h | h | h <;>
    (obtain ⟨rfl, rfl, rfl, rfl⟩ := h
     simp only [List.mem_cons, List.not_mem_nil, or_false] at hc
     rcases hc with rfl | rfl | rfl | rfl <;> simp [statOf])

theorem vStat_frame {e : Env K} {p q : Params K} (h : vStat e p = .ok q) :
    q = { p with npoint := q.npoint, space := q.space } ∧
    (e.extcall = false → p.catType ∈ ["survey", "random", "sim", "none"] →
      ∃ cats, (q.statType, q.npoint, q.space, cats) ∈ statTable ∧ q.catType ∈ cats) := by
  unfold vStat at h
  split at h
  · cases h
  · rename_i hs
    cases h
    refine ⟨rfl, fun he => ?_⟩
    rw [he] at hs
    exact absurd hs statOf_none
  · rename_i hs
    cases h
    exact ⟨rfl, fun _ hc => statOf_table hs hc⟩

theorem vForm_frame {p q : Params K} (h : vForm p = .ok q) :
    q = { p with shape := if p.form = "full" ∧ p.ell1 = p.ell2 then "triu" else p.form } ∧
    p.form ∈ ["full", "diag", "off-diag", "row"] ∧
    p.norm ∈ ["none", "particle", "mesh", "mesh-mixed"] ∧
    (p.norm = "mesh-mixed" → p.npoint = "2pt") ∧
    p.binning ∈ ["lin", "log", "linpad", "logpad", "custom"] := by
  simp only [vForm] at h
  split_ifs at h with h1 h2 h3 h4 h5 <;> cases h
  all_goals refine ⟨by simp [*], by simpa using h1, by simpa using h2, ?_, by simpa using h4⟩
  all_goals intro hm; by_contra hn; exact h3 ⟨hm, hn⟩

theorem vFftw_frame {e : Env K} {init : Bool} {p q : Params K} (h : vFftw e init p = .ok q) :
    q = { p with scheme := q.scheme, plannerFlag := q.plannerFlag, wisdom := q.wisdom,
                 wisdomF := q.wisdomF, wisdomB := q.wisdomB } := by
  unfold vFftw at h
  simp only [bind, Except.bind] at h
  cases hs : schemeOf e.gpu p.scheme p.plannerFlag with
  | error x => rw [hs] at h; cases h
  | ok sf =>
    rw [hs] at h
    simp only at h
    split_ifs at h <;> cases h <;> rfl

theorem vDerive_frame {p q : Params K} (h : vDerive p = .ok q) :
    q = { p with volume := p.box 0 * p.box 1 * p.box 2,
                 nmesh := p.ngrid 0 * p.ngrid 1 * p.ngrid 2 } ∧
    (q.volume ≤ 0 → ¬ q.expand < 1) := by
  simp only [vDerive] at h
  split_ifs at h with h1
  cases h
  exact ⟨rfl, fun hv he => h1 ⟨hv, he⟩⟩

/-- The steps of a successful first part of the validation. -/
theorem pre_steps {e : Env K} {init : Bool} {p q : Params K} (h : pre e init p = .ok q) :
    ∃ a b c d f, vFiles e init (vDirs e init p) = .ok a ∧ vMesh a = .ok b ∧ vStat e b = .ok c ∧
      vForm c = .ok d ∧ vFftw e init d = .ok f ∧ vDerive (vBvec e init f) = .ok q := by
  unfold pre at h
  simp only [bind, Except.bind] at h
  cases h1 : vFiles e init (vDirs e init p) with
  | error x => rw [h1] at h; cases h
  | ok a =>
  rw [h1] at h; simp only at h
  cases h2 : vMesh a with
  | error x => rw [h2] at h; cases h
  | ok b =>
  rw [h2] at h; simp only at h
  cases h3 : vStat e b with
  | error x => rw [h3] at h; cases h
  | ok c =>
  rw [h3] at h; simp only at h
  cases h4 : vForm c with
  | error x => rw [h4] at h; cases h
  | ok d =>
  rw [h4] at h; simp only at h
  cases h5 : vFftw e init d with
  | error x => rw [h5] at h; cases h
  | ok f =>
  rw [h5] at h; simp only at h
  exact ⟨a, b, c, d, f, rfl, h2, h3, h4, h5, h⟩

/-- The numerical inputs are untouched by the first part. -/
theorem pre_frame {e : Env K} {init : Bool} {p q : Params K} (h : pre e init p = .ok q) :
    q.box = p.box ∧ q.ngrid = p.ngrid ∧ q.cutoff = p.cutoff ∧ q.expand = p.expand ∧
    q.statType = p.statType ∧ q.catType = p.catType ∧ (q.volume ≤ 0 → ¬ q.expand < 1) := by
  obtain ⟨a, b, c, d, f, h1, h2, h3, h4, h5, h6⟩ := pre_steps h
  have f1 := (vFiles_frame h1).1
  have f2 := (vMesh_frame h2).1
  have f3 := (vStat_frame h3).1
  have f4 := (vForm_frame h4).1
  have f5 := vFftw_frame h5
  have f6 := (vDerive_frame h6)
  refine ⟨?_, ?_, ?_, ?_, ?_, ?_, f6.2⟩
  all_goals
    rw [f6.1]
    simp only [vBvec]
    rw [f5]; simp only
    rw [f4]; simp only
    rw [f3]; simp only
    rw [f2]; simp only
    rw [f1]; simp only [vDirs]

theorem pre_derived {e : Env K} (he : e.extcall = false) {init : Bool} {p q : Params K}
    (h : pre e init p = .ok q) : Derived q := by
  obtain ⟨a, b, c, d, f, h1, h2, h3, h4, h5, h6⟩ := pre_steps h
  obtain ⟨f1, g1⟩ := vFiles_frame h1
  obtain ⟨f2, g2⟩ := vMesh_frame h2
  obtain ⟨f3, g3⟩ := vStat_frame h3
  obtain ⟨f4, g4⟩ := vForm_frame h4
  have f5 := vFftw_frame h5
  obtain ⟨f6, -⟩ := vDerive_frame h6
  have hcat : b.catType ∈ ["survey", "random", "sim", "none"] := by
    rw [f2]; simp only; rw [f1]; exact g1 he
  have g3' := g3 he hcat
  have e5 : f.alignment = a.alignment ∧ f.padscale = a.padscale ∧ f.assignment = a.assignment ∧
      f.assignOrder = b.assignOrder ∧ f.interlace = b.interlace := by
    refine ⟨?_, ?_, ?_, ?_, ?_⟩ <;> (rw [f5]; simp only; rw [f4]; simp only; rw [f3])
    all_goals (simp only; rw [f2])
  have e6 : f.statType = c.statType ∧ f.npoint = c.npoint ∧ f.space = c.space ∧
      f.catType = c.catType ∧ f.form = c.form ∧ f.norm = c.norm ∧ f.binning = c.binning ∧
      f.ell1 = c.ell1 ∧ f.ell2 = c.ell2 ∧
      f.shape = if c.form = "full" ∧ c.ell1 = c.ell2 then "triu" else c.form := by
    refine ⟨?_, ?_, ?_, ?_, ?_, ?_, ?_, ?_, ?_, ?_⟩ <;> (rw [f5]; simp only; rw [f4])
  obtain ⟨a1, a2, a3, a4, a5⟩ := e5
  obtain ⟨b1, b2, b3, b4, b5, b6, b7, b8, b9, b10⟩ := e6
  rw [f6]
  refine ⟨?_, ?_, ?_, ?_, ?_, ?_, ?_, ?_, ?_, ?_, rfl, rfl⟩ <;> simp only [vBvec]
  · rw [a1]; exact g2.1
  · rw [a2]; exact g2.2.1
  · rw [a3, a4]; exact g2.2.2.1
  · rw [b1, b2, b3, b4]; exact g3'
  · rw [a5]; exact g2.2.2.2
  · rw [b5]; exact g4.1
  · simp only [b10, b5, b8, b9]
  · rw [b6]; exact g4.2.1
  · rw [b6, b2]; exact g4.2.2.1
  · rw [b7]; exact g4.2.2.2

theorem post_frame {dflt : Str} {p q : Params K} (h : post dflt p = .ok q) :
    q = { p with interlace := q.interlace, saveBvec := q.saveBvec } := by
  simp only [post] at h
  split_ifs at h <;> cases h <;> rfl

theorem pre_inputs {e : Env K} {init : Bool} {p q : Params K} (h : pre e init p = .ok q) :
    inputs q = inputs p := by
  obtain ⟨a, b, c, d, f, h1, h2, h3, h4, h5, h6⟩ := pre_steps h
  rw [(vDerive_frame h6).1]
  show inputs f = _
  rw [vFftw_frame h5]
  show inputs d = _
  rw [(vForm_frame h4).1]
  show inputs c = _
  rw [(vStat_frame h3).1]
  show inputs b = _
  rw [(vMesh_frame h2).1]
  show inputs a = _
  rw [(vFiles_frame h1).1]
  rfl

theorem post_inputs {dflt : Str} {p q : Params K} (h : post dflt p = .ok q) :
    inputs q = inputs p := by
  rw [post_frame h]
  rfl

theorem post_spec {dflt : Str} {p q : Params K} (h : post dflt p = .ok q) (hd : Derived p) :
    Derived q ∧ (0 ≤ q.binMin ∧ q.binMin < q.binMax) ∧ (2 ≤ q.numBins ∧ |q.idxBin| < q.numBins) ∧
    (q.binning ∈ ["linpad", "logpad"] → 7 ≤ q.numBins) ∧
    (q.npoint = "3pt" → q.form = "row" → 0 ≤ q.idxBin) ∧
    (q.npoint = "3pt" → q.interlace = "false") ∧ padOk q ∧
    q.interlace = (if p.npoint = "3pt" ∧ p.interlace = "true" then "false" else p.interlace) ∧
    q.saveBvec = (if (p.statType = "modes" ∨ p.statType = "pairs") ∧ p.saveBvec = [] then dflt
      else p.saveBvec) := by
  simp only [post] at h
  by_cases h1 : ¬ padOk p
  · rw [if_pos h1] at h; cases h
  rw [if_neg h1] at h
  by_cases h2 : p.binMin < 0
  · rw [if_pos h2] at h; cases h
  rw [if_neg h2] at h
  by_cases h3 : p.binMax ≤ p.binMin
  · rw [if_pos h3] at h; cases h
  rw [if_neg h3] at h
  by_cases h4 : p.numBins < 2
  · rw [if_pos h4] at h; cases h
  rw [if_neg h4] at h
  by_cases h5 : p.idxBin < 0 ∧ p.npoint = "3pt" ∧ p.form = "row"
  · rw [if_pos h5] at h; cases h
  rw [if_neg h5] at h
  by_cases h6 : (p.binning = "linpad" ∨ p.binning = "logpad") ∧ p.numBins < 5 + 2
  · rw [if_pos h6] at h; cases h
  rw [if_neg h6] at h
  by_cases h7 : p.numBins ≤ |p.idxBin|
  · rw [if_pos h7] at h; cases h
  rw [if_neg h7] at h
  cases h
  refine ⟨?_, ⟨not_lt.1 h2, not_le.1 h3⟩, ⟨not_lt.1 h4, not_le.1 h7⟩, ?_, ?_, ?_, not_not.1 h1, rfl, rfl⟩
  · obtain ⟨a1, a2, a3, a4, a5, a6, a7, a8, a9, a10, a11, a12⟩ := hd
    refine ⟨a1, a2, a3, a4, ?_, a6, a7, a8, a9, a10, a11, a12⟩
    simp only
    split_ifs
    · simp
    · exact a5
  · intro hb
    by_contra hc
    simp only [List.mem_cons, List.not_mem_nil, or_false] at hb
    exact h6 ⟨hb, by simp only at hc; omega⟩
  · intro a b
    by_contra hc
    exact h5 ⟨not_le.1 hc, a, b⟩
  · intro a
    simp only at a ⊢
    by_cases hi : p.interlace = "true"
    · rw [if_pos ⟨a, hi⟩]
    · rw [if_neg (fun hh => hi hh.2)]
      have := hd.interlace
      simp only [List.mem_cons, List.not_mem_nil, or_false] at this
      exact this.resolve_left hi

end
end Trv.Par

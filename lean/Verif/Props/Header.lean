import Verif.Lemmas.Header
import Verif.Props.OutputTable
import Verif.Props.OutputLoad
/-
Property theorems on the files in which measurements are saved: C148.
-/
namespace Trv.Out

open Trv Trv.Par Trv.Mon

instance (h : HP) : Decidable (Three h.p.stat) := inferInstance

theorem three_iff {s : String} (h2 : Two s) : ¬ Three s := not_two_three h2

set_option maxRecDepth 20000 in
theorem nl_labels {h : HP} {three : Bool} {ls : List Str} (hl : pyLabels h three = some ls) : ∀ l ∈ ls, '\n' ∉ l := by
  have hd := nl_degs h.p
  have hE := nl_toStr h.p.ELL
  unfold pyLabels at hl
  split_ifs at hl <;> injection hl with hl <;> subst hl <;> intro l hm
  · simp only [labelsZeta, List.mem_cons, List.not_mem_nil, or_false] at hm
    rcases hm with rfl | rfl | rfl | rfl | rfl | rfl | rfl | rfl | rfl | rfl <;>
      first | decide | exact nl_lab _ _ _ (by decide) hd (by decide)
  · simp only [labelsXi, List.mem_cons, List.not_mem_nil, or_false] at hm
    rcases hm with rfl | rfl | rfl | rfl | rfl <;>
      first | decide | exact nl_lab _ _ _ (by decide) hE (by decide)
  · simp only [labelsBk, List.mem_cons, List.not_mem_nil, or_false] at hm
    rcases hm with rfl | rfl | rfl | rfl | rfl | rfl | rfl | rfl | rfl | rfl <;>
      first | decide | exact nl_lab _ _ _ (by decide) hd (by decide)
  · simp only [labelsPk, List.mem_cons, List.not_mem_nil, or_false] at hm
    rcases hm with rfl | rfl | rfl | rfl | rfl | rfl | rfl <;>
      first | decide | exact nl_lab _ _ _ (by decide) hE (by decide)

/-- The table saved by Python consists of the lines which the program prints. -/
theorem table_lines (F : Fmt) {h : HP} (hd : h.Derived) {dim : ℕ} {r : Res} (hr : r.Fits h.p.stat dim)
    (hl : Three h.p.stat → (degs h.p).length ≤ 7) :
    ∃ rows ls, pyTable h (decide (Three h.p.stat)) r.dict = .ok rows ∧
      pyLabels h (decide (Three h.p.stat)) = some ls ∧
      cppTable F h.p dim r = ('#' :: ' ' :: labelLine ls) ::
        rows.map (if Three h.p.stat then rowLine F else rowLine2 F) := by
  have e1 := hd.npoint
  have e2 := hd.space
  cases r with
  | pk r =>
    obtain ⟨hs, hn⟩ := hr
    have h3 : ¬ Three h.p.stat := by rw [hs]; decide
    obtain ⟨t1, _, t3⟩ := C119_powspec h.p.ELL r dim hn
    rw [if_neg h3] at e1
    rw [if_pos (Or.inl hs)] at e2
    refine ⟨cppRowsPk r dim, labelsPk h.p.ELL, ?_, ?_, ?_⟩
    · simp [pyTable, h3, e1, e2, Res.dict, t1]
    · simp [pyLabels, h3, e2]
    · rw [cppTable, t3, if_neg h3]
      refine congrArg _ (List.map_congr_left fun row hrow => ?_)
      obtain ⟨i, _, rfl⟩ := List.mem_map.1 hrow
      exact (rowLine2_seven F _ _ _ _ _ _ _).symm
  | xi r =>
    obtain ⟨hs, hn⟩ := hr
    have h3 : ¬ Three h.p.stat := by rcases hs with hs | hs <;> rw [hs] <;> decide
    obtain ⟨t1, _, t3⟩ := C119_corrfunc h.p.ELL r dim hn
    rw [if_neg h3] at e1
    rw [if_neg (by rcases hs with hs | hs <;> rw [hs] <;> decide)] at e2
    refine ⟨cppRowsXi r dim, labelsXi h.p.ELL, ?_, ?_, ?_⟩
    · simp [pyTable, h3, e1, e2, Res.dict, t1]
    · simp [pyLabels, h3, e2]
    · rw [cppTable, t3, if_neg h3]
      refine congrArg _ (List.map_congr_left fun row hrow => ?_)
      obtain ⟨i, _, rfl⟩ := List.mem_map.1 hrow
      exact (rowLine2_five F _ _ _ _ _).symm
  | bk r =>
    obtain ⟨hs, hn⟩ := hr
    have h3 : Three h.p.stat := by rw [hs]; decide
    obtain ⟨t1, _, t3⟩ := C119_bispec h.p r dim hn
    rw [if_pos h3] at e1
    rw [if_pos (Or.inr hs)] at e2
    refine ⟨cppRows3 r dim, labelsBk (degs h.p), ?_, ?_, ?_⟩
    · simp [pyTable, h3, e1, e2, Res.dict, t1]
    · simp [pyLabels, h3, e2]
    · rw [cppTable, t3 (hl h3), if_pos h3]
      refine congrArg _ (List.map_congr_left fun row hrow => ?_)
      obtain ⟨i, _, rfl⟩ := List.mem_map.1 hrow
      exact (rowLine_eq F _ _ _ _ _ _ _ _ _ _).symm
  | zeta r =>
    obtain ⟨hs, hn⟩ := hr
    have h3 : Three h.p.stat := by rcases hs with hs | hs | hs <;> rw [hs] <;> decide
    obtain ⟨t1, _, t3⟩ := C119_threept h.p r dim hn
    rw [if_pos h3] at e1
    rw [if_neg (by rcases hs with hs | hs | hs <;> rw [hs] <;> decide)] at e2
    refine ⟨cppRows3 r dim, labelsZeta (degs h.p), ?_, ?_, ?_⟩
    · simp [pyTable, h3, e1, e2, Res.dict, t1]
    · simp [pyLabels, h3, e2]
    · rw [cppTable, t3 (hl h3), if_pos h3]
      refine congrArg _ (List.map_congr_left fun row hrow => ?_)
      obtain ⟨i, _, rfl⟩ := List.mem_map.1 hrow
      exact (rowLine_eq F _ _ _ _ _ _ _ _ _ _).symm

theorem nl_app {a b : Str} (ha : '\n' ∉ a) (hb : '\n' ∉ b) : '\n' ∉ a ++ b := by
  rw [List.mem_append, not_or]
  exact ⟨ha, hb⟩

theorem nl_pySize {f3 : ℝ → Str} (hn : ∀ x, '\n' ∉ f3 x) (c : CatInfo) : '\n' ∉ pySize f3 c :=
  nl_app (nl_app (nl_app (nl_app (nl_app (by decide) (nl_toStr _)) (by decide)) (hn _)) (by decide)) (hn _)

theorem nl_pyExtents {f3 : ℝ → Str} (hn : ∀ x, '\n' ∉ f3 x) (c : CatInfo) : '\n' ∉ pyExtents f3 c := by
  unfold pyExtents
  refine nl_app (nl_app (nl_app (nl_app (nl_app (nl_app (nl_app (nl_app (nl_app (nl_app (nl_app (nl_app ?_ (hn _)) ?_)
    (hn _)) ?_) (hn _)) ?_) (hn _)) ?_) (hn _)) ?_) (hn _)) ?_ <;> decide

set_option maxRecDepth 20000 in
theorem nl_cats {f3 : ℝ → Str} {k : Kind} {h : HP} (hp : Printable f3 k h) : ∀ l ∈ pyCatLines f3 k, '\n' ∉ l := by
  have hs := hp.source
  have hn := hp.num
  have h1 := nl_pySize hn
  have h2 := nl_pyExtents hn
  cases k with
  | survey c d =>
    simp only [pyCatLines, pyAttrsRef, List.forall_mem_cons]
    exact ⟨nl_app (by decide) (hs c (by simp [Kind.cats])), nl_app (by decide) (h1 c), nl_app (by decide) (h2 c),
      nl_app (by decide) (hs d (by simp [Kind.cats])), nl_app (by decide) (h1 d), nl_app (by decide) (h2 d), by simp⟩
  | box c =>
    simp only [pyCatLines, pyAttrs, List.forall_mem_cons]
    exact ⟨nl_app (by decide) (hs c (by simp [Kind.cats])), nl_app (by decide) (h1 c), nl_app (by decide) (h2 c),
      by simp⟩
  | window c =>
    simp only [pyCatLines, pyAttrs, List.forall_mem_cons]
    exact ⟨nl_app (by decide) (hs c (by simp [Kind.cats])), nl_app (by decide) (h1 c), nl_app (by decide) (h2 c),
      by simp⟩

/-- The lines of the header after those on the catalogues. -/
def headLines (F : Fmt) (f3 : ℝ → Str) (three : Bool) (h : HP) (n : Norms) (f : ℝ) (ls : List Str) : List Str :=
  ["Box size: [".toList ++ f3 (h.box 0) ++ ", ".toList ++ f3 (h.box 1) ++ ", ".toList ++ f3 (h.box 2) ++
      "]".toList,
   "Box alignment: ".toList ++ h.alignment,
   "Mesh number: [".toList ++ toStr (h.ngrid 0) ++ ", ".toList ++ toStr (h.ngrid 1) ++ ", ".toList ++
      toStr (h.ngrid 2) ++ "]".toList,
   "Mesh assignment and interlacing: ".toList ++ h.assignment ++ ", ".toList ++ pyBool h.interlace,
   "Normalisation factor: ".toList ++ F.e f ++ " (".toList ++ h.conv.toList ++ ")".toList,
   "Normalisation factor alternatives: ".toList ++ F.e n.part ++ " (particle), ".toList ++ F.e n.mesh ++
      " (mesh), ".toList ++ F.e n.meshes ++
      (if three then " (mesh-mixed; n/a)".toList else " (mesh-mixed)".toList),
   labelLine ls]

theorem conv_nl {n : Norms} {conv : String} {f : ℝ} (h : Selects n conv f) : '\n' ∉ conv.toList := by
  rcases h with ⟨h, _⟩ | ⟨h, _⟩ | ⟨h, _⟩ | ⟨h, _⟩ <;> rw [h] <;> decide

set_option maxRecDepth 20000 in
theorem nl_headLines {F : Fmt} {rd : ℝ → ℝ} (hF : F.Ok rd) {f3 : ℝ → Str} {k : Kind} {h : HP} (hp : Printable f3 k h)
    (three : Bool) (n : Norms) (f : ℝ) {ls : List Str} (hl : ∀ l ∈ ls, '\n' ∉ l) (hc : '\n' ∉ h.conv.toList) :
    ∀ l ∈ headLines F f3 three h n f ls, '\n' ∉ l := by
  have hn := hp.num
  have he := nl_e hF
  have hi : '\n' ∉ pyBool h.interlace := by
    unfold pyBool
    split_ifs <;> decide
  have h3 : '\n' ∉ (if three then " (mesh-mixed; n/a)".toList else " (mesh-mixed)".toList) := by
    split_ifs <;> decide
  simp only [headLines, List.forall_mem_cons]
  refine ⟨?_, nl_app (by decide) hp.alignment, ?_, ?_, ?_, ?_, nl_labelLine ls hl, by simp⟩
  · exact nl_app (nl_app (nl_app (nl_app (nl_app (nl_app (by decide) (hn _)) (by decide)) (hn _)) (by decide)) (hn _))
      (by decide)
  · exact nl_app (nl_app (nl_app (nl_app (nl_app (nl_app (by decide) (nl_toStr _)) (by decide)) (nl_toStr _))
      (by decide)) (nl_toStr _)) (by decide)
  · exact nl_app (nl_app (nl_app (by decide) hp.assignment) (by decide)) hi
  · exact nl_app (nl_app (nl_app (nl_app (by decide) (he _)) (by decide)) hc) (by decide)
  · exact nl_app (nl_app (nl_app (nl_app (nl_app (nl_app (by decide) (he _)) (by decide)) (he _)) (by decide))
      (he _)) h3

/-- The mixed-mesh normalisation is for the power spectrum of paired catalogues. -/
def MixedOk (k : Kind) (h : HP) : Prop := h.conv = "mesh-mixed" → k.Paired ∧ Two h.p.stat

theorem pyUsed_eq {k : Kind} {h : HP} {n : Norms} {f : ℝ} (hs : Selects n h.conv f) (hm : MixedOk k h) :
    pyUsed k h.conv (pyNorms k (decide (Three h.p.stat)) n) = .ok f ∧
    pyReported h.conv (pyNorms k (decide (Three h.p.stat)) n) = some f := by
  rcases hs with ⟨h1, h2⟩ | ⟨h1, h2⟩ | ⟨h1, h2⟩ | ⟨h1, h2⟩
  · cases k <;> simp [pyUsed, pyReported, h1, h2]
  · cases k <;> by_cases h3 : Three h.p.stat <;> simp [pyUsed, pyReported, pyNorms, h1, h2, h3]
  · cases k <;> by_cases h3 : Three h.p.stat <;> simp [pyUsed, pyReported, pyNorms, h1, h2, h3]
  · obtain ⟨hk, h3⟩ := hm h1
    have h3 := not_two_three h3
    cases k
    · simp [pyUsed, pyReported, pyNorms, h1, h2, h3]
    · exact hk.elim
    · exact hk.elim

/-- What Python saves. -/
theorem pySaved_eq {F : Fmt} {rd : ℝ → ℝ} (hF : F.Ok rd) {f3 : ℝ → Str} {k : Kind} {h : HP} (hp : Printable f3 k h)
    (hd : h.Derived) {n : Norms} {f : ℝ} (hs : Selects n h.conv f) (hm : MixedOk k h) {dim : ℕ} {compute : ℝ → Res}
    (hr : (compute f).Fits h.p.stat dim) (hl : Three h.p.stat → (degs h.p).length ≤ 7) :
    ∃ ls rows, pySaved F f3 k (decide (Three h.p.stat)) h n compute =
        .ok ((pyCatLines f3 k ++ headLines F f3 (decide (Three h.p.stat)) h
          (pyNorms k (decide (Three h.p.stat)) n) f ls).map (fun l => '#' :: ' ' :: l) ++ rows) ∧
      cppTable F h.p dim (compute f) = ('#' :: ' ' :: labelLine ls) :: rows := by
  obtain ⟨u1, u2⟩ := pyUsed_eq hs hm
  obtain ⟨rows, ls, t1, t2, t3⟩ := table_lines F hd hr hl
  have hh : pyHeader F f3 (decide (Three h.p.stat)) h (pyNorms k (decide (Three h.p.stat)) n) =
      .ok (headLines F f3 (decide (Three h.p.stat)) h (pyNorms k (decide (Three h.p.stat)) n) f ls) := by
    have e1 := hd.npoint
    unfold pyHeader
    rw [if_neg (by
      rw [e1]
      by_cases h3 : Three h.p.stat <;> simp [h3]), u2, t2]
    rfl
  have hne : pyCatLines f3 k ≠ [] := by cases k <;> exact List.cons_ne_nil _ _
  have hne' : headLines F f3 (decide (Three h.p.stat)) h (pyNorms k (decide (Three h.p.stat)) n) f ls ≠ [] :=
    List.cons_ne_nil _ _
  have hsplit : splitLines (joinNl [joinNl (pyCatLines f3 k), joinNl (headLines F f3 (decide (Three h.p.stat)) h
      (pyNorms k (decide (Three h.p.stat)) n) f ls)]) = pyCatLines f3 k ++ headLines F f3 (decide (Three h.p.stat)) h
      (pyNorms k (decide (Three h.p.stat)) n) f ls := by
    rw [joinNl_append _ _ hne hne', splitLines_joinNl _ fun e => hne (List.append_eq_nil_iff.1 e).1]
    intro l hm
    rcases List.mem_append.1 hm with hm | hm
    · exact nl_cats hp l hm
    · exact nl_headLines hF hp _ _ _ (nl_labels t2) (conv_nl hs) l hm
  refine ⟨ls, _, ?_, t3⟩
  unfold pySaved
  simp only [u1, hh, t1]
  by_cases h3 : Three h.p.stat
  · simp only [h3, decide_true, if_true, savetxt] at hsplit ⊢
    rw [hsplit]
  · simp only [h3, decide_false, if_false, savetxt2, Bool.false_eq_true] at hsplit ⊢
    rw [hsplit]

theorem norms_eq {k : Kind} {h : HP} (hd : h.Derived) (n : Norms) :
    cppNorms k h n = pyNorms k (decide (Three h.p.stat)) n := by
  have e := hd.npoint
  unfold cppNorms pyNorms
  by_cases h3 : Three h.p.stat
  · rw [if_pos h3] at e
    cases k <;> simp [e, h3]
  · rw [if_neg h3] at e
    cases k <;> simp [e, h3]

theorem cppUsed_eq {k : Kind} {h : HP} (hd : h.Derived) {n : Norms} {f : ℝ} (hs : Selects n h.conv f)
    (hm : MixedOk k h) (F : Fmt) : cppUsed h (cppNorms k h n) = f ∧
    cppFactorLine F h.conv (cppNorms k h n) =
      ["# Normalisation factor: ".toList ++ F.e f ++ " (".toList ++ h.conv.toList ++ ")".toList] := by
  have e := hd.npoint
  have e' : h.npoint ≠ "none" := by
    rw [e]
    split_ifs <;> decide
  unfold cppUsed cppFactorLine
  rw [if_pos e', norms_eq hd]
  have hp : (pyNorms k (decide (Three h.p.stat)) n).part = n.part := by
    unfold pyNorms
    cases k
    · simp only
      split_ifs <;> rfl
    · rfl
    · rfl
  have hq : (pyNorms k (decide (Three h.p.stat)) n).mesh = n.mesh := by
    unfold pyNorms
    cases k
    · simp only
      split_ifs <;> rfl
    · rfl
    · rfl
  rcases hs with ⟨h1, h2⟩ | ⟨h1, h2⟩ | ⟨h1, h2⟩ | ⟨h1, h2⟩
  · rw [if_pos h1, if_pos h1, h2]
    exact ⟨rfl, rfl⟩
  · have h0 : h.conv ≠ "none" := by rw [h1]; decide
    rw [if_neg h0, if_pos h1, if_neg h0, if_pos h1, h2, hp]
    exact ⟨rfl, rfl⟩
  · have h0 : h.conv ≠ "none" := by rw [h1]; decide
    have h0' : h.conv ≠ "particle" := by rw [h1]; decide
    rw [if_neg h0, if_neg h0', if_pos h1, if_neg h0, if_neg h0', if_pos h1, h2, hq]
    exact ⟨rfl, rfl⟩
  · have h0 : h.conv ≠ "none" := by rw [h1]; decide
    have h0' : h.conv ≠ "particle" := by rw [h1]; decide
    have h0'' : h.conv ≠ "mesh" := by rw [h1]; decide
    obtain ⟨hk, h3⟩ := hm h1
    have h3 := not_two_three h3
    have hr : (pyNorms k (decide (Three h.p.stat)) n).meshes = n.meshes := by
      unfold pyNorms
      cases k
      · simp only [h3, decide_false, Bool.false_eq_true, if_false]
      · exact hk.elim
      · exact hk.elim
    rw [if_neg h0, if_neg h0', if_neg h0'', if_pos h1, if_neg h0, if_neg h0', if_neg h0'', if_pos h1, h2, hr]
    exact ⟨rfl, rfl⟩

/-- What the program saves. -/
theorem cppSaved_eq (F : Fmt) (f3 : ℝ → Str) {k : Kind} {h : HP} (hd : h.Derived) {n : Norms} {f : ℝ}
    (hs : Selects n h.conv f) (hm : MixedOk k h) (dim : ℕ) (compute : ℝ → Res) :
    cppSaved F f3 k h n dim compute = cppCatLines f3 k ++
      (["# Box size: [".toList ++ f3 (h.box 0) ++ ", ".toList ++ f3 (h.box 1) ++ ", ".toList ++ f3 (h.box 2) ++
          "]".toList,
       "# Box alignment: ".toList ++ h.alignment,
       "# Mesh number: [".toList ++ toStr (h.ngrid 0) ++ ", ".toList ++ toStr (h.ngrid 1) ++ ", ".toList ++
          toStr (h.ngrid 2) ++ "]".toList,
       "# Mesh assignment and interlacing: ".toList ++ h.assignment ++ ", ".toList ++ cppBool h.interlace,
       "# Normalisation factor: ".toList ++ F.e f ++ " (".toList ++ h.conv.toList ++ ")".toList,
       "# Normalisation factor alternatives: ".toList ++ F.e (pyNorms k (decide (Three h.p.stat)) n).part ++
          " (particle), ".toList ++ F.e (pyNorms k (decide (Three h.p.stat)) n).mesh ++
          " (mesh), ".toList ++ F.e (pyNorms k (decide (Three h.p.stat)) n).meshes ++ " (mesh-mixed)".toList] ++
      cppTable F h.p dim (compute f)) := by
  obtain ⟨u1, u2⟩ := cppUsed_eq hd hs hm F
  change cppCatLines f3 k ++ cppHeader F f3 h (cppNorms k h n) ++
    cppTable F h.p dim (compute (cppUsed h (cppNorms k h n))) = _
  unfold cppHeader
  rw [u1, u2, norms_eq hd, List.append_assoc]
  rfl

theorem commented {a b : String} (h : a.toList = '#' :: ' ' :: b.toList) (s : Str) :
    '#' :: ' ' :: (b.toList ++ s) = a.toList ++ s := by
  rw [h]
  rfl

/-- **C148, the same file.**  A measurement saved as a text file by Python and the same measurement saved by
the program have the same lines, in the same order, except for the brackets around the extents of the
particles, the case of the interlacing flag, and a remark in the line of alternative factors of three-point
statistics.  (Partial: the files should be the same.) -/
theorem C148_same_file_partial {F : Fmt} {rd : ℝ → ℝ} (hF : F.Ok rd) {f3 : ℝ → Str} {k : Kind} {h : HP}
    (hp : Printable f3 k h) (hd : h.Derived) {n : Norms} {f : ℝ} (hs : Selects n h.conv f) (hm : MixedOk k h)
    {dim : ℕ} {compute : ℝ → Res} (hr : (compute f).Fits h.p.stat dim)
    (hl : Three h.p.stat → (degs h.p).length ≤ 7) :
    ∃ py, pySaved F f3 k (decide (Three h.p.stat)) h n compute = .ok py ∧
      List.Forall₂ (fun l m => l = m ∨ Differ f3 k h l m) py (cppSaved F f3 k h n dim compute) := by
  obtain ⟨ls, rows, h1, h2⟩ := pySaved_eq hF hp hd hs hm hr hl
  refine ⟨_, h1, ?_⟩
  rw [cppSaved_eq F f3 hd hs hm, h2, List.map_append, List.append_assoc]
  refine List.rel_append ?_ ?_
  · have hx : ∀ (a b : String) (c : CatInfo), c ∈ k.cats → a.toList = '#' :: ' ' :: b.toList →
        Differ f3 k h ('#' :: ' ' :: (b.toList ++ pyExtents f3 c)) (a.toList ++ cppExtents f3 c) := by
      intro a b c hc e
      rw [commented e]
      exact Differ.extents a.toList c hc
    have hy : ∀ (a b : String) (s : Str), a.toList = '#' :: ' ' :: b.toList →
        '#' :: ' ' :: (b.toList ++ s) = a.toList ++ s := fun a b s e => commented e s
    cases k with
    | survey c d =>
      exact .cons (.inl (hy _ _ _ (by decide))) (.cons (.inl (hy _ _ _ (by decide)))
        (.cons (.inr (hx _ _ _ (by simp [Kind.cats]) (by decide))) (.cons (.inl (hy _ _ _ (by decide)))
        (.cons (.inl (hy _ _ _ (by decide))) (.cons (.inr (hx _ _ _ (by simp [Kind.cats]) (by decide))) .nil)))))
    | box c =>
      exact .cons (.inl (hy _ _ _ (by decide))) (.cons (.inl (hy _ _ _ (by decide)))
        (.cons (.inr (hx _ _ _ (by simp [Kind.cats]) (by decide))) .nil))
    | window c =>
      exact .cons (.inl (hy _ _ _ (by decide))) (.cons (.inl (hy _ _ _ (by decide)))
        (.cons (.inr (hx _ _ _ (by simp [Kind.cats]) (by decide))) .nil))
  · refine .cons (.inl ?_) (.cons (.inl (commented (by decide) _)) (.cons (.inl ?_) (.cons (.inr ?_) (.cons (.inl ?_)
      (.cons ?_ (.cons (.inl rfl) (List.forall₂_same.2 fun l _ => .inl rfl)))))))
    · simp only [List.append_assoc]
      exact commented (by decide) _
    · simp only [List.append_assoc]
      exact commented (by decide) _
    · have e : '#' :: ' ' :: ("Mesh assignment and interlacing: ".toList ++ h.assignment ++ ", ".toList ++
          pyBool h.interlace) = "# Mesh assignment and interlacing: ".toList ++ h.assignment ++ ", ".toList ++
          pyBool h.interlace := by
        simp only [List.append_assoc]
        exact commented (by decide) _
      have e1 : pyBool h.interlace = (if h.interlace then "True" else "False").toList := by
        unfold pyBool
        split_ifs <;> rfl
      have e2 : cppBool h.interlace = (if h.interlace then "true" else "false").toList := by
        unfold cppBool
        split_ifs <;> rfl
      beta_reduce
      rw [e, e1, e2]
      exact Differ.interlacing _
    · simp only [List.append_assoc]
      exact commented (by decide) _
    · have e : ∀ t : Str, '#' :: ' ' :: ("Normalisation factor alternatives: ".toList ++
          F.e (pyNorms k (decide (Three h.p.stat)) n).part ++ " (particle), ".toList ++
          F.e (pyNorms k (decide (Three h.p.stat)) n).mesh ++ " (mesh), ".toList ++
          F.e (pyNorms k (decide (Three h.p.stat)) n).meshes ++ t) = "# Normalisation factor alternatives: ".toList ++
          F.e (pyNorms k (decide (Three h.p.stat)) n).part ++ " (particle), ".toList ++
          F.e (pyNorms k (decide (Three h.p.stat)) n).mesh ++ " (mesh), ".toList ++
          F.e (pyNorms k (decide (Three h.p.stat)) n).meshes ++ t := by
        intro t
        simp only [List.append_assoc]
        exact commented (by decide) _
      beta_reduce
      rw [e]
      by_cases h3 : Three h.p.stat
      · rw [if_pos (by simp [h3])]
        exact .inr (Differ.alternatives _ h3)
      · rw [if_neg (by simp [h3])]
        exact .inl rfl

/-- Whether a line is the one on the normalisation factor. -/
def isFactor (l : Str) : Bool := "# Normalisation factor: ".toList.isPrefixOf l

theorem isFactor_app (s t u v : Str) : isFactor ("# Normalisation factor: ".toList ++ s ++ t ++ u ++ v) = true := by
  unfold isFactor
  rw [List.isPrefixOf_iff_prefix]
  exact (((List.prefix_append _ _).trans (List.prefix_append _ _)).trans (List.prefix_append _ _)).trans
    (List.prefix_append _ _)

theorem table_no_factor {F : Fmt} {rd : ℝ → ℝ} (hF : F.Ok rd) (p : P) (dim : ℕ) (r : Res) :
    (cppTable F p dim r).filter isFactor = [] := by
  rw [List.filter_eq_nil_iff]
  intro l hl hf
  have key : ∀ x, F.e x <+: l → False := by
    rintro x ⟨s, rfl⟩
    have := not_prefix (head_e hF x s)
    unfold isFactor at hf
    rw [this] at hf
    exact absurd hf (by decide)
  cases r with
  | pk r =>
    rcases List.mem_cons.1 hl with rfl | hl
    · exact absurd hf (Bool.not_eq_true _ ▸ rfl)
    · obtain ⟨row, hrow, rfl⟩ := List.mem_map.1 hl
      obtain ⟨i, _, rfl⟩ := List.mem_map.1 hrow
      exact key (r.kbin.getD i 0) (by simp only [cppRowLine, List.append_assoc, List.prefix_append])
  | xi r =>
    rcases List.mem_cons.1 hl with rfl | hl
    · exact absurd hf (Bool.not_eq_true _ ▸ rfl)
    · obtain ⟨row, hrow, rfl⟩ := List.mem_map.1 hl
      obtain ⟨i, _, rfl⟩ := List.mem_map.1 hrow
      exact key (r.rbin.getD i 0) (by simp only [cppRowLine, List.append_assoc, List.prefix_append])
  | bk r =>
    rcases List.mem_cons.1 hl with rfl | hl
    · exact absurd hf (Bool.not_eq_true _ ▸ rfl)
    · obtain ⟨row, hrow, rfl⟩ := List.mem_map.1 hl
      obtain ⟨i, _, rfl⟩ := List.mem_map.1 hrow
      exact key (r.bin1.getD i 0) (by simp only [cppRowLine, List.append_assoc, List.prefix_append])
  | zeta r =>
    rcases List.mem_cons.1 hl with rfl | hl
    · exact absurd hf (Bool.not_eq_true _ ▸ rfl)
    · obtain ⟨row, hrow, rfl⟩ := List.mem_map.1 hl
      obtain ⟨i, _, rfl⟩ := List.mem_map.1 hrow
      exact key (r.bin1.getD i 0) (by simp only [cppRowLine, List.append_assoc, List.prefix_append])

theorem cats_no_factor (f3 : ℝ → Str) (k : Kind) : (cppCatLines f3 k).filter isFactor = [] ∧
    ((pyCatLines f3 k).map fun l => '#' :: ' ' :: l).filter isFactor = [] := by
  cases k <;> exact ⟨rfl, rfl⟩

theorem filter_six {a b c d e g : Str} (ha : isFactor a = false) (hb : isFactor b = false) (hc : isFactor c = false)
    (hd : isFactor d = false) (he : isFactor e = true) (hg : isFactor g = false) :
    [a, b, c, d, e, g].filter isFactor = [e] := by
  simp [ha, hb, hc, hd, he, hg]

/-- **C148, the factor reported.**  If a convention stands for the factor `f`, then both in Python and in the
program the measurement is made with `f`, and the file has exactly one line on the normalisation factor,
which gives `f` and the convention. -/
theorem C148_factor {F : Fmt} {rd : ℝ → ℝ} (hF : F.Ok rd) {f3 : ℝ → Str} {k : Kind} {h : HP}
    (hp : Printable f3 k h) (hd : h.Derived) {n : Norms} {f : ℝ} (hs : Selects n h.conv f) (hm : MixedOk k h)
    {dim : ℕ} {compute : ℝ → Res} (hr : (compute f).Fits h.p.stat dim)
    (hl : Three h.p.stat → (degs h.p).length ≤ 7) :
    ∃ py, pySaved F f3 k (decide (Three h.p.stat)) h n compute = .ok py ∧ Reports F py h.conv f ∧
      cppTable F h.p dim (compute f) <:+ py ∧
      Reports F (cppSaved F f3 k h n dim compute) h.conv f ∧
      cppTable F h.p dim (compute f) <:+ cppSaved F f3 k h n dim compute := by
  obtain ⟨ls, rows, h1, h2⟩ := pySaved_eq hF hp hd hs hm hr hl
  have hrows : (('#' :: ' ' :: labelLine ls) :: rows).filter isFactor = [] := by
    rw [← h2]
    exact table_no_factor hF _ _ _
  obtain ⟨c1, c2⟩ := cats_no_factor f3 k
  refine ⟨_, h1, ?_, ?_, ?_, ?_⟩
  · change List.filter isFactor _ = _
    have e : '#' :: ' ' :: ("Normalisation factor: ".toList ++ F.e f ++ " (".toList ++ h.conv.toList ++ ")".toList) =
        "# Normalisation factor: ".toList ++ F.e f ++ " (".toList ++ h.conv.toList ++ ")".toList := by
      simp only [List.append_assoc]
      exact commented (by decide) _
    have e' : (headLines F f3 (decide (Three h.p.stat)) h (pyNorms k (decide (Three h.p.stat)) n) f ls).map
        (fun l => '#' :: ' ' :: l) ++ rows = (headLines F f3 (decide (Three h.p.stat)) h
        (pyNorms k (decide (Three h.p.stat)) n) f []).dropLast.map (fun l => '#' :: ' ' :: l) ++
        (('#' :: ' ' :: labelLine ls) :: rows) := rfl
    rw [List.map_append, List.filter_append, List.filter_append, c2, List.nil_append, ← List.filter_append, e',
      List.filter_append, hrows, List.append_nil]
    have hf := isFactor_app (F.e f) " (".toList h.conv.toList ")".toList
    have := filter_six (a := '#' :: ' ' :: ("Box size: [".toList ++ f3 (h.box 0) ++ ", ".toList ++ f3 (h.box 1) ++
        ", ".toList ++ f3 (h.box 2) ++ "]".toList)) (b := '#' :: ' ' :: ("Box alignment: ".toList ++ h.alignment))
      (c := '#' :: ' ' :: ("Mesh number: [".toList ++ toStr (h.ngrid 0) ++ ", ".toList ++ toStr (h.ngrid 1) ++
        ", ".toList ++ toStr (h.ngrid 2) ++ "]".toList))
      (d := '#' :: ' ' :: ("Mesh assignment and interlacing: ".toList ++ h.assignment ++ ", ".toList ++
        pyBool h.interlace))
      (g := '#' :: ' ' :: ("Normalisation factor alternatives: ".toList ++
        F.e (pyNorms k (decide (Three h.p.stat)) n).part ++ " (particle), ".toList ++
        F.e (pyNorms k (decide (Three h.p.stat)) n).mesh ++ " (mesh), ".toList ++
        F.e (pyNorms k (decide (Three h.p.stat)) n).meshes ++
        (if decide (Three h.p.stat) then " (mesh-mixed; n/a)".toList else " (mesh-mixed)".toList)))
      rfl rfl rfl rfl hf rfl
    rw [← this, ← e]
    rfl
  · refine ⟨((pyCatLines f3 k) ++ (headLines F f3 (decide (Three h.p.stat)) h
      (pyNorms k (decide (Three h.p.stat)) n) f []).dropLast).map (fun l => '#' :: ' ' :: l), ?_⟩
    rw [h2, List.map_append, List.map_append, List.append_assoc, List.append_assoc]
    rfl
  · change List.filter isFactor _ = _
    rw [cppSaved_eq F f3 hd hs hm, List.filter_append, c1, List.nil_append, List.filter_append,
      table_no_factor hF, List.append_nil]
    have hf := isFactor_app (F.e f) " (".toList h.conv.toList ")".toList
    exact filter_six rfl rfl rfl rfl hf rfl
  · rw [cppSaved_eq F f3 hd hs hm, ← List.append_assoc]
    exact List.suffix_append _ _

theorem extents_ne (f3 : ℝ → Str) (c d : CatInfo) (a b : String) (h : a.toList = '#' :: ' ' :: b.toList) :
    '#' :: ' ' :: (b.toList ++ pyExtents f3 c) ≠ a.toList ++ cppExtents f3 d := by
  rw [commented h]
  intro e
  have e := congrArg List.head? (List.append_cancel_left e)
  unfold pyExtents cppExtents at e
  exact absurd (show some '(' = some '[' from e) (by decide)

/-- **C148 (violated), the same file.**  The files always differ: the extents of the particles are printed
with different brackets. -/
theorem C148_extents_violated {F : Fmt} {rd : ℝ → ℝ} (hF : F.Ok rd) {f3 : ℝ → Str} {k : Kind} {h : HP}
    (hp : Printable f3 k h) (hd : h.Derived) {n : Norms} {f : ℝ} (hs : Selects n h.conv f) (hm : MixedOk k h)
    {dim : ℕ} {compute : ℝ → Res} (hr : (compute f).Fits h.p.stat dim)
    (hl : Three h.p.stat → (degs h.p).length ≤ 7) :
    pySaved F f3 k (decide (Three h.p.stat)) h n compute ≠ .ok (cppSaved F f3 k h n dim compute) := by
  obtain ⟨ls, rows, h1, h2⟩ := pySaved_eq hF hp hd hs hm hr hl
  rw [h1, cppSaved_eq F f3 hd hs hm]
  intro e
  injection e with e
  have e := congrArg (fun l : List Str => l[2]?) e
  cases k with
  | survey c d =>
    have e : some ('#' :: ' ' :: ("Data-source particle extents: ".toList ++ pyExtents f3 c)) =
      some ("# Data-source particle extents: ".toList ++ cppExtents f3 c) := e
    injection e with e
    exact extents_ne f3 c c _ _ (by decide) e
  | box c =>
    have e : some ('#' :: ' ' :: ("Catalogue particle extents: ".toList ++ pyExtents f3 c)) =
      some ("# Catalogue particle extents: ".toList ++ cppExtents f3 c) := e
    injection e with e
    exact extents_ne f3 c c _ _ (by decide) e
  | window c =>
    have e : some ('#' :: ' ' :: ("Catalogue particle extents: ".toList ++ pyExtents f3 c)) =
      some ("# Catalogue particle extents: ".toList ++ cppExtents f3 c) := e
    injection e with e
    exact extents_ne f3 c c _ _ (by decide) e

/-- **C148 (violated), the factor.**  With `mesh-mixed` and a catalogue in a box or a random catalogue, which
the validation of parameters lets pass for two-point statistics, Python fails with an unbound variable, and
the program measures with the factor zero and reports it. -/
theorem C148_mixed_violated {F : Fmt} {rd : ℝ → ℝ} (hF : F.Ok rd) (f3 : ℝ → Str) {k : Kind} {h : HP}
    (hd : h.Derived) (h2 : Two h.p.stat) (hk : ¬ k.Paired) (hc : h.conv = "mesh-mixed") (n : Norms) (dim : ℕ)
    (compute : ℝ → Res) :
    pySaved F f3 k false h n compute = .error .nameError ∧
    Reports F (cppSaved F f3 k h n dim compute) h.conv 0 ∧
    cppTable F h.p dim (compute 0) <:+ cppSaved F f3 k h n dim compute := by
  have e := hd.npoint
  rw [if_neg (not_two_three h2)] at e
  have hn : (cppNorms k h n).meshes = 0 := by
    unfold cppNorms
    rw [if_pos e]
    cases k
    · exact absurd trivial hk
    · rfl
    · rfl
  have hf : cppFactorLine F h.conv (cppNorms k h n) =
      ["# Normalisation factor: ".toList ++ F.e 0 ++ " (".toList ++ h.conv.toList ++ ")".toList] := by
    unfold cppFactorLine
    rw [if_neg (by rw [hc]; decide), if_neg (by rw [hc]; decide), if_neg (by rw [hc]; decide), if_pos hc, hn]
  have hu : cppUsed h (cppNorms k h n) = 0 := by
    unfold cppUsed
    rw [if_pos (by rw [e]; decide), if_neg (by rw [hc]; decide), if_neg (by rw [hc]; decide),
      if_neg (by rw [hc]; decide), if_pos hc, hn]
  have hsv : cppSaved F f3 k h n dim compute = cppCatLines f3 k ++ cppHeader F f3 h (cppNorms k h n) ++
      cppTable F h.p dim (compute 0) := by
    change cppCatLines f3 k ++ cppHeader F f3 h (cppNorms k h n) ++
      cppTable F h.p dim (compute (cppUsed h (cppNorms k h n))) = _
    rw [hu]
  refine ⟨?_, ?_, ?_⟩
  · have : pyUsed k h.conv (pyNorms k false n) = .error .nameError := by
      cases k
      · exact absurd trivial hk
      · simp [pyUsed, hc]
      · simp [pyUsed, hc]
    unfold pySaved
    simp only [this]
  · change List.filter isFactor _ = _
    rw [hsv, List.filter_append, List.filter_append, (cats_no_factor f3 k).1, table_no_factor hF, List.append_nil,
      List.nil_append]
    unfold cppHeader
    rw [hf]
    exact filter_six rfl rfl rfl rfl (isFactor_app (F.e 0) " (".toList h.conv.toList ")".toList) rfl
  · rw [hsv]
    exact List.suffix_append _ _

/-- **C148 (violated), letter case.**  The validation accepts a convention written with capital letters, since
it sees the name in lower case; but the Python functions compare the name as it was given, and fail with an
unbound variable. -/
theorem C148_case_violated (F : Fmt) (f3 : ℝ → Str) (k : Kind) (three : Bool) (h : HP) (n : Norms)
    (compute : ℝ → Res) (hc : h.conv ∉ ["none", "particle", "mesh", "mesh-mixed"]) :
    pySaved F f3 k three h n compute = .error .nameError := by
  simp only [List.mem_cons, List.not_mem_nil, or_false, not_or] at hc
  obtain ⟨h1, h2, h3, h4⟩ := hc
  have : pyUsed k h.conv (pyNorms k three n) = .error .nameError := by
    cases k <;> simp [pyUsed, h1, h2, h3, h4]
  unfold pySaved
  simp only [this]

/-- A power spectrum of paired catalogues. -/
noncomputable def exSaved : HP :=
  ⟨{ stat := "powspec", ELL := 2 }, "2pt", "fourier", ![1000, 1000, 2000], "centre".toList, ![64, 64, 128],
   "tsc".toList, true, "mesh-mixed"⟩

noncomputable def exCat (s : String) : CatInfo := ⟨s.toList, 10, 10, 9, 0, fun _ => 900⟩

noncomputable def exCompute (f : ℝ) : Res := .pk ⟨[1], [1], [6], [(f : ℂ)], [0]⟩

/-- The hypotheses are met: the file reports the mixed-mesh factor. -/
example : ∃ py, pySaved unaryFmt unary (.survey (exCat "extfile:data") (exCat "extfile:rand")) false exSaved ⟨1, 2, 3⟩
    exCompute = .ok py ∧ Reports unaryFmt py "mesh-mixed" 3 ∧ py.length = 14 := by
  have hu : ∀ x, '\n' ∉ unary x := nl_e unaryFmt_ok
  have hd : exSaved.Derived := ⟨Or.inl (Or.inl rfl), rfl, rfl⟩
  have hp : Printable unary (.survey (exCat "extfile:data") (exCat "extfile:rand")) exSaved :=
    ⟨hu, by
      intro c hc
      simp only [Kind.cats, List.mem_cons, List.not_mem_nil, or_false] at hc
      rcases hc with rfl | rfl <;> decide, by decide, by decide⟩
  have hs : Selects ⟨1, 2, 3⟩ exSaved.conv 3 := Or.inr (Or.inr (Or.inr ⟨rfl, rfl⟩))
  have hm : MixedOk (.survey (exCat "extfile:data") (exCat "extfile:rand")) exSaved :=
    fun _ => ⟨trivial, Or.inl rfl⟩
  have hr : (exCompute 3).Fits exSaved.p.stat 1 :=
    ⟨rfl, rfl, rfl, rfl, rfl, rfl⟩
  have hl : Three exSaved.p.stat → (degs exSaved.p).length ≤ 7 := fun h => absurd h (by decide)
  obtain ⟨py, h1, h2, -⟩ := C148_factor unaryFmt_ok hp hd hs hm hr hl
  obtain ⟨py', h1', h3⟩ := C148_same_file_partial unaryFmt_ok hp hd hs hm hr hl
  have e : decide (Three exSaved.p.stat) = false := by decide
  rw [e] at h1 h1'
  rw [h1] at h1'
  injection h1' with h1'
  subst h1'
  refine ⟨py, h1, h2, ?_⟩
  rw [h3.length_eq, cppSaved_eq unaryFmt unary hd hs hm]
  rfl

end Trv.Out

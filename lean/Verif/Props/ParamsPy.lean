import Verif.Spec.ParamsPy
import Verif.Props.ParamsMore
/-
C35, C72, C73: the Python parameter set.
-/
set_option linter.unusedSectionVars false
namespace Trv.Par
open Trv.Mon

section
variable {K : Type} [Field K] [LinearOrder K] [IsStrictOrderedRing K] [FloorRing K]

theorem all3_some {α : Type} {f : Fin 3 → Option α} (h : ∀ i, (f i).isSome) :
    ∃ g, all3 f = some g ∧ ∀ i, f i = some (g i) := by
  obtain ⟨a, ha⟩ := Option.isSome_iff_exists.1 (h 0)
  obtain ⟨b, hb⟩ := Option.isSome_iff_exists.1 (h 1)
  obtain ⟨c, hc⟩ := Option.isSome_iff_exists.1 (h 2)
  refine ⟨![a, b, c], by simp [all3, ha, hb, hc], fun i => ?_⟩
  fin_cases i
  · exact ha
  · exact hb
  · exact hc

theorem all3_none {α : Type} {f : Fin 3 → Option α} (h : ∃ i, f i = none) : all3 f = none := by
  obtain ⟨i, hi⟩ := h
  unfold all3
  fin_cases i
  · rw [show f 0 = none from hi]
  · rw [show f 1 = none from hi]
    cases f 0 <;> rfl
  · rw [show f 2 = none from hi]
    cases f 0 <;> cases f 1 <;> rfl

/-- The steps of an accepted parse. -/
theorem pParse_steps {e : Env K} {fuel : ℕ} {s s' : PySet K}
    (h : pParse e fuel s = some (s', none)) :
    ∃ s1 s2 s3 s4, pRange (pDegrees (pMesh (pPaths s))) = (s1, none) ∧ pBins s1 = (s2, none) ∧
      pCutoff e s2 = (s3, none) ∧ pForm s3 = (s4, none) ∧
      pValidate e fuel true (pMisc s4) = some (s', none) := by
  unfold pParse at h
  split at h
  · simp at h
  · rename_i s1 h1
    split at h
    · simp at h
    · rename_i s2 h2
      split at h
      · simp at h
      · rename_i s3 h3
        split at h
        · simp at h
        · rename_i s4 h4
          exact ⟨s1, s2, s3, s4, h1, h2, h3, h4, h⟩

theorem pCutoff_frame {e : Env K} {s s' : PySet K} {x : Option PyErr} (h : pCutoff e s = (s', x)) :
    s'.c = { s.c with cutoff := s'.c.cutoff } ∧ s'.d = { s.d with ngrid := s'.d.ngrid } := by
  unfold pCutoff at h
  split_ifs at h
  · split at h
    · cases h; exact ⟨rfl, rfl⟩
    · simp only at h
      split at h
      · cases h; exact ⟨rfl, rfl⟩
      · split_ifs at h
        · split at h
          · cases h; exact ⟨rfl, rfl⟩
          · rename_i d hd
            cases h
            refine ⟨rfl, ?_⟩
            unfold pNgrid at hd
            split at hd
            · cases hd
            · simp only [bind, Except.bind] at hd
              repeat' split at hd
              all_goals first
                | (cases hd; done)
                | (cases hd; rfl)
        · cases h; exact ⟨rfl, rfl⟩
  · cases h; exact ⟨rfl, rfl⟩

theorem same_getD {α : Type} (o : Option α) (y : α) : Same id o (o.getD y) := by
  rintro a rfl; rfl

theorem same_mapD {α β : Type} (f : α → β) (o : Option α) (y : β) : Same f o ((o.map f).getD y) := by
  rintro a rfl; rfl

/-- **C35 (partial).** After an accepted assignment the set entries of the dictionary agree with
the C++ parameters. -/
theorem C35_accepted_agree_partial (e : Env K) (fuel : ℕ) (f : Dict K → Dict K) (s s' : PySet K)
    (h : assign e fuel f s = some (s', none)) : Agree s'.d s'.c := by
  obtain ⟨s1, s2, s3, s4, h1, h2, h3, h4, h5⟩ := pParse_steps h
  generalize ({ s with d := f s.d } : PySet K) = s0 at h1
  unfold pRange at h1
  split at h1
  swap
  · simp at h1
  rename_i a b ha hb
  simp only [Prod.mk.injEq, and_true] at h1
  subst h1
  unfold pBins at h2
  split at h2
  swap
  · simp at h2
  rename_i n hn
  simp only [Prod.mk.injEq, and_true] at h2
  subst h2
  obtain ⟨c3, d3⟩ := pCutoff_frame h3
  obtain ⟨x, hx⟩ : ∃ x, x = s3.c.cutoff := ⟨_, rfl⟩
  obtain ⟨y, hy⟩ : ∃ y, y = s3.d.ngrid := ⟨_, rfl⟩
  rw [← hx] at c3
  rw [← hy] at d3
  clear hx hy h3
  obtain ⟨sd, sc⟩ := s3
  simp only at c3 d3
  subst c3 d3
  unfold pForm at h4
  simp only at h4
  split_ifs at h4
  · simp at h4
  simp only [Prod.mk.injEq, and_true] at h4
  subst h4
  unfold pValidate at h5
  split at h5
  · cases h5
  · simp at h5
  rename_i cc hcc
  simp only [Option.some.injEq, Prod.mk.injEq, and_true] at h5
  have hin := (C33_inputs_kept e fuel true _ cc hcc).1
  simp only [inputs, Prod.mk.injEq, pMisc, pDegrees, pMesh, pPaths] at hin
  obtain ⟨i1, i2, i3, i4, i5, i6, i7, i8, i9, i10, i11, i12, i13, i14, i15, i16, i17, i18, i19, i20,
    i21, i22, i23, i24, i25, i26⟩ := hin
  subst h5
  have hbox : (∀ i, (s0.d.box i).isSome) → ∀ i, s0.d.box i = some (cc.box i) := by
    intro hb' i
    obtain ⟨g, g1, g2⟩ := all3_some hb'
    rw [g2 i, i1, g1]; rfl
  constructor <;> simp only [pFetch, pMisc, pDegrees, pMesh, pPaths]
  · exact hbox
  · rw [i2]; exact same_getD _ _
  · rw [i4]; exact same_getD _ _
  · rw [i14]; exact same_mapD _ _ _
  · rw [i15]; exact same_mapD _ _ _
  · rw [i16]; exact same_mapD _ _ _
  · rw [i9]; exact same_getD _ _
  · rw [i10]; exact same_getD _ _
  · rw [i11]; exact same_getD _ _
  · rw [i12]; exact same_getD _ _
  · rw [i13]; exact same_getD _ _
  · rw [i5]; exact ha
  · rw [i6]; exact hb
  · rw [i7]; exact hn
  · rw [i8]; exact same_getD _ _
  · rw [i17]; exact same_mapD _ _ _
  · rw [i18]; exact same_mapD _ _ _
  · rw [i19]; exact same_mapD _ _ _
  · rw [i20]; exact same_mapD _ _ _
  · rw [i21]; exact same_mapD _ _ _
  · rw [i25]; exact same_getD _ _
  · rw [i22]
    rintro a ha'
    exact (Option.some.inj ha')
  · intro hil
    simp only [List.mem_cons, List.not_mem_nil, or_false] at hil
    rcases hil with hil | hil <;> rw [hil] <;> decide +kernel

/-- The same after any history of accepted and rejected assignments whose last is accepted. -/
theorem C35_history_partial (e : Env K) (fuel : ℕ) (l : List (Dict K → Dict K)) (hl : l ≠ [])
    (s s' : PySet K) (h : history e fuel l s = some (s', none)) : Agree s'.d s'.c := by
  induction l generalizing s with
  | nil => exact absurd rfl hl
  | cons f l ih =>
    cases l with
    | nil => exact C35_accepted_agree_partial e fuel f s s' h
    | cons g l =>
      unfold history at h
      split at h
      · cases h
      · exact ih (by simp) _ h

/-- A mesh which is set reaches the C++ parameters. -/
theorem C35_mesh_partial (e : Env K) (fuel : ℕ) (f : Dict K → Dict K) (s s' : PySet K)
    (n : Fin 3 → ℤ) (hn : ∀ i, (f s.d).ngrid i = some (n i)) (hpos : 0 < n 0 * n 1 * n 2)
    (h : assign e fuel f s = some (s', none)) :
    s'.c.ngrid = n ∧ s'.d.ngrid = (f s.d).ngrid := by
  obtain ⟨s1, s2, s3, s4, h1, h2, h3, h4, h5⟩ := pParse_steps h
  generalize hs0 : ({ s with d := f s.d } : PySet K) = s0 at h1
  have hn' : all3 s0.d.ngrid = some n := by
    rw [← hs0]
    obtain ⟨g, g1, g2⟩ := all3_some (f := (f s.d).ngrid) (fun i => by rw [hn i]; rfl)
    show all3 (f s.d).ngrid = some n
    rw [g1]
    congr 1
    funext i
    have := g2 i
    rw [hn i] at this
    exact (Option.some.inj this).symm
  have hd0 : s0.d.ngrid = (f s.d).ngrid := by rw [← hs0]
  rw [← hd0]
  unfold pRange at h1
  split at h1
  swap
  · simp at h1
  simp only [Prod.mk.injEq, and_true] at h1
  subst h1
  unfold pBins at h2
  split at h2
  swap
  · simp at h2
  simp only [Prod.mk.injEq, and_true] at h2
  subst h2
  unfold pCutoff at h3
  rw [if_neg] at h3
  swap
  · simp only [pDegrees, pMesh, pPaths, hn']
    exact hpos.ne'
  simp only [Prod.mk.injEq, and_true] at h3
  subst h3
  unfold pForm at h4
  simp only at h4
  split_ifs at h4
  · simp at h4
  simp only [Prod.mk.injEq, and_true] at h4
  subst h4
  unfold pValidate at h5
  split at h5
  · cases h5
  · simp at h5
  rename_i cc hcc
  simp only [Option.some.injEq, Prod.mk.injEq, and_true] at h5
  have hin := (C33_inputs_kept e fuel true _ cc hcc).2
  simp only [pMisc, pDegrees, pMesh, pPaths, hn', Option.getD_some] at hin
  subst h5
  exact ⟨hin hpos, rfl⟩

/-- **C35 (violated).** Unsetting the number of bins is always rejected, and the rejected value
stays in the parameter set. -/
theorem C35_rejected_kept_violated (e : Env K) (fuel : ℕ) (s : PySet K) :
    ∃ s' x, assign e fuel (fun d => { d with numBins := none }) s = some (s', some x) ∧
      s'.d.numBins = none := by
  unfold assign pParse
  cases h : pRange (pDegrees (pMesh (pPaths { s with d := { s.d with numBins := none } }))) with
  | mk s1 x =>
    have hd : s1.d.numBins = none := by
      unfold pRange at h
      split at h <;> (cases h <;> rfl)
    cases x with
    | some x => exact ⟨s1, x, rfl, hd⟩
    | none =>
      have : pBins s1 = (s1, some .invalidParameterError) := by
        unfold pBins; rw [hd]
      simp only [this]
      exact ⟨s1, _, rfl, hd⟩

/-- **C35 (violated).** Unsetting the box (or a side of it) in an accepted way leaves the C++ box
as it was. -/
theorem C35_unset_box_violated (e : Env K) (fuel : ℕ) (f : Dict K → Dict K) (s s' : PySet K)
    (hn : ∃ i, (f s.d).box i = none) (h : assign e fuel f s = some (s', none)) :
    s'.c.box = s.c.box ∧ s'.d.box = (f s.d).box ∧ s'.d.volume = 0 := by
  obtain ⟨s1, s2, s3, s4, h1, h2, h3, h4, h5⟩ := pParse_steps h
  generalize hs0 : ({ s with d := f s.d } : PySet K) = s0 at h1
  have hn' : all3 s0.d.box = none := by
    rw [← hs0]; exact all3_none hn
  have hc : s.c.box = s0.c.box ∧ (f s.d).box = s0.d.box := by rw [← hs0]; exact ⟨rfl, rfl⟩
  rw [hc.1, hc.2]
  unfold pRange at h1
  split at h1
  swap
  · simp at h1
  simp only [Prod.mk.injEq, and_true] at h1
  subst h1
  unfold pBins at h2
  split at h2
  swap
  · simp at h2
  simp only [Prod.mk.injEq, and_true] at h2
  subst h2
  obtain ⟨c3, d3⟩ := pCutoff_frame h3
  obtain ⟨x, hx⟩ : ∃ x, x = s3.c.cutoff := ⟨_, rfl⟩
  obtain ⟨y, hy⟩ : ∃ y, y = s3.d.ngrid := ⟨_, rfl⟩
  rw [← hx] at c3
  rw [← hy] at d3
  clear hx hy h3
  obtain ⟨sd, sc⟩ := s3
  simp only at c3 d3
  subst c3 d3
  unfold pForm at h4
  simp only at h4
  split_ifs at h4
  · simp at h4
  simp only [Prod.mk.injEq, and_true] at h4
  subst h4
  unfold pValidate at h5
  split at h5
  · cases h5
  · simp at h5
  rename_i cc hcc
  simp only [Option.some.injEq, Prod.mk.injEq, and_true] at h5
  have hin := congrArg (fun t => t.1) (C33_inputs_kept e fuel true _ cc hcc).1
  simp only [inputs, pMisc, pDegrees, pMesh, pPaths, hn', Option.getD_none] at hin
  subst h5
  refine ⟨hin, rfl, ?_⟩
  simp only [pFetch, pMisc, pDegrees, pMesh, pPaths, hn']

/-! ### C72 -/

/-- **C72 (violated).** The derivation of the box from the catalogue never succeeds: whenever a
side is unset it raises a `TypeError` and leaves the parameter set without a box. -/
theorem C72_derived_box_violated (bounds : Fin 3 → K × K) (s : PySet K) (h : ∃ i, s.d.box i = none) :
    deriveBox bounds s = some (s, some .typeError) := by
  unfold deriveBox
  rw [if_pos h]

/-- **C72 (violated).** Even with spans in place of bounds, the derived box would be written into
the dictionary only: the C++ parameters used for the measurement keep their box. -/
theorem C72_derived_spans_violated (e : Env K) (fuel : ℕ) (bounds : Fin 3 → K × K) (s s' : PySet K)
    (h : deriveBoxSpans e fuel bounds s = some (s', none)) : s'.c.box = s.c.box := by
  unfold deriveBoxSpans at h
  split_ifs at h
  · unfold pValidate at h
    split at h
    · cases h
    · simp at h
    rename_i cc hcc
    simp only [Option.some.injEq, Prod.mk.injEq, and_true] at h
    have hin := congrArg (fun t => t.1) (C33_inputs_kept e fuel false _ cc hcc).1
    subst h
    exact hin
  · simp only [Option.some.injEq, Prod.mk.injEq, and_true] at h
    rw [h]

/-! ### C73 -/

/-- **C73 (violated).** A dictionary with a box and a cutoff but no mesh (and without the derived
entry `space`) is always rejected, with a `KeyError`, or by an earlier check. -/
theorem C73_cutoff_violated (e : Env K) (fuel : ℕ) (d : Dict K) (b : Fin 3 → K)
    (hb : ∀ i, d.box i = some (b i)) (hv : 0 < b 0 * b 1 * b 2) (hn : ∃ i, d.ngrid i = none)
    (hs : d.space = none) : ∃ s x, construct e fuel d = some (s, some x) := by
  obtain ⟨g, g1, g2⟩ := all3_some (f := d.box) (fun i => by rw [hb i]; rfl)
  have hg : g = b := by
    funext i
    have := g2 i
    rw [hb i] at this
    exact (Option.some.inj this).symm
  subst hg
  have hn' := all3_none hn
  unfold construct pParse
  cases h : pRange (pDegrees (pMesh (pPaths { d := d, c := Params.default }))) with
  | mk s1 x =>
    cases x with
    | some x => exact ⟨_, _, rfl⟩
    | none =>
      have hd1 : s1.d = (pDegrees (pMesh (pPaths { d := d, c := Params.default }))).d := by
        unfold pRange at h
        split at h <;> (cases h <;> rfl)
      simp only
      cases h2 : pBins s1 with
      | mk s2 x =>
        cases x with
        | some x => exact ⟨_, _, rfl⟩
        | none =>
          have hd2 : s2.d = s1.d := by
            unfold pBins at h2
            split at h2 <;> (cases h2 <;> rfl)
          simp only
          have e1 : s2.d.nmesh = 0 := by
            rw [hd2, hd1]; simp only [pDegrees, pMesh, pPaths, hn']
          have e2 : s2.d.volume = g 0 * g 1 * g 2 := by
            rw [hd2, hd1]; simp only [pDegrees, pMesh, pPaths, g1]
          have e3 : all3 s2.d.box = some g := by
            rw [hd2, hd1]; simp only [pDegrees, pMesh, pPaths, g1]
          have e4 : s2.d.space = none := by
            rw [hd2, hd1]; simp only [pDegrees, pMesh, pPaths, hs]
          have : ∃ s3 x, pCutoff e s2 = (s3, some x) := by
            unfold pCutoff
            rw [if_pos e1]
            cases s2.d.cutoff with
            | none => exact ⟨_, _, rfl⟩
            | some c =>
              simp only [e3, e2, if_pos hv, pNgrid, e4]
              exact ⟨_, _, rfl⟩
          obtain ⟨s3, x, h3⟩ := this
          rw [h3]
          exact ⟨_, _, rfl⟩

end

/-- A dictionary for examples. -/
def exDict : Dict ℚ :=
  { catDir := none, measDir := none, dataFile := none, randFile := none, tag := some "_t".toList,
    box := fun _ => some 1000, ngrid := fun _ => some 64, expand := some 1, padfactor := none,
    alignment := some "Centre", padscale := some "box", assignment := some "TSC",
    interlace := some "False", volume := 0, nmesh := 0, ell1 := some 0, ell2 := some 0,
    ELL := some 0, iWa := none, jWa := none, binMin := some (1 / 100), binMax := some (1 / 10),
    numBins := some 9, idxBin := none, cutoff := none, catType := some "sim",
    statType := some "powspec", form := some "diag", norm := some "particle", binning := some "lin",
    assignOrder := none, space := none, npoint := none, scheme := some "measure",
    wisdom := some "False".toList, verbose := some 20, progbar := none }

/-- An accepted construction, then an accepted unsetting of the box which leaves the C++ box and
volume as they were. -/
theorem C35_diverge_violated : ∃ s s' : PySet ℚ,
    construct (exEnv true) 1 exDict = some (s, none) ∧
    assign (exEnv true) 1 (fun d => { d with box := fun _ => none }) s = some (s', none) ∧
    s'.d.volume = 0 ∧ s'.c.volume = 1000000000 := by
  have hk : (match construct (exEnv true) 1 exDict with
    | some (s, none) => (match assign (exEnv true) 1 (fun d => { d with box := fun _ => none }) s with
      | some (s', none) => decide (s'.d.volume = 0 ∧ s'.c.volume = 1000000000) | _ => false)
    | _ => false) = true := by decide +kernel
  cases h1 : construct (exEnv true) 1 exDict with
  | none => rw [h1] at hk; cases hk
  | some y =>
    obtain ⟨s, x⟩ := y
    rw [h1] at hk
    cases x with
    | some x => cases hk
    | none =>
      simp only at hk
      cases h2 : assign (exEnv true) 1 (fun d => { d with box := fun _ => none }) s with
      | none => rw [h2] at hk; cases hk
      | some y =>
        obtain ⟨s', x⟩ := y
        rw [h2] at hk
        cases x with
        | some x => cases hk
        | none => exact ⟨s, s', rfl, h2, of_decide_eq_true hk⟩

/-- The same dictionary with a cutoff in place of the mesh is rejected with a `KeyError`. -/
example : (match construct (exEnv true) 1
      { exDict with ngrid := fun _ => none, cutoff := some (1 / 10) } with
    | some (_, some .keyError) => true | _ => false) = true := by decide +kernel

/-- A set without a box is accepted; deriving it raises an error; with spans it would be accepted
and the C++ volume would stay zero. -/
example : (match construct (exEnv true) 1 { exDict with box := fun _ => none } with
    | some (s, none) => (match deriveBox (fun _ => (-100, 400)) s with
      | some (_, some .typeError) => true | _ => false) && (match deriveBoxSpans (exEnv true) 1 (fun _ => (-100, 400)) s with
      | some (s', none) => decide (s'.d.box 0 = some 500 ∧ s'.c.box 0 = 0 ∧ s'.c.volume = 0) | _ => false)
    | _ => false) = true := by decide +kernel

end Trv.Par

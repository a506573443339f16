import Verif.Spec.ParamsMod
import Verif.Props.ParamsPy
/-
Lemmas on overriding parameters.
-/
set_option linter.unusedSectionVars false
namespace Trv.Par
open Trv.Mon

section
variable {K : Type} [Field K] [LinearOrder K] [IsStrictOrderedRing K] [FloorRing K] {σ : Type}

theorem kept_congr_ngrid (d : Dict K) (n : Fin 3 → Option ℤ) :
    kept { d with ngrid := n } = kept d := rfl

/-- Parsing does not rewrite the entries, even when it fails. -/
theorem pParse_kept {e : Env K} {fuel : ℕ} {s s' : PySet K} {x : Option PyErr}
    (h : pParse e fuel s = some (s', x)) : kept s'.d = kept s.d := by
  have hr : ∀ s s' : PySet K, ∀ x, pRange s = (s', x) → s'.d = s.d := by
    intro s s' x h
    unfold pRange at h
    split at h <;> (cases h; rfl)
  have hb : ∀ s s' : PySet K, ∀ x, pBins s = (s', x) → s'.d = s.d := by
    intro s s' x h
    unfold pBins at h
    split at h <;> (cases h; rfl)
  have hf : ∀ s s' : PySet K, ∀ x, pForm s = (s', x) → s'.d = s.d := by
    intro s s' x h
    unfold pForm at h
    simp only at h
    split_ifs at h <;> (cases h; rfl)
  unfold pParse at h
  split at h
  · rename_i s1 y h1
    cases h
    rw [hr _ _ _ h1]; rfl
  rename_i s1 h1
  have k1 : kept s1.d = kept s.d := by rw [hr _ _ _ h1]; rfl
  split at h
  · rename_i s2 y h2
    cases h
    rw [hb _ _ _ h2]; exact k1
  rename_i s2 h2
  have k2 : kept s2.d = kept s.d := by rw [hb _ _ _ h2]; exact k1
  split at h
  · rename_i s3 y h3
    cases h
    rw [(pCutoff_frame h3).2]; exact k2
  rename_i s3 h3
  have k3 : kept s3.d = kept s.d := by rw [(pCutoff_frame h3).2]; exact k2
  split at h
  · rename_i s4 y h4
    cases h
    rw [hf _ _ _ h4]; exact k3
  rename_i s4 h4
  have k4 : kept s4.d = kept s.d := by rw [hf _ _ _ h4]; exact k3
  unfold pValidate at h
  split at h
  · cases h
  · cases h; exact k4
  · cases h; exact k4

/-- An object whose assignments change the entries as told. -/
structure Tame (t : Target K σ) : Prop where
  set : ∀ f s s', t.set f s = some (s', none) → kept (t.dict s') = kept (f (t.dict s))
  nested : ∀ f s, t.dict (t.nested f s) = f (t.dict s)

theorem tame_dict : Tame (dictTarget : Target K (Dict K)) where
  set := by intro f s s' h; cases h; rfl
  nested _ _ := rfl

theorem tame_set (e : Env K) (fuel : ℕ) : Tame (setTarget e fuel) where
  set f s s' h := pParse_kept (s := { s with d := f s.d }) h
  nested _ _ := rfl

theorem sets_append (t : Target K σ) (l l' : List (Dict K → Dict K)) (s s' : σ)
    (h : t.sets (l ++ l') s = some (s', none)) :
    ∃ s1, t.sets l s = some (s1, none) ∧ t.sets l' s1 = some (s', none) := by
  induction l generalizing s with
  | nil => exact ⟨s, rfl, h⟩
  | cons f l ih =>
    simp only [List.cons_append, Target.sets] at h ⊢
    generalize t.set f s = r at h ⊢
    rcases r with _ | ⟨s2, _ | x⟩
    · cases h
    · exact ih s2 h
    · cases h

theorem sets_edit {t : Target K σ} (ht : Tame t) {α : Type} (o : Option α)
    (f : α → Dict K → Dict K) (U : Kept K → Kept K)
    (h0 : o = none → ∀ k, U k = k) (h1 : ∀ a, o = some a → ∀ d, kept (f a d) = U (kept d))
    (s s' : σ) (h : t.sets (edit o f) s = some (s', none)) :
    kept (t.dict s') = U (kept (t.dict s)) := by
  cases o with
  | none =>
    cases h
    exact (h0 rfl _).symm
  | some a =>
    simp only [edit, Target.sets] at h
    generalize hr : t.set (f a) s = r at h
    rcases r with _ | ⟨s2, _ | x⟩
    · cases h
    · cases h
      rw [ht.set _ _ _ hr, h1 a rfl]
    · cases h

/-- The first sampling overrides. -/
theorem sampling1_kept {t : Target K σ} (ht : Tame t) (m : Sampling K) (s s' : σ)
    (h : t.sets (sampling1 m) s = some (s', none)) :
    kept (t.dict s') = { kept (t.dict s) with
      expand := m.expand.or (kept (t.dict s)).expand,
      alignment := m.alignment.or (kept (t.dict s)).alignment } := by
  obtain ⟨s1, h1, h2⟩ := sets_append _ _ _ _ _ h
  have e1 := sets_edit ht m.expand _ (fun k => { k with expand := m.expand.or k.expand })
    (by intro h k; simp [h]) (by intro a h d; simp only [h]; rfl) _ _ h1
  have e2 := sets_edit ht m.alignment _ (fun k => { k with alignment := m.alignment.or k.alignment })
    (by intro h k; simp [h]) (by intro a h d; simp only [h]; rfl) _ _ h2
  rw [e2, e1]

/-- The other sampling overrides. -/
theorem sampling2_kept {t : Target K σ} (ht : Tame t) (m : Sampling K) (s s' : σ)
    (h : t.sets (sampling2 m) s = some (s', none)) :
    kept (t.dict s') = { kept (t.dict s) with
      box := (match m.boxsize with | some b => fun i => some (b i) | none => (kept (t.dict s)).box),
      padfactor := m.gridpad.or (m.boxpad.or (kept (t.dict s)).padfactor),
      padscale := newScale m (kept (t.dict s)).padscale,
      assignment := m.assignment.or (kept (t.dict s)).assignment,
      cutoff := m.cutoff.or (kept (t.dict s)).cutoff } := by
  unfold sampling2 at h
  obtain ⟨s8, h, h9⟩ := sets_append _ _ _ _ _ h
  obtain ⟨s7, h, h8⟩ := sets_append _ _ _ _ _ h
  obtain ⟨s6, h, h7⟩ := sets_append _ _ _ _ _ h
  obtain ⟨s5, h, h6⟩ := sets_append _ _ _ _ _ h
  obtain ⟨s4, h, h5⟩ := sets_append _ _ _ _ _ h
  obtain ⟨s3, h, h4⟩ := sets_append _ _ _ _ _ h
  obtain ⟨s2, h, h3⟩ := sets_append _ _ _ _ _ h
  obtain ⟨s1, h1, h2⟩ := sets_append _ _ _ _ _ h
  have e1 := sets_edit ht m.boxpad _ (fun k => { k with
      padscale := if m.boxpad.isSome then some "box" else k.padscale })
    (by intro h k; simp [h]) (by intro a h d; simp only [h]; rfl) _ _ h1
  have e2 := sets_edit ht m.boxpad _ (fun k => { k with padfactor := m.boxpad.or k.padfactor })
    (by intro h k; simp [h]) (by intro a h d; simp only [h]; rfl) _ _ h2
  have e3 := sets_edit ht m.gridpad _ (fun k => { k with
      padscale := if m.gridpad.isSome then some "grid" else k.padscale })
    (by intro h k; simp [h]) (by intro a h d; simp only [h]; rfl) _ _ h3
  have e4 := sets_edit ht m.gridpad _ (fun k => { k with padfactor := m.gridpad.or k.padfactor })
    (by intro h k; simp [h]) (by intro a h d; simp only [h]; rfl) _ _ h4
  have e5 := sets_edit ht m.boxsize _ (fun k => { k with
      box := match m.boxsize with | some b => fun i => some (b i) | none => k.box })
    (by intro h k; simp [h]) (by intro a h d; simp only [h]; rfl) _ _ h5
  have e6 := sets_edit ht m.ngrid _ (fun k => k) (by intro h k; rfl) (by intro a h d; rfl) _ _ h6
  have e7 := sets_edit ht m.assignment _ (fun k => { k with assignment := m.assignment.or k.assignment })
    (by intro h k; simp [h]) (by intro a h d; simp only [h]; rfl) _ _ h7
  have e8 := sets_edit ht m.interlace _ (fun k => k) (by intro h k; rfl) (by intro a h d; rfl) _ _ h8
  have e9 := sets_edit ht m.cutoff _ (fun k => { k with cutoff := m.cutoff.or k.cutoff })
    (by intro h k; simp [h]) (by intro a h d; simp only [h]; rfl) _ _ h9
  clear h h1 h2 h3 h4 h5 h6 h7 h8 h9
  generalize kept (t.dict s) = k0 at e1 ⊢
  generalize kept (t.dict s1) = k1 at e1 e2
  generalize kept (t.dict s2) = k2 at e2 e3
  generalize kept (t.dict s3) = k3 at e3 e4
  generalize kept (t.dict s4) = k4 at e4 e5
  generalize kept (t.dict s5) = k5 at e5 e6
  generalize kept (t.dict s6) = k6 at e6 e7
  generalize kept (t.dict s7) = k7 at e7 e8
  generalize kept (t.dict s8) = k8 at e8 e9
  rw [e9]
  subst e8 e7
  subst e6 e5
  subst e4 e3
  subst e2 e1
  rfl

theorem kept_measureNested (q : Measure K) (d : Dict K) :
    kept (measureNested q d) = { kept d with
      ell1 := q.ell1.or d.ell1, ell2 := q.ell2.or d.ell2, ELL := q.ELL.or d.ELL,
      iWa := q.iWa.or d.iWa, jWa := q.jWa.or d.jWa } := rfl

theorem kept_measureRange (q : Measure K) (d : Dict K) :
    kept (measureRange q d) = { kept d with
      binMin := q.binMin.or (kept d).binMin, binMax := q.binMax.or (kept d).binMax } := rfl

/-- The measurement overrides. -/
theorem measure_kept {t : Target K σ} (ht : Tame t) (q : Measure K) (s s' : σ)
    (h : modifyMeasure t q s = some (s', none)) :
    kept (t.dict s') = { kept (t.dict s) with
      ell1 := q.ell1.or (kept (t.dict s)).ell1, ell2 := q.ell2.or (kept (t.dict s)).ell2,
      ELL := q.ELL.or (kept (t.dict s)).ELL, iWa := q.iWa.or (kept (t.dict s)).iWa,
      jWa := q.jWa.or (kept (t.dict s)).jWa, binMin := q.binMin.or (kept (t.dict s)).binMin,
      binMax := q.binMax.or (kept (t.dict s)).binMax, numBins := q.numBins.or (kept (t.dict s)).numBins,
      idxBin := q.idxBin.or (kept (t.dict s)).idxBin, form := q.form.or (kept (t.dict s)).form } := by
  unfold modifyMeasure at h
  split at h
  · cases h
  · cases h
  · rename_i r h0 s2 h12
    obtain ⟨s1, h1, h2⟩ := sets_append _ _ _ _ _ h12
    have e1 := sets_edit ht q.idxBin _ (fun k => { k with idxBin := q.idxBin.or k.idxBin })
      (by intro h k; simp [h]) (by intro a h d; simp only [h]; rfl) _ _ h1
    have e2 := sets_edit ht q.form _ (fun k => { k with form := q.form.or k.form })
      (by intro h k; simp [h]) (by intro a h d; simp only [h]; rfl) _ _ h2
    have e3 := sets_edit ht q.numBins _ (fun k => { k with numBins := q.numBins.or k.numBins })
      (by intro h k; simp [h]) (by intro a h d; simp only [h]; rfl) _ _ h
    rw [e3, ht.nested, kept_measureRange, e2, e1, ht.nested, kept_measureNested]
    rfl

/-- Overrides of an object, once accepted, are all in effect. -/
theorem amalgamate_kept {t : Target K σ} (ht : Tame t) (m : Option (Sampling K)) (q : Measure K)
    (cat stat : Option String) (s s' : σ)
    (h : amalgamate t m q cat stat s = some (s', none)) :
    kept (t.dict s') = override (m.getD {}) q cat stat (kept (t.dict s)) := by
  have hm : ∀ (s1 : σ),
      optSampling t m s = some (s1, none) →
      kept (t.dict s1) = override (m.getD {}) {} none none (kept (t.dict s)) := by
    intro s1 h1
    cases m with
    | none => cases h1; rfl
    | some m =>
      simp only [optSampling, modifySampling] at h1
      split at h1
      · cases h1
      · cases h1
      · rename_i s0 h0
        split_ifs at h1
        · cases h1
        rw [sampling2_kept ht m _ _ h1, sampling1_kept ht m _ _ h0]
        rfl
  unfold amalgamate at h
  revert h
  generalize hr : optSampling t m s = r
  intro h
  rcases r with _ | ⟨s1, _ | x⟩
  · cases h
  · simp only at h
    have k1 := hm s1 hr
    generalize hr2 : modifyMeasure t q s1 = r at h
    rcases r with _ | ⟨s2, _ | x⟩
    · cases h
    · simp only at h
      rw [ht.set _ _ _ h]
      have k2 := measure_kept ht q _ _ hr2
      have : kept (setTypes cat stat (t.dict s2)) = { kept (t.dict s2) with
          catType := cat.or (kept (t.dict s2)).catType,
          statType := stat.or (kept (t.dict s2)).statType } := rfl
      rw [this, k2, k1]
      rfl
    · cases h
  · cases h

/-- Assignments to a dictionary never fail. -/
theorem dict_sets (l : List (Dict K → Dict K)) (d : Dict K) :
    (dictTarget : Target K (Dict K)).sets l d = some (l.foldl (fun d f => f d) d, none) := by
  induction l generalizing d with
  | nil => rfl
  | cons f l ih => exact ih (f d)

/-- The dictionary of `record_binned_vectors`. -/
def recordDict (bins : K × K × ℤ) (box : Fin 3 → K) (ng : Fin 3 → ℤ) : Dict K :=
  { (template : Dict K) with
    binMin := some bins.1, binMax := some bins.2.1,
    numBins := some bins.2.2, ell1 := some 0, ell2 := some 0, ELL := some 0,
    box := fun i => some (box i), ngrid := fun i => some (ng i) }

theorem lower_false : lower "False" = "false" := by decide +kernel
theorem lower_centre : lower "centre" = "centre" := by decide +kernel
theorem lower_box : lower "box" = "box" := by decide +kernel
theorem lower_tsc : lower "tsc" = "tsc" := by decide +kernel
theorem lower_diag : lower "diag" = "diag" := by decide +kernel
theorem lower_particle : lower "particle" = "particle" := by decide +kernel
theorem lower_lin : lower "lin" = "lin" := by decide +kernel
theorem lower_empty : lower "" = "" := by decide +kernel
theorem lowerS_false : lowerS "False".toList = "false".toList := by decide +kernel

/-- The C++ parameters before they are validated. -/
def recordCpp (bins : K × K × ℤ) (box : Fin 3 → K) (ng : Fin 3 → ℤ) : Params K :=
  { (Params.default : Params K) with
    box := ![box 0, box 1, box 2], ngrid := ![ng 0, ng 1, ng 2], volume := box 0 * box 1 * box 2,
    nmesh := ng 0 * ng 1 * ng 2, binMin := bins.1, binMax := bins.2.1, numBins := bins.2.2,
    wisdom := "false".toList, progbar := "false".toList }

/-- The state after the mesh, the degrees and the range are parsed. -/
def recordState (bins : K × K × ℤ) (box : Fin 3 → K) (ng : Fin 3 → ℤ) : PySet K where
  d := { recordDict bins box ng with
    catDir := some [], measDir := some [], dataFile := some [], randFile := some [], tag := some [],
    volume := box 0 * box 1 * box 2, nmesh := ng 0 * ng 1 * ng 2 }
  c := { (Params.default : Params K) with
    box := ![box 0, box 1, box 2], ngrid := ![ng 0, ng 1, ng 2], volume := box 0 * box 1 * box 2,
    nmesh := ng 0 * ng 1 * ng 2, binMin := bins.1, binMax := bins.2.1 }

def recordState2 (bins : K × K × ℤ) (box : Fin 3 → K) (ng : Fin 3 → ℤ) : PySet K :=
  { recordState bins box ng with
    c := { (recordState bins box ng).c with numBins := bins.2.2 } }

theorem record_validate (e : Env K) (fuel : ℕ) (bins : K × K × ℤ) (box : Fin 3 → K) (ng : Fin 3 → ℤ)
    (hn : ng 0 * ng 1 * ng 2 ≠ 0) : ∃ d, 
    recordParams e fuel bins (some box) (some ng) = pValidate e fuel true ⟨d, recordCpp bins box ng⟩ := by
  refine ⟨{ recordDict bins box ng with
    catDir := some [], measDir := some [], dataFile := some [], randFile := some [], tag := some [],
    volume := box 0 * box 1 * box 2, nmesh := ng 0 * ng 1 * ng 2 }, ?_⟩
  have h0 : recordParams e fuel bins (some box) (some ng) = construct e fuel (recordDict bins box ng) := rfl
  rw [h0]
  have h1 : pRange (pDegrees (pMesh (pPaths ⟨recordDict bins box ng, Params.default⟩)))
      = (recordState bins box ng, none) := by
    simp only [recordState, pPaths, pMesh, pDegrees, pRange, all3,
      recordDict, template, Option.map_some, Option.getD_some, lower_false, lower_centre, lower_box,
      lower_tsc, Option.getD_none, Params.default]
    rfl
  have h2 : pBins (recordState bins box ng) = (recordState2 bins box ng, none) := rfl
  have h3 : pCutoff e (recordState2 bins box ng) = (recordState2 bins box ng, none) := if_neg hn
  have h4 : pForm (recordState2 bins box ng) = (recordState2 bins box ng, none) := by
    have : ((recordState2 bins box ng).d.form.map lower).getD (recordState2 bins box ng).c.form = "diag" :=
      lower_diag
    unfold pForm
    simp only [this]
    rw [if_neg]
    · rfl
    · rintro ⟨h | h, -⟩ <;> simp [recordState2, recordState, recordDict, template] at h
  unfold construct pParse
  rw [h1]; simp only
  rw [h2]; simp only
  rw [h3]; simp only
  rw [h4]; simp only
  congr 1

theorem record_pre (e : Env K) (he : e.extcall = true) (bins : K × K × ℤ) (box : Fin 3 → K)
    (ng : Fin 3 → ℤ) : ∃ q, pre e true (recordCpp bins box ng) = .ok q := by
  unfold pre
  simp [recordCpp, Params.default, vDirs, vFiles, vMesh, vStat, vForm, vFftw, vDerive, vBvec, he, statOf,
    orderOf, interlaceOf, schemeOf, wisdomOf, bind, Except.bind]
  cases e.gpu <;> simp [expandVars_nil]
theorem record_post (dflt : Str) (q : Params K) (bins : K × K × ℤ) (h1 : q.alignment = "centre")
    (h2 : q.binMin = bins.1) (h3 : q.binMax = bins.2.1) (h4 : q.numBins = bins.2.2)
    (h5 : q.idxBin = 0) (h6 : q.binning = "lin") :
    (∃ r, post dflt q = .ok r) ↔ 0 ≤ bins.1 ∧ bins.1 < bins.2.1 ∧ 2 ≤ bins.2.2 := by
  have hp : padOk q := by intro h; rw [h1] at h; exact absurd h (by decide)
  unfold post
  rw [if_neg (not_not.2 hp), h2, h3, h4, h5, h6]
  by_cases a1 : bins.1 < 0
  · rw [if_pos a1]
    constructor
    · rintro ⟨r, h⟩; cases h
    · rintro ⟨h, -⟩; exact absurd a1 (not_lt.2 h)
  · rw [if_neg a1]
    by_cases a2 : bins.2.1 ≤ bins.1
    · rw [if_pos a2]
      constructor
      · rintro ⟨r, h⟩; cases h
      · rintro ⟨-, h, -⟩; exact absurd a2 (not_le.2 h)
    · rw [if_neg a2]
      by_cases a3 : bins.2.2 < 2
      · rw [if_pos a3]
        constructor
        · rintro ⟨r, h⟩; cases h
        · rintro ⟨-, -, h⟩; omega
      · rw [if_neg a3, if_neg (by simp), if_neg (by simp), if_neg (by simp; omega)]
        constructor
        · intro _; exact ⟨not_lt.1 a1, not_le.1 a2, by omega⟩
        · intro _; exact ⟨_, rfl⟩

theorem record_iff (e : Env K) (he : e.extcall = true) (fuel : ℕ) (bins : K × K × ℤ) (box : Fin 3 → K)
    (ng : Fin 3 → ℤ) (hn : 0 < ng 0 * ng 1 * ng 2) : ∃ s x,
    recordParams e (fuel + 1) bins (some box) (some ng) = some (s, x) ∧
    (x = none ↔ 0 ≤ bins.1 ∧ bins.1 < bins.2.1 ∧ 2 ≤ bins.2.2) ∧ (x = none ∨ x = some .valueError) := by
  obtain ⟨d, hd⟩ := record_validate e (fuel + 1) bins box ng hn.ne'
  obtain ⟨q, hq⟩ := record_pre e he bins box ng
  obtain ⟨i1, i2, i3, i4, -⟩ := pre_frame hq
  have hm : q.nmesh = ng 0 * ng 1 * ng 2 := (pre_nmesh hq).1.trans rfl
  have hi := pre_inputs hq
  simp only [inputs, Prod.mk.injEq] at hi
  obtain ⟨-, -, -, -, j5, j6, j7, j8, -, -, -, -, -, j14, -, -, -, -, -, -, j21, -⟩ := hi
  have hpost := record_post (bvecDefault q) q bins j14 j5 j6 j7 j8 j21
  have hv : validate e (fuel + 1) true (recordCpp bins box ng) = some (post (bvecDefault q) q) := by
    unfold validate
    rw [hq]
    simp only
    rw [if_neg (by omega)]
  rw [hd]
  unfold pValidate
  simp only [hv]
  cases hr : post (bvecDefault q) q with
  | error x => 
    rw [hr] at hpost
    exact ⟨_, _, rfl, by simpa using hpost, Or.inr rfl⟩
  | ok r =>
    rw [hr] at hpost
    exact ⟨_, _, rfl, by simpa using hpost, Or.inl rfl⟩

end
end Trv.Par

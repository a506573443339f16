import Verif.Lemmas.Params
import Verif.Model.ParamsPy
import Mathlib.Data.Rat.Cast.Order
import Mathlib.Data.Rat.Floor
import Mathlib.Data.Real.Archimedean
/-
Parameters with rational values are handled as the same parameters with real values.  This carries
examples evaluated with rational numbers over to the theorems on real numbers.
-/
namespace Trv.Par
open Trv.Mon

/-- The same parameters with real values. -/
noncomputable def castP (p : Params ℚ) : Params ℝ :=
  { catDir := p.catDir, measDir := p.measDir, dataFile := p.dataFile, randFile := p.randFile, columns := p.columns,
    dataset := p.dataset, tag := p.tag, box := fun i => (p.box i : ℝ), ngrid := p.ngrid, expand := (p.expand : ℝ),
    cutoff := (p.cutoff : ℝ), alignment := p.alignment, padscale := p.padscale, padfactor := (p.padfactor : ℝ),
    assignment := p.assignment, interlace := p.interlace, volume := (p.volume : ℝ), nmesh := p.nmesh,
    assignOrder := p.assignOrder, catType := p.catType, statType := p.statType, npoint := p.npoint, space := p.space,
    ell1 := p.ell1, ell2 := p.ell2, ELL := p.ELL, iWa := p.iWa, jWa := p.jWa, form := p.form, norm := p.norm,
    shape := p.shape, binning := p.binning, binMin := (p.binMin : ℝ), binMax := (p.binMax : ℝ), numBins := p.numBins,
    idxBin := p.idxBin, scheme := p.scheme, plannerFlag := p.plannerFlag, wisdom := p.wisdom, wisdomF := p.wisdomF,
    wisdomB := p.wisdomB, saveBvec := p.saveBvec, verbose := p.verbose, progbar := p.progbar,
    dataFiles := p.dataFiles, randFiles := p.randFiles }

/-- The same environment. -/
noncomputable def castE (e : Env ℚ) : Env ℝ := ⟨e.pi, e.getenv, e.extcall, e.gpu, e.omp⟩

/-- The same dictionary. -/
noncomputable def castD (d : Dict ℚ) : Dict ℝ :=
  { catDir := d.catDir, measDir := d.measDir, dataFile := d.dataFile, randFile := d.randFile, tag := d.tag,
    box := fun i => (d.box i).map fun x : ℚ => (x : ℝ), ngrid := d.ngrid, expand := d.expand.map fun x : ℚ => (x : ℝ),
    padfactor := d.padfactor.map fun x : ℚ => (x : ℝ), alignment := d.alignment, padscale := d.padscale,
    assignment := d.assignment, interlace := d.interlace, volume := (d.volume : ℝ), nmesh := d.nmesh, ell1 := d.ell1,
    ell2 := d.ell2, ELL := d.ELL, iWa := d.iWa, jWa := d.jWa, binMin := d.binMin.map fun x : ℚ => (x : ℝ),
    binMax := d.binMax.map fun x : ℚ => (x : ℝ), numBins := d.numBins, idxBin := d.idxBin,
    cutoff := d.cutoff.map fun x : ℚ => (x : ℝ), catType := d.catType, statType := d.statType, form := d.form,
    norm := d.norm, binning := d.binning, assignOrder := d.assignOrder, space := d.space, npoint := d.npoint,
    scheme := d.scheme, wisdom := d.wisdom, verbose := d.verbose, progbar := d.progbar }

noncomputable def castS (s : PySet ℚ) : PySet ℝ := ⟨castD s.d, castP s.c⟩

theorem ite_map {α β ε : Type} (f : α → β) (c c' : Prop) [Decidable c] [Decidable c'] (h : c ↔ c')
    (x y : Except ε α) (x' y' : Except ε β) (hx : x' = x.map f) (hy : y' = y.map f) :
    (if c' then x' else y') = (if c then x else y).map f := by
  subst hx hy
  by_cases hc : c
  · rw [if_pos hc, if_pos (h.1 hc)]
  · rw [if_neg hc, if_neg (fun h' => hc (h.2 h'))]

theorem bind_map {α β γ δ ε : Type} (f : α → β) (g : γ → δ) (x : Except ε α) (x' : Except ε β) (k : α → Except ε γ)
    (k' : β → Except ε δ) (hx : x' = x.map f) (hk : ∀ a, k' (f a) = (k a).map g) :
    (x' >>= k') = (x >>= k).map g := by
  subst hx
  cases x with
  | error _ => rfl
  | ok a => exact hk a

theorem vFiles_cast (e : Env ℚ) (init : Bool) (p : Params ℚ) :
    vFiles (castE e) init (castP p) = (vFiles e init p).map castP := by
  unfold vFiles
  refine ite_map _ _ _ Iff.rfl _ _ _ _ rfl (ite_map _ _ _ Iff.rfl _ _ _ _ rfl (ite_map _ _ _ Iff.rfl _ _ _ _ rfl
    (ite_map _ _ _ Iff.rfl _ _ _ _ rfl (ite_map _ _ _ Iff.rfl _ _ _ _ rfl rfl))))

theorem vMesh_cast (p : Params ℚ) : vMesh (castP p) = (vMesh p).map castP := by
  unfold vMesh
  refine ite_map _ _ _ Iff.rfl _ _ _ _ rfl (ite_map _ _ _ Iff.rfl _ _ _ _ rfl ?_)
  refine bind_map id _ _ _ _ _ ?_ fun o => bind_map id _ _ _ _ _ ?_ fun i => rfl
  · show orderOf p.assignment = _
    cases orderOf p.assignment <;> rfl
  · show interlaceOf p.interlace = _
    cases interlaceOf p.interlace <;> rfl

theorem vStat_cast (e : Env ℚ) (p : Params ℚ) : vStat (castE e) (castP p) = (vStat e p).map castP := by
  unfold vStat
  show (match statOf e.extcall p.statType p.catType with
    | .error x => .error x
    | .ok none => .ok (castP p)
    | .ok (some (n, s)) => .ok { castP p with npoint := n, space := s } : Except CppErr (Params ℝ)) = _
  rcases statOf e.extcall p.statType p.catType with x | _ | ⟨n, s⟩ <;> rfl

theorem vForm_cast (p : Params ℚ) : vForm (castP p) = (vForm p).map castP := by
  unfold vForm
  exact ite_map _ _ _ Iff.rfl _ _ _ _ rfl (ite_map _ _ _ Iff.rfl _ _ _ _ rfl (ite_map _ _ _ Iff.rfl _ _ _ _ rfl
    (ite_map _ _ _ Iff.rfl _ _ _ _ rfl rfl)))

theorem vFftw_cast (e : Env ℚ) (init : Bool) (p : Params ℚ) :
    vFftw (castE e) init (castP p) = (vFftw e init p).map castP := by
  unfold vFftw
  refine bind_map id _ _ _ _ _ ?_ fun o => ?_
  · show schemeOf e.gpu p.scheme p.plannerFlag = _
    cases schemeOf e.gpu p.scheme p.plannerFlag <;> rfl
  · exact ite_map _ _ _ Iff.rfl _ _ _ _ rfl (ite_map _ _ _ Iff.rfl _ _ _ _ rfl rfl)

theorem vDerive_cast (p : Params ℚ) : vDerive (castP p) = (vDerive p).map castP := by
  unfold vDerive
  have e : (castP p).box 0 * (castP p).box 1 * (castP p).box 2 = ((p.box 0 * p.box 1 * p.box 2 : ℚ) : ℝ) := by
    simp [castP]
  simp only [e]
  refine ite_map _ _ _ ?_ _ _ _ _ rfl rfl
  have : (castP p).expand = ((p.expand : ℚ) : ℝ) := rfl
  rw [this]
  norm_cast

theorem pre_cast (e : Env ℚ) (init : Bool) (p : Params ℚ) : pre (castE e) init (castP p) = (pre e init p).map castP := by
  unfold pre
  exact bind_map castP _ _ _ _ _ (vFiles_cast e init (vDirs e init p)) fun a =>
    bind_map castP _ _ _ _ _ (vMesh_cast a) fun b => bind_map castP _ _ _ _ _ (vStat_cast e b) fun c =>
    bind_map castP _ _ _ _ _ (vForm_cast c) fun d => bind_map castP _ _ _ _ _ (vFftw_cast e init d) fun f =>
    vDerive_cast (vBvec e init f)

theorem padOk_cast (p : Params ℚ) : padOk p ↔ padOk (castP p) := by
  have : ∀ n : ℤ, ((n : ℝ) ≤ (p.padfactor : ℝ)) ↔ (n : ℚ) ≤ p.padfactor := fun n => by norm_cast
  simp only [padOk, castP, this]
  norm_cast

theorem post_cast (dflt : Str) (p : Params ℚ) : post dflt (castP p) = (post dflt p).map castP := by
  unfold post
  refine ite_map _ _ _ (not_congr (padOk_cast p)) _ _ _ _ rfl (ite_map _ _ _ ?_ _ _ _ _ rfl
    (ite_map _ _ _ ?_ _ _ _ _ rfl (ite_map _ _ _ Iff.rfl _ _ _ _ rfl (ite_map _ _ _ Iff.rfl _ _ _ _ rfl
    (ite_map _ _ _ Iff.rfl _ _ _ _ rfl (ite_map _ _ _ Iff.rfl _ _ _ _ rfl rfl))))))
  · simp only [castP]; norm_cast
  · simp only [castP]; norm_cast

/-- Validation with a mesh which is set. -/
theorem validate_cast (e : Env ℚ) (fuel : ℕ) (init : Bool) (p q : Params ℚ)
    (h : validate e (fuel + 1) init p = some (.ok q)) (hm : 0 < p.ngrid 0 * p.ngrid 1 * p.ngrid 2) :
    validate (castE e) (fuel + 1) init (castP p) = some (.ok (castP q)) := by
  unfold validate at h ⊢
  rw [pre_cast]
  cases hp : pre e init p with
  | error x => rw [hp] at h; cases h
  | ok r =>
    rw [hp] at h
    have hn : r.nmesh = p.ngrid 0 * p.ngrid 1 * p.ngrid 2 := by
      obtain ⟨_, _, _, _, _, _, _, _, _, _, h6⟩ := pre_steps hp
      rw [(vDerive_frame h6).1, ← (pre_frame hp).2.1]
      rw [(vDerive_frame h6).1]
    have hr : ¬ r.nmesh ≤ 0 := by rw [hn]; exact not_le.2 hm
    simp only [Except.map] at h ⊢
    rw [if_neg hr, Option.some.injEq] at h
    rw [if_neg (show ¬ (castP r).nmesh ≤ 0 from hr)]
    show some (post (bvecDefault r) (castP r)) = _
    rw [post_cast, h]
    rfl

theorem all3_map {α β : Type} (g : α → β) (f : Fin 3 → Option α) :
    all3 (fun i => (f i).map g) = (all3 f).map fun v i => g (v i) := by
  unfold all3
  simp only
  generalize f 0 = x
  generalize f 1 = y
  generalize f 2 = z
  rcases x with _ | a <;> rcases y with _ | b <;> rcases z with _ | c <;> try rfl
  simp only [Option.map_some, Option.some.injEq]
  exact funext fun i : Fin 3 => match i with
    | 0 => rfl
    | 1 => rfl
    | 2 => rfl

theorem getD_map {α β : Type} (g : α → β) (o : Option α) (x : α) : (o.map g).getD (g x) = g (o.getD x) := by
  cases o <;> rfl

theorem pMesh_cast (s : PySet ℚ) : pMesh (castS s) = castS (pMesh s) := by
  have hb : all3 (castS s).d.box = (all3 s.d.box).map fun v i => ((v i : ℚ) : ℝ) :=
    all3_map (fun x : ℚ => (x : ℝ)) s.d.box
  have hn : (castS s).d.ngrid = s.d.ngrid := rfl
  have e1 : (castS s).d.expand.getD (castS s).c.expand = ((s.d.expand.getD s.c.expand : ℚ) : ℝ) :=
    getD_map (fun x : ℚ => (x : ℝ)) s.d.expand s.c.expand
  have e2 : (castS s).d.padfactor.getD (castS s).c.padfactor = ((s.d.padfactor.getD s.c.padfactor : ℚ) : ℝ) :=
    getD_map (fun x : ℚ => (x : ℝ)) s.d.padfactor s.c.padfactor
  unfold pMesh
  simp only [hb, hn, e1, e2]
  cases all3 s.d.box with
  | none =>
    simp only [castS, castD, castP, Option.map_none, Option.getD_none, Rat.cast_zero]
  | some b =>
    simp only [castS, castD, castP, Option.map_some, Option.getD_some, Rat.cast_mul]

theorem pRange_cast {s s' : PySet ℚ} (h : pRange s = (s', none)) : pRange (castS s) = (castS s', none) := by
  unfold pRange at h ⊢
  have e1 : (castS s).d.binMin = s.d.binMin.map fun x : ℚ => (x : ℝ) := rfl
  have e2 : (castS s).d.binMax = s.d.binMax.map fun x : ℚ => (x : ℝ) := rfl
  rw [e1, e2]
  rcases ha : s.d.binMin with _ | a <;> rcases hb : s.d.binMax with _ | b <;> rw [ha, hb] at h <;> simp at h
  subst h
  rfl

theorem pBins_cast {s s' : PySet ℚ} (h : pBins s = (s', none)) : pBins (castS s) = (castS s', none) := by
  unfold pBins at h ⊢
  have e1 : (castS s).d.numBins = s.d.numBins := rfl
  rw [e1]
  rcases ha : s.d.numBins with _ | a <;> rw [ha] at h <;> simp at h
  subst h
  rfl

theorem pForm_cast {s s' : PySet ℚ} (h : pForm s = (s', none)) : pForm (castS s) = (castS s', none) := by
  unfold pForm at h ⊢
  by_cases hc : (s.d.form = some "off-diag" ∨ s.d.form = some "row") ∧ s.d.idxBin = none
  · simp only at h
    rw [if_pos hc] at h
    simp at h
  · simp only at h ⊢
    rw [if_neg hc] at h
    rw [if_neg (show ¬ (((castS s).d.form = some "off-diag" ∨ (castS s).d.form = some "row") ∧
      (castS s).d.idxBin = none) from hc)]
    simp only [Prod.mk.injEq, and_true] at h
    subst h
    rfl

/-- A dictionary accepted with rational values and a mesh is accepted with the same real values. -/
theorem pParse_cast (e : Env ℚ) (fuel : ℕ) (s s' : PySet ℚ) (h : pParse e (fuel + 1) s = some (s', none))
    (n : Fin 3 → ℤ) (hn : all3 s.d.ngrid = some n) (hm : 0 < n 0 * n 1 * n 2) :
    pParse (castE e) (fuel + 1) (castS s) = some (castS s', none) := by
  have c1 : pDegrees (pMesh (pPaths (castS s))) = castS (pDegrees (pMesh (pPaths s))) := by
    have : pPaths (castS s) = castS (pPaths s) := rfl
    rw [this, pMesh_cast]
    rfl
  unfold pParse at h ⊢
  rw [c1]
  have m0 : (pDegrees (pMesh (pPaths s))).d.nmesh = n 0 * n 1 * n 2 ∧
      (pDegrees (pMesh (pPaths s))).c.ngrid = n := by
    have : all3 (pPaths s).d.ngrid = some n := hn
    simp [pDegrees, pMesh, this]
  generalize pDegrees (pMesh (pPaths s)) = t at h m0 ⊢
  split at h
  · simp at h
  rename_i s1 h1
  rw [pRange_cast h1]
  have m1 : s1.d.nmesh = n 0 * n 1 * n 2 ∧ s1.c.ngrid = n := by
    unfold pRange at h1
    split at h1 <;> simp only [Prod.mk.injEq, and_true, reduceCtorEq, and_false] at h1
    subst h1
    exact m0
  split at h
  · simp at h
  rename_i s2 h2
  simp only [pBins_cast h2]
  have m2 : s2.d.nmesh = n 0 * n 1 * n 2 ∧ s2.c.ngrid = n := by
    unfold pBins at h2
    split at h2 <;> simp only [Prod.mk.injEq, and_true, reduceCtorEq, and_false] at h2
    subst h2
    exact m1
  have k : ¬ s2.d.nmesh = 0 := by rw [m2.1]; exact hm.ne'
  have k' : ¬ (castS s2).d.nmesh = 0 := k
  unfold pCutoff at h ⊢
  rw [if_neg k] at h
  rw [if_neg k']
  simp only at h ⊢
  split at h
  · simp at h
  rename_i s4 h4
  simp only [pForm_cast h4]
  have m4 : s4.c.ngrid = n := by
    unfold pForm at h4
    simp only at h4
    split_ifs at h4 <;> simp only [Prod.mk.injEq, and_true, reduceCtorEq, and_false] at h4
    subst h4
    exact m2.2
  unfold pValidate at h ⊢
  split at h
  · cases h
  · simp at h
  rename_i c hc
  have hv := validate_cast e fuel true (pMisc s4).c c hc (by
    show 0 < s4.c.ngrid 0 * s4.c.ngrid 1 * s4.c.ngrid 2
    rw [m4]; exact hm)
  have : (pMisc (castS s4)).c = castP (pMisc s4).c := rfl
  rw [this, hv]
  simp only [Option.some.injEq, Prod.mk.injEq, and_true] at h ⊢
  subst h
  rfl

end Trv.Par

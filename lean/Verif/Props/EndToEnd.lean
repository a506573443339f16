import Verif.Model.EndToEnd
import Verif.Spec.EndToEnd
import Verif.Props.OptionCase
import Verif.Props.Header
import Verif.Props.Handover
import Verif.Props.CatalogueIo
import Verif.Lemmas.ParamsCast
/-
C152: the program and the Python functions save the same file for the same survey.
-/
set_option linter.unusedSectionVars false
namespace Trv.E2E

open Trv Trv.Par Trv.Mon Trv.Cat Trv.Prog Trv.Out

variable {ι : Type} [DecidableEq ι]

/-! ### Recorded spans -/

def Spans (c : CppCat ℝ) : Prop := c.posSpan = fun i => c.posMax i - c.posMin i

theorem calcExtents_span {c c' : CppCat ℝ} (h : c.calcExtents = .ok c') : Spans c' := by
  unfold CppCat.calcExtents at h
  split at h
  · cases h
  · cases h
  · split_ifs at h
    injection h with h
    subst h
    rfl

theorem offset_span {c c' : CppCat ℝ} {d : V3 ℝ} (h : c.offset d = .ok c') : Spans c' := by
  unfold CppCat.offset at h
  split at h
  · cases h
  · simp only [bind, Except.bind] at h
    split at h
    · cases h
    · exact calcExtents_span h

theorem recalc_spans {σ σ' : CStore Which ℝ} {i : Which} (hs : ∀ j, Spans (σ j)) (h : recalc σ i = .ok σ') :
    ∀ j, Spans (σ' j) := by
  unfold recalc at h
  simp only [bind, Except.bind] at h
  split at h
  · cases h
  · rename_i c hc
    injection h with h
    subst h
    intro j
    by_cases hj : j = i
    · subst hj; rw [Function.update_self]; exact calcExtents_span hc
    · rw [Function.update_of_ne hj]; exact hs j

theorem offsetIn_spans {σ σ' : CStore Which ℝ} {i : Which} {d : V3 ℝ} (hs : ∀ j, Spans (σ j))
    (h : offsetIn σ i d = .ok σ') : ∀ j, Spans (σ' j) := by
  unfold offsetIn at h
  simp only [bind, Except.bind] at h
  split at h
  · cases h
  · rename_i c hc
    injection h with h
    subst h
    intro j
    by_cases hj : j = i
    · subst hj; rw [Function.update_self]; exact offset_span hc
    · rw [Function.update_of_ne hj]; exact hs j

theorem bind_spans {σ : CStore Which ℝ} {x : Except CppErr (CStore Which ℝ)}
    {g : CStore Which ℝ → Except CppErr (CStore Which ℝ)} (h : (x >>= g) = .ok σ) :
    ∃ ρ, x = .ok ρ ∧ g ρ = .ok σ := by
  cases x with
  | error _ => cases h
  | ok ρ => exact ⟨ρ, rfl, h⟩

theorem alignBoth_spans {σ σ' : CStore Which ℝ} {p : AlignParams ℝ} (hs : ∀ j, Spans (σ j))
    (h : alignBoth σ .data .rand p = .ok σ') : ∀ j, Spans (σ' j) := by
  unfold alignBoth at h
  split_ifs at h
  · unfold padGrids2 at h
    obtain ⟨ρ, h1, h⟩ := bind_spans h
    obtain ⟨ρ', h2, h⟩ := bind_spans h
    exact offsetIn_spans (offsetIn_spans (recalc_spans hs h1) h2) h
  · unfold padInBox2 at h
    obtain ⟨ρ, h1, h⟩ := bind_spans h
    obtain ⟨ρ', h2, h⟩ := bind_spans h
    obtain ⟨ρ'', h3, h⟩ := bind_spans h
    exact offsetIn_spans (offsetIn_spans (recalc_spans (recalc_spans hs h1) h2) h3) h
  · injection h with h
    subst h
    exact hs
  · unfold centreInBox2 at h
    obtain ⟨ρ, h1, h⟩ := bind_spans h
    obtain ⟨ρ', h2, h⟩ := bind_spans h
    obtain ⟨ρ'', h3, h⟩ := bind_spans h
    exact offsetIn_spans (offsetIn_spans (recalc_spans (recalc_spans hs h1) h2) h3) h
  · injection h with h
    subst h
    exact hs

/-! ### The C++ catalogue made from the columns -/

theorem toCpp_eq {c : CppCat ℝ} {s : Sent} (h : Holding c s) (he : c.TrueExtents)
    (hw : ∀ q ∈ c.particles, q.w = q.ws * q.wc)
    (ht : c.wtotal = (c.particles.map fun q => q.w).sum ∧ c.wstotal = (c.particles.map fun q => q.ws).sum) :
    ∃ c', toCpp s = .ok c' ∧ bare c' = bare c := by
  obtain ⟨ps, h1, h2, h3⟩ := h.loaded
  have hp : c.particles = ps := by simp [CppCat.particles, h1]
  have e0 := h.pos
  have e1 := h.nz
  have e2 := h.ws
  have e3 := h.wc
  rw [hp] at hw ht e1 e2 e3
  simp only [hp] at e0
  have hr : ps.map (fun q => Rec6.particle ⟨q.pos 0, q.pos 1, q.pos 2, q.nz, q.ws, q.wc⟩) = ps := by
    conv_rhs => rw [← List.map_id ps]
    apply List.map_congr_left
    intro q hq
    have := hw q hq
    cases q with
    | mk pos nz ws wc w =>
      simp only at this
      subst this
      simp only [Rec6.particle, id]
      congr 1
      funext i
      fin_cases i <;> rfl
  obtain ⟨w', g1, g2, -, g4, g5, g6, g7, -⟩ := C100_array_loading
    ({ cats := fun _ : Unit => noCat, mem := 0, maxmem := 0 } : World Unit ℝ) ()
    (ps.map fun q => ⟨q.pos 0, q.pos 1, q.pos 2, q.nz, q.ws, q.wc⟩) (by simpa using h2)
  simp only [List.map_map, Function.comp_def] at g1 g2 g6 g7
  rw [hr] at g2
  refine ⟨w'.cats (), ?_, ?_⟩
  · unfold toCpp
    rw [e0, e0, e0, e1, e2, e3, g1]
  · obtain ⟨qs, k1, -, k3⟩ := g4
    have hq : qs = ps := by rw [← g2]; simp [CppCat.particles, k1]
    subst hq
    have hx : ∀ i, (w'.cats ()).posMin i = c.posMin i ∧ (w'.cats ()).posMax i = c.posMax i := by
      intro i
      have a := (g5 i).1
      have b := (he i).1
      rw [g2] at a
      rw [hp] at b
      exact a.unique b
    have hsp : (w'.cats ()).posSpan = c.posSpan := by
      funext i
      rw [(g5 i).2, (he i).2, (hx i).1, (hx i).2]
    have hmin : (w'.cats ()).posMin = c.posMin := funext fun i => (hx i).1
    have hmax : (w'.cats ()).posMax = c.posMax := funext fun i => (hx i).2
    have hwt : (w'.cats ()).wtotal = c.wtotal := by
      rw [g6, ht.1]
      congr 1
      exact List.map_congr_left fun q hq => (hw q hq).symm
    have hws : (w'.cats ()).wstotal = c.wstotal := by rw [g7, ht.2]
    have hnt : (w'.cats ()).ntotal = c.ntotal := by rw [← k3, ← h3]
    have hpd : (w'.cats ()).pdata = c.pdata := by rw [k1, h1]
    generalize w'.cats () = a at *
    cases a
    cases c
    simp only at hnt hpd hwt hws hmin hmax hsp
    subst hnt hpd hwt hws hmin hmax hsp
    rfl

/-! ### Both alignments -/

theorem offset_totals {c c' : PyCat ℝ} {o : V3 ℝ} (h : c.offset o = .ok c') :
    c'.ntotal = c.ntotal ∧ c'.wtotal = c.wtotal ∧ c'.wstotal = c.wstotal := by
  unfold PyCat.offset PyCat.calcBounds at h
  split at h
  · injection h with h
    subst h
    exact ⟨rfl, rfl, rfl⟩
  · cases h

theorem offsetBoth_totals {τ τ' : Cat.Store ι ℝ} {d r : ι} {o : V3 ℝ} (h : offsetBoth τ d (some r) o = .ok τ') (j : ι) :
    (τ' j).ntotal = (τ j).ntotal ∧ (τ' j).wtotal = (τ j).wtotal ∧ (τ' j).wstotal = (τ j).wstotal := by
  unfold offsetBoth at h
  simp only [bind, Except.bind] at h
  split at h
  · cases h
  · rename_i c hc
    split at h
    · cases h
    · rename_i c2 hc2
      injection h with h
      subst h
      have a1 := offset_totals hc
      have a2 := offset_totals hc2
      by_cases h1 : j = r
      · subst h1
        rw [Function.update_self]
        by_cases h2 : j = d
        · subst h2
          rw [Function.update_self] at a2
          exact ⟨a2.1.trans a1.1, a2.2.1.trans a1.2.1, a2.2.2.trans a1.2.2⟩
        · rw [Function.update_of_ne h2] at a2
          exact a2
      · rw [Function.update_of_ne h1]
        by_cases h2 : j = d
        · subst h2
          rw [Function.update_self]
          exact a1
        · rw [Function.update_of_ne h2]
          exact ⟨rfl, rfl, rfl⟩

theorem true_extents {c : CppCat ℝ} {ps : List (Particle ℝ)} {mn mx : V3 ℝ} (h : Holds c ps mn mx) (hs : Spans c) :
    c.TrueExtents := by
  obtain ⟨h1, -, rfl, rfl, h5⟩ := h
  intro i
  refine ⟨?_, by rw [hs]⟩
  simpa [CppCat.particles, h1] using h5 i

/-- A catalogue moved on both sides by the same vector. -/
theorem SameCat.moved {c c' : CppCat ℝ} {source : Str} {d d' : PyCat ℝ} {o mn mx : V3 ℝ} (h : SameCat c source d)
    (hc : Holds c' (c.particles.map (Particle.shift o)) mn mx) (hs : Spans c')
    (ht : c'.source = c.source ∧ c'.ntotal = c.ntotal ∧ c'.wtotal = c.wtotal ∧ c'.wstotal = c.wstotal)
    (hd : PyCat.ShiftedBy o d d') (hb : d'.TrueBounds)
    (hp : d'.ntotal = d.ntotal ∧ d'.wtotal = d.wtotal ∧ d'.wstotal = d.wstotal) : SameCat c' source d' := by
  have e : c'.particles = c.particles.map (Particle.shift o) := by simp [CppCat.particles, hc.1]
  refine ⟨?_, true_extents hc hs, hb, ?_, ?_, ?_, ?_⟩
  · rw [sent_shifted hd]
    exact h.holds.shift hc
  · intro q hq
    rw [e, List.mem_map] at hq
    obtain ⟨q, hq, rfl⟩ := hq
    exact h.weight q hq
  · rw [e, ht.2.2.1, ht.2.2.2, h.totals.1, h.totals.2]
    simp [Particle.shift, Function.comp_def]
  · obtain ⟨t1, t2, t3⟩ := h.totalsPy
    refine ⟨?_, ?_, ?_⟩
    · rw [hp.1, t1, hd.1, List.length_map]
    · rw [hp.2.1, t2, hd.2.2.1, hd.2.2.2]
    · rw [hp.2.2, t3, hd.2.2.1]
  · rw [ht.1, h.source]

/-- The catalogues of both after alignment. -/
theorem aligned {e : Env ℝ} {fuel : ℕ} {f : Dict ℝ → Dict ℝ} {s s' : PySet ℝ}
    (h : assign e fuel f s = some (s', none)) (hw : Written s'.d) (hc : s'.c.catType = "survey")
    (σ : CStore Which ℝ) (τ : Cat.Store ι ℝ) (src : ι → Str) (data rand : ι) (hne : data ≠ rand)
    (hσ : ∀ j, Spans (σ j))
    (hd : SameCat (σ .data) (src data) (τ data)) (hr : SameCat (σ .rand) (src rand) (τ rand)) :
    ∃ σ' τ', alignCats σ s'.c = .ok σ' ∧
      surveyRun τ data rand none none s'.c.box (fun i => (s'.c.ngrid i).toNat) s'.d
        = .ok (τ', ⟨[(τ' data).sent, (τ' rand).sent], [losOf los (σ .data), losOf los (σ .rand)]⟩) ∧
      SameCat (σ' .data) (src data) (τ' data) ∧ SameCat (σ' .rand) (src rand) (τ' rand) := by
  have hA := C35_accepted_agree_partial e fuel f s s' h
  have h1 := lower_same hw.alignment hA.alignment
  have h2 := lower_same hw.padscale hA.padscale
  obtain ⟨x, hx⟩ := Option.isSome_iff_exists.1 hw.padfactor
  have h3 : s'.d.padfactor = some s'.c.padfactor := by rw [hA.padfactor x hx, hx]; rfl
  have ho := accepted_options h
  obtain ⟨σ', mn, mx, e1, hx, hs⟩ := alignBoth_origin (c := Which.data) (r := Which.rand)
    (by decide) hd.holds.loaded hd.extents hr.holds.loaded s'.c ho.1 ho.2.1
  obtain ⟨τ', e', hm⟩ := alignPy_moved τ hne hd.holds.shape hr.holds.shape s'.c.box
    (fun i => (s'.c.ngrid i).toNat) (pyAlign s'.c)
  have hmn : (fun i => ((τ rand).bounds i).1) = mn := by
    funext i
    have := hr.bounds i
    rw [show (τ rand).pos i = _ from hr.holds.pos i] at this
    exact (this.unique (hx i)).1
  have hmx : (fun i => ((τ rand).bounds i).2) = mx := by
    funext i
    have := hr.bounds i
    rw [show (τ rand).pos i = _ from hr.holds.pos i] at this
    exact (this.unique (hx i)).2
  rw [hmn, hmx] at hm
  have hsp := alignBoth_spans hσ e1
  have ht : ∀ j, (τ' j).ntotal = (τ j).ntotal ∧ (τ' j).wtotal = (τ j).wtotal ∧ (τ' j).wstotal = (τ j).wstotal := by
    intro j
    rw [alignPy_eq] at e'
    exact offsetBoth_totals e' j
  refine ⟨σ', τ', ?_, ?_, hd.moved hs.hc (hsp _) (hs.totals _) hm.hdata hm.boundsData (ht _),
    hr.moved hs.hr (hsp _) (hs.totals _) hm.hrand hm.boundsRand (ht _)⟩
  · unfold alignCats
    rw [if_pos hc]
    exact e1
  · have hrun : (Meas.survey data rand none none s'.c.box (fun i => (s'.c.ngrid i).toNat) (pyAlign s'.c)).run τ
        = .ok (τ', ⟨[(τ' data).sent, (τ' rand).sent], [losOf los (σ .data), losOf los (σ .rand)]⟩) := by
      simp only [Meas.run, Option.getD_none, e', bind, Except.bind, hd.holds.los_eq, hr.holds.los_eq]
    rw [← hrun]
    have o1 := ho.1
    have o2 := ho.2.1
    simp only [List.mem_cons, List.not_mem_nil, or_false] at o1 o2
    unfold surveyRun Meas.run alignCall pyAlign
    rw [h1, h2, h3]
    rcases o1 with o1 | o1 <;> rcases o2 with o2 | o2 <;> rw [o1, o2] <;> rfl

/-! ### Headers -/

/-- The catalogues are reported alike. -/
theorem info_eq {c : CppCat ℝ} {source : Str} {d : PyCat ℝ} (h : SameCat c source d) :
    infoPy source d = infoCpp c := by
  obtain ⟨ps, p1, p2, p3⟩ := h.holds.loaded
  have hp : c.particles = ps := by simp [CppCat.particles, p1]
  have hb : ∀ i, (d.bounds i).1 = c.posMin i ∧ (d.bounds i).2 = c.posMax i := by
    intro i
    have := h.bounds i
    rw [show d.pos i = _ from h.holds.pos i] at this
    exact this.unique (h.extents i).1
  obtain ⟨t1, t2, t3⟩ := h.totalsPy
  unfold infoPy infoCpp
  congr 1
  · exact h.source.symm
  · rw [t1, show d.pos 0 = _ from h.holds.pos 0, List.length_map, hp, p3]
  · rw [t2, h.totals.1, show d.ws = _ from h.holds.ws, show d.wc = _ from h.holds.wc, List.zipWith_map, List.zipWith_self]
    congr 1
    exact List.map_congr_left fun q hq => (h.weight q hq).symm
  · rw [t3, h.totals.2, show d.ws = _ from h.holds.ws]
  · exact funext fun i => (hb i).1
  · exact funext fun i => (hb i).2

/-- The two read the same of the parameters, but for the entries of file names. -/
theorem hp_eq {d : Dict ℝ} {c : Params ℝ} (hA : Agree d c) (hw : Written d) (hg : ∀ i, d.ngrid i = some (c.ngrid i))
    (hi : c.interlace ∈ ["true", "false"]) :
    hpPy d = { hpCpp c with
      p := { (hpCpp c).p with
        form := d.form.getD "", idxBin := d.idxBin, tag := d.tag } } := by
  obtain ⟨w1, w2, w3, w4, w5⟩ := hw.degrees
  have g : ∀ {o : Option ℤ} {x : ℤ}, o.isSome → Same id o x → o.getD 0 = x := by
    intro o x ho hs
    obtain ⟨y, rfl⟩ := Option.isSome_iff_exists.1 ho
    rw [hs y rfl]; rfl
  unfold hpPy hpCpp nameEntries
  rw [g w1 hA.ell1, g w2 hA.ell2, g w3 hA.ELL, g w4 hA.iWa, g w5 hA.jWa, lower_same hw.stat hA.statType, hA.npoint, hA.space,
    lower_same hw.alignment hA.alignment, lower_same hw.assignment hA.assignment, lower_same hw.norm hA.norm,
    hA.interlace hi]
  have e1 : (fun i => (d.box i).getD 0) = c.box := funext fun i => by rw [hA.box hw.box i]; rfl
  have e2 : (fun i => (d.ngrid i).getD 0) = c.ngrid := funext fun i => by rw [hg i]; rfl
  rw [e1, e2]
  simp

theorem pySaved_names (F : Fmt) (f3 : ℝ → Str) (k : Out.Kind) (three : Bool) (h : HP) (n : Norms) (r : ℝ → Res)
    (form : String) (idx : Option ℤ) (tag : Option Str) :
    pySaved F f3 k three { h with p := { h.p with form := form, idxBin := idx, tag := tag } } n r =
      pySaved F f3 k three h n r := rfl

theorem derived {c : Params ℝ} (hc : Derived c) (hn : c.statType ∉ ["modes", "pairs"]) :
    (hpCpp c).Derived ∧ (c.norm = "mesh-mixed" → Two c.statType) := by
  obtain ⟨cats, hs, -⟩ := hc.stat
  have hm := hc.mixed
  have a1 : (hpCpp c).p.stat = c.statType := rfl
  have a2 : (hpCpp c).npoint = c.npoint := rfl
  have a3 : (hpCpp c).space = c.space := rfl
  suffices hx : (Two c.statType ∨ Three c.statType) ∧ (c.npoint = if Three c.statType then "3pt" else "2pt") ∧
      (c.space = if c.statType = "powspec" ∨ c.statType = "bispec" then "fourier" else "config") ∧
      (c.npoint = "2pt" → Two c.statType) by
    exact ⟨⟨by rw [a1]; exact hx.1, by rw [a1, a2]; exact hx.2.1, by rw [a1, a3]; exact hx.2.2.1⟩,
      fun h => hx.2.2.2 (hm h)⟩
  clear hm a1 a2 a3
  simp only [statTable, List.mem_cons, Prod.mk.injEq, List.not_mem_nil, or_false] at hs hn
  rcases hs with ⟨h1, h2, h3, -⟩ | ⟨h1, h2, h3, -⟩ | ⟨h1, h2, h3, -⟩ | ⟨h1, h2, h3, -⟩ | ⟨h1, h2, h3, -⟩ |
    ⟨h1, h2, h3, -⟩ | ⟨h1, h2, h3, -⟩ | ⟨h1, h2, h3, -⟩ | ⟨h1, h2, h3, -⟩ <;> rw [h1] at hn ⊢ <;> rw [h2, h3] <;>
    simp_all [Two, Three]

theorem printable {c : Params ℝ} (hc : Derived c) {f3 : ℝ → Str} (h3 : ∀ x, '\n' ∉ f3 x) {k : Out.Kind}
    (hk : ∀ x ∈ k.cats, '\n' ∉ x.source) : Printable f3 k (hpCpp c) := by
  refine ⟨h3, hk, ?_, ?_⟩
  · show '\n' ∉ c.alignment.toList
    have := hc.align
    simp only [List.mem_cons, List.not_mem_nil, or_false] at this
    rcases this with h | h <;> rw [h] <;> decide
  · show '\n' ∉ c.assignment.toList
    have := hc.order
    simp only [orderTable, List.mem_cons, Prod.mk.injEq, List.not_mem_nil, or_false] at this
    rcases this with ⟨h, -⟩ | ⟨h, -⟩ | ⟨h, -⟩ | ⟨h, -⟩ <;> rw [h] <;> decide

theorem selects {n : Norms} {c : Params ℝ} (hc : Derived c) : ∃ x, Selects n c.norm x := by
  have := hc.norm
  simp only [List.mem_cons, List.not_mem_nil, or_false] at this
  rcases this with h | h | h | h <;> rw [h]
  · exact ⟨1, by simp [Selects]⟩
  · exact ⟨n.part, by simp [Selects]⟩
  · exact ⟨n.mesh, by simp [Selects]⟩
  · exact ⟨n.meshes, by simp [Selects]⟩

/-! ### What Python accepts, the program accepts -/

theorem pre_program {K : Type} [Field K] [LinearOrder K] (e : Env K) (init : Bool) (p : Params K)
    (hc : p.catType ∈ ["survey", "random", "sim", "none"]) (hs : p.statType ∈ measured) :
    pre { e with extcall := false } init p = pre e init p := by
  unfold pre
  have v1 : vFiles { e with extcall := false } init (vDirs { e with extcall := false } init p) =
      vFiles e init (vDirs e init p) := by
    unfold vFiles
    have h1 : (vDirs e init p).catType = p.catType := rfl
    have h2 : (vDirs { e with extcall := false } init p).catType = p.catType := rfl
    simp only [h1, h2]
    simp only [List.mem_cons, List.not_mem_nil, or_false] at hc
    rcases hc with hc | hc | hc | hc <;> simp only [hc] <;> rfl
  rw [v1]
  cases h1 : vFiles e init (vDirs e init p) with
  | error _ => rfl
  | ok a =>
    simp only [bind, Except.bind]
    cases h2 : vMesh a with
    | error _ => rfl
    | ok b =>
      have hb : b.statType = p.statType := by
        rw [(vMesh_frame h2).1]
        show a.statType = _
        rw [(vFiles_frame h1).1]
        rfl
      have v2 : vStat { e with extcall := false } b = vStat e b := by
        unfold vStat
        have : statOf false b.statType b.catType = statOf e.extcall b.statType b.catType := by
          rw [hb]
          simp only [measured, List.mem_cons, List.not_mem_nil, or_false] at hs
          rcases hs with hs | hs | hs | hs | hs | hs | hs <;> rw [hs] <;> simp [statOf]
        rw [this]
      simp only [v2]
      cases vStat e b with
      | error _ => rfl
      | ok c => rfl

theorem validate_program (e : Env ℝ) (fuel : ℕ) (init : Bool) (p : Params ℝ)
    (hc : p.catType ∈ ["survey", "random", "sim", "none"]) (hs : p.statType ∈ measured) :
    validate { e with extcall := false } fuel init p = validate e fuel init p := by
  induction fuel generalizing init p with
  | zero => rfl
  | succ fuel ih =>
    unfold validate
    rw [pre_program e init p hc hs]
    cases hp : pre e init p with
    | error _ => rfl
    | ok q =>
      obtain ⟨-, -, -, -, q1, q2, -⟩ := pre_frame hp
      have v : setNgrid { e with extcall := false } q = setNgrid e q := rfl
      simp only [v]
      cases hr : setNgrid e q with
      | error _ => rfl
      | ok r =>
        have hr' := setNgrid_inputs hr
        have := ih false r (by rw [hr']; show q.catType ∈ _; rw [q2]; exact hc) (by rw [hr']; show q.statType ∈ _; rw [q1]; exact hs)
        simp only [this]

/-- The C++ parameters of an accepted Python set are accepted by the program. -/
theorem accepted_program {e : Env ℝ} {fuel : ℕ} {f : Dict ℝ → Dict ℝ} {s s' : PySet ℝ}
    (h : assign e fuel f s = some (s', none)) (hc : s'.c.catType ∈ ["survey", "random", "sim", "none"])
    (hs : s'.c.statType ∈ measured) :
    ∃ p, inputs p = inputs s'.c ∧ validate { e with extcall := false } fuel true p = some (.ok s'.c) := by
  obtain ⟨s1, s2, s3, s4, -, -, -, -, h5⟩ := pParse_steps h
  unfold pValidate at h5
  split at h5
  · cases h5
  · simp at h5
  rename_i c hv
  simp only [Option.some.injEq, Prod.mk.injEq, and_true] at h5
  subst h5
  have hi := (C33_inputs_kept e fuel true _ _ hv).1
  refine ⟨(pMisc s4).c, hi.symm, ?_⟩
  have e1 : (pMisc s4).c.catType = c.catType := by
    simp only [inputs, Prod.mk.injEq] at hi
    obtain ⟨-, -, -, -, -, -, -, -, -, -, -, -, -, -, -, -, i1, i2, -⟩ := hi
    exact i1.symm
  have e2 : (pMisc s4).c.statType = c.statType := by
    simp only [inputs, Prod.mk.injEq] at hi
    obtain ⟨-, -, -, -, -, -, -, -, -, -, -, -, -, -, -, -, i1, i2, -⟩ := hi
    exact i2.symm
  rw [validate_program e fuel true _ (by rw [e1]; exact hc) (by rw [e2]; exact hs)]
  exact hv

/-! ### C152 -/

/-- **C152, parameters.**  Whenever Python accepts a set for a measurement from a known type of catalogues, the program built from the same
sources accepts parameters of the same values and turns them into the same C++ parameters. -/
theorem C152_program_accepts (e : Env ℝ) (fuel : ℕ) (f : Dict ℝ → Dict ℝ) (s s' : PySet ℝ)
    (h : assign e fuel f s = some (s', none)) (hc : s'.c.catType ∈ ["survey", "random", "sim", "none"])
    (hs : s'.c.statType ∈ measured) :
    ∃ p, inputs p = inputs s'.c ∧ validate { e with extcall := false } fuel true p = some (.ok s'.c) ∧
      WellFormed s'.c := by
  obtain ⟨p, h1, h2⟩ := accepted_program h hc hs
  exact ⟨p, h1, h2, C33_well_formed _ rfl fuel true p _ h2⟩

/-- **C152.**  For the same survey, with an accepted Python set and the same parameters in the
program (which accepts them, `C152_program_accepts`), the program and the Python function fail in the same way or save the same file, up to the marks which
`Differ` lists.  (Partial: the options are written in lower-case letters, all entries are set, and the
degrees of three-point statistics have at most seven digits.) -/
theorem C152_same_file_partial {F : Fmt} {rd : ℝ → ℝ} (hF : F.Ok rd) {f3 : ℝ → Str} (h3 : ∀ x, '\n' ∉ f3 x)
    (A : Kern) (hA : A.Fits)
    (e : Env ℝ) (fuel : ℕ) (f : Dict ℝ → Dict ℝ) (s s' : PySet ℝ) (h : assign e fuel f s = some (s', none))
    (hw : Written s'.d) (n : Fin 3 → ℤ) (hn : ∀ i, (f s.d).ngrid i = some (n i)) (hpos : 0 < n 0 * n 1 * n 2)
    (hc : s'.c.catType = "survey") (hm : s'.c.statType ∈ measured)
    (hl : Three s'.c.statType → (degs (hpCpp s'.c).p).length ≤ 7)
    (σ : CStore Which ℝ) (τ : Cat.Store ι ℝ) (src : ι → Str) (data rand : ι) (hne : data ≠ rand)
    (hsrc : '\n' ∉ src data ∧ '\n' ∉ src rand)
    (hd : SameCat (σ .data) (src data) (τ data)) (hr : SameCat (σ .rand) (src rand) (τ rand)) :
    (∃ x, program F f3 A σ s'.c = .error x ∧
      python F f3 A (decide (Three s'.c.statType)) src τ data rand s' = .error (.cpp x)) ∨
    ∃ file file' σ', program F f3 A σ s'.c = .ok file ∧
      python F f3 A (decide (Three s'.c.statType)) src τ data rand s' = .ok file' ∧ alignCats σ s'.c = .ok σ' ∧
      List.Forall₂ (fun l m => l = m ∨
        Differ f3 (.survey (infoCpp (σ' .data)) (infoCpp (σ' .rand))) (hpCpp s'.c) l m) file' file := by
  have hag := C35_accepted_agree_partial e fuel f s s' h
  have hD := (C152_program_accepts e fuel f s s' h (by rw [hc]; simp) hm).choose_spec.2.2.toDerived
  obtain ⟨m1, m2⟩ := C35_mesh_partial e fuel f s s' n hn hpos h
  have hg : ∀ i, s'.d.ngrid i = some (s'.c.ngrid i) := fun i => by rw [m1, m2, hn]
  have hbox : (fun i => (s'.d.box i).getD 0) = s'.c.box := funext fun i => by rw [hag.box hw.box i]; rfl
  have hng : (fun i => ((s'.d.ngrid i).getD 0).toNat) = fun i => (s'.c.ngrid i).toNat :=
    funext fun i => by rw [hg i]; rfl
  have hσ : ∀ j : Which, Spans (σ j) := by
    intro j
    cases j
    · exact funext fun i => (hd.extents i).2
    · exact funext fun i => (hr.extents i).2
  obtain ⟨σ', τ', a1, a2, sd, sr⟩ := aligned h hw hc σ τ src data rand hne hσ hd hr
  obtain ⟨cd, d1, d2⟩ := toCpp_eq sd.holds sd.extents sd.weight sd.totals
  obtain ⟨cr, r1, r2⟩ := toCpp_eq sr.holds sr.extents sr.weight sr.totals
  obtain ⟨dv, dm⟩ := derived hD (by
    simp only [measured, List.mem_cons, List.not_mem_nil, or_false] at hm ⊢
    rcases hm with h | h | h | h | h | h | h <;> rw [h] <;> decide)
  have id := info_eq sd
  have ir := info_eq sr
  have wd : (τ' data).wstotal = (σ' .data).wstotal := congrArg CatInfo.wstotal id
  have wr : (τ' rand).wstotal = (σ' .rand).wstotal := congrArg CatInfo.wstotal ir
  have hnorm : s'.d.norm = some s'.c.norm := lower_same hw.norm hag.norm
  unfold program python
  rw [hbox, hng, a2]
  simp only [a1, ofPy, ofCpp, bind, Except.bind, d1, r1, d2, r2, id, ir, wd, wr, factorOf, hnorm, hp_eq hag hw hg hD.interlace,
    pySaved_names]
  generalize hno : A.norms _ _ _ _ = N
  cases N with
  | error x => exact .inl ⟨x, rfl, rfl⟩
  | ok N =>
    obtain ⟨x, hx⟩ := selects (n := N) hD
    have mo : MixedOk (.survey (infoCpp (σ' .data)) (infoCpp (σ' .rand))) (hpCpp s'.c) :=
      fun h => ⟨trivial, dm h⟩
    have u1 := (cppUsed_eq dv (k := .survey (infoCpp (σ' .data)) (infoCpp (σ' .rand))) hx mo F).1
    have u2 := (pyUsed_eq (k := .survey (infoCpp (σ' .data)) (infoCpp (σ' .rand))) (h := hpCpp s'.c) hx mo).1
    have u2' : pyUsed (.survey (infoCpp (σ' .data)) (infoCpp (σ' .rand))) s'.c.norm
      (pyNorms (.survey (infoCpp (σ' .data)) (infoCpp (σ' .rand))) (decide (Three s'.c.statType)) N) = .ok x := u2
    simp only [u1, u2']
    generalize hco : A.compute _ _ _ _ _ _ = R
    cases R with
    | error y => exact .inl ⟨y, rfl, rfl⟩
    | ok R =>
      have fit := hA _ _ _ _ _ _ _ hco
      have hpr : Printable f3 (.survey (infoCpp (σ' .data)) (infoCpp (σ' .rand))) (hpCpp s'.c) := by
        refine printable hD h3 ?_
        intro y hy
        simp only [Kind.cats, List.mem_cons, List.not_mem_nil, or_false] at hy
        rcases hy with rfl | rfl
        · show '\n' ∉ (σ' .data).source.toList
          rw [sd.source]; exact hsrc.1
        · show '\n' ∉ (σ' .rand).source.toList
          rw [sr.source]; exact hsrc.2
      obtain ⟨py, q1, q2⟩ := C148_same_file_partial hF hpr dv hx mo (dim := R.2) (compute := fun _ => R.1) fit hl
      have q1' : pySaved F f3 (.survey (infoCpp (σ' .data)) (infoCpp (σ' .rand))) (decide (Three s'.c.statType))
        (hpCpp s'.c) N (fun _ => R.1) = .ok py := q1
      refine .inr ⟨_, py, σ', rfl, ?_, rfl, q2⟩
      simp only [q1']

/-! ### The hypotheses are met -/

/-- A survey power spectrum. -/
def exSurvey : Dict ℚ :=
  { exDict with
    alignment := some "pad", padscale := some "box", padfactor := some (1 / 20 : ℚ), assignment := some "tsc",
    norm := some "mesh", catType := some "survey", iWa := some 0, jWa := some 0 }

/-- Functions which give a power spectrum in one bin. -/
noncomputable def exKern : Kern :=
  { norms := fun _ _ _ _ => .ok ⟨1, 2, 3⟩
    compute := fun c _ _ _ p f =>
      if p.statType = "powspec" then .ok (.pk ⟨[1], [1], [6], [(c.wstotal * f : ℝ)], [0]⟩, 1)
      else .error .invalidParameter }

theorem exKern_fits : exKern.Fits := by
  intro c d l m p f r h
  unfold exKern at h
  simp only at h
  split_ifs at h with hs
  injection h with h
  subst h
  exact ⟨hs, rfl, rfl, rfl, rfl, rfl⟩

theorem same2 {a b : ℝ} (h : a ≤ b) : SameCat (cpp2 a b) "extdata".toList (py2 a b) := by
  refine ⟨holding2 a b, extents2 h, bounds2 h, ?_, ?_, ?_, rfl⟩
  · intro q hq
    simp only [CppCat.particles, cpp2, Option.getD_some, List.mem_cons, List.not_mem_nil, or_false] at hq
    rcases hq with rfl | rfl <;> norm_num
  · constructor <;> norm_num [cpp2, CppCat.particles]
  · refine ⟨rfl, ?_, ?_⟩ <;> norm_num [py2]

/-- A Python set, catalogues and functions which meet the hypotheses; both save a file. -/
example : ∃ s : PySet ℝ, construct (castE (exEnv true)) 1 (castD exSurvey) = some (s, none) ∧ Written s.d ∧
    s.c.catType = "survey" ∧
    ∃ file file', program unaryFmt unary exKern (fun _ => cpp2 0 1) s.c = .ok file ∧
      python unaryFmt unary exKern false (fun _ : Which => "extdata".toList) (fun _ => py2 0 1) .data .rand s = .ok file' := by
  obtain ⟨s, h1, h2⟩ := construct_some (d := exSurvey)
    (P := fun s => s.d.alignment = some "pad" ∧ s.d.padscale = some "box" ∧ s.d.assignment = some "tsc" ∧
      s.d.norm = some "mesh" ∧ s.d.statType = some "powspec" ∧ s.d.padfactor.isSome ∧ (∀ i, (s.d.box i).isSome) ∧
      (s.d.ell1.isSome ∧ s.d.ell2.isSome ∧ s.d.ELL.isSome ∧ s.d.iWa.isSome ∧ s.d.jWa.isSome) ∧
      s.c.catType = "survey" ∧ s.c.statType = "powspec") (by decide +kernel)
  obtain ⟨p1, p2, p3, p4, p5, p6, p7, p8, p9, p10⟩ := h2
  have hc0 : castS ⟨exSurvey, Params.default⟩ = ⟨castD exSurvey, Params.default⟩ := by
    simp [castS, castP, Params.default]
  have hc : construct (castE (exEnv true)) 1 (castD exSurvey) = some (castS s, none) := by
    unfold construct
    rw [← hc0]
    exact pParse_cast (exEnv true) 0 _ _ h1 (fun _ => 64) (by decide +kernel) (by norm_num)
  have hcs : assign (castE (exEnv true)) 1 id ⟨castD exSurvey, Params.default⟩ = some (castS s, none) := hc
  have hw : Written (castS s).d := by
    refine ⟨⟨_, p1, ?_⟩, ⟨_, p2, ?_⟩, ⟨_, p3, ?_⟩, ⟨_, p4, ?_⟩, ⟨_, p5, ?_⟩, ?_, ?_, p8⟩
    any_goals unfold LowerCase; decide +kernel
    · show (s.d.padfactor.map _).isSome
      rw [Option.isSome_map]; exact p6
    · intro i
      show ((s.d.box i).map _).isSome
      rw [Option.isSome_map]; exact p7 i
  refine ⟨castS s, hc, hw, p9, ?_⟩
  have hst : (castS s).c.statType = "powspec" := p10
  have hd : decide (Three (castS s).c.statType) = false := by rw [hst]; decide
  have key := C152_same_file_partial unaryFmt_ok (f3 := unary) (nl_e unaryFmt_ok) exKern exKern_fits
    (castE (exEnv true)) 1 id ⟨castD exSurvey, Params.default⟩ (castS s) hc hw (fun _ => 64) (fun _ => rfl) (by norm_num) p9
    (by rw [hst]; simp [measured]) (by rw [hst]; intro h; exact absurd h (by decide))
    (fun _ => cpp2 0 1) (fun _ => py2 0 1) (fun _ : Which => "extdata".toList) .data .rand (by decide)
    ⟨by decide, by decide⟩ (same2 (by norm_num)) (same2 (by norm_num))
  rw [hd] at key
  rcases key with ⟨x, hx, -⟩ | ⟨file, file', -, k1, k2, -⟩
  · exfalso
    unfold program at hx
    obtain ⟨σ', -, -, e1, -⟩ := alignBoth_origin (σ := fun _ : Which => cpp2 0 1) (c := Which.data) (r := Which.rand)
      (by decide) (holding2 0 1).loaded (extents2 (by norm_num)) (holding2 0 1).loaded (castS s).c
      (accepted_options hcs).1 (accepted_options hcs).2.1
    have e2 : alignCats (fun _ => cpp2 0 1) (castS s).c = .ok σ' := by
      unfold alignCats
      rw [if_pos (show (castS s).c.catType = "survey" from p9)]
      exact e1
    simp only [e2, bind, Except.bind, exKern, hst, if_true, reduceCtorEq] at hx
  · exact ⟨file, file', k1, k2⟩

end Trv.E2E

import Verif.Props.EndToEnd
/-
C152 for windows: the program and the Python functions save the same file for the same random catalogue.
-/
set_option linter.unusedSectionVars false
namespace Trv.E2E

open Trv Trv.Par Trv.Mon Trv.Cat Trv.Prog Trv.Out

variable {ι : Type} [DecidableEq ι]

/-! ### What alignment leaves -/

theorem calcExtents_totals {c c' : CppCat ℝ} (h : c.calcExtents = .ok c') :
    c'.source = c.source ∧ c'.wtotal = c.wtotal ∧ c'.wstotal = c.wstotal := by
  unfold CppCat.calcExtents at h
  split at h
  · cases h
  · cases h
  · split_ifs at h
    injection h with h
    subst h
    exact ⟨rfl, rfl, rfl⟩

theorem mapParticles_totals {c c' : CppCat ℝ} {f : Particle ℝ → Particle ℝ} (h : c.mapParticles f = .ok c') :
    c'.source = c.source ∧ c'.wtotal = c.wtotal ∧ c'.wstotal = c.wstotal := by
  unfold CppCat.mapParticles at h
  split at h
  · split_ifs at h
    injection h with h
    subst h
    exact ⟨rfl, rfl, rfl⟩
  · split_ifs at h
    injection h with h
    subst h
    exact ⟨rfl, rfl, rfl⟩

theorem periodic_totals {c c' : CppCat ℝ} {L : V3 ℝ} (h : c.periodic L = .ok c') :
    c'.source = c.source ∧ c'.wtotal = c.wtotal ∧ c'.wstotal = c.wstotal := by
  unfold CppCat.periodic at h
  simp only [bind, Except.bind] at h
  split at h
  · cases h
  · rename_i d hd
    obtain ⟨a1, a2, a3⟩ := mapParticles_totals hd
    obtain ⟨b1, b2, b3⟩ := calcExtents_totals h
    exact ⟨b1.trans a1, b2.trans a2, b3.trans a3⟩

/-- The random catalogue of the program after alignment. -/
theorem window_final {σ σ' : CStore Which ℝ} (hr : (σ .rand).Loaded) {p : Params ℝ}
    (hc : p.catType = "random") (ha : p.alignment = "centre") (h : alignCats σ p = .ok σ') :
    (σ' .rand).TrueExtents ∧ (σ' .rand).source = (σ .rand).source ∧ (σ' .rand).wtotal = (σ .rand).wtotal ∧
      (σ' .rand).wstotal = (σ .rand).wstotal ∧
      ∃ g : Particle ℝ → V3 ℝ, (σ' .rand).particles = (σ .rand).particles.map fun q => { q with pos := g q } := by
  obtain ⟨c1, mn, mx, e1, h1, s1, -, t1, u1⟩ := recalc_holds hr
  have h1' : Holds (Function.update σ .rand c1 .rand) (σ .rand).particles mn mx := by
    rw [Function.update_self]; exact h1
  obtain ⟨c2, e2, h2, s2, -, t2, u2, -⟩ := h1'.offsetIn (centreVec (Function.update σ .rand c1 .rand) p.box)
  rw [Function.update_self] at s2 t2 u2
  obtain ⟨c3, e3, -, x3, h4⟩ := C25_cpp_catalogue_partial c2 h2.loaded p.box
  obtain ⟨s3, t3, u3⟩ := periodic_totals e3
  unfold alignCats alignRand at h
  rw [if_neg (by rw [hc]; decide), if_neg (by rw [hc]; decide), if_pos hc,
    if_neg (by rw [ha]; decide), if_pos ha] at h
  simp only [centreInBox1, e1, bind, Except.bind, e2] at h
  rw [Function.update_self] at h
  simp only [e3] at h
  injection h with h
  subst h
  rw [Function.update_self]
  refine ⟨x3, s3.trans (s2.trans s1), t3.trans (t2.trans t1), u3.trans (u2.trans u1), ?_⟩
  have hp : c2.particles = (σ .rand).particles.map
      (Particle.shift (centreVec (Function.update σ .rand c1 .rand) p.box)) := by
    simp [CppCat.particles, h2.1]
  rw [h4, hp, List.map_map]
  exact ⟨_, rfl⟩

/-- The random catalogue of Python after alignment. -/
theorem window_final_py {τ τ' : Cat.Store ι ℝ} {rand : ι} (hs : (τ rand).Shape) {L : V3 ℝ} {x : Feed}
    (h : (Meas.window rand none L).run τ = .ok (τ', x)) :
    x.cats = [(τ' rand).sent] ∧ (τ' rand).TrueBounds ∧ (τ' rand).ntotal = (τ rand).ntotal ∧
      (τ' rand).wtotal = (τ rand).wtotal ∧ (τ' rand).wstotal = (τ rand).wstotal := by
  simp only [Meas.run, Cat.centre, offsetBoth, Option.getD_none, bind, Except.bind] at h
  obtain ⟨c, hc⟩ : ∃ c, (τ rand).offset (fun i => (((τ rand).bounds i).1 + ((τ rand).bounds i).2) / 2 - L i / 2) = c :=
    ⟨_, rfl⟩
  rw [hc] at h
  cases c with
  | error => cases h
  | ok c =>
    simp only [Function.update_self] at h
    have a := offset_totals hc
    have sh : c.Shape := by
      unfold PyCat.offset at hc
      obtain ⟨b, e, -⟩ := calcBounds_ok _ (Shape.mapPos hs fun i x =>
        x - ((((τ rand).bounds i).1 + ((τ rand).bounds i).2) / 2 - L i / 2))
      rw [e] at hc
      injection hc with hc
      subst hc
      exact Shape.mapPos (c := { τ rand with bounds := b }) hs fun i x =>
        x - ((((τ rand).bounds i).1 + ((τ rand).bounds i).2) / 2 - L i / 2)
    obtain ⟨b, e, tb⟩ := calcBounds_ok _ (Shape.mapPos sh fun i x =>
      pyMod (x + L i / 2 - ((c.bounds i).2 + (c.bounds i).1) / 2) (L i))
    have e' : c.periodise L = _ := e
    rw [e'] at h
    simp only [Except.ok.injEq, Prod.mk.injEq] at h
    obtain ⟨rfl, rfl⟩ := h
    rw [Function.update_self]
    exact ⟨rfl, tb, a⟩

/-- A catalogue moved on both sides, so that both hold the same particles. -/
theorem SameCat.wrapped {c c' : CppCat ℝ} {source : Str} {d d' : PyCat ℝ} (h : SameCat c source d)
    (hh : Holding c' d'.sent) (hx : c'.TrueExtents) (hb : d'.TrueBounds)
    (ht : c'.source = c.source ∧ c'.wtotal = c.wtotal ∧ c'.wstotal = c.wstotal)
    (hp : d'.ntotal = d.ntotal ∧ d'.wtotal = d.wtotal ∧ d'.wstotal = d.wstotal) {g : Particle ℝ → V3 ℝ}
    (hg : c'.particles = c.particles.map fun q => { q with pos := g q }) : SameCat c' source d' := by
  refine ⟨hh, hx, hb, ?_, ?_, ?_, by rw [ht.1, h.source]⟩
  · intro q hq
    rw [hg, List.mem_map] at hq
    obtain ⟨q, hq, rfl⟩ := hq
    exact h.weight q hq
  · rw [hg, ht.2.1, ht.2.2, h.totals.1, h.totals.2]
    simp [Function.comp_def]
  · obtain ⟨t1, t2, t3⟩ := h.totalsPy
    have l0 : d'.pos 0 = _ := hh.pos 0
    have l0' : d.pos 0 = _ := h.holds.pos 0
    have l1 : d'.ws = d.ws := by
      rw [show d'.ws = _ from hh.ws, show d.ws = _ from h.holds.ws, hg]
      simp [Function.comp_def]
    have l2 : d'.wc = d.wc := by
      rw [show d'.wc = _ from hh.wc, show d.wc = _ from h.holds.wc, hg]
      simp [Function.comp_def]
    refine ⟨?_, by rw [hp.2.1, t2, l1, l2], by rw [hp.2.2, t3, l1]⟩
    rw [hp.1, t1, l0, l0', hg]
    simp

/-- The catalogues of both after alignment. -/
theorem aligned_window (σ : CStore Which ℝ) (τ : Cat.Store ι ℝ) (src : Str) (rand : ι)
    (hr : SameCat (σ .rand) src (τ rand)) (p : Params ℝ)
    (hc : p.catType = "random") (ha : p.alignment = "centre") (hL : ∀ i, 0 < p.box i)
    (hs : ∀ i, ((τ rand).bounds i).2 - ((τ rand).bounds i).1 < 3 * p.box i) :
    ∃ σ' τ', alignCats σ p = .ok σ' ∧
      (Meas.window rand none p.box).run τ = .ok (τ', ⟨[(τ' rand).sent], [losOf los (σ .rand)]⟩) ∧
      SameCat (σ' .rand) src (τ' rand) := by
  obtain ⟨σ', τ', s, e, e', hh⟩ := C130_window σ τ rand hr.holds hr.bounds p hc ha hL hs
  obtain ⟨x1, x2, x3, x4, g, x5⟩ := window_final hr.holds.loaded hc ha e
  obtain ⟨y1, y2, y3, y4, y5⟩ := window_final_py hr.holds.shape e'
  have y1' : s = (τ' rand).sent := by
    simp only [List.cons.injEq, and_true] at y1
    exact y1
  subst y1'
  exact ⟨σ', τ', e, e', hr.wrapped hh x1 y2 ⟨x2, x3, x4⟩ ⟨y3, y4, y5⟩ x5⟩

/-! ### C152, windows -/

/-- **C152, windows.**  For the same random catalogue, with an accepted Python set and the same parameters in
the program, the program and the Python function fail in the same way or save the same file, up to the marks
which `Differ` lists.  (Partial: the options are written in lower-case letters, all entries are set, the
catalogue is centred and spans less than three boxes (`C130_padded_window_violated`,
`C130_wide_window_violated`), the convention is not `"mesh-mixed"`, and the degrees of three-point windows have at
most seven digits.) -/
theorem C152_window_partial {F : Fmt} {rd : ℝ → ℝ} (hF : F.Ok rd) {f3 : ℝ → Str} (h3 : ∀ x, '\n' ∉ f3 x)
    (A : WinKern) (hA : A.Fits)
    (e : Env ℝ) (fuel : ℕ) (f : Dict ℝ → Dict ℝ) (s s' : PySet ℝ) (h : assign e fuel f s = some (s', none))
    (hw : Written s'.d) (n : Fin 3 → ℤ) (hn : ∀ i, (f s.d).ngrid i = some (n i)) (hpos : 0 < n 0 * n 1 * n 2)
    (hc : s'.c.catType = "random") (hm : s'.c.statType ∈ measured)
    (hl : Three s'.c.statType → (degs (hpCpp s'.c).p).length ≤ 7)
    (ha : s'.c.alignment = "centre") (hx : s'.c.norm ≠ "mesh-mixed")
    (σ : CStore Which ℝ) (τ : Cat.Store ι ℝ) (src : ι → Str) (rand : ι) (hsrc : '\n' ∉ src rand)
    (hr : SameCat (σ .rand) (src rand) (τ rand)) (hL : ∀ i, 0 < s'.c.box i)
    (hs : ∀ i, ((τ rand).bounds i).2 - ((τ rand).bounds i).1 < 3 * s'.c.box i) :
    (∃ x, programWin F f3 A σ s'.c = .error x ∧
      pythonWin F f3 A (decide (Three s'.c.statType)) src τ rand s' = .error (.cpp x)) ∨
    ∃ file file' σ', programWin F f3 A σ s'.c = .ok file ∧
      pythonWin F f3 A (decide (Three s'.c.statType)) src τ rand s' = .ok file' ∧ alignCats σ s'.c = .ok σ' ∧
      List.Forall₂ (fun l m => l = m ∨
        Differ f3 (.window (infoCpp (σ' .rand))) (hpCpp s'.c) l m) file' file := by
  have hag := C35_accepted_agree_partial e fuel f s s' h
  have hD := (C152_program_accepts e fuel f s s' h (by rw [hc]; simp) hm).choose_spec.2.2.toDerived
  obtain ⟨m1, m2⟩ := C35_mesh_partial e fuel f s s' n hn hpos h
  have hg : ∀ i, s'.d.ngrid i = some (s'.c.ngrid i) := fun i => by rw [m1, m2, hn]
  have hbox : (fun i => (s'.d.box i).getD 0) = s'.c.box := funext fun i => by rw [hag.box hw.box i]; rfl
  obtain ⟨σ', τ', a1, a2, sr⟩ := aligned_window σ τ (src rand) rand hr s'.c hc ha hL hs
  obtain ⟨cr, r1, r2⟩ := toCpp_eq sr.holds sr.extents sr.weight sr.totals
  obtain ⟨dv, -⟩ := derived hD (by
    simp only [measured, List.mem_cons, List.not_mem_nil, or_false] at hm ⊢
    rcases hm with h | h | h | h | h | h | h <;> rw [h] <;> decide)
  have ir := info_eq sr
  have hnorm : s'.d.norm = some s'.c.norm := lower_same hw.norm hag.norm
  unfold programWin pythonWin
  rw [hbox, a2]
  simp only [a1, ofPy, ofCpp, bind, Except.bind, r1, r2, ir, factorOf, hnorm, hp_eq hag hw hg hD.interlace,
    pySaved_names]
  generalize hno : A.norms _ _ = N
  cases N with
  | error x => exact .inl ⟨x, rfl, rfl⟩
  | ok N =>
    obtain ⟨x, hx'⟩ := selects (n := N) hD
    have mo : MixedOk (.window (infoCpp (σ' .rand))) (hpCpp s'.c) := fun h => absurd h hx
    have u1 := (cppUsed_eq dv (k := .window (infoCpp (σ' .rand))) hx' mo F).1
    have u2' : pyUsed (.window (infoCpp (σ' .rand))) s'.c.norm
      (pyNorms (.window (infoCpp (σ' .rand))) (decide (Three s'.c.statType)) N) = .ok x :=
        (pyUsed_eq (k := .window (infoCpp (σ' .rand))) (h := hpCpp s'.c) hx' mo).1
    simp only [u1, u2']
    generalize hco : A.compute _ _ _ _ = R
    cases R with
    | error y => exact .inl ⟨y, rfl, rfl⟩
    | ok R =>
      have fit := hA _ _ _ _ _ hco
      have hpr : Printable f3 (.window (infoCpp (σ' .rand))) (hpCpp s'.c) := by
        refine printable hD h3 ?_
        intro y hy
        simp only [Kind.cats, List.mem_cons, List.not_mem_nil, or_false] at hy
        subst hy
        show '\n' ∉ (σ' .rand).source.toList
        rw [sr.source]; exact hsrc
      obtain ⟨py, q1, q2⟩ := C148_same_file_partial hF hpr dv hx' mo (dim := R.2) (compute := fun _ => R.1) fit hl
      have q1' : pySaved F f3 (.window (infoCpp (σ' .rand))) (decide (Three s'.c.statType))
        (hpCpp s'.c) N (fun _ => R.1) = .ok py := q1
      refine .inr ⟨_, py, σ', rfl, ?_, rfl, q2⟩
      simp only [q1']

/-! ### The hypotheses are met -/

/-- A two-point window. -/
def exWindow : Dict ℚ :=
  { exSurvey with
    alignment := some "centre", catType := some "random", statType := some "2pcf-win" }

/-- Functions which give a window in one bin. -/
noncomputable def exWinKern : WinKern :=
  { norms := fun _ _ => .ok ⟨1, 2, 3⟩
    compute := fun c _ p f =>
      if p.statType = "2pcf-win" then .ok (.xi ⟨[1], [1], [6], [(c.wstotal * f : ℝ)]⟩, 1)
      else .error .invalidParameter }

theorem exWinKern_fits : exWinKern.Fits := by
  intro c l p f r h
  unfold exWinKern at h
  simp only at h
  split_ifs at h with hs
  injection h with h
  subst h
  exact ⟨.inr hs, rfl, rfl, rfl, rfl⟩

/-- A Python set, a catalogue and functions which meet the hypotheses; both save a file. -/
example : ∃ s : PySet ℝ, construct (castE (exEnv true)) 1 (castD exWindow) = some (s, none) ∧ Written s.d ∧
    s.c.catType = "random" ∧
    ∃ file file', programWin unaryFmt unary exWinKern (fun _ => cpp2 0 1) s.c = .ok file ∧
      pythonWin unaryFmt unary exWinKern false (fun _ : Unit => "extdata".toList) (fun _ => py2 0 1) () s = .ok file' := by
  obtain ⟨s, h1, h2⟩ := construct_some (d := exWindow)
    (P := fun s => s.d.alignment = some "centre" ∧ s.d.padscale = some "box" ∧ s.d.assignment = some "tsc" ∧
      s.d.norm = some "mesh" ∧ s.d.statType = some "2pcf-win" ∧ s.d.padfactor.isSome ∧ (∀ i, (s.d.box i).isSome) ∧
      (s.d.ell1.isSome ∧ s.d.ell2.isSome ∧ s.d.ELL.isSome ∧ s.d.iWa.isSome ∧ s.d.jWa.isSome) ∧
      s.c.catType = "random" ∧ s.c.statType = "2pcf-win" ∧ s.c.alignment = "centre" ∧ s.c.norm = "mesh" ∧
      ∀ i, 1 ≤ s.c.box i) (by decide +kernel)
  obtain ⟨p1, p2, p3, p4, p5, p6, p7, p8, p9, p10, p11, p12, p13⟩ := h2
  have hc0 : castS ⟨exWindow, Params.default⟩ = ⟨castD exWindow, Params.default⟩ := by
    simp [castS, castP, Params.default]
  have hc : construct (castE (exEnv true)) 1 (castD exWindow) = some (castS s, none) := by
    unfold construct
    rw [← hc0]
    exact pParse_cast (exEnv true) 0 _ _ h1 (fun _ => 64) (by decide +kernel) (by norm_num)
  have hw : Written (castS s).d := by
    refine ⟨⟨_, p1, ?_⟩, ⟨_, p2, ?_⟩, ⟨_, p3, ?_⟩, ⟨_, p4, ?_⟩, ⟨_, p5, ?_⟩, ?_, ?_, p8⟩
    any_goals unfold LowerCase; decide +kernel
    · show (s.d.padfactor.map _).isSome
      rw [Option.isSome_map]; exact p6
    · intro i
      show ((s.d.box i).map _).isSome
      rw [Option.isSome_map]; exact p7 i
  refine ⟨castS s, hc, hw, p9, ?_⟩
  have hst : (castS s).c.statType = "2pcf-win" := p10
  have hno : (castS s).c.norm = "mesh" := p12
  have hd : decide (Three (castS s).c.statType) = false := by rw [hst]; decide
  have hb : ∀ i, 1 ≤ (castS s).c.box i := fun i => by
    show (1 : ℝ) ≤ ((s.c.box i : ℚ) : ℝ)
    exact_mod_cast p13 i
  have key := C152_window_partial unaryFmt_ok (f3 := unary) (nl_e unaryFmt_ok) exWinKern exWinKern_fits
    (castE (exEnv true)) 1 id ⟨castD exWindow, Params.default⟩ (castS s) hc hw (fun _ => 64) (fun _ => rfl) (by norm_num) p9
    (by rw [hst]; simp [measured]) (by rw [hst]; intro h; exact absurd h (by decide)) p11
    (by rw [hno]; decide)
    (fun _ => cpp2 0 1) (fun _ => py2 0 1) (fun _ : Unit => "extdata".toList) ()
    (by decide) (same2 (by norm_num)) (fun i => lt_of_lt_of_le one_pos (hb i))
    (fun i => by have := hb i; simp only [py2]; linarith)
  rw [hd] at key
  rcases key with ⟨x, hx, -⟩ | ⟨file, file', -, k1, k2, -⟩
  · exfalso
    unfold programWin at hx
    obtain ⟨σ', -, -, e2, -⟩ := window_align (fun _ => cpp2 0 1) (holding2 0 1).loaded (castS s).c p9 p11
    simp only [e2, bind, Except.bind, exWinKern, hst, if_true, reduceCtorEq] at hx
  · exact ⟨file, file', k1, k2⟩

end Trv.E2E

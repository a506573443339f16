import Verif.Props.EndToEndWin
import Verif.Spec.EndToEndBox
import Verif.Model.TwoPt
/-
C152 for simulations: the program and the Python functions save the same file for the same catalogue in a
periodic box, if the particles surround the middle of the box.
-/
set_option linter.unusedSectionVars false
namespace Trv.E2E

open Trv Trv.Par Trv.Mon Trv.Cat Trv.Prog Trv.Out

variable {ι : Type} [DecidableEq ι]

/-! ### What alignment leaves -/

/-- The catalogue of the program after wrapping. -/
theorem box_final {σ : CStore Which ℝ} (hd : (σ .data).Loaded) {p : Params ℝ} (hc : p.catType = "sim") :
    ∃ σ', alignCats σ p = .ok σ' ∧ (σ' .data).Loaded ∧ (σ' .data).TrueExtents ∧
      (σ' .data).source = (σ .data).source ∧ (σ' .data).wtotal = (σ .data).wtotal ∧
      (σ' .data).wstotal = (σ .data).wstotal ∧
      (σ' .data).particles = (σ .data).particles.map fun q => { q with
        pos := fun i => wrapCoord (p.box i) (q.pos i) } := by
  obtain ⟨c1, e1, h1, x1, h2⟩ := C25_cpp_catalogue_partial (σ .data) hd p.box
  obtain ⟨s3, t3, u3⟩ := periodic_totals e1
  refine ⟨Function.update σ .data c1, ?_, ?_⟩
  · unfold alignCats
    rw [if_neg (by rw [hc]; decide), if_pos hc]
    simp only [e1, bind, Except.bind]
  · rw [Function.update_self]
    exact ⟨h1, x1, s3, t3, u3, h2⟩

/-- The catalogue of Python after wrapping. -/
theorem box_final_py (τ : Cat.Store ι ℝ) (data : ι) (hs : (τ data).Shape) (L : V3 ℝ)
    (hz : ∃ z ∈ (τ data).nz, z ≠ 0) :
    ∃ τ', (Meas.sim data L).run τ = .ok (τ', ⟨[(τ' data).sent], []⟩) ∧
      (τ' data).TrueBounds ∧ (τ' data).ntotal = (τ data).ntotal ∧
      (τ' data).wtotal = (τ data).wtotal ∧ (τ' data).wstotal = (τ data).wstotal ∧
      (τ' data).nz = (τ data).nz ∧ (τ' data).ws = (τ data).ws ∧ (τ' data).wc = (τ data).wc ∧
      ∀ i, (τ' data).pos i = ((τ data).pos i).map fun x =>
        pyMod (x + L i / 2 - (((τ data).bounds i).2 + ((τ data).bounds i).1) / 2) (L i) := by
  obtain ⟨b, e2, tb⟩ := calcBounds_ok _ (Shape.mapPos hs fun i x =>
    pyMod (x + L i / 2 - (((τ data).bounds i).2 + ((τ data).bounds i).1) / 2) (L i))
  obtain ⟨c, hc⟩ : ∃ c : PyCat ℝ, c = { τ data with
      pos := fun i => ((τ data).pos i).map fun x =>
        pyMod (x + L i / 2 - (((τ data).bounds i).2 + ((τ data).bounds i).1) / 2) (L i),
      bounds := b } := ⟨_, rfl⟩
  have e3 : (τ data).periodise L = .ok c := by rw [hc]; exact e2
  have e4 : insertDensity c L = .ok c := by
    unfold insertDensity
    rw [if_neg]
    rw [hc]
    push Not
    exact hz
  refine ⟨Function.update τ data c, ?_, ?_⟩
  · simp only [Meas.run, bind, Except.bind, e3, e4, Function.update_self]
  · rw [Function.update_self, hc]
    exact ⟨tb, rfl, rfl, rfl, rfl, rfl, rfl, fun _ => rfl⟩

/-- The catalogues of both after wrapping. -/
theorem aligned_box (σ : CStore Which ℝ) (τ : Cat.Store ι ℝ) (src : Str) (data : ι)
    (hr : SameCat (σ .data) src (τ data)) (p : Params ℝ) (hc : p.catType = "sim") (hL : ∀ i, 0 < p.box i)
    (hs : Centred (τ data) p.box) (hz : ∃ z ∈ (τ data).nz, z ≠ 0) :
    ∃ σ' τ', alignCats σ p = .ok σ' ∧
      (Meas.sim data p.box).run τ = .ok (τ', ⟨[(τ' data).sent], []⟩) ∧ SameCat (σ' .data) src (τ' data) := by
  obtain ⟨σ', e, l1, x1, x2, x3, x4, x5⟩ := box_final hr.holds.loaded hc
  obtain ⟨τ', e', y1, y2, y3, y4, n1, n2, n3, n4⟩ := box_final_py τ data hr.holds.shape p.box hz
  refine ⟨σ', τ', e, e', hr.wrapped (g := fun q i => wrapCoord (p.box i) (q.pos i))
    ⟨l1, fun i => ?_, ?_, ?_, ?_⟩ x1 y1 ⟨x2, x3, x4⟩ ⟨y2, y3, y4⟩ x5⟩
  · show (τ' data).pos i = _
    rw [n4, x5, show (τ data).pos i = _ from hr.holds.pos i, List.map_map, List.map_map]
    apply List.map_congr_left
    intro q hq
    obtain ⟨s1, s2⟩ := hs i
    have hge : ((τ data).bounds i).1 ≤ q.pos i := by
      have := hr.bounds i
      rw [show (τ data).pos i = _ from hr.holds.pos i] at this
      exact this.1.2 (List.mem_map.2 ⟨q, hq, rfl⟩)
    simp only [Function.comp]
    rw [wrapCoord_eq (hL i)]
    · congr 1
      linarith
    · intro m hm hbad
      have hm' : (1 : ℝ) ≤ m := by exact_mod_cast hm
      nlinarith [hL i]
  · show (τ' data).nz = _
    rw [n1, x5, show (τ data).nz = _ from hr.holds.nz]
    simp [Function.comp_def]
  · show (τ' data).ws = _
    rw [n2, x5, show (τ data).ws = _ from hr.holds.ws]
    simp [Function.comp_def]
  · show (τ' data).wc = _
    rw [n3, x5, show (τ data).wc = _ from hr.holds.wc]
    simp [Function.comp_def]

/-! ### C152, simulations -/

/-- **C152, simulations.**  For the same catalogue in a periodic box, with an accepted Python set and the same
parameters in the program, the program and the Python function fail in the same way or save the same file, up to
the marks which `Differ` lists.  (Partial: the particles surround the middle of the box and span less than three
boxes (`C130_box_violated`), some density is not zero (`C152_box_density_violated`), the
options are written in lower-case letters, all entries are set, the convention is not `"mesh-mixed"`, and the
degrees of three-point statistics have at most seven digits.) -/
theorem C152_box_partial {F : Fmt} {rd : ℝ → ℝ} (hF : F.Ok rd) {f3 : ℝ → Str} (h3 : ∀ x, '\n' ∉ f3 x)
    (A : BoxKern) (hA : A.Fits)
    (e : Env ℝ) (fuel : ℕ) (f : Dict ℝ → Dict ℝ) (s s' : PySet ℝ) (h : assign e fuel f s = some (s', none))
    (hw : Written s'.d) (n : Fin 3 → ℤ) (hn : ∀ i, (f s.d).ngrid i = some (n i)) (hpos : 0 < n 0 * n 1 * n 2)
    (hc : s'.c.catType = "sim") (hm : s'.c.statType ∈ measured)
    (hl : Three s'.c.statType → (degs (hpCpp s'.c).p).length ≤ 7)
    (hx : s'.c.norm ≠ "mesh-mixed")
    (σ : CStore Which ℝ) (τ : Cat.Store ι ℝ) (src : ι → Str) (data : ι) (hsrc : '\n' ∉ src data)
    (hr : SameCat (σ .data) (src data) (τ data)) (hL : ∀ i, 0 < s'.c.box i)
    (hs : Centred (τ data) s'.c.box) (hz : ∃ z ∈ (τ data).nz, z ≠ 0) :
    (∃ x, programBox F f3 A σ s'.c = .error x ∧
      pythonBox F f3 A (decide (Three s'.c.statType)) src τ data s' = .error (.cpp x)) ∨
    ∃ file file' σ', programBox F f3 A σ s'.c = .ok file ∧
      pythonBox F f3 A (decide (Three s'.c.statType)) src τ data s' = .ok file' ∧ alignCats σ s'.c = .ok σ' ∧
      List.Forall₂ (fun l m => l = m ∨
        Differ f3 (.box (infoCpp (σ' .data))) (hpCpp s'.c) l m) file' file := by
  have hag := C35_accepted_agree_partial e fuel f s s' h
  have hD := (C152_program_accepts e fuel f s s' h (by rw [hc]; simp) hm).choose_spec.2.2.toDerived
  obtain ⟨m1, m2⟩ := C35_mesh_partial e fuel f s s' n hn hpos h
  have hg : ∀ i, s'.d.ngrid i = some (s'.c.ngrid i) := fun i => by rw [m1, m2, hn]
  have hbox : (fun i => (s'.d.box i).getD 0) = s'.c.box := funext fun i => by rw [hag.box hw.box i]; rfl
  obtain ⟨σ', τ', a1, a2, sr⟩ := aligned_box σ τ (src data) data hr s'.c hc hL hs hz
  obtain ⟨cr, r1, r2⟩ := toCpp_eq sr.holds sr.extents sr.weight sr.totals
  obtain ⟨dv, -⟩ := derived hD (by
    simp only [measured, List.mem_cons, List.not_mem_nil, or_false] at hm ⊢
    rcases hm with h | h | h | h | h | h | h <;> rw [h] <;> decide)
  have ir := info_eq sr
  have hnorm : s'.d.norm = some s'.c.norm := lower_same hw.norm hag.norm
  unfold programBox pythonBox
  rw [hbox, a2]
  simp only [a1, ofPy, ofCpp, bind, Except.bind, r1, r2, ir, factorOf, hnorm, hp_eq hag hw hg hD.interlace,
    pySaved_names]
  generalize hno : A.norms _ _ = N
  cases N with
  | error x => exact .inl ⟨x, rfl, rfl⟩
  | ok N =>
    obtain ⟨x, hx'⟩ := selects (n := N) hD
    have mo : MixedOk (.box (infoCpp (σ' .data))) (hpCpp s'.c) := fun h => absurd h hx
    have u1 := (cppUsed_eq dv (k := .box (infoCpp (σ' .data))) hx' mo F).1
    have u2' : pyUsed (.box (infoCpp (σ' .data))) s'.c.norm
      (pyNorms (.box (infoCpp (σ' .data))) (decide (Three s'.c.statType)) N) = .ok x :=
        (pyUsed_eq (k := .box (infoCpp (σ' .data))) (h := hpCpp s'.c) hx' mo).1
    simp only [u1, u2']
    generalize hco : A.compute _ _ _ = R
    cases R with
    | error y => exact .inl ⟨y, rfl, rfl⟩
    | ok R =>
      have fit := hA _ _ _ _ hco
      have hpr : Printable f3 (.box (infoCpp (σ' .data))) (hpCpp s'.c) := by
        refine printable hD h3 ?_
        intro y hy
        simp only [Kind.cats, List.mem_cons, List.not_mem_nil, or_false] at hy
        subst hy
        show '\n' ∉ (σ' .data).source.toList
        rw [sr.source]; exact hsrc
      obtain ⟨py, q1, q2⟩ := C148_same_file_partial hF hpr dv hx' mo (dim := R.2) (compute := fun _ => R.1) fit hl
      have q1' : pySaved F f3 (.box (infoCpp (σ' .data))) (decide (Three s'.c.statType))
        (hpCpp s'.c) N (fun _ => R.1) = .ok py := q1
      refine .inr ⟨_, py, σ', rfl, ?_, rfl, q2⟩
      simp only [q1']


/-! ### Catalogues without densities -/

/-- The same particles with another density. -/
def CppDens (c : CppCat ℝ) (z : ℝ) : CppCat ℝ :=
  { c with pdata := c.pdata.map fun l => l.map fun q => { q with nz := z } }

def PyDens (c : PyCat ℝ) (z : ℝ) : PyCat ℝ := { c with nz := List.replicate (c.pos 0).length z }

theorem cppDens_particles (c : CppCat ℝ) (z : ℝ) :
    (CppDens c z).particles = c.particles.map fun q => { q with nz := z } := by
  unfold CppDens CppCat.particles
  cases c.pdata <;> rfl

theorem sameDens {c : CppCat ℝ} {src : Str} {d : PyCat ℝ} (h : SameCat c src d) (z : ℝ) :
    SameCat (CppDens c z) src (PyDens d z) := by
  have hp := cppDens_particles c z
  refine ⟨⟨?_, fun i => ?_, ?_, ?_, ?_⟩, ?_, h.bounds, ?_, ?_, h.totalsPy, h.source⟩
  · obtain ⟨l, h1, h2, h3⟩ := h.holds.loaded
    refine ⟨l.map fun q => { q with nz := z }, ?_, ?_, ?_⟩
    · show c.pdata.map _ = _
      rw [h1]; rfl
    · simpa using h2
    · rw [List.length_map]; exact h3
  · rw [hp, List.map_map]
    exact h.holds.pos i
  · have := h.holds.pos 0
    show List.replicate (d.pos 0).length z = _
    rw [hp, List.map_map, show d.pos 0 = _ from this, List.length_map]
    show _ = c.particles.map fun _ => z
    rw [List.map_const']
  · rw [hp, List.map_map]
    exact h.holds.ws
  · rw [hp, List.map_map]
    exact h.holds.wc
  · intro i
    have := h.extents i
    unfold CppCat.TrueExtents at *
    rw [hp, List.map_map]
    exact this
  · intro q hq
    rw [hp, List.mem_map] at hq
    obtain ⟨q, hq, rfl⟩ := hq
    exact h.weight q hq
  · rw [hp, List.map_map, List.map_map]
    exact h.totals

/-- Python fills in the density before it hands the particles over. -/
theorem sim_dens (τ : Cat.Store ι ℝ) (data : ι) (hs : (τ data).Shape) (hz : ∀ z ∈ (τ data).nz, z = 0)
    {L : V3 ℝ} {z : ℝ} (hv : z = ((τ data).ntotal : ℝ) / (L 0 * L 1 * L 2)) (hz0 : z ≠ 0) :
    (Meas.sim data L).run τ = (Meas.sim data L).run (Function.update τ data (PyDens (τ data) z)) := by
  obtain ⟨b, e1, -⟩ := calcBounds_ok _ (Shape.mapPos hs fun i x =>
    pyMod (x + L i / 2 - (((τ data).bounds i).2 + ((τ data).bounds i).1) / 2) (L i))
  obtain ⟨c, hc⟩ : ∃ c : PyCat ℝ, c = { τ data with
      pos := fun i => ((τ data).pos i).map fun x =>
        pyMod (x + L i / 2 - (((τ data).bounds i).2 + ((τ data).bounds i).1) / 2) (L i),
      bounds := b } := ⟨_, rfl⟩
  have e3 : (τ data).periodise L = .ok c := by rw [hc]; exact e1
  have e4 : (PyDens (τ data) z).periodise L = .ok { c with nz := List.replicate ((τ data).pos 0).length z } := by
    rw [hc]
    have e1' := e1
    unfold PyCat.calcBounds at e1'
    show PyCat.calcBounds _ = _
    unfold PyCat.calcBounds
    simp only [PyDens] at e1' ⊢
    split at e1'
    · next h1 h2 h3 =>
      simp only [h1, h2, h3]
      injection e1' with e1'
      have : b = ![_, _, _] := (congrArg PyCat.bounds e1').symm
      rw [this]
    · cases e1'
  have e5 : insertDensity c L = .ok { c with nz := List.replicate ((τ data).pos 0).length z } := by
    unfold insertDensity PyCat.meanDensity
    rw [hc, if_pos hz, hv]
    simp
  have e6 : insertDensity { c with nz := List.replicate ((τ data).pos 0).length z } L
      = .ok { c with nz := List.replicate ((τ data).pos 0).length z } := by
    unfold insertDensity
    rw [if_neg]
    push Not
    exact ⟨z, List.mem_replicate.2 ⟨hs.1.ne', rfl⟩, hz0⟩
  simp only [Meas.run, bind, Except.bind, e3, e5, Function.update_self, e4, e6, Function.update_idem]

/-- The program fails if the sum of the normalisation vanishes. -/
theorem box_dens {F : Fmt} {f3 : ℝ → Str} {A : BoxKern} {n : ℕ} {p : Params ℝ} (hA : A.Strict n p)
    (hc : p.catType = "sim") {σ : CStore Which ℝ} (hd : (σ .data).Loaded)
    (h0 : densitySum n (σ .data) = 0) : programBox F f3 A σ p = .error .invalidData := by
  obtain ⟨σ', e, -, -, -, -, -, x⟩ := box_final hd hc
  have : densitySum n (bare (σ' .data)) = 0 := by
    rw [← h0]
    unfold densitySum
    show ((σ' .data).particles.map _).sum = _
    rw [x, List.map_map]
    rfl
  unfold programBox
  simp only [e, bind, Except.bind, hA.zero _ this]

/-- It succeeds if the sum does not vanish and nothing else fails. -/
theorem box_dens_ok {F : Fmt} {f3 : ℝ → Str} {A : BoxKern} {n : ℕ} {p : Params ℝ} (hA : A.Strict n p)
    (hc : p.catType = "sim") {σ : CStore Which ℝ} (hd : (σ .data).Loaded)
    (h0 : densitySum n (σ .data) ≠ 0) : ∃ file, programBox F f3 A σ p = .ok file := by
  obtain ⟨σ', e, -, -, -, -, -, x⟩ := box_final hd hc
  have : densitySum n (bare (σ' .data)) ≠ 0 := by
    refine fun h => h0 (Eq.trans ?_ h)
    unfold densitySum
    show _ = ((σ' .data).particles.map _).sum
    rw [x, List.map_map]
    rfl
  obtain ⟨N, hN⟩ := hA.ok _ this
  obtain ⟨r, hr⟩ := hA.compute (bare (σ' .data)) (cppUsed (hpCpp p) (cppNorms (.box (infoCpp (σ' .data))) (hpCpp p) N))
  unfold programBox
  simp only [e, bind, Except.bind, hN, hr]
  exact ⟨_, rfl⟩

/-- **C152, simulations (violated).**  For a simulation without densities the program fails, whichever convention
of normalisation is chosen, while the Python function fills in the mean density and saves a file. -/
theorem C152_box_density_violated {F : Fmt} {rd : ℝ → ℝ} (hF : F.Ok rd) {f3 : ℝ → Str} (h3 : ∀ x, '\n' ∉ f3 x)
    (A : BoxKern) (hA : A.Fits) {m : ℕ} (hm2 : 2 ≤ m)
    (e : Env ℝ) (fuel : ℕ) (f : Dict ℝ → Dict ℝ) (s s' : PySet ℝ) (h : assign e fuel f s = some (s', none))
    (hw : Written s'.d) (n : Fin 3 → ℤ) (hn : ∀ i, (f s.d).ngrid i = some (n i)) (hpos : 0 < n 0 * n 1 * n 2)
    (hA' : A.Strict m s'.c) (hc : s'.c.catType = "sim") (hm : s'.c.statType ∈ measured)
    (hl : Three s'.c.statType → (degs (hpCpp s'.c).p).length ≤ 7) (hx : s'.c.norm ≠ "mesh-mixed")
    (σ : CStore Which ℝ) (τ : Cat.Store ι ℝ) (src : ι → Str) (data : ι) (hsrc : '\n' ∉ src data)
    (hr : SameCat (σ .data) (src data) (τ data)) (hL : ∀ i, 0 < s'.c.box i) (hs : Centred (τ data) s'.c.box)
    (hz : ∀ q ∈ (σ .data).particles, q.nz = 0)
    (hwt : ((σ .data).particles.map fun q => q.ws * q.wc ^ m).sum ≠ 0) :
    programBox F f3 A σ s'.c = .error .invalidData ∧
      ∃ file, pythonBox F f3 A (decide (Three s'.c.statType)) src τ data s' = .ok file := by
  constructor
  · refine box_dens hA' hc hr.holds.loaded ?_
    unfold densitySum
    rw [List.map_congr_left (g := fun _ => (0 : ℝ))]
    · simp
    · intro q hq
      rw [hz q hq, zero_pow (by omega)]
      ring
  · obtain ⟨z, hzv⟩ : ∃ z, z = ((τ data).ntotal : ℝ) / (s'.c.box 0 * s'.c.box 1 * s'.c.box 2) := ⟨_, rfl⟩
    have hz0 : z ≠ 0 := by
      have h0 := hL 0
      have h1 := hL 1
      have h2 := hL 2
      have : ((τ data).ntotal : ℝ) ≠ 0 := by
        rw [hr.totalsPy.1]
        exact_mod_cast hr.holds.shape.1.ne'
      rw [hzv]
      positivity
    have hzp : ∀ y ∈ (τ data).nz, y = 0 := by
      intro y hy
      rw [show (τ data).nz = _ from hr.holds.nz, List.mem_map] at hy
      obtain ⟨q, hq, rfl⟩ := hy
      exact hz q hq
    have hbox : (fun i => (s'.d.box i).getD 0) = s'.c.box :=
      funext fun i => by rw [(C35_accepted_agree_partial e fuel f s s' h).box hw.box i]; rfl
    have key := C152_box_partial hF h3 A hA e fuel f s s' h hw n hn hpos hc hm hl hx
      (Function.update σ .data (CppDens (σ .data) z)) (Function.update τ data (PyDens (τ data) z)) src data hsrc
      (by rw [Function.update_self, Function.update_self]; exact sameDens hr z) hL
      (by rw [Function.update_self]; exact hs)
      (by
        rw [Function.update_self]
        exact ⟨z, List.mem_replicate.2 ⟨hr.holds.shape.1.ne', rfl⟩, hz0⟩)
    have same : pythonBox F f3 A (decide (Three s'.c.statType)) src τ data s' =
        pythonBox F f3 A (decide (Three s'.c.statType)) src (Function.update τ data (PyDens (τ data) z)) data s' := by
      unfold pythonBox
      rw [hbox, ← sim_dens τ data hr.holds.shape hzp hzv hz0]
    rw [same]
    rcases key with ⟨x, k, -⟩ | ⟨file, file', -, -, k, -⟩
    · exfalso
      obtain ⟨file, hf⟩ := box_dens_ok (F := F) (f3 := f3) hA' hc
        (σ := Function.update σ .data (CppDens (σ .data) z))
        (by rw [Function.update_self]; exact (sameDens hr z).holds.loaded) (by
          rw [Function.update_self]
          unfold densitySum
          rw [cppDens_particles, List.map_map]
          show ((σ .data).particles.map fun q => q.ws * z ^ (m - 1) * q.wc ^ m).sum ≠ 0
          rw [List.map_congr_left (g := fun q => z ^ (m - 1) * (q.ws * q.wc ^ m)) (by intros; ring), List.sum_map_mul_left]
          exact mul_ne_zero (pow_ne_zero _ hz0) hwt)
      rw [k] at hf
      cases hf
    · exact ⟨file', k⟩

/-! ### The hypotheses are met -/

/-- A power spectrum of a simulation. -/
def exSim : Dict ℚ :=
  { exSurvey with catType := some "sim" }

/-- Functions which give a power spectrum in one bin, with the normalisation from particles. -/
noncomputable def exBoxKern : BoxKern :=
  { norms := fun c _ =>
      match Trv.Two.normParticles (c.particles.map fun q => ⟨q.pos, q.pos, q.nz, q.ws, q.wc⟩) 1 with
      | .ok x => .ok ⟨x, 2, 0⟩
      | .error x => .error x
    compute := fun c p f =>
      if p.statType = "powspec" then .ok (.pk ⟨[1], [1], [6], [(c.wstotal * f : ℝ)], [0]⟩, 1)
      else .error .invalidParameter }

theorem exBoxKern_fits : exBoxKern.Fits := by
  intro c p f r h
  unfold exBoxKern at h
  simp only at h
  split_ifs at h with hs
  injection h with h
  subst h
  exact ⟨hs, rfl, rfl, rfl, rfl, rfl⟩

theorem exBoxKern_strict (p : Params ℝ) (hp : p.statType = "powspec") : exBoxKern.Strict 2 p := by
  have h : ∀ c : CppCat ℝ, ((c.particles.map fun q => (⟨q.pos, q.pos, q.nz, q.ws, q.wc⟩ : Trv.Two.Part)).map fun q =>
      q.ws * q.nz * q.wc ^ 2).sum = densitySum 2 c := by
    intro c
    unfold densitySum
    rw [List.map_map]
    simp [Function.comp_def]
  refine ⟨fun c h0 => ?_, fun c h0 => ?_, fun c f => ?_⟩
  · simp only [exBoxKern, Trv.Two.normParticles, h, h0, if_true]
  · simp only [exBoxKern, Trv.Two.normParticles, h, if_neg h0]
    exact ⟨_, rfl⟩
  · simp only [exBoxKern, if_pos hp]
    exact ⟨_, rfl⟩

/-- A Python set of a simulation which meets the hypotheses. -/
theorem exSim_set : ∃ s : PySet ℝ, construct (castE (exEnv true)) 1 (castD exSim) = some (s, none) ∧ Written s.d ∧
    s.c.catType = "sim" ∧ s.c.statType = "powspec" ∧ s.c.norm = "mesh" ∧ ∀ i, s.c.box i = 1000 := by
  obtain ⟨s, h1, h2⟩ := construct_some (d := exSim)
    (P := fun s => s.d.alignment = some "pad" ∧ s.d.padscale = some "box" ∧ s.d.assignment = some "tsc" ∧
      s.d.norm = some "mesh" ∧ s.d.statType = some "powspec" ∧ s.d.padfactor.isSome ∧ (∀ i, (s.d.box i).isSome) ∧
      (s.d.ell1.isSome ∧ s.d.ell2.isSome ∧ s.d.ELL.isSome ∧ s.d.iWa.isSome ∧ s.d.jWa.isSome) ∧
      s.c.catType = "sim" ∧ s.c.statType = "powspec" ∧ s.c.norm = "mesh" ∧
      ∀ i, s.c.box i = 1000) (by decide +kernel)
  obtain ⟨p1, p2, p3, p4, p5, p6, p7, p8, p9, p10, p12, p13⟩ := h2
  have hc0 : castS ⟨exSim, Params.default⟩ = ⟨castD exSim, Params.default⟩ := by
    simp [castS, castP, Params.default]
  have hc : construct (castE (exEnv true)) 1 (castD exSim) = some (castS s, none) := by
    unfold construct
    rw [← hc0]
    exact pParse_cast (exEnv true) 0 _ _ h1 (fun _ => 64) (by decide +kernel) (by norm_num)
  have hw : Written (castS s).d := by
    refine ⟨⟨_, p1, ?_⟩, ⟨_, p2, ?_⟩, ⟨_, p3, ?_⟩, ⟨_, p4, ?_⟩, ⟨_, p5, ?_⟩, ?_, ?_, p8⟩
    any_goals unfold LowerCase; decide +kernel
    · show (s.d.padfactor.map _).isSome
      rw [Option.isSome_map]; exact p6
    · intro i
      show ((s.d.box i).map _).isSome
      rw [Option.isSome_map]; exact p7 i
  refine ⟨castS s, hc, hw, p9, p10, p12, fun i => ?_⟩
  show ((s.c.box i : ℚ) : ℝ) = 1000
  rw [p13 i]
  norm_num

theorem centred2 {L : V3 ℝ} (hL : ∀ i, L i = 1000) : Centred (py2 0 1000) L := by
  intro i
  rw [hL]
  simp only [py2]
  norm_num

/-- With densities both save a file. -/
example : ∃ s : PySet ℝ, construct (castE (exEnv true)) 1 (castD exSim) = some (s, none) ∧
    ∃ file file', programBox unaryFmt unary exBoxKern (fun _ => cpp2 0 1000) s.c = .ok file ∧
      pythonBox unaryFmt unary exBoxKern false (fun _ : Unit => "extdata".toList) (fun _ => py2 0 1000) () s = .ok file' := by
  obtain ⟨s, hc, hw, p1, p2, p3, p4⟩ := exSim_set
  refine ⟨s, hc, ?_⟩
  have hd : decide (Three s.c.statType) = false := by rw [p2]; decide
  have key := C152_box_partial unaryFmt_ok (f3 := unary) (nl_e unaryFmt_ok) exBoxKern exBoxKern_fits
    (castE (exEnv true)) 1 id ⟨castD exSim, Params.default⟩ s hc hw (fun _ => 64) (fun _ => rfl) (by norm_num) p1
    (by rw [p2]; simp [measured]) (by rw [p2]; intro h; exact absurd h (by decide)) (by rw [p3]; decide)
    (fun _ => cpp2 0 1000) (fun _ => py2 0 1000) (fun _ : Unit => "extdata".toList) ()
    (by decide) (same2 (by norm_num)) (fun i => by rw [p4]; norm_num) (centred2 p4)
    ⟨1, by simp [py2], one_ne_zero⟩
  rw [hd] at key
  obtain ⟨file, hf⟩ := box_dens_ok (F := unaryFmt) (f3 := unary) (exBoxKern_strict s.c p2) p1
    (σ := fun _ => cpp2 0 1000) (holding2 0 1000).loaded (by norm_num [densitySum, CppCat.particles, cpp2])
  rcases key with ⟨x, hx, -⟩ | ⟨file, file', -, k1, k2, -⟩
  · rw [hf] at hx; cases hx
  · exact ⟨file, file', k1, k2⟩

/-- Without densities the program fails and Python saves a file. -/
example : ∃ s : PySet ℝ, construct (castE (exEnv true)) 1 (castD exSim) = some (s, none) ∧
    programBox unaryFmt unary exBoxKern (fun _ => CppDens (cpp2 0 1000) 0) s.c = .error .invalidData ∧
    ∃ file, pythonBox unaryFmt unary exBoxKern false (fun _ : Unit => "extdata".toList)
      (fun _ => PyDens (py2 0 1000) 0) () s = .ok file := by
  obtain ⟨s, hc, hw, p1, p2, p3, p4⟩ := exSim_set
  refine ⟨s, hc, ?_⟩
  have hd : decide (Three s.c.statType) = false := by rw [p2]; decide
  have key := C152_box_density_violated unaryFmt_ok (f3 := unary) (nl_e unaryFmt_ok) exBoxKern exBoxKern_fits le_rfl
    (castE (exEnv true)) 1 id ⟨castD exSim, Params.default⟩ s hc hw (fun _ => 64) (fun _ => rfl) (by norm_num)
    (exBoxKern_strict s.c p2) p1
    (by rw [p2]; simp [measured]) (by rw [p2]; intro h; exact absurd h (by decide)) (by rw [p3]; decide)
    (fun _ => CppDens (cpp2 0 1000) 0) (fun _ => PyDens (py2 0 1000) 0) (fun _ : Unit => "extdata".toList) ()
    (by decide) (sameDens (same2 (by norm_num)) 0) (fun i => by rw [p4]; norm_num) (centred2 p4)
    (by
      intro q hq
      rw [cppDens_particles, List.mem_map] at hq
      obtain ⟨q, -, rfl⟩ := hq
      rfl)
    (by norm_num [CppDens, CppCat.particles, cpp2])
  rw [hd] at key
  exact key

end Trv.E2E

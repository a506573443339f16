import Verif.Spec.Handover
import Verif.Props.CatalogueCpp
import Verif.Props.Session
/-
C130: the program and the Python package hand the same particles to the algorithms.
-/
set_option linter.unusedSectionVars false
namespace Trv.Prog

open Trv Trv.Par Trv.Cat

variable {ι : Type} [DecidableEq ι]

/-! ### Lemmas -/

theorem Holding.shape {c : CppCat ℝ} {d : PyCat ℝ} (h : Holding c d.sent) : d.Shape := by
  obtain ⟨ps, h1, h2, -⟩ := h.loaded
  have hp : c.particles = ps := by simp [CppCat.particles, h1]
  have e : ∀ i, d.pos i = ps.map fun p => p.pos i := fun i => by rw [← hp]; exact h.pos i
  have en : d.nz = ps.map fun p => p.nz := by rw [← hp]; exact h.nz
  have es : d.ws = ps.map fun p => p.ws := by rw [← hp]; exact h.ws
  have ec : d.wc = ps.map fun p => p.wc := by rw [← hp]; exact h.wc
  refine ⟨?_, fun i => ?_, ?_, ?_, ?_⟩
  · rw [e, List.length_map]; exact List.length_pos_iff.2 h2
  · rw [e, e, List.length_map, List.length_map]
  · rw [en, e, List.length_map, List.length_map]
  · rw [es, e, List.length_map, List.length_map]
  · rw [ec, e, List.length_map, List.length_map]

/-- The lines of sight are computed from the same positions. -/
theorem Holding.los_eq {c : CppCat ℝ} {d : PyCat ℝ} (h : Holding c d.sent) :
    computeLos d = losOf los c := by
  unfold computeLos losOf
  have e : ∀ i, d.pos i = c.particles.map fun p => p.pos i := h.pos
  rw [e 0, List.length_map]
  apply List.ext_getElem
  · simp [CppCat.particles]
  · intro k hk hk'
    simp only [List.length_map, List.length_range] at hk
    simp only [List.getElem_map, List.getElem_range]
    congr 1
    funext i
    have hk2 : k < (c.pdata.getD []).length := hk
    rw [e i, List.getD_eq_getElem?_getD]
    simp [CppCat.particles, List.getElem?_eq_getElem hk2]

theorem Holding.shift {c c' : CppCat ℝ} {d : PyCat ℝ} (h : Holding c d.sent) {o : V3 ℝ}
    {mn mx : V3 ℝ} (h' : Holds c' (c.particles.map (Particle.shift o)) mn mx) :
    Holding c' (sentAt d o) := by
  have hp : c'.particles = c.particles.map (Particle.shift o) := by
    simp [CppCat.particles, h'.1]
  refine ⟨h'.loaded, fun i => ?_, ?_, ?_, ?_⟩
  · rw [hp]
    show (d.pos i).map _ = _
    rw [show d.pos i = _ from h.pos i]
    simp [Particle.shift, Function.comp_def]
  · rw [hp]
    show d.nz = _
    rw [show d.nz = _ from h.nz]
    simp [Particle.shift, Function.comp_def]
  · rw [hp]
    show d.ws = _
    rw [show d.ws = _ from h.ws]
    simp [Particle.shift, Function.comp_def]
  · rw [hp]
    show d.wc = _
    rw [show d.wc = _ from h.wc]
    simp [Particle.shift, Function.comp_def]

/-- The displacement made by the program. -/
theorem alignBoth_origin {σ : CStore ι ℝ} {c r : ι} (hcr : c ≠ r) (hc : (σ c).Loaded)
    (tc : (σ c).TrueExtents) (hr : (σ r).Loaded) (p : Params ℝ)
    (h1 : p.alignment ∈ ["centre", "pad"]) (h2 : p.padscale ∈ ["box", "grid"]) :
    ∃ (σ' : CStore ι ℝ) (mn mx : V3 ℝ), alignBoth σ c r (alignOf p) = .ok σ' ∧
      (∀ i, IsExtent ((σ r).particles.map fun q => q.pos i) (mn i) (mx i)) ∧
      ShiftPair σ σ' c r ((pyAlign p).origin mn mx p.box fun i => (p.ngrid i).toNat) := by
  simp only [List.mem_cons, List.not_mem_nil, or_false] at h1 h2
  have g1 : (alignOf p).alignment = p.alignment := rfl
  have g2 : (alignOf p).padscale = p.padscale := rfl
  unfold alignBoth pyAlign
  rcases h1 with h1 | h1
  · rw [if_neg (by rw [g1, h1]; decide), if_pos (by rw [g1, h1]), if_neg (by rw [h1]; decide)]
    exact centreInBox2_ok hcr hc hr p.box
  · rw [if_pos (by rw [g1, h1]), if_pos h1]
    rcases h2 with h2 | h2
    · rw [if_neg (by rw [g2, h2]; decide), if_pos (by rw [g2, h2]), if_neg (by rw [h2]; decide)]
      exact padInBox2_ok hcr hc hr p.box fun _ => p.padfactor
    · rw [if_pos (by rw [g2, h2]), if_pos h2]
      obtain ⟨σ', mn, mx, e, hx, hs⟩ := padGrids2_ok hcr (Holds.of hc tc) hr p.box
        (fun i => (p.ngrid i).toNat) fun _ => p.padfactor
      refine ⟨σ', mn, mx, e, hx, ?_⟩
      have : (PyAlign.padGrid p.padfactor).origin mn mx p.box (fun i => (p.ngrid i).toNat)
          = fun i => mn i - p.padfactor * p.box i / (((p.ngrid i).toNat : ℕ) : ℝ) := by
        funext i
        simp only [PyAlign.origin]
        ring
      rw [this]
      exact hs

/-- C++ and Python wrapping agree but at the negative multiples of the box size. -/
theorem wrapCoord_eq {L x : ℝ} (hL : 0 < L) (hx : ∀ m : ℕ, 0 < m → x ≠ -(m * L)) :
    wrapCoord L x = pyMod x L := by
  obtain ⟨⟨k, hk⟩, h0, -, h1⟩ := C25_cpp_wrapping_partial L x hL
  have h1 := h1 hx
  rw [hk] at h0 h1
  have : ⌊x / L⌋ = k := by
    rw [Int.floor_eq_iff, le_div_iff₀ hL, div_lt_iff₀ hL]
    constructor <;> linarith
  rw [hk, pyMod, this]
  ring

/-! ### C130 -/

/-- **C130 (survey).** With the same particles, box, mesh and alignment options the program and
the Python package hand the same particles and lines of sight to the algorithms. -/
theorem C130_survey (σ : CStore Which ℝ) (τ : Store ι ℝ) (data rand : ι) (hne : data ≠ rand)
    (hd : Holding (σ .data) (τ data).sent) (hr : Holding (σ .rand) (τ rand).sent)
    (td : (σ .data).TrueExtents) (tb : (τ rand).TrueBounds) (p : Params ℝ)
    (hc : p.catType = "survey") (h1 : p.alignment ∈ ["centre", "pad"])
    (h2 : p.padscale ∈ ["box", "grid"]) :
    ∃ σ' τ' sd sr, alignCats σ p = .ok σ' ∧
      (Meas.survey data rand none none p.box (fun i => (p.ngrid i).toNat) (pyAlign p)).run τ
        = .ok (τ', ⟨[sd, sr], [losOf los (σ .data), losOf los (σ .rand)]⟩) ∧
      Holding (σ' .data) sd ∧ Holding (σ' .rand) sr := by
  obtain ⟨σ', mn, mx, e, hx, hs⟩ := alignBoth_origin (c := Which.data) (r := Which.rand)
    (by decide) hd.loaded td hr.loaded p h1 h2
  obtain ⟨τ', e', hm⟩ := alignPy_moved τ hne hd.shape hr.shape p.box
    (fun i => (p.ngrid i).toNat) (pyAlign p)
  have hmn : (fun i => ((τ rand).bounds i).1) = mn := by
    funext i
    have := tb i
    rw [show (τ rand).pos i = _ from hr.pos i] at this
    exact (this.unique (hx i)).1
  have hmx : (fun i => ((τ rand).bounds i).2) = mx := by
    funext i
    have := tb i
    rw [show (τ rand).pos i = _ from hr.pos i] at this
    exact (this.unique (hx i)).2
  rw [hmn, hmx] at hm
  refine ⟨σ', τ', _, _, ?_, ?_, hd.shift hs.hc, hr.shift hs.hr⟩
  · unfold alignCats
    rw [if_pos hc]
    exact e
  · simp only [Meas.run, Option.getD_none, e', bind, Except.bind, hd.los_eq, hr.los_eq,
      sent_shifted hm.hdata, sent_shifted hm.hrand]

/-- The Python window functions: the random catalogue is centred and wrapped. -/
theorem window_run (τ : Store ι ℝ) (rand : ι) (hs : (τ rand).Shape) (tb : (τ rand).TrueBounds)
    (lr : Option (List (V3 ℝ))) (L : V3 ℝ) :
    ∃ τ', (Meas.window rand lr L).run τ = .ok (τ', ⟨[⟨fun i => ((τ rand).pos i).map fun x =>
        pyMod (x - ((((τ rand).bounds i).1 + ((τ rand).bounds i).2) / 2 - L i / 2)) (L i),
        (τ rand).nz, (τ rand).ws, (τ rand).wc⟩], [lr.getD (computeLos (τ rand))]⟩) := by
  obtain ⟨o, ho⟩ : ∃ o : V3 ℝ,
    o = fun i => (((τ rand).bounds i).1 + ((τ rand).bounds i).2) / 2 - L i / 2 := ⟨_, rfl⟩
  have e1 := offset_eq (τ rand) o tb
  obtain ⟨c, hc⟩ : ∃ c : PyCat ℝ, c = { τ rand with
      pos := fun i => ((τ rand).pos i).map fun x => x - o i,
      bounds := fun i => (((τ rand).bounds i).1 - o i, ((τ rand).bounds i).2 - o i) } := ⟨_, rfl⟩
  rw [← hc] at e1
  have hcs : c.Shape := by
    rw [hc]; exact Shape.mapPos hs fun i x => x - o i
  obtain ⟨b, e2, -⟩ := calcBounds_ok _ (Shape.mapPos hcs fun i x =>
    pyMod (x + L i / 2 - ((c.bounds i).2 + (c.bounds i).1) / 2) (L i))
  have hpos : (fun i => (c.pos i).map fun x =>
      pyMod (x + L i / 2 - ((c.bounds i).2 + (c.bounds i).1) / 2) (L i))
      = fun i => ((τ rand).pos i).map fun x => pyMod (x - o i) (L i) := by
    funext i
    rw [hc]
    simp only [List.map_map]
    apply List.map_congr_left
    intro x _
    simp only [Function.comp]
    congr 1
    rw [ho]
    ring
  obtain ⟨c', e3, h3⟩ : ∃ c', c.periodise L = .ok c' ∧ c'.sent
      = ⟨fun i => ((τ rand).pos i).map fun x => pyMod (x - o i) (L i), (τ rand).nz, (τ rand).ws,
        (τ rand).wc⟩ := by
    refine ⟨_, e2, ?_⟩
    simp only [PyCat.sent]
    rw [hpos, hc]
  refine ⟨Function.update (Function.update τ rand c) rand c', ?_⟩
  have e0 : Cat.centre τ rand L none = .ok (Function.update τ rand c) := by
    simp only [Cat.centre, offsetBoth, Option.getD_none, bind, Except.bind, ← ho, e1]
  simp only [Meas.run, e0, bind, Except.bind, Function.update_self, e3, h3, ho]

/-- The program: the random catalogue is centred and wrapped. -/
theorem window_align (σ : CStore Which ℝ) (hr : (σ .rand).Loaded) (p : Params ℝ)
    (hc : p.catType = "random") (ha : p.alignment = "centre") :
    ∃ (σ' : CStore Which ℝ) (mn mx : V3 ℝ), alignCats σ p = .ok σ' ∧ (σ' .rand).Loaded ∧
      (∀ i, IsExtent ((σ .rand).particles.map fun q => q.pos i) (mn i) (mx i)) ∧
      (σ' .rand).particles = (σ .rand).particles.map fun q => { q with
        pos := fun i => wrapCoord (p.box i) (q.pos i - ((mn i + mx i) / 2 - p.box i / 2)) } := by
  obtain ⟨c1, mn, mx, e1, h1, -⟩ := recalc_holds hr
  have h1' : Holds (Function.update σ .rand c1 .rand) (σ .rand).particles mn mx := by
    rw [Function.update_self]; exact h1
  obtain ⟨c2, e2, h2, -⟩ := h1'.offsetIn (centreVec (Function.update σ .rand c1 .rand) p.box)
  obtain ⟨c3, e3, h3, -, h4⟩ := C25_cpp_catalogue_partial c2 h2.loaded p.box
  refine ⟨Function.update (Function.update (Function.update σ .rand c1) .rand c2) .rand c3, mn, mx,
    ?_, ?_, h1.2.2.2.2, ?_⟩
  · unfold alignCats alignRand
    rw [if_neg (by rw [hc]; decide), if_neg (by rw [hc]; decide), if_pos hc,
      if_neg (by rw [ha]; decide), if_pos ha]
    simp only [centreInBox1, e1, bind, Except.bind, e2]
    rw [Function.update_self]
    simp only [e3]
  · rw [Function.update_self]; exact h3
  · rw [Function.update_self, h4]
    have hp : c2.particles = (σ .rand).particles.map
        (Particle.shift (centreVec (Function.update σ .rand c1 .rand) p.box)) := by
      simp [CppCat.particles, h2.1]
    rw [hp, List.map_map]
    apply List.map_congr_left
    intro q _
    simp only [Function.comp, Particle.shift]
    congr 1
    funext i
    rw [Function.update_self]
    simp only [centreVec]
    rw [h1.2.2.1, h1.2.2.2.1]

/-- **C130 (window).** For the window of centred random particles whose extents are less than
three times the box the program and the Python package hand over the same particles and lines of
sight. -/
theorem C130_window (σ : CStore Which ℝ) (τ : Store ι ℝ) (rand : ι)
    (hr : Holding (σ .rand) (τ rand).sent) (tb : (τ rand).TrueBounds) (p : Params ℝ)
    (hc : p.catType = "random") (ha : p.alignment = "centre") (hL : ∀ i, 0 < p.box i)
    (hs : ∀ i, ((τ rand).bounds i).2 - ((τ rand).bounds i).1 < 3 * p.box i) :
    ∃ σ' τ' s, alignCats σ p = .ok σ' ∧
      (Meas.window rand none p.box).run τ = .ok (τ', ⟨[s], [losOf los (σ .rand)]⟩) ∧
      Holding (σ' .rand) s := by
  obtain ⟨τ', e'⟩ := window_run τ rand hr.shape tb none p.box
  obtain ⟨σ', mn, mx, e, hl, hx, hp⟩ := window_align σ hr.loaded p hc ha
  have hb : ∀ i, ((τ rand).bounds i).1 = mn i ∧ ((τ rand).bounds i).2 = mx i := by
    intro i
    have := tb i
    rw [show (τ rand).pos i = _ from hr.pos i] at this
    exact this.unique (hx i)
  rw [Option.getD_none, hr.los_eq] at e'
  refine ⟨σ', τ', _, e, e', hl, fun i => ?_, ?_, ?_, ?_⟩
  · rw [hp]
    show ((τ rand).pos i).map _ = _
    rw [show (τ rand).pos i = _ from hr.pos i, List.map_map, List.map_map]
    apply List.map_congr_left
    intro q hq
    simp only [Function.comp]
    rw [(hb i).1, (hb i).2, wrapCoord_eq (hL i)]
    intro m hm hbad
    have hge : mn i ≤ q.pos i := (hx i).1.2 (List.mem_map.2 ⟨q, hq, rfl⟩)
    have hm' : (1 : ℝ) ≤ m := by exact_mod_cast hm
    have h3 := hs i
    rw [(hb i).1, (hb i).2] at h3
    nlinarith [hL i]
  · rw [hp]
    show (τ rand).nz = _
    rw [show (τ rand).nz = _ from hr.nz]
    simp [Function.comp_def]
  · rw [hp]
    show (τ rand).ws = _
    rw [show (τ rand).ws = _ from hr.ws]
    simp [Function.comp_def]
  · rw [hp]
    show (τ rand).wc = _
    rw [show (τ rand).wc = _ from hr.wc]
    simp [Function.comp_def]

/-- The Python box functions: the catalogue is centred and wrapped. -/
theorem sim_run (τ : Store ι ℝ) (data : ι) (hs : (τ data).Shape) (L : V3 ℝ) :
    ∃ τ' nz, (Meas.sim data L).run τ = .ok (τ', ⟨[⟨fun i => ((τ data).pos i).map fun x =>
        pyMod (x + L i / 2 - (((τ data).bounds i).2 + ((τ data).bounds i).1) / 2) (L i),
        nz, (τ data).ws, (τ data).wc⟩], []⟩) ∧
      ((¬ ∀ z ∈ (τ data).nz, z = 0) → nz = (τ data).nz) := by
  obtain ⟨b, e2, -⟩ := calcBounds_ok _ (Shape.mapPos hs fun i x =>
    pyMod (x + L i / 2 - (((τ data).bounds i).2 + ((τ data).bounds i).1) / 2) (L i))
  obtain ⟨c, hc⟩ : ∃ c : PyCat ℝ, c = { τ data with
      pos := fun i => ((τ data).pos i).map fun x =>
        pyMod (x + L i / 2 - (((τ data).bounds i).2 + ((τ data).bounds i).1) / 2) (L i),
      bounds := b } := ⟨_, rfl⟩
  have e3 : (τ data).periodise L = .ok c := by rw [hc]; exact e2
  obtain ⟨nz, e4, -, -, h5⟩ := insertDensity_ok c L
  refine ⟨Function.update τ data { c with nz := nz }, nz, ?_, ?_⟩
  · simp only [Meas.run, bind, Except.bind, e3, e4, PyCat.sent]
    rw [hc]
  · intro h
    rw [hc] at h5
    exact h5 h

/-- The program in a box: the catalogue is wrapped. -/
theorem sim_align (σ : CStore Which ℝ) (hd : (σ .data).Loaded) (p : Params ℝ)
    (hc : p.catType = "sim") :
    ∃ σ' : CStore Which ℝ, alignCats σ p = .ok σ' ∧ (σ' .data).Loaded ∧
      (σ' .data).particles = (σ .data).particles.map fun q => { q with
        pos := fun i => wrapCoord (p.box i) (q.pos i) } := by
  obtain ⟨c1, e1, h1, -, h2⟩ := C25_cpp_catalogue_partial (σ .data) hd p.box
  refine ⟨Function.update σ .data c1, ?_, ?_, ?_⟩
  · unfold alignCats
    rw [if_neg (by rw [hc]; decide), if_pos hc]
    simp only [e1, bind, Except.bind]
  · rw [Function.update_self]; exact h1
  · rw [Function.update_self]; exact h2

/-- **C130 (box, partial).** For a simulation the positions handed over are the same up to one
translation of the periodic box, the weights are the same, and so are the densities if they are
not all zero. -/
theorem C130_box_partial (σ : CStore Which ℝ) (τ : Store ι ℝ) (data : ι)
    (hd : Holding (σ .data) (τ data).sent) (p : Params ℝ) (hc : p.catType = "sim")
    (hL : ∀ i, 0 < p.box i) :
    ∃ σ' τ' s, alignCats σ p = .ok σ' ∧
      (Meas.sim data p.box).run τ = .ok (τ', ⟨[s], []⟩) ∧
      (∀ i, Translated (p.box i) (p.box i / 2 - (((τ data).bounds i).2 + ((τ data).bounds i).1) / 2)
        ((σ' .data).particles.map fun q => q.pos i) (s.pos i)) ∧
      s.ws = ((σ' .data).particles.map fun q => q.ws) ∧
      s.wc = ((σ' .data).particles.map fun q => q.wc) ∧
      ((¬ ∀ z ∈ (τ data).nz, z = 0) → s.nz = ((σ' .data).particles.map fun q => q.nz)) := by
  obtain ⟨σ', e, -, h2⟩ := sim_align σ hd.loaded p hc
  obtain ⟨τ', nz, e', h3⟩ := sim_run τ data hd.shape p.box
  refine ⟨σ', τ', _, e, e', fun i => ?_, ?_, ?_, fun h => ?_⟩
  · rw [h2, List.map_map]
    show Translated _ _ _ (((τ data).pos i).map _)
    rw [show (τ data).pos i = _ from hd.pos i, List.map_map]
    unfold Translated
    rw [List.forall₂_map_left_iff, List.forall₂_map_right_iff, List.forall₂_same]
    intro q _
    obtain ⟨⟨k, hk⟩, -⟩ := C25_cpp_wrapping_partial (p.box i) (q.pos i) (hL i)
    refine ⟨k - ⌊(q.pos i + p.box i / 2 - (((τ data).bounds i).2 + ((τ data).bounds i).1) / 2)
      / p.box i⌋, ?_⟩
    simp only [Function.comp, pyMod]
    rw [hk]
    push_cast
    ring
  · rw [h2]
    show (τ data).ws = _
    rw [show (τ data).ws = _ from hd.ws]
    simp [Function.comp_def]
  · rw [h2]
    show (τ data).wc = _
    rw [show (τ data).wc = _ from hd.wc]
    simp [Function.comp_def]
  · rw [h2]
    show nz = _
    rw [h3 h, show (τ data).nz = _ from hd.nz]
    simp [Function.comp_def]

/-! ### Two particles -/

/-- A catalogue of two particles on the diagonal, in C++ and in Python. -/
noncomputable def cpp2 (a b : ℝ) : CppCat ℝ :=
  { source := "extdata", ntotal := 2,
    pdata := some [⟨fun _ => a, 1, 1, 1, 1⟩, ⟨fun _ => b, 1, 1, 1, 1⟩], wtotal := 2, wstotal := 2,
    posMin := fun _ => a, posMax := fun _ => b, posSpan := fun _ => b - a }

noncomputable def py2 (a b : ℝ) : PyCat ℝ :=
  { pos := fun _ => [a, b], nz := [1, 1], ws := [1, 1], wc := [1, 1],
    bounds := fun _ => (a, b), ntotal := 2, wtotal := 2, wstotal := 2 }

theorem holding2 (a b : ℝ) : Holding (cpp2 a b) (py2 a b).sent :=
  ⟨⟨_, rfl, by simp, rfl⟩, fun _ => rfl, rfl, rfl, rfl⟩

theorem extent2 {a b : ℝ} (h : a ≤ b) : IsExtent [a, b] a b :=
  two_extent (Or.inl rfl) le_rfl h (Or.inr rfl) h le_rfl

theorem bounds2 {a b : ℝ} (h : a ≤ b) : (py2 a b).TrueBounds := fun _ => extent2 h

theorem extents2 {a b : ℝ} (h : a ≤ b) : (cpp2 a b).TrueExtents := fun _ => ⟨extent2 h, rfl⟩

theorem wrapCoord_in {L x : ℝ} (h0 : 0 ≤ x) (h1 : x < L) : wrapCoord L x = x := by
  unfold wrapCoord
  rw [if_neg (not_le.2 h1), if_neg (not_lt.2 h0)]

/-- **C130 (box, violated).** Particles at 0 and 1 on the diagonal of a box of side 4 are handed
over by the program at 0 and 1, and by the Python package at 3/2 and 5/2. -/
theorem C130_box_violated (p : Params ℝ) (hc : p.catType = "sim") (hL : ∀ i, p.box i = 4) :
    ∃ σ' τ' s, Holding (cpp2 0 1) (py2 0 1).sent ∧ alignCats (fun _ => cpp2 0 1) p = .ok σ' ∧
      (Meas.sim () p.box).run (fun _ => py2 0 1) = .ok (τ', ⟨[s], []⟩) ∧
      ((σ' .data).particles.map fun q => q.pos 0) = [0, 1] ∧ s.pos 0 = [3 / 2, 5 / 2] := by
  obtain ⟨σ', e, -, h2⟩ := sim_align (fun _ => cpp2 0 1) (holding2 0 1).loaded p hc
  obtain ⟨τ', nz, e', -⟩ := sim_run (fun _ : Unit => py2 0 1) () (holding2 0 1).shape p.box
  refine ⟨σ', τ', _, holding2 0 1, e, e', ?_, ?_⟩
  · rw [h2]
    simp only [cpp2, CppCat.particles, Option.getD_some, List.map_cons, List.map_nil, hL]
    rw [wrapCoord_in (by norm_num) (by norm_num), wrapCoord_in (by norm_num) (by norm_num)]
  · simp only [py2, List.map_cons, List.map_nil, hL]
    rw [pyMod_in (by norm_num) (by norm_num), pyMod_in (by norm_num) (by norm_num)]
    norm_num

/-- **C130 (padded window, violated).** With the alignment `"pad"` the program pads the random
particles of a window and the Python package centres them all the same. -/
theorem C130_padded_window_violated (p : Params ℝ) (hc : p.catType = "random")
    (ha : p.alignment = "pad") (hs : p.padscale = "box") (hf : p.padfactor = 1 / 16)
    (hL : ∀ i, p.box i = 4) :
    ∃ σ' τ' s l, Holding (cpp2 0 1) (py2 0 1).sent ∧ alignCats (fun _ => cpp2 0 1) p = .ok σ' ∧
      (Meas.window () none p.box).run (fun _ => py2 0 1) = .ok (τ', ⟨[s], [l]⟩) ∧
      ((σ' .rand).particles.map fun q => q.pos 0) = [1 / 4, 5 / 4] ∧ s.pos 0 = [3 / 2, 5 / 2] := by
  obtain ⟨τ', e'⟩ := window_run (fun _ : Unit => py2 0 1) () (holding2 0 1).shape
    (bounds2 (by norm_num)) none p.box
  have hh : Holds ((fun _ => cpp2 0 1 : CStore Which ℝ) .rand) (cpp2 0 1).particles (fun _ => 0)
      (fun _ => 1) := Holds.of (holding2 0 1).loaded (extents2 (by norm_num))
  obtain ⟨c1, mn, mx, e1, h1, -⟩ := recalc_holds (σ := fun _ => cpp2 0 1) (c := Which.rand)
    (holding2 0 1).loaded
  have h1' : Holds (Function.update (fun _ => cpp2 0 1) Which.rand c1 Which.rand)
      (cpp2 0 1).particles mn mx := by
    rw [Function.update_self]; exact h1
  obtain ⟨c2, e2, h2, -⟩ := h1'.offsetIn
    (padBoxVec (Function.update (fun _ => cpp2 0 1) Which.rand c1 Which.rand) p.box fun _ => p.padfactor)
  refine ⟨Function.update (Function.update (fun _ => cpp2 0 1) Which.rand c1) Which.rand c2, τ', _, _,
    holding2 0 1, ?_, e', ?_, ?_⟩
  · unfold alignCats alignRand
    rw [if_neg (by rw [hc]; decide), if_neg (by rw [hc]; decide), if_pos hc, if_pos ha,
      if_neg (by rw [hs]; decide), if_pos hs]
    simp only [padInBox1, e1, bind, Except.bind, e2]
  · rw [Function.update_self]
    have hm : mn = fun _ => 0 := (h1.extent_unique hh).1
    have hp : c2.particles = (cpp2 0 1).particles.map (Particle.shift
        (padBoxVec (Function.update (fun _ => cpp2 0 1) Which.rand c1 Which.rand) p.box
          fun _ => p.padfactor)) := by
      conv_lhs => rw [CppCat.particles, h2.1]
      rfl
    rw [hp, Function.update_self]
    simp only [cpp2, CppCat.particles, Option.getD_some, List.map_cons, List.map_nil, Particle.shift,
      padBoxVec, h1.2.2.1, hm, hL, hf]
    norm_num
  · simp only [py2, List.map_cons, List.map_nil, hL]
    rw [pyMod_in (by norm_num) (by norm_num), pyMod_in (by norm_num) (by norm_num)]
    norm_num

/-- **C130 (wide window, violated).** Random particles whose extent is three times the box are
handed over by the program outside the half-open box, at its upper edge. -/
theorem C130_wide_window_violated (p : Params ℝ) (hc : p.catType = "random")
    (ha : p.alignment = "centre") (hL : ∀ i, p.box i = 2) :
    ∃ σ' τ' s l, Holding (cpp2 0 6) (py2 0 6).sent ∧ alignCats (fun _ => cpp2 0 6) p = .ok σ' ∧
      (Meas.window () none p.box).run (fun _ => py2 0 6) = .ok (τ', ⟨[s], [l]⟩) ∧
      ((σ' .rand).particles.map fun q => q.pos 0) = [2, 0] ∧ s.pos 0 = [0, 0] := by
  obtain ⟨τ', e'⟩ := window_run (fun _ : Unit => py2 0 6) () (holding2 0 6).shape
    (bounds2 (by norm_num)) none p.box
  obtain ⟨σ', mn, mx, e, hl, hx, hp⟩ := window_align (fun _ => cpp2 0 6) (holding2 0 6).loaded p hc ha
  have hb : ∀ i, mn i = 0 ∧ mx i = 6 := fun i => (hx i).unique (extent2 (by norm_num))
  refine ⟨σ', τ', _, _, holding2 0 6, e, e', ?_, ?_⟩
  · rw [hp]
    simp only [cpp2, CppCat.particles, Option.getD_some, List.map_cons, List.map_nil, hL, hb]
    have h1 : wrapCoord (2 : ℝ) (0 - ((0 + 6) / 2 - 2 / 2)) = 2 := by
      have := C25_cpp_boundary_violated (2 : ℝ) (by norm_num) 1 (by norm_num)
      rw [show (0 : ℝ) - ((0 + 6) / 2 - 2 / 2) = -(((1 : ℕ) : ℝ) * 2) by norm_num]
      exact this
    have h2 : wrapCoord (2 : ℝ) (6 - ((0 + 6) / 2 - 2 / 2)) = 0 := by
      rw [wrapCoord_eq (by norm_num) (fun m hm h => ?_)]
      · unfold pyMod
        rw [show ((6 : ℝ) - ((0 + 6) / 2 - 2 / 2)) / 2 = ((2 : ℤ) : ℝ) by norm_num, Int.floor_intCast]
        norm_num
      · have : (0 : ℝ) ≤ m := Nat.cast_nonneg m
        norm_num at h
        linarith
    rw [h1, h2]
  · simp only [py2, List.map_cons, List.map_nil, hL]
    have h1 : pyMod ((0 : ℝ) - ((0 + 6) / 2 - 2 / 2)) 2 = 0 := by
      unfold pyMod
      rw [show ((0 : ℝ) - ((0 + 6) / 2 - 2 / 2)) / 2 = ((-1 : ℤ) : ℝ) by norm_num, Int.floor_intCast]
      norm_num
    have h2 : pyMod ((6 : ℝ) - ((0 + 6) / 2 - 2 / 2)) 2 = 0 := by
      unfold pyMod
      rw [show ((6 : ℝ) - ((0 + 6) / 2 - 2 / 2)) / 2 = ((2 : ℤ) : ℝ) by norm_num, Int.floor_intCast]
      norm_num
    rw [h1, h2]

/-- The hypotheses of the theorems hold for two pairs of particles in a box. -/
example : ∃ (σ : CStore Which ℝ) (τ : Store Which ℝ) (p : Params ℝ),
    Holding (σ .data) (τ .data).sent ∧ Holding (σ .rand) (τ .rand).sent ∧
    (σ .data).TrueExtents ∧ (τ .rand).TrueBounds ∧ p.catType = "survey" ∧
    p.alignment ∈ ["centre", "pad"] ∧ p.padscale ∈ ["box", "grid"] ∧ (∀ i, 0 < p.box i) ∧
    (∀ i, ((τ .rand).bounds i).2 - ((τ .rand).bounds i).1 < 3 * p.box i) :=
  ⟨fun _ => cpp2 0 1, fun _ => py2 0 1,
    { (Params.default : Params ℝ) with
      catType := "survey",
      alignment := "pad",
      padscale := "grid",
      box := fun _ => 4 },
    holding2 0 1, holding2 0 1, extents2 (by norm_num), bounds2 (by norm_num), rfl, by simp, by simp,
    fun _ => by norm_num, fun _ => by norm_num [py2]⟩

end Trv.Prog

import Verif.Props.Catalogue
/-
C23-C25 (C++), C29, C30, C62-C65: C++ catalogues.
-/
set_option linter.unusedSectionVars false
namespace Trv.Cat

section
variable {K : Type} [Field K] [LinearOrder K] [IsStrictOrderedRing K] [FloorRing K]
variable {ι : Type} [DecidableEq ι]

theorem map_shift_pos (ps : List (Particle K)) (d : V3 K) (i : Fin 3) :
    (ps.map (Particle.shift d)).map (fun p => p.pos i)
      = (ps.map fun p => p.pos i).map fun x => x - d i := by
  simp [List.map_map, Function.comp_def, Particle.shift]

theorem map_shift_zero (ps : List (Particle K)) : ps.map (Particle.shift fun _ => 0) = ps := by
  conv_rhs => rw [← List.map_id ps]
  apply List.map_congr_left
  intro p _
  simp [Particle.shift]

theorem map_shift_shift (ps : List (Particle K)) (d e : V3 K) :
    (ps.map (Particle.shift d)).map (Particle.shift e) = ps.map (Particle.shift fun i => d i + e i) := by
  rw [List.map_map]
  apply List.map_congr_left
  intro p _
  simp only [Function.comp, Particle.shift, sub_sub]

/-! ### C23, C24 (C++) -/

/-- **C23 (C++, partial: distinct catalogue objects).** Centring two loaded
catalogues succeeds and shifts both by one vector; the mid-point of the reference
is at the box centre, all reference particles are in the box if its extent fits,
and centring again moves nothing. -/
theorem C23_cpp_centring_partial (σ : CStore ι K) (c r : ι) (hcr : c ≠ r) (hc : (σ c).Loaded)
    (hr : (σ r).Loaded) (L : V3 K) :
    ∃ σ' d, centreInBox2 σ c r L = .ok σ' ∧
      (σ' c).particles = (σ c).particles.map (Particle.shift d) ∧
      (σ' r).particles = (σ r).particles.map (Particle.shift d) ∧
      (∀ j, j ≠ c → j ≠ r → σ' j = σ j) ∧
      (∀ i, ∃ a b, IsExtent ((σ' r).particles.map fun p => p.pos i) a b ∧ (a + b) / 2 = L i / 2 ∧
        (b - a ≤ L i → ∀ p ∈ (σ' r).particles, 0 ≤ p.pos i ∧ p.pos i ≤ L i)) ∧
      ∃ σ'', centreInBox2 σ' c r L = .ok σ'' ∧ (σ'' c).particles = (σ' c).particles ∧
        (σ'' r).particles = (σ' r).particles := by
  obtain ⟨σ', mn, mx, e, hx, hp⟩ := centreInBox2_ok hcr hc hr L
  have hext : ∀ i, IsExtent ((σ' r).particles.map fun p => p.pos i)
      (mn i - ((mn i + mx i) / 2 - L i / 2)) (mx i - ((mn i + mx i) / 2 - L i / 2)) := by
    intro i
    rw [hp.hr.particles, map_shift_pos]
    exact (hx i).sub _
  refine ⟨σ', _, e, hp.hc.particles, hp.hr.particles, hp.other, ?_, ?_⟩
  · intro i
    refine ⟨_, _, hext i, by ring, ?_⟩
    intro hfit p hpm
    have := (hext i).mem (List.mem_map_of_mem (f := fun p : Particle K => p.pos i) hpm)
    constructor <;> linarith
  · obtain ⟨σ'', mn', mx', e', hx', hp'⟩ := centreInBox2_ok hcr hp.hc.loaded hp.hr.loaded L
    have hz : (fun i => (mn' i + mx' i) / 2 - L i / 2) = fun _ => (0 : K) := by
      funext i
      obtain ⟨q1, q2⟩ := (hx' i).unique (hext i)
      rw [q1, q2]; ring
    rw [hz] at hp'
    refine ⟨σ'', e', ?_, ?_⟩
    · rw [hp'.hc.particles, map_shift_zero]
    · rw [hp'.hr.particles, map_shift_zero]

/-- **C24 (C++, partial: distinct catalogue objects).** -/
theorem C24_cpp_box_padding_partial (σ : CStore ι K) (c r : ι) (hcr : c ≠ r) (hc : (σ c).Loaded)
    (hr : (σ r).Loaded) (L p : V3 K) :
    ∃ σ' d, padInBox2 σ c r L p = .ok σ' ∧
      (σ' c).particles = (σ c).particles.map (Particle.shift d) ∧
      (σ' r).particles = (σ r).particles.map (Particle.shift d) ∧
      (∀ j, j ≠ c → j ≠ r → σ' j = σ j) ∧
      ∀ i, IsLeast {x | x ∈ (σ' r).particles.map fun q => q.pos i} (p i * L i) := by
  obtain ⟨σ', mn, mx, e, hx, hp⟩ := padInBox2_ok hcr hc hr L p
  refine ⟨σ', _, e, hp.hc.particles, hp.hr.particles, hp.other, ?_⟩
  intro i
  have h := ((hx i).sub (mn i - p i * L i)).1
  rw [hp.hr.particles, map_shift_pos]
  have e2 : mn i - (mn i - p i * L i) = p i * L i := by ring
  rw [e2] at h
  exact h

/-- **C24 (C++, partial: distinct catalogue objects; the extents of the catalogue are
up to date).** -/
theorem C24_cpp_grid_padding_partial (σ : CStore ι K) (c r : ι) (hcr : c ≠ r) (hc : (σ c).Loaded)
    (tc : (σ c).TrueExtents) (hr : (σ r).Loaded) (L p : V3 K) (n : Fin 3 → ℕ) :
    ∃ σ' d, padGrids2 σ c r L n p = .ok σ' ∧
      (σ' c).particles = (σ c).particles.map (Particle.shift d) ∧
      (σ' r).particles = (σ r).particles.map (Particle.shift d) ∧
      (∀ j, j ≠ c → j ≠ r → σ' j = σ j) ∧
      ∀ i, 0 < n i →
        IsLeast {x | x ∈ (σ' r).particles.map fun q => q.pos i} (p i * (L i / (n i : K))) := by
  obtain ⟨σ', mn, mx, e, hx, hp⟩ := padGrids2_ok hcr (Holds.of hc tc) hr L n p
  refine ⟨σ', _, e, hp.hc.particles, hp.hr.particles, hp.other, ?_⟩
  intro i _
  have h := ((hx i).sub (mn i - p i * L i / (n i : K))).1
  rw [hp.hr.particles, map_shift_pos]
  have e2 : mn i - (mn i - p i * L i / (n i : K)) = p i * (L i / (n i : K)) := by ring
  rw [e2] at h
  exact h

/-! ### C25 (C++) -/

/-- **C25 (C++, partial: negative multiples of the box size excepted).** A wrapped
coordinate differs from the original by whole box lengths and is in `[0, L)`. -/
theorem C25_cpp_wrapping_partial (L x : K) (hL : 0 < L) :
    (∃ k : ℤ, wrapCoord L x = x - k * L) ∧ 0 ≤ wrapCoord L x ∧ wrapCoord L x ≤ L ∧
    ((∀ m : ℕ, 0 < m → x ≠ -(m * L)) → wrapCoord L x < L) := by
  unfold wrapCoord fmod
  by_cases h1 : L ≤ x
  · have hx : 0 ≤ x / L := div_nonneg (hL.le.trans h1) hL.le
    rw [if_pos h1, if_pos hx]
    have f1 : (⌊x / L⌋ : K) ≤ x / L := Int.floor_le _
    have f2 : x / L < (⌊x / L⌋ : K) + 1 := Int.lt_floor_add_one _
    rw [le_div_iff₀ hL] at f1
    rw [div_lt_iff₀ hL] at f2
    refine ⟨⟨⌊x / L⌋, by ring⟩, by linarith, by linarith, fun _ => by linarith⟩
  · rw [if_neg h1]
    by_cases h2 : x < 0
    · have hx : ¬ 0 ≤ x / L := not_le.2 (div_neg_of_neg_of_pos h2 hL)
      rw [if_pos h2, if_neg hx]
      have f1 : x / L ≤ (⌈x / L⌉ : K) := Int.le_ceil _
      have f2 : (⌈x / L⌉ : K) < x / L + 1 := Int.ceil_lt_add_one _
      rw [div_le_iff₀ hL] at f1
      have f3 : ((⌈x / L⌉ : K) - 1) * L < x := by
        rw [← lt_div_iff₀ hL]; linarith
      refine ⟨⟨⌈x / L⌉ - 1, by push_cast; ring⟩, by linarith, by linarith, fun hne => ?_⟩
      have hc : ⌈x / L⌉ ≤ 0 := Int.ceil_le.2 (by push_cast; linarith)
      rcases lt_or_eq_of_le f1 with h | h
      · linarith
      · exfalso
        refine hne (-⌈x / L⌉).toNat ?_ ?_
        · by_contra hm
          have : ⌈x / L⌉ = 0 := by omega
          rw [this] at h
          simp at h
          linarith
        · have e : (((-⌈x / L⌉).toNat : ℕ) : K) = ((-⌈x / L⌉ : ℤ) : K) := by
            rw [← Int.cast_natCast, Int.toNat_of_nonneg (by omega)]
          rw [e]; push_cast
          linarith
    · rw [if_neg h2]
      exact ⟨⟨0, by push_cast; ring⟩, by linarith, by linarith, fun _ => by linarith⟩

example : wrapCoord (10 : ℚ) (-3) = 7 ∧ wrapCoord (10 : ℚ) 10 = 0 ∧ wrapCoord (10 : ℚ) 27 = 7 := by
  decide +kernel

/-- **C25 is violated by the C++ version**: a coordinate at a negative whole multiple
of the box size is sent to `L`, outside `[0, L)`. -/
theorem C25_cpp_boundary_violated (L : K) (hL : 0 < L) (m : ℕ) (hm : 0 < m) :
    wrapCoord L (-(m * L)) = L := by
  unfold wrapCoord fmod
  have hm' : (0 : K) < m := by exact_mod_cast hm
  have hx : -((m : K) * L) < 0 := by have := mul_pos hm' hL; linarith
  have hq : -((m : K) * L) / L = ((-(m : ℤ) : ℤ) : K) := by
    push_cast
    field_simp
  rw [if_neg (by linarith), if_pos hx, if_neg (not_le.2 (div_neg_of_neg_of_pos hx hL)), hq,
    Int.ceil_intCast]
  push_cast
  ring

/-- The whole catalogue: every coordinate of every particle is wrapped, in order, the
other particle data are unchanged and the extents are true. -/
theorem C25_cpp_catalogue_partial (c : CppCat K) (hc : c.Loaded) (L : V3 K) :
    ∃ c', c.periodic L = .ok c' ∧ c'.Loaded ∧ c'.TrueExtents ∧
      c'.particles = c.particles.map fun p => { p with pos := fun i => wrapCoord (L i) (p.pos i) } := by
  obtain ⟨ps, h1, h2, h3⟩ := hc
  have hp : c.particles = ps := by simp [CppCat.particles, h1]
  rw [hp]
  obtain ⟨f, hf⟩ : ∃ f : Particle K → Particle K,
    f = fun p => { p with pos := fun i => wrapCoord (L i) (p.pos i) } := ⟨_, rfl⟩
  have hne : ps.map f ≠ [] := by simpa using h2
  obtain ⟨mn, mx, he⟩ := exists_extents hne
  have e1 : c.mapParticles f = .ok { c with pdata := some (ps.map f) } :=
    mapParticles_eq h1 h3 f
  have e2 := calcExtents_eq (c := { c with pdata := some (ps.map f) }) rfl
    (by simpa using h3) he
  refine ⟨{ c with pdata := some (ps.map f), posMin := mn, posMax := mx,
                   posSpan := fun i => mx i - mn i }, ?_, ⟨ps.map f, rfl, hne, by simpa using h3⟩, ?_, ?_⟩
  · unfold CppCat.periodic
    rw [← hf, e1]
    exact e2
  · intro i
    exact ⟨he i, rfl⟩
  · rw [← hf]; rfl

/-! ### C29 -/

/-- **C29 (partial: distinct loaded catalogues with up-to-date extents).** Computing the
mesh normalisation leaves the particles of both catalogues exactly as they were,
whatever the alignment parameters. -/
theorem C29_normalisation_restores_partial (σ : CStore ι K) (data rand : ι) (hdr : data ≠ rand)
    (hd : (σ data).Loaded) (hr : (σ rand).Loaded) (td : (σ data).TrueExtents)
    (tr : (σ rand).TrueExtents) (P : AlignParams K) :
    ∃ aligned σ', normFromMeshes σ data rand P = .ok (aligned, σ') ∧
      (σ' data).particles = (σ data).particles ∧ (σ' rand).particles = (σ rand).particles ∧
      (σ' data).posMin = (σ data).posMin ∧ (σ' rand).posMin = (σ rand).posMin ∧
      (∀ j, j ≠ data → j ≠ rand → σ' j = σ j) := by
  obtain ⟨σ₁, d, e, hp⟩ := alignBoth_ok hdr hd hr td tr P
  have hD := Holds.of hd td
  have hR := Holds.of hr tr
  -- the extents after the alignment
  have m1 : (σ₁ data).posMin = fun i => (σ data).posMin i - d i := by
    funext i
    have a := hp.hc.2.2.2.2 i
    rw [map_shift_pos] at a
    exact (a.unique ((hD.2.2.2.2 i).sub (d i))).1
  have m2 : (σ₁ rand).posMin = fun i => (σ rand).posMin i - d i := by
    funext i
    have a := hp.hr.2.2.2.2 i
    rw [map_shift_pos] at a
    exact (a.unique ((hR.2.2.2.2 i).sub (d i))).1
  have o1 : (fun i => (σ₁ data).posMin i - (σ data).posMin i) = fun i => - d i := by
    funext i; rw [m1]; ring
  have o2 : (fun i => (σ₁ rand).posMin i - (σ rand).posMin i) = fun i => - d i := by
    funext i; rw [m2]; ring
  obtain ⟨c', e1, h1, -⟩ := hp.hc.offsetIn fun i => - d i
  have hr' : Holds (Function.update σ₁ data c' rand) ((σ rand).particles.map (Particle.shift d))
      (fun i => (σ₁ rand).posMin i) (fun i => (σ₁ rand).posMax i) := by
    rw [Function.update_of_ne hdr.symm]; exact hp.hr
  obtain ⟨r', e2, h2, -⟩ := hr'.offsetIn fun i => - d i
  refine ⟨σ₁, Function.update (Function.update σ₁ data c') rand r', ?_, ?_, ?_, ?_, ?_, ?_⟩
  · unfold normFromMeshes
    simp only [bind, Except.bind]
    rw [e]
    simp only
    rw [o1, e1]
    simp only
    rw [o2, e2]
  · rw [Function.update_of_ne hdr, Function.update_self, h1.particles, map_shift_shift]
    simp only [add_neg_cancel]
    exact map_shift_zero _
  · rw [Function.update_self, h2.particles, map_shift_shift]
    simp only [add_neg_cancel]
    exact map_shift_zero _
  · rw [Function.update_of_ne hdr, Function.update_self, h1.2.2.1, m1]
    funext i; simp
  · rw [Function.update_self, h2.2.2.1, m2]
    funext i; simp
  · intro j h h'
    rw [Function.update_of_ne h', Function.update_of_ne h]
    exact hp.other j h h'

/-- **C29 is violated if one object is passed as both catalogues.** It is aligned twice and then
restored twice with the whole displacement, so it ends displaced in the opposite direction by twice
the centring vector, unless it was centred before. -/
theorem C29_same_catalogue_violated (σ : CStore ι K) (c : ι) (hc : (σ c).Loaded)
    (tc : (σ c).TrueExtents) (P : AlignParams K) (hP : P.alignment = "centre") :
    ∃ aligned σ', normFromMeshes σ c c P = .ok (aligned, σ') ∧
      (σ' c).particles = (σ c).particles.map (Particle.shift fun i => -2 * centreVec (σ c) P.boxsize i) ∧
      ∀ i, (σ c).posMin i + (σ c).posMax i ≠ P.boxsize i → (σ' c).posMin i ≠ (σ c).posMin i := by
  have hH := Holds.of hc tc
  obtain ⟨c1, mn, mx, e1, h1, -⟩ := recalc_holds hc
  have u1 : mn = (σ c).posMin := by
    funext i; exact ((h1.2.2.2.2 i).unique (hH.2.2.2.2 i)).1
  have v1 : mx = (σ c).posMax := by
    funext i; exact ((h1.2.2.2.2 i).unique (hH.2.2.2.2 i)).2
  subst u1 v1
  have l1 : ((Function.update σ c c1) c).Loaded := by rw [Function.update_self]; exact h1.loaded
  obtain ⟨c2, mn, mx, e2, h2, -⟩ := recalc_holds l1
  rw [Function.update_self, h1.particles] at h2
  have u2 : mn = (σ c).posMin := by
    funext i; exact ((h2.2.2.2.2 i).unique (hH.2.2.2.2 i)).1
  have v2 : mx = (σ c).posMax := by
    funext i; exact ((h2.2.2.2.2 i).unique (hH.2.2.2.2 i)).2
  subst u2 v2
  obtain ⟨d, hd⟩ : ∃ d, d = centreVec (σ c) P.boxsize := ⟨_, rfl⟩
  obtain ⟨σ2, hσ2⟩ : ∃ σ2, σ2 = Function.update (Function.update σ c c1) c c2 := ⟨_, rfl⟩
  rw [← hσ2] at e2
  have s2 : σ2 c = c2 := by rw [hσ2, Function.update_self]
  have hd2 : centreVec (σ2 c) P.boxsize = d := by
    rw [hd, s2]
    unfold centreVec
    rw [h2.2.2.1, h2.2.2.2.1]
  rw [← s2] at h2
  obtain ⟨c3, e3, h3, -⟩ := h2.offsetIn d
  obtain ⟨σ3, hσ3⟩ : ∃ σ3, σ3 = Function.update σ2 c c3 := ⟨_, rfl⟩
  have s3 : σ3 c = c3 := by rw [hσ3, Function.update_self]
  rw [← hσ3] at e3
  rw [← s3] at h3
  obtain ⟨c4, e4, h4, -⟩ := h3.offsetIn d
  obtain ⟨σ4, hσ4⟩ : ∃ σ4, σ4 = Function.update σ3 c c4 := ⟨_, rfl⟩
  have s4 : σ4 c = c4 := by rw [hσ4, Function.update_self]
  rw [← hσ4] at e4
  rw [← s4] at h4
  have ea : alignBoth σ c c P = .ok σ4 := by
    unfold alignBoth
    rw [hP, if_neg (by decide), if_pos rfl]
    unfold centreInBox2
    simp only [bind, Except.bind]
    rw [e1]
    simp only
    rw [e2]
    simp only
    rw [hd2, e3]
    simp only
    exact e4
  have o : (fun i => (σ4 c).posMin i - (σ c).posMin i) = fun i => -2 * d i := by
    funext i; rw [h4.2.2.1]; ring
  obtain ⟨c5, e5, h5, -⟩ := h4.offsetIn fun i => -2 * d i
  obtain ⟨σ5, hσ5⟩ : ∃ σ5, σ5 = Function.update σ4 c c5 := ⟨_, rfl⟩
  have s5 : σ5 c = c5 := by rw [hσ5, Function.update_self]
  rw [← hσ5] at e5
  rw [← s5] at h5
  obtain ⟨c6, e6, h6, -⟩ := h5.offsetIn fun i => -2 * d i
  refine ⟨σ4, Function.update σ5 c c6, ?_, ?_, ?_⟩
  · unfold normFromMeshes
    simp only [bind, Except.bind]
    rw [ea]
    simp only
    rw [o, e5]
    simp only
    rw [e6]
  · rw [Function.update_self, h6.particles, map_shift_shift, map_shift_shift, map_shift_shift, hd]
    congr 2
    funext i
    ring
  · intro i hi h
    rw [Function.update_self, h6.2.2.1] at h
    apply hi
    have : d i = 0 := by linarith
    rw [hd] at this
    unfold centreVec at this
    linarith

/-! ### C62 -/

/-- Released particle data: the other operations report the missing data. -/
theorem C62_released_data_partial (w : World ι K) (i : ι) (L d : V3 K)
    (h : (w.cats i).Loaded) :
    let c := (w.reset i).cats i
    c.calcTotals = .error .invalidData ∧ c.calcExtents = .error .invalidData ∧
    c.offset d = .error .invalidData ∧
    centreInBox1 (w.reset i).cats i L = .error .invalidData := by
  obtain ⟨ps, h1, h2, h3⟩ := h
  have hc : ((w.reset i).cats i).pdata = none := by
    unfold World.reset
    rw [h1]
    simp
  simp only
  refine ⟨?_, ?_, ?_, ?_⟩
  · unfold CppCat.calcTotals; rw [hc]
  · unfold CppCat.calcExtents; rw [hc]
  · unfold CppCat.offset; rw [hc]
  · unfold centreInBox1 recalc CppCat.calcExtents
    rw [hc]; rfl

/-- **C62 is violated by the periodic wrapping**, which goes through the null
pointer for every catalogue whose particle data have been released. -/
theorem C62_released_data_violated (w : World ι K) (i : ι) (L : V3 K) (h : (w.cats i).Loaded) :
    ((w.reset i).cats i).periodic L = .error .outOfBounds := by
  obtain ⟨ps, h1, h2, h3⟩ := h
  have hpos : (w.cats i).ntotal ≠ 0 := by
    rw [← h3]; simpa using h2
  unfold World.reset
  rw [h1]
  simp only [Function.update_self, CppCat.periodic, CppCat.mapParticles, hpos, if_false, bind,
    Except.bind]

/-! ### C63 -/

/-- **C63.** The dedicated normalisation mesh has an even, positive grid number, keeps
the given cell size, and its box holds both catalogues with the padding. -/
theorem C63_normalisation_box (sd sr : V3 K) (padding cellsize : K) (hc : 0 < cellsize)
    (hp : 0 ≤ padding) (hpos : ∃ i, 0 < sd i) (hsr : ∀ i, 0 ≤ sr i) :
    let g := normGrid sd sr padding cellsize
    0 < g.1 ∧ Even g.1 ∧ g.2 = (g.1 : K) * cellsize ∧
    (∀ i, (1 + padding) * sd i ≤ g.2) ∧ (∀ i, (1 + padding) * sr i ≤ g.2) ∧
    (∀ M, (∀ i, sd i ≤ M) → (∀ i, sr i ≤ M) → g.2 < (1 + padding) * M + 2 * cellsize) := by
  obtain ⟨m, hm⟩ : ∃ m : K, m = max (max (max (sd 0) (sd 1)) (sd 2)) (max (max (sr 0) (sr 1)) (sr 2)) :=
    ⟨_, rfl⟩
  have hd : ∀ i, sd i ≤ m := by
    intro i; rw [hm]
    fin_cases i <;> simp
  have hr : ∀ i, sr i ≤ m := by
    intro i; rw [hm]
    fin_cases i <;> simp
  have hmpos : 0 < m := by
    obtain ⟨i, hi⟩ := hpos
    exact lt_of_lt_of_le hi (hd i)
  obtain ⟨n, hn⟩ : ∃ n : ℤ, n = ⌈(1 + padding) * m / cellsize⌉ := ⟨_, rfl⟩
  have hg : normGrid sd sr padding cellsize = (n + n.tmod 2, ((n + n.tmod 2 : ℤ) : K) * cellsize) := by
    rw [hn, hm]; rfl
  have hLpos : 0 < (1 + padding) * m := mul_pos (by linarith) hmpos
  have hnpos : 0 < n := by rw [hn]; exact Int.ceil_pos.2 (div_pos hLpos hc)
  have hceil : (1 + padding) * m ≤ (n : K) * cellsize := by
    rw [← div_le_iff₀ hc, hn]; exact Int.le_ceil _
  have hceil2 : (n : K) * cellsize < (1 + padding) * m + cellsize := by
    have : (n : K) < (1 + padding) * m / cellsize + 1 := by rw [hn]; exact Int.ceil_lt_add_one _
    have h2 := mul_lt_mul_of_pos_right this hc
    rw [add_mul, div_mul_cancel₀ _ hc.ne', one_mul] at h2
    exact h2
  have htm : n.tmod 2 = n % 2 := Int.tmod_eq_emod_of_nonneg hnpos.le
  have ht0 : 0 ≤ n.tmod 2 := by rw [htm]; omega
  have ht1 : n.tmod 2 ≤ 1 := by rw [htm]; omega
  have ht0' : (0 : K) ≤ ((n.tmod 2 : ℤ) : K) := by exact_mod_cast ht0
  have ht1' : ((n.tmod 2 : ℤ) : K) ≤ 1 := by exact_mod_cast ht1
  have hbox : (1 + padding) * m ≤ ((n + n.tmod 2 : ℤ) : K) * cellsize := by
    push_cast
    nlinarith
  simp only [hg]
  refine ⟨by omega, ?_, trivial, ?_, ?_, ?_⟩
  · rw [Int.even_iff, htm]; omega
  · intro i
    exact le_trans (mul_le_mul_of_nonneg_left (hd i) (by linarith)) hbox
  · intro i
    exact le_trans (mul_le_mul_of_nonneg_left (hr i) (by linarith)) hbox
  · intro M h1 h2
    have hM : m ≤ M := by
      rw [hm]
      exact max_le (max_le (max_le (h1 0) (h1 1)) (h1 2)) (max_le (max_le (h2 0) (h2 1)) (h2 2))
    have h3 := mul_le_mul_of_nonneg_left hM (show 0 ≤ 1 + padding by linarith)
    push_cast
    nlinarith

example : (normGrid (fun _ => (90 : ℚ)) (fun i => if i = 0 then 99 else 10) (1 / 10) 10).1 = 12 := by
  decide +kernel

/-! ### C65 -/

/-- **C65 (partial: a random catalogue on its own, expansion at least one).** With the box
derived from the catalogue and central alignment, every particle is in `[0, L)`. -/
theorem C65_random_in_box_partial (σ : CStore ι K) (r : ι) (hr : (σ r).Loaded)
    (tr : (σ r).TrueExtents) (expand : K) (he : 1 ≤ expand) (hspan : ∀ i, 0 < (σ r).posSpan i) :
    ∃ L σ', driverRandomCentre σ r expand = .ok (L, σ') ∧ (∀ i, 0 < L i) ∧
      ∀ p ∈ (σ' r).particles, ∀ i, 0 ≤ p.pos i ∧ p.pos i < L i := by
  obtain ⟨L, hL⟩ : ∃ L : V3 K, L = boxFromExpand (σ r).posSpan expand := ⟨_, rfl⟩
  have hLpos : ∀ i, 0 < L i := by
    intro i; rw [hL]
    exact mul_pos (hspan i) (by linarith)
  obtain ⟨c₁, mn, mx, e1, h1, -⟩ := recalc_holds hr
  have h1' : Holds (Function.update σ r c₁ r) (σ r).particles mn mx := by
    rw [Function.update_self]; exact h1
  obtain ⟨c₂, e2, h2, -⟩ := h1'.offsetIn (centreVec (Function.update σ r c₁ r) L)
  obtain ⟨c₃, e3, -, -, h3⟩ := C25_cpp_catalogue_partial c₂ h2.loaded L
  refine ⟨L, Function.update (Function.update (Function.update σ r c₁) r c₂) r c₃, ?_, hLpos, ?_⟩
  · unfold driverRandomCentre centreInBox1
    simp only [bind, Except.bind, ← hL]
    rw [e1]
    simp only
    rw [e2]
    simp only [Function.update_self]
    rw [e3]
  · intro p hp i
    rw [Function.update_self, h3] at hp
    obtain ⟨q, hq, rfl⟩ := List.mem_map.1 hp
    obtain ⟨-, w1, -, w2⟩ := C25_cpp_wrapping_partial (L i) (q.pos i) (hLpos i)
    refine ⟨w1, w2 ?_⟩
    -- the coordinate is not negative after centring
    have hd : (centreVec (Function.update σ r c₁ r) L) i = (mn i + mx i) / 2 - L i / 2 := by
      unfold centreVec
      rw [Function.update_self, h1.2.2.1, h1.2.2.2.1]
    have hmem := (h2.2.2.2.2 i).mem (List.mem_map_of_mem (f := fun p : Particle K => p.pos i)
      (by rw [h2.particles] at hq; exact hq))
    have hu := (Holds.of hr tr).extent_unique h1
    have hsp : L i = (mx i - mn i) * expand := by
      rw [hL, boxFromExpand, (tr i).2, ← hu.1, ← hu.2]
    have hs : 0 < mx i - mn i := by
      have := hspan i
      rw [(tr i).2] at this
      rw [← hu.1, ← hu.2]; exact this
    have hge : 0 ≤ q.pos i := by
      have := hmem.1
      simp only [hd] at this
      nlinarith
    intro m hm hc
    have : (0 : K) < m * L i := mul_pos (by exact_mod_cast hm) (hLpos i)
    linarith

/-- **C65 (partial: the random catalogue encloses the data and its extent is at most the
data extent times the expansion factor).** With central alignment all particles of both
survey catalogues are in the derived box. -/
theorem C65_survey_in_box_partial (σ : CStore ι K) (c r : ι) (hcr : c ≠ r) (hc : (σ c).Loaded)
    (hr : (σ r).Loaded) (tr : (σ r).TrueExtents) (tc : (σ c).TrueExtents)
    (P : AlignParams K) (hP : P.alignment = "centre") (expand : K)
    (henc : ∀ i, (σ r).posMin i ≤ (σ c).posMin i ∧ (σ c).posMax i ≤ (σ r).posMax i)
    (hfit : ∀ i, (σ r).posSpan i ≤ (σ c).posSpan i * expand) :
    ∃ L σ', driverSurvey σ c r P expand = .ok (L, σ') ∧
      ∀ p, p ∈ (σ' c).particles ∨ p ∈ (σ' r).particles → ∀ i, 0 ≤ p.pos i ∧ p.pos i ≤ L i := by
  obtain ⟨L, hL⟩ : ∃ L : V3 K, L = boxFromExpand (σ c).posSpan expand := ⟨_, rfl⟩
  obtain ⟨σ', mn, mx, e, hx, hp⟩ := centreInBox2_ok hcr hc hr L
  have hu : ∀ i, (σ r).posMin i = mn i ∧ (σ r).posMax i = mx i := fun i => (tr i).1.unique (hx i)
  have hLi : ∀ i, mx i - mn i ≤ L i := by
    intro i
    have := hfit i
    rw [(tr i).2, (hu i).1, (hu i).2] at this
    rw [hL]; exact this
  refine ⟨L, σ', ?_, ?_⟩
  · unfold driverSurvey
    simp only [bind, Except.bind, ← hL]
    have : alignBoth σ c r { P with boxsize := L } = centreInBox2 σ c r L := by
      unfold alignBoth
      simp [hP]
    rw [this, e]
  · rintro p hpm i
    have hb : ∃ x, (mn i ≤ x ∧ x ≤ mx i) ∧ p.pos i = x - ((mn i + mx i) / 2 - L i / 2) := by
      rcases hpm with h | h
      · rw [hp.hc.particles] at h
        obtain ⟨q, hq, rfl⟩ := List.mem_map.1 h
        have := (tc i).1.mem (List.mem_map_of_mem (f := fun p : Particle K => p.pos i) hq)
        have h2 := henc i
        rw [(hu i).1, (hu i).2] at h2
        exact ⟨q.pos i, ⟨h2.1.trans this.1, this.2.trans h2.2⟩, rfl⟩
      · rw [hp.hr.particles] at h
        obtain ⟨q, hq, rfl⟩ := List.mem_map.1 h
        have := (hx i).mem (List.mem_map_of_mem (f := fun p : Particle K => p.pos i) hq)
        exact ⟨q.pos i, this, rfl⟩
    obtain ⟨x, ⟨hx1, hx2⟩, hxe⟩ := hb
    have := hLi i
    rw [hxe]
    constructor <;> linarith

/-- **C65 is violated for survey catalogues**: the box is derived from the data catalogue,
but the random catalogue has to fit; whenever it is wider than the box, some random
particle is outside after the alignment. -/
theorem C65_survey_in_box_violated (σ : CStore ι K) (c r : ι) (hcr : c ≠ r) (hc : (σ c).Loaded)
    (hr : (σ r).Loaded) (tr : (σ r).TrueExtents) (P : AlignParams K) (hP : P.alignment = "centre")
    (expand : K) (i : Fin 3) (hwide : (σ c).posSpan i * expand < (σ r).posSpan i) :
    ∃ L σ', driverSurvey σ c r P expand = .ok (L, σ') ∧
      ∃ p ∈ (σ' r).particles, p.pos i < 0 := by
  obtain ⟨L, hL⟩ : ∃ L : V3 K, L = boxFromExpand (σ c).posSpan expand := ⟨_, rfl⟩
  obtain ⟨σ', mn, mx, e, hx, hp⟩ := centreInBox2_ok hcr hc hr L
  have hu := (tr i).1.unique (hx i)
  refine ⟨L, σ', ?_, ?_⟩
  · unfold driverSurvey
    simp only [bind, Except.bind, ← hL]
    have : alignBoth σ c r { P with boxsize := L } = centreInBox2 σ c r L := by
      unfold alignBoth
      simp [hP]
    rw [this, e]
  · obtain ⟨q, hq, hqe⟩ := List.mem_map.1 (hx i).1.1
    refine ⟨q.shift fun i => (mn i + mx i) / 2 - L i / 2, ?_, ?_⟩
    · rw [hp.hr.particles]
      exact List.mem_map_of_mem hq
    · have hLi : L i < mx i - mn i := by
        rw [(tr i).2, hu.1, hu.2] at hwide
        rw [hL]; exact hwide
      simp only [Particle.shift]
      rw [hqe]
      linarith

/-- A catalogue of two particles. -/
def cppTwo (a b : ℚ) : CppCat ℚ :=
  { source := "extdata", ntotal := 2,
    pdata := some [⟨fun _ => a, 0, 1, 1, 1⟩, ⟨fun _ => b, 0, 1, 1, 1⟩], wtotal := 2, wstotal := 2,
    posMin := fun _ => a, posMax := fun _ => b, posSpan := fun _ => b - a }

theorem cppTwo_loaded (a b : ℚ) : (cppTwo a b).Loaded := ⟨_, rfl, by simp, rfl⟩

theorem cppTwo_extents {a b : ℚ} (h : a ≤ b) : (cppTwo a b).TrueExtents := by
  intro i
  exact ⟨twoPart_bounds h i, rfl⟩

/-- The hypotheses of the theorems on a pair of catalogues hold here, and the box derived
from the data (length 6) is too small for the randoms (length 10) with the expansion
factor 3/2, large enough with 2. -/
example :
    (0 : Fin 2) ≠ 1 ∧ ((![cppTwo 2 6, cppTwo 0 10] : CStore (Fin 2) ℚ) 0).Loaded ∧
    ((![cppTwo 2 6, cppTwo 0 10] : CStore (Fin 2) ℚ) 1).Loaded ∧
    ((![cppTwo 2 6, cppTwo 0 10] : CStore (Fin 2) ℚ) 0).TrueExtents ∧
    ((![cppTwo 2 6, cppTwo 0 10] : CStore (Fin 2) ℚ) 1).TrueExtents ∧
    (cppTwo 2 6).posSpan 0 * (3 / 2) < (cppTwo 0 10).posSpan 0 ∧
    (cppTwo 0 10).posSpan 0 ≤ (cppTwo 2 6).posSpan 0 * 3 :=
  ⟨by decide, cppTwo_loaded _ _, cppTwo_loaded _ _, cppTwo_extents (by norm_num),
    cppTwo_extents (by norm_num), by simp [cppTwo]; norm_num, by simp [cppTwo]; norm_num⟩

end

end Trv.Cat

import Verif.Spec.Catalogue
import Mathlib.Tactic.Ring
import Mathlib.Tactic.Linarith
import Mathlib.Tactic.FinCases
import Mathlib.Tactic.FieldSimp
/-
Helper lemmas for catalogues.
-/
set_option linter.unusedSectionVars false
namespace Trv.Cat

variable {K : Type} [Field K] [LinearOrder K] [IsStrictOrderedRing K] [FloorRing K]

/-! ### Extents -/

theorem foldl_min_isLeast (l : List K) : ∀ x, IsLeast {y | y ∈ x :: l} (l.foldl min x) := by
  induction l with
  | nil => intro x; simp [IsLeast, lowerBounds]
  | cons y l ih =>
    intro x
    obtain ⟨h1, h2⟩ := ih (min x y)
    simp only [List.foldl_cons]
    constructor
    · simp only [Set.mem_setOf_eq, List.mem_cons] at h1 ⊢
      rcases h1 with h1 | h1
      · rcases min_choice x y with h | h
        · left; rw [h1, h]
        · right; left; rw [h1, h]
      · right; right; exact h1
    · intro z hz
      simp only [Set.mem_setOf_eq, List.mem_cons] at hz
      have hm : l.foldl min (min x y) ≤ min x y := h2 (by simp)
      rcases hz with rfl | rfl | hz
      · exact hm.trans (min_le_left _ _)
      · exact hm.trans (min_le_right _ _)
      · exact h2 (by simp [hz])

theorem foldl_max_isGreatest (l : List K) : ∀ x, IsGreatest {y | y ∈ x :: l} (l.foldl max x) := by
  induction l with
  | nil => intro x; simp [IsGreatest, upperBounds]
  | cons y l ih =>
    intro x
    obtain ⟨h1, h2⟩ := ih (max x y)
    simp only [List.foldl_cons]
    constructor
    · simp only [Set.mem_setOf_eq, List.mem_cons] at h1 ⊢
      rcases h1 with h1 | h1
      · rcases max_choice x y with h | h
        · left; rw [h1, h]
        · right; left; rw [h1, h]
      · right; right; exact h1
    · intro z hz
      simp only [Set.mem_setOf_eq, List.mem_cons] at hz
      have hm : max x y ≤ l.foldl max (max x y) := h2 (by simp)
      rcases hz with rfl | rfl | hz
      · exact (le_max_left _ _).trans hm
      · exact (le_max_right _ _).trans hm
      · exact h2 (by simp [hz])

theorem IsExtent.unique {l : List K} {a b a' b' : K} (h : IsExtent l a b) (h' : IsExtent l a' b') :
    a = a' ∧ b = b' := ⟨h.1.unique h'.1, h.2.unique h'.2⟩

theorem IsExtent.ne_nil {l : List K} {a b : K} (h : IsExtent l a b) : l ≠ [] := by
  rintro rfl
  have := h.1.1
  simp at this

theorem bnd_eq_some {l : List K} {a b : K} : bnd l = some (a, b) ↔ IsExtent l a b := by
  cases l with
  | nil =>
    constructor
    · intro h; simp [bnd] at h
    · intro h; exact absurd rfl h.ne_nil
  | cons x l =>
    have h0 : IsExtent (x :: l) (l.foldl min x) (l.foldl max x) :=
      ⟨foldl_min_isLeast l x, foldl_max_isGreatest l x⟩
    constructor
    · intro h
      simp only [bnd, Option.some.injEq, Prod.mk.injEq] at h
      rw [← h.1, ← h.2]; exact h0
    · intro h
      obtain ⟨h1, h2⟩ := h.unique h0
      simp only [bnd, h1, h2]

theorem exists_extent {l : List K} (h : l ≠ []) : ∃ a b, IsExtent l a b := by
  cases l with
  | nil => exact absurd rfl h
  | cons x l => exact ⟨_, _, foldl_min_isLeast l x, foldl_max_isGreatest l x⟩

theorem IsExtent.sub {l : List K} {a b : K} (h : IsExtent l a b) (o : K) :
    IsExtent (l.map fun x => x - o) (a - o) (b - o) := by
  obtain ⟨⟨h1, h2⟩, h3, h4⟩ := h
  refine ⟨⟨?_, ?_⟩, ?_, ?_⟩
  · exact List.mem_map.2 ⟨a, h1, rfl⟩
  · intro y hy
    obtain ⟨x, hx, rfl⟩ := List.mem_map.1 hy
    exact sub_le_sub_right (h2 hx) _
  · exact List.mem_map.2 ⟨b, h3, rfl⟩
  · intro y hy
    obtain ⟨x, hx, rfl⟩ := List.mem_map.1 hy
    exact sub_le_sub_right (h4 hx) _

theorem IsExtent.mem {l : List K} {a b x : K} (h : IsExtent l a b) (hx : x ∈ l) : a ≤ x ∧ x ≤ b :=
  ⟨h.1.2 hx, h.2.2 hx⟩

theorem IsExtent.le {l : List K} {a b : K} (h : IsExtent l a b) : a ≤ b := h.1.2 h.2.1

/-! ### Python catalogues -/

theorem calcBounds_eq {c : PyCat K} {b : Fin 3 → K × K}
    (h : ∀ i, IsExtent (c.pos i) (b i).1 (b i).2) :
    c.calcBounds = .ok { c with bounds := b } := by
  have h0 := bnd_eq_some.2 (h 0)
  have h1 := bnd_eq_some.2 (h 1)
  have h2 := bnd_eq_some.2 (h 2)
  unfold PyCat.calcBounds
  simp only [h0, h1, h2]
  congr 2
  funext i
  fin_cases i <;> rfl

theorem exists_bounds (c : PyCat K) (h : c.Shape) :
    ∃ b : Fin 3 → K × K, ∀ i, IsExtent (c.pos i) (b i).1 (b i).2 := by
  have : ∀ i, ∃ p : K × K, IsExtent (c.pos i) p.1 p.2 := by
    intro i
    have hne : c.pos i ≠ [] := by
      intro he
      have := h.2.1 i
      rw [he] at this
      have := h.1
      simp_all
    obtain ⟨a, b, hab⟩ := exists_extent hne
    exact ⟨(a, b), hab⟩
  choose b hb using this
  exact ⟨b, hb⟩

theorem calcBounds_ok (c : PyCat K) (h : c.Shape) :
    ∃ b, c.calcBounds = .ok { c with bounds := b } ∧
      PyCat.TrueBounds { c with bounds := b } := by
  obtain ⟨b, hb⟩ := exists_bounds c h
  exact ⟨b, calcBounds_eq hb, hb⟩

theorem Shape.mapPos {c : PyCat K} (h : c.Shape) (f : Fin 3 → K → K) :
    PyCat.Shape { c with pos := fun i => (c.pos i).map (f i) } := by
  obtain ⟨h1, h2, h3⟩ := h
  refine ⟨by simpa using h1, ?_, by simpa using h3⟩
  intro i; simpa using h2 i


/-- Offsetting a catalogue; its bounds need not be up to date. -/
theorem offset_ok (c : PyCat K) (o : V3 K) (h : c.Shape) :
    ∃ b, c.offset o = .ok { c with pos := fun i => (c.pos i).map fun x => x - o i, bounds := b } ∧
      ∀ i, IsExtent ((c.pos i).map fun x => x - o i) (b i).1 (b i).2 := by
  obtain ⟨b, h1, h2⟩ := calcBounds_ok _ (Shape.mapPos h fun i x => x - o i)
  exact ⟨b, h1, h2⟩

/-- Offsetting a catalogue with true bounds. -/
theorem offset_eq (c : PyCat K) (o : V3 K) (h : c.TrueBounds) :
    c.offset o = .ok { c with pos := fun i => (c.pos i).map fun x => x - o i,
                              bounds := fun i => ((c.bounds i).1 - o i, (c.bounds i).2 - o i) } := by
  unfold PyCat.offset
  rw [calcBounds_eq (b := fun i => ((c.bounds i).1 - o i, (c.bounds i).2 - o i))]
  intro i
  exact (h i).sub (o i)

/-! ### C++ catalogues -/

theorem extMin_isLeast (p0 : Particle K) (ps : List (Particle K)) (i : Fin 3) :
    extMin p0 (p0 :: ps) i = (ps.map fun p => p.pos i).foldl min (p0.pos i) := by
  unfold extMin
  rw [List.foldl_cons, if_neg (lt_irrefl _)]
  generalize p0.pos i = x
  induction ps generalizing x with
  | nil => rfl
  | cons p ps ih =>
    simp only [List.foldl_cons, List.map_cons]
    have : (if x < p.pos i then x else p.pos i) = min x (p.pos i) := by
      split_ifs with h
      · rw [min_eq_left h.le]
      · rw [min_eq_right (not_lt.1 h)]
    rw [this]; exact ih _

theorem extMax_isGreatest (p0 : Particle K) (ps : List (Particle K)) (i : Fin 3) :
    extMax p0 (p0 :: ps) i = (ps.map fun p => p.pos i).foldl max (p0.pos i) := by
  unfold extMax
  rw [List.foldl_cons, if_neg (lt_irrefl _)]
  generalize p0.pos i = x
  induction ps generalizing x with
  | nil => rfl
  | cons p ps ih =>
    simp only [List.foldl_cons, List.map_cons]
    have : (if x > p.pos i then x else p.pos i) = max x (p.pos i) := by
      split_ifs with h
      · rw [max_eq_left h.le]
      · rw [max_eq_right (not_lt.1 h)]
    rw [this]; exact ih _

theorem calcExtents_eq {c : CppCat K} {ps : List (Particle K)} (h : c.pdata = some ps)
    (hl : ps.length = c.ntotal) {mn mx : V3 K}
    (he : ∀ i, IsExtent (ps.map fun p => p.pos i) (mn i) (mx i)) :
    c.calcExtents = .ok { c with posMin := mn, posMax := mx, posSpan := fun i => mx i - mn i } := by
  cases ps with
  | nil => exact absurd rfl (he 0).ne_nil
  | cons p0 ps =>
    have hmn : extMin p0 (p0 :: ps) = mn := by
      funext i
      rw [extMin_isLeast]
      exact ((foldl_min_isLeast _ _).unique (by simpa using (he i).1))
    have hmx : extMax p0 (p0 :: ps) = mx := by
      funext i
      rw [extMax_isGreatest]
      exact ((foldl_max_isGreatest _ _).unique (by simpa using (he i).2))
    unfold CppCat.calcExtents
    rw [h]
    simp only
    rw [if_neg (by omega), ← hl, List.take_length, hmn, hmx]

theorem exists_extents {ps : List (Particle K)} (h : ps ≠ []) :
    ∃ mn mx : V3 K, ∀ i, IsExtent (ps.map fun p => p.pos i) (mn i) (mx i) := by
  have : ∀ i : Fin 3, ∃ p : K × K, IsExtent (ps.map fun p => p.pos i) p.1 p.2 := by
    intro i
    obtain ⟨a, b, hab⟩ := exists_extent (l := ps.map fun p => p.pos i) (by simpa using h)
    exact ⟨(a, b), hab⟩
  choose b hb using this
  exact ⟨fun i => (b i).1, fun i => (b i).2, hb⟩

theorem mapParticles_eq {c : CppCat K} {ps : List (Particle K)} (h : c.pdata = some ps)
    (hl : ps.length = c.ntotal) (f : Particle K → Particle K) :
    c.mapParticles f = .ok { c with pdata := some (ps.map f) } := by
  unfold CppCat.mapParticles
  rw [h]
  simp only
  rw [if_neg (by omega), ← hl, List.take_length, List.drop_length, List.append_nil]

theorem cppOffset_eq {c : CppCat K} {ps : List (Particle K)} (h : c.pdata = some ps)
    (hl : ps.length = c.ntotal) {mn mx : V3 K}
    (he : ∀ i, IsExtent (ps.map fun p => p.pos i) (mn i) (mx i)) (d : V3 K) :
    c.offset d = .ok { c with pdata := some (ps.map (Particle.shift d)),
                              posMin := fun i => mn i - d i, posMax := fun i => mx i - d i,
                              posSpan := fun i => (mx i - d i) - (mn i - d i) } := by
  unfold CppCat.offset
  rw [h]
  simp only
  rw [mapParticles_eq h hl]
  simp only [bind, Except.bind]
  rw [calcExtents_eq (ps := ps.map (Particle.shift d)) (mn := fun i => mn i - d i)
    (mx := fun i => mx i - d i) rfl (by simpa using hl)]
  · rfl
  intro i
  have := (he i).sub (d i)
  rw [List.map_map] at this ⊢
  exact this

variable {ι : Type} [DecidableEq ι]

theorem recalc_eq {σ : CStore ι K} {c : ι} {ps : List (Particle K)} (h : (σ c).pdata = some ps)
    (hl : ps.length = (σ c).ntotal) {mn mx : V3 K}
    (he : ∀ i, IsExtent (ps.map fun p => p.pos i) (mn i) (mx i)) :
    recalc σ c = .ok (Function.update σ c
      { σ c with posMin := mn, posMax := mx, posSpan := fun i => mx i - mn i }) := by
  unfold recalc
  rw [calcExtents_eq h hl he]
  rfl

theorem offsetIn_eq {σ : CStore ι K} {c : ι} {ps : List (Particle K)} (h : (σ c).pdata = some ps)
    (hl : ps.length = (σ c).ntotal) {mn mx : V3 K}
    (he : ∀ i, IsExtent (ps.map fun p => p.pos i) (mn i) (mx i)) (d : V3 K) :
    offsetIn σ c d = .ok (Function.update σ c
      { σ c with pdata := some (ps.map (Particle.shift d)),
                 posMin := fun i => mn i - d i, posMax := fun i => mx i - d i,
                 posSpan := fun i => (mx i - d i) - (mn i - d i) }) := by
  unfold offsetIn
  rw [cppOffset_eq h hl he]
  rfl

/-- A C++ catalogue holding the particles `ps` with extents `mn`, `mx` recorded. -/
def Holds (c : CppCat K) (ps : List (Particle K)) (mn mx : V3 K) : Prop :=
  c.pdata = some ps ∧ ps.length = c.ntotal ∧ c.posMin = mn ∧ c.posMax = mx ∧
  ∀ i, IsExtent (ps.map fun p => p.pos i) (mn i) (mx i)

theorem Holds.of {c : CppCat K} (h : c.Loaded) (ht : c.TrueExtents) :
    Holds c c.particles c.posMin c.posMax := by
  obtain ⟨ps, h1, h2, h3⟩ := h
  have hp : c.particles = ps := by simp [CppCat.particles, h1]
  rw [hp]
  exact ⟨h1, h3, rfl, rfl, fun i => hp ▸ (ht i).1⟩

theorem Holds.loaded {c : CppCat K} {ps : List (Particle K)} {mn mx : V3 K} (h : Holds c ps mn mx) :
    c.Loaded := by
  obtain ⟨h1, h2, _, _, h5⟩ := h
  refine ⟨ps, h1, ?_, h2⟩
  rintro rfl
  exact (h5 0).ne_nil rfl

theorem Holds.particles {c : CppCat K} {ps : List (Particle K)} {mn mx : V3 K}
    (h : Holds c ps mn mx) : c.particles = ps := by simp [CppCat.particles, h.1]

/-- Offsetting an object of the store. -/
theorem Holds.offsetIn {σ : CStore ι K} {c : ι} {ps : List (Particle K)} {mn mx : V3 K}
    (h : Holds (σ c) ps mn mx) (d : V3 K) :
    ∃ c', offsetIn σ c d = .ok (Function.update σ c c') ∧
      Holds c' (ps.map (Particle.shift d)) (fun i => mn i - d i) (fun i => mx i - d i) ∧
      c'.source = (σ c).source ∧ c'.ntotal = (σ c).ntotal ∧ c'.wtotal = (σ c).wtotal ∧
      c'.wstotal = (σ c).wstotal ∧ (∀ i, c'.posSpan i = c'.posMax i - c'.posMin i) := by
  obtain ⟨h1, h2, h3, h4, h5⟩ := h
  refine ⟨_, offsetIn_eq h1 h2 h5 d, ⟨rfl, by simpa using h2, rfl, rfl, ?_⟩, rfl, rfl, rfl, rfl,
    fun _ => rfl⟩
  intro i
  have := (h5 i).sub (d i)
  rw [List.map_map] at this ⊢
  exact this

/-- Recomputing the extents of an object of the store. -/
theorem recalc_holds {σ : CStore ι K} {c : ι} (h : (σ c).Loaded) :
    ∃ c' mn mx, recalc σ c = .ok (Function.update σ c c') ∧ Holds c' (σ c).particles mn mx ∧
      c'.source = (σ c).source ∧ c'.ntotal = (σ c).ntotal ∧ c'.wtotal = (σ c).wtotal ∧
      c'.wstotal = (σ c).wstotal := by
  obtain ⟨ps, h1, h2, h3⟩ := h
  have hp : (σ c).particles = ps := by simp [CppCat.particles, h1]
  obtain ⟨mn, mx, he⟩ := exists_extents h2
  rw [hp]
  exact ⟨_, mn, mx, recalc_eq h1 h3 he, ⟨h1, h3, rfl, rfl, he⟩, rfl, rfl, rfl, rfl⟩

/-- The result of shifting two distinct catalogues by a common vector. -/
structure ShiftPair (σ σ' : CStore ι K) (c r : ι) (d : V3 K) : Prop where
  hc : Holds (σ' c) ((σ c).particles.map (Particle.shift d)) (fun i => (σ' c).posMin i)
    (fun i => (σ' c).posMax i)
  hr : Holds (σ' r) ((σ r).particles.map (Particle.shift d)) (fun i => (σ' r).posMin i)
    (fun i => (σ' r).posMax i)
  other : ∀ j, j ≠ c → j ≠ r → σ' j = σ j
  totals : ∀ j, (σ' j).source = (σ j).source ∧ (σ' j).ntotal = (σ j).ntotal ∧
    (σ' j).wtotal = (σ j).wtotal ∧ (σ' j).wstotal = (σ j).wstotal

theorem Holds.self {c : CppCat K} {ps : List (Particle K)} {mn mx : V3 K} (h : Holds c ps mn mx) :
    Holds c ps (fun i => c.posMin i) (fun i => c.posMax i) := by
  obtain ⟨h1, h2, rfl, rfl, h5⟩ := h
  exact ⟨h1, h2, rfl, rfl, h5⟩

theorem Holds.extent_unique {c c' : CppCat K} {ps : List (Particle K)} {mn mx mn' mx' : V3 K}
    (h : Holds c ps mn mx) (h' : Holds c' ps mn' mx') : mn = mn' ∧ mx = mx' := by
  constructor
  · funext i; exact ((h.2.2.2.2 i).unique (h'.2.2.2.2 i)).1
  · funext i; exact ((h.2.2.2.2 i).unique (h'.2.2.2.2 i)).2

/-- Two catalogues offset one after the other. -/
theorem offset_pair {σ : CStore ι K} {c r : ι} (hcr : c ≠ r) {ps qs : List (Particle K)}
    {mn mx mn' mx' : V3 K} (hc : Holds (σ c) ps mn mx) (hr : Holds (σ r) qs mn' mx') (d : V3 K) :
    ∃ σ', (offsetIn σ r d >>= fun σ => offsetIn σ c d) = .ok σ' ∧ ShiftPair σ σ' c r d := by
  obtain ⟨r', e1, hr', a1, a2, a3, a4, _⟩ := hr.offsetIn d
  have hc' : Holds (Function.update σ r r' c) ps mn mx := by rw [Function.update_of_ne hcr]; exact hc
  obtain ⟨c', e2, hc'', b1, b2, b3, b4, _⟩ := hc'.offsetIn d
  rw [Function.update_of_ne hcr] at b1 b2 b3 b4
  refine ⟨Function.update (Function.update σ r r') c c', ?_, ?_, ?_, ?_, ?_⟩
  · rw [e1]; exact e2
  · rw [Function.update_self, hc.particles]; exact hc''.self
  · rw [Function.update_of_ne hcr.symm, Function.update_self, hr.particles]; exact hr'.self
  · intro j h1 h2
    rw [Function.update_of_ne h1, Function.update_of_ne h2]
  · intro j
    by_cases h1 : j = c
    · subst h1; rw [Function.update_self]; exact ⟨b1, b2, b3, b4⟩
    · rw [Function.update_of_ne h1]
      by_cases h2 : j = r
      · subst h2; rw [Function.update_self]; exact ⟨a1, a2, a3, a4⟩
      · rw [Function.update_of_ne h2]; exact ⟨rfl, rfl, rfl, rfl⟩

/-- Recomputing extents of a catalogue with possibly stale ones, keeping others. -/
theorem recalc_two {σ : CStore ι K} {c r : ι} (hcr : c ≠ r) (hc : (σ c).Loaded) (hr : (σ r).Loaded) :
    ∃ (σ₁ : CStore ι K) (mn mx mn' mx' : V3 K), (recalc σ c >>= fun σ => recalc σ r) = .ok σ₁ ∧
      Holds (σ₁ c) (σ c).particles mn mx ∧ Holds (σ₁ r) (σ r).particles mn' mx' ∧
      (∀ j, j ≠ c → j ≠ r → σ₁ j = σ j) ∧
      (∀ j, (σ₁ j).source = (σ j).source ∧ (σ₁ j).ntotal = (σ j).ntotal ∧
        (σ₁ j).wtotal = (σ j).wtotal ∧ (σ₁ j).wstotal = (σ j).wstotal) := by
  obtain ⟨c', mn, mx, e1, h1, a1, a2, a3, a4⟩ := recalc_holds hc
  have hr' : (Function.update σ c c' r).Loaded := by rw [Function.update_of_ne hcr.symm]; exact hr
  obtain ⟨r', mn', mx', e2, h2, b1, b2, b3, b4⟩ := recalc_holds hr'
  rw [Function.update_of_ne hcr.symm] at b1 b2 b3 b4 h2
  refine ⟨Function.update (Function.update σ c c') r r', mn, mx, mn', mx', ?_, ?_, ?_, ?_, ?_⟩
  · rw [e1]; exact e2
  · rw [Function.update_of_ne hcr, Function.update_self]; exact h1
  · rw [Function.update_self]; exact h2
  · intro j g1 g2
    rw [Function.update_of_ne g2, Function.update_of_ne g1]
  · intro j
    by_cases h1 : j = r
    · subst h1; rw [Function.update_self]; exact ⟨b1, b2, b3, b4⟩
    · rw [Function.update_of_ne h1]
      by_cases h2 : j = c
      · subst h2; rw [Function.update_self]; exact ⟨a1, a2, a3, a4⟩
      · rw [Function.update_of_ne h2]; exact ⟨rfl, rfl, rfl, rfl⟩

theorem ShiftPair.trans {σ σ₁ σ' : CStore ι K} {c r : ι} {d : V3 K}
    {mn mx mn' mx' : V3 K} (h : ShiftPair σ₁ σ' c r d) (h1 : Holds (σ₁ c) (σ c).particles mn mx)
    (h2 : Holds (σ₁ r) (σ r).particles mn' mx') (h3 : ∀ j, j ≠ c → j ≠ r → σ₁ j = σ j)
    (h4 : ∀ j, (σ₁ j).source = (σ j).source ∧ (σ₁ j).ntotal = (σ j).ntotal ∧
        (σ₁ j).wtotal = (σ j).wtotal ∧ (σ₁ j).wstotal = (σ j).wstotal) :
    ShiftPair σ σ' c r d := by
  obtain ⟨a, b, o, t⟩ := h
  rw [h1.particles] at a
  rw [h2.particles] at b
  refine ⟨a, b, fun j g1 g2 => (o j g1 g2).trans (h3 j g1 g2), ?_⟩
  intro j
  obtain ⟨x1, x2, x3, x4⟩ := t j
  obtain ⟨y1, y2, y3, y4⟩ := h4 j
  exact ⟨x1.trans y1, x2.trans y2, x3.trans y3, x4.trans y4⟩

theorem centreInBox2_ok {σ : CStore ι K} {c r : ι} (hcr : c ≠ r) (hc : (σ c).Loaded)
    (hr : (σ r).Loaded) (L : V3 K) :
    ∃ (σ' : CStore ι K) (mn mx : V3 K), centreInBox2 σ c r L = .ok σ' ∧
      (∀ i, IsExtent ((σ r).particles.map fun p => p.pos i) (mn i) (mx i)) ∧
      ShiftPair σ σ' c r (fun i => (mn i + mx i) / 2 - L i / 2) := by
  obtain ⟨σ₁, mn, mx, mn', mx', e1, h1, h2, h3, h4⟩ := recalc_two hcr hc hr
  obtain ⟨σ', e2, h5⟩ := offset_pair hcr h1 h2 (centreVec (σ₁ r) L)
  refine ⟨σ', mn', mx', ?_, h2.2.2.2.2, ?_⟩
  · unfold centreInBox2
    rw [← bind_assoc, e1]
    exact e2
  · have := h5.trans h1 h2 h3 h4
    unfold centreVec at this
    rw [h2.2.2.1, h2.2.2.2.1] at this
    exact this

theorem padInBox2_ok {σ : CStore ι K} {c r : ι} (hcr : c ≠ r) (hc : (σ c).Loaded)
    (hr : (σ r).Loaded) (L p : V3 K) :
    ∃ (σ' : CStore ι K) (mn mx : V3 K), padInBox2 σ c r L p = .ok σ' ∧
      (∀ i, IsExtent ((σ r).particles.map fun p => p.pos i) (mn i) (mx i)) ∧
      ShiftPair σ σ' c r (fun i => mn i - p i * L i) := by
  obtain ⟨σ₁, mn, mx, mn', mx', e1, h1, h2, h3, h4⟩ := recalc_two hcr hc hr
  obtain ⟨σ', e2, h5⟩ := offset_pair hcr h1 h2 (padBoxVec (σ₁ r) L p)
  refine ⟨σ', mn', mx', ?_, h2.2.2.2.2, ?_⟩
  · unfold padInBox2
    rw [← bind_assoc, e1]
    exact e2
  · have := h5.trans h1 h2 h3 h4
    unfold padBoxVec at this
    rw [h2.2.2.1] at this
    exact this

theorem padGrids2_ok {σ : CStore ι K} {c r : ι} (hcr : c ≠ r) {ps : List (Particle K)} {a b : V3 K}
    (hc : Holds (σ c) ps a b) (hr : (σ r).Loaded) (L : V3 K) (n : Fin 3 → ℕ) (p : V3 K) :
    ∃ (σ' : CStore ι K) (mn mx : V3 K), padGrids2 σ c r L n p = .ok σ' ∧
      (∀ i, IsExtent ((σ r).particles.map fun p => p.pos i) (mn i) (mx i)) ∧
      ShiftPair σ σ' c r (fun i => mn i - p i * L i / (n i : K)) := by
  obtain ⟨r', mn', mx', e1, h2, b1, b2, b3, b4⟩ := recalc_holds hr
  have h1 : Holds (Function.update σ r r' c) (σ c).particles a b := by
    rw [Function.update_of_ne hcr, hc.particles]; exact hc
  have h2' : Holds (Function.update σ r r' r) (σ r).particles mn' mx' := by
    rw [Function.update_self]; exact h2
  obtain ⟨σ', e2, h5⟩ := offset_pair hcr h1 h2' (padGridVec (Function.update σ r r' r) L n p)
  refine ⟨σ', mn', mx', ?_, h2.2.2.2.2, ?_⟩
  · unfold padGrids2
    rw [e1]
    exact e2
  · have := h5.trans h1 h2' (fun j _ g2 => Function.update_of_ne g2 _ _) (by
      intro j
      by_cases h2 : j = r
      · subst h2; rw [Function.update_self]; exact ⟨b1, b2, b3, b4⟩
      · rw [Function.update_of_ne h2]; exact ⟨rfl, rfl, rfl, rfl⟩)
    unfold padGridVec at this
    rw [h2'.2.2.1] at this
    exact this

/-- Alignment shifts both catalogues by one vector. -/
theorem alignBoth_ok {σ : CStore ι K} {c r : ι} (hcr : c ≠ r) (hc : (σ c).Loaded)
    (hr : (σ r).Loaded) (tc : (σ c).TrueExtents) (tr : (σ r).TrueExtents) (P : AlignParams K) :
    ∃ (σ' : CStore ι K) (d : V3 K), alignBoth σ c r P = .ok σ' ∧ ShiftPair σ σ' c r d := by
  have hs0 : ∀ ps : List (Particle K), ps.map (Particle.shift fun _ => 0) = ps := by
    intro ps
    conv_rhs => rw [← List.map_id ps]
    apply List.map_congr_left
    intro p _
    simp [Particle.shift]
  have hid : ShiftPair σ σ c r (fun _ => 0) := by
    refine ⟨?_, ?_, fun _ _ _ => rfl, fun _ => ⟨rfl, rfl, rfl, rfl⟩⟩
    · rw [hs0]; exact Holds.of hc tc
    · rw [hs0]; exact Holds.of hr tr
  unfold alignBoth
  split_ifs
  · obtain ⟨σ', mn, mx, e, _, h⟩ := padGrids2_ok hcr (Holds.of hc tc) hr P.boxsize P.ngrid
      (fun _ => P.padfactor)
    exact ⟨σ', _, e, h⟩
  · obtain ⟨σ', mn, mx, e, _, h⟩ := padInBox2_ok hcr hc hr P.boxsize (fun _ => P.padfactor)
    exact ⟨σ', _, e, h⟩
  · exact ⟨σ, _, rfl, hid⟩
  · obtain ⟨σ', mn, mx, e, _, h⟩ := centreInBox2_ok hcr hc hr P.boxsize
    exact ⟨σ', _, e, h⟩
  · exact ⟨σ, _, rfl, hid⟩

end Trv.Cat

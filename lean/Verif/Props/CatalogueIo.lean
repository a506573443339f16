import Verif.Props.CatalogueCpp
/-
C30, C64, C100: memory accounting and loading of C++ catalogues.
-/
set_option linter.unusedSectionVars false
namespace Trv.Cat

section
variable {K : Type} [Field K] [LinearOrder K] [IsStrictOrderedRing K] [FloorRing K]
variable {ι : Type} [DecidableEq ι]

/-! ### C30 -/

/-- Every catalogue with particle data records their number. -/
def World.Counted (w : World ι K) : Prop :=
  ∀ i ps, (w.cats i).pdata = some ps → ps.length = (w.cats i).ntotal

/-- An initialisation applies to released particle data or to the same number of
particles. -/
def LifeOp.Fresh (w : World ι K) : LifeOp ι → Prop
  | .initialise i num => (w.cats i).pdata = none ∨ num ≤ 0 ∨ ((w.cats i).ntotal : ℤ) = num
  | .finalise _ => True

/-- All operations of a history are fresh when performed. -/
def Fresh (w : World ι K) : List (LifeOp ι) → Prop
  | [] => True
  | op :: ops => op.Fresh w ∧ Fresh (op.step w) ops

theorem held_update [Fintype ι] (w : World ι K) (i : ι) (c : CppCat K) (m m' : ℤ) :
    World.held { cats := Function.update w.cats i c, mem := m, maxmem := m' }
      = w.held - ((w.cats i).particles.length : ℤ) + (c.particles.length : ℤ) := by
  unfold World.held
  have h1 := Finset.add_sum_erase Finset.univ
    (fun j => ((Function.update w.cats i c j).particles.length : ℤ)) (Finset.mem_univ i)
  have h2 := Finset.add_sum_erase Finset.univ
    (fun j => ((w.cats j).particles.length : ℤ)) (Finset.mem_univ i)
  have h3 : ∑ j ∈ Finset.univ.erase i, ((Function.update w.cats i c j).particles.length : ℤ)
      = ∑ j ∈ Finset.univ.erase i, ((w.cats j).particles.length : ℤ) := by
    apply Finset.sum_congr rfl
    intro j hj
    rw [Function.update_of_ne (Finset.ne_of_mem_erase hj)]
  simp only [Function.update_self] at h1
  rw [← h1, ← h2, h3]
  ring

/-- `reset` in one formula. -/
theorem reset_spec (w : World ι K) (i : ι) (hc : w.Counted) :
    (w.reset i).mem = w.mem - ((w.cats i).particles.length : ℤ) ∧
    ((w.reset i).cats i).pdata = none ∧ ((w.reset i).cats i).ntotal = (w.cats i).ntotal ∧
    (∀ j, j ≠ i → (w.reset i).cats j = w.cats j) ∧ (w.reset i).maxmem = w.maxmem := by
  unfold World.reset
  cases h : (w.cats i).pdata with
  | none =>
    have : (w.cats i).particles = [] := by simp [CppCat.particles, h]
    simp [this, h]
  | some ps =>
    have h1 : (w.cats i).particles = ps := by simp [CppCat.particles, h]
    simp only [Function.update_self, h1, hc i ps h]
    refine ⟨trivial, trivial, trivial, ?_, trivial⟩
    intro j hj
    exact Function.update_of_ne hj _ _

theorem reset_held [Fintype ι] (w : World ι K) (i : ι) :
    (w.reset i).held = w.held - ((w.cats i).particles.length : ℤ) := by
  unfold World.reset
  cases h : (w.cats i).pdata with
  | none => simp [CppCat.particles, h]
  | some ps =>
    simp only
    rw [held_update]
    simp [CppCat.particles]

theorem reset_counted (w : World ι K) (i : ι) (hc : w.Counted) : (w.reset i).Counted := by
  intro j ps hj
  obtain ⟨-, h2, -, h4, -⟩ := reset_spec w i hc
  by_cases hji : j = i
  · subst hji; rw [h2] at hj; cases hj
  · rw [h4 j hji] at hj ⊢
    exact hc j ps hj

theorem step_mem [Fintype ι] (w : World ι K) (op : LifeOp ι) (hc : w.Counted) (hm : w.mem = w.held)
    (hf : op.Fresh w) : (op.step w).Counted ∧ (op.step w).mem = (op.step w).held := by
  cases op with
  | finalise i =>
    refine ⟨reset_counted w i hc, ?_⟩
    simp only [LifeOp.step]
    rw [(reset_spec w i hc).1, reset_held, hm]
  | initialise i num =>
    simp only [LifeOp.step, World.initialise]
    by_cases hn : num ≤ 0
    · rw [if_pos hn]; exact ⟨hc, hm⟩
    · rw [if_neg hn]
      -- the world with the new number recorded
      obtain ⟨w₁, hw₁⟩ : ∃ w₁ : World ι K, w₁ =
        { w with cats := Function.update w.cats i { w.cats i with ntotal := num.toNat } } := ⟨_, rfl⟩
      have hpart : (w₁.cats i).particles = (w.cats i).particles := by
        rw [hw₁]; simp [CppCat.particles]
      have hc₁ : w₁.Counted := by
        intro j ps hj
        by_cases hji : j = i
        · subst hji
          rw [hw₁] at hj ⊢
          simp only [Function.update_self] at hj ⊢
          rcases hf with h | h | h
          · rw [h] at hj; cases hj
          · exact absurd h hn
          · rw [hc j ps hj]; omega
        · rw [hw₁] at hj ⊢
          simp only [Function.update_of_ne hji] at hj ⊢
          exact hc j ps hj
      have hm₁ : w₁.mem = w₁.held := by
        have h1 : w₁.held = w.held := by
          rw [hw₁, held_update]
          simp [CppCat.particles]
        rw [h1, hw₁]; exact hm
      have e1 := reset_spec w₁ i hc₁
      have e2 := reset_held w₁ i
      have e3 := reset_counted w₁ i hc₁
      simp only [← hw₁]
      obtain ⟨w₂, hw₂⟩ : ∃ w₂, w₂ = w₁.reset i := ⟨_, rfl⟩
      rw [← hw₂] at e1 e2 e3 ⊢
      constructor
      · intro j ps hj
        simp only [World.updateMax] at hj ⊢
        by_cases hji : j = i
        · subst hji
          simp only [Function.update_self, Option.some.injEq] at hj ⊢
          rw [← hj]; simp
        · simp only [Function.update_of_ne hji] at hj ⊢
          exact e3 j ps hj
      · simp only [World.updateMax]
        have hp2 : (w₂.cats i).particles = [] := by simp [CppCat.particles, e1.2.1]
        rw [held_update, hp2, e2, e1.1, hm₁]
        simp [CppCat.particles]

/-- **C30 (partial: an already initialised catalogue is not given a different number of
particles).** After any history of initialisations and releases of any number of
catalogues, the memory counter is the memory held. -/
theorem C30_memory_partial [Fintype ι] (w : World ι K) (hc : w.Counted) (hm : w.mem = w.held)
    (ops : List (LifeOp ι)) (hf : Fresh w ops) :
    (ops.foldl LifeOp.step w).mem = (ops.foldl LifeOp.step w).held := by
  induction ops generalizing w with
  | nil => exact hm
  | cons op ops ih =>
    obtain ⟨h1, h2⟩ := hf
    obtain ⟨a, b⟩ := step_mem w op hc hm h1
    exact ih _ a b h2

/-- The empty world with `n` catalogues. -/
def emptyWorld (n : ℕ) : World (Fin n) ℚ :=
  { cats := fun _ => ⟨"", 0, none, 0, 0, fun _ => 0, fun _ => 0, fun _ => 0⟩, mem := 0, maxmem := 0 }

example : Fresh (emptyWorld 2)
    [.initialise 0 5, .initialise 1 7, .finalise 0, .initialise 0 3, .initialise 1 7] := by
  simp only [Fresh, LifeOp.Fresh, and_true]
  decide +kernel

/-- **C30 is violated**: initialising a catalogue twice with different numbers of
particles and releasing it leaves the counter wrong, although nothing more is held. -/
theorem C30_memory_violated [Fintype ι] (w : World ι K) (i : ι) (h : (w.cats i).pdata = none)
    (a b : ℤ) (ha : 0 < a) (hb : 0 < b) (hm : w.mem = w.held) :
    let w' := [LifeOp.initialise i a, .initialise i b, .finalise i].foldl LifeOp.step w
    w'.held = w.held ∧ w'.mem = w.held + (a - b) := by
  simp only [List.foldl_cons, List.foldl_nil, LifeOp.step, World.initialise, not_le.2 ha,
    not_le.2 hb, if_false, World.reset, h, Function.update_self, World.updateMax]
  constructor
  · simp only [World.held, Function.update_idem]
    apply Finset.sum_congr rfl
    intro j _
    by_cases hj : j = i
    · subst hj
      simp [CppCat.particles, h]
    · simp [Function.update_of_ne hj]
  · rw [hm]
    omega

/-- **C30.** The peak counter is never below the counter and is the greatest value
the counter has had, for every history. -/
theorem C30_peak (w : World ι K) (h : w.mem ≤ w.maxmem) (ops : List (LifeOp ι)) :
    (∀ k, (((ops.take k).foldl LifeOp.step w).mem ≤ (ops.foldl LifeOp.step w).maxmem)) ∧
    ((ops.foldl LifeOp.step w).maxmem = w.maxmem ∨
      ∃ k, (ops.foldl LifeOp.step w).maxmem = ((ops.take k).foldl LifeOp.step w).mem) := by
  have hreset : ∀ (w : World ι K) i, (w.reset i).mem ≤ w.mem ∧ (w.reset i).maxmem = w.maxmem := by
    intro w i
    unfold World.reset
    cases (w.cats i).pdata with
    | none => exact ⟨le_refl _, rfl⟩
    | some ps => exact ⟨by simp only; omega, rfl⟩
  have hstep : ∀ (w : World ι K) (op : LifeOp ι), w.mem ≤ w.maxmem →
      (op.step w).mem ≤ (op.step w).maxmem ∧ w.maxmem ≤ (op.step w).maxmem ∧
      ((op.step w).maxmem = w.maxmem ∨ (op.step w).maxmem = (op.step w).mem) := by
    intro w op hw
    cases op with
    | finalise i =>
      obtain ⟨a, b⟩ := hreset w i
      refine ⟨?_, ?_, Or.inl b⟩ <;> simp only [LifeOp.step] <;> omega
    | initialise i num =>
      simp only [LifeOp.step, World.initialise]
      by_cases hn : num ≤ 0
      · rw [if_pos hn]; exact ⟨hw, le_refl _, Or.inl rfl⟩
      · rw [if_neg hn]
        obtain ⟨w₁, hw₁⟩ : ∃ w₁ : World ι K, w₁ =
          { w with cats := Function.update w.cats i { w.cats i with ntotal := num.toNat } } := ⟨_, rfl⟩
        simp only [← hw₁, World.updateMax]
        have b := (hreset w₁ i).2
        have b' : (w₁.reset i).maxmem = w.maxmem := by rw [b, hw₁]
        rw [b']
        split_ifs with hlt
        · exact ⟨le_refl _, hlt.le, Or.inr rfl⟩
        · exact ⟨not_lt.1 hlt, le_refl _, Or.inl rfl⟩
  have hmono : ∀ (ops : List (LifeOp ι)) (w : World ι K), w.mem ≤ w.maxmem →
      w.maxmem ≤ (ops.foldl LifeOp.step w).maxmem := by
    intro ops
    induction ops with
    | nil => intro w _; exact le_refl _
    | cons op ops ih =>
      intro w hw
      obtain ⟨a, b, -⟩ := hstep w op hw
      exact b.trans (ih _ a)
  induction ops generalizing w with
  | nil => exact ⟨fun k => by simpa using h, Or.inl rfl⟩
  | cons op ops ih =>
    obtain ⟨a, b, c⟩ := hstep w op h
    obtain ⟨i1, i2⟩ := ih _ a
    refine ⟨?_, ?_⟩
    · intro k
      cases k with
      | zero => exact h.trans (hmono (op :: ops) w h)
      | succ k => exact i1 k
    · rcases i2 with i2 | ⟨k, hk⟩
      · simp only [List.foldl_cons]
        rw [i2]
        rcases c with c | c
        · exact Or.inl c
        · exact Or.inr ⟨1, c⟩
      · exact Or.inr ⟨k + 1, hk⟩

/-! ### C64 -/

theorem lookup_zip (name : String) (l : List String) (r : List K) :
    (l.zip r).lookup name = if name ∈ l then r[l.idxOf name]? else none := by
  induction l generalizing r with
  | nil => simp
  | cons a l ih =>
    cases r with
    | nil => simp
    | cons x r =>
      simp only [List.zip_cons_cons, List.lookup_cons]
      by_cases h : name = a
      · subst h; simp
      · have hb : (name == a) = false := by simpa using h
        simp only [hb]
        rw [ih, List.idxOf_cons_ne _ (Ne.symm h)]
        simp [h]

theorem nameIndices_eq (cols : List String) (i : Fin 6) (name : String)
    (hn : (![ "x", "y", "z", "nz", "ws", "wc"] : Fin 6 → String) i = name) :
    nameIndices cols i = if name ∈ cols then some (cols.idxOf name) else none := by
  unfold nameIndices
  simp only [hn]
  by_cases h : name ∈ cols
  · rw [if_pos h, if_pos (List.idxOf_lt_length_of_mem h)]
  · rw [if_neg h, if_neg]
    rw [List.idxOf_eq_length h]; omega

theorem readCol_eq (cols : List String) (row : List K) (hrow : cols.length ≤ row.length) (i : Fin 6)
    (name : String) (hn : (![ "x", "y", "z", "nz", "ws", "wc"] : Fin 6 → String) i = name)
    (hin : name ∈ cols) (d : K) :
    readCol row (nameIndices cols i) = .ok ((named cols row name).getD d) := by
  rw [nameIndices_eq cols i name hn, if_pos hin]
  unfold readCol named
  rw [lookup_zip, if_pos hin]
  have hlt : cols.idxOf name < row.length := (List.idxOf_lt_length_of_mem hin).trans_le hrow
  simp only [List.getElem?_eq_getElem hlt, Option.getD_some]

theorem readOpt_eq (cols : List String) (row : List K) (hrow : cols.length ≤ row.length) (i : Fin 6)
    (name : String) (hn : (![ "x", "y", "z", "nz", "ws", "wc"] : Fin 6 → String) i = name) (d : K) :
    readOpt row (nameIndices cols i) d = .ok ((named cols row name).getD d) := by
  by_cases hin : name ∈ cols
  · have h := readCol_eq cols row hrow i name hn hin d
    rw [nameIndices_eq cols i name hn, if_pos hin] at h ⊢
    exact h
  · rw [nameIndices_eq cols i name hn, if_neg hin]
    unfold readOpt named
    rw [lookup_zip, if_neg hin]
    rfl

theorem rowParticle_eq (cols : List String) (nz0 : K) (row : List K) (hrow : cols.length ≤ row.length)
    (hx : "x" ∈ cols) (hy : "y" ∈ cols) (hz : "z" ∈ cols) :
    rowParticle (nameIndices cols) nz0 row = .ok (lineParticle cols nz0 row) := by
  unfold rowParticle
  rw [readCol_eq cols row hrow 0 "x" rfl hx 0, readCol_eq cols row hrow 1 "y" rfl hy 0,
    readCol_eq cols row hrow 2 "z" rfl hz 0, readOpt_eq cols row hrow 3 "nz" rfl,
    readOpt_eq cols row hrow 4 "ws" rfl, readOpt_eq cols row hrow 5 "wc" rfl]
  rfl

theorem mapM_ok' {α β : Type} (f : α → Except CppErr β) (g : α → β) (l : List α)
    (h : ∀ a ∈ l, f a = .ok (g a)) : l.mapM f = .ok (l.map g) := by
  induction l with
  | nil => rfl
  | cons a l ih =>
    rw [List.mapM_cons, h a (by simp), ih fun b hb => h b (by simp [hb])]
    rfl

/-- The catalogue after a successful initialisation. -/
theorem initialise_eq (w : World ι K) (i : ι) (n : ℤ) (hn : 0 < n) :
    ∃ w', w.initialise i n = .ok w' ∧ (w'.cats i).ntotal = n.toNat ∧
      (w'.cats i).source = (w.cats i).source ∧ (∀ j, j ≠ i → w'.cats j = w.cats j) := by
  unfold World.initialise
  rw [if_neg (not_le.2 hn)]
  refine ⟨_, rfl, ?_⟩
  simp only [World.reset, World.updateMax]
  cases h : (w.cats i).pdata with
  | none =>
    simp only [Function.update_self, h]
    refine ⟨trivial, trivial, ?_⟩
    intro j hj
    simp [Function.update_of_ne hj]
  | some ps =>
    simp only [Function.update_self, h]
    refine ⟨trivial, trivial, ?_⟩
    intro j hj
    simp [Function.update_of_ne hj]

theorem calcTotals_eq {c : CppCat K} {ps : List (Particle K)} (h : c.pdata = some ps)
    (hl : ps.length = c.ntotal) :
    c.calcTotals = .ok { c with wtotal := (ps.map (·.w)).sum, wstotal := (ps.map (·.ws)).sum } := by
  unfold CppCat.calcTotals
  rw [h]
  simp only
  rw [if_neg (by omega), ← hl, List.take_length]

/-- **C64 (partial: the columns include the coordinates, and every data line has a number
for each column).** Loading readable text files with at least one data line into a new
catalogue succeeds with one particle for each data line, in order over all files, made of
the named columns with the documented defaults; totals and extents are true. -/
theorem C64_text_loading_partial (w : World ι K) (i : ι) (path : String) (cols : List String)
    (files : List (List (Line K))) (volume : K) (hs : (w.cats i).source = "")
    (hx : "x" ∈ cols) (hy : "y" ∈ cols) (hz : "z" ∈ cols) (hne : dataRows files ≠ [])
    (hrow : ∀ r ∈ dataRows files, cols.length ≤ r.length) :
    ∃ w', w.loadFile i path cols (files.map some) volume = (w', none) ∧
      (w'.cats i).particles = (dataRows files).map
        (lineParticle cols (if 0 < volume then ((dataRows files).length : K) / volume else 0)) ∧
      (w'.cats i).Loaded ∧ (w'.cats i).TrueExtents ∧
      (w'.cats i).wtotal = ((w'.cats i).particles.map fun p => p.ws * p.wc).sum ∧
      (w'.cats i).wstotal = ((w'.cats i).particles.map fun p => p.ws).sum ∧
      (∀ j, j ≠ i → w'.cats j = w.cats j) := by
  obtain ⟨rows, hrows⟩ : ∃ rows, rows = dataRows files := ⟨_, rfl⟩
  obtain ⟨nz0, hnz⟩ : ∃ nz0 : K, nz0 = if 0 < volume then (rows.length : K) / volume else 0 := ⟨_, rfl⟩
  rw [← hrows] at hne hrow ⊢
  rw [← hnz]
  obtain ⟨ps, hps⟩ : ∃ ps, ps = rows.map (lineParticle cols nz0) := ⟨_, rfl⟩
  have hpsne : ps ≠ [] := by rw [hps]; simpa using hne
  obtain ⟨mn, mx, he⟩ := exists_extents hpsne
  obtain ⟨w₁, e1, n1, s1, o1⟩ := initialise_eq (w.setSource i ("extfile:" ++ path)) i (rows.length : ℤ)
    (by have := List.length_pos_iff.2 hne; omega)
  have hlen : ps.length = (w₁.cats i).ntotal := by rw [hps, n1]; simp
  have e2 : rows.mapM (rowParticle (nameIndices cols) nz0) = .ok ps := by
    rw [hps]
    exact mapM_ok' _ _ _ fun r hr => rowParticle_eq cols nz0 r (hrow r hr) hx hy hz
  have e3 := calcTotals_eq (c := { w₁.cats i with pdata := some ps }) rfl hlen
  have e4 := calcExtents_eq (c := CppCat.mk (w₁.cats i).source (w₁.cats i).ntotal (some ps)
    (ps.map (·.w)).sum (ps.map (·.ws)).sum (w₁.cats i).posMin (w₁.cats i).posMax
    (w₁.cats i).posSpan) rfl hlen he
  refine ⟨{ w₁ with cats := Function.update w₁.cats i (CppCat.mk (w₁.cats i).source
    (w₁.cats i).ntotal (some ps) (ps.map (·.w)).sum (ps.map (·.ws)).sum mn mx
    (fun i => mx i - mn i)) }, ?_, ?_, ?_, ?_, ?_, ?_, ?_⟩
  · unfold World.loadFile
    rw [if_neg (by simpa using hs)]
    have : (w.setSource i ("extfile:" ++ path)).loadRows i cols (files.map some) volume = .ok
      { w₁ with cats := Function.update w₁.cats i (CppCat.mk (w₁.cats i).source
        (w₁.cats i).ntotal (some ps) (ps.map (·.w)).sum (ps.map (·.ws)).sum mn mx
        (fun i => mx i - mn i)) } := by
      unfold World.loadRows
      have hany : (files.map some).any (fun f => f.isNone) = false := by simp
      have hmap : (files.map some).map (fun f => f.getD []) = files := by
        rw [List.map_map]; simp [Function.comp_def]
      rw [hany, hmap, ← hrows]
      simp only [bind, Except.bind, ← hnz]
      rw [e1]
      simp only [e2]
      rw [e3]
      simp only
      rw [e4]
      rfl
    simp only [this]
  · simp [CppCat.particles, hps]
  · simp only [Function.update_self]
    exact ⟨ps, rfl, hpsne, hlen⟩
  · intro j
    simp only [Function.update_self]
    exact ⟨he j, trivial⟩
  · simp only [Function.update_self, CppCat.particles, Option.getD_some]
    congr 1
    apply List.map_congr_left
    intro p hp
    rw [hps] at hp
    obtain ⟨r, -, rfl⟩ := List.mem_map.1 hp
    rfl
  · simp [CppCat.particles]
  · intro j hj
    simp only [Function.update_of_ne hj]
    rw [o1 j hj, World.setSource]
    simp [Function.update_of_ne hj]

example : dataRows [[Line.skip, .row [(1 : ℚ), 2, 3, 5]], [.row [4, 5, 6, 7], .skip]]
      = [[1, 2, 3, 5], [4, 5, 6, 7]] ∧
    (lineParticle ["x", "y", "z", "ws"] 0 [(1 : ℚ), 2, 3, 5]).ws = 5 ∧
    (lineParticle ["x", "y", "z", "ws"] 0 [(1 : ℚ), 2, 3, 5]).wc = 1 := by
  decide +kernel

/-- **C64 is violated when a coordinate column is missing** from the column list: instead
of being reported, the row is read at index −1. -/
theorem C64_missing_column_violated (w : World ι K) (i : ι) (path : String) (cols : List String)
    (files : List (List (Line K))) (volume : K) (hs : (w.cats i).source = "")
    (hx : "x" ∉ cols) (hne : dataRows files ≠ []) :
    (w.loadFile i path cols (files.map some) volume).2 = some .outOfBounds := by
  obtain ⟨r, rs, hr⟩ := List.exists_cons_of_ne_nil hne
  obtain ⟨w₁, e1, -⟩ := initialise_eq (w.setSource i ("extfile:" ++ path)) i
    ((dataRows files).length : ℤ) (by rw [hr]; simp)
  unfold World.loadFile
  rw [if_neg (by simpa using hs)]
  have : (w.setSource i ("extfile:" ++ path)).loadRows i cols (files.map some) volume
      = .error .outOfBounds := by
    unfold World.loadRows
    have hany : (files.map some).any (fun f => f.isNone) = false := by simp
    have hmap : (files.map some).map (fun f => f.getD []) = files := by
      rw [List.map_map]; simp [Function.comp_def]
    rw [hany, hmap]
    simp only [bind, Except.bind]
    rw [e1]
    simp only
    rw [hr, List.mapM_cons]
    have hrow : ∀ nz0 : K, rowParticle (nameIndices cols) nz0 r = .error .outOfBounds := by
      intro nz0
      unfold rowParticle
      rw [nameIndices_eq cols 0 "x" rfl, if_neg hx]
      rfl
    simp only [hrow, bind, Except.bind]
    rfl
  simp only [this]

/-- **C64 is violated by a data line without enough numbers** (for example one with blanks
only): it is read beyond its end. -/
theorem C64_short_line_violated (w : World ι K) (i : ι) (path : String) (cols : List String)
    (volume : K) (hs : (w.cats i).source = "") (hx : "x" ∈ cols) :
    (w.loadFile i path cols [some [Line.row []]] volume).2 = some .outOfBounds := by
  obtain ⟨w₁, e1, -⟩ := initialise_eq (w.setSource i ("extfile:" ++ path)) i 1 (by norm_num)
  unfold World.loadFile
  rw [if_neg (by simpa using hs)]
  have : (w.setSource i ("extfile:" ++ path)).loadRows i cols [some [Line.row []]] volume
      = .error .outOfBounds := by
    unfold World.loadRows
    simp only [List.any_cons, List.any_nil, Option.isNone_some, Bool.or_false,
      List.map_cons, List.map_nil, Option.getD_some, dataRows, List.flatten_cons, List.flatten_nil,
      List.append_nil, List.filterMap_cons, List.filterMap_nil, List.length_cons, List.length_nil,
      bind, Except.bind, zero_add, Nat.cast_one]
    rw [e1]
    simp only [List.mapM_cons]
    have hrow : ∀ nz0 : K, rowParticle (nameIndices cols) nz0 [] = .error .outOfBounds := by
      intro nz0
      unfold rowParticle
      rw [nameIndices_eq cols 0 "x" rfl, if_pos hx]
      rfl
    simp only [hrow, bind, Except.bind]
    rfl
  simp only [this]

/-- **C64 is violated after a failed attempt**: an unreadable file marks the catalogue as
loaded, so a second attempt with the correct files is rejected. -/
theorem C64_retry_violated (w : World ι K) (i : ι) (path path' : String) (cols : List String)
    (files : List (Option (List (Line K)))) (volume : K) (hs : (w.cats i).source = "") :
    ∃ w', w.loadFile i path cols [none] volume = (w', some .ioError) ∧
      w'.loadFile i path' cols files volume = (w', some .invalidData) := by
  refine ⟨w.setSource i ("extfile:" ++ path), ?_, ?_⟩
  · unfold World.loadFile
    rw [if_neg (by simpa using hs)]
    rfl
  · unfold World.loadFile
    rw [if_pos]
    simp only [World.setSource, Function.update_self, ne_eq]
    intro h
    have := congrArg String.length h
    simp [String.length_append] at this

/-! ### C100 -/

/-- One particle as passed in six parallel arrays. -/
structure Rec6 (K : Type) where
  x : K
  y : K
  z : K
  nz : K
  ws : K
  wc : K

/-- The particle meant by a record: its weight is the product of the two weights. -/
def Rec6.particle (r : Rec6 K) : Particle K :=
  { pos := ![r.x, r.y, r.z], nz := r.nz, ws := r.ws, wc := r.wc, w := r.ws * r.wc }

theorem map_mkParticle (rs : List (Rec6 K)) :
    (List.range (rs.map Rec6.x).length).map (mkParticle (rs.map Rec6.x) (rs.map Rec6.y)
      (rs.map Rec6.z) (rs.map Rec6.nz) (rs.map Rec6.ws) (rs.map Rec6.wc)) =
    rs.map Rec6.particle := by
  apply List.ext_getElem
  · simp
  · intro k h1 h2
    have hk : k < rs.length := by simpa using h1
    simp [mkParticle, Rec6.particle, hk]

/-- **C100.** Loading `n > 0` particles from six arrays of equal lengths gives a catalogue of
exactly those particles in order, each weighted by the product of its weights, with true totals and
extents; no other catalogue changes. -/
theorem C100_array_loading (w : World ι K) (i : ι) (rs : List (Rec6 K)) (hne : rs ≠ []) :
    ∃ w', w.loadData i (rs.map Rec6.x) (rs.map Rec6.y) (rs.map Rec6.z) (rs.map Rec6.nz)
        (rs.map Rec6.ws) (rs.map Rec6.wc) = .ok w' ∧
      (w'.cats i).particles = rs.map Rec6.particle ∧ (w'.cats i).source = "extdata" ∧
      (w'.cats i).Loaded ∧ (w'.cats i).TrueExtents ∧
      (w'.cats i).wtotal = (rs.map fun r => r.ws * r.wc).sum ∧
      (w'.cats i).wstotal = (rs.map fun r => r.ws).sum ∧
      (∀ j, j ≠ i → w'.cats j = w.cats j) := by
  obtain ⟨ps, hps⟩ : ∃ ps, ps = rs.map Rec6.particle := ⟨_, rfl⟩
  have hpsne : ps ≠ [] := by rw [hps]; simpa using hne
  obtain ⟨mn, mx, he⟩ := exists_extents hpsne
  obtain ⟨w₁, e1, n1, s1, o1⟩ := initialise_eq
    ({ w with cats := Function.update w.cats i { w.cats i with source := "extdata" } } : World ι K) i
    ((rs.map Rec6.x).length : ℤ) (by have := List.length_pos_iff.2 hne; simp; omega)
  have hlen : ps.length = (w₁.cats i).ntotal := by rw [hps, n1]; simp
  have e3 := calcTotals_eq (c := { w₁.cats i with pdata := some ps }) rfl hlen
  have e4 := calcExtents_eq (c := CppCat.mk (w₁.cats i).source (w₁.cats i).ntotal (some ps)
    (ps.map (·.w)).sum (ps.map (·.ws)).sum (w₁.cats i).posMin (w₁.cats i).posMax
    (w₁.cats i).posSpan) rfl hlen he
  refine ⟨{ w₁ with cats := Function.update w₁.cats i (CppCat.mk (w₁.cats i).source
    (w₁.cats i).ntotal (some ps) (ps.map (·.w)).sum (ps.map (·.ws)).sum mn mx
    (fun i => mx i - mn i)) }, ?_, ?_, ?_, ?_, ?_, ?_, ?_, ?_⟩
  · unfold World.loadData
    rw [if_neg (by simp)]
    simp only [bind, Except.bind]
    rw [e1]
    simp only [map_mkParticle, ← hps]
    rw [e3]
    simp only
    rw [e4]
  · simp [CppCat.particles, hps]
  · simp only [Function.update_self]
    rw [s1]
    simp
  · simp only [Function.update_self]
    exact ⟨ps, rfl, hpsne, hlen⟩
  · intro j
    simp only [Function.update_self]
    exact ⟨he j, trivial⟩
  · simp only [Function.update_self, hps, List.map_map]
    rfl
  · simp only [Function.update_self, hps, List.map_map]
    rfl
  · intro j hj
    simp only [Function.update_of_ne hj]
    rw [o1 j hj]
    simp [Function.update_of_ne hj]

/-- **C100.** Loading is rejected if the lengths of the arrays differ, or if they are empty. -/
theorem C100_rejected (w : World ι K) (i : ι) (x y z nz ws wc : List K)
    (h : ¬ (y.length = x.length ∧ z.length = x.length ∧ nz.length = x.length ∧
      ws.length = x.length ∧ wc.length = x.length) ∨ x = []) :
    ∃ e, w.loadData i x y z nz ws wc = .error e := by
  unfold World.loadData
  by_cases hl : x.length = y.length ∧ x.length = z.length ∧ x.length = nz.length ∧
      x.length = ws.length ∧ x.length = wc.length
  · have hx : x = [] := by
      rcases h with h | h
      · exact absurd ⟨hl.1.symm, hl.2.1.symm, hl.2.2.1.symm, hl.2.2.2.1.symm, hl.2.2.2.2.symm⟩ h
      · exact h
    rw [if_neg (by simpa using hl)]
    subst hx
    exact ⟨_, rfl⟩
  · rw [if_pos (by simpa using hl)]
    exact ⟨_, rfl⟩

example : ((⟨1, 2, 3, 4, 5, 6⟩ : Rec6 ℚ).particle.w = 30) ∧
    (⟨1, 2, 3, 4, 5, 6⟩ : Rec6 ℚ).particle.pos 1 = 2 := by decide +kernel

end

end Trv.Cat

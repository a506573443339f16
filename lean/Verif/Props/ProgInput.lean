import Verif.Spec.ProgInput
import Verif.Props.Program
import Verif.Props.CatalogueCpp
import Verif.Props.CatalogueIo
/-
C156: what a completed run of the program has measured.
-/
namespace Trv.Prog
open Trv Trv.Par Trv.Mon Trv.Cat

section
variable {K : Type} [Field K] [LinearOrder K] [IsStrictOrderedRing K] [FloorRing K] {α ι : Type} [DecidableEq ι]

/-! ### Reading a catalogue -/

theorem readCol_inv {cols : List String} {row : List K} {i : Fin 6} {name : String}
    (hn : (![ "x", "y", "z", "nz", "ws", "wc"] : Fin 6 → String) i = name) {v : K}
    (h : readCol row (nameIndices cols i) = .ok v) (d : K) :
    name ∈ cols ∧ v = (named cols row name).getD d := by
  rw [nameIndices_eq cols i name hn] at h
  by_cases hin : name ∈ cols
  · rw [if_pos hin] at h
    refine ⟨hin, ?_⟩
    unfold named
    rw [lookup_zip, if_pos hin]
    unfold readCol at h
    simp only at h
    cases hg : row[cols.idxOf name]? with
    | none => rw [hg] at h; cases h
    | some x => rw [hg] at h; cases h; rfl
  · rw [if_neg hin] at h
    cases h

theorem readOpt_inv {cols : List String} {row : List K} {i : Fin 6} {name : String}
    (hn : (![ "x", "y", "z", "nz", "ws", "wc"] : Fin 6 → String) i = name) {v d : K}
    (h : readOpt row (nameIndices cols i) d = .ok v) : v = (named cols row name).getD d := by
  by_cases hin : name ∈ cols
  · have h' : readCol row (nameIndices cols i) = .ok v := by
      rw [nameIndices_eq cols i name hn, if_pos hin] at h ⊢
      exact h
    exact (readCol_inv hn h' d).2
  · rw [nameIndices_eq cols i name hn, if_neg hin] at h
    unfold named
    rw [lookup_zip, if_neg hin]
    cases h
    rfl

theorem rowParticle_inv {cols : List String} {nz0 : K} {row : List K} {q : Particle K}
    (h : rowParticle (nameIndices cols) nz0 row = .ok q) :
    (∀ n ∈ ["x", "y", "z"], n ∈ cols) ∧ q = lineParticle cols nz0 row := by
  unfold rowParticle at h
  simp only [bind, Except.bind] at h
  cases h0 : readCol row (nameIndices cols 0) with
  | error x => rw [h0] at h; cases h
  | ok v0 =>
  rw [h0] at h
  simp only at h
  cases h1 : readCol row (nameIndices cols 1) with
  | error x => rw [h1] at h; cases h
  | ok v1 =>
  rw [h1] at h
  simp only at h
  cases h2 : readCol row (nameIndices cols 2) with
  | error x => rw [h2] at h; cases h
  | ok v2 =>
  rw [h2] at h
  simp only at h
  cases h3 : readOpt row (nameIndices cols 3) nz0 with
  | error x => rw [h3] at h; cases h
  | ok v3 =>
  rw [h3] at h
  simp only at h
  cases h4 : readOpt row (nameIndices cols 4) 1 with
  | error x => rw [h4] at h; cases h
  | ok v4 =>
  rw [h4] at h
  simp only at h
  cases h5 : readOpt row (nameIndices cols 5) 1 with
  | error x => rw [h5] at h; cases h
  | ok v5 =>
  rw [h5] at h
  cases h
  obtain ⟨a0, b0⟩ := readCol_inv (name := "x") rfl h0 0
  obtain ⟨a1, b1⟩ := readCol_inv (name := "y") rfl h1 0
  obtain ⟨a2, b2⟩ := readCol_inv (name := "z") rfl h2 0
  have b3 := readOpt_inv (name := "nz") rfl h3
  have b4 := readOpt_inv (name := "ws") rfl h4
  have b5 := readOpt_inv (name := "wc") rfl h5
  refine ⟨?_, ?_⟩
  · intro n hn
    simp only [List.mem_cons, List.not_mem_nil, or_false] at hn
    rcases hn with rfl | rfl | rfl <;> assumption
  · subst b0 b1 b2 b3 b4 b5
    rfl

theorem mapM_inv {α β : Type} {f : α → Except CppErr β} {l : List α} {m : List β} (h : l.mapM f = .ok m) :
    ∀ g : α → β, (∀ a b, f a = .ok b → b = g a) → m = l.map g ∧ ∀ a ∈ l, f a = .ok (g a) := by
  intro g hg
  induction l generalizing m with
  | nil => cases h; exact ⟨rfl, by simp⟩
  | cons a l ih =>
    rw [List.mapM_cons] at h
    simp only [bind, Except.bind] at h
    cases ha : f a with
    | error x => rw [ha] at h; cases h
    | ok b =>
      rw [ha] at h
      simp only at h
      cases hl : l.mapM f with
      | error x => rw [hl] at h; cases h
      | ok bs =>
        rw [hl] at h
        cases h
        obtain ⟨i1, i2⟩ := ih hl
        refine ⟨by rw [i1, hg a b ha]; rfl, ?_⟩
        intro c hc
        rcases List.mem_cons.1 hc with rfl | hc
        · rw [ha, hg _ b ha]
        · exact i2 c hc

theorem files_some {α : Type} : ∀ {l : List (Option α)}, l.any (fun f => f.isNone) = false → ∃ fs : List α, l = fs.map some
  | [], _ => ⟨[], rfl⟩
  | none :: l, h => by simp at h
  | some a :: l, h => by
    obtain ⟨fs, e⟩ := files_some (l := l) (by simpa using h)
    exact ⟨a :: fs, by rw [e]; rfl⟩

/-- A catalogue which is loaded without error. -/
theorem loadFile_inv {w w' : World ι K} {i : ι} {path : String} {cols : List String}
    {files : List (Option (List (Line K)))} {volume : K}
    (h : w.loadFile i path cols files volume = (w', none)) :
    ∃ fs, files = fs.map some ∧ dataRows fs ≠ [] ∧ (∀ n ∈ ["x", "y", "z"], n ∈ cols) ∧
      (w'.cats i).particles = (dataRows fs).map (lineParticle cols
        (if 0 < volume then ((dataRows fs).length : K) / volume else 0)) ∧
      (w'.cats i).Loaded ∧ (w'.cats i).TrueExtents ∧ ∀ j, j ≠ i → w'.cats j = w.cats j := by
  unfold World.loadFile at h
  by_cases hs : (w.cats i).source ≠ ""
  · rw [if_pos hs] at h; cases h
  rw [if_neg hs] at h
  simp only at h
  cases hr : (w.setSource i ("extfile:" ++ path)).loadRows i cols files volume with
  | error x => rw [hr] at h; cases h
  | ok v =>
  rw [hr] at h
  cases h
  unfold World.loadRows at hr
  by_cases ha : files.any (fun f => f.isNone) = true
  · rw [if_pos ha] at hr; cases hr
  rw [if_neg ha] at hr
  obtain ⟨fs, rfl⟩ := files_some (Bool.eq_false_iff.2 ha)
  have hmap : (fs.map some).map (fun f => f.getD []) = fs := by
    rw [List.map_map]; simp [Function.comp_def]
  simp only [hmap, bind, Except.bind] at hr
  refine ⟨fs, rfl, ?_⟩
  have hne : dataRows fs ≠ [] := by
    intro h0
    rw [h0] at hr
    unfold World.initialise at hr
    simp at hr
  obtain ⟨w₁, e1, n1, -, o1⟩ := initialise_eq (w.setSource i ("extfile:" ++ path)) i ((dataRows fs).length : ℤ)
    (by have := List.length_pos_iff.2 hne; omega)
  rw [e1] at hr
  simp only at hr
  cases hm : (dataRows fs).mapM (rowParticle (nameIndices cols)
      (if 0 < volume then ((dataRows fs).length : K) / volume else 0)) with
  | error x => rw [hm] at hr; cases hr
  | ok ps =>
  rw [hm] at hr
  simp only at hr
  obtain ⟨hps, hall⟩ := mapM_inv hm _ fun a b hb => (rowParticle_inv hb).2
  have hcols : ∀ n ∈ ["x", "y", "z"], n ∈ cols := by
    obtain ⟨r, rs, hr⟩ := List.exists_cons_of_ne_nil hne
    exact (rowParticle_inv (hall r (by rw [hr]; simp))).1
  have hpsne : ps ≠ [] := by rw [hps]; simpa using hne
  have hlen : ps.length = (w₁.cats i).ntotal := by rw [hps, n1]; simp
  obtain ⟨mn, mx, he⟩ := exists_extents hpsne
  have e3 := calcTotals_eq (c := { w₁.cats i with pdata := some ps }) rfl hlen
  have e4 := calcExtents_eq (c := CppCat.mk (w₁.cats i).source (w₁.cats i).ntotal (some ps)
    (ps.map (·.w)).sum (ps.map (·.ws)).sum (w₁.cats i).posMin (w₁.cats i).posMax
    (w₁.cats i).posSpan) rfl hlen he
  rw [e3] at hr
  simp only at hr
  rw [e4] at hr
  cases hr
  refine ⟨hne, hcols, ?_, ?_, ?_, ?_⟩
  · simp only [Function.update_self, CppCat.particles, Option.getD_some]
    exact hps
  · simp only [Function.update_self]
    exact ⟨ps, rfl, hpsne, hlen⟩
  · intro j
    simp only [Function.update_self]
    exact ⟨he j, trivial⟩
  · intro j hj
    simp only [Function.update_of_ne hj]
    rw [o1 j hj, World.setSource]
    simp [Function.update_of_ne hj]

theorem loadOne_inv {D : Disk K} {p : Params K} {i : Which} {path : Str} {w w' : World Which K}
    (h : loadOne D p i path w = .ok w') :
    ReadFrom D p path (w'.cats i) ∧ ∀ j, j ≠ i → w'.cats j = w.cats j := by
  unfold loadOne at h
  split_ifs at h
  split at h
  · rename_i v hv
    cases h
    obtain ⟨fs, a, b, c, d, e, f, g⟩ := loadFile_inv hv
    exact ⟨⟨fs, a, b, c, d, e, f⟩, g⟩
  · cases h
  · cases h

theorem loadCats_inv {D : Disk K} {p : Params K} {σ : CStore Which K} (h : loadCats D p = .ok σ) :
    (p.catType = "survey" ∨ p.catType = "sim" → ReadFrom D p p.dataFile (σ .data)) ∧
    (p.catType = "survey" ∨ p.catType = "random" → ReadFrom D p p.randFile (σ .rand)) := by
  unfold loadCats at h
  simp only [bind, Except.bind] at h
  by_cases c1 : p.catType = "survey" ∨ p.catType = "sim"
  · rw [if_pos c1] at h
    cases h1 : loadOne D p .data p.dataFile { cats := fun _ => noCat, mem := 0, maxmem := 0 } with
    | error y => rw [h1] at h; cases h
    | ok v =>
      rw [h1] at h
      simp only at h
      obtain ⟨a, -⟩ := loadOne_inv h1
      by_cases c2 : p.catType = "survey" ∨ p.catType = "random"
      · rw [if_pos c2] at h
        cases h2 : loadOne D p .rand p.randFile v with
        | error y => rw [h2] at h; cases h
        | ok v' =>
          rw [h2] at h
          cases h
          obtain ⟨b, o⟩ := loadOne_inv h2
          refine ⟨fun _ => ?_, fun _ => b⟩
          rw [o .data (by decide)]
          exact a
      · rw [if_neg c2] at h
        cases h
        exact ⟨fun _ => a, fun hc => absurd hc c2⟩
  · rw [if_neg c1] at h
    refine ⟨fun hc => absurd hc c1, fun c2 => ?_⟩
    rw [if_pos c2] at h
    cases h2 : loadOne D p .rand p.randFile { cats := fun _ => noCat, mem := 0, maxmem := 0 } with
    | error y => rw [h2] at h; cases h
    | ok v' =>
      rw [h2] at h
      cases h
      exact (loadOne_inv h2).1

/-! ### The mesh -/

/-- The space is that of the statistic. -/
theorem space_eq {p q : Params K} (hp : Derived p) (hq : Derived q) (h : p.statType = q.statType) : p.space = q.space := by
  obtain ⟨c1, a1, -⟩ := hp.stat
  obtain ⟨c2, a2, -⟩ := hq.stat
  rw [h] at a1
  simp only [statTable, List.mem_cons, Prod.mk.injEq, List.not_mem_nil, or_false] at a1 a2
  rcases a1 with a | a | a | a | a | a | a | a | a <;>
    rcases a2 with b | b | b | b | b | b | b | b | b <;>
    first
      | exact absurd (a.1.symm.trans b.1) (by decide)
      | rw [a.2.2.1, b.2.2.1]

/-- An accepted set of parameters whose mesh was to be found from the cutoff. -/
theorem validate_mesh {e : Env K} (he : e.extcall = false) (hpi : 0 < e.pi) {fuel : ℕ} {init : Bool} {p q : Params K}
    (h : validate e fuel init p = some (.ok q)) (hn : p.ngrid 0 * p.ngrid 1 * p.ngrid 2 ≤ 0) (hb : ∀ i, 0 < p.box i)
    (hc : 0 < p.cutoff) :
    ∀ i, ngridCpp e.pi q.space (p.box i) p.cutoff = .ok (q.ngrid i) := by
  cases fuel with
  | zero => cases h
  | succ fuel =>
    have hw := C33_well_formed e he _ _ _ _ h
    have hin := (C33_inputs_kept e _ _ _ _ h).1
    obtain ⟨r, hr, h1⟩ := validate_cases h
    obtain ⟨f1, f2, f3, -, f5, -⟩ := pre_frame hr
    obtain ⟨g1, g2⟩ := pre_nmesh hr
    have hv : 0 < r.volume := by
      rw [g2]
      exact mul_pos (mul_pos (hb 0) (hb 1)) (hb 2)
    rcases h1 with ⟨-, h1 | ⟨h1, -⟩⟩ | ⟨-, -, -, s, t, h2, h3, h4⟩
    · rw [g1] at h1; omega
    · exact absurd hv (not_lt.2 h1)
    · have hs := setNgrid_ok h2
      have hpos : ∀ i, 0 < s.ngrid i := by
        intro i
        refine ngridCpp_pos hpi ?_ ?_ (hs i)
        · rw [f1]; exact hb i
        · rw [f3]; exact hc
      have hk := (C33_inputs_kept e _ _ _ _ h3).2 (mul_pos (mul_pos (hpos 0) (hpos 1)) (hpos 2))
      have hst : q.statType = r.statType := by
        simp only [inputs, Prod.mk.injEq] at hin
        rw [f5]
        tauto
      intro i
      rw [space_eq hw.toDerived (pre_derived he hr) hst, ← f3]
      have := hs i
      rw [f1] at this
      rw [this, post_frame h4]
      simp only
      rw [hk]

theorem deriveBox_mesh {e : Env K} (he : e.extcall = false) (hpi : 0 < e.pi) {fuel : ℕ} {span : V3 K} {p q : Params K}
    (hv : p.volume = 0) (h : deriveBox e fuel span p = some (.ok q)) :
    q.box = (fun i => span i * p.expand) ∧ q.alignment = p.alignment ∧ q.catType = p.catType ∧ MeshFor e.pi p q := by
  unfold deriveBox at h
  rw [if_pos hv] at h
  have key : ∀ {f : ℕ} {r s : Params K}, validate e f false r = some (.ok s) →
      s.box = r.box ∧ s.cutoff = r.cutoff ∧ s.alignment = r.alignment ∧ s.catType = r.catType := by
    intro f r s hs
    have h2 := (C33_inputs_kept e f false r s hs).1
    simp only [inputs, Prod.mk.injEq] at h2
    exact ⟨by tauto, by tauto, by tauto, by tauto⟩
  split at h
  · rename_i p1 h1
    have hw := C33_well_formed e he _ _ _ _ h1
    obtain ⟨k1, k2, k3, k4⟩ := key h1
    simp only at k1 k2 k3 k4
    have hn1 := (C33_inputs_kept e _ _ _ _ h1).2
    simp only at hn1
    have hmesh : (∀ i, 0 < p1.box i) → 0 < p.cutoff → p.ngrid 0 * p.ngrid 1 * p.ngrid 2 ≤ 0 →
        ∀ i, ngridCpp e.pi p1.space (p1.box i) p.cutoff = .ok (p1.ngrid i) := by
      intro hb hc hle i
      have := validate_mesh he hpi h1 hle (by intro i; rw [k1] at hb; exact hb i) hc i
      rw [k1]
      exact this
    have fin : ∀ {s : Params K}, (∀ i, 0 < s.box i) → 0 < p.cutoff → Derived s →
        (∀ i, ngridCpp e.pi s.space (s.box i) p.cutoff = .ok (s.ngrid i)) → ∀ i, 0 < s.ngrid i ∧ 2 ∣ s.ngrid i ∧
          Resolves e.pi s.space (s.box i) p.cutoff (s.ngrid i) ∧
          ∀ m : ℤ, 0 < m → 2 ∣ m → Resolves e.pi s.space (s.box i) p.cutoff m → s.ngrid i ≤ m := by
      intro s hb hc hs hn i
      have hsp : s.space = "fourier" ∨ s.space = "config" := by
        obtain ⟨cs, a, -⟩ := hs.stat
        simp only [statTable, List.mem_cons, Prod.mk.injEq, List.not_mem_nil, or_false] at a
        tauto
      obtain ⟨n, e1, e2⟩ := C31_ngrid e.pi (s.box i) p.cutoff hpi (hb i) hc s.space hsp
      rw [hn i] at e1
      cases e1
      exact e2
    by_cases hm : p1.nmesh = 0
    · rw [if_pos hm] at h
      split at h
      · cases h
      · rename_i r hr
        obtain ⟨l1, l2, l3, l4⟩ := key h
        have hri := setNgrid_inputs hr
        have r1 : r.box = p1.box := by rw [hri]
        have r2 : r.alignment = p1.alignment := by rw [hri]
        have r3 : r.catType = p1.catType := by rw [hri]
        refine ⟨(l1.trans r1).trans k1, by rw [l3, r2, k3], by rw [l4, r3, k4], ?_, ?_⟩
        · intro hpos
          exfalso
          have := hn1 hpos
          rw [hw.nmesh, this] at hm
          exact absurd hm hpos.ne'
        · intro hle hb hc
          exfalso
          have hb' : ∀ i, 0 < p1.box i := by intro i; rw [← r1, ← l1]; exact hb i
          have hg := fin hb' hc hw.toDerived (hmesh hb' hc hle)
          have := mul_pos (mul_pos (hg 0).1 (hg 1).1) (hg 2).1
          rw [← hw.nmesh, hm] at this
          exact absurd this (lt_irrefl _)
    · rw [if_neg hm] at h
      cases h
      exact ⟨k1, k3, k4, hn1, fun hle hb hc => fin hb hc hw.toDerived (hmesh hb hc hle)⟩
  · rename_i hne
    exact absurd h (hne q)

/-! ### The catalogues in the box -/

theorem alignRand_inv {σ τ : CStore Which K} {p : Params K} (hr : (σ .rand).Loaded) (h : alignRand σ p = .ok τ) :
    ∃ d qs, MovedBy d (σ .rand).particles qs ∧
      (p.alignment = "pad" → p.padscale ∈ ["box", "grid"] → (τ .rand).particles = qs) ∧
      (p.alignment = "centre" → Wrapped p.box qs (τ .rand).particles) := by
  obtain ⟨c₁, mn, mx, e1, h1, -⟩ := recalc_holds hr
  have h1' : Holds (Function.update σ .rand c₁ .rand) (σ .rand).particles mn mx := by
    rw [Function.update_self]; exact h1
  have pad : ∀ d, (∃ c₂, offsetIn (Function.update σ .rand c₁) .rand d = .ok (Function.update (Function.update σ .rand c₁) .rand c₂) ∧
      c₂.Loaded ∧ c₂.particles = (σ .rand).particles.map (Particle.shift d)) := by
    intro d
    obtain ⟨c₂, e2, h2, -⟩ := h1'.offsetIn d
    exact ⟨c₂, e2, h2.loaded, h2.particles⟩
  unfold alignRand at h
  by_cases hp : p.alignment = "pad"
  · rw [if_pos hp] at h
    have hc : ¬ p.alignment = "centre" := by rw [hp]; decide
    by_cases h3 : p.padscale = "grid"
    · rw [if_pos h3] at h
      unfold padGrids1 at h
      simp only [bind, Except.bind] at h
      rw [e1] at h
      simp only at h
      obtain ⟨c₂, e2, -, h2⟩ := pad (padGridVec (Function.update σ .rand c₁ .rand) p.box (fun i => (p.ngrid i).toNat) fun _ => p.padfactor)
      rw [e2] at h
      cases h
      refine ⟨padGridVec (Function.update σ .rand c₁ .rand) p.box (fun i => (p.ngrid i).toNat) fun _ => p.padfactor, _, rfl, fun _ _ => ?_, fun h => absurd h hc⟩
      rw [Function.update_self, h2]
    · rw [if_neg h3] at h
      by_cases h4 : p.padscale = "box"
      · rw [if_pos h4] at h
        unfold padInBox1 at h
        simp only [bind, Except.bind] at h
        rw [e1] at h
        simp only at h
        obtain ⟨c₂, e2, -, h2⟩ := pad (padBoxVec (Function.update σ .rand c₁ .rand) p.box fun _ => p.padfactor)
        rw [e2] at h
        cases h
        refine ⟨padBoxVec (Function.update σ .rand c₁ .rand) p.box fun _ => p.padfactor, _, rfl, fun _ _ => ?_, fun h => absurd h hc⟩
        rw [Function.update_self, h2]
      · exact ⟨0, _, rfl, fun _ h => by simp [h3, h4] at h, fun h => absurd h hc⟩
  · rw [if_neg hp] at h
    by_cases hc : p.alignment = "centre"
    · rw [if_pos hc] at h
      unfold centreInBox1 at h
      simp only [bind, Except.bind] at h
      rw [e1] at h
      simp only at h
      obtain ⟨c₂, e2, l2, h2⟩ := pad (centreVec (Function.update σ .rand c₁ .rand) p.box)
      rw [e2] at h
      simp only [Function.update_self] at h
      obtain ⟨c₃, e3, -, -, h3⟩ := C25_cpp_catalogue_partial c₂ l2 p.box
      rw [e3] at h
      cases h
      refine ⟨centreVec (Function.update σ .rand c₁ .rand) p.box, _, rfl, fun h => absurd h hp, fun _ => ?_⟩
      unfold Wrapped
      rw [Function.update_self, h3, h2]
    · exact ⟨0, _, rfl, fun h => absurd h hp, fun h => absurd h hc⟩

/-! ### The run -/

theorem alignStage_mesh {e : Env K} (he : e.extcall = false) (hpi : 0 < e.pi) {fuel : ℕ} {σ τ : CStore Which K} {p q : Params K}
    (hp : WellFormed p) (h : alignStage e fuel σ p = .ok (q, τ)) :
    (p.catType ≠ "none" → p.volume = 0 → ∀ i, q.box i =
      (if p.catType = "random" then (σ .rand).posSpan else (σ .data).posSpan) i * p.expand) ∧
    q.alignment = p.alignment ∧ q.catType = p.catType ∧ MeshFor e.pi p q ∧ WellFormed q := by
  have same : MeshFor e.pi p p := by
    refine ⟨fun _ => rfl, fun hle hb _ => ?_⟩
    exfalso
    have hv : 0 < p.volume := by rw [hp.volume]; exact mul_pos (mul_pos (hb 0) (hb 1)) (hb 2)
    rcases hp.meshed with h1 | ⟨h1, -⟩
    · rw [hp.nmesh] at h1; omega
    · exact absurd hv (not_lt.2 h1)
  unfold alignStage at h
  simp only at h
  by_cases hc : p.catType = "none"
  · rw [if_pos hc] at h
    simp only at h
    cases h1 : alignCats σ p with
    | error x => rw [h1] at h; cases h
    | ok σ' => rw [h1] at h; cases h; exact ⟨fun hn => absurd hc hn, rfl, rfl, same, hp⟩
  · rw [if_neg hc] at h
    split at h
    · cases h
    · cases h
    · rename_i p1 h1
      cases h2 : alignCats σ p1 with
      | error x => rw [h2] at h; cases h
      | ok σ' =>
        rw [h2] at h; cases h
        by_cases hv : p.volume = 0
        · obtain ⟨a, b, c, d⟩ := deriveBox_mesh he hpi hv h1
          refine ⟨fun _ _ i => by rw [a], b, c, d, ?_⟩
          rcases deriveBox_ok h1 with ⟨x, -⟩ | ⟨-, r, hr⟩
          · exact absurd hv x
          · exact C33_well_formed e he fuel false r q hr
        · rcases deriveBox_ok h1 with ⟨-, x⟩ | ⟨x, -⟩
          · subst x
            exact ⟨fun _ h => absurd h hv, rfl, rfl, same, hp⟩
          · exact absurd x hv

theorem complete_save {D : Disk K} {p q : Params K} {r : α} (w2 : WellFormed q) (h : (save D q r).2 = .exit 0) :
    Complete p q r (.used (usedPath p) p :: (save D q r).1) := by
  have hs := save_zero h
  have hc := cppPath_isSome w2
  unfold Complete
  rw [hs]
  cases hpath : Out.cppPath (outP q) with
  | none =>
    have : q.statType ∉ measuredStats := by rw [← hc, hpath]; simp
    refine ⟨[], ?_, fun h => absurd h this⟩
    rw [if_neg this]
    rfl
  | some path =>
    have : q.statType ∈ measuredStats := by rw [← hc, hpath]; rfl
    refine ⟨path, ?_, fun _ => rfl⟩
    rw [if_pos this]
    rfl

/-- **C156.** A run of the program which exits with status 0 has measured the catalogues of the files named in its
parameters, with every data line in them: for a survey, data and randoms moved by the same vector; for a simulation, wrapped
into the box; with lines of sight to the positions read.  A box not given is the extent of the catalogue (the randoms only if
there are no data) times the expansion factor, and a mesh not given is the least even one which resolves the cutoff. -/
theorem C156_measured (losf : V3 K → V3 K) (e : Env K) (he : e.extcall = false) (hpi : 0 < e.pi) (ps : Parse K)
    (toInt : Str → Option ℤ) (m : Binning.MathLib K) (alg : Input K → Except CppErr α) (o : Overrides)
    (fuel : ℕ) (D : Disk K) (argv : List Str) (ho : options argv argv = none)
    (h : (run losf e ps toInt m alg o fuel D argv).2 = .exit 0) :
    ∃ p I r, readParams e ps toInt o fuel D argv = .ok p ∧ alg I = .ok r ∧
      Measured e.pi losf D p I ∧
      Complete p I.p r (run losf e ps toInt m alg o fuel D argv).1 := by
  rcases run_cases losf e ps toInt m alg o fuel D argv ho with ⟨x, hx, hc⟩ | ⟨p, hp, ⟨x, hx, hc⟩ |
    ⟨σ, I, r, h1, h2, h3, h4⟩⟩
  · rw [hx] at h
    exact absurd (hc 0 h) (by simp)
  · rw [hx] at h
    exact absurd (hc 0 h) (by simp)
  obtain ⟨q, hq⟩ := readParams_ok hp
  have w1 := C33_well_formed e he fuel false q p hq
  obtain ⟨-, τ, h5, i1, i2, i3, i4⟩ := prepare_ok h2
  obtain ⟨r1, r2⟩ := loadCats_inv h1
  obtain ⟨b1, b2, b3, b4, b5⟩ := alignStage_mesh he hpi w1 h5
  obtain ⟨-, hal⟩ := alignStage_ok h5
  refine ⟨p, I, r, hp, h3, ⟨fun hc => ?_, fun hc => ?_, fun hc => ?_, b4⟩, by
    rw [h4] at h ⊢
    exact complete_save b5 h⟩
  · have q1 := r1 (Or.inl hc)
    have q2 := r2 (Or.inl hc)
    obtain ⟨fs, -, -, -, -, l1, t1⟩ := id q1
    obtain ⟨gs, -, -, -, -, l2, t2⟩ := id q2
    obtain ⟨σ', d, e1, s1⟩ := alignBoth_ok (c := Which.data) (r := Which.rand) (by decide) l1 l2 t1 t2 (alignOf I.p)
    unfold alignCats at hal
    rw [if_pos (by rw [b3]; exact hc), e1] at hal
    cases hal
    refine ⟨σ .data, σ .rand, d, q1, q2, by rw [i3]; rfl, by rw [i4]; rfl, ?_, ?_, ?_⟩
    · rw [i1]; exact s1.hc.particles
    · rw [i2]; exact s1.hr.particles
    · intro hv i
      rw [b1 (by rw [hc]; decide) hv i, if_neg (by rw [hc]; decide), (t1 i).2]
  · have q1 := r1 (Or.inr hc)
    obtain ⟨fs, -, -, -, -, l1, t1⟩ := id q1
    obtain ⟨c', e1, -, -, e2⟩ := C25_cpp_catalogue_partial (σ .data) l1 I.p.box
    unfold alignCats at hal
    rw [if_neg (by rw [b3, hc]; decide), if_pos (by rw [b3]; exact hc)] at hal
    simp only [bind, Except.bind] at hal
    rw [e1] at hal
    cases hal
    refine ⟨σ .data, q1, by rw [i3]; rfl, ?_, ?_⟩
    · rw [i1, Function.update_self]; exact e2
    · intro hv i
      rw [b1 (by rw [hc]; decide) hv i, if_neg (by rw [hc]; decide), (t1 i).2]
  · have q1 := r2 (Or.inr hc)
    obtain ⟨fs, -, -, -, -, l1, t1⟩ := id q1
    unfold alignCats at hal
    rw [if_neg (by rw [b3, hc]; decide), if_neg (by rw [b3, hc]; decide), if_pos (by rw [b3]; exact hc)] at hal
    obtain ⟨d, qs, e1, e2, e3⟩ := alignRand_inv l1 hal
    refine ⟨σ .rand, d, qs, q1, by rw [i4]; rfl, e1, ?_, ?_, ?_⟩
    · intro ha
      rw [i2]
      exact e2 (by rw [b2]; exact ha) b5.padscale
    · intro ha
      rw [i2]
      exact e3 (by rw [b2]; exact ha)
    · intro hv i
      rw [b1 (by rw [hc]; decide) hv i, if_pos hc, (t1 i).2]

theorem wrapCoord_end {L a b : K} (hL : 0 < L) (ha : 0 ≤ a) (hb : b = a + L) : wrapCoord L a = wrapCoord L b := by
  have hq : b / L = a / L + 1 := by rw [hb, add_div, div_self hL.ne']
  have h0 : 0 ≤ a / L := div_nonneg ha hL.le
  have e1 : wrapCoord L b = a - L * (⌊a / L⌋ : K) := by
    unfold wrapCoord fmod
    rw [if_pos (by rw [hb]; linarith), if_pos (by rw [hq]; linarith), hq, Int.floor_add_one, hb]
    push_cast
    ring
  rw [e1]
  unfold wrapCoord fmod
  by_cases h : L ≤ a
  · rw [if_pos h, if_pos h0]
  · rw [if_neg h, if_neg (not_lt.2 ha)]
    have : ⌊a / L⌋ = 0 := by
      rw [Int.floor_eq_zero_iff]
      exact ⟨h0, (div_lt_one hL).2 (not_le.1 h)⟩
    rw [this]
    simp

/-- **C156 (violated).** A simulation measured in the box found from its extent, with the default expansion factor 1: the
two extreme particles on each axis are brought to the same coordinate. -/
theorem C156_ends_violated {pi : K} {losf : V3 K → V3 K} {D : Disk K} {p : Params K} {I : Input K}
    (h : Measured pi losf D p I) (hc : p.catType = "sim") (hv : p.volume = 0) (hx : p.expand = 1) :
    ∃ c f, ReadFrom D p p.dataFile c ∧ I.data.particles = c.particles.map f ∧ ∀ i, 0 ≤ c.posMin i → c.posMin i < c.posMax i →
      ∃ x ∈ c.particles, ∃ y ∈ c.particles, x.pos i < y.pos i ∧ (f x).pos i = (f y).pos i := by
  obtain ⟨c, h1, -, h2, h3⟩ := h.sim hc
  refine ⟨c, _, h1, h2, fun i h0 hlt => ?_⟩
  obtain ⟨-, -, -, -, -, -, t⟩ := h1
  obtain ⟨x, hx1, hx2⟩ := List.mem_map.1 (t i).1.1.1
  obtain ⟨y, hy1, hy2⟩ := List.mem_map.1 (t i).1.2.1
  refine ⟨x, hx1, y, hy1, by rw [hx2, hy2]; exact hlt, ?_⟩
  simp only
  rw [hx2, hy2, h3 hv i, hx, mul_one]
  exact wrapCoord_end (by linarith) h0 (by ring)

/-- **C156 (violated).** Without a column of mean densities, these are zero when the box is found from the catalogue, though they
are the number of particles over the volume when the same box is given. -/
theorem C156_density_violated {D : Disk K} {p : Params K} {path : Str} {c : CppCat K} (h : ReadFrom D p path c)
    (hn : "nz" ∉ (commaNames p.columns).map String.ofList) :
    (p.volume = 0 → ∀ x ∈ c.particles, x.nz = 0) ∧
    (0 < p.volume → ∀ x ∈ c.particles, x.nz = (c.particles.length : K) / p.volume) := by
  obtain ⟨fs, -, -, -, h1, -⟩ := h
  have key : ∀ (z : K) (row : List K), (lineParticle ((commaNames p.columns).map String.ofList) z row).nz = z := by
    intro z row
    simp only [lineParticle]
    unfold named
    rw [lookup_zip, if_neg hn]
    rfl
  rw [h1]
  refine ⟨fun hv x hx => ?_, fun hv x hx => ?_⟩
  · obtain ⟨row, -, rfl⟩ := List.mem_map.1 hx
    rw [key, hv, if_neg (lt_irrefl _)]
  · obtain ⟨row, -, rfl⟩ := List.mem_map.1 hx
    rw [key, if_pos hv, List.length_map]

end

/-! ### Instances -/

/-- The lines of a parameter file of a survey without box and mesh. -/
def exSurveyFile : List Str :=
  (["catalogue_type = survey", "statistic_type = powspec", "data_catalogue_file = /d", "rand_catalogue_file = /r",
    "measurement_dir = out", "output_tag = _t", "catalogue_columns = x,y,z", "boxsize_x = 0.0000", "boxsize_y = 0.0000",
    "boxsize_z = 0.0000", "ngrid_x = 0", "ngrid_y = 0", "ngrid_z = 0", "expand = 2.0000", "cutoff_nyq = 9.0000", "bin_min = 0.0100", "bin_max = 0.1000", "num_bins = 9",
    "ell1 = 0", "ell2 = 0", "ELL = 0"]).map String.toList

/-- A disk with that file and the catalogues. -/
def exSurveyDisk (lines : List Str) (data : List (Line ℚ)) : Disk ℚ :=
  { params := fun s => if s = "p.ini".toList then some lines else none
    cat := fun s => if s = "/d".toList then some data
      else if s = "/r".toList then some [.row [0, 0, 0], .row [8, 8, 8], .row [1, 2, 3]] else none
    canMake := fun _ => true
    canOpen := fun _ => true }

/-- The numbers in such a file. -/
def exSurveyParse : Parse ℚ :=
  ⟨fun s => if s = "2.0000".toList then some 2 else if s = "9.0000".toList then some 9
    else if s = "0.0100".toList then some (1 / 100) else if s = "0.1000".toList then some (1 / 10)
    else some 0, fun s => (Wc.pyInt s).toOption⟩

/-- The run of a program which returns the box, the mesh and the position of the first particle on the last axis. -/
def exSurveyRun (lines : List Str) (data : List (Line ℚ)) : List (File ℚ (ℚ × ℤ × Option ℚ)) × Outcome :=
  run id (exEnv false) exSurveyParse exSurveyParse.int ⟨id, id, 22 / 7⟩
    (fun I => .ok (I.p.box 2, I.p.ngrid 2, I.data.pdata.bind fun l => l.head?.map fun x => x.pos 2)) {} 3
    (exSurveyDisk lines data) ["p.ini".toList]

/-- The result written with status 0. -/
def exResult : List (File ℚ (ℚ × ℤ × Option ℚ)) × Outcome → Option (ℚ × ℤ × Option ℚ)
  | ([.used _ _, .measured _ _ r], .exit 0) => some r
  | _ => none

/-- A survey without box and mesh: the side of the box is twice the extent of the data, and 24 cells resolve the cutoff. -/
example : (exEnv false).extcall = false ∧ 0 < (exEnv false).pi ∧ options ["p.ini".toList] ["p.ini".toList] = none ∧
    (exSurveyRun exSurveyFile [.row [1, 2, 3], .row [5, 6, 7]]).2 = .exit 0 ∧
    exResult (exSurveyRun exSurveyFile [.row [1, 2, 3], .row [5, 6, 7]]) = some (8, 24, some 3) := by
  decide +kernel

/-- **C156 (violated).** A catalogue without extent on an axis is measured, with status 0, in a box without extent, on a mesh
without cells. -/
theorem C156_flat_violated : ∃ lines data x, exResult (exSurveyRun lines data) = some (0, 0, x) :=
  ⟨exSurveyFile, [.row [1, 2, 3], .row [5, 6, 3]], some (-1), by decide +kernel⟩

end Trv.Prog

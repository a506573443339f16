import Verif.Lemmas.MeshShift
import Mathlib.Data.Fin.VecNotation
import Mathlib.Tactic.FinCases
/-
Property theorems on mesh assignment: C04-C10, C13, C14.
-/
set_option linter.unusedSectionVars false
set_option linter.unusedSimpArgs false

namespace Trv.Mesh

variable {K : Type} [Field K] [LinearOrder K] [IsStrictOrderedRing K] [FloorRing K]

/-- A concrete mesh and particles used in the non-vacuity examples. -/
def exMesh : Mesh ℚ := ⟨![4, 5, 6], ![8, 5, 3]⟩
def exParticle : Particle ℚ := ⟨![7, 1 / 3, 29 / 10], fun c => if c then -2 else 3⟩

theorem exMesh_valid : exMesh.Valid := by
  intro ax; fin_cases ax <;> simp [exMesh]

theorem exParticle_inBox : InBox exMesh exParticle := by
  intro ax; fin_cases ax <;> simp [exMesh, exParticle] <;> norm_num

/-! ### C04 -/

/-- **C04.** In the main and the interlaced loops of all four schemes, for every
location on the axis, the weights are non-negative and sum to one. -/
theorem C04_partition_of_unity (sch : Scheme) (n : ℤ) (loc : K) (h0 : 0 ≤ loc) :
    (∀ a ∈ axisStencil sch n loc, 0 ≤ a.2) ∧ ((axisStencil sch n loc).map Prod.snd).sum = 1 ∧
    (∀ a ∈ axisStencilShifted sch n loc, 0 ≤ a.2) ∧
    ((axisStencilShifted sch n loc).map Prod.snd).sum = 1 := by
  -- weights do not depend on `n`: compare with a large axis
  have hw : (axisStencil sch n loc).map Prod.snd =
      (axisStencil sch (⌊loc⌋ + 1) loc).map Prod.snd := by
    cases sch <;> simp [axisStencil, ngpAxis, cicAxis, tscAxis, pcsAxis]
  have hw2 : (axisStencilShifted sch n loc).map Prod.snd =
      (axisStencil sch (⌊loc⌋ + 1) loc).map Prod.snd := by
    cases sch <;> simp [axisStencil, axisStencilShifted, ngpAxis, cicAxis, tscAxis,
      tscAxisShifted, pcsAxis]
  have hlt : loc < ((⌊loc⌋ + 1 : ℤ) : K) := by push_cast; exact Int.lt_floor_add_one loc
  have hs := axisStencil_sum sch h0 hlt
  have hnn : ∀ w ∈ (axisStencil sch (⌊loc⌋ + 1) loc).map Prod.snd, 0 ≤ w := by
    rw [axisStencil_eq sch h0 hlt]
    intro w hw
    simp only [List.map_map, List.mem_map, Function.comp_apply] at hw
    obtain ⟨j, _, rfl⟩ := hw
    exact kernel_nonneg sch _
  refine ⟨?_, by rw [hw, hs], ?_, by rw [hw2, hs]⟩
  · intro a ha; exact hnn _ (hw ▸ List.mem_map_of_mem ha)
  · intro a ha; exact hnn _ (hw2 ▸ List.mem_map_of_mem ha)

example : axisStencil .tsc 4 (15 / 4 : ℚ) = [(3, 9 / 32), (0, 11 / 16), (1, 1 / 32)] := by
  decide +kernel

/-! ### C05 -/

/-- **C05 (exact refinement).** For every catalogue in the box, the value of each
mesh cell is the sum over particles of weight per cell volume times the
periodised sampling kernel on the three axes. -/
theorem C05_assignment_is_kernel_sum (sch : Scheme) (M : Mesh K) (hM : M.Valid)
    (ps : List (Particle K)) (hps : ∀ p ∈ ps, InBox M p) (i j k : ℤ) (h : InMesh M i j k)
    (c : Bool) :
    assign sch M ps (gridIndex M.n i j k) c = (ps.map fun p =>
      p.w c / M.volCell
        * deposit sch (M.n 0) (M.n 0 * p.pos 0 / M.L 0) i
        * deposit sch (M.n 1) (M.n 1 * p.pos 1 / M.L 1) j
        * deposit sch (M.n 2) (M.n 2 * p.pos 2 / M.L 2) k).sum := by
  unfold assign allUpdates
  rw [runUpdates_flatMap]
  congr 1
  apply List.map_congr_left
  intro p hp
  have hr := fun ax => locMain_range (hM ax).1 (hM ax).2 (hps p hp ax).1 (hps p hp ax).2
  unfold particleUpdates
  simp only
  rw [run_stencils M _ _ _ _ (axisStencil_range sch (hr 0).1 (hr 0).2)
    (axisStencil_range sch (hr 1).1 (hr 1).2) (axisStencil_range sch (hr 2).1 (hr 2).2) i j k h,
    received_eq_deposit sch (hr 0).1 (hr 0).2 h.1.1 h.1.2,
    received_eq_deposit sch (hr 1).1 (hr 1).2 h.2.1.1 h.2.1.2,
    received_eq_deposit sch (hr 2).1 (hr 2).2 h.2.2.1 h.2.2.2]
  unfold locMain
  ring

/-- **C05.** Total weight is conserved, and every cell written is inside the mesh. -/
theorem C05_conserves_weight_in_bounds (sch : Scheme) (M : Mesh K) (hM : M.Valid)
    (ps : List (Particle K)) (hps : ∀ p ∈ ps, InBox M p) (c : Bool) :
    gridTotal M (assign sch M ps) c * M.volCell = (ps.map fun p => p.w c).sum ∧
    (∀ u ∈ allUpdates sch M ps, 0 ≤ u.gid ∧ u.gid < M.nmesh) := by
  refine ⟨?_, (mem_allUpdates_range sch M ps).1⟩
  unfold assign
  rw [gridTotal_run M _ c (mem_allUpdates_range sch M ps).1]
  unfold allUpdates
  rw [sum_map_flatMap, ← List.sum_map_mul_right]
  congr 1
  apply List.map_congr_left
  intro p hp
  have hr := fun ax => locMain_range (hM ax).1 (hM ax).2 (hps p hp ax).1 (hps p hp ax).2
  unfold particleUpdates
  simp only
  rw [stencil_total M _ _ _ _ (axisStencil_range sch (hr 0).1 (hr 0).2)
    (axisStencil_range sch (hr 1).1 (hr 1).2) (axisStencil_range sch (hr 2).1 (hr 2).2),
    axisStencil_sum sch (hr 0).1 (hr 0).2, axisStencil_sum sch (hr 1).1 (hr 1).2,
    axisStencil_sum sch (hr 2).1 (hr 2).2]
  have := (volCell_pos M hM).ne'
  field_simp

example : gridTotal exMesh (assign .pcs exMesh [exParticle]) false * exMesh.volCell = 3 := by
  have := (C05_conserves_weight_in_bounds .pcs exMesh exMesh_valid [exParticle]
    (by simpa using exParticle_inBox) false).1
  rw [this]; simp [exParticle]

/-! ### C06 -/

/-- **C06.** Whatever the order in which the atomic additions of all particles
are executed (in particular for every thread schedule), main and companion
fields are the same as for the sequential loop. -/
theorem C06_schedule_independent (sch : Scheme) (M : Mesh K) (ps : List (Particle K))
    (us us' : List (Update K)) (h : us.Perm (allUpdates sch M ps))
    (h' : us'.Perm (allUpdatesShifted sch M ps)) :
    runUpdates us = assign sch M ps ∧ runUpdates us' = assignShifted sch M ps :=
  ⟨runUpdates_perm h, runUpdates_perm h'⟩

/-- **C06.** The fields do not depend on the order of particles in the catalogue. -/
theorem C06_particle_order_independent (sch : Scheme) (M : Mesh K) (ps ps' : List (Particle K))
    (h : ps.Perm ps') :
    assign sch M ps = assign sch M ps' ∧ assignShifted sch M ps = assignShifted sch M ps' :=
  ⟨runUpdates_perm (h.flatMap_right _), runUpdates_perm (h.flatMap_right _)⟩

example : (allUpdates .cic exMesh [exParticle, exParticle]).length = 32 := by decide +kernel

/-! ### C07 -/

/-- The region in which the interlaced stencil on one axis is faulty: shifted
location exactly at the upper boundary, or (TSC) in the upper half of one of the
last two cells. -/
def BadShift (sch : Scheme) (n : ℤ) (L x : K) : Prop :=
  n * x / L + 1 / 2 = (n : K) ∨
  (sch = .tsc ∧ 1 / 2 ≤ locShifted n L x - ⌊locShifted n L x⌋ ∧ n - 2 ≤ ⌊locShifted n L x⌋)

/-- **C07 (partial).** Away from the faulty region the companion field conserves
the total weight, and each cell holds the kernel sum at locations displaced by
half a cell.  Missing: particles in `BadShift`, for which the property is false
(next theorems). -/
theorem C07_interlaced_conserves_partial (sch : Scheme) (M : Mesh K) (hM : M.Valid)
    (ps : List (Particle K)) (hps : ∀ p ∈ ps, InBox M p)
    (hgood : ∀ p ∈ ps, ∀ ax, ¬ BadShift sch (M.n ax) (M.L ax) (p.pos ax)) (c : Bool) :
    gridTotal M (assignShifted sch M ps) c * M.volCell = (ps.map fun p => p.w c).sum ∧
    ∀ i j k, InMesh M i j k → assignShifted sch M ps (gridIndex M.n i j k) c = (ps.map fun p =>
      p.w c / M.volCell
        * deposit sch (M.n 0) (M.n 0 * p.pos 0 / M.L 0 + 1 / 2) i
        * deposit sch (M.n 1) (M.n 1 * p.pos 1 / M.L 1 + 1 / 2) j
        * deposit sch (M.n 2) (M.n 2 * p.pos 2 / M.L 2 + 1 / 2) k).sum := by
  have key : ∀ p ∈ ps, ∀ ax,
      axisStencilShifted sch (M.n ax) (locShifted (M.n ax) (M.L ax) (p.pos ax)) =
        axisStencil sch (M.n ax) (locShifted (M.n ax) (M.L ax) (p.pos ax)) ∧
      0 ≤ locShifted (M.n ax) (M.L ax) (p.pos ax) ∧
      locShifted (M.n ax) (M.L ax) (p.pos ax) < M.n ax ∧
      ∀ i, deposit sch (M.n ax) (locShifted (M.n ax) (M.L ax) (p.pos ax)) i =
        deposit sch (M.n ax) (M.n ax * p.pos ax / M.L ax + 1 / 2) i := by
    intro p hp ax
    have hb := hgood p hp ax
    unfold BadShift at hb
    push Not at hb
    obtain ⟨a, b, m, hm⟩ := locShifted_cases (hM ax).1 (hM ax).2 (hps p hp ax).1 (hps p hp ax).2 hb.1
    refine ⟨?_, a, b, ?_⟩
    · apply axisStencilShifted_eq
      intro ht
      rw [truncInt_of_nonneg a]
      by_contra hc
      push Not at hc
      have := hb.2 ht hc.1
      omega
    · intro i
      rw [hm, deposit_loc_period]; rfl
  refine ⟨?_, ?_⟩
  · unfold assignShifted
    rw [gridTotal_run M _ c (mem_allUpdates_range sch M ps).2]
    unfold allUpdatesShifted
    rw [sum_map_flatMap, ← List.sum_map_mul_right]
    congr 1
    apply List.map_congr_left
    intro p hp
    obtain ⟨e0, a0, b0, _⟩ := key p hp 0
    obtain ⟨e1, a1, b1, _⟩ := key p hp 1
    obtain ⟨e2, a2, b2, _⟩ := key p hp 2
    unfold particleUpdatesShifted
    simp only
    rw [e0, e1, e2, stencil_total M _ _ _ _ (axisStencil_range sch a0 b0)
      (axisStencil_range sch a1 b1) (axisStencil_range sch a2 b2),
      axisStencil_sum sch a0 b0, axisStencil_sum sch a1 b1, axisStencil_sum sch a2 b2]
    have := (volCell_pos M hM).ne'
    field_simp
  · intro i j k h
    unfold assignShifted allUpdatesShifted
    rw [runUpdates_flatMap]
    congr 1
    apply List.map_congr_left
    intro p hp
    obtain ⟨e0, a0, b0, d0⟩ := key p hp 0
    obtain ⟨e1, a1, b1, d1⟩ := key p hp 1
    obtain ⟨e2, a2, b2, d2⟩ := key p hp 2
    unfold particleUpdatesShifted
    simp only
    rw [e0, e1, e2, run_stencils M _ _ _ _ (axisStencil_range sch a0 b0)
      (axisStencil_range sch a1 b1) (axisStencil_range sch a2 b2) i j k h,
      received_eq_deposit sch a0 b0 h.1.1 h.1.2, received_eq_deposit sch a1 b1 h.2.1.1 h.2.1.2,
      received_eq_deposit sch a2 b2 h.2.2.1 h.2.2.2, d0, d1, d2]
    ring

/-- the concrete particle is in the good region for all schemes -/
example (sch : Scheme) : ∀ ax, ¬ BadShift sch (exMesh.n ax) (exMesh.L ax)
    ((⟨![1, 1 / 3, 1], fun _ => 1⟩ : Particle ℚ).pos ax) := by
  intro ax
  unfold BadShift
  fin_cases ax <;> cases sch <;> decide +kernel

/-- **C07 is violated (boundary).** In every mesh, under NGP and CIC, a particle
whose half-cell-shifted location on the first axis is exactly the upper boundary
is lost altogether from the companion field, whatever its other coordinates. -/
theorem C07_boundary_particle_lost_violated (sch : Scheme) (hs : sch = .ngp ∨ sch = .cic)
    (M : Mesh K) (hM : M.Valid) (p : Particle K) (hp : InBox M p)
    (hb : (M.n 0 : K) * p.pos 0 / M.L 0 + 1 / 2 = M.n 0)
    (h1 : (M.n 1 : K) * p.pos 1 / M.L 1 + 1 / 2 ≠ M.n 1)
    (h2 : (M.n 2 : K) * p.pos 2 / M.L 2 + 1 / 2 ≠ M.n 2) (c : Bool) :
    gridTotal M (assignShifted sch M [p]) c = 0 := by
  have hl0 : locShifted (M.n 0) (M.L 0) (p.pos 0) = M.n 0 := by
    unfold locShifted; simp only [hb]; rw [if_neg (lt_irrefl _)]
  obtain ⟨a1, b1, _⟩ := locShifted_cases (hM 1).1 (hM 1).2 (hp 1).1 (hp 1).2 h1
  obtain ⟨a2, b2, _⟩ := locShifted_cases (hM 2).1 (hM 2).2 (hp 2).1 (hp 2).2 h2
  have hn0 : (0 : K) ≤ M.n 0 := by exact_mod_cast (hM 0).1.le
  have hout : ∀ a ∈ axisStencilShifted sch (M.n 0) (M.n 0 : K), M.n 0 ≤ a.1 := by
    have hne : M.n 0 ≠ M.n 0 - 1 := by omega
    rcases hs with rfl | rfl
    · simp only [axisStencilShifted, ngpAxis, truncInt_of_nonneg hn0, Int.floor_intCast, sub_self]
      rw [if_neg (by norm_num)]; simp
    · simp only [axisStencilShifted, cicAxis, truncInt_of_nonneg hn0, Int.floor_intCast]
      simp [hne]
  have he : ∀ ax loc, axisStencilShifted sch (M.n ax) (loc : K) = axisStencil sch (M.n ax) loc := by
    intro ax loc; rcases hs with rfl | rfl <;> rfl
  have : allUpdatesShifted sch M [p] = [] := by
    unfold allUpdatesShifted particleUpdatesShifted
    simp only [List.flatMap_cons, List.flatMap_nil, List.append_nil]
    apply updates_outside M _ _ _ _ (hM 1).1 (hM 2).1
    · rw [hl0]; exact hout
    · rw [he 1]; intro a ha; exact (axisStencil_range sch a1 b1 a ha).1
    · rw [he 2]; intro a ha; exact (axisStencil_range sch a2 b2 a ha).1
  unfold assignShifted
  rw [gridTotal_run M _ c (mem_allUpdates_range sch M [p]).2, this]; rfl

/-- Witness: such a particle exists, with non-zero weight. -/
example : InBox exMesh ⟨![7, 1, 1], fun _ => 1⟩ ∧ ((4 : ℤ) : ℚ) * 7 / 8 + 1 / 2 = 4 := by
  constructor
  · intro ax; fin_cases ax <;> simp [exMesh] <;> norm_num
  · norm_num

/-- **C07 is violated (TSC).** In every mesh with at least two cells on the first
axis, a particle whose shifted location falls in the upper half of the last but
one cell loses the third stencil weight: the companion field holds only
`1 - (s - 1/2)^2 / 2` of its weight, where `s > 1/2` is the position in the cell. -/
theorem C07_tsc_loses_weight_violated (M : Mesh K) (hM : M.Valid) (hn : 2 ≤ M.n 0)
    (p : Particle K) (hp : InBox M p) (s : K) (hs0 : 1 / 2 < s) (hs1 : s < 1)
    (hl : (M.n 0 : K) * p.pos 0 / M.L 0 + 1 / 2 = (M.n 0 - 2 : ℤ) + s)
    (h1 : ¬ BadShift .tsc (M.n 1) (M.L 1) (p.pos 1))
    (h2 : ¬ BadShift .tsc (M.n 2) (M.L 2) (p.pos 2)) (c : Bool) :
    gridTotal M (assignShifted .tsc M [p]) c * M.volCell
      = p.w c * (1 - (s - 1 / 2) ^ 2 / 2) := by
  have hl0 : locShifted (M.n 0) (M.L 0) (p.pos 0) = (M.n 0 - 2 : ℤ) + s := by
    unfold locShifted; simp only; rw [hl, if_neg]; push_cast; linarith
  have hfl : ⌊((M.n 0 - 2 : ℤ) : K) + s⌋ = M.n 0 - 2 := by
    rw [Int.floor_eq_iff]; constructor <;> linarith
  have hnn : (0 : K) ≤ ((M.n 0 - 2 : ℤ) : K) + s := by
    have : (0 : K) ≤ ((M.n 0 - 2 : ℤ) : K) := by exact_mod_cast (by omega : 0 ≤ M.n 0 - 2)
    linarith
  have key : ∀ ax, ¬ BadShift .tsc (M.n ax) (M.L ax) (p.pos ax) →
      axisStencilShifted .tsc (M.n ax) (locShifted (M.n ax) (M.L ax) (p.pos ax)) =
        axisStencil .tsc (M.n ax) (locShifted (M.n ax) (M.L ax) (p.pos ax)) ∧
      0 ≤ locShifted (M.n ax) (M.L ax) (p.pos ax) ∧
      locShifted (M.n ax) (M.L ax) (p.pos ax) < M.n ax := by
    intro ax hb
    unfold BadShift at hb
    push Not at hb
    obtain ⟨a, b, _⟩ := locShifted_cases (hM ax).1 (hM ax).2 (hp ax).1 (hp ax).2 hb.1
    refine ⟨?_, a, b⟩
    apply axisStencilShifted_eq
    intro ht
    rw [truncInt_of_nonneg a]
    by_contra hc
    push Not at hc
    have := hb.2 ht hc.1
    omega
  obtain ⟨e1, a1, b1⟩ := key 1 h1
  obtain ⟨e2, a2, b2⟩ := key 2 h2
  have hst : axisStencilShifted .tsc (M.n 0) (((M.n 0 - 2 : ℤ) : K) + s) =
      [(M.n 0 - 2, 1 / 2 * (1 / 2 + (1 - s)) * (1 / 2 + (1 - s))),
       (M.n 0 - 1, 3 / 4 - (1 - s) * (1 - s))] ++
      [(M.n 0, 1 / 2 * (1 / 2 - (1 - s)) * (1 / 2 - (1 - s)))] := by
    simp only [axisStencilShifted, tscAxisShifted, truncInt_of_nonneg hnn, hfl, add_sub_cancel_left]
    rw [if_neg (not_lt.mpr hs0.le)]
    simp only [tscWin]
    rw [if_neg (not_lt.mpr hs0.le)]
    have hne : M.n 0 - 2 ≠ M.n 0 - 1 := by omega
    simp only [hne, if_false, List.cons_append, List.nil_append, List.cons.injEq, Prod.mk.injEq,
      and_true, true_and]
    refine ⟨by ring, by ring⟩
  have hU : allUpdatesShifted .tsc M [p] = updatesOfStencils M
      [(M.n 0 - 2, 1 / 2 * (1 / 2 + (1 - s)) * (1 / 2 + (1 - s))),
       (M.n 0 - 1, 3 / 4 - (1 - s) * (1 - s))]
      (axisStencil .tsc (M.n 1) (locShifted (M.n 1) (M.L 1) (p.pos 1)))
      (axisStencil .tsc (M.n 2) (locShifted (M.n 2) (M.L 2) (p.pos 2))) p.w := by
    unfold allUpdatesShifted particleUpdatesShifted
    simp only [List.flatMap_cons, List.flatMap_nil, List.append_nil]
    rw [hl0, hst, e1, e2, updates_append]
    rw [updates_outside M [(M.n 0, _)] _ _ _ (hM 1).1 (hM 2).1 (by simp)
      (fun a ha => (axisStencil_range _ a1 b1 a ha).1)
      (fun a ha => (axisStencil_range _ a2 b2 a ha).1), List.append_nil]
  unfold assignShifted
  rw [gridTotal_run M _ c (mem_allUpdates_range .tsc M [p]).2, hU,
    stencil_total M _ _ _ _ (by intro a ha; simp at ha; rcases ha with rfl | rfl <;> simp <;> omega)
      (axisStencil_range _ a1 b1) (axisStencil_range _ a2 b2),
    axisStencil_sum _ a1 b1, axisStencil_sum _ a2 b2]
  have := (volCell_pos M hM).ne'
  simp only [List.map_cons, List.map_nil, List.sum_cons, List.sum_nil]
  field_simp
  ring

/-- Witness for the hypotheses: `n = 4`, `L = 8`, `x = 9/2`, `s = 3/4`. -/
example : ((4 : ℤ) : ℚ) * (9 / 2) / 8 + 1 / 2 = ((4 - 2 : ℤ) : ℚ) + 3 / 4 ∧
    ¬ BadShift .tsc (exMesh.n 1) (exMesh.L 1) 1 ∧ ¬ BadShift .tsc (exMesh.n 2) (exMesh.L 2) 1 := by
  refine ⟨by norm_num, ?_, ?_⟩ <;> unfold BadShift <;> decide +kernel

/-! ### C08 -/

/-- **C08.** If every particle is moved by the same whole number of cells `d` on
each axis and brought back into the box by whole box lengths, keeping its weight,
then the mesh field is the original one periodically moved by `d` cells. -/
theorem C08_translation_equivariant (sch : Scheme) (M : Mesh K) (hM : M.Valid)
    (ps ps' : List (Particle K)) (d : Fin 3 → ℤ)
    (hps : ∀ p ∈ ps, InBox M p) (hps' : ∀ p ∈ ps', InBox M p)
    (hmove : List.Forall₂ (fun p p' => p'.w = p.w ∧ ∀ ax, ∃ m : ℤ,
      p'.pos ax = p.pos ax + d ax * (M.L ax / M.n ax) + m * M.L ax) ps ps')
    (i j k : ℤ) (h : InMesh M i j k) (c : Bool) :
    assign sch M ps'
        (gridIndex M.n ((i + d 0) % M.n 0) ((j + d 1) % M.n 1) ((k + d 2) % M.n 2)) c
      = assign sch M ps (gridIndex M.n i j k) c := by
  have hn := fun ax => (hM ax).1
  have hin : InMesh M ((i + d 0) % M.n 0) ((j + d 1) % M.n 1) ((k + d 2) % M.n 2) :=
    ⟨⟨Int.emod_nonneg _ (hn 0).ne', Int.emod_lt_of_pos _ (hn 0)⟩,
     ⟨Int.emod_nonneg _ (hn 1).ne', Int.emod_lt_of_pos _ (hn 1)⟩,
     ⟨Int.emod_nonneg _ (hn 2).ne', Int.emod_lt_of_pos _ (hn 2)⟩⟩
  rw [C05_assignment_is_kernel_sum sch M hM ps' hps' _ _ _ hin,
    C05_assignment_is_kernel_sum sch M hM ps hps _ _ _ h]
  clear hps hps'
  induction hmove with
  | nil => rfl
  | @cons p p' ps ps' hpp _ ih =>
    obtain ⟨hw, hpos⟩ := hpp
    rw [List.map_cons, List.map_cons, List.sum_cons, List.sum_cons, ih]
    congr 1
    have key : ∀ ax (i : ℤ),
        deposit sch (M.n ax) (M.n ax * p'.pos ax / M.L ax) ((i + d ax) % M.n ax) =
        deposit sch (M.n ax) (M.n ax * p.pos ax / M.L ax) i := by
      intro ax i
      obtain ⟨m, hm⟩ := hpos ax
      have hL := (hM ax).2.ne'
      have hnK : (M.n ax : K) ≠ 0 := by exact_mod_cast (hn ax).ne'
      have e : (M.n ax : K) * p'.pos ax / M.L ax
          = M.n ax * p.pos ax / M.L ax + (d ax : K) + ((m * M.n ax : ℤ) : K) := by
        rw [hm]; push_cast; field_simp
      rw [e, deposit_loc_period, deposit_emod, deposit_shift]
    rw [key 0 i, key 1 j, key 2 k, hw]

example : ∃ p p' : Particle ℚ, InBox exMesh p ∧ InBox exMesh p' ∧ p'.w = p.w ∧
    ∀ ax, ∃ m : ℤ, p'.pos ax = p.pos ax + (![1, 2, -1] : Fin 3 → ℤ) ax
      * (exMesh.L ax / exMesh.n ax) + m * exMesh.L ax := by
  refine ⟨exParticle, ⟨![1, 7 / 3, 12 / 5], exParticle.w⟩, exParticle_inBox, ?_, rfl, ?_⟩
  · intro ax; fin_cases ax <;> simp [exMesh] <;> norm_num
  · intro ax
    refine ⟨![-1, 0, 0] ax, ?_⟩
    fin_cases ax <;> simp [exMesh, exParticle] <;> norm_num

/-! ### C09 -/

/-- **C09.** The flattened index maps the index triplets of the mesh bijectively
onto `0 .. nmesh - 1`. -/
theorem C09_grid_index_bijection (n : Fin 3 → ℤ) (hn : ∀ ax, 0 < n ax) :
    (∀ i j k, (0 ≤ i ∧ i < n 0) → (0 ≤ j ∧ j < n 1) → (0 ≤ k ∧ k < n 2) →
      0 ≤ gridIndex n i j k ∧ gridIndex n i j k < n 0 * n 1 * n 2) ∧
    (∀ g, 0 ≤ g → g < n 0 * n 1 * n 2 → ∃! t : ℤ × ℤ × ℤ,
      ((0 ≤ t.1 ∧ t.1 < n 0) ∧ (0 ≤ t.2.1 ∧ t.2.1 < n 1) ∧ (0 ≤ t.2.2 ∧ t.2.2 < n 2)) ∧
      gridIndex n t.1 t.2.1 t.2.2 = g) := by
  refine ⟨fun i j k hi hj hk => ?_, fun g h0 h1 => ?_⟩
  · exact gridIndex_range (⟨n, fun _ => (1 : ℚ)⟩ : Mesh ℚ) i j k ⟨hi, hj, hk⟩
  · refine ⟨(g / n 2 / n 1, g / n 2 % n 1, g % n 2), ⟨⟨⟨?_, ?_⟩, ⟨?_, ?_⟩, ?_, ?_⟩, ?_⟩, ?_⟩
    · exact Int.ediv_nonneg (Int.ediv_nonneg h0 (hn 2).le) (hn 1).le
    · apply Int.ediv_lt_of_lt_mul (hn 1)
      apply Int.ediv_lt_of_lt_mul (hn 2)
      linarith
    · exact Int.emod_nonneg _ (hn 1).ne'
    · exact Int.emod_lt_of_pos _ (hn 1)
    · exact Int.emod_nonneg _ (hn 2).ne'
    · exact Int.emod_lt_of_pos _ (hn 2)
    · unfold gridIndex
      have e1 := Int.mul_ediv_add_emod (g / n 2) (n 1)
      have e2 := Int.mul_ediv_add_emod g (n 2)
      rw [show g / n 2 / n 1 * n 1 + g / n 2 % n 1 = g / n 2 by linarith]
      linarith
    · rintro ⟨i, j, k⟩ ⟨⟨_, hj, hk⟩, hg⟩
      have hd : gridIndex n (g / n 2 / n 1) (g / n 2 % n 1) (g % n 2) = g := by
        unfold gridIndex
        have e1 := Int.mul_ediv_add_emod (g / n 2) (n 1)
        have e2 := Int.mul_ediv_add_emod g (n 2)
        rw [show g / n 2 / n 1 * n 1 + g / n 2 % n 1 = g / n 2 by linarith]
        linarith
      obtain ⟨a, b, c⟩ := gridIndex_inj n hj hk
        ⟨Int.emod_nonneg _ (hn 1).ne', Int.emod_lt_of_pos _ (hn 1)⟩
        ⟨Int.emod_nonneg _ (hn 2).ne', Int.emod_lt_of_pos _ (hn 2)⟩ (hg.trans hd.symm)
      exact Prod.ext a (Prod.ext b c)

/-- **C09.** The order is row-major: the index increases with the triplet in
lexicographic order. -/
theorem C09_grid_index_row_major (n : Fin 3 → ℤ) {i j k i' j' k' : ℤ}
    (hj : 0 ≤ j ∧ j < n 1) (hk : 0 ≤ k ∧ k < n 2) (hj' : 0 ≤ j' ∧ j' < n 1)
    (hk' : 0 ≤ k' ∧ k' < n 2) :
    gridIndex n i j k < gridIndex n i' j' k' ↔
      i < i' ∨ (i = i' ∧ (j < j' ∨ (j = j' ∧ k < k'))) := by
  have aux : ∀ {a b k k' : ℤ}, (0 ≤ k ∧ k < n 2) → (0 ≤ k' ∧ k' < n 2) → a < b →
      a * n 2 + k < b * n 2 + k' := by
    intro a b k k' hk hk' h
    nlinarith
  have aux2 : ∀ {i i' j j' : ℤ}, (0 ≤ j ∧ j < n 1) → (0 ≤ j' ∧ j' < n 1) → i < i' →
      i * n 1 + j < i' * n 1 + j' := by
    intro a b k k' hk hk' h
    nlinarith
  unfold gridIndex
  rcases lt_trichotomy i i' with h | rfl | h
  · simp only [h, true_or, iff_true]; exact aux hk hk' (aux2 hj hj' h)
  · rcases lt_trichotomy j j' with h | rfl | h
    · simp only [h, true_or, and_true, or_true, iff_true, lt_self_iff_false]
      exact aux hk hk' (by linarith)
    · simp
    · have : ¬ j < j' := by omega
      have h' : j ≠ j' := by omega
      simp only [this, h', false_and, or_false, and_false, lt_self_iff_false, iff_false, not_lt]
      exact (aux hk' hk (by linarith)).le
  · have : ¬ i < i' := by omega
    have h' : i ≠ i' := by omega
    simp only [this, h', false_and, or_false, iff_false, not_lt]
    exact (aux hk' hk (aux2 hj' hj h)).le

example : gridIndex ![4, 5, 6] 3 4 5 = 119 := by decide

/-! ### C10 -/

/-- **C10 (partial: even grid numbers for the symmetric range).**  For every grid
number the signed index is congruent to the FFT index and distinct indices have
distinct signed indices.  For even grid numbers (including all those derived by
the program) it lies in the Nyquist range and every mode except the Nyquist one
has its negative on the mesh, at the mirror index. -/
theorem C10_mode_ordering_partial (n : ℤ) (hn : 0 < n) :
    (∀ i, shiftIndex n i % n = i % n) ∧
    (∀ i j, (0 ≤ i ∧ i < n) → (0 ≤ j ∧ j < n) → shiftIndex n i = shiftIndex n j → i = j) ∧
    (2 ∣ n → (∀ i, (0 ≤ i ∧ i < n) → -n ≤ 2 * shiftIndex n i ∧ 2 * shiftIndex n i < n) ∧
      (∀ s, -n ≤ 2 * s → 2 * s < n → ∃ i, (0 ≤ i ∧ i < n) ∧ shiftIndex n i = s) ∧
      (∀ i, (0 ≤ i ∧ i < n) → 2 * shiftIndex n i ≠ -n →
        shiftIndex n ((n - i) % n) = - shiftIndex n i)) := by
  refine ⟨?_, ?_, ?_⟩
  · intro i; unfold shiftIndex
    split_ifs
    · rfl
    · exact Int.sub_emod_right i n
  · intro i j hi hj h; unfold shiftIndex at h
    split_ifs at h <;> omega
  · rintro ⟨m, rfl⟩
    have hm : 2 * m / 2 = m := by omega
    refine ⟨?_, ?_, ?_⟩
    · intro i hi; unfold shiftIndex; rw [hm]; split_ifs <;> omega
    · intro s h1 h2
      by_cases hs : 0 ≤ s
      · refine ⟨s, ⟨hs, by omega⟩, ?_⟩
        unfold shiftIndex; rw [hm, if_pos (by omega)]
      · refine ⟨s + 2 * m, ⟨by omega, by omega⟩, ?_⟩
        unfold shiftIndex; rw [hm, if_neg (by omega)]; omega
    · intro i hi hne
      unfold shiftIndex at hne ⊢; rw [hm] at hne ⊢
      by_cases hi0 : i = 0
      · subst hi0; simp; omega
      · rw [Int.emod_eq_of_lt (by omega) (by omega)]
        split_ifs at hne ⊢ <;> omega

/-- **C10 is violated for odd grid numbers**: for every odd `n ≥ 3` some mode
lies beyond the Nyquist range and its negative is not on the mesh. -/
theorem C10_odd_asymmetric_violated (n : ℤ) (hn : 3 ≤ n) (hodd : n % 2 = 1) :
    ∃ i, (0 ≤ i ∧ i < n) ∧ 2 * shiftIndex n i < -n ∧
      ∀ j, (0 ≤ j ∧ j < n) → shiftIndex n j ≠ - shiftIndex n i := by
  refine ⟨n / 2, ⟨by omega, by omega⟩, ?_, ?_⟩
  · unfold shiftIndex; rw [if_neg (by omega)]; omega
  · intro j hj; unfold shiftIndex
    rw [if_neg (show ¬ n / 2 < n / 2 by omega)]
    split_ifs <;> omega

example : (List.range 6).map (fun i => shiftIndex 6 i) = [0, 1, 2, -3, -2, -1] := by decide
example : (List.range 3).map (fun i => shiftIndex 3 i) = [0, -2, -1] := by decide

/-! ### C13 -/

/-- **C13 (partial: the main field).**  For every catalogue in the box the main
fluctuation field sums to zero.  Missing: the companion field under interlacing,
for which it is false (next theorem). -/
theorem C13_zero_mean_partial (sch : Scheme) (M : Mesh K) (hM : M.Valid) (il : Bool)
    (pos : List (Fin 3 → K)) (hpos : ∀ x ∈ pos, ∀ ax, 0 ≤ x ax ∧ x ax < M.L ax) (c : Bool) :
    gridTotal M (fluctuations sch M il pos).field c = 0 := by
  have hin : ∀ p ∈ unweighted pos, InBox M p := by
    intro p hp; obtain ⟨x, hx, rfl⟩ := List.mem_map.mp hp; exact hpos x hx
  have hc := (C05_conserves_weight_in_bounds sch M hM (unweighted pos) hin c).1
  have hv := (volCell_pos M hM)
  have hn : 0 < M.nmesh := mul_pos (mul_pos (hM 0).1 (hM 1).1) (hM 2).1
  have hnK : (M.nmesh : K) ≠ 0 := by exact_mod_cast hn.ne'
  have hL : M.L 0 * M.L 1 * M.L 2 ≠ 0 :=
    (mul_pos (mul_pos (hM 0).2 (hM 1).2) (hM 2).2).ne'
  have hmem : ∀ g ∈ List.range M.nmesh.toNat, 0 ≤ (g : ℤ) ∧ (g : ℤ) < M.nmesh := by
    intro g hg; simp at hg; omega
  cases c
  · have e : gridTotal M (fluctuations sch M il pos).field false =
        gridTotal M (assign sch M (unweighted pos)) false
          - (M.nmesh : K) * ((pos.length : K) / (M.L 0 * M.L 1 * M.L 2)) := by
      unfold gridTotal
      have : (List.range M.nmesh.toNat).map (fun g : ℕ => (fluctuations sch M il pos).field g false)
          = (List.range M.nmesh.toNat).map (fun g : ℕ => assign sch M (unweighted pos) g false
            + -((pos.length : K) / (M.L 0 * M.L 1 * M.L 2))) := by
        apply List.map_congr_left
        intro g hg
        simp only [fluctuations, assignField, if_pos (hmem g hg)]
        simp [sub_eq_add_neg]
      rw [this, List.sum_map_add]
      simp only [List.map_const', List.sum_replicate, List.length_range, nsmul_eq_mul]
      have : ((M.nmesh.toNat : ℕ) : K) = (M.nmesh : K) := by
        have : ((M.nmesh.toNat : ℤ)) = M.nmesh := Int.toNat_of_nonneg hn.le
        exact_mod_cast congrArg (Int.cast : ℤ → K) this
      rw [this]; ring
    have hw : ((unweighted pos).map fun p => p.w false).sum = (pos.length : K) := by
      unfold unweighted; rw [List.map_map]
      simp [Function.comp_def]
    rw [hw] at hc
    have hc' : gridTotal M (assign sch M (unweighted pos)) false = pos.length / M.volCell := by
      rw [← hc]; field_simp
    rw [e, hc']
    unfold Mesh.volCell
    field_simp
    ring
  · have e : gridTotal M (fluctuations sch M il pos).field true =
        gridTotal M (assign sch M (unweighted pos)) true := by
      unfold gridTotal
      congr 1
      apply List.map_congr_left
      intro g hg
      simp [fluctuations, assignField]
    have hw : ((unweighted pos).map fun p => p.w true).sum = 0 := by
      unfold unweighted; rw [List.map_map]
      simp [Function.comp_def]
    rw [hw] at hc
    rw [e]
    exact (mul_eq_zero.mp hc).resolve_right hv.ne'

/-- **C13 is violated under interlacing**: the mean is never subtracted from the
companion field, whose total is the number of particles over the cell volume. -/
theorem C13_interlaced_mean_not_subtracted_violated (sch : Scheme) (M : Mesh K) (hM : M.Valid)
    (pos : List (Fin 3 → K)) (hne : pos ≠ [])
    (hpos : ∀ x ∈ pos, ∀ ax, 0 ≤ x ax ∧ x ax < M.L ax)
    (hgood : ∀ x ∈ pos, ∀ ax, ¬ BadShift sch (M.n ax) (M.L ax) (x ax)) :
    ∃ fs, (fluctuations sch M true pos).fieldS = some fs ∧
      gridTotal M fs false * M.volCell = pos.length ∧ gridTotal M fs false ≠ 0 := by
  refine ⟨assignShifted sch M (unweighted pos), rfl, ?_⟩
  have hin : ∀ p ∈ unweighted pos, InBox M p := by
    intro p hp; obtain ⟨x, hx, rfl⟩ := List.mem_map.mp hp; exact hpos x hx
  have hg : ∀ p ∈ unweighted pos, ∀ ax, ¬ BadShift sch (M.n ax) (M.L ax) (p.pos ax) := by
    intro p hp; obtain ⟨x, hx, rfl⟩ := List.mem_map.mp hp; exact hgood x hx
  have hc := (C07_interlaced_conserves_partial sch M hM (unweighted pos) hin hg false).1
  have hw : ((unweighted pos).map fun p => p.w false).sum = (pos.length : K) := by
    unfold unweighted; rw [List.map_map]
    simp [Function.comp_def]
  rw [hw] at hc
  refine ⟨hc, fun h0 => ?_⟩
  rw [h0, zero_mul] at hc
  have : pos.length = 0 := by exact_mod_cast hc.symm
  exact hne (List.length_eq_zero_iff.mp this)

example : ∀ ax, (0 : ℚ) ≤ (![1, 1 / 3, 1] : Fin 3 → ℚ) ax ∧ (![1, 1 / 3, 1] : Fin 3 → ℚ) ax < exMesh.L ax := by
  intro ax; fin_cases ax <;> simp [exMesh] <;> norm_num

/-! ### C14 -/

/-- What C14 asks: the companion is to the scaled field what the companion of
the assignment is to the assigned field. -/
def SameScaling (scaled assigned : MeshField K) : Prop :=
  ∃ factor : K, (∀ g c, scaled.field g c = assigned.field g c * factor) ∧
    match scaled.fieldS, assigned.fieldS with
    | some s, some a => ∀ g c, s g c = a g c * factor
    | none, none => True
    | _, _ => False

/-- **C14 is violated** by the single-catalogue field: as soon as the main field
has a non-zero cell, the companion a non-zero cell, and the factor is not 1, the
two are scaled differently. -/
theorem C14_single_catalogue_scaling_violated (sch : Scheme) (M : Mesh K) (ps : List (Particle K))
    (alpha : K) (ha : alpha ≠ 1) (g g' : ℤ) (c c' : Bool)
    (hf : assign sch M ps g c ≠ 0) (hs : assignShifted sch M ps g' c' ≠ 0) :
    ¬ SameScaling (ylmFieldOne sch M true ps alpha) (assignField sch M true ps) := by
  rintro ⟨f, h1, h2⟩
  have e1 := h1 g c
  simp only [ylmFieldOne, assignField] at e1
  have ef : f = alpha := (mul_left_cancel₀ hf e1).symm
  simp only [ylmFieldOne, assignField, if_true] at h2
  have e2 := h2 g' c'
  have : f = 1 := by
    have : assignShifted sch M ps g' c' * f = assignShifted sch M ps g' c' * 1 := by rw [← e2, mul_one]
    exact mul_left_cancel₀ hs this
  exact ha (ef.symm.trans this)

theorem C14_single_catalogue_quad_scaling_violated (sch : Scheme) (M : Mesh K)
    (ps : List (Particle K)) (alpha : K) (ha : alpha ^ 2 ≠ 1) (g g' : ℤ) (c c' : Bool)
    (hf : assign sch M ps g c ≠ 0) (hs : assignShifted sch M ps g' c' ≠ 0) :
    ¬ SameScaling (quadFieldOne sch M true ps alpha) (assignField sch M true ps) := by
  rintro ⟨f, h1, h2⟩
  have e1 := h1 g c
  simp only [quadFieldOne, assignField] at e1
  have ef : f = alpha ^ 2 := (mul_left_cancel₀ hf e1).symm
  simp only [quadFieldOne, assignField, if_true] at h2
  have e2 := h2 g' c'
  have : f = 1 := by
    have : assignShifted sch M ps g' c' * f = assignShifted sch M ps g' c' * 1 := by rw [← e2, mul_one]
    exact mul_left_cancel₀ hs this
  exact ha (ef.symm.trans this)

/-- The hypotheses are met by a concrete particle. -/
example : assign .ngp exMesh [⟨![1, 1 / 3, 1], fun _ => 1⟩] 32 false ≠ 0 ∧
    assignShifted .ngp exMesh [⟨![1, 1 / 3, 1], fun _ => 1⟩] 39 false ≠ 0 := by decide +kernel

/-- **C14 (partial).** The two-catalogue fields treat main and companion fields
alike: each is data minus `alpha` (plus `alpha²`) times randoms; and without
interlacing or with unit factor the single-catalogue fields are scaled alike. -/
theorem C14_two_catalogue_scaling_partial (sch : Scheme) (M : Mesh K)
    (data rand : List (Particle K)) (alpha : K) :
    (∀ g c, (ylmFieldTwo sch M true data rand alpha).field g c
      = assign sch M data g c - alpha * assign sch M rand g c) ∧
    (∃ fs, (ylmFieldTwo sch M true data rand alpha).fieldS = some fs ∧
      ∀ g c, fs g c = assignShifted sch M data g c - alpha * assignShifted sch M rand g c) ∧
    (∀ g c, (quadFieldTwo sch M true data rand alpha).field g c
      = assign sch M data g c + alpha ^ 2 * assign sch M rand g c) ∧
    (∃ fs, (quadFieldTwo sch M true data rand alpha).fieldS = some fs ∧
      ∀ g c, fs g c = assignShifted sch M data g c + alpha ^ 2 * assignShifted sch M rand g c) ∧
    SameScaling (ylmFieldOne sch M false data alpha) (assignField sch M false data) ∧
    SameScaling (ylmFieldOne sch M true data 1) (assignField sch M true data) := by
  refine ⟨fun _ _ => rfl, ⟨_, rfl, fun _ _ => rfl⟩, fun _ _ => rfl, ⟨_, rfl, fun _ _ => rfl⟩, ?_, ?_⟩
  · exact ⟨alpha, fun _ _ => rfl, by simp [ylmFieldOne, assignField]⟩
  · exact ⟨1, fun _ _ => rfl, by simp [ylmFieldOne, assignField]⟩

end Trv.Mesh

import Verif.Model.Session
import Verif.Props.Catalogue
import Mathlib.Tactic.FieldSimp
/-
C123: repeating measurements from the same catalogue objects.
-/
set_option linter.unusedSectionVars false
namespace Trv.Cat

variable {ι : Type} [DecidableEq ι]

/-! ### Specification -/

/-- The vector by which a pair of catalogues is displaced, from the true extents of the
reference. -/
noncomputable def PyAlign.origin (mn mx L : V3 ℝ) (n : Fin 3 → ℕ) : PyAlign → V3 ℝ
  | .centre => fun i => (mn i + mx i) / 2 - L i / 2
  | .padBox f => fun i => mn i - f * L i
  | .padGrid f => fun i => mn i - f * (L i / (n i : ℝ))

/-- `σ'` holds the two catalogues of `σ` moved by one and the same vector. -/
structure Moved (σ σ' : Store ι ℝ) (data rand : ι) (o : V3 ℝ) : Prop where
  hdata : PyCat.ShiftedBy o (σ data) (σ' data)
  hrand : PyCat.ShiftedBy o (σ rand) (σ' rand)
  boundsData : (σ' data).TrueBounds
  boundsRand : (σ' rand).TrueBounds

/-- A call of a survey measurement on the two catalogues. -/
def Meas.OnPair (data rand : ι) : Meas ι → Prop
  | .survey d r _ _ _ _ _ => d = data ∧ r = rand
  | _ => False

/-! ### Aligning -/

theorem shape_of_shifted {o : V3 ℝ} {c c' : PyCat ℝ} (h : PyCat.ShiftedBy o c c') (hs : c.Shape) :
    c'.Shape := by
  obtain ⟨h1, h2, h3, h4⟩ := h
  obtain ⟨s0, s1, s2, s3, s4⟩ := hs
  refine ⟨?_, ?_, ?_, ?_, ?_⟩
  · rw [h1, List.length_map]; exact s0
  · intro i; rw [h1, h1, List.length_map, List.length_map]; exact s1 i
  · rw [h1, h2, List.length_map]; exact s2
  · rw [h1, h3, List.length_map]; exact s3
  · rw [h1, h4, List.length_map]; exact s4

theorem alignPy_eq (σ : Store ι ℝ) (data rand : ι) (L : V3 ℝ) (n : Fin 3 → ℕ) (a : PyAlign) :
    alignPy σ data rand L n a = offsetBoth σ data (some rand)
      (a.origin (fun i => ((σ rand).bounds i).1) (fun i => ((σ rand).bounds i).2) L n) := by
  cases a with
  | centre => rfl
  | padBox f =>
    simp only [alignPy, pad, subBoxPad, subGridPad, PadArg.truthy, bind, Except.bind,
      Option.getD_some, PyAlign.origin, PadArg.vec]
    by_cases hf : f = 0
    · simp [hf]
    · simp [hf]
  | padGrid f =>
    simp only [alignPy, pad, subBoxPad, subGridPad, PadArg.truthy, bind, Except.bind,
      Option.getD_some, PyAlign.origin, PadArg.vec]
    by_cases hf : f = 0
    · simp [hf]
    · simp [hf]

theorem alignPy_moved (σ : Store ι ℝ) {data rand : ι} (hne : data ≠ rand) (hd : (σ data).Shape)
    (hr : (σ rand).Shape) (L : V3 ℝ) (n : Fin 3 → ℕ) (a : PyAlign) :
    ∃ σ', alignPy σ data rand L n a = .ok σ' ∧ Moved σ σ' data rand
      (a.origin (fun i => ((σ rand).bounds i).1) (fun i => ((σ rand).bounds i).2) L n) := by
  rw [alignPy_eq]
  obtain ⟨σ', e, h1, h2, h3, h4, _⟩ := offsetBoth_ok σ data (some rand)
    (a.origin (fun i => ((σ rand).bounds i).1) (fun i => ((σ rand).bounds i).2) L n)
    (fun h => hne (Option.some.inj h).symm) hd hr
  exact ⟨σ', e, h1, h2, h3, h4⟩

theorem shifted_trans {o p : V3 ℝ} {c c' c'' : PyCat ℝ} (h : PyCat.ShiftedBy o c c')
    (h' : PyCat.ShiftedBy p c' c'') : PyCat.ShiftedBy (fun i => o i + p i) c c'' := by
  obtain ⟨h1, h2, h3, h4⟩ := h
  obtain ⟨g1, g2, g3, g4⟩ := h'
  refine ⟨?_, g2.trans h2, g3.trans h3, g4.trans h4⟩
  intro i
  rw [g1, h1, List.map_map]
  apply List.map_congr_left
  intro x _
  simp only [Function.comp]
  ring

theorem Moved.trans {σ σ' σ'' : Store ι ℝ} {data rand : ι} {o p : V3 ℝ}
    (h : Moved σ σ' data rand o) (h' : Moved σ' σ'' data rand p) :
    Moved σ σ'' data rand fun i => o i + p i :=
  ⟨shifted_trans h.hdata h'.hdata, shifted_trans h.hrand h'.hrand, h'.boundsData, h'.boundsRand⟩

theorem Moved.refl {σ : Store ι ℝ} {data rand : ι} (h : (σ data).TrueBounds)
    (h' : (σ rand).TrueBounds) : Moved σ σ data rand fun _ => 0 := by
  refine ⟨⟨?_, rfl, rfl, rfl⟩, ⟨?_, rfl, rfl, rfl⟩, h, h'⟩ <;> intro i <;>
    simp only [sub_zero, List.map_id']

/-- Measurements of the pair move both catalogues together. -/
theorem after_moved (data rand : ι) (hne : data ≠ rand) (ms : List (Meas ι)) :
    ∀ σ : Store ι ℝ, (σ data).Shape → (σ rand).Shape → (σ data).TrueBounds →
      (σ rand).TrueBounds → (∀ m ∈ ms, m.OnPair data rand) →
      ∃ σ' o, Meas.after σ ms = .ok σ' ∧ Moved σ σ' data rand o := by
  induction ms with
  | nil =>
    intro σ _ _ hb hb' _
    exact ⟨σ, _, rfl, Moved.refl hb hb'⟩
  | cons m ms ih =>
    intro σ hd hr hb hb' hm
    match m, hm m List.mem_cons_self with
    | .survey d r ld lr L n a, hp =>
      obtain ⟨rfl, rfl⟩ := hp
      obtain ⟨σ₁, e₁, m₁⟩ := alignPy_moved σ hne hd hr L n a
      obtain ⟨σ₂, o, e₂, m₂⟩ := ih σ₁ (shape_of_shifted m₁.hdata hd) (shape_of_shifted m₁.hrand hr)
        m₁.boundsData m₁.boundsRand fun m' h => hm m' (List.mem_cons_of_mem _ h)
      refine ⟨σ₂, _, ?_, m₁.trans m₂⟩
      simp only [Meas.after, Meas.run, bind, Except.bind, e₁]
      exact e₂

/-- What is sent for a catalogue moved by `o` in all. -/
noncomputable def sentAt (c : PyCat ℝ) (o : V3 ℝ) : Sent :=
  ⟨fun i => (c.pos i).map fun x => x - o i, c.nz, c.ws, c.wc⟩

theorem sent_shifted {o : V3 ℝ} {c c' : PyCat ℝ} (h : PyCat.ShiftedBy o c c') :
    c'.sent = sentAt c o := by
  obtain ⟨h1, h2, h3, h4⟩ := h
  simp only [PyCat.sent, sentAt]
  rw [h2, h3, h4]
  congr 1
  funext i
  exact h1 i

theorem bounds_moved {σ σ' : Store ι ℝ} {data rand : ι} {o : V3 ℝ}
    (h : Moved σ σ' data rand o) (hb : (σ rand).TrueBounds) (i : Fin 3) :
    ((σ' rand).bounds i).1 = ((σ rand).bounds i).1 - o i ∧
    ((σ' rand).bounds i).2 = ((σ rand).bounds i).2 - o i := by
  have h1 := h.boundsRand i
  rw [h.hrand.1 i] at h1
  exact h1.unique ((hb i).sub (o i))

theorem origin_shift (a : PyAlign) (mn mx L o : V3 ℝ) (n : Fin 3 → ℕ) :
    (fun i => o i + a.origin (fun i => mn i - o i) (fun i => mx i - o i) L n i)
      = a.origin mn mx L n := by
  funext i
  cases a <;> simp only [PyAlign.origin] <;> ring

/-! ### C123 -/

/-- **C123 (partial: lines of sight are given, and the earlier calls measured the same
pair).** Whatever sequence of survey measurements was made before from the two catalogue
objects — with any boxes, alignments and lines of sight — a measurement hands over to the
algorithm exactly what it would have handed over had it been the first, namely both
catalogues displaced by the vector that aligns the original reference. -/
theorem C123_history_partial (σ : Store ι ℝ) {data rand : ι} (hne : data ≠ rand)
    (hd : (σ data).Shape) (hr : (σ rand).Shape) (hb : (σ data).TrueBounds)
    (hb' : (σ rand).TrueBounds) (ms : List (Meas ι)) (hm : ∀ m ∈ ms, m.OnPair data rand)
    (ld lr : List (V3 ℝ)) (L : V3 ℝ) (n : Fin 3 → ℕ) (a : PyAlign) :
    ∃ σ' σ'' τ, Meas.after σ ms = .ok σ' ∧
      (Meas.survey data rand (some ld) (some lr) L n a).run σ
        = .ok (τ, ⟨[sentAt (σ data) (a.origin (fun i => ((σ rand).bounds i).1)
            (fun i => ((σ rand).bounds i).2) L n), sentAt (σ rand) (a.origin
            (fun i => ((σ rand).bounds i).1) (fun i => ((σ rand).bounds i).2) L n)], [ld, lr]⟩) ∧
      (Meas.survey data rand (some ld) (some lr) L n a).run σ'
        = .ok (σ'', ⟨[sentAt (σ data) (a.origin (fun i => ((σ rand).bounds i).1)
            (fun i => ((σ rand).bounds i).2) L n), sentAt (σ rand) (a.origin
            (fun i => ((σ rand).bounds i).1) (fun i => ((σ rand).bounds i).2) L n)], [ld, lr]⟩) := by
  obtain ⟨σ', o, e, m⟩ := after_moved data rand hne ms σ hd hr hb hb' hm
  obtain ⟨τ, e₁, m₁⟩ := alignPy_moved σ hne hd hr L n a
  obtain ⟨σ'', e₂, m₂⟩ := alignPy_moved σ' hne (shape_of_shifted m.hdata hd)
    (shape_of_shifted m.hrand hr) L n a
  refine ⟨σ', σ'', τ, e, ?_, ?_⟩
  · simp only [Meas.run, bind, Except.bind, e₁, Option.getD_some]
    rw [sent_shifted m₁.hdata, sent_shifted m₁.hrand]
  · have hm2 := m.trans m₂
    have ho : (fun i => o i + a.origin (fun i => ((σ' rand).bounds i).1)
        (fun i => ((σ' rand).bounds i).2) L n i) = a.origin (fun i => ((σ rand).bounds i).1)
        (fun i => ((σ rand).bounds i).2) L n := by
      have q1 : (fun i => ((σ' rand).bounds i).1) = fun i => ((σ rand).bounds i).1 - o i :=
        funext fun i => (bounds_moved m hb' i).1
      have q2 : (fun i => ((σ' rand).bounds i).2) = fun i => ((σ rand).bounds i).2 - o i :=
        funext fun i => (bounds_moved m hb' i).2
      rw [q1, q2]
      exact origin_shift a _ _ L o n
    rw [ho] at hm2
    simp only [Meas.run, bind, Except.bind, e₂, Option.getD_some]
    rw [sent_shifted hm2.hdata, sent_shifted hm2.hrand]

/-- **C123: the catalogues of the caller are changed** by a survey measurement, unless the
reference is aligned already. -/
theorem C123_caller_catalogues_violated (σ : Store ι ℝ) {data rand : ι} (hne : data ≠ rand)
    (hd : (σ data).Shape) (hr : (σ rand).Shape) (ld lr : Option (List (V3 ℝ))) (L : V3 ℝ)
    (n : Fin 3 → ℕ) (a : PyAlign)
    (ho : a.origin (fun i => ((σ rand).bounds i).1) (fun i => ((σ rand).bounds i).2) L n ≠ 0) :
    ∃ σ₁ f, (Meas.survey data rand ld lr L n a).run σ = .ok (σ₁, f) ∧
      (σ₁ data).pos ≠ (σ data).pos ∧ (σ₁ rand).pos ≠ (σ rand).pos := by
  obtain ⟨σ₁, e₁, m₁⟩ := alignPy_moved σ hne hd hr L n a
  have key : ∀ c c' : PyCat ℝ, c.Shape → PyCat.ShiftedBy (a.origin
      (fun i => ((σ rand).bounds i).1) (fun i => ((σ rand).bounds i).2) L n) c c' →
      c'.pos ≠ c.pos := by
    intro c c' hs hsh h
    apply ho
    funext i
    have h1 := congrFun h i
    rw [hsh.1 i] at h1
    have hlen : 0 < (c.pos i).length := by rw [hs.2.1 i]; exact hs.1
    have h2 : ((c.pos i).map fun x => x - a.origin (fun i => ((σ rand).bounds i).1)
        (fun i => ((σ rand).bounds i).2) L n i) = (c.pos i).map id := by rw [h1, List.map_id]
    have h3 := List.map_inj_left.1 h2 _ (List.getElem_mem hlen)
    have h4 : ∀ u v : ℝ, u - v = id u → v = 0 := fun u v h => by
      have : u - v = u := h
      linarith
    exact h4 _ _ h3
  refine ⟨σ₁, ⟨[(σ₁ data).sent, (σ₁ rand).sent],
    [ld.getD (computeLos (σ data)), lr.getD (computeLos (σ rand))]⟩, ?_,
    key _ _ hd m₁.hdata, key _ _ hr m₁.hrand⟩
  simp only [Meas.run, bind, Except.bind, e₁]

theorem los_parallel {x y : V3 ℝ} (h : los x = los y) (i j : Fin 3) : x i * y j = x j * y i := by
  by_cases hx : x = 0
  · rw [hx]; simp
  · by_cases hy : y = 0
    · rw [hy]; simp
    · obtain ⟨t, _, ht⟩ := ((C27_lines_of_sight x).2.1 hx).2
      obtain ⟨s, _, hs⟩ := ((C27_lines_of_sight y).2.1 hy).2
      rw [ht i, hs j, ht j, hs i, h]
      ring

theorem computeLos_shifted {o : V3 ℝ} {c c' : PyCat ℝ} (h : PyCat.ShiftedBy o c c')
    (hs : c.Shape) :
    computeLos c' = (List.range (c.pos 0).length).map fun k =>
      los fun i => (c.pos i).getD k 0 - o i := by
  unfold computeLos
  rw [h.1 0, List.length_map]
  apply List.map_congr_left
  intro k hk
  rw [List.mem_range] at hk
  congr 1
  funext i
  have hi : k < (c.pos i).length := by rw [hs.2.1 i]; exact hk
  rw [h.1 i, List.getD_eq_getElem?_getD, List.getD_eq_getElem?_getD, List.getElem?_map,
    List.getElem?_eq_getElem hi]
  rfl

/-- **C123 is violated when the lines of sight are left to be computed**: the first
measurement moves the particles of the catalogues, and the second takes the lines of sight
from the moved positions.  They differ as soon as a particle is not moved along its line of
sight. -/
theorem C123_lines_of_sight_violated (σ : Store ι ℝ) {data rand : ι} (hne : data ≠ rand)
    (hd : (σ data).Shape) (hr : (σ rand).Shape) (lr : List (V3 ℝ)) (L : V3 ℝ) (n : Fin 3 → ℕ)
    (a : PyAlign) (o : V3 ℝ)
    (ho : o = a.origin (fun i => ((σ rand).bounds i).1) (fun i => ((σ rand).bounds i).2) L n)
    (k : ℕ) (hk : k < ((σ data).pos 0).length) (i j : Fin 3)
    (hx : ((σ data).pos i).getD k 0 * o j ≠ ((σ data).pos j).getD k 0 * o i) :
    ∃ σ₁ σ₂ f₁ f₂, (Meas.survey data rand none (some lr) L n a).run σ = .ok (σ₁, f₁) ∧
      (Meas.survey data rand none (some lr) L n a).run σ₁ = .ok (σ₂, f₂) ∧
      f₁.los = [(List.range ((σ data).pos 0).length).map fun k =>
        los fun i => ((σ data).pos i).getD k 0, lr] ∧
      f₂.los = [(List.range ((σ data).pos 0).length).map fun k =>
        los fun i => ((σ data).pos i).getD k 0 - o i, lr] ∧
      f₁ ≠ f₂ := by
  obtain ⟨σ₁, e₁, m₁⟩ := alignPy_moved σ hne hd hr L n a
  obtain ⟨σ₂, e₂, m₂⟩ := alignPy_moved σ₁ hne (shape_of_shifted m₁.hdata hd)
    (shape_of_shifted m₁.hrand hr) L n a
  rw [← ho] at m₁
  have hl := computeLos_shifted m₁.hdata hd
  refine ⟨σ₁, σ₂, ⟨[(σ₁ data).sent, (σ₁ rand).sent], [computeLos (σ data), lr]⟩,
    ⟨[(σ₂ data).sent, (σ₂ rand).sent], [computeLos (σ₁ data), lr]⟩, ?_, ?_, ?_, ?_, ?_⟩
  · simp only [Meas.run, bind, Except.bind, e₁, Option.getD_some, Option.getD_none]
  · simp only [Meas.run, bind, Except.bind, e₂, Option.getD_some, Option.getD_none]
  · rfl
  · simp only [hl]
  · intro h
    have h1 : computeLos (σ data) = computeLos (σ₁ data) := by
      have := congrArg Feed.los h
      simp only [List.cons.injEq, and_true] at this
      exact this
    rw [hl] at h1
    unfold computeLos at h1
    have h2 := List.map_inj_left.1 h1 k (List.mem_range.2 hk)
    have h3 := los_parallel h2 i j
    apply hx
    linarith

/-! ### Simulation boxes and windows -/

/-- The extent of every column is less than the box. -/
def PyCat.Fits (c : PyCat ℝ) (L : V3 ℝ) : Prop :=
  ∀ i, (c.bounds i).2 - (c.bounds i).1 < L i

theorem pyMod_in {x L : ℝ} (h0 : 0 ≤ x) (h1 : x < L) : pyMod x L = x := by
  have hL : 0 < L := lt_of_le_of_lt h0 h1
  unfold pyMod
  have : ⌊x / L⌋ = 0 := by
    rw [Int.floor_eq_iff]
    refine ⟨by simpa using div_nonneg h0 hL.le, ?_⟩
    rw [div_lt_iff₀ hL]
    simpa using h1
  rw [this]
  simp

/-- A catalogue which fits in the box is only centred. -/
theorem periodise_fits (c : PyCat ℝ) (L : V3 ℝ) (hb : c.TrueBounds) (hf : c.Fits L) :
    c.periodise L = c.offset fun i => ((c.bounds i).1 + (c.bounds i).2) / 2 - L i / 2 := by
  unfold PyCat.periodise PyCat.offset
  congr 2
  funext i
  apply List.map_congr_left
  intro x hx
  obtain ⟨h1, h2⟩ := (hb i).mem hx
  have h3 := hf i
  rw [pyMod_in (by linarith) (by linarith)]
  ring

theorem offset_true (c : PyCat ℝ) (o : V3 ℝ) (hb : c.TrueBounds) :
    ∃ c', c.offset o = .ok c' ∧ PyCat.ShiftedBy o c c' ∧ c'.TrueBounds ∧
      (∀ i, c'.bounds i = ((c.bounds i).1 - o i, (c.bounds i).2 - o i)) ∧
      c'.ntotal = c.ntotal := by
  refine ⟨_, offset_eq c o hb, ⟨fun _ => rfl, rfl, rfl, rfl⟩, ?_, fun _ => rfl, rfl⟩
  intro i
  exact (hb i).sub (o i)

theorem insertDensity_ok (c : PyCat ℝ) (L : V3 ℝ) :
    ∃ nz, insertDensity c L = .ok { c with nz := nz } ∧
      insertDensity { c with nz := nz } L = .ok { c with nz := nz } ∧
      ((∀ z ∈ c.nz, z = 0) → nz = List.replicate (c.pos 0).length
        ((c.ntotal : ℝ) / (L 0 * L 1 * L 2))) ∧
      ((¬ ∀ z ∈ c.nz, z = 0) → nz = c.nz) := by
  by_cases h : ∀ z ∈ c.nz, z = 0
  · refine ⟨List.replicate (c.pos 0).length ((c.ntotal : ℝ) / (L 0 * L 1 * L 2)), ?_, ?_,
      fun _ => rfl, fun h' => absurd h h'⟩
    · unfold insertDensity; rw [if_pos h]; rfl
    · unfold insertDensity
      split_ifs
      · rfl
      · rfl
  · refine ⟨c.nz, ?_, ?_, fun h' => absurd h' h, fun _ => rfl⟩
    · unfold insertDensity; rw [if_neg h]
    · unfold insertDensity; rw [if_neg h]

/-- **C123 in a simulation box (partial: the catalogue fits in the box).** Measuring again
with the same parameters hands over the same particles, and leaves the catalogue as it is. -/
theorem C123_box_partial (σ : Store ι ℝ) (data : ι) (L : V3 ℝ) (hb : (σ data).TrueBounds)
    (hf : (σ data).Fits L) :
    ∃ σ₁ f, (Meas.sim data L).run σ = .ok (σ₁, f) ∧ (Meas.sim data L).run σ₁ = .ok (σ₁, f) := by
  obtain ⟨c, e, hsh, hbt, hbd, hn⟩ := offset_true (σ data)
    (fun i => (((σ data).bounds i).1 + ((σ data).bounds i).2) / 2 - L i / 2) hb
  obtain ⟨nz, e1, e2, _, _⟩ := insertDensity_ok c L
  refine ⟨Function.update σ data { c with nz := nz }, ⟨[PyCat.sent { c with nz := nz }], []⟩, ?_, ?_⟩
  · simp only [Meas.run, bind, Except.bind]
    rw [periodise_fits _ _ hb hf, e]
    simp only [e1]
  · simp only [Meas.run, bind, Except.bind, Function.update_self]
    have hf2 : PyCat.Fits { c with nz := nz } L := by
      intro i
      have := hf i
      simp only [hbd i]
      linarith
    have hz : (fun i : Fin 3 => ((({ c with nz := nz } : PyCat ℝ).bounds i).1 +
        (({ c with nz := nz } : PyCat ℝ).bounds i).2) / 2 - L i / 2) = fun _ => (0 : ℝ) := by
      funext i
      simp only [hbd i]
      ring
    have hb2 : PyCat.TrueBounds { c with nz := nz } := hbt
    rw [periodise_fits _ _ hb2 hf2, hz, offset_zero _ hb2]
    simp only [e2, Function.update_idem]

/-- A catalogue of three particles on the diagonal. -/
def threePart (x y z : ℝ) (b : ℝ × ℝ) : PyCat ℝ :=
  { pos := fun _ => [x, y, z], nz := [1, 1, 1], ws := [1, 1, 1], wc := [1, 1, 1],
    bounds := fun _ => b, ntotal := 3, wtotal := 3, wstotal := 3 }

theorem threePart_extent {x y z a b : ℝ} (h1 : a = x ∨ a = y ∨ a = z) (h2 : a ≤ x) (h3 : a ≤ y)
    (h4 : a ≤ z) (h5 : b = x ∨ b = y ∨ b = z) (h6 : x ≤ b) (h7 : y ≤ b) (h8 : z ≤ b) :
    IsExtent [x, y, z] a b := by
  refine ⟨⟨by simpa using h1, ?_⟩, by simpa using h5, ?_⟩
  · intro u hu
    simp only [Set.mem_setOf_eq, List.mem_cons, List.not_mem_nil, or_false] at hu
    rcases hu with rfl | rfl | rfl <;> assumption
  · intro u hu
    simp only [Set.mem_setOf_eq, List.mem_cons, List.not_mem_nil, or_false] at hu
    rcases hu with rfl | rfl | rfl <;> assumption

theorem extent_0_3_10 : IsExtent [(0 : ℝ), 3, 10] 0 10 :=
  threePart_extent (by norm_num) (by norm_num) (by norm_num) (by norm_num) (by norm_num)
    (by norm_num) (by norm_num) (by norm_num)

/-- **C123 is violated by a box in which the catalogue does not fit**: a second measurement
shifts the wrapped particles again. -/
theorem C123_overfull_violated : ∃ (σ : Store Unit ℝ) (L : V3 ℝ) (σ₁ σ₂ : Store Unit ℝ) (f₁ f₂ : Feed),
    (σ ()).TrueBounds ∧ (∀ i, ((σ ()).bounds i).2 - ((σ ()).bounds i).1 = L i) ∧
    (Meas.sim () L).run σ = .ok (σ₁, f₁) ∧ (Meas.sim () L).run σ₁ = .ok (σ₂, f₂) ∧
    f₁.cats.map (fun c => c.pos 0) = [[0, 3, 0]] ∧
    f₂.cats.map (fun c => c.pos 0) = [[7 / 2, 13 / 2, 7 / 2]] := by
  have p1 : ∀ x : ℝ, 0 ≤ x → x < 10 → pyMod x 10 = x := fun x h h' => pyMod_in h h'
  have p2 : pyMod (10 : ℝ) 10 = 0 := by simp [pyMod]
  have e₁ : (threePart 0 3 10 (0, 10)).periodise (fun _ => 10) = .ok (threePart 0 3 0 (0, 3)) := by
    unfold PyCat.periodise
    refine Eq.trans (congrArg PyCat.calcBounds (a₂ := threePart 0 3 0 (0, 10)) ?_)
      (calcBounds_eq (b := fun _ => (0, 3)) fun i => threePart_extent (by norm_num) (by norm_num)
        (by norm_num) (by norm_num) (by norm_num) (by norm_num) (by norm_num) (by norm_num))
    simp only [threePart, List.map_cons, List.map_nil]
    norm_num [p1, p2]
  have e₂ : (threePart 0 3 0 (0, 3)).periodise (fun _ => 10)
      = .ok (threePart (7 / 2) (13 / 2) (7 / 2) (7 / 2, 13 / 2)) := by
    unfold PyCat.periodise
    refine Eq.trans (congrArg PyCat.calcBounds (a₂ := threePart (7 / 2) (13 / 2) (7 / 2) (0, 3)) ?_)
      (calcBounds_eq (b := fun _ => (7 / 2, 13 / 2)) fun i => threePart_extent (by norm_num)
        (by norm_num) (by norm_num) (by norm_num) (by norm_num) (by norm_num) (by norm_num)
        (by norm_num))
    simp only [threePart, List.map_cons, List.map_nil]
    norm_num [p1, p2]
  have ins : ∀ (x y z : ℝ) (b : ℝ × ℝ) (L : V3 ℝ),
      insertDensity (threePart x y z b) L = .ok (threePart x y z b) := by
    intro x y z b L
    unfold insertDensity
    rw [if_neg]
    intro h
    exact one_ne_zero (h 1 (by simp [threePart]))
  refine ⟨fun _ => threePart 0 3 10 (0, 10), fun _ => 10,
    Function.update (fun _ => threePart 0 3 10 (0, 10)) () (threePart 0 3 0 (0, 3)),
    Function.update (Function.update (fun _ => threePart 0 3 10 (0, 10)) ()
      (threePart 0 3 0 (0, 3))) () (threePart (7 / 2) (13 / 2) (7 / 2) (7 / 2, 13 / 2)),
    ⟨[(threePart 0 3 0 (0, 3)).sent], []⟩,
    ⟨[(threePart (7 / 2) (13 / 2) (7 / 2) (7 / 2, 13 / 2)).sent], []⟩, ?_, ?_, ?_, ?_, ?_, ?_⟩
  rotate_left 2
  · simp only [Meas.run, bind, Except.bind, e₁, ins]
  · simp only [Meas.run, bind, Except.bind, Function.update_self, e₂, ins]
  · simp [PyCat.sent, threePart]
  · simp [PyCat.sent, threePart]
  · intro i
    exact extent_0_3_10
  · intro i
    simp [threePart]

/-- **C123 is violated by the density inserted into a catalogue without one**: it stays in
the catalogue, and a later measurement in another box is made with the density of the
first. -/
theorem C123_density_violated (σ : Store ι ℝ) (data : ι) (L L' : V3 ℝ) (hs : (σ data).Shape)
    (ht : (σ data).TrueTotals) (hz : ∀ z ∈ (σ data).nz, z = 0) (hV : L 0 * L 1 * L 2 ≠ 0)
    (hVV : L 0 * L 1 * L 2 ≠ L' 0 * L' 1 * L' 2) :
    ∃ σ₁ σ₂ τ f₁ f₂ g, (Meas.sim data L).run σ = .ok (σ₁, f₁) ∧
      (Meas.sim data L').run σ₁ = .ok (σ₂, f₂) ∧ (Meas.sim data L').run σ = .ok (τ, g) ∧
      f₂.cats.map (fun c => c.nz) = [List.replicate ((σ data).pos 0).length
        ((((σ data).pos 0).length : ℝ) / (L 0 * L 1 * L 2))] ∧
      g.cats.map (fun c => c.nz) = [List.replicate ((σ data).pos 0).length
        ((((σ data).pos 0).length : ℝ) / (L' 0 * L' 1 * L' 2))] ∧ f₂ ≠ g := by
  have per : ∀ (c : PyCat ℝ) (M : V3 ℝ), c.Shape → ∃ c', c.periodise M = .ok c' ∧ c'.Shape ∧
      c'.nz = c.nz ∧ c'.ntotal = c.ntotal ∧ (c'.pos 0).length = (c.pos 0).length := by
    intro c M hc
    have hm := Shape.mapPos hc fun i x =>
      pyMod (x + M i / 2 - ((c.bounds i).2 + (c.bounds i).1) / 2) (M i)
    obtain ⟨b, e, _⟩ := calcBounds_ok _ hm
    exact ⟨_, e, hm, rfl, rfl, by simp⟩
  have hN : 0 < ((σ data).pos 0).length := hs.1
  obtain ⟨c₁, e₁, s₁, n₁, t₁, l₁⟩ := per (σ data) L hs
  obtain ⟨nz₁, i₁, _, z₁, _⟩ := insertDensity_ok c₁ L
  have hz₁ := z₁ (by rw [n₁]; exact hz)
  rw [l₁, t₁, ht.1] at hz₁
  have s₁' : PyCat.Shape { c₁ with nz := nz₁ } := by
    refine ⟨s₁.1, s₁.2.1, ?_, s₁.2.2.2.1, s₁.2.2.2.2⟩
    simp only [hz₁, List.length_replicate, l₁]
  obtain ⟨c₂, e₂, s₂, n₂, t₂, l₂⟩ := per { c₁ with nz := nz₁ } L' s₁'
  obtain ⟨nz₂, i₂, _, _, z₂⟩ := insertDensity_ok c₂ L'
  have hnz : ((((σ data).pos 0).length : ℝ) / (L 0 * L 1 * L 2)) ≠ 0 :=
    div_ne_zero (by exact_mod_cast hN.ne') hV
  have hz₂ : nz₂ = nz₁ := by
    rw [z₂, n₂]
    intro h
    rw [n₂] at h
    apply hnz
    apply h
    simp only [hz₁]
    exact List.mem_replicate.2 ⟨hN.ne', rfl⟩
  obtain ⟨c₃, e₃, s₃, n₃, t₃, l₃⟩ := per (σ data) L' hs
  obtain ⟨nz₃, i₃, _, z₃, _⟩ := insertDensity_ok c₃ L'
  have hz₃ := z₃ (by rw [n₃]; exact hz)
  rw [l₃, t₃, ht.1] at hz₃
  refine ⟨Function.update σ data { c₁ with nz := nz₁ },
    Function.update (Function.update σ data { c₁ with nz := nz₁ }) data { c₂ with nz := nz₂ },
    Function.update σ data { c₃ with nz := nz₃ }, ⟨[PyCat.sent { c₁ with nz := nz₁ }], []⟩,
    ⟨[PyCat.sent { c₂ with nz := nz₂ }], []⟩, ⟨[PyCat.sent { c₃ with nz := nz₃ }], []⟩,
    ?_, ?_, ?_, ?_, ?_, ?_⟩
  · simp only [Meas.run, bind, Except.bind, e₁, i₁]
  · simp only [Meas.run, bind, Except.bind, Function.update_self, e₂, i₂]
  · simp only [Meas.run, bind, Except.bind, e₃, i₃]
  · simp only [PyCat.sent, List.map_cons, List.map_nil, hz₂, hz₁]
  · simp only [PyCat.sent, List.map_cons, List.map_nil, hz₃]
  · intro h
    have h' := congrArg (fun f : Feed => f.cats.map fun c => c.nz) h
    simp only [PyCat.sent, List.map_cons, List.map_nil, hz₂, hz₁, hz₃, List.cons.injEq,
      and_true] at h'
    have h2 := List.replicate_right_inj (by exact hN.ne') |>.1 h'
    have hN' : ((((σ data).pos 0).length : ℝ)) ≠ 0 := by exact_mod_cast hN.ne'
    rw [div_eq_mul_inv, div_eq_mul_inv] at h2
    exact hVV (inv_injective (mul_left_cancel₀ hN' h2))

/-- **C123 is violated by measuring a window function first**: it moves the random
catalogue and not the data catalogue, so that a later survey measurement is made with the
two displaced with respect to each other by the vector that centred the random catalogue
(in a box into which it fits). -/
theorem C123_window_first_violated (σ : Store ι ℝ) {data rand : ι} (hne : data ≠ rand)
    (hd : (σ data).Shape) (hr : (σ rand).Shape) (hb' : (σ rand).TrueBounds)
    (lw : Option (List (V3 ℝ))) (M : V3 ℝ) (hf : (σ rand).Fits M)
    (ld lr : List (V3 ℝ)) (L : V3 ℝ) (n : Fin 3 → ℕ) (a : PyAlign) (w o : V3 ℝ)
    (hw : w = fun i => (((σ rand).bounds i).1 + ((σ rand).bounds i).2) / 2 - M i / 2)
    (ho : o = a.origin (fun i => ((σ rand).bounds i).1) (fun i => ((σ rand).bounds i).2) L n) :
    ∃ σ₁ σ₂ τ g, (Meas.window rand lw M).run σ = .ok (σ₁, g) ∧
      (Meas.survey data rand (some ld) (some lr) L n a).run σ
        = .ok (τ, ⟨[sentAt (σ data) o, sentAt (σ rand) o], [ld, lr]⟩) ∧
      (Meas.survey data rand (some ld) (some lr) L n a).run σ₁
        = .ok (σ₂, ⟨[sentAt (σ data) fun i => o i - w i, sentAt (σ rand) o], [ld, lr]⟩) ∧
      (w ≠ 0 → sentAt (σ data) (fun i => o i - w i) ≠ sentAt (σ data) o) := by
  obtain ⟨c, e, hsh, hbt, hbd, -⟩ := offset_true (σ rand) w hb'
  have hfc : c.Fits M := by
    intro i
    have := hf i
    simp only [hbd i]
    linarith
  have hz : (fun i => ((c.bounds i).1 + (c.bounds i).2) / 2 - M i / 2) = fun _ => (0 : ℝ) := by
    funext i
    simp only [hbd i, hw]
    ring
  have hper : c.periodise M = .ok c := by
    rw [periodise_fits _ _ hbt hfc, hz, offset_zero _ hbt]
  have hcen : centre σ rand M none = .ok (Function.update σ rand c) := by
    unfold centre offsetBoth
    simp only [Option.getD_none]
    rw [← hw, e]
    rfl
  obtain ⟨σ₁, hσ₁⟩ : ∃ σ₁, σ₁ = Function.update σ rand c := ⟨_, rfl⟩
  have hσd : σ₁ data = σ data := by rw [hσ₁, Function.update_of_ne hne]
  have hσr : σ₁ rand = c := by rw [hσ₁, Function.update_self]
  obtain ⟨τ, e₁, m₁⟩ := alignPy_moved σ hne hd hr L n a
  obtain ⟨σ₂, e₂, m₂⟩ := alignPy_moved σ₁ hne (by rw [hσd]; exact hd)
    (by rw [hσr]; exact shape_of_shifted hsh hr) L n a
  rw [← ho] at m₁
  have ho2 : a.origin (fun i => ((σ₁ rand).bounds i).1) (fun i => ((σ₁ rand).bounds i).2) L n
      = fun i => o i - w i := by
    have := origin_shift a (fun i => ((σ rand).bounds i).1) (fun i => ((σ rand).bounds i).2) L w n
    rw [← ho] at this
    have q1 : (fun i => ((σ₁ rand).bounds i).1) = fun i => ((σ rand).bounds i).1 - w i := by
      funext i; rw [hσr, hbd i]
    have q2 : (fun i => ((σ₁ rand).bounds i).2) = fun i => ((σ rand).bounds i).2 - w i := by
      funext i; rw [hσr, hbd i]
    rw [q1, q2]
    funext i
    have hi := congrFun this i
    linarith
  rw [ho2] at m₂
  refine ⟨σ₁, σ₂, τ, ⟨[c.sent], [lw.getD (computeLos (σ rand))]⟩, ?_, ?_, ?_, ?_⟩
  · simp only [Meas.run, bind, Except.bind, hcen, Function.update_self, hper,
      Function.update_idem, hσ₁]
  · simp only [Meas.run, bind, Except.bind, e₁, Option.getD_some]
    rw [sent_shifted m₁.hdata, sent_shifted m₁.hrand]
  · simp only [Meas.run, bind, Except.bind, e₂, Option.getD_some]
    have h1 := m₂.hdata
    rw [hσd] at h1
    have h2 := m₂.hrand
    rw [hσr] at h2
    have h3 := shifted_trans hsh h2
    have hq : (fun i => w i + (o i - w i)) = o := by funext i; ring
    rw [hq] at h3
    rw [sent_shifted h1, sent_shifted h3]
  · intro hw0 h
    apply hw0
    funext i
    have h1 := congrFun (congrArg Sent.pos h) i
    simp only [sentAt] at h1
    have hlen : 0 < ((σ data).pos i).length := by rw [hd.2.1 i]; exact hd.1
    have h2 := List.map_inj_left.1 h1 _ (List.getElem_mem hlen)
    exact (by linarith : w i = 0)

/-! ### Examples -/

/-- Data and random catalogues. -/
def examplePair : Store (Fin 2) ℝ := ![
  { pos := ![[1, 2], [0, 4], [5, 3]], nz := [0, 0], ws := [1, 1], wc := [1, 2],
    bounds := ![(1, 2), (0, 4), (3, 5)], ntotal := 2, wtotal := 3, wstotal := 2 },
  threePart 0 3 10 (0, 10)]

theorem two_extent {x y a b : ℝ} (h1 : a = x ∨ a = y) (h2 : a ≤ x) (h3 : a ≤ y)
    (h5 : b = x ∨ b = y) (h6 : x ≤ b) (h7 : y ≤ b) : IsExtent [x, y] a b := by
  refine ⟨⟨by simpa using h1, ?_⟩, by simpa using h5, ?_⟩
  · intro u hu
    simp only [Set.mem_setOf_eq, List.mem_cons, List.not_mem_nil, or_false] at hu
    rcases hu with rfl | rfl <;> assumption
  · intro u hu
    simp only [Set.mem_setOf_eq, List.mem_cons, List.not_mem_nil, or_false] at hu
    rcases hu with rfl | rfl <;> assumption

theorem examplePair_good : (examplePair 0).Shape ∧ (examplePair 1).Shape ∧
    (examplePair 0).TrueBounds ∧ (examplePair 1).TrueBounds ∧ (examplePair 0).TrueTotals := by
  refine ⟨⟨by simp [examplePair], ?_, by simp [examplePair], by simp [examplePair],
    by simp [examplePair]⟩, ⟨by simp [examplePair, threePart], fun _ => rfl, rfl, rfl, rfl⟩,
    ?_, ?_, ?_⟩
  · intro i; fin_cases i <;> rfl
  · intro i
    fin_cases i
    · exact (two_extent (by norm_num) (by norm_num) (by norm_num) (by norm_num) (by norm_num)
        (by norm_num) : IsExtent [(1 : ℝ), 2] 1 2)
    · exact (two_extent (by norm_num) (by norm_num) (by norm_num) (by norm_num) (by norm_num)
        (by norm_num) : IsExtent [(0 : ℝ), 4] 0 4)
    · exact (two_extent (by norm_num) (by norm_num) (by norm_num) (by norm_num) (by norm_num)
        (by norm_num) : IsExtent [(5 : ℝ), 3] 3 5)
  · intro i
    exact extent_0_3_10
  · refine ⟨rfl, ?_, ?_⟩ <;> norm_num [examplePair]

/-- The history theorem applies to two measurements with different alignments. -/
example : (0 : Fin 2) ≠ 1 ∧ ∀ m ∈ [Meas.survey (0 : Fin 2) 1 none none (fun _ => 20) (fun _ => 8)
    .centre, Meas.survey 0 1 none none (fun _ => 40) (fun _ => 8) (.padGrid 3)],
    m.OnPair 0 1 := by
  refine ⟨by decide, ?_⟩
  intro m hm
  simp only [List.mem_cons, List.not_mem_nil, or_false] at hm
  rcases hm with rfl | rfl <;> exact ⟨rfl, rfl⟩

/-- The first data particle is not displaced along its line of sight by centring. -/
example : ((examplePair 0).pos 0).getD 0 0 * PyAlign.centre.origin
      (fun i => ((examplePair 1).bounds i).1) (fun i => ((examplePair 1).bounds i).2)
      (fun _ => 20) (fun _ => 8) 1 ≠
    ((examplePair 0).pos 1).getD 0 0 * PyAlign.centre.origin
      (fun i => ((examplePair 1).bounds i).1) (fun i => ((examplePair 1).bounds i).2)
      (fun _ => 20) (fun _ => 8) 0 := by
  norm_num [examplePair, threePart, PyAlign.origin]

/-- Both catalogues fit in a box of side 20; the random one is not centred in it; the data
catalogue has no density. -/
example : (examplePair 0).Fits (fun _ => 20) ∧ (examplePair 1).Fits (fun _ => 20) ∧
    (fun i => (((examplePair 1).bounds i).1 + ((examplePair 1).bounds i).2) / 2 - (20 : ℝ) / 2) ≠ 0 ∧
    (∀ z ∈ (examplePair 0).nz, z = 0) := by
  refine ⟨?_, ?_, ?_, ?_⟩
  · intro i; fin_cases i <;> norm_num [examplePair]
  · intro i; norm_num [examplePair, threePart]
  · intro h
    have := congrFun h 0
    norm_num [examplePair, threePart] at this
  · simp [examplePair]

end Trv.Cat

import Verif.Spec.BoxWarn
import Verif.Props.Catalogue
/-
C157: warnings about boxes which do not hold the catalogues.
-/
namespace Trv.Cat

section
variable {K : Type} [Field K] [LinearOrder K] [IsStrictOrderedRing K] [FloorRing K] {ι : Type} [DecidableEq ι]

theorem mem_overflow {c : PyCat K} {L : V3 K} {i : Fin 3} (h : c.TrueBounds) :
    i ∈ overflowAxes c L ↔ L i < (c.bounds i).2 - (c.bounds i).1 := by
  have hi : i ∈ ([0, 1, 2] : List (Fin 3)) := by
    match i with
    | 0 => simp
    | 1 => simp
    | 2 => simp
  unfold overflowAxes
  rw [List.mem_filter, abs_of_nonneg (sub_nonneg.2 (h i).le)]
  simp [hi]

theorem mem_overflowWarn {σ : Store ι K} {j k : ι} {L : V3 K} {axes : List (Fin 3)} :
    BoxWarn.mayLieOutside k axes ∈ overflowWarn σ j L ↔ k = j ∧ axes = overflowAxes (σ j) L ∧ axes ≠ [] := by
  unfold overflowWarn
  split
  · rename_i h
    rw [h]
    simp
  · rename_i a hne
    simp only [List.mem_singleton, BoxWarn.mayLieOutside.injEq]
    constructor
    · rintro ⟨rfl, rfl⟩
      exact ⟨rfl, rfl, hne⟩
    · rintro ⟨rfl, h, -⟩
      exact ⟨rfl, h⟩

/-- The catalogues which are warned of, on which axes. -/
theorem warned_align {σ : Store ι K} {me : ι} {L : V3 K} {ref : Option ι} {j : ι} {i : Fin 3} :
    Warned (alignWarn σ me L ref) j i ↔ (j = me ∨ ref = some j) ∧ i ∈ overflowAxes (σ j) L := by
  unfold Warned alignWarn
  constructor
  · rintro ⟨axes, h, hi⟩
    rcases List.mem_append.1 h with h | h
    · obtain ⟨rfl, rfl, -⟩ := mem_overflowWarn.1 h
      exact ⟨Or.inl rfl, hi⟩
    · cases ref with
      | none => cases h
      | some r =>
        obtain ⟨rfl, rfl, -⟩ := mem_overflowWarn.1 h
        exact ⟨Or.inr rfl, hi⟩
  · rintro ⟨h, hi⟩
    refine ⟨_, ?_, hi⟩
    have hne : overflowAxes (σ j) L ≠ [] := List.ne_nil_of_mem hi
    rcases h with rfl | rfl
    · exact List.mem_append_left _ (mem_overflowWarn.2 ⟨rfl, rfl, hne⟩)
    · exact List.mem_append_right _ (mem_overflowWarn.2 ⟨rfl, rfl, hne⟩)

/-- A catalogue wider than the box is outside it wherever it is moved. -/
theorem wide_outside {c c' : PyCat K} {o L : V3 K} {i : Fin 3} (h : PyCat.ShiftedBy o c c') (hb : c.TrueBounds)
    (hw : L i < (c.bounds i).2 - (c.bounds i).1) : Outside c' L i := by
  have e := (hb i).sub (o i)
  rw [← h.1 i] at e
  by_contra hn
  have key : ∀ x ∈ c'.pos i, 0 ≤ x ∧ x ≤ L i := by
    intro x hx
    by_contra hx'
    apply hn
    refine ⟨x, hx, ?_⟩
    by_contra h2
    push Not at h2
    exact hx' h2
  have k1 := (key _ e.1.1).1
  have k2 := (key _ e.2.1).2
  linarith

/-- **C157.** Centring warns of the reference catalogue (the catalogue itself if none is given) on exactly the axes on which
particles of it are left outside the box, and of the other catalogue only if particles of it are. -/
theorem C157_centre (σ : Store ι K) (me : ι) (L : V3 K) (ref : Option ι) (hd : ref ≠ some me) (hs : (σ me).Shape)
    (hm : (σ me).TrueBounds) (hr : (σ (ref.getD me)).Shape) (hb : (σ (ref.getD me)).TrueBounds) :
    ∃ σ', (centreW σ me L ref).2 = .ok σ' ∧
      (∀ i, Warned (centreW σ me L ref).1 (ref.getD me) i ↔ Outside (σ' (ref.getD me)) L i) ∧
      ∀ i, Warned (centreW σ me L ref).1 me i → Outside (σ' me) L i := by
  obtain ⟨σ', o, e, s1, s2, -, h4, -⟩ := C23_centring_partial σ me L ref hd hs hr hb
  refine ⟨σ', e, fun i => ?_, fun i => ?_⟩
  · rw [show (centreW σ me L ref).1 = alignWarn σ me L ref from rfl, warned_align, mem_overflow hb]
    constructor
    · rintro ⟨-, h⟩
      exact wide_outside s2 hb h
    · rintro ⟨x, hx, ho⟩
      refine ⟨by cases ref <;> simp, ?_⟩
      by_contra hle
      push Not at hle
      obtain ⟨a, b, hab, -, hin⟩ := h4 i
      have e := (hb i).sub (o i)
      rw [← s2.1 i] at e
      obtain ⟨u1, u2⟩ := hab.unique e
      have := hin (by rw [u1, u2]; linarith) x hx
      rcases ho with h | h
      · linarith [this.1]
      · linarith [this.2]
  · rw [show (centreW σ me L ref).1 = alignWarn σ me L ref from rfl, warned_align, mem_overflow hm]
    rintro ⟨-, h⟩
    exact wide_outside s1 hm h

/-- **C157.** If the reference encloses the catalogue and centring gives no warning, then no particle is outside the box. -/
theorem C157_silent_centre_partial (σ : Store ι K) (me : ι) (L : V3 K) (ref : Option ι) (hd : ref ≠ some me) (hs : (σ me).Shape)
    (hm : (σ me).TrueBounds) (hr : (σ (ref.getD me)).Shape) (hb : (σ (ref.getD me)).TrueBounds)
    (henc : ∀ i, ∀ x ∈ (σ me).pos i, ∃ y ∈ (σ (ref.getD me)).pos i, ∃ z ∈ (σ (ref.getD me)).pos i, y ≤ x ∧ x ≤ z)
    (hw : (centreW σ me L ref).1 = []) :
    ∃ σ', (centreW σ me L ref).2 = .ok σ' ∧ ∀ i, ¬ Outside (σ' me) L i ∧ ¬ Outside (σ' (ref.getD me)) L i := by
  obtain ⟨σ', e, h1, -⟩ := C157_centre σ me L ref hd hs hm hr hb
  obtain ⟨τ, o, e2, s1, s2, -⟩ := C23_centring_partial σ me L ref hd hs hr hb
  have : τ = σ' := Except.ok.inj (e2.symm.trans e)
  subst this
  have hno : ∀ i, ¬ Outside (τ (ref.getD me)) L i := by
    intro i h
    obtain ⟨a, ha, -⟩ := (h1 i).2 h
    rw [hw] at ha
    cases ha
  refine ⟨τ, e, fun i => ⟨?_, hno i⟩⟩
  rintro ⟨x, hx, ho⟩
  rw [s1.1 i, List.mem_map] at hx
  obtain ⟨x0, hx0, rfl⟩ := hx
  obtain ⟨y, hy, z, hz, h2, h3⟩ := henc i x0 hx0
  apply hno i
  rcases ho with h | h
  · exact ⟨y - o i, by rw [s2.1 i]; exact List.mem_map_of_mem hy, Or.inl (by linarith)⟩
  · exact ⟨z - o i, by rw [s2.1 i]; exact List.mem_map_of_mem hz, Or.inr (by linarith)⟩

theorem mem_afterWarn {σ : Store ι K} {me r : ι} {L : V3 K} {i : Fin 3} (hm : (σ me).TrueBounds) (hr : (σ r).TrueBounds) :
    BoxWarn.lieOutside i ∈ afterWarn σ me r L ↔ ∃ x, (x ∈ (σ me).pos i ∨ x ∈ (σ r).pos i) ∧ L i < x := by
  have hi : i ∈ ([0, 1, 2] : List (Fin 3)) := by
    match i with
    | 0 => simp
    | 1 => simp
    | 2 => simp
  unfold afterWarn
  rw [List.mem_map]
  constructor
  · rintro ⟨j, hj, he⟩
    cases he
    rw [List.mem_filter] at hj
    have := of_decide_eq_true hj.2
    rw [max_eq_right (hm i).le, max_eq_right (hr i).le] at this
    rcases this with h | h
    · exact ⟨_, Or.inl (hm i).2.1, h⟩
    · exact ⟨_, Or.inr (hr i).2.1, h⟩
  · rintro ⟨x, hx, hlt⟩
    refine ⟨i, ?_, rfl⟩
    rw [List.mem_filter]
    refine ⟨hi, decide_eq_true ?_⟩
    rw [max_eq_right (hm i).le, max_eq_right (hr i).le]
    rcases hx with h | h
    · exact Or.inl (lt_of_lt_of_le hlt ((hm i).mem h).2)
    · exact Or.inr (lt_of_lt_of_le hlt ((hr i).mem h).2)

/-- **C157.** Padding warns, after the shift, of exactly the axes on which particles of either catalogue are beyond the upper end of the
box; and if particles are outside the box on an axis of which it does not warn, they are below its lower end; this does not happen to the
reference catalogue unless the padding is negative. -/
theorem C157_pad (σ : Store ι K) (me : ι) (L : V3 K) (ref : Option ι) (ng : Option (Fin 3 → ℕ)) (p : PadArg K)
    (hp : ∀ v, p ≠ .nparr v) (hd : ref ≠ some me) (hs : (σ me).Shape)
    (hr : (σ (ref.getD me)).Shape) (hb : (σ (ref.getD me)).TrueBounds) :
    ∃ σ', (padW σ me L ng (some p) none ref).2 = .ok σ' ∧
      (∀ i, .lieOutside i ∈ (padW σ me L ng (some p) none ref).1 ↔
        ∃ x, (x ∈ (σ' me).pos i ∨ x ∈ (σ' (ref.getD me)).pos i) ∧ L i < x) ∧
      (∀ i, 0 ≤ p.vec i * L i → (.lieOutside i ∈ (padW σ me L ng (some p) none ref).1 ∨
        ∃ x ∈ (σ' me).pos i, x < 0) ∨ ¬ Outside (σ' me) L i ∧ ¬ Outside (σ' (ref.getD me)) L i) := by
  obtain ⟨σ', o, e, s1, s2, -, hl⟩ := C24_box_padding_partial σ me L ref ng p hp hd hs hr hb
  have hb1 : (σ' me).TrueBounds ∧ (σ' (ref.getD me)).TrueBounds := by
    unfold pad at e
    simp only [bind, Except.bind] at e
    cases h1 : subBoxPad (fun i => ((σ (ref.getD me)).bounds i).1) L (some p) with
    | error x => rw [h1] at e; cases e
    | ok o1 =>
      rw [h1] at e
      simp only [subGridPad] at e
      obtain ⟨τ, e2, -, -, b1, b2, -⟩ := offsetBoth_ok σ me ref o1 hd hs hr
      rw [e2] at e
      cases e
      exact ⟨b1, b2⟩
  have hW : padW σ me L ng (some p) none ref =
      (alignWarn σ me L ref ++ afterWarn σ' me (ref.getD me) L, .ok σ') := by
    unfold padW
    simp only [e]
  have hno : ∀ i, BoxWarn.lieOutside i ∉ alignWarn σ me L ref := by
    intro i h
    have ow : ∀ j, BoxWarn.lieOutside i ∉ overflowWarn σ j L := by
      intro j hj
      unfold overflowWarn at hj
      split at hj <;> simp at hj
    unfold alignWarn at h
    rcases List.mem_append.1 h with h | h
    · exact ow _ h
    · cases ref with
      | none => cases h
      | some r => exact ow _ h
  have key : ∀ i, .lieOutside i ∈ (padW σ me L ng (some p) none ref).1 ↔
        ∃ x, (x ∈ (σ' me).pos i ∨ x ∈ (σ' (ref.getD me)).pos i) ∧ L i < x := by
    intro i
    rw [hW, ← mem_afterWarn hb1.1 hb1.2]
    simp only [List.mem_append, hno i, false_or]
  refine ⟨σ', by rw [hW], key, fun i h0 => ?_⟩
  by_cases hw : .lieOutside i ∈ (padW σ me L ng (some p) none ref).1
  · exact Or.inl (Or.inl hw)
  by_cases hneg : ∃ x ∈ (σ' me).pos i, x < 0
  · exact Or.inl (Or.inr hneg)
  right
  rw [key i] at hw
  refine ⟨?_, ?_⟩
  · rintro ⟨x, hx, h | h⟩
    · exact hneg ⟨x, hx, h⟩
    · exact hw ⟨x, Or.inl hx, h⟩
  · rintro ⟨x, hx, h | h⟩
    · have := (hl i).2 hx
      linarith
    · exact hw ⟨x, Or.inr hx, h⟩

/-- **C157.** Placing a catalogue in a periodic box warns of exactly the axes on which its extent exceeds the box; on an axis
which it fills only in part, the particles are moved by one common amount, so that distances are kept. -/
theorem C157_periodise (c : PyCat K) (L : V3 K) (hs : c.Shape) (hb : c.TrueBounds) (hL : ∀ i, 0 < L i) :
    ∃ c', (periodiseW (ι := ι) c L).2 = .ok c' ∧
      (∀ i, (∃ axes, .boxSmaller axes ∈ (periodiseW (ι := ι) c L).1 ∧ i ∈ axes) ↔
        ∃ x ∈ c.pos i, ∃ y ∈ c.pos i, L i < y - x) ∧
      ∀ i, (∀ x ∈ c.pos i, ∀ y ∈ c.pos i, y - x < L i) → ∃ o, c'.pos i = (c.pos i).map fun x => x - o := by
  obtain ⟨b, e, hb'⟩ := calcBounds_ok _ (Shape.mapPos hs fun i x =>
    pyMod (x + L i / 2 - ((c.bounds i).2 + (c.bounds i).1) / 2) (L i))
  refine ⟨_, e, fun i => ?_, fun i hlt => ⟨((c.bounds i).2 + (c.bounds i).1) / 2 - L i / 2, ?_⟩⟩
  · have h1 : (∃ axes, .boxSmaller axes ∈ (periodiseW (ι := ι) c L).1 ∧ i ∈ axes) ↔ i ∈ overflowAxes c L := by
      unfold periodiseW
      simp only
      split
      · rename_i h; rw [h]; simp
      · simp
    rw [h1, mem_overflow hb]
    constructor
    · intro h
      exact ⟨_, (hb i).1.1, _, (hb i).2.1, h⟩
    · rintro ⟨x, hx, y, hy, h⟩
      have h1 := ((hb i).mem hx).1
      have h2 := ((hb i).mem hy).2
      linarith
  · simp only
    apply List.map_congr_left
    intro x hx
    have h1 := (hb i).mem hx
    have h2 := hlt _ (hb i).1.1 _ (hb i).2.1
    unfold pyMod
    have h3 : ⌊(x + L i / 2 - ((c.bounds i).2 + (c.bounds i).1) / 2) / L i⌋ = 0 := by
      rw [Int.floor_eq_zero_iff]
      refine ⟨div_nonneg (by linarith [h1.1]) (hL i).le, ?_⟩
      rw [div_lt_one (hL i)]
      linarith [h1.2]
    rw [h3]
    simp only [Int.cast_zero, mul_zero]
    ring

end

/-- The catalogues of the examples: data beside the randoms. -/
def besides (a b : ℚ) : Store (Fin 2) ℚ := ![twoPart a b, twoPart 0 10]

/-- **C157 (violated).** Both catalogues fit in the box, so that centring does not warn; the data, which the reference does not
enclose, are left outside. -/
theorem C157_centre_violated : ∃ σ' : Store (Fin 2) ℚ, centreW (besides 20 22) 0 (fun _ => 10) (some 1) = ([], .ok σ') ∧
    Outside (σ' 0) (fun _ => 10) 0 := by
  obtain ⟨σ', e, h1, -⟩ := offsetBoth_ok (besides 20 22) 0 (some 1) (fun _ => 0) (by decide)
    (twoPart_shape _ _) (twoPart_shape _ _)
  have hw : alignWarn (besides 20 22) 0 (fun _ => (10 : ℚ)) (some 1) = [] := by decide +kernel
  refine ⟨σ', ?_, 20, ?_, Or.inr (by norm_num)⟩
  · unfold centreW
    rw [hw]
    refine Prod.ext rfl ?_
    show centre _ _ _ _ = _
    rw [← e]
    unfold centre
    simp only
    congr 1
    funext i
    simp [besides, twoPart]
  · rw [h1.1 0]
    simp [besides, twoPart]

/-- **C157 (violated).** Padding does not warn of data which lie below the box. -/
theorem C157_pad_violated : ∃ σ' : Store (Fin 2) ℚ,
    padW (besides (-5) (-4)) 0 (fun _ => 20) none (some (.num (1 / 10))) none (some 1) = ([], .ok σ') ∧
    ∀ x ∈ (σ' 0).pos 0, x < 0 := by
  obtain ⟨σ', e, h1, h2, h3, h4, -⟩ := offsetBoth_ok (besides (-5) (-4)) 0 (some 1) (fun _ => -2) (by decide)
    (twoPart_shape _ _) (twoPart_shape _ _)
  have hw : alignWarn (besides (-5) (-4)) 0 (fun _ => (20 : ℚ)) (some 1) = [] := by decide +kernel
  have hp : pad (besides (-5) (-4)) 0 (fun _ => 20) none (some (.num (1 / 10))) none (some 1) = .ok σ' := by
    rw [← e]
    unfold pad
    simp only [bind, Except.bind, subBoxPad, subGridPad, PadArg.truthy]
    congr 1
    funext i
    simp [besides, twoPart, PadArg.vec]
    try norm_num
  have ha : afterWarn σ' 0 1 (fun _ => (20 : ℚ)) = [] := by
    rw [List.eq_nil_iff_forall_not_mem]
    intro w hwm
    have hl : ∃ i, w = .lieOutside i := by
      unfold afterWarn at hwm
      obtain ⟨i, -, rfl⟩ := List.mem_map.1 hwm
      exact ⟨i, rfl⟩
    obtain ⟨i, rfl⟩ := hl
    obtain ⟨x, hx, hlt⟩ := (mem_afterWarn h3 h4).1 hwm
    have q1 := h1.1 i
    have q2 := h2.1 i
    simp only [Option.getD_some] at q2
    replace hx : x ∈ (σ' 0).pos i ∨ x ∈ (σ' 1).pos i := hx
    rw [q1, q2] at hx
    simp [besides, twoPart] at hx
    rcases hx with (rfl | rfl) | (rfl | rfl) <;> norm_num at hlt
  refine ⟨σ', ?_, ?_⟩
  · unfold padW
    simp only [hp, hw, Option.getD_some, ha, List.nil_append]
  · intro x hx
    rw [h1.1 0] at hx
    simp [besides, twoPart] at hx
    rcases hx with rfl | rfl <;> norm_num

/-- **C157 (violated).** Particles at the two ends of a periodic box of exactly their extent are put on the same point, and no warning is
given. -/
theorem C157_periodise_violated : ∃ c' : PyCat ℚ, periodiseW (ι := Fin 2) (twoPart 0 10) (fun _ => 10) = ([], .ok c') ∧
    c'.pos 0 = [0, 0] := by
  obtain ⟨c', e, -⟩ := C157_periodise (ι := Fin 2) (twoPart 0 10) (fun _ => 10) (twoPart_shape _ _) (twoPart_bounds (by norm_num))
    (fun _ => by norm_num)
  have hw : (periodiseW (ι := Fin 2) (twoPart 0 10) (fun _ => 10)).1 = [] := by decide +kernel
  refine ⟨c', Prod.ext hw e, ?_⟩
  obtain ⟨b, e2, -⟩ := calcBounds_ok _ (Shape.mapPos (twoPart_shape 0 10) fun i x =>
    pyMod (x + 10 / 2 - (((twoPart 0 10).bounds i).2 + ((twoPart 0 10).bounds i).1) / 2) 10)
  have e3 : (periodiseW (ι := Fin 2) (twoPart 0 10) (fun _ => 10)).2 = _ := e2
  rw [e3] at e
  cases e
  show ((twoPart 0 10).pos 0).map (fun x =>
    pyMod (x + 10 / 2 - (((twoPart 0 10).bounds 0).2 + ((twoPart 0 10).bounds 0).1) / 2) 10) = [0, 0]
  decide +kernel

/-- Centring: randoms wider than the box, of which it warns. -/
example : ∃ σ', (centreW (besides 2 8) 0 (fun _ => 6) (some 1)).2 = .ok σ' ∧ Outside (σ' 1) (fun _ => 6) 0 ∧
    (centreW (besides 2 8) 0 (fun _ => (6 : ℚ)) (some 1)).1 = [.mayLieOutside 1 [0, 1, 2]] := by
  obtain ⟨σ', e, h, -⟩ := C157_centre (besides 2 8) 0 (fun _ => 6) (some 1) (by decide) (twoPart_shape _ _)
    (twoPart_bounds (by norm_num)) (twoPart_shape _ _) (twoPart_bounds (by norm_num))
  have hw0 : alignWarn (besides 2 8) 0 (fun _ => (6 : ℚ)) (some 1) = [.mayLieOutside 1 [0, 1, 2]] := by decide +kernel
  have hw : (centreW (besides 2 8) 0 (fun _ => (6 : ℚ)) (some 1)).1 = [.mayLieOutside 1 [0, 1, 2]] := hw0
  refine ⟨σ', e, (h 0).1 ?_, hw⟩
  rw [hw]
  exact ⟨[0, 1, 2], by simp, by simp⟩

/-- Centring: nothing to warn of. -/
example : ∃ σ', (centreW (besides 2 8) 0 (fun _ => 12) (some 1)).2 = .ok σ' ∧ ¬ Outside (σ' 0) (fun _ => 12) 2 := by
  have hw : alignWarn (besides 2 8) 0 (fun _ => (12 : ℚ)) (some 1) = [] := by decide +kernel
  obtain ⟨σ', e, h⟩ := C157_silent_centre_partial (besides 2 8) 0 (fun _ => 12) (some 1) (by decide) (twoPart_shape _ _)
    (twoPart_bounds (by norm_num)) (twoPart_shape _ _) (twoPart_bounds (by norm_num))
    (by
      intro i x hx
      refine ⟨0, by simp [besides, twoPart], 10, by simp [besides, twoPart], ?_⟩
      simp [besides, twoPart] at hx
      rcases hx with rfl | rfl <;> norm_num) hw
  exact ⟨σ', e, (h 2).1⟩

/-- Padding: the randoms fit in the box, but not with the padding. -/
example : ∃ σ', (padW (besides 2 8) 0 (fun _ => 10) none (some (.num (1 / 10))) none (some 1)).2 = .ok σ' ∧
    (.lieOutside 0 ∈ (padW (besides 2 8) 0 (fun _ => (10 : ℚ)) none (some (.num (1 / 10))) none (some 1)).1 ↔
      ∃ x, (x ∈ (σ' 0).pos 0 ∨ x ∈ (σ' 1).pos 0) ∧ 10 < x) := by
  obtain ⟨σ', e, h, -⟩ := C157_pad (besides 2 8) 0 (fun _ => 10) (some 1) none (.num (1 / 10)) (by intro v h; cases h)
    (by decide) (twoPart_shape _ _) (twoPart_shape _ _) (twoPart_bounds (by norm_num))
  exact ⟨σ', e, h 0⟩

/-- A catalogue in a larger periodic box is moved without change. -/
example : ∃ c', (periodiseW (ι := Fin 2) (twoPart 3 8) (fun _ => 10)).2 = .ok c' ∧
    ∃ o, c'.pos 1 = [3 - o, 8 - o] := by
  obtain ⟨c', e, -, h⟩ := C157_periodise (ι := Fin 2) (twoPart 3 8) (fun _ => 10) (twoPart_shape _ _)
    (twoPart_bounds (by norm_num)) (fun _ => by norm_num)
  obtain ⟨o, ho⟩ := h 1 (by
    intro x hx y hy
    simp [twoPart] at hx hy
    rcases hx with rfl | rfl <;> rcases hy with rfl | rfl <;> norm_num)
  exact ⟨c', e, o, ho⟩

end Trv.Cat

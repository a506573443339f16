import Mathlib.Algebra.BigOperators.Fin
import Verif.Lemmas.Catalogue
/-
C23-C28: Python catalogues.
-/
set_option linter.unusedSectionVars false
namespace Trv.Cat

section
variable {K : Type} [Field K] [LinearOrder K] [IsStrictOrderedRing K] [FloorRing K]
variable {ι : Type} [DecidableEq ι]

/-! ### C23 -/

/-- Offsetting this catalogue and a distinct reference (or none). -/
theorem offsetBoth_ok (σ : Store ι K) (me : ι) (ref : Option ι) (o : V3 K) (hd : ref ≠ some me)
    (hs : (σ me).Shape) (hr : (σ (ref.getD me)).Shape) :
    ∃ σ', offsetBoth σ me ref o = .ok σ' ∧ PyCat.ShiftedBy o (σ me) (σ' me) ∧
      PyCat.ShiftedBy o (σ (ref.getD me)) (σ' (ref.getD me)) ∧
      (σ' me).TrueBounds ∧ (σ' (ref.getD me)).TrueBounds ∧
      (∀ j, j ≠ me → j ≠ ref.getD me → σ' j = σ j) := by
  obtain ⟨b, e1, h1⟩ := offset_ok (σ me) o hs
  cases ref with
  | none =>
    refine ⟨Function.update σ me { σ me with
      pos := fun i => ((σ me).pos i).map fun x => x - o i, bounds := b }, ?_, ?_⟩
    · unfold offsetBoth; rw [e1]; rfl
    · simp only [Option.getD_none, Function.update_self]
      refine ⟨⟨fun _ => rfl, rfl, rfl, rfl⟩, ⟨fun _ => rfl, rfl, rfl, rfl⟩, h1, h1, ?_⟩
      intro j h _
      exact Function.update_of_ne h _ _
  | some r =>
    have hrm : r ≠ me := fun h => hd (by rw [h])
    obtain ⟨b', e2, h2⟩ := offset_ok (σ r) o hr
    refine ⟨Function.update (Function.update σ me { σ me with
      pos := fun i => ((σ me).pos i).map fun x => x - o i, bounds := b }) r { σ r with
      pos := fun i => ((σ r).pos i).map fun x => x - o i, bounds := b' }, ?_, ?_⟩
    · unfold offsetBoth
      rw [e1]
      simp only [bind, Except.bind]
      rw [Function.update_of_ne hrm, e2]
    · simp only [Option.getD_some, Function.update_self, Function.update_of_ne hrm.symm]
      refine ⟨⟨fun _ => rfl, rfl, rfl, rfl⟩, ⟨fun _ => rfl, rfl, rfl, rfl⟩, h1, h2, ?_⟩
      intro j h h'
      rw [Function.update_of_ne h', Function.update_of_ne h]

theorem offset_zero (c : PyCat K) (h : c.TrueBounds) : c.offset (fun _ => 0) = .ok c := by
  rw [offset_eq c _ h]
  simp only [sub_zero, List.map_id']

theorem offsetBoth_zero (σ : Store ι K) (me : ι) (ref : Option ι) (h : (σ me).TrueBounds)
    (hr : (σ (ref.getD me)).TrueBounds) : offsetBoth σ me ref (fun _ => 0) = .ok σ := by
  unfold offsetBoth
  rw [offset_zero _ h]
  simp only [bind, Except.bind, Function.update_eq_self]
  cases ref with
  | none => rfl
  | some r =>
    simp only [Option.getD_some] at hr
    simp only [offset_zero _ hr, Function.update_eq_self]

/-- **C23 (partial: the reference, if given, is another object).** Centring
succeeds; both catalogues are shifted by one common vector and nothing else
changes; the mid-point of the reference's extents is at the box centre; every
reference particle is in the box when the extent fits; and centring again changes
nothing. -/
theorem C23_centring_partial (σ : Store ι K) (me : ι) (L : V3 K) (ref : Option ι)
    (hd : ref ≠ some me) (hs : (σ me).Shape) (hr : (σ (ref.getD me)).Shape)
    (hb : (σ (ref.getD me)).TrueBounds) :
    ∃ σ' o, centre σ me L ref = .ok σ' ∧ PyCat.ShiftedBy o (σ me) (σ' me) ∧
      PyCat.ShiftedBy o (σ (ref.getD me)) (σ' (ref.getD me)) ∧
      (∀ j, j ≠ me → j ≠ ref.getD me → σ' j = σ j) ∧
      (∀ i, ∃ a b, IsExtent ((σ' (ref.getD me)).pos i) a b ∧ (a + b) / 2 = L i / 2 ∧
        (b - a ≤ L i → ∀ x ∈ (σ' (ref.getD me)).pos i, 0 ≤ x ∧ x ≤ L i)) ∧
      centre σ' me L ref = .ok σ' := by
  obtain ⟨o, ho⟩ : ∃ o : V3 K, o = fun i =>
    (((σ (ref.getD me)).bounds i).1 + ((σ (ref.getD me)).bounds i).2) / 2 - L i / 2 := ⟨_, rfl⟩
  obtain ⟨σ', e, h1, h2, h3, h4, h5⟩ := offsetBoth_ok σ me ref o hd hs hr
  have hb' : ∀ i, IsExtent ((σ' (ref.getD me)).pos i)
      (((σ (ref.getD me)).bounds i).1 - o i) (((σ (ref.getD me)).bounds i).2 - o i) := by
    intro i
    rw [h2.1 i]
    exact (hb i).sub (o i)
  have hmid : ∀ i, ((((σ (ref.getD me)).bounds i).1 - o i) +
      (((σ (ref.getD me)).bounds i).2 - o i)) / 2 = L i / 2 := by
    intro i; rw [ho]; ring
  refine ⟨σ', o, ?_, h1, h2, h5, ?_, ?_⟩
  · unfold centre; simp only; rw [← ho]; exact e
  · intro i
    refine ⟨_, _, hb' i, hmid i, ?_⟩
    intro hfit x hx
    have hx' := (hb' i).mem hx
    have hm := hmid i
    obtain ⟨A, hA⟩ : ∃ A, A = ((σ (ref.getD me)).bounds i).1 - o i := ⟨_, rfl⟩
    obtain ⟨B, hB⟩ : ∃ B, B = ((σ (ref.getD me)).bounds i).2 - o i := ⟨_, rfl⟩
    rw [← hA, ← hB] at hx' hm hfit
    have hsum : A + B = L i := by linarith
    constructor <;> linarith
  · have hz : (fun i => (((σ' (ref.getD me)).bounds i).1 + ((σ' (ref.getD me)).bounds i).2) / 2
        - L i / 2) = fun _ => (0 : K) := by
      funext i
      obtain ⟨q1, q2⟩ := (h4 i).unique (hb' i)
      rw [q1, q2, hmid i, sub_self]
    unfold centre
    simp only
    rw [hz]
    exact offsetBoth_zero σ' me ref h3 h4

/-- A catalogue of two particles. -/
def twoPart (a b : ℚ) : PyCat ℚ :=
  { pos := fun _ => [a, b], nz := [0, 0], ws := [1, 1], wc := [1, 1], bounds := fun _ => (a, b),
    ntotal := 2, wtotal := 2, wstotal := 2 }

theorem twoPart_shape (a b : ℚ) : (twoPart a b).Shape :=
  ⟨by simp [twoPart], fun _ => rfl, rfl, rfl, rfl⟩

theorem twoPart_bounds {a b : ℚ} (h : a ≤ b) : (twoPart a b).TrueBounds := by
  intro i
  refine ⟨⟨by simp [twoPart], ?_⟩, by simp [twoPart], ?_⟩
  · intro x hx
    simp only [twoPart, Set.mem_setOf_eq, List.mem_cons, List.not_mem_nil, or_false] at hx
    rcases hx with rfl | rfl
    · exact le_refl _
    · exact h
  · intro x hx
    simp only [twoPart, Set.mem_setOf_eq, List.mem_cons, List.not_mem_nil, or_false] at hx
    rcases hx with rfl | rfl
    · exact h
    · exact le_refl _

example : (some (1 : Fin 2) : Option (Fin 2)) ≠ some 0 ∧
    ((![twoPart 1 4, twoPart 0 10] : Fin 2 → PyCat ℚ) ((some 1).getD 0)).TrueBounds := by
  refine ⟨by decide, ?_⟩
  exact twoPart_bounds (by norm_num)

/-- **C23 is violated when the catalogue itself is passed as the reference**: both
offsets are applied to the one object, so its mid-point ends up at `L - mid`
instead of the box centre, unless it was centred before. -/
theorem C23_own_reference_violated (σ : Store ι K) (me : ι) (L : V3 K)
    (hb : (σ me).TrueBounds) (i : Fin 3)
    (hm : ((σ me).bounds i).1 + ((σ me).bounds i).2 ≠ L i) :
    ∃ σ', centre σ me L (some me) = .ok σ' ∧
      ∀ a b, IsExtent ((σ' me).pos i) a b → (a + b) / 2 ≠ L i / 2 := by
  obtain ⟨o, ho⟩ : ∃ o : V3 K, o = fun i =>
    (((σ me).bounds i).1 + ((σ me).bounds i).2) / 2 - L i / 2 := ⟨_, rfl⟩
  have e : centre σ me L (some me) = offsetBoth σ me (some me) o := by rw [ho]; rfl
  rw [e]
  unfold offsetBoth
  rw [offset_eq _ _ hb]
  simp only [bind, Except.bind, Function.update_self]
  rw [offset_eq]
  · refine ⟨_, rfl, ?_⟩
    intro a b hab
    rw [Function.update_self] at hab
    have h2 := ((hb i).sub (o i)).sub (o i)
    obtain ⟨q1, q2⟩ := hab.unique h2
    rw [q1, q2, ho]
    intro hc
    apply hm
    linarith
  · intro j
    exact (hb j).sub (o j)

/-- **C23 is violated with out-of-date bounds**: after a coordinate column has been
replaced, centring uses the old bounds and the mid-point misses the box centre by
the whole change. -/
theorem C23_after_assignment_violated (σ : Store ι K) (me : ι) (L : V3 K) (i : Fin 3) (s : K)
    (hs : (σ me).Shape) (hb : (σ me).TrueBounds) :
    ∃ c σ', (σ me).setItem (.axis i) (.arr (((σ me).pos i).map fun x => x - (-s))) = .ok c ∧
      centre (Function.update σ me c) me L none = .ok σ' ∧
      ∀ a b, IsExtent ((σ' me).pos i) a b → (a + b) / 2 = L i / 2 + s := by
  have hset : (σ me).setItem (.axis i) (.arr (((σ me).pos i).map fun x => x - (-s))) =
      .ok { σ me with pos := Function.update (σ me).pos i (((σ me).pos i).map fun x => x - (-s)) } := by
    unfold PyCat.setItem Col.toList
    simp only [List.length_map, hs.2.1 i, if_true]
    rfl
  obtain ⟨c, hc⟩ : ∃ c : PyCat K, c =
    { σ me with pos := Function.update (σ me).pos i (((σ me).pos i).map fun x => x - (-s)) } := ⟨_, rfl⟩
  rw [← hc] at hset
  have hcs : c.Shape := by
    obtain ⟨g1, g2, g3⟩ := hs
    have hlen : ∀ j, (c.pos j).length = ((σ me).pos 0).length := by
      intro j
      rw [hc]
      by_cases hj : j = i
      · subst hj; simp [g2 j]
      · simp [Function.update_of_ne hj, g2 j]
    refine ⟨by rw [hlen]; exact g1, fun j => by rw [hlen, hlen], ?_⟩
    rw [hlen 0, hc]; exact g3
  obtain ⟨b', e, he⟩ := offset_ok c (fun j => ((c.bounds j).1 + (c.bounds j).2) / 2 - L j / 2) hcs
  refine ⟨c, Function.update (Function.update σ me c) me { c with
    pos := fun j => (c.pos j).map fun x => x - (((c.bounds j).1 + (c.bounds j).2) / 2 - L j / 2),
    bounds := b' }, hset, ?_, ?_⟩
  · unfold centre offsetBoth
    simp only [Option.getD_none, Function.update_self]
    rw [e]; rfl
  · intro a b hab
    rw [Function.update_self] at hab
    have hcb : c.bounds = (σ me).bounds := by rw [hc]
    have hcp : c.pos i = ((σ me).pos i).map fun x => x - (-s) := by rw [hc]; simp
    have h2 := ((hb i).sub (-s)).sub (((c.bounds i).1 + (c.bounds i).2) / 2 - L i / 2)
    simp only at hab
    rw [hcp] at hab
    obtain ⟨q1, q2⟩ := hab.unique h2
    rw [q1, q2, hcb]
    ring

/-! ### C24 -/

/-- **C24 (partial: Python numbers and sequences; distinct reference).** Padding by a
fraction of the box places the minimum coordinates of the reference exactly at the
padding, shifting both catalogues by one vector. -/
theorem C24_box_padding_partial (σ : Store ι K) (me : ι) (L : V3 K) (ref : Option ι)
    (ng : Option (Fin 3 → ℕ)) (p : PadArg K) (hp : ∀ v, p ≠ .nparr v)
    (hd : ref ≠ some me) (hs : (σ me).Shape) (hr : (σ (ref.getD me)).Shape)
    (hb : (σ (ref.getD me)).TrueBounds) :
    ∃ σ' o, pad σ me L ng (some p) none ref = .ok σ' ∧ PyCat.ShiftedBy o (σ me) (σ' me) ∧
      PyCat.ShiftedBy o (σ (ref.getD me)) (σ' (ref.getD me)) ∧
      (∀ j, j ≠ me → j ≠ ref.getD me → σ' j = σ j) ∧
      (∀ i, IsLeast {x | x ∈ (σ' (ref.getD me)).pos i} (p.vec i * L i)) := by
  obtain ⟨o, ho⟩ : ∃ o : V3 K, o = fun i => ((σ (ref.getD me)).bounds i).1 - p.vec i * L i :=
    ⟨_, rfl⟩
  have hsub : subBoxPad (fun i => ((σ (ref.getD me)).bounds i).1) L (some p) = .ok o := by
    unfold subBoxPad
    match p, hp with
    | .num c, _ =>
      simp only [PadArg.truthy, bind, Except.bind]
      by_cases hc : c = 0
      · rw [ho]; simp [hc, PadArg.vec]
      · rw [ho]; simp [hc]
    | .seq v, _ => rw [ho]; rfl
    | .nparr v, h => exact absurd rfl (h v)
  obtain ⟨σ', e, h1, h2, h3, h4, h5⟩ := offsetBoth_ok σ me ref o hd hs hr
  refine ⟨σ', o, ?_, h1, h2, h5, ?_⟩
  · unfold pad
    simp only [hsub, bind, Except.bind, subGridPad]
    exact e
  · intro i
    have := ((hb i).sub (o i)).1
    rw [h2.1 i]
    have e : ((σ (ref.getD me)).bounds i).1 - o i = p.vec i * L i := by rw [ho]; ring
    rw [e] at this
    exact this

/-- **C24 (partial).** Padding by grid cells: the minimum coordinates of the
reference are the given number of cells from the origin. -/
theorem C24_grid_padding_partial (σ : Store ι K) (me : ι) (L : V3 K) (ref : Option ι)
    (n : Fin 3 → ℕ) (p : PadArg K) (hp : ∀ v, p ≠ .nparr v)
    (hd : ref ≠ some me) (hs : (σ me).Shape) (hr : (σ (ref.getD me)).Shape)
    (hb : (σ (ref.getD me)).TrueBounds) :
    ∃ σ' o, pad σ me L (some n) none (some p) ref = .ok σ' ∧ PyCat.ShiftedBy o (σ me) (σ' me) ∧
      PyCat.ShiftedBy o (σ (ref.getD me)) (σ' (ref.getD me)) ∧
      (∀ j, j ≠ me → j ≠ ref.getD me → σ' j = σ j) ∧
      (∀ i, 0 < n i → IsLeast {x | x ∈ (σ' (ref.getD me)).pos i} (p.vec i * (L i / (n i : K)))) := by
  obtain ⟨o, ho⟩ : ∃ o : V3 K, o = fun i =>
    ((σ (ref.getD me)).bounds i).1 - p.vec i * (L i / (n i : K)) := ⟨_, rfl⟩
  have hsub : subGridPad (fun i => ((σ (ref.getD me)).bounds i).1) L (some n) (some p) = .ok o := by
    unfold subGridPad
    match p, hp with
    | .num c, _ =>
      simp only [PadArg.truthy, bind, Except.bind]
      by_cases hc : c = 0
      · rw [ho]; simp [hc, PadArg.vec]
      · rw [ho]; simp [hc]
    | .seq v, _ => rw [ho]; rfl
    | .nparr v, h => exact absurd rfl (h v)
  obtain ⟨σ', e, h1, h2, h3, h4, h5⟩ := offsetBoth_ok σ me ref o hd hs hr
  refine ⟨σ', o, ?_, h1, h2, h5, ?_⟩
  · unfold pad
    simp only [hsub, bind, Except.bind, subBoxPad]
    exact e
  · intro i _
    have := ((hb i).sub (o i)).1
    rw [h2.1 i]
    have e : ((σ (ref.getD me)).bounds i).1 - o i = p.vec i * (L i / (n i : K)) := by rw [ho]; ring
    rw [e] at this
    exact this

/-- **C24 (partial).** Padding by box fraction and by grid cells agree when they
describe the same distance. -/
theorem C24_paddings_agree_partial (σ : Store ι K) (me : ι) (L : V3 K) (ref : Option ι)
    (n : Fin 3 → ℕ) (p q : V3 K) (h : ∀ i, p i * L i = q i * (L i / (n i : K))) :
    pad σ me L none (some (.seq p)) none ref = pad σ me L (some n) none (some (.seq q)) ref := by
  unfold pad
  simp only [subBoxPad, subGridPad, PadArg.truthy, bind, Except.bind, PadArg.vec, h, if_true]

example : ∀ i : Fin 3, (fun _ => (1 / 10 : ℚ)) i * (fun _ => (100 : ℚ)) i =
    (fun _ => (5 : ℚ)) i * ((fun _ => (100 : ℚ)) i / ((fun _ => 50) i : ℕ)) := by
  intro i; norm_num

/-- **C24 is violated for NumPy arrays of padding factors**: they are always
rejected, although a sequence with the same entries is accepted. -/
theorem C24_array_padding_violated (σ : Store ι K) (me : ι) (L : V3 K) (ref : Option ι)
    (ng : Option (Fin 3 → ℕ)) (v : V3 K) :
    pad σ me L ng (some (.nparr v)) none ref = .error .valueError ∧
    pad σ me L ng none (some (.nparr v)) ref = .error .valueError := ⟨rfl, rfl⟩

/-! ### C25 (Python) -/

theorem pyMod_spec {x L : K} (hL : 0 < L) :
    0 ≤ pyMod x L ∧ pyMod x L < L ∧ ∃ k : ℤ, pyMod x L = x - k * L := by
  unfold pyMod
  have h1 : (⌊x / L⌋ : K) ≤ x / L := Int.floor_le _
  have h2 : x / L < (⌊x / L⌋ : K) + 1 := Int.lt_floor_add_one _
  rw [le_div_iff₀ hL] at h1
  rw [div_lt_iff₀ hL] at h2
  refine ⟨by linarith, by linarith, ⌊x / L⌋, by ring⟩

/-- **C25 (Python, partial: after a common centring shift).** Every coordinate ends
in `[0, L)`, moved by the centring shift common to the axis and a whole number of
box lengths; bounds are true; other columns are unchanged. -/
theorem C25_python_wrapping_partial (c : PyCat K) (L : V3 K) (hs : c.Shape) (hL : ∀ i, 0 < L i) :
    ∃ c', c.periodise L = .ok c' ∧ c'.TrueBounds ∧
      (c'.nz = c.nz ∧ c'.ws = c.ws ∧ c'.wc = c.wc) ∧
      ∀ i, (c'.pos i).length = (c.pos i).length ∧ ∀ k (h : k < (c.pos i).length)
        (h' : k < (c'.pos i).length),
        0 ≤ (c'.pos i)[k] ∧ (c'.pos i)[k] < L i ∧
        ∃ m : ℤ, (c'.pos i)[k] =
          (c.pos i)[k] + (L i / 2 - ((c.bounds i).2 + (c.bounds i).1) / 2) - m * L i := by
  obtain ⟨b, e, hb⟩ := calcBounds_ok _ (Shape.mapPos hs fun i x =>
    pyMod (x + L i / 2 - ((c.bounds i).2 + (c.bounds i).1) / 2) (L i))
  refine ⟨_, e, hb, ⟨rfl, rfl, rfl⟩, ?_⟩
  intro i
  refine ⟨by simp, ?_⟩
  intro k h h'
  simp only [List.getElem_map]
  obtain ⟨h1, h2, m, h3⟩ := pyMod_spec (x := (c.pos i)[k] + L i / 2 -
    ((c.bounds i).2 + (c.bounds i).1) / 2) (hL i)
  refine ⟨h1, h2, m, ?_⟩
  rw [h3]; ring

/-- **C25 is violated by the Python version as regards whole box lengths**: a
particle in the box is moved by the centring shift. -/
theorem C25_python_not_whole_lengths_violated :
    ∃ c', (twoPart 0 1).periodise (fun _ => 10) = .ok c' ∧ c'.pos 0 = [9 / 2, 11 / 2] ∧
      ¬ ∃ m : ℤ, (9 / 2 : ℚ) = 0 - m * 10 := by
  refine ⟨_, rfl, by decide +kernel, ?_⟩
  rintro ⟨m, hm⟩
  have h : (9 : ℚ) = ((-20 * m : ℤ) : ℚ) := by push_cast; linarith
  have h' : (9 : ℤ) = -20 * m := by exact_mod_cast h
  omega

/-! ### C26 -/

/-- A catalogue in a consistent state. -/
def PyCat.Good (c : PyCat K) : Prop := c.Shape ∧ c.TrueBounds ∧ c.TrueTotals

/-- The only columns the operations replace are the number densities. -/
def Op.KeepsColumns : Op ι K → Prop
  | .setItem _ k _ => k = .nz ∨ k = .notString
  | _ => True

theorem PyCat.Good.offset {c : PyCat K} (h : c.Good) (o : V3 K) :
    ∃ c', c.offset o = .ok c' ∧ c'.Good := by
  obtain ⟨hs, hb, ht⟩ := h
  obtain ⟨b, e, he⟩ := offset_ok c o hs
  refine ⟨_, e, Shape.mapPos hs fun i x => x - o i, he, ?_, ht.2.1, ht.2.2⟩
  simpa using ht.1

theorem update_good {σ : Store ι K} (h : ∀ j, (σ j).Good) (i : ι) {c : PyCat K} (hc : c.Good) :
    ∀ j, (Function.update σ i c j).Good := by
  intro j
  by_cases hj : j = i
  · subst hj; rw [Function.update_self]; exact hc
  · rw [Function.update_of_ne hj]; exact h j

theorem offsetBoth_good {σ : Store ι K} (h : ∀ j, (σ j).Good) (me : ι) (ref : Option ι) (o : V3 K) :
    ∃ σ', offsetBoth σ me ref o = .ok σ' ∧ ∀ j, (σ' j).Good := by
  obtain ⟨c, e, hc⟩ := (h me).offset o
  unfold offsetBoth
  rw [e]
  cases ref with
  | none => exact ⟨_, rfl, update_good h me hc⟩
  | some r =>
    obtain ⟨d, e', hd⟩ := (update_good h me hc r).offset o
    refine ⟨_, ?_, update_good (update_good h me hc) r hd⟩
    simp only [bind, Except.bind]
    rw [e']

theorem nz_good {c : PyCat K} (h : c.Good) {l : List K} (hl : l.length = (c.pos 0).length) :
    PyCat.Good { c with nz := l } :=
  ⟨⟨h.1.1, h.1.2.1, hl, h.1.2.2.2⟩, h.2.1, h.2.2⟩

theorem Col.toList_length {v : Col K} {n : ℕ} {l : List K} (h : v.toList n = .ok l) :
    l.length = n := by
  cases v with
  | scalar c =>
    simp only [Col.toList, Except.ok.injEq] at h
    rw [← h]; simp
  | arr m =>
    simp only [Col.toList] at h
    split_ifs at h with hm
    simp only [Except.ok.injEq] at h
    rw [← h]; exact hm

theorem step_good {σ : Store ι K} (h : ∀ j, (σ j).Good) (op : Op ι K) (hk : op.KeepsColumns) :
    ∀ j, (op.step σ j).Good := by
  cases op with
  | offset me o =>
    obtain ⟨c, e, hc⟩ := (h me).offset o
    simp only [Op.step, Op.exec, e, bind, Except.bind]
    exact update_good h me hc
  | centre me L ref =>
    obtain ⟨σ', e, hg⟩ := offsetBoth_good h me ref
      (fun i => (((σ (ref.getD me)).bounds i).1 + ((σ (ref.getD me)).bounds i).2) / 2 - L i / 2)
    simp only [Op.step, Op.exec, Cat.centre, e]
    exact hg
  | pad me L n b g ref =>
    simp only [Op.step, Op.exec]
    have key : ∀ σ', Cat.pad σ me L n b g ref = .ok σ' → ∀ j, (σ' j).Good := by
      intro σ' e
      unfold Cat.pad at e
      split at e
      · simp only [Except.ok.injEq] at e; rw [← e]; exact h
      · simp at e
      · simp only [bind, Except.bind] at e
        split at e
        · simp at e
        · split at e
          · simp at e
          · rename_i o' _ _ o _
            obtain ⟨σ'', e', hg⟩ := offsetBoth_good h me ref o
            rw [e'] at e
            simp only [Except.ok.injEq] at e
            rw [← e]; exact hg
    cases e : Cat.pad σ me L n b g ref with
    | ok σ' => exact key σ' e
    | error _ => exact h
  | periodise me L =>
    obtain ⟨hs, hb, ht⟩ := h me
    obtain ⟨b, e, hb'⟩ := calcBounds_ok _ (Shape.mapPos hs fun i x =>
      pyMod (x + L i / 2 - (((σ me).bounds i).2 + ((σ me).bounds i).1) / 2) (L i))
    simp only [Op.step, Op.exec, PyCat.periodise, e, bind, Except.bind]
    apply update_good h me
    have hsh := Shape.mapPos hs fun i x =>
      pyMod (x + L i / 2 - (((σ me).bounds i).2 + ((σ me).bounds i).1) / 2) (L i)
    refine ⟨hsh, hb', ?_, ht.2.1, ht.2.2⟩
    simpa using ht.1
  | setItem me k v =>
    rcases hk with rfl | rfl
    · simp only [Op.step, Op.exec, PyCat.setItem, bind, Except.bind]
      cases e : v.toList ((σ me).pos 0).length with
      | error _ => exact h
      | ok l => exact update_good h me (nz_good (h me) (Col.toList_length e))
    · simp only [Op.step, Op.exec, PyCat.setItem, bind, Except.bind]
      exact h
  | meanDensity me v L =>
    simp only [Op.step, Op.exec]
    cases e : (σ me).meanDensity v L with
    | error _ => simp only [bind, Except.bind]; exact h
    | ok c =>
      simp only [bind, Except.bind]
      apply update_good h me
      unfold PyCat.meanDensity at e
      simp only at e
      split at e
      · simp at e
      · simp only [Except.ok.injEq] at e
        rw [← e]
        exact nz_good (h me) (by simp)

/-- **C26 (partial: histories without replacing coordinates or weights).** After any
history of operations, on any number of possibly identical catalogue objects and
whether or not some of them raised, every catalogue reports its true bounds and
totals. -/
theorem C26_bounds_true_partial (σ : Store ι K) (h : ∀ j, (σ j).Good) (ops : List (Op ι K))
    (hk : ∀ op ∈ ops, op.KeepsColumns) : ∀ j, (ops.foldl Op.step σ j).Good := by
  induction ops generalizing σ with
  | nil => exact h
  | cons op ops ih =>
    simp only [List.foldl_cons]
    exact ih _ (step_good h op (hk op (by simp))) (fun o ho => hk o (by simp [ho]))

/-- Catalogues are created in a consistent state. -/
theorem C26_initially_true (x y z : List K) (nz : Option (Col K)) (ws wc : Col K) (c : PyCat K)
    (h : PyCat.init x y z nz ws wc = .ok c) : c.Good := by
  unfold PyCat.init at h
  simp only [bind, Except.bind] at h
  cases ey : (Col.arr y).toList x.length with
  | error _ => rw [ey] at h; simp at h
  | ok y' =>
  rw [ey] at h; simp only at h
  cases ez : (Col.arr z).toList x.length with
  | error _ => rw [ez] at h; simp at h
  | ok z' =>
  rw [ez] at h; simp only at h
  cases en : (nz.getD (.scalar 0)).toList x.length with
  | error _ => rw [en] at h; simp at h
  | ok n' =>
  rw [en] at h; simp only at h
  cases es : ws.toList x.length with
  | error _ => rw [es] at h; simp at h
  | ok s' =>
  rw [es] at h; simp only at h
  cases ec : wc.toList x.length with
  | error _ => rw [ec] at h; simp at h
  | ok c' =>
  rw [ec] at h; simp only at h
  have hlen : ∀ i : Fin 3, ((![x, y', z'] : Fin 3 → List K) i).length = x.length := by
    intro i
    fin_cases i
    · rfl
    · exact Col.toList_length ey
    · exact Col.toList_length ez
  by_cases hx : x = []
  · subst hx
    simp [PyCat.calcBounds, bnd] at h
  · have hs : PyCat.Shape (PyCat.mk ![x, y', z'] n' s' c' (fun _ => (0, 0)) 0 0 (0 : K)) := by
      refine ⟨?_, fun i => (hlen i).trans (hlen 0).symm, ?_, ?_, ?_⟩
      · exact List.length_pos_iff.2 hx
      · exact (Col.toList_length en).trans (hlen 0).symm
      · exact (Col.toList_length es).trans (hlen 0).symm
      · exact (Col.toList_length ec).trans (hlen 0).symm
    obtain ⟨b, e, hb⟩ := calcBounds_ok _ hs
    rw [e] at h
    simp only [Except.ok.injEq] at h
    rw [← h]
    exact ⟨hs, hb, rfl, rfl, rfl⟩

example : ∃ c, PyCat.init [1, 2] [0, 5] [3, 3] none (.scalar (1 : ℚ)) (.arr [2, 3]) = .ok c ∧
    c.wtotal = 5 ∧ c.bounds 1 = (0, 5) := ⟨_, rfl, by decide +kernel, by decide +kernel⟩

/-- **C26 is violated by column assignment**: shifting a coordinate column by
assignment leaves the old bounds in place, for every catalogue. -/
theorem C26_assignment_violated (c : PyCat K) (h : c.Good) (i : Fin 3) (s : K) (hs : s ≠ 0) :
    ∃ c', c.setItem (.axis i) (.arr ((c.pos i).map fun x => x - s)) = .ok c' ∧ ¬ c'.TrueBounds := by
  have hset : c.setItem (.axis i) (.arr ((c.pos i).map fun x => x - s)) =
      .ok { c with pos := Function.update c.pos i ((c.pos i).map fun x => x - s) } := by
    unfold PyCat.setItem Col.toList
    simp only [List.length_map, h.1.2.1 i, if_true]
    rfl
  refine ⟨_, hset, ?_⟩
  intro hb
  have h1 := hb i
  simp only [Function.update_self] at h1
  have h2 := ((h.2.1 i).sub s).unique h1
  exact hs (by linarith [h2.1])

/-- Likewise the weight total after replacing the weights. -/
theorem C26_weight_assignment_violated (c : PyCat K) (h : c.Good) (x : K)
    (hx : c.wstotal ≠ (c.pos 0).length * x) :
    ∃ c', c.setItem .ws (.scalar x) = .ok c' ∧ ¬ c'.TrueTotals := by
  refine ⟨_, rfl, ?_⟩
  intro ht
  apply hx
  have := ht.2.2
  simp only [List.sum_replicate, nsmul_eq_mul] at this
  exact this

example : (twoPart 1 4).Good :=
  ⟨twoPart_shape _ _, twoPart_bounds (by norm_num), rfl, by decide +kernel, by decide +kernel⟩

/-! ### C28 -/

/-- **C28 is violated**: whatever the catalogue and the expansion factor, the Python
measurement functions never obtain a number for the box size when it has to be
derived; with a float expansion factor (its type everywhere in the documentation
and the default) they raise `TypeError`. -/
theorem C28_never_derived_violated (c : PyCat K) (expand : PyVal K) (ax : Fin 3) :
    (∀ x, deriveBoxsize c expand ax ≠ .ok (.flt x)) ∧
    (∀ n, deriveBoxsize c expand ax ≠ .ok (.int n)) ∧
    (∀ e, expand = .flt e → deriveBoxsize c expand ax = .error .typeError) := by
  unfold deriveBoxsize
  cases expand with
  | flt e => refine ⟨?_, ?_, ?_⟩ <;> intros <;> simp [PyVal.mul]
  | int n => refine ⟨?_, ?_, ?_⟩ <;> intros <;> simp_all [PyVal.mul]
  | tuple l => refine ⟨?_, ?_, ?_⟩ <;> intros <;> simp_all [PyVal.mul]

/-- **C28 (partial: the C++ driver).** The derived box size is the extent of the
catalogue times the expansion factor on each axis. -/
theorem C28_cpp_box_partial (c : CppCat K) (ht : c.TrueExtents) (expand : K) (i : Fin 3) :
    ∃ a b, IsExtent (c.particles.map fun p => p.pos i) a b ∧
      boxFromExpand c.posSpan expand i = (b - a) * expand :=
  ⟨_, _, (ht i).1, by unfold boxFromExpand; rw [(ht i).2]⟩

end

/-! ### C27 -/

theorem los_zero : los 0 = 0 := by
  funext i
  simp [los]

/-- **C27.** The line of sight is a unit vector along the position, or zero at the
origin; positive rescaling of the position leaves it unchanged. -/
theorem C27_lines_of_sight (x : V3 ℝ) :
    (x = 0 → los x = 0) ∧
    (x ≠ 0 → los x 0 ^ 2 + los x 1 ^ 2 + los x 2 ^ 2 = 1 ∧ ∃ t, 0 < t ∧ ∀ i, x i = t * los x i) ∧
    (∀ s, 0 < s → los (fun i => s * x i) = los x) := by
  have hpos : x ≠ 0 → 0 < x 0 ^ 2 + x 1 ^ 2 + x 2 ^ 2 := by
    intro hx
    by_contra h
    apply hx
    have h0 : x 0 ^ 2 = 0 := by nlinarith [sq_nonneg (x 0), sq_nonneg (x 1), sq_nonneg (x 2)]
    have h1 : x 1 ^ 2 = 0 := by nlinarith [sq_nonneg (x 0), sq_nonneg (x 1), sq_nonneg (x 2)]
    have h2 : x 2 ^ 2 = 0 := by nlinarith [sq_nonneg (x 0), sq_nonneg (x 1), sq_nonneg (x 2)]
    funext i
    fin_cases i
    · exact pow_eq_zero_iff (two_ne_zero) |>.1 h0
    · exact pow_eq_zero_iff (two_ne_zero) |>.1 h1
    · exact pow_eq_zero_iff (two_ne_zero) |>.1 h2
  have h0 : x = 0 → los x = 0 := by
    rintro rfl
    exact los_zero
  refine ⟨h0, ?_, ?_⟩
  · intro hx
    have hp := hpos hx
    have hn : 0 < Real.sqrt (x 0 ^ 2 + x 1 ^ 2 + x 2 ^ 2) := Real.sqrt_pos.2 hp
    have hsq := Real.sq_sqrt hp.le
    constructor
    · simp only [los]
      rw [if_neg hn.ne']
      simp only [div_pow]
      rw [hsq]
      field_simp
    · refine ⟨_, hn, ?_⟩
      intro i
      simp only [los]
      rw [if_neg hn.ne']
      field_simp
  · intro s hs
    by_cases hx : x = 0
    · have : (fun i => s * x i) = 0 := by rw [hx]; funext i; simp
      rw [this, h0 hx]
      exact los_zero
    · have hp := hpos hx
      have hn : 0 < Real.sqrt (x 0 ^ 2 + x 1 ^ 2 + x 2 ^ 2) := Real.sqrt_pos.2 hp
      have he : Real.sqrt ((s * x 0) ^ 2 + (s * x 1) ^ 2 + (s * x 2) ^ 2)
          = s * Real.sqrt (x 0 ^ 2 + x 1 ^ 2 + x 2 ^ 2) := by
        rw [show (s * x 0) ^ 2 + (s * x 1) ^ 2 + (s * x 2) ^ 2
          = s ^ 2 * (x 0 ^ 2 + x 1 ^ 2 + x 2 ^ 2) by ring, Real.sqrt_mul (by positivity),
          Real.sqrt_sq hs.le]
      funext i
      simp only [los]
      rw [he, if_neg (mul_pos hs hn).ne', if_neg hn.ne']
      field_simp

/-- **C27 for a catalogue**: one line of sight for each particle, in order. -/
theorem C27_catalogue (c : PyCat ℝ) :
    (computeLos c).length = (c.pos 0).length ∧
    ∀ k (h : k < (computeLos c).length), (computeLos c)[k] = los fun i => (c.pos i).getD k 0 := by
  refine ⟨by simp [computeLos], ?_⟩
  intro k h
  simp [computeLos]

/-! ### C99 -/

section
variable {K : Type} [Field K] [LinearOrder K] [IsStrictOrderedRing K]

/-- **C99.** Given a non-zero volume (with or without a box size), or no volume and a box of
non-zero sides, each particle is assigned the density for which the volume holds all particles, and
nothing else is changed; without either a `TypeError` is raised. -/
theorem C99_mean_density (c : PyCat K) (L : V3 K) (hL : ∀ i, L i ≠ 0) (v : K) (hv : v ≠ 0)
    (box : Option (V3 K)) :
    (∃ c', c.meanDensity (some v) box = .ok c' ∧ c' = { c with nz := c'.nz } ∧
      c'.nz.length = (c.pos 0).length ∧ ∀ n ∈ c'.nz, n * v = c.ntotal) ∧
    (∃ c', c.meanDensity none (some L) = .ok c' ∧ c' = { c with nz := c'.nz } ∧
      c'.nz.length = (c.pos 0).length ∧ ∀ n ∈ c'.nz, n * ∏ i, L i = c.ntotal) ∧
    c.meanDensity none none = .error .typeError := by
  refine ⟨?_, ?_, rfl⟩
  · refine ⟨{ c with nz := List.replicate (c.pos 0).length ((c.ntotal : K) / v) }, ?_, rfl, by simp, ?_⟩
    · unfold PyCat.meanDensity
      simp only [if_neg hv]
    · intro n hn
      rw [List.eq_of_mem_replicate hn, div_mul_cancel₀ _ hv]
  · refine ⟨_, rfl, rfl, by simp, ?_⟩
    intro n hn
    have h0 : L 0 * L 1 * L 2 ≠ 0 := mul_ne_zero (mul_ne_zero (hL 0) (hL 1)) (hL 2)
    rw [List.eq_of_mem_replicate hn, Fin.prod_univ_three, div_mul_cancel₀ _ h0]

/-- **C99 (violated).** The box size is used although a volume (of zero) is given. -/
theorem C99_zero_volume_violated (c : PyCat K) (L : V3 K) :
    c.meanDensity (some 0) (some L) = c.meanDensity none (some L) := by
  unfold PyCat.meanDensity
  simp

end

/-- Two particles in a box of side 2. -/
example : (match (twoPart 0 1).meanDensity none (some fun _ => 2) with
    | .ok c => decide (c.nz = [1 / 4, 1 / 4])
    | .error _ => false) = true := by decide +kernel

end Trv.Cat

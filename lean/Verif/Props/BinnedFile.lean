import Verif.Spec.BinnedFile
import Verif.Lemmas.OutputText
import Verif.Lemmas.Output
import Verif.Props.BinnedVectors
/-
C154: the file of binned vectors.
-/
namespace Trv.Out

open Trv Trv.Par Trv.Mon Trv.Stats Trv.Binning

theorem toStr_cell (i : ℤ) : IsCell (toStr i) (toStr i) := by
  refine ⟨0, rfl, ?_, ?_⟩
  · intro h
    by_cases h0 : 0 ≤ i
    · obtain ⟨c, l, e, -⟩ := toStr_digit h0
      rw [e] at h; cases h
    · unfold toStr at h
      rw [if_pos (by omega)] at h
      cases h
  · intro c hc
    have hx : ∀ d : Char, d ≠ '-' → d.isDigit = false → c ≠ d := by
      rintro d h1 h2 rfl
      exact notMem_toStr h1 h2 i hc
    refine ⟨?_, hx '#' (by decide) (by decide)⟩
    unfold ws
    rw [decide_eq_false_iff_not]
    rintro (h | h | h | h | h | h)
    all_goals exact hx _ (by decide) (by decide) h

/-- A saved row is read back. -/
theorem readRow_binned {F : Fmt} {rd : ℝ → ℝ} (hF : F.Ok rd) (hi : F.Ints) (r : Rec ℝ) :
    dataWords (binnedLine F r) ≠ [] ∧ readRow F (List.range 6) (dataWords (binnedLine F r)) = .ok (recRow rd r) := by
  obtain ⟨k1, w1, e1, n1, c1, r1⟩ := hF.e r.lower
  obtain ⟨k2, w2, e2, n2, c2, r2⟩ := hF.e r.upper
  obtain ⟨k3, w3, e3, n3, c3, r3⟩ := hF.s (r.vec 0)
  obtain ⟨k4, w4, e4, n4, c4, r4⟩ := hF.s (r.vec 1)
  obtain ⟨k5, w5, e5, n5, c5, r5⟩ := hF.s (r.vec 2)
  obtain ⟨h1, h2⟩ := words_join (cells := [toStr r.idx, F.e r.lower, F.e r.upper, F.s (r.vec 0), F.s (r.vec 1),
    F.s (r.vec 2)]) (wds := [toStr r.idx, w1, w2, w3, w4, w5]) (.cons (toStr_cell _) (.cons ⟨k1, e1, n1, c1⟩
    (.cons ⟨k2, e2, n2, c2⟩ (.cons ⟨k3, e3, n3, c3⟩ (.cons ⟨k4, e4, n4, c4⟩ (.cons ⟨k5, e5, n5, c5⟩ .nil))))))
  have e : dataWords (binnedLine F r) = [toStr r.idx, w1, w2, w3, w4, w5] := by
    unfold dataWords binnedLine
    rw [takeWhile_self h2, h1]
  rw [e]
  refine ⟨by simp, ?_⟩
  have h0 := hi r.idx
  unfold readRow recRow
  simp [List.range_succ, Wc.traverse, readCol, h0, r1, r2, r3, r4, r5]

theorem header_comments (f3 : ℝ → Str) (box : Fin 3 → ℝ) (ngrid : Fin 3 → ℤ) (count nb : ℤ) :
    ∀ l ∈ binnedHeader f3 box ngrid count nb, dataWords l = [] := by
  intro l hl
  unfold binnedHeader at hl
  simp only [List.mem_cons, List.not_mem_nil, or_false] at hl
  rcases hl with rfl | rfl | rfl | rfl | rfl <;> rfl

/-- **C154, reading.**  The file of binned vectors is read back as the records, in order, with the floats rounded as printed;
the rows are as many as its header says. -/
theorem C154_read_back {F : Fmt} {rd : ℝ → ℝ} (hF : F.Ok rd) (hi : F.Ints) (f3 : ℝ → Str) (box : Fin 3 → ℝ)
    (ngrid : Fin 3 → ℤ) (nb : ℤ) (vs : List (Rec ℝ)) :
    loadtxt F (List.range 6) (binnedFile F f3 box ngrid nb vs) = .ok (vs.map (recRow rd)) ∧
    (binnedFile F f3 box ngrid nb vs)[2]? = some ("# Vector count: ".toList ++ toStr vs.length) := by
  refine ⟨?_, rfl⟩
  have hf : ((binnedFile F f3 box ngrid nb vs).map dataWords).filter (fun ws => ws ≠ []) =
      vs.map fun r => dataWords (binnedLine F r) := by
    unfold binnedFile
    rw [List.map_append, List.filter_append, List.map_map]
    have h1 : ((binnedHeader f3 box ngrid vs.length nb).map dataWords).filter (fun ws => ws ≠ []) = [] := by
      rw [List.filter_eq_nil_iff]
      intro x hx
      obtain ⟨l, hl, rfl⟩ := List.mem_map.1 hx
      simp [header_comments _ _ _ _ _ l hl]
    rw [h1, List.nil_append, List.filter_eq_self.2]
    · rfl
    · intro x hx
      obtain ⟨r, -, rfl⟩ := List.mem_map.1 hx
      simpa using (readRow_binned hF hi r).1
  unfold loadtxt
  rw [hf]
  exact Wc.traverse_map_ok _ _ _ _ fun r _ => (readRow_binned hF hi r).2

theorem recordBinned_perm (m : MathLib ℝ) (mag : (Fin 3 → ℝ) → ℝ) (B : Cpp ℝ) (n : Fin 3 → ℤ) (L : Fin 3 → ℝ)
    {o o' : List (ℤ × ℤ × ℤ)} (h : o.Perm o') :
    (recordBinned m mag B n L o).Perm (recordBinned m mag B n L o') :=
  (sortRecs_perm _).trans ((h.filterMap _).trans (sortRecs_perm _).symm)

theorem record_idx (m : MathLib ℝ) (mag : (Fin 3 → ℝ) → ℝ) (B : Cpp ℝ) (n : Fin 3 → ℤ) (L : Fin 3 → ℝ)
    {o o' : List (ℤ × ℤ × ℤ)} (h : o.Perm o') :
    (recordBinned m mag B n L o).map Rec.idx = (recordBinned m mag B n L o').map Rec.idx := by
  refine List.Perm.eq_of_pairwise (le := fun a b : ℤ => a ≤ b) (fun a b _ _ h1 h2 => le_antisymm h1 h2) ?_ ?_
    ((recordBinned_perm m mag B n L h).map _)
  · rw [List.pairwise_map]; exact sortRecs_sorted _
  · rw [List.pairwise_map]; exact sortRecs_sorted _

theorem record_edges (m : MathLib ℝ) (mag : (Fin 3 → ℝ) → ℝ) (B : Cpp ℝ) (n : Fin 3 → ℤ) (L : Fin 3 → ℝ)
    (o : List (ℤ × ℤ × ℤ)) (r : Rec ℝ) (hr : r ∈ recordBinned m mag B n L o) :
    r.lower = B.edges.getD r.idx.toNat 0 ∧ r.upper = B.edges.getD (r.idx.toNat + 1) 0 := by
  have h := (sortRecs_perm _).mem_iff.1 hr
  obtain ⟨c, -, hc⟩ := List.mem_filterMap.1 h
  obtain ⟨-, b, -, h1, h2, h3, -⟩ := findBin_some hc
  rw [h1]
  exact ⟨h2, h3⟩

/-- **C154, program and Python.**  The file which the program saves and the array which Python returns for the same bins and
mesh have, whatever the schedules of their threads, the same bins in the same order, and the same rows up to a
permutation and the rounding in the file.  (Partial: the order within a bin, see `C154_order_violated`.) -/
theorem C154_program_python_partial {F : Fmt} {rd : ℝ → ℝ} (hF : F.Ok rd) (hi : F.Ints) (f3 : ℝ → Str) (m : MathLib ℝ)
    (mag : (Fin 3 → ℝ) → ℝ) (B : Cpp ℝ) (n : Fin 3 → ℤ) (L : Fin 3 → ℝ) (o o' : List (ℤ × ℤ × ℤ))
    (ho : o.Perm (visited m B n L)) (ho' : o'.Perm (visited m B n L)) :
    ∃ rows, loadtxt F (List.range 6) (programVectors F f3 m mag B n L o) = .ok rows ∧
      rows.Perm ((pythonVectors m mag B n L o').map (tupRow rd)) ∧
      rows.map (fun r => r.getD 0 0) = (pythonVectors m mag B n L o').map (fun t => (t.1 : ℝ)) ∧
      rows.map (fun r => (r.getD 1 0, r.getD 2 0)) =
        (pythonVectors m mag B n L o').map (fun t => (rd t.2.1, rd t.2.2.1)) := by
  refine ⟨_, (C154_read_back hF hi f3 L n B.numBins _).1, ?_, ?_, ?_⟩
  · unfold pythonVectors
    rw [List.map_map]
    exact (recordBinned_perm m mag B n L (ho.trans ho'.symm)).map _
  · have := record_idx m mag B n L (ho.trans ho'.symm)
    unfold pythonVectors
    rw [List.map_map, List.map_map]
    have h2 := congrArg (List.map fun i : ℤ => (i : ℝ)) this
    rw [List.map_map, List.map_map] at h2
    exact h2
  · have := record_idx m mag B n L (ho.trans ho'.symm)
    unfold pythonVectors
    rw [List.map_map, List.map_map]
    have h2 := congrArg (List.map fun i : ℤ => (rd (B.edges.getD i.toNat 0), rd (B.edges.getD (i.toNat + 1) 0))) this
    rw [List.map_map, List.map_map] at h2
    have e : ∀ o : List (ℤ × ℤ × ℤ), (recordBinned m mag B n L o).map (fun r => (rd r.lower, rd r.upper)) =
        (recordBinned m mag B n L o).map ((fun i : ℤ => (rd (B.edges.getD i.toNat 0),
          rd (B.edges.getD (i.toNat + 1) 0))) ∘ Rec.idx) := by
      intro o
      apply List.map_congr_left
      intro r hr
      obtain ⟨h1, h2⟩ := record_edges m mag B n L o r hr
      rw [h1, h2]
      rfl
    rw [← e, ← e] at h2
    exact h2

/-- A bin with all vectors of a mesh of two cells. -/
noncomputable def exBin : Cpp ℝ := ⟨.config, "lin", 0, 100, 1, [0, 100], [50], [100], 0, 0⟩

theorem exBin_visited (m : MathLib ℝ) : visited m exBin ![2, 1, 1] (fun _ => 1) = [(0, 0, 0), (1, 0, 0)] := by
  have h2 : axisRange m .config 2 (1 : ℝ) 100 = [0, 1] := by
    have a1 : lrangeUpper (reach m .config 2 (1 : ℝ) 100) 2 = 1 := by
      unfold lrangeUpper reach
      norm_num
    have a2 : rrangeLower (reach m .config 2 (1 : ℝ) 100) 2 = 1 := by
      unfold rrangeLower reach
      norm_num
    unfold axisRange
    simp only [a1, a2]
    decide
  have h1 : axisRange m .config 1 (1 : ℝ) 100 = [0] := by
    have a1 : lrangeUpper (reach m .config 1 (1 : ℝ) 100) 1 = 1 := by
      unfold lrangeUpper reach
      norm_num
    have a2 : rrangeLower (reach m .config 1 (1 : ℝ) 100) 1 = 0 := by
      unfold rrangeLower reach
      norm_num
    unfold axisRange
    simp only [a1, a2]
    decide
  unfold visited
  show (axisRange m .config 2 (1 : ℝ) 100).flatMap (fun i => (axisRange m .config 1 (1 : ℝ) 100).flatMap fun j =>
    (axisRange m .config 1 (1 : ℝ) 100).map fun k => (i, j, k)) = _
  rw [h2, h1]
  rfl

theorem sort_two (a b : Rec ℝ) (h : a.idx = b.idx) : sortRecs [a, b] = [a, b] := by
  unfold sortRecs
  have : Arr.getSortedIndices ([a, b].map Rec.idx) = [0, 1] := by
    simp [Arr.getSortedIndices, Arr.sortBy, Arr.insertBy, List.range_succ, h]
  rw [this]
  rfl

theorem exBin_find (v : Fin 3 → ℝ) (h : Two.mag v < 100) :
    findBin exBin.edges (Two.mag v) v (List.range exBin.numBins.toNat) = some ⟨0, 0, 100, v⟩ := by
  show findBin [0, 100] (Two.mag v) v [0] = _
  unfold findBin
  rw [if_pos ⟨show (0 : ℝ) ≤ Two.mag v from Real.sqrt_nonneg _, show Two.mag v < 100 from h⟩]
  rfl

/-- **C154, violated.**  Two schedules of the threads give different arrays: the vectors of a bin are in the order in
which the threads came across them. -/
theorem C154_order_violated (m : MathLib ℝ) : ∃ (B : Cpp ℝ) (n : Fin 3 → ℤ) (L : Fin 3 → ℝ) (o o' : List (ℤ × ℤ × ℤ)),
    o.Perm (visited m B n L) ∧ o'.Perm (visited m B n L) ∧
    pythonVectors m Two.mag B n L o ≠ pythonVectors m Two.mag B n L o' := by
  refine ⟨exBin, ![2, 1, 1], fun _ => 1, [(0, 0, 0), (1, 0, 0)], [(1, 0, 0), (0, 0, 0)], ?_, ?_, ?_⟩
  · rw [exBin_visited]
  · rw [exBin_visited]
    exact List.Perm.swap _ _ _
  · set gv : ℤ × ℤ × ℤ → Fin 3 → ℝ := gridVec ![2, 1, 1] fun i : Fin 3 => cellSize m .config (![2, 1, 1] i) (1 : ℝ)
      with hgv
    have g0 : gv (0, 0, 0) 0 = 0 := by simp [hgv, gridVec]
    have g1 : gv (1, 0, 0) 0 = -1 / 2 := by
      simp [hgv, gridVec, cellSize]
      norm_num
    have gy : ∀ c : ℤ, gv (c, 0, 0) 1 = -1 := by intro c; simp [hgv, gridVec, cellSize]
    have gz : ∀ c : ℤ, gv (c, 0, 0) 2 = -1 := by intro c; simp [hgv, gridVec, cellSize]
    have m0 : Two.mag (gv (0, 0, 0)) < 100 := by
      unfold Two.mag
      rw [g0, gy, gz, Real.sqrt_lt' (by norm_num)]
      norm_num
    have m1 : Two.mag (gv (1, 0, 0)) < 100 := by
      unfold Two.mag
      rw [g1, gy, gz, Real.sqrt_lt' (by norm_num)]
      norm_num
    have c1 : collect m Two.mag exBin ![2, 1, 1] (fun _ => 1) [(0, 0, 0), (1, 0, 0)] =
        [⟨0, 0, 100, gv (0, 0, 0)⟩, ⟨0, 0, 100, gv (1, 0, 0)⟩] := by
      show [(0, 0, 0), (1, 0, 0)].filterMap (fun c => findBin exBin.edges (Two.mag (gv c)) (gv c)
        (List.range exBin.numBins.toNat)) = _
      simp only [List.filterMap_cons, List.filterMap_nil, exBin_find _ m0, exBin_find _ m1]
    have c2 : collect m Two.mag exBin ![2, 1, 1] (fun _ => 1) [(1, 0, 0), (0, 0, 0)] =
        [⟨0, 0, 100, gv (1, 0, 0)⟩, ⟨0, 0, 100, gv (0, 0, 0)⟩] := by
      show [(1, 0, 0), (0, 0, 0)].filterMap (fun c => findBin exBin.edges (Two.mag (gv c)) (gv c)
        (List.range exBin.numBins.toNat)) = _
      simp only [List.filterMap_cons, List.filterMap_nil, exBin_find _ m0, exBin_find _ m1]
    unfold pythonVectors recordBinned
    rw [c1, c2, sort_two ⟨0, 0, 100, gv (0, 0, 0)⟩ ⟨0, 0, 100, gv (1, 0, 0)⟩ rfl,
      sort_two ⟨0, 0, 100, gv (1, 0, 0)⟩ ⟨0, 0, 100, gv (0, 0, 0)⟩ rfl]
    intro h
    have h' := congrArg (fun l : List (ℤ × ℝ × ℝ × ℝ × ℝ × ℝ) => l.map fun t => t.2.2.2.1) h
    simp only [List.map_cons, List.map_nil, List.cons.injEq] at h'
    rw [g0, g1] at h'
    norm_num at h'

/-- Numbers printed as whole numbers. -/
noncomputable def exFmt : Fmt where
  e := fun x => toStr ⌊x⌋
  s := fun x => ' ' :: toStr ⌊x⌋
  d := fun x => toStr ⌊x⌋
  read := fun w => match Wc.pyInt w with
    | .ok z => some (z : ℝ)
    | .error _ => none

theorem exFmt_read (i : ℤ) : exFmt.read (toStr i) = some (i : ℝ) := by
  show (match Wc.pyInt (toStr i) with
    | .ok z => some (z : ℝ)
    | .error _ => none) = _
  rw [Wc.pyInt_toStr]

/-- Hypotheses on the formats are met, and a file with a vector is read back. -/
example (f3 : ℝ → Str) (box : Fin 3 → ℝ) : exFmt.Ok (fun x => (⌊x⌋ : ℝ)) ∧ exFmt.Ints ∧
    loadtxt exFmt (List.range 6) (binnedFile exFmt f3 box (fun _ => 4) 2 [⟨1, 10, 20, ![12, -1, 0]⟩]) =
      .ok [[1, 10, 20, 12, -1, 0]] := by
  have hF : exFmt.Ok (fun x => (⌊x⌋ : ℝ)) := by
    refine ⟨fun x => ?_, fun x => ?_, fun x => ?_⟩
    · obtain ⟨-, -, h0, h⟩ := toStr_cell ⌊x⌋
      exact ⟨0, _, rfl, h0, h, exFmt_read _⟩
    · obtain ⟨-, -, h0, h⟩ := toStr_cell ⌊x⌋
      exact ⟨1, _, rfl, h0, h, exFmt_read _⟩
    · obtain ⟨-, -, h0, h⟩ := toStr_cell ⌊x⌋
      exact ⟨0, _, rfl, h0, h, _, exFmt_read _⟩
  refine ⟨hF, exFmt_read, ?_⟩
  rw [(C154_read_back hF exFmt_read f3 box _ 2 _).1]
  have h10 : ⌊(10 : ℝ)⌋ = 10 := by exact_mod_cast Int.floor_intCast (10 : ℤ)
  have h20 : ⌊(20 : ℝ)⌋ = 20 := by exact_mod_cast Int.floor_intCast (20 : ℤ)
  have h12 : ⌊(12 : ℝ)⌋ = 12 := by exact_mod_cast Int.floor_intCast (12 : ℤ)
  have hm : ⌊(-1 : ℝ)⌋ = -1 := by exact_mod_cast Int.floor_intCast (-1 : ℤ)
  simp [recRow, h10, h20, h12, hm]

end Trv.Out

import Verif.Lemmas.FieldStats
import Mathlib.Data.Fin.VecNotation
import Mathlib.Analysis.SpecialFunctions.Sqrt
/-
C21, C22, C59: binned statistics, binned vectors, compatibility of fields.
-/
set_option linter.unusedSectionVars false
namespace Trv.Stats
open Trv.Mesh Trv.Binning

section
variable {K : Type} [Field K] [LinearOrder K] [IsStrictOrderedRing K] [FloorRing K]

/-! ### C21 -/

section
variable {V : Type} [AddCommGroup V] [Module K V]

/-- **C21 (part).** For every order in which the threads add the modes, a bin holds the statistics
of exactly those modes whose length *rounded down to a multiple of the sampling width* lies in the
bin and in the sampled range. -/
theorem C21_bins_hold_partial (ns : ℕ) (d : K) (hd : 0 < d) (edges centres : List K) (numBins : ℕ)
    (ms sched : List (Mode K V)) (hp : sched.Perm ms) (hlen : ∀ m ∈ ms, 0 ≤ m.len) (b : ℕ)
    (hb : b < numBins) :
    ∃ r : Bin K V, (binStats ns d edges centres numBins sched)[b]? = some r ∧
      ∃ l : List (Mode K V), l.Perm (ms.filter fun m => decide (m.len < ns * d) &&
        inBin (edges.getD b 0) (edges.getD (b + 1) 0) (⌊m.len / d⌋ * d)) ∧
        IsStat (centres.getD b 0) l r := by
  refine ⟨_, ?_, sched.filter (sel ns d (edges.getD b 0) (edges.getD (b + 1) 0)), ?_,
    coarse_fine ns d (edges.getD b 0) (edges.getD (b + 1) 0) (centres.getD b 0) sched⟩
  · unfold binStats
    rw [List.getElem?_map, List.getElem?_range hb]
    rfl
  · have e : ms.filter (sel ns d (edges.getD b 0) (edges.getD (b + 1) 0)) =
        ms.filter fun m => decide (m.len < ns * d) &&
          inBin (edges.getD b 0) (edges.getD (b + 1) 0) (⌊m.len / d⌋ * d) := by
      apply List.filter_congr
      intro m hm
      have h0 : 0 ≤ m.len / d := div_nonneg (hlen m hm) hd.le
      unfold sel truncInt
      rw [if_pos h0]
      congr 1
      rw [decide_eq_decide]
      constructor
      · rintro ⟨_, h2⟩
        rw [Int.floor_lt] at h2
        rw [div_lt_iff₀ hd] at h2
        exact_mod_cast h2
      · intro h
        refine ⟨Int.floor_nonneg.2 h0, ?_⟩
        rw [Int.floor_lt, div_lt_iff₀ hd]
        exact_mod_cast h
    rw [← e]
    exact hp.filter _

/-- **C21 (part).** If all bin edges are multiples of the sampling width within the sampled range,
each bin holds the statistics of exactly the modes whose length it contains. -/
theorem C21_aligned_partial (ns : ℕ) (d : K) (hd : 0 < d) (edges centres : List K) (numBins : ℕ)
    (ms sched : List (Mode K V)) (hp : sched.Perm ms) (hlen : ∀ m ∈ ms, 0 ≤ m.len)
    (mult : ℕ → ℕ) (hmult : ∀ b, b ≤ numBins → edges.getD b 0 = mult b * d ∧ mult b ≤ ns)
    (b : ℕ) (hb : b < numBins) :
    ∃ r : Bin K V, (binStats ns d edges centres numBins sched)[b]? = some r ∧
      ∃ l : List (Mode K V),
        l.Perm (ms.filter fun m => inBin (edges.getD b 0) (edges.getD (b + 1) 0) m.len) ∧
        IsStat (centres.getD b 0) l r := by
  obtain ⟨r, h1, l, h2, h3⟩ := C21_bins_hold_partial ns d hd edges centres numBins ms sched hp hlen b hb
  refine ⟨r, h1, l, ?_, h3⟩
  refine h2.trans (List.Perm.of_eq (List.filter_congr fun m hm => ?_))
  obtain ⟨e1, -⟩ := hmult b (by omega)
  obtain ⟨e2, e3⟩ := hmult (b + 1) (by omega)
  have f1 : ∀ t : ℕ, ((t : K) * d ≤ ⌊m.len / d⌋ * d ↔ (t : K) * d ≤ m.len) := by
    intro t
    rw [mul_le_mul_iff_left₀ hd, ← le_div_iff₀ hd]
    have : ((t : ℤ) : K) ≤ m.len / d ↔ (t : ℤ) ≤ ⌊m.len / d⌋ := Int.le_floor.symm
    constructor
    · intro h; exact_mod_cast this.2 (by exact_mod_cast h)
    · intro h; exact_mod_cast this.1 (by exact_mod_cast h)
  unfold inBin
  rw [e1, e2, Bool.eq_iff_iff, Bool.and_eq_true]
  simp only [decide_eq_true_eq]
  rw [f1, ← not_le, ← not_le, f1, not_le, not_le]
  constructor
  · exact fun h => h.2
  · intro h
    refine ⟨lt_of_lt_of_le h.2 ?_, h⟩
    have : (mult (b + 1) : K) ≤ ns := by exact_mod_cast e3
    exact mul_le_mul_of_nonneg_right this hd.le

/-- **C21 (violated).** If the lower edge of a bin is not a multiple of the sampling width, a mode
at the lower edge, which the bin contains, is not counted in it. -/
theorem C21_lower_edge_violated (ns : ℕ) (d : K) (hd : 0 < d) (lower upper centre : K)
    (h0 : 0 ≤ lower) (hn : ∀ t : ℕ, lower ≠ t * d) (hu : lower < upper) (v : V) :
    inBin lower upper lower = true ∧
    coarse ns d lower upper centre (fine ns d [⟨lower, v⟩]) = ⟨0, centre, 0⟩ := by
  refine ⟨decide_eq_true ⟨le_refl _, hu⟩, ?_⟩
  have h := coarse_fine ns d lower upper centre [(⟨lower, v⟩ : Mode K V)]
  have hq : 0 ≤ lower / d := div_nonneg h0 hd.le
  have hs : sel ns d lower upper (⟨lower, v⟩ : Mode K V) = false := by
    unfold sel inBin truncInt
    simp only
    rw [if_pos hq]
    have : ¬ (lower ≤ (⌊lower / d⌋ : K) * d ∧ (⌊lower / d⌋ : K) * d < upper) := by
      rintro ⟨hc, -⟩
      have h1 : (⌊lower / d⌋ : K) * d ≤ lower := by
        rw [← le_div_iff₀ hd]; exact Int.floor_le _
      obtain ⟨t, ht⟩ := Int.eq_ofNat_of_zero_le (Int.floor_nonneg.2 hq)
      apply hn t
      have := le_antisymm hc h1
      rw [ht] at this
      exact_mod_cast this
    rw [decide_eq_false this, Bool.and_false]
  rw [List.filter_cons, hs] at h
  obtain ⟨g1, -, g3⟩ := h
  obtain ⟨g4, g5⟩ := g3 rfl
  generalize coarse ns d lower upper centre (fine ns d [(⟨lower, v⟩ : Mode K V)]) = r at *
  obtain ⟨a, b, c⟩ := r
  simp only at g1 g4 g5
  subst g4 g5
  rw [g1]
  rfl

/-- **C21 (violated).** Modes beyond the sampled range are counted in no bin at all. -/
theorem C21_beyond_violated (ns : ℕ) (d : K) (hd : 0 < d) (lower upper centre : K) (m : Mode K V)
    (h : ns * d ≤ m.len) (h0 : 0 ≤ m.len) :
    coarse ns d lower upper centre (fine ns d [m]) = ⟨0, centre, 0⟩ := by
  have g := coarse_fine ns d lower upper centre [m]
  have hs : sel ns d lower upper m = false := by
    unfold sel truncInt
    rw [if_pos (div_nonneg h0 hd.le)]
    have : ¬ (0 ≤ ⌊m.len / d⌋ ∧ ⌊m.len / d⌋ < (ns : ℤ)) := by
      rintro ⟨-, hc⟩
      rw [Int.floor_lt, div_lt_iff₀ hd] at hc
      have : ((ns : ℤ) : K) = (ns : K) := by norm_cast
      rw [this] at hc
      exact absurd h (not_le.2 hc)
    rw [decide_eq_false this, Bool.false_and]
  rw [List.filter_cons, hs] at g
  obtain ⟨g1, -, g3⟩ := g
  obtain ⟨g4, g5⟩ := g3 rfl
  generalize coarse ns d lower upper centre (fine ns d [m]) = r at *
  obtain ⟨a, b, c⟩ := r
  simp only at g1 g4 g5
  subst g4 g5
  rw [g1]
  rfl

end

/-- A small sampling: two modes in the first bin, one in the second, one beyond. -/
example : (binStats (K := ℚ) (V := ℚ) 40 (1 / 10) [0, 1, 2] [1 / 2, 3 / 2] 2
    [⟨1 / 3, 4⟩, ⟨7 / 4, 5⟩, ⟨3, 9⟩, ⟨2 / 3, 6⟩]).map (fun b => (b.num, b.len, b.val)) =
    [(2, 1 / 2, 5), (1, 7 / 4, 5)] := by decide +kernel

/-- The hypotheses of the aligned theorem are met by bins of width `0.01` in Fourier space. -/
example : ∀ b, b ≤ 2 → ([1 / 100, 2 / 100, 3 / 100] : List ℚ).getD b 0 =
    (((b + 1) * 1000 : ℕ) : ℚ) * dkSample ∧ (b + 1) * 1000 ≤ nSample := by
  intro b hb
  have h : b = 0 ∨ b = 1 ∨ b = 2 := by omega
  rcases h with rfl | rfl | rfl <;> exact ⟨by decide +kernel, by decide +kernel⟩

/-- The hypotheses of the violation are met by a lower edge `0.005123` in Fourier space. -/
example : (∀ t : ℕ, (5123 / 1000000 : ℚ) ≠ t * dkSample) := by
  intro t h
  have : (5123 : ℚ) = ((10 * t : ℕ) : ℚ) := by
    unfold dkSample at h
    push_cast
    linarith
  have : (5123 : ℕ) = 10 * t := by exact_mod_cast this
  omega

/-! ### C22 -/

/-- **C22.** For every order in which the threads process the cells, the recorded vectors are
those mesh vectors whose length lies in a bin, each once; each record has the bin of its vector;
and the records are ordered by bin. -/
theorem C22_binned_vectors (m : MathLib K) (hpi : 0 < m.pi) (mag : (Fin 3 → K) → K)
    (hmag : ∀ v i, |v i| ≤ mag v) (B : Cpp K) (n : Fin 3 → ℤ) (L : Fin 3 → K) (hn : ∀ i, 1 ≤ n i)
    (hL : ∀ i, 0 < L i) (hedges : ∀ b : ℕ, b < B.numBins.toNat → B.edges.getD (b + 1) 0 ≤ B.binMax)
    (order : List (ℤ × ℤ × ℤ)) (ho : order.Perm (visited m B n L)) :
    ((recordBinned m mag B n L order).map Rec.vec).Perm
      (((cells n).map (gridVec n fun i => cellSize m B.space (n i) (L i))).filter
        fun v => inSomeBin B.edges B.numBins (mag v)) ∧
    (∀ r ∈ recordBinned m mag B n L order, r.Right mag B.edges B.numBins) ∧
    (recordBinned m mag B n L order).Pairwise fun r s => r.idx ≤ s.idx := by
  set gv := gridVec n fun i => cellSize m B.space (n i) (L i) with hgv
  set f : ℤ × ℤ × ℤ → Option (Rec K) := fun c =>
    findBin B.edges (mag (gv c)) (gv c) (List.range B.numBins.toNat) with hf
  have hcol : collect m mag B n L order = order.filterMap f := rfl
  have hsome : ∀ c, (f c).isSome = inSomeBin B.edges B.numBins (mag (gv c)) := fun c => findBin_isSome
  have hskip : ∀ c ∈ cells n, c ∉ visited m B n L → f c = none := by
    intro c hc hv
    by_contra hne
    obtain ⟨r, hr⟩ := Option.ne_none_iff_exists'.1 hne
    obtain ⟨-, b, hb, -, -, hu, -, hlt⟩ := findBin_some hr
    have hmax : mag (gv c) < B.binMax := by
      refine lt_of_lt_of_le hlt ?_
      rw [hu]
      exact hedges b (List.mem_range.1 hb)
    obtain ⟨c0, c1, c2⟩ := mem_cells.1 hc
    rw [mem_visited] at hv
    have hax : ∃ i, B.binMax < |gv c i| := by
      by_cases h0 : c.1 ∈ axisRange m B.space (n 0) (L 0) B.binMax
      · by_cases h1 : c.2.1 ∈ axisRange m B.space (n 1) (L 1) B.binMax
        · have h2 : c.2.2 ∉ axisRange m B.space (n 2) (L 2) B.binMax := fun h2 => hv ⟨h0, h1, h2⟩
          exact ⟨2, axis_skipped hpi (hn 2) (hL 2) c2 h2⟩
        · exact ⟨1, axis_skipped hpi (hn 1) (hL 1) c1 h1⟩
      · exact ⟨0, axis_skipped hpi (hn 0) (hL 0) c0 h0⟩
    obtain ⟨i, hi⟩ := hax
    exact absurd (lt_of_lt_of_le hi (hmag (gv c) i)) (not_lt.2 hmax.le)
  have hvis : (visited m B n L).Perm ((cells n).filter fun c => decide (c ∈ visited m B n L)) := by
    apply (List.perm_ext_iff_of_nodup ?_ ?_).2
    · intro c
      rw [List.mem_filter, decide_eq_true_eq]
      refine ⟨fun h => ⟨?_, h⟩, fun h => h.2⟩
      obtain ⟨h0, h1, h2⟩ := mem_visited.1 h
      exact mem_cells.2 ⟨axis_mem_bounds (hn 0) h0, axis_mem_bounds (hn 1) h1,
        axis_mem_bounds (hn 2) h2⟩
    · exact nodup_triple nodup_axis nodup_axis nodup_axis
    · exact (nodup_cells n).filter _
  have hall : (order.filterMap f).Perm ((cells n).filterMap f) := by
    refine ((ho.trans hvis).filterMap f).trans (List.Perm.of_eq ?_)
    rw [List.filterMap_filter]
    apply List.filterMap_congr
    intro c hc
    by_cases h : c ∈ visited m B n L
    · simp [h]
    · simp [h, hskip c hc h]
  have hrec : (recordBinned m mag B n L order).Perm ((cells n).filterMap f) := by
    unfold recordBinned
    rw [hcol]
    exact (sortRecs_perm _).trans hall
  refine ⟨?_, ?_, sortRecs_sorted _⟩
  · refine (hrec.map _).trans (List.Perm.of_eq ?_)
    rw [List.filter_map]
    generalize cells n = cs
    induction cs with
    | nil => rfl
    | cons c cs ih =>
      rw [List.filterMap_cons, List.filter_cons]
      have hs := hsome c
      cases hc : f c with
      | none =>
        rw [hc] at hs
        simp only [Option.isSome_none] at hs
        simp only [Function.comp, ← hs]
        exact ih
      | some r =>
        rw [hc] at hs
        simp only [Option.isSome_some] at hs
        simp only [Function.comp, ← hs, if_true, List.map_cons]
        rw [(findBin_some hc).1]
        congr 1
  · intro r hr
    have hr' := hrec.mem_iff.1 hr
    obtain ⟨c, -, hc⟩ := List.mem_filterMap.1 hr'
    obtain ⟨h1, b, hb, h2, h3, h4, h5, h6⟩ := findBin_some hc
    have hb' := List.mem_range.1 hb
    refine ⟨by omega, by omega, ?_, ?_, by rw [h1]; exact h5, by rw [h1]; exact h6⟩
    · rw [h3, h2]; rfl
    · rw [h4, h2]; rfl

end

/-- The magnitude of the code (`maths.cpp:53-59`) over the reals meets the hypothesis. -/
theorem C22_magnitude (v : Fin 3 → ℝ) (i : Fin 3) :
    |v i| ≤ Real.sqrt (v 0 * v 0 + v 1 * v 1 + v 2 * v 2) := by
  apply Real.abs_le_sqrt
  have h0 := mul_self_nonneg (v 0)
  have h1 := mul_self_nonneg (v 1)
  have h2 := mul_self_nonneg (v 2)
  have : i = 0 ∨ i = 1 ∨ i = 2 := by omega
  rcases this with rfl | rfl | rfl <;> nlinarith

/-- A mesh with 4, 2 and 2 cells of size 2 processed backwards, lengths in the taxicab norm (which
dominates the components): the records of two bins. -/
example : (recordBinned (K := ℚ) ⟨id, id, 22 / 7⟩ (fun v => |v 0| + |v 1| + |v 2|)
    ⟨.config, "lin", 0, 4, 2, [0, 2, 4], [], [], 0, 0⟩ ![4, 2, 2] ![8, 4, 4]
    (cells ![4, 2, 2]).reverse).map (fun r => (r.idx, r.vec 0, r.vec 1, r.vec 2)) =
    [(0, 0, 0, 0), (1, -2, 0, 0), (1, 2, 0, 0), (1, 0, -2, 0), (1, 0, 0, -2)] := by decide +kernel

example : (cells ![4, 2, 2]).reverse.Perm (visited (K := ℚ) ⟨id, id, 22 / 7⟩
    ⟨.config, "lin", 0, 4, 2, [0, 2, 4], [], [], 0, 0⟩ ![4, 2, 2] ![8, 4, 4]) := by decide +kernel

/-! ### C59 -/

section
variable {K : Type} [Field K] [LinearOrder K] [IsStrictOrderedRing K] [FloorRing K]

/-- **C59 (part).** Fields reported compatible share box sizes, grid numbers and mesh number with
the statistics object, and the second field shares its volume. -/
theorem C59_compatible_partial (p a b : Dims K) (h : compatible p a b = true) :
    a.box = p.box ∧ b.box = p.box ∧ a.ngrid = p.ngrid ∧ b.ngrid = p.ngrid ∧ a.nmesh = p.nmesh ∧
      b.nmesh = p.nmesh ∧ b.volume = p.volume := by
  unfold compatible at h
  simp only [List.foldl_cons, List.foldl_nil] at h
  split_ifs at h with h0 h3 h2 h1
  push Not at h0 h1 h2 h3
  refine ⟨?_, ?_, ?_, ?_, h0.1.symm, h0.2.1.symm, h0.2.2.1.symm⟩ <;> funext i <;>
    (have hi : i = 0 ∨ i = 1 ∨ i = 2 := by omega) <;> rcases hi with rfl | rfl | rfl
  · exact h1.1.symm
  · exact h2.1.symm
  · exact h3.1.symm
  · exact h1.2.1.symm
  · exact h2.2.1.symm
  · exact h3.2.1.symm
  · exact h1.2.2.1.symm
  · exact h2.2.2.1.symm
  · exact h3.2.2.1.symm
  · exact h1.2.2.2.symm
  · exact h2.2.2.2.symm
  · exact h3.2.2.2.symm

/-- **C59 (part).** If the volumes are the products of the box sizes, reported compatibility
implies that all three share it. -/
theorem C59_derived_volume_partial (p a b : Dims K)
    (hv : ∀ d ∈ [p, a, b], d.volume = d.box 0 * d.box 1 * d.box 2) (h : compatible p a b = true) :
    a.volume = p.volume ∧ b.volume = p.volume := by
  obtain ⟨h1, -, -, -, -, -, h2⟩ := C59_compatible_partial p a b h
  refine ⟨?_, h2⟩
  rw [hv a (by simp), hv p (by simp), h1]

/-- **C59 (violated).** The volume of the first field is never compared. -/
theorem C59_first_volume_violated (p : Dims K) (v : K) :
    compatible p { p with volume := v } p = true := by
  unfold compatible
  simp

example : compatible (K := ℚ) ⟨fun _ => 10, fun _ => 4, 64, 1000⟩ ⟨fun _ => 10, fun _ => 4, 64, 2⟩
    ⟨fun _ => 10, fun _ => 4, 64, 1000⟩ = true := by decide +kernel

example : compatible (K := ℚ) ⟨fun _ => 10, fun _ => 4, 64, 1000⟩ ⟨fun _ => 10, fun _ => 5, 64, 1000⟩
    ⟨fun _ => 10, fun _ => 4, 64, 1000⟩ = false := by decide +kernel

end
end Trv.Stats

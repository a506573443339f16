import Verif.Lemmas.Binning
import Mathlib.Data.Rat.Cast.Order
import Mathlib.Analysis.SpecialFunctions.Log.Basic
import Mathlib.Analysis.Real.Pi.Bounds
/-
Property theorems on binning: C15-C20.
-/
set_option linter.unusedSectionVars false
set_option linter.unusedSimpArgs false
namespace Trv.Binning

variable {K : Type} [Field K] [LinearOrder K] [IsStrictOrderedRing K]

/-- The real elementary functions. -/
noncomputable def realLib : MathLib ℝ := ⟨Real.log, Real.exp, Real.pi⟩

/-- A library over the rationals for executable examples of the linear schemes. -/
def ratLib : MathLib ℚ := ⟨fun _ => 0, fun _ => 1, 22 / 7⟩

/-! ### C15 -/

theorem C15_linear_binning (m : MathLib K) (B : Cpp K) (hs : B.scheme = "lin") (lo hi : K) (n : ℤ)
    (h0 : 0 ≤ lo) (hlt : lo < hi) (hn : 0 < n) :
    ∃ B', B.setBins m lo hi n = (B', none) ∧
      B'.binMin = lo ∧ B'.binMax = hi ∧ B'.numBins = n ∧
      IsBinning lo hi n.toNat B'.edges B'.centres B'.widths ∧
      Partitions lo hi n.toNat B'.edges ∧
      (∀ w ∈ B'.widths, w = (hi - lo) / n) := by
  obtain ⟨k, rfl⟩ : ∃ k : ℕ, n = k := ⟨n.toNat, by omega⟩
  have hk : 0 < k := by exact_mod_cast hn
  have hkK : (0 : K) < k := by exact_mod_cast hk
  have hd : 0 < (hi - lo) / (k : K) := div_pos (by linarith) hkK
  have hbin : IsBinning lo hi k
      ((List.range k).map (fun i : ℕ => lo + (hi - lo) / (k : K) * (i : K)) ++ [hi])
      ((List.range k).map (fun i : ℕ => lo + (hi - lo) / (k : K) * (i : K) + (hi - lo) / (k : K) / 2))
      ((List.range k).map (fun _ => (hi - lo) / (k : K))) := by
    apply isBinning_of_fun k (fun i : ℕ => lo + (hi - lo) / (k : K) * (i : K)) lo hi
    · simp
    · field_simp; ring
    · intro i _; push_cast; linarith
    · rfl
    · apply List.map_congr_left; intro i _; push_cast; ring
    · apply List.map_congr_left; intro i _; push_cast; ring
  unfold Cpp.setBins
  rw [if_neg (not_lt.mpr h0), if_neg (by omega)]
  unfold Cpp.reset Cpp.clear computeBinning
  simp only [hs, if_true, loop_zero, List.nil_append, Int.toNat_natCast, Int.cast_natCast]
  refine ⟨_, rfl, ?_⟩
  · refine ⟨rfl, rfl, rfl, ?_, ?_, ?_⟩
    · simpa using hbin
    · simpa using hbin.partitions
    · intro w hw
      simp only [List.mem_map] at hw
      obtain ⟨_, _, rfl⟩ := hw
      simp

example : ((Cpp.new .fourier "lin" 0 0 0 : Cpp ℚ).setBins ratLib (1 / 2) 2 3).1.edges
    = [1 / 2, 1, 3 / 2, 2] := by decide +kernel

/-! ### C16 -/

theorem C16_logarithmic_binning (B : Cpp ℝ) (hs : B.scheme = "log") (lo hi : ℝ) (n : ℤ)
    (h0 : 0 < lo) (hlt : lo < hi) (hn : 0 < n) :
    ∃ B', B.setBins realLib lo hi n = (B', none) ∧
      B'.binMin = lo ∧ B'.binMax = hi ∧ B'.numBins = n ∧
      IsBinning lo hi n.toNat B'.edges B'.centres B'.widths ∧
      Partitions lo hi n.toNat B'.edges ∧
      (∃ q, 1 < q ∧ ∀ (i : ℕ) a b, B'.edges[i]? = some a → B'.edges[i + 1]? = some b → b = q * a) := by
  obtain ⟨k, rfl⟩ : ∃ k : ℕ, n = k := ⟨n.toNat, by omega⟩
  have hk : 0 < k := by exact_mod_cast hn
  have hkK : (0 : ℝ) < k := by exact_mod_cast hk
  obtain ⟨d, hd⟩ : ∃ d, d = (Real.log hi - Real.log lo) / (k : ℝ) := ⟨_, rfl⟩
  have hdpos : 0 < d := by
    rw [hd]; exact div_pos (sub_pos.mpr (Real.log_lt_log h0 hlt)) hkK
  have hend : lo * Real.exp (d * (k : ℝ)) = hi := by
    rw [hd, div_mul_cancel₀ _ hkK.ne', Real.exp_sub, Real.exp_log (h0.trans hlt), Real.exp_log h0]
    field_simp
  have hbin : IsBinning lo hi k
      ((List.range k).map (fun i : ℕ => lo * Real.exp (d * (i : ℝ))) ++ [hi])
      ((List.range k).map (fun i : ℕ =>
        (lo * Real.exp (d * (i : ℝ)) + lo * Real.exp (d * ((i : ℝ) + 1))) / 2))
      ((List.range k).map (fun i : ℕ =>
        lo * Real.exp (d * ((i : ℝ) + 1)) - lo * Real.exp (d * (i : ℝ)))) := by
    apply isBinning_of_fun k (fun i : ℕ => lo * Real.exp (d * (i : ℝ))) lo hi
    · simp
    · exact hend
    · intro i _
      apply mul_lt_mul_of_pos_left _ h0
      apply Real.exp_lt_exp.mpr
      push_cast; nlinarith
    · rfl
    · apply List.map_congr_left; intro i _; push_cast; rfl
    · apply List.map_congr_left; intro i _; push_cast; rfl
  unfold Cpp.setBins
  rw [if_neg (not_lt.mpr h0.le), if_neg (by omega)]
  unfold Cpp.reset Cpp.clear computeBinning
  simp only [hs, loop_zero, List.nil_append, Int.toNat_natCast, Int.cast_natCast]
  rw [if_neg (by decide), if_pos trivial, if_neg h0.ne']
  refine ⟨_, rfl, ?_⟩
  · simp only [realLib]
    rw [← hd]
    refine ⟨trivial, trivial, trivial, hbin, hbin.partitions, Real.exp d, ?_, ?_⟩
    · exact Real.one_lt_exp_iff.mpr hdpos
    · intro i a b ha hb
      have hlist : (List.range k).map (fun i : ℕ => lo * Real.exp (d * (i : ℝ))) ++ [hi]
          = (List.range (k + 1)).map (fun i : ℕ => lo * Real.exp (d * (i : ℝ))) := by
        rw [List.range_succ, List.map_append]; simp [hend]
      rw [hlist, List.getElem?_map] at ha hb
      obtain ⟨j, hj, rfl⟩ := Option.map_eq_some_iff.mp ha
      obtain ⟨j', hj', rfl⟩ := Option.map_eq_some_iff.mp hb
      rw [List.getElem?_eq_some_iff] at hj hj'
      obtain ⟨_, hj⟩ := hj
      obtain ⟨_, hj'⟩ := hj'
      simp only [List.getElem_range] at hj hj'
      subst hj hj'
      push_cast
      rw [mul_add, mul_one, Real.exp_add]; ring

/-- **C16.** A zero minimum is rejected. -/
theorem C16_zero_minimum_rejected (m : MathLib K) (B : Cpp K) (hs : B.scheme = "log") (hi : K)
    (n : ℤ) : (B.setBins m 0 hi n).2 = some .invalidParameter := by
  unfold Cpp.setBins
  rw [if_neg (lt_irrefl _)]
  by_cases hn : n ≤ 0
  · rw [if_pos hn]
  · rw [if_neg hn]
    unfold Cpp.reset Cpp.clear computeBinning
    simp [hs]

example : (Cpp.new .config "log" 0 0 0 : Cpp ℝ).scheme = "log" ∧ (0 : ℝ) < 1 ∧ (1 : ℝ) < 100 := by
  refine ⟨rfl, ?_, ?_⟩ <;> norm_num

/-! ### C17 -/

/-- **C17 (partial: more than five bins).** For both padded schemes, more than
five bins and a maximum above the padded range, the bins are consistent,
increasing, begin at zero and end at the maximum.  Missing: one to five bins,
where it is false (next theorems). -/
theorem C17_padded_binning_partial (B : Cpp ℝ) (hs : B.scheme = "linpad" ∨ B.scheme = "logpad")
    (lo hi : ℝ) (n : ℤ) (h0 : 0 ≤ lo) (hn : 5 < n) (hpad : 0 < B.pad) (hhi : 5 * B.pad < hi) :
    ∃ B', B.setBins realLib lo hi n = (B', none) ∧ B'.numBins = n ∧
      IsBinning 0 hi n.toNat B'.edges B'.centres B'.widths ∧
      Partitions 0 hi n.toNat B'.edges ∧
      ∀ i : ℕ, i < 5 → B'.edges[i]? = some (B.pad * i) := by
  obtain ⟨k, rfl⟩ : ∃ k : ℕ, n = k := ⟨n.toNat, by omega⟩
  have hk : 5 < k := by exact_mod_cast hn
  have hkK : (5 : ℝ) < k := by exact_mod_cast hk
  obtain ⟨p, hp⟩ : ∃ p, p = B.pad := ⟨_, rfl⟩
  rw [← hp] at hpad hhi ⊢
  have hsplit := loop_split 5 (k : ℤ) (by omega)
  rw [Int.toNat_natCast, Nat.cast_ofNat] at hsplit
  -- common reduction: a tail edge function continuing the padded bins
  have main : ∀ (t : ℕ → ℝ) (cs ws : List ℝ), t 5 = p * 5 → t k = hi →
      (∀ i : ℕ, 5 ≤ i → i < k → t i < t (i + 1)) →
      cs = (loop 0 5).map (fun i : ℕ => p * (i : ℝ) + p / 2)
        ++ (loop 5 k).map (fun i => (t i + t (i + 1)) / 2) →
      ws = (loop 0 5).map (fun _ => p) ++ (loop 5 k).map (fun i => t (i + 1) - t i) →
      IsBinning 0 hi k ((loop 0 5).map (fun i : ℕ => p * (i : ℝ)) ++ (loop 5 k).map t ++ [hi]) cs ws
      ∧ ∀ i : ℕ, i < 5 → ((loop 0 5).map (fun i : ℕ => p * (i : ℝ)) ++ (loop 5 k).map t ++ [hi])[i]?
          = some (p * i) := by
    intro t cs ws h5 hk' hmono hcs hws
    obtain ⟨f, hf⟩ : ∃ f : ℕ → ℝ, f = fun i : ℕ => if i < 5 then p * (i : ℝ) else t i := ⟨_, rfl⟩
    have hlow : ∀ i ∈ loop 0 5, i < 5 := by intro i hi; simp [loop] at hi; omega
    have hup : ∀ i ∈ loop 5 (k : ℤ), 5 ≤ i ∧ i < k := by
      intro i hi; simp [loop] at hi; omega
    have e1 : (loop 0 5).map (fun i : ℕ => p * (i : ℝ)) = (loop 0 5).map f := by
      apply List.map_congr_left; intro i hi; simp [hf, hlow i hi]
    have e2 : (loop 5 (k : ℤ)).map t = (loop 5 k).map f := by
      apply List.map_congr_left; intro i hi
      have := (hup i hi).1
      simp [hf, Nat.not_lt.mpr this]
    have hstep : ∀ i, i < 5 → f (i + 1) = p * ((i : ℝ) + 1) := by
      intro i hi
      rw [hf]; simp only
      split_ifs with h
      · push_cast; ring
      · have : i = 4 := by omega
        subst this
        rw [h5]; norm_num
    constructor
    · apply isBinning_of_fun k f 0 hi
      · simp [hf]
      · rw [hf]; simp only; rw [if_neg (by omega)]; exact hk'
      · intro i hi
        by_cases h : i < 5
        · rw [hstep i h, hf]; simp only; rw [if_pos h]; nlinarith
        · rw [hf]; simp only; rw [if_neg h, if_neg (by omega)]
          exact hmono i (by omega) hi
      · rw [e1, e2, ← List.map_append, hsplit]
      · rw [hcs, ← hsplit, List.map_append]
        congr 1
        · apply List.map_congr_left; intro i hi
          have h := hlow i hi
          rw [hstep i h, hf]; simp only; rw [if_pos h]; ring
        · apply List.map_congr_left; intro i hi
          have h := (hup i hi).1
          rw [hf]; simp only; rw [if_neg (by omega), if_neg (by omega)]
      · rw [hws, ← hsplit, List.map_append]
        congr 1
        · apply List.map_congr_left; intro i hi
          have h := hlow i hi
          rw [hstep i h, hf]; simp only; rw [if_pos h]; ring
        · apply List.map_congr_left; intro i hi
          have h := (hup i hi).1
          rw [hf]; simp only; rw [if_neg (by omega), if_neg (by omega)]
    · intro i hi
      rw [e1, e2, ← List.map_append, hsplit, List.getElem?_append_left (by simp; omega),
        List.getElem?_map, List.getElem?_range (by omega)]
      simp [hf, hi]
  rcases hs with hs | hs
  · obtain ⟨d, hd⟩ : ∃ d, d = (hi - p * 5) / ((k : ℝ) - 5) := ⟨_, rfl⟩
    have hdpos : 0 < d := by rw [hd]; exact div_pos (by linarith) (by linarith)
    have hend : p * 5 + d * ((k : ℝ) - 5) = hi := by
      rw [hd, div_mul_cancel₀ _ (by linarith)]; ring
    obtain ⟨hb, hf5⟩ := main (fun i : ℕ => p * 5 + d * ((i : ℝ) - 5))
      ((loop 0 5).map (fun i : ℕ => p * (i : ℝ) + p / 2)
        ++ (loop 5 k).map (fun i : ℕ => p * 5 + d * ((i : ℝ) - 5) + d / 2))
      ((loop 0 5).map (fun _ => p) ++ (loop 5 k).map (fun _ => d))
      (by norm_num) (by simpa using hend) (by intro i _ _; push_cast; nlinarith)
      (by congr 1; apply List.map_congr_left; intro i _; push_cast; ring)
      (by congr 1; apply List.map_congr_left; intro i _; push_cast; ring)
    unfold Cpp.setBins
    rw [if_neg (not_lt.mpr h0), if_neg (by omega)]
    unfold Cpp.reset Cpp.clear computeBinning
    simp only [hs, List.nil_append, Int.cast_natCast]
    rw [if_neg (by decide), if_neg (by decide), if_pos trivial]
    refine ⟨_, rfl, ?_⟩
    · have hp' : ∀ x y z v e c w, Cpp.pad ⟨B.space, x, y, z, v, e, c, w, B.padFourier, B.padConfig⟩ = p :=
        fun _ _ _ _ _ _ _ => hp.symm
      simp only [nbinPad, Nat.cast_ofNat]
      simp only [hp', ← hd]
      exact ⟨trivial, hb, hb.partitions, hf5⟩
  · obtain ⟨d, hd⟩ : ∃ d, d = (Real.log hi - Real.log (p * 5)) / ((k : ℝ) - 5) := ⟨_, rfl⟩
    have hp5 : 0 < p * 5 := by linarith
    have hhi0 : 0 < hi := by linarith
    have hdpos : 0 < d := by
      rw [hd]; exact div_pos (sub_pos.mpr (Real.log_lt_log hp5 (by linarith))) (by linarith)
    have hend : p * 5 * Real.exp (d * ((k : ℝ) - 5)) = hi := by
      rw [hd, div_mul_cancel₀ _ (by linarith), Real.exp_sub, Real.exp_log hhi0, Real.exp_log hp5]
      field_simp
    obtain ⟨hb, hf5⟩ := main (fun i : ℕ => p * 5 * Real.exp (d * ((i : ℝ) - 5)))
      ((loop 0 5).map (fun i : ℕ => p * (i : ℝ) + p / 2)
        ++ (loop 5 k).map (fun i : ℕ => (p * 5 * Real.exp (d * ((i : ℝ) - 5))
          + p * 5 * Real.exp (d * ((i : ℝ) - 5 + 1))) / 2))
      ((loop 0 5).map (fun _ => p) ++ (loop 5 k).map (fun i : ℕ =>
        p * 5 * Real.exp (d * ((i : ℝ) - 5 + 1)) - p * 5 * Real.exp (d * ((i : ℝ) - 5))))
      (by norm_num) (by simpa using hend)
      (by
        intro i _ _
        apply mul_lt_mul_of_pos_left _ hp5
        apply Real.exp_lt_exp.mpr
        push_cast; nlinarith)
      (by
        congr 1; apply List.map_congr_left; intro i _; push_cast
        rw [show (i : ℝ) + 1 - 5 = (i : ℝ) - 5 + 1 by ring])
      (by
        congr 1; apply List.map_congr_left; intro i _; push_cast
        rw [show (i : ℝ) + 1 - 5 = (i : ℝ) - 5 + 1 by ring])
    unfold Cpp.setBins
    rw [if_neg (not_lt.mpr h0), if_neg (by omega)]
    unfold Cpp.reset Cpp.clear computeBinning
    simp only [hs, List.nil_append, Int.cast_natCast]
    rw [if_neg (by decide), if_neg (by decide), if_neg (by decide), if_pos trivial]
    refine ⟨_, rfl, ?_⟩
    · have hp' : ∀ x y z v e c w, Cpp.pad ⟨B.space, x, y, z, v, e, c, w, B.padFourier, B.padConfig⟩ = p :=
        fun _ _ _ _ _ _ _ => hp.symm
      simp only [nbinPad, Nat.cast_ofNat, realLib]
      simp only [hp', ← hd]
      exact ⟨trivial, hb, hb.partitions, hf5⟩

example : ((Cpp.new .config "linpad" 0 0 0 : Cpp ℚ).setBins ratLib 0 100 7).1.edges
    = [0, 10, 20, 30, 40, 50, 75, 100] := by decide +kernel

/-- **C17 is violated for fewer than five bins**: the call is accepted, but five
centres and widths and six edges are set. -/
theorem C17_few_bins_violated (m : MathLib K) (B : Cpp K)
    (hs : B.scheme = "linpad" ∨ B.scheme = "logpad") (lo hi : K) (n : ℤ) (h0 : 0 ≤ lo)
    (hn : 0 < n) (hn5 : n < 5) :
    ∃ B', B.setBins m lo hi n = (B', none) ∧ B'.numBins = n ∧ B'.centres.length = 5 ∧
      B'.edges.length = 6 := by
  have h5 : loop 5 n = [] := by
    unfold loop; rw [show n.toNat - 5 = 0 by omega]; rfl
  rcases hs with hs | hs
  · unfold Cpp.setBins
    rw [if_neg (not_lt.mpr h0), if_neg (by omega)]
    unfold Cpp.reset Cpp.clear computeBinning
    simp only [hs]
    rw [if_neg (by decide), if_neg (by decide), if_pos trivial]
    refine ⟨_, rfl, ?_⟩
    · simp only [nbinPad, h5]; exact ⟨trivial, rfl, rfl⟩
  · unfold Cpp.setBins
    rw [if_neg (not_lt.mpr h0), if_neg (by omega)]
    unfold Cpp.reset Cpp.clear computeBinning
    simp only [hs]
    rw [if_neg (by decide), if_neg (by decide), if_neg (by decide), if_pos trivial]
    refine ⟨_, rfl, ?_⟩
    · simp only [nbinPad, h5]; exact ⟨trivial, rfl, rfl⟩

/-- **C17 is violated for exactly five bins**: the last width does not match the
last two edges unless the maximum is exactly five paddings. -/
theorem C17_five_bins_violated (m : MathLib K) (B : Cpp K)
    (hs : B.scheme = "linpad" ∨ B.scheme = "logpad") (lo hi : K) (h0 : 0 ≤ lo)
    (hne : hi ≠ 5 * B.pad) :
    ∃ B', B.setBins m lo hi 5 = (B', none) ∧ B'.edges[4]? = some (B.pad * 4) ∧
      B'.edges[5]? = some hi ∧ B'.widths[4]? = some (B.pad) ∧ B.pad ≠ hi - B.pad * 4 := by
  have h5 : loop 5 5 = [] := rfl
  have hne' : B.pad ≠ hi - B.pad * 4 := by
    intro h; apply hne; linarith
  have hl : loop 0 5 = [0, 1, 2, 3, 4] := rfl
  rcases hs with hs | hs
  · unfold Cpp.setBins
    rw [if_neg (not_lt.mpr h0), if_neg (by omega)]
    unfold Cpp.reset Cpp.clear computeBinning
    simp only [hs]
    rw [if_neg (by decide), if_neg (by decide), if_pos trivial]
    refine ⟨_, rfl, ?_⟩
    · simp only [nbinPad, Nat.cast_ofNat, h5, hl]
      exact ⟨rfl, rfl, rfl, hne'⟩
  · unfold Cpp.setBins
    rw [if_neg (not_lt.mpr h0), if_neg (by omega)]
    unfold Cpp.reset Cpp.clear computeBinning
    simp only [hs]
    rw [if_neg (by decide), if_neg (by decide), if_neg (by decide), if_pos trivial]
    refine ⟨_, rfl, ?_⟩
    · simp only [nbinPad, Nat.cast_ofNat, h5, hl]
      exact ⟨rfl, rfl, rfl, hne'⟩

example : ((Cpp.new .config "linpad" 0 0 0 : Cpp ℚ).setBins ratLib 0 100 5).1.edges
    = [0, 10, 20, 30, 40, 100] := by decide +kernel

/-! ### C18 -/

/-- The documented width and maximum (`dataobjs.pyx:165-169`). -/
def documentedWidth (m : MathLib K) (s : Space) (L : K) (N : ℤ) : K := match s with
  | .config => L / N
  | .fourier => 2 * m.pi / L
def documentedMax (m : MathLib K) (s : Space) (L : K) (N : ℤ) : K := match s with
  | .config => L / 2
  | .fourier => m.pi * N / L

/-- **C18 is violated**: for every even grid number, the width of each bin is the
documented one times `1 + 1/N` and the maximum exceeds the documented one by half
a documented width. -/
theorem C18_width_and_max_violated (m : MathLib K) (hpi : 0 < m.pi) (B : Cpp K) (L : K) (hL : 0 < L)
    (h : ℤ) (hh : 0 < h) :
    ∃ B', B.setGridBins m L (2 * h) = (B', none) ∧ B'.numBins = h ∧ B'.widths.length = h.toNat ∧
      (∀ w ∈ B'.widths, w = documentedWidth m B.space L (2 * h) * (1 + 1 / (2 * h)) ∧
        w ≠ documentedWidth m B.space L (2 * h)) ∧
      B'.binMax = documentedMax m B.space L (2 * h) + documentedWidth m B.space L (2 * h) / 2 ∧
      B'.binMax ≠ documentedMax m B.space L (2 * h) := by
  have hK : (0 : K) < h := by exact_mod_cast hh
  have hdpos : 0 < documentedWidth m B.space L (2 * h) := by
    unfold documentedWidth
    cases B.space
    · push_cast; positivity
    · positivity
  have htd : Int.tdiv (2 * h) 2 = h := by
    rw [Int.mul_tdiv_cancel_left _ (by norm_num)]
  unfold Cpp.setGridBins Cpp.reset Cpp.clear computeBinning
  simp only [if_true, htd]
  refine ⟨_, rfl, ?_⟩
  · refine ⟨rfl, by simp [loop], ?_, ?_, ?_⟩
    · intro w hw
      have hw' : w = documentedWidth m B.space L (2 * h) * (1 + 1 / (2 * h)) := by
        simp only [List.nil_append, List.mem_map] at hw
        obtain ⟨_, _, rfl⟩ := hw
        unfold documentedWidth gridMax gridWidth
        cases B.space <;> · simp only; push_cast; field_simp; ring
      refine ⟨hw', ?_⟩
      rw [hw']
      intro hcon
      have : documentedWidth m B.space L (2 * h) * (1 / (2 * h)) = 0 := by linarith
      have h2 : (0 : K) < 1 / (2 * h) := by positivity
      exact absurd this (mul_pos hdpos h2).ne'
    · unfold documentedWidth documentedMax gridMax gridWidth
      cases B.space <;> rfl
    · have h1 : gridMax m B.space L (2 * h) = documentedMax m B.space L (2 * h) := by
        unfold documentedMax gridMax; cases B.space <;> rfl
      have h2 : gridWidth m B.space L (2 * h) = documentedWidth m B.space L (2 * h) := by
        unfold documentedWidth gridWidth; cases B.space <;> rfl
      simp only [h1, h2]
      intro hc
      linarith

/-- **C18 (partial: without the documented width and maximum).** The grid-based
bins are a uniform binning from zero to the maximum set, with half the grid
number of bins. -/
theorem C18_grid_binning_consistent_partial (m : MathLib K) (hpi : 0 < m.pi) (B : Cpp K) (L : K)
    (hL : 0 < L) (N : ℤ) (hN : 2 ≤ N) :
    ∃ B', B.setGridBins m L N = (B', none) ∧ B'.scheme = "lin" ∧ B'.numBins = N / 2 ∧
      IsBinning 0 B'.binMax (N / 2).toNat B'.edges B'.centres B'.widths := by
  obtain ⟨hi, hhi⟩ : ∃ hi, hi = gridMax m B.space L N + gridWidth m B.space L N / 2 := ⟨_, rfl⟩
  have hNK : (0 : K) < N := by exact_mod_cast (by omega : 0 < N)
  have hpos : 0 < hi := by rw [hhi]; unfold gridMax gridWidth; cases B.space <;> · simp only; positivity
  have htd : Int.tdiv N 2 = N / 2 := Int.tdiv_eq_ediv_of_nonneg (by omega)
  obtain ⟨B', hB, h1, h2, h3, h4, _⟩ := C15_linear_binning m
    ({ B with scheme := "lin", binMin := 0, binMax := hi, numBins := N / 2 }) rfl 0 hi (N / 2)
    le_rfl hpos (by omega)
  refine ⟨B', ?_, ?_, h3, ?_⟩
  · unfold Cpp.setGridBins
    simp only [htd, ← hhi]
    unfold Cpp.setBins at hB
    rw [if_neg (lt_irrefl _), if_neg (by omega)] at hB
    exact hB
  · unfold Cpp.setBins Cpp.reset Cpp.clear computeBinning at hB
    rw [if_neg (lt_irrefl _), if_neg (by omega)] at hB
    simp only [if_true, Prod.mk.injEq, and_true] at hB
    rw [← hB]
  · rw [h2]; exact h4

example : ((Cpp.new .config "log" 0 0 0 : Cpp ℚ).setGridBins ratLib 100 4).1.edges
    = [0, 125 / 4, 125 / 2] := by decide +kernel

/-! ### C19 -/

/-- **C19 (partial: all but the main program's built-in binning).** Custom edges,
set through either interface, give a consistent binning, and both interfaces
agree. -/
theorem C19_custom_binning_partial (m : MathLib K) (B : Cpp K) (P : Py K) (es : List K)
    (hlen : 2 ≤ es.length) (hinc : es.Pairwise (· < ·)) :
    ∃ B' P' lo hi, B.setCustomBins es = (B', none) ∧ P.call m (.setCustom es) = (P', false) ∧
      B'.numBins = es.length - 1 ∧ B'.edges = es ∧ B'.scheme = "custom" ∧
      IsBinning lo hi (es.length - 1) B'.edges B'.centres B'.widths ∧
      Partitions lo hi (es.length - 1) B'.edges ∧
      (P'.binMin, P'.binMax, P'.numBins, P'.edges, P'.centres, P'.widths, P'.scheme)
        = (B'.binMin, B'.binMax, B'.numBins, B'.edges, B'.centres, B'.widths, B'.scheme) ∧
      (P'.binMin, P'.binMax, P'.numBins, P'.edges, P'.centres, P'.widths, P'.scheme)
        = (P'.cpp.binMin, P'.cpp.binMax, P'.cpp.numBins, P'.cpp.edges, P'.cpp.centres,
           P'.cpp.widths, P'.cpp.scheme) := by
  have hne : es ≠ [] := by rintro rfl; simp at hlen
  obtain ⟨lo, h0⟩ : ∃ lo, es.head? = some lo := ⟨es.head hne, List.head?_eq_some_head hne⟩
  obtain ⟨hi, h1⟩ : ∃ hi, es.getLast? = some hi := ⟨es.getLast hne, List.getLast?_eq_some_getLast hne⟩
  have hb := isBinning_custom es lo hi h0 h1 hinc
  unfold Cpp.setCustomBins Py.call
  simp only [h0, h1]
  refine ⟨_, _, lo, hi, rfl, rfl, ?_⟩
  · exact ⟨rfl, rfl, rfl, hb, hb.partitions, rfl, rfl⟩

example : ([1, 2, 4] : List ℚ).Pairwise (· < ·) := by decide +kernel

/-- **C19 is violated by the main program's built-in custom binning**: for every
bin number there is at least one centre and one width too many. -/
theorem C19_main_custom_bins_violated (m : MathLib K) (B : Cpp K) (hs : B.space = .config) :
    ∃ B', mainCustomBins m B = (B', none) ∧ B'.numBins = B.numBins ∧
      (B'.centres.length : ℤ) = max B.numBins 5 + 1 ∧
      (B'.widths.length : ℤ) = max B.numBins 5 + 1 ∧
      (B'.edges.length : ℤ) = max B.numBins 5 + 2 ∧
      (B'.centres.length : ℤ) ≠ B'.numBins ∧
      -- the second bin runs from 1 to 10, with the centre recorded as 5
      B'.edges[1]? = some 1 ∧ B'.edges[2]? = some 10 ∧ B'.centres[1]? = some 5 := by
  unfold mainCustomBins; rw [hs]
  refine ⟨_, rfl, rfl, ?_⟩
  · have h1 : loop 1 nbinPad = [1, 2, 3, 4] := rfl
    simp only [h1]
    have hl : ((loop nbinPad B.numBins).length : ℤ) = max B.numBins 5 - 5 := by
      unfold loop nbinPad; rw [List.length_range']; omega
    refine ⟨?_, ?_, ?_, ?_, ?_, ?_, ?_⟩
    · simp only [List.length_append, List.length_map, List.length_cons, List.length_nil]
      push_cast; omega
    · simp only [List.length_append, List.length_map, List.length_cons, List.length_nil]
      push_cast; omega
    · simp only [List.length_append, List.length_map, List.length_cons, List.length_nil]
      push_cast; omega
    · simp only [List.length_append, List.length_map, List.length_cons, List.length_nil]
      push_cast; omega
    · rfl
    · simp
    · rfl

/-! ### C20 -/

/-- The Python attributes describe one binning. -/
def Py.Consistent (P : Py K) : Prop :=
  (P.edges.length : ℤ) = P.numBins + 1 ∧ (P.centres.length : ℤ) = P.numBins ∧
  (P.widths.length : ℤ) = P.numBins ∧
  P.edges.head? = some P.binMin ∧ P.edges.getLast? = some P.binMax

/-- **C20 is violated**: after *any* rejected `set_bins` call the object's range
and number are the rejected ones while edges, centres and widths are the old
ones. -/
theorem C20_rejected_call_changes_object_violated (m : MathLib K) (P : Py K) (lo hi : K) (n : ℤ)
    (P' : Py K) (h : P.call m (.setBins lo hi n) = (P', true)) :
    P'.binMin = lo ∧ P'.binMax = hi ∧ P'.numBins = n ∧ P'.edges = P.edges ∧
      P'.centres = P.centres ∧ P'.widths = P.widths := by
  unfold Py.call at h
  simp only at h
  split at h
  · simp only [Prod.mk.injEq, and_true] at h
    subst h; exact ⟨rfl, rfl, rfl, rfl, rfl, rfl⟩
  · simp at h

/-- Concrete reachable instance: a consistent object becomes inconsistent. -/
theorem C20_consistency_lost_violated :
    ∃ (P : Py ℚ), P = (Py.new .fourier "lin").run ratLib [.setBins 0 1 2] ∧ P.Consistent ∧
      (P.call ratLib (.setBins 0 1 0)).2 = true ∧ ¬ (P.call ratLib (.setBins 0 1 0)).1.Consistent := by
  refine ⟨_, rfl, ?_, ?_, ?_⟩
  · unfold Py.Consistent; decide +kernel
  · decide +kernel
  · unfold Py.Consistent; decide +kernel

/-- Likewise after custom bins have been set: every later `set_bins` call is
rejected, and it clears the vectors of the wrapped C++ object. -/
theorem C20_set_bins_after_custom_violated (m : MathLib K) (P : Py K) (es : List K) (hes : es ≠ [])
    (lo hi : K) (n : ℤ) (h0 : 0 ≤ lo) (hn : 0 < n) :
    let P1 := (P.call m (.setCustom es)).1
    (P1.call m (.setBins lo hi n)).2 = true ∧
      (P1.call m (.setBins lo hi n)).1.cpp.edges = [] ∧
      (P1.call m (.setBins lo hi n)).1.edges = es := by
  obtain ⟨a, ha⟩ : ∃ lo, es.head? = some lo := ⟨es.head hes, List.head?_eq_some_head hes⟩
  obtain ⟨b, hb⟩ : ∃ hi, es.getLast? = some hi := ⟨es.getLast hes, List.getLast?_eq_some_getLast hes⟩
  have h1 : ¬ lo < 0 := not_lt.mpr h0
  have h2 : ¬ n ≤ 0 := by omega
  simp [Py.call, ha, hb, Cpp.setBins, Cpp.reset, Cpp.clear, computeBinning, h1, h2]

/-- **C20 (partial).** A rejected call never changes the Python edges, centres
and widths, and does no lasting harm: the next accepted `set_bins` gives the very
same object as if the rejected call had not been made. -/
theorem C20_rejected_call_recoverable_partial (m : MathLib K) (P : Py K) (lo hi : K) (n : ℤ)
    (hrej : (P.call m (.setBins lo hi n)).2 = true) (lo' hi' : K) (n' : ℤ)
    (hacc : (P.call m (.setBins lo' hi' n')).2 = false) :
    (P.call m (.setBins lo hi n)).1.edges = P.edges ∧
    (P.call m (.setBins lo hi n)).1.centres = P.centres ∧
    (P.call m (.setBins lo hi n)).1.widths = P.widths ∧
    ((P.call m (.setBins lo hi n)).1.call m (.setBins lo' hi' n')) = P.call m (.setBins lo' hi' n') := by
  obtain ⟨_, _, _, h4, h5, h6⟩ := C20_rejected_call_changes_object_violated m P lo hi n
    (P.call m (.setBins lo hi n)).1 (Prod.ext rfl hrej)
  refine ⟨h4, h5, h6, ?_⟩
  -- the state of the C++ object after the rejected call
  have hcpp : ∃ lo2 hi2 n2 e c w, (P.call m (.setBins lo hi n)).1.cpp
      = { P.cpp with binMin := lo2, binMax := hi2, numBins := n2, edges := e, centres := c, widths := w } := by
    unfold Py.call at hrej ⊢
    simp only at hrej ⊢
    split at hrej
    · rename_i heq
      simp only
      unfold Cpp.setBins at heq ⊢
      by_cases h1 : lo < 0
      · rw [if_pos h1]; exact ⟨_, _, _, _, _, _, rfl⟩
      · rw [if_neg h1] at heq ⊢
        by_cases h2 : n ≤ 0
        · rw [if_pos h2]; exact ⟨_, _, _, _, _, _, rfl⟩
        · rw [if_neg h2] at heq ⊢
          unfold Cpp.reset Cpp.clear computeBinning at heq ⊢
          simp only at heq ⊢
          split_ifs at heq ⊢ <;> first | exact ⟨_, _, _, _, _, _, rfl⟩ | simp at heq
    · simp at hrej
  obtain ⟨lo2, hi2, n2, e, c, w, hc⟩ := hcpp
  have hacc' : (P.cpp.setBins m lo' hi' n').2 = none := by
    unfold Py.call at hacc
    simp only at hacc
    split at hacc
    · simp at hacc
    · assumption
  have hset : (P.call m (.setBins lo hi n)).1.cpp.setBins m lo' hi' n' = P.cpp.setBins m lo' hi' n' := by
    rw [hc]
    unfold Cpp.setBins at hacc' ⊢
    by_cases h1 : lo' < 0
    · rw [if_pos h1] at hacc'; simp at hacc'
    · rw [if_neg h1] at hacc' ⊢
      rw [if_neg h1]
      by_cases h2 : n' ≤ 0
      · rw [if_pos h2] at hacc'; simp at hacc'
      · rw [if_neg h2, if_neg h2]; rfl
  have hsch : (P.call m (.setBins lo hi n)).1.scheme = P.scheme := by
    unfold Py.call; simp only; split <;> rfl
  obtain ⟨Q, hQ⟩ : ∃ Q, Q = (P.call m (.setBins lo hi n)).1 := ⟨_, rfl⟩
  rw [← hQ] at hset hsch ⊢
  unfold Py.call
  simp only
  rw [hset, hacc']
  simp only [hsch]

example : ((Py.new .fourier "log" : Py ℚ).call ratLib (.setBins 0 1 3)).2 = true ∧
    ((Py.new .fourier "log" : Py ℚ).call ratLib (.setBins (1 / 2) 1 3)).2 = false := by decide +kernel

end Trv.Binning

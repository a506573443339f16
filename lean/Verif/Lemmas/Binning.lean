import Verif.Model.Binning
import Verif.Spec.Binning
import Mathlib.Tactic.Ring
import Mathlib.Tactic.Linarith
import Mathlib.Tactic.FieldSimp
import Mathlib.Order.Monotone.Basic
/-
Helper lemmas on binnings.
-/
set_option linter.unusedSectionVars false
namespace Trv.Binning

variable {K : Type} [Field K] [LinearOrder K] [IsStrictOrderedRing K]

theorem loop_zero (n : ℤ) : loop 0 n = List.range n.toNat := by
  simp [loop, List.range_eq_range']

theorem loop_split (k : ℕ) (n : ℤ) (h : (k : ℤ) ≤ n) :
    loop 0 k ++ loop k n = List.range n.toNat := by
  unfold loop
  rw [List.range_eq_range']
  have : n.toNat = (k - 0) + (n.toNat - k) := by omega
  conv_rhs => rw [this]
  rw [← List.range'_append_1]; simp

/-- A binning given by a strictly increasing edge function. -/
theorem isBinning_of_fun (n : ℕ) (f : ℕ → K) (lo hi : K) (edges centres widths : List K)
    (hlo : f 0 = lo) (hhi : f n = hi) (hmono : ∀ i, i < n → f i < f (i + 1))
    (he : edges = (List.range n).map f ++ [hi])
    (hc : centres = (List.range n).map fun i => (f i + f (i + 1)) / 2)
    (hw : widths = (List.range n).map fun i => f (i + 1) - f i) :
    IsBinning lo hi n edges centres widths := by
  have he' : edges = (List.range (n + 1)).map f := by
    rw [he, List.range_succ, List.map_append]; simp [hhi]
  have hget : ∀ i, edges[i]? = if i < n + 1 then some (f i) else none := by
    intro i
    rw [he', List.getElem?_map]
    split_ifs with h
    · simp [List.getElem?_range h]
    · rw [List.getElem?_eq_none (by simpa using h)]; rfl
  have hlt : ∀ j, j ≤ n → ∀ i, i < j → f i < f j := by
    intro j
    induction j with
    | zero => intro _ i hi; omega
    | succ j ih =>
      intro hj i hi
      rcases Nat.lt_succ_iff_lt_or_eq.mp hi with h | h
      · exact (ih (by omega) i h).trans (hmono j (by omega))
      · subst h; exact hmono _ (by omega)
  have hpair : ∀ i a b, edges[i]? = some a → edges[i + 1]? = some b →
      i < n ∧ a = f i ∧ b = f (i + 1) := by
    intro i a b ha hb
    rw [hget] at ha hb
    split_ifs at ha hb with h1 h2
    simp only [Option.some.injEq] at ha hb
    exact ⟨by omega, ha.symm, hb.symm⟩
  refine ⟨by rw [he']; simp, by rw [hc]; simp, by rw [hw]; simp, ?_, ?_, ?_, ?_, ?_⟩
  · rw [hget]; simp [hlo]
  · rw [hget]; simp [hhi]
  · rw [he', List.pairwise_map]
    apply List.Pairwise.imp_of_mem _ (List.pairwise_lt_range)
    intro i j _ hj hij
    exact hlt j (by simp at hj; omega) i hij
  · intro i a b ha hb
    obtain ⟨hi, rfl, rfl⟩ := hpair i a b ha hb
    rw [hc, List.getElem?_map, List.getElem?_range hi]; rfl
  · intro i a b ha hb
    obtain ⟨hi, rfl, rfl⟩ := hpair i a b ha hb
    rw [hw, List.getElem?_map, List.getElem?_range hi]; rfl

/-- Any binning partitions its range. -/
theorem IsBinning.partitions {lo hi : K} {n : ℕ} {edges centres widths : List K}
    (h : IsBinning lo hi n edges centres widths) : Partitions lo hi n edges := by
  intro x hx0 hx1
  have hg : ∀ i (hi : i < n + 1), edges[i]? = some (edges[i]'(by rw [h.edges_length]; exact hi)) :=
    fun i hi => List.getElem?_eq_getElem _
  have hmono := List.pairwise_iff_getElem.mp h.increasing
  have e0 : edges[0]'(by rw [h.edges_length]; omega) = lo := by
    have := h.first; rw [hg 0 (by omega)] at this; simpa using this
  have en : edges[n]'(by rw [h.edges_length]; omega) = hi := by
    have := h.last; rw [hg n (by omega)] at this; simpa using this
  -- the last edge not above `x`
  have hex : ∃ i, i < n ∧ ∃ (hi : i + 1 < edges.length), edges[i] ≤ x ∧ x < edges[i + 1] := by
    by_contra hcon
    push Not at hcon
    have : ∀ i (hi : i < n + 1), edges[i]'(by rw [h.edges_length]; exact hi) ≤ x := by
      intro i
      induction i with
      | zero => intro _; rw [e0]; exact hx0
      | succ i ih =>
        intro hi
        exact hcon i (by omega) (by rw [h.edges_length]; omega) (ih (by omega))
    have := this n (by omega)
    rw [en] at this
    exact absurd hx1 (not_lt.mpr this)
  obtain ⟨i, hi, hi', ha, hb⟩ := hex
  refine ⟨i, ⟨hi, _, _, hg i (by omega), hg (i + 1) (by omega), ha, hb⟩, ?_⟩
  rintro j ⟨hj, a, b, hja, hjb, hax, hxb⟩
  rw [hg j (by omega)] at hja
  rw [hg (j + 1) (by omega)] at hjb
  simp only [Option.some.injEq] at hja hjb
  subst hja hjb
  rcases lt_trichotomy j i with hlt | heq | hgt
  · exfalso
    rcases Nat.lt_or_ge (j + 1) i with h1 | h1
    · have := hmono (j + 1) i (by rw [h.edges_length]; omega) (by rw [h.edges_length]; omega) h1
      exact absurd (hxb.trans this) (not_lt.mpr ha)
    · have : j + 1 = i := by omega
      subst this
      exact absurd hxb (not_lt.mpr ha)
  · exact heq
  · exfalso
    rcases Nat.lt_or_ge (i + 1) j with h1 | h1
    · have := hmono (i + 1) j (by rw [h.edges_length]; omega) (by rw [h.edges_length]; omega) h1
      exact absurd (hb.trans this) (not_lt.mpr hax)
    · have : i + 1 = j := by omega
      subst this
      exact absurd hb (not_lt.mpr hax)

/-- Midpoints and differences of a strictly increasing edge list form a binning. -/
theorem isBinning_custom (es : List K) (lo hi : K) (h0 : es.head? = some lo)
    (h1 : es.getLast? = some hi) (hinc : es.Pairwise (· < ·)) :
    IsBinning lo hi (es.length - 1) es (mids es) (diffs es) := by
  have hne : es ≠ [] := by rintro rfl; simp at h0
  have hlen : 0 < es.length := List.length_pos_iff.mpr hne
  refine ⟨by omega, by simp [mids], by simp [diffs], ?_, ?_, hinc, ?_, ?_⟩
  · rw [← List.head?_eq_getElem?]; exact h0
  · rw [← List.getLast?_eq_getElem?]; exact h1
  · intro i a b ha hb
    unfold mids
    rw [List.getElem?_zipWith, List.getElem?_tail, ha, hb]
  · intro i a b ha hb
    unfold diffs
    rw [List.getElem?_zipWith, List.getElem?_tail, ha, hb]

end Trv.Binning

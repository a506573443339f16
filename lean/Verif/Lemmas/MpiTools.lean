import Verif.Spec.MpiTools
import Mathlib.Data.List.Nodup
import Mathlib.Tactic.Ring
import Mathlib.Tactic.Linarith
import Mathlib.Algebra.BigOperators.Group.List.Basic
/-
Helper lemmas for the `_mpitools.py` properties.
-/
namespace Trv.Mpi

open Trv

/-! ### Helper lemmas -/

theorem allocLoop_zero_tasks : ∀ p, allocLoop 0 p = .ok [] := by
  intro p; cases p <;> simp [allocLoop]

/-- Main induction: with `0 < n` and `p + 1` processes the loop takes exactly
`p + 1` steps; all counts lie between `⌊n/(p+1)⌋` and `⌈n/(p+1)⌉`. -/
theorem allocLoop_spec (p : Nat) : ∀ n, 0 < n → ∃ l, allocLoop n (p + 1) = .ok l ∧
    l.length = p + 1 ∧ l.sum = n ∧ (∀ a ∈ l, n / (p + 1) ≤ a ∧ a ≤ (n + p) / (p + 1)) := by
  induction p with
  | zero =>
    intro n hn
    refine ⟨[n], ?_, rfl, by simp, by simp⟩
    have : n ≠ 0 := by omega
    simp [allocLoop, this]
  | succ p ih =>
    intro n hn
    set a := n / (p + 1 + 1) with ha
    have hlt : a < n := Nat.div_lt_self hn (by omega)
    obtain ⟨l, hl, hlen, hsum, hb⟩ := ih (n - a) (by omega)
    refine ⟨a :: l, ?_, by simp [hlen], by simp [hsum]; omega, ?_⟩
    · rw [allocLoop]; simp only [show n ≠ 0 by omega, if_false]
      rw [← ha, hl]
    · have h1 : a * (p + 2) ≤ n := Nat.div_mul_le_self n (p + 2)
      have h2 : n < (a + 1) * (p + 2) :=
        (Nat.div_lt_iff_lt_mul (by omega)).mp (Nat.lt_succ_self a)
      intro x hx
      rcases List.mem_cons.mp hx with rfl | hx
      · refine ⟨le_refl _, ?_⟩
        exact Nat.div_le_div_right (by omega)
      · obtain ⟨hx1, hx2⟩ := hb x hx
        constructor
        · refine le_trans ?_ hx1
          rw [Nat.le_div_iff_mul_le (by omega)]
          nlinarith [Nat.sub_add_cancel hlt.le]
        · refine le_trans hx2 ?_
          -- ⌈(n-a)/(p+1)⌉ ≤ ⌈n/(p+2)⌉
          obtain ⟨c, hc⟩ : ∃ c, c = (n + (p + 1)) / (p + 1 + 1) := ⟨_, rfl⟩
          rw [← hc]
          have hc1 : n ≤ c * (p + 2) := by
            have : n + (p + 1) < (c + 1) * (p + 2) :=
              (Nat.div_lt_iff_lt_mul (by omega)).mp (hc ▸ Nat.lt_succ_self _)
            nlinarith
          have hca : c ≤ a + 1 := by
            rw [hc]; apply Nat.le_of_lt_succ
            rw [Nat.div_lt_iff_lt_mul (by omega)]; nlinarith
          have hac : a ≤ c := hc ▸ Nat.div_le_div_right (by omega)
          apply Nat.le_of_lt_succ
          rw [Nat.div_lt_iff_lt_mul (by omega)]
          rcases Nat.lt_or_ge a c with h | h
          · have : c = a + 1 := by omega
            subst this
            nlinarith [Nat.sub_add_cancel hlt.le]
          · have : c = a := by omega
            have hna : n - a ≤ a * (p + 1) := by
              have : n ≤ a * (p + 2) := by rw [← this]; exact hc1
              have h3 : a * (p + 2) = a * (p + 1) + a := by ring
              omega
            rw [this]; nlinarith

theorem breakpointsFrom_get (l : List Nat) : ∀ s r, r ≤ l.length →
    (breakpointsFrom s l)[r]? = some (s + (l.take r).sum) := by
  induction l with
  | nil => intro s r hr; have : r = 0 := by simpa using hr
           subst this; simp [breakpointsFrom]
  | cons a l ih =>
    intro s r hr
    cases r with
    | zero => simp [breakpointsFrom]
    | succ r =>
      simp only [breakpointsFrom, List.getElem?_cons_succ, List.take_succ_cons, List.sum_cons]
      rw [ih (s + a) r (by simpa using hr)]; congr 1; omega

theorem breakpointsFrom_length (l : List Nat) : ∀ s, (breakpointsFrom s l).length = l.length + 1 := by
  induction l with
  | nil => intro s; rfl
  | cons a l ih => intro s; simp [breakpointsFrom, ih]

theorem segmentsOf_ok (l : List Nat) (rs : List Nat) (h : ∀ r ∈ rs, r < l.length) :
    segmentsOf (breakpointsFrom 0 l) rs =
      .ok (rs.map fun r => ((l.take r).sum, (l.take (r + 1)).sum)) := by
  induction rs with
  | nil => rfl
  | cons r rs ih =>
    have hr := h r (by simp)
    rw [segmentsOf, breakpointsFrom_get l 0 r (by omega), breakpointsFrom_get l 0 (r + 1) (by omega),
      ih (fun x hx => h x (by simp [hx]))]
    simp

theorem take_sum_mono (l : List Nat) {a b : Nat} (h : a ≤ b) :
    (l.take a).sum ≤ (l.take b).sum := by
  have := List.take_append_drop a (l.take b)
  have h2 : (l.take b).take a = l.take a := by rw [List.take_take, Nat.min_eq_left h]
  calc (l.take a).sum = ((l.take b).take a).sum := by rw [h2]
    _ ≤ ((l.take b).take a).sum + ((l.take b).drop a).sum := Nat.le_add_right _ _
    _ = (l.take b).sum := by rw [← List.sum_append, this]

theorem take_succ_sum (l : List Nat) (r : Nat) (h : r < l.length) :
    (l.take (r + 1)).sum = (l.take r).sum + l[r] := by
  rw [List.take_add_one, List.sum_append]; simp [h]

theorem prefix_locate (l : List Nat) (i : Nat) (hi : i < l.sum) :
    ∃ r, r < l.length ∧ (l.take r).sum ≤ i ∧ i < (l.take (r + 1)).sum := by
  induction l generalizing i with
  | nil => simp at hi
  | cons a l ih =>
    by_cases h : i < a
    · exact ⟨0, by simp, by simp, by simpa using h⟩
    · obtain ⟨r, h1, h2, h3⟩ := ih (i - a) (by simp at hi; omega)
      refine ⟨r + 1, by simpa using h1, ?_, ?_⟩
      · simp; omega
      · simp only [List.take_succ_cons, List.sum_cons]; omega

theorem prefix_tiles (l : List Nat) :
    Tiles ((List.range l.length).map fun r => ((l.take r).sum, (l.take (r + 1)).sum)) l.sum := by
  refine ⟨?_, ?_, ?_⟩
  · intro i hi
    obtain ⟨r, h1, h2, h3⟩ := prefix_locate l i hi
    refine ⟨r, ⟨((l.take r).sum, (l.take (r + 1)).sum),
      by rw [List.getElem?_map, List.getElem?_range h1]; rfl, h2, h3⟩, ?_⟩
    rintro r' ⟨s, hs, hs1, hs2⟩
    have hr' : r' < l.length := by
      by_contra hc
      rw [List.getElem?_eq_none (by simp; omega)] at hs
      simp at hs
    simp [hr'] at hs
    subst hs
    by_contra hne
    rcases Nat.lt_or_gt_of_ne hne with h | h
    · have := take_sum_mono l (show r' + 1 ≤ r from h)
      rw [take_succ_sum l r' hr'] at this; simp at hs2; omega
    · have := take_sum_mono l (show r + 1 ≤ r' from h); simp at hs1; omega
  · intro s hs
    simp at hs
    obtain ⟨r, hr, rfl⟩ := hs
    refine ⟨take_sum_mono l (by omega), ?_⟩
    have := take_sum_mono l (show r + 1 ≤ l.length from hr)
    simpa using this
  · intro r s t hs ht
    have hr : r + 1 < l.length := by
      by_contra hc
      rw [List.getElem?_eq_none (by simp; omega)] at ht
      simp at ht
    have hr0 : r < l.length := by omega
    simp [hr0] at hs
    simp [hr] at ht
    subst hs; subst ht
    exact (take_succ_sum l r hr0).symm

theorem executed_prefix (l : List Nat) :
    executed ((List.range l.length).map fun r => ((l.take r).sum, (l.take (r + 1)).sum))
      = List.range l.sum := by
  suffices h : ∀ n, n ≤ l.length →
      executed ((List.range n).map fun r => ((l.take r).sum, (l.take (r + 1)).sum))
        = List.range (l.take n).sum by
    simpa using h l.length le_rfl
  intro n
  induction n with
  | zero => intro _; simp [executed]
  | succ n ih =>
    intro hn
    have ih := ih (by omega)
    unfold executed at ih ⊢
    rw [List.range_succ, List.map_append, List.flatMap_append, ih]
    simp only [List.map_cons, List.map_nil, List.flatMap_cons, List.flatMap_nil, List.append_nil]
    rw [take_succ_sum l n (by omega)]
    simp only [Nat.add_sub_cancel_left]
    rw [List.range_eq_range', List.range_eq_range']
    simpa using List.range'_append (s := 0) (m := (l.take n).sum) (n := l[n]) (step := 1)

theorem restoreLoop_spec (rs : List Record) : ∀ seen,
    (restoreLoop seen rs).Nodup ∧
    (∀ r, r ∈ restoreLoop seen rs ↔ r ∈ rs ∧ r ∉ seen) ∧
    (restoreLoop seen rs).Sublist rs := by
  induction rs with
  | nil => intro seen; simp [restoreLoop]
  | cons a rs ih =>
    intro seen
    unfold restoreLoop
    split
    · rename_i h
      obtain ⟨h1, h2, h3⟩ := ih seen
      refine ⟨h1, ?_, h3.cons _⟩
      intro r; rw [h2]; constructor
      · rintro ⟨h4, h5⟩; exact ⟨List.mem_cons_of_mem _ h4, h5⟩
      · rintro ⟨h4, h5⟩
        rcases List.mem_cons.mp h4 with rfl | h4
        · exact absurd h h5
        · exact ⟨h4, h5⟩
    · rename_i h
      obtain ⟨h1, h2, h3⟩ := ih (a :: seen)
      refine ⟨List.nodup_cons.mpr ⟨by rw [h2]; simp, h1⟩, ?_, h3.cons_cons _⟩
      intro r; rw [List.mem_cons, h2]
      constructor
      · rintro (rfl | ⟨h4, h5⟩)
        · exact ⟨by simp, h⟩
        · exact ⟨by simp [h4], fun hc => h5 (by simp [hc])⟩
      · rintro ⟨h4, h5⟩
        rcases List.mem_cons.mp h4 with rfl | h4
        · left; rfl
        · by_cases hra : r = a
          · left; exact hra
          · right; exact ⟨h4, by simp [hra, h5]⟩

theorem restoreLoop_append (pre suf : List Record) : ∀ seen, ∃ seen',
    restoreLoop seen (pre ++ suf) = restoreLoop seen pre ++ restoreLoop seen' suf := by
  induction pre with
  | nil => intro seen; exact ⟨seen, by simp [restoreLoop]⟩
  | cons a pre ih =>
    intro seen
    simp only [List.cons_append, restoreLoop]
    split
    · exact ih seen
    · obtain ⟨s', h⟩ := ih (a :: seen)
      exact ⟨s', by rw [h]; rfl⟩

end Trv.Mpi

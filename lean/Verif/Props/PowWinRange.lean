import Verif.Props.PowWin
import Verif.Lemmas.Resample
/-
C134, continued: output wavenumbers, common separations and the interpolation of power spectra.
-/
namespace Trv.Wc
open Trv

theorem pwr_foldl_min {α : Type} [LinearOrder α] (l : List α) (a : α) :
    l.foldl min a ∈ a :: l ∧ ∀ b ∈ a :: l, l.foldl min a ≤ b := by
  induction l generalizing a with
  | nil => simp
  | cons x l ih =>
    obtain ⟨h1, h2⟩ := ih (min a x)
    rw [List.foldl_cons]
    constructor
    · rcases List.mem_cons.1 h1 with h | h
      · rw [h]
        rcases min_choice a x with e | e <;> rw [e] <;> simp
      · simp [h]
    · intro b hb
      have h0 := h2 (min a x) (by simp)
      rcases List.mem_cons.1 hb with rfl | hb
      · exact h0.trans (min_le_left _ _)
      · rcases List.mem_cons.1 hb with rfl | hb
        · exact h0.trans (min_le_right _ _)
        · exact h2 b (by simp [hb])

theorem pwr_foldl_max {α : Type} [LinearOrder α] (l : List α) (a : α) :
    l.foldl max a ∈ a :: l ∧ ∀ b ∈ a :: l, b ≤ l.foldl max a := by
  have := pwr_foldl_min (α := αᵒᵈ) l a
  exact this

theorem pwr_foldr_min (x : List ℝ) (h : x ≠ []) :
    x.foldr min (x.headD 0) ∈ x ∧ ∀ b ∈ x, x.foldr min (x.headD 0) ≤ b := by
  have key : ∀ (l : List ℝ) (a : ℝ), l.foldr min a ∈ a :: l ∧ ∀ b ∈ a :: l, l.foldr min a ≤ b := by
    intro l a
    induction l with
    | nil => simp
    | cons y l ih =>
      obtain ⟨h1, h2⟩ := ih
      rw [List.foldr_cons]
      constructor
      · rcases min_choice y (l.foldr min a) with e | e <;> rw [e]
        · simp
        · rcases List.mem_cons.1 h1 with h | h
          · rw [h]; simp
          · simp [h]
      · intro b hb
        rcases List.mem_cons.1 hb with rfl | hb
        · exact (min_le_right _ _).trans (h2 _ (by simp))
        · rcases List.mem_cons.1 hb with rfl | hb
          · exact min_le_left _ _
          · exact (min_le_right _ _).trans (h2 b (by simp [hb]))
  cases x with
  | nil => exact absurd rfl h
  | cons y l =>
    obtain ⟨h1, h2⟩ := key (y :: l) y
    refine ⟨?_, fun b hb => h2 b (by simp [hb])⟩
    have : y :: y :: l ⊆ y :: l := by simp
    exact this h1

theorem pwr_foldr_max (x : List ℝ) (h : x ≠ []) :
    x.foldr max (x.headD 0) ∈ x ∧ ∀ b ∈ x, b ≤ x.foldr max (x.headD 0) := by
  have key : ∀ (l : List ℝ) (a : ℝ), l.foldr max a ∈ a :: l ∧ ∀ b ∈ a :: l, b ≤ l.foldr max a := by
    intro l a
    induction l with
    | nil => simp
    | cons y l ih =>
      obtain ⟨h1, h2⟩ := ih
      rw [List.foldr_cons]
      constructor
      · rcases max_choice y (l.foldr max a) with e | e <;> rw [e]
        · simp
        · rcases List.mem_cons.1 h1 with h | h
          · rw [h]; simp
          · simp [h]
      · intro b hb
        rcases List.mem_cons.1 hb with rfl | hb
        · exact (h2 _ (by simp)).trans (le_max_right _ _)
        · rcases List.mem_cons.1 hb with rfl | hb
          · exact le_max_left _ _
          · exact (h2 b (by simp [hb])).trans (le_max_right _ _)
  cases x with
  | nil => exact absurd rfl h
  | cons y l =>
    obtain ⟨h1, h2⟩ := key (y :: l) y
    refine ⟨?_, fun b hb => h2 b (by simp [hb])⟩
    have : y :: y :: l ⊆ y :: l := by simp
    exact this h1

/-- **C134 (range).** The output points found for several transforms are logarithmically spaced from the largest of
their smallest points to the smallest of their largest points, as many as the transform with the fewest has. -/
theorem C134_range (xs : List (List ℝ)) (hne : xs ≠ []) (hx : ∀ x ∈ xs, x ≠ []) :
    ∃ lo hi n, convRange xs = .ok (logspace lo hi n) ∧
      ((∃ x ∈ xs, lo ∈ x ∧ ∀ p ∈ x, lo ≤ p) ∧ ∀ x ∈ xs, ∃ p ∈ x, p ≤ lo) ∧
      ((∃ x ∈ xs, hi ∈ x ∧ ∀ p ∈ x, p ≤ hi) ∧ ∀ x ∈ xs, ∃ p ∈ x, hi ≤ p) ∧
      ((∃ x ∈ xs, n = x.length) ∧ ∀ x ∈ xs, n ≤ x.length) := by
  cases xs with
  | nil => exact absurd rfl hne
  | cons x xs =>
    have hany : ((x :: xs).any List.isEmpty) = false := by
      rw [List.any_eq_false]
      intro y hy
      simpa using hx y hy
    obtain ⟨a1, a2⟩ := pwr_foldl_max (xs.map fun x : List ℝ => x.foldr min (x.headD 0)) (x.foldr min (x.headD 0))
    obtain ⟨b1, b2⟩ := pwr_foldl_min (xs.map fun x : List ℝ => x.foldr max (x.headD 0)) (x.foldr max (x.headD 0))
    obtain ⟨c1, c2⟩ := pwr_foldl_min (xs.map List.length) x.length
    rw [← List.map_cons (f := fun x : List ℝ => x.foldr min (x.headD 0))] at a1 a2
    rw [← List.map_cons (f := fun x : List ℝ => x.foldr max (x.headD 0))] at b1 b2
    rw [← List.map_cons (f := List.length)] at c1 c2
    refine ⟨_, _, _, by
      unfold convRange
      simp only [List.map_cons, hany, Bool.false_eq_true, if_false]
      rfl, ⟨?_, fun y hy => ?_⟩, ⟨?_, fun y hy => ?_⟩, ⟨?_, fun y hy => ?_⟩⟩
    · obtain ⟨y, hy, e⟩ := List.mem_map.1 a1
      exact ⟨y, hy, e ▸ (pwr_foldr_min y (hx y hy)).1, fun p hp => e ▸ (pwr_foldr_min y (hx y hy)).2 p hp⟩
    · exact ⟨_, (pwr_foldr_min y (hx y hy)).1, a2 _ (List.mem_map.2 ⟨y, hy, rfl⟩)⟩
    · obtain ⟨y, hy, e⟩ := List.mem_map.1 b1
      exact ⟨y, hy, e ▸ (pwr_foldr_max y (hx y hy)).1, fun p hp => e ▸ (pwr_foldr_max y (hx y hy)).2 p hp⟩
    · exact ⟨_, (pwr_foldr_max y (hx y hy)).1, b2 _ (List.mem_map.2 ⟨y, hy, rfl⟩)⟩
    · obtain ⟨y, hy, e⟩ := List.mem_map.1 c1
      exact ⟨y, hy, e.symm⟩
    · exact c2 _ (List.mem_map.2 ⟨y, hy, rfl⟩)

/-- **C134 (interpolation).** At a wavenumber of the transform the interpolated power is the power there, real and
imaginary part. -/
theorem C134_interpolated (I : Interp ℝ) (hI : I.Ok) (k : List ℝ) (v : List ℂ) (hk : k.Pairwise (· < ·))
    (hv : v.length = k.length) (j : ℕ) (hj : j < k.length) :
    splC I k v (k.getD j 0) = v.getD j 0 := by
  have hjv : j < v.length := hv ▸ hj
  unfold splC
  rw [spl_sample hI false hk hj, spl_sample hI false hk hj]
  simp [List.getD_eq_getElem?_getD, List.getElem?_map, List.getElem?_eq_getElem hjv]

theorem pwr_mkBase_all {α : Type} {F : Formulae} {sampts : Pts ℝ} {Q : List (Key × α)} {rIn : Pts ℝ} {r : List ℝ}
    {B : Base ℝ α} (h : mkBase F sampts Q rIn (some (.all r)) = .ok B) :
    B.rOut = F.multipoles.map fun m => (m, r) := by
  unfold mkBase at h
  split at h
  · cases h
  · split at h
    · cases h
    · simp only [setROut] at h
      split at h
      · cases h; rfl
      · cases h

/-- **C134 (common separations).** When common separations are given, the convolution of every multipole is made at
them, and they are accepted only if logarithmically spaced. -/
theorem C134_common (new : NewSbt) (F : Formulae) (sampts : Pts ℝ) (Q : List (Key × List ℝ)) (kIn : Pts ℝ)
    (kOut : Option (List ℝ)) (r : List ℝ) (S : Pow) (h : mkPow new F sampts Q kIn kOut (some r) = .ok S) :
    (S.base.rOut = F.multipoles.map fun m => (m, r)) ∧ checkLoglin r = .ok ∧
      ∀ k, kOut = some k → S.kout = k := by
  unfold mkPow at h
  split at h
  · cases h
  split at h
  · cases h
  split_ifs at h with h1 h2
  swap
  · split at h <;> cases h
  split at h
  · cases h
  split at h
  · cases h
  rename_i B hB
  split at h
  · cases h
  split at h
  · cases h
  rename_i kout hk
  cases h
  refine ⟨pwr_mkBase_all hB, ?_, ?_⟩
  · exact h2 r rfl
  · rintro k rfl
    simpa using hk.symm

/-- The output points of transforms at 1, 2, 4 and at 2, 3: from 2 to 3 in two points. -/
example : ∃ lo hi n, convRange [[1, 2, 4], [2, 3]] = .ok (logspace lo hi n) ∧ n = 2 := by
  obtain ⟨lo, hi, n, h, _, _, ⟨y, hy, e⟩, h2⟩ := C134_range [[1, 2, 4], [2, 3]] (by simp) (by simp)
  refine ⟨lo, hi, n, h, ?_⟩
  have := h2 [2, 3] (by simp)
  simp only [List.mem_cons, List.not_mem_nil, or_false] at hy
  rcases hy with rfl | rfl
  · simp at e this; omega
  · simpa using e

end Trv.Wc

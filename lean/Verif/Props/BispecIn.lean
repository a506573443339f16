import Verif.Model.BispecIn
import Verif.Props.WinBuild
import Verif.Props.WinConv3
import Verif.Lemmas.WinBuild
import Verif.Lemmas.WinConv
import Verif.Lemmas.WinMat
/-
Property theorems for the input wavenumbers of the window convolution of bispectra (`winconv.py`): C133.
-/
namespace Trv.Wc

open Trv

theorem firstBad_none (d : List (Option Multipole × List ℝ)) :
    firstBad d = none ↔ ∀ p ∈ d, checkLoglin p.2 = .ok := by
  induction d with
  | nil => simp [firstBad]
  | cons p d ih =>
    unfold firstBad
    by_cases h : checkLoglin p.2 = .ok
    · simp [h, ih]
    · simp [h]

theorem firstBad_some {d : List (Option Multipole × List ℝ)} {c : Chk} {k : List ℝ} (h : firstBad d = some (c, k)) :
    c ≠ .ok ∧ ∃ p ∈ d, p.2 = k ∧ checkLoglin k = c := by
  induction d with
  | nil => cases h
  | cons p d ih =>
    unfold firstBad at h
    split at h
    · obtain ⟨h1, q, h2, h3⟩ := ih h
      exact ⟨h1, q, by simp [h2], h3⟩
    · next hp =>
      cases h
      exact ⟨hp, p, by simp, rfl, rfl⟩

/-- Logarithmically spaced points in the range of others. -/
noncomputable def relog (n : ℕ) (x : List ℝ) : List ℝ := logspace (x.headD 0) (x.getLastD 0) n

theorem respace_ok {n : ℕ} {d : List (Option Multipole × List ℝ)} (h : ∀ p ∈ d, p.2 ≠ []) :
    traverse (respace n) d = .ok (d.map fun p : Option Multipole × List ℝ => (p.1, relog n p.2)) := by
  apply traverse_pure
  intro p hp
  obtain ⟨z, x⟩ := p
  cases x with
  | nil => exact absurd rfl (h _ hp)
  | cons a l =>
    unfold respace
    rw [List.getLast?_eq_getLast_of_ne_nil (by simp)]
    rfl

theorem get_relog (n : ℕ) (d : List (Option Multipole × List ℝ)) (z : Option Multipole) :
    get (d.map fun p : Option Multipole × List ℝ => (p.1, relog n p.2)) z = (get d z).map (relog n) := by
  induction d with
  | nil => rfl
  | cons p d ih =>
    unfold get get? at ih ⊢
    simp only [List.map_cons, List.find?_cons]
    by_cases h : p.1 = z
    · simp [h, Except.map]
    · simpa [h] using ih

/-! ### C133 -/

/-- **C133.** Wavenumbers which are all logarithmically spaced are kept, and so are the samples. -/
theorem C133_kept (F : Formulae) (kIn : Pts ℝ) (d : List (Option Multipole × List ℝ)) (hd : setRIn F kIn = .ok d) :
    bispecIn F kIn = .ok (d, none) ↔ ∀ p ∈ d, checkLoglin p.2 = .ok := by
  rw [← firstBad_none]
  unfold bispecIn
  rw [hd]
  simp only
  cases hf : firstBad d with
  | none => simp
  | some r =>
    obtain ⟨c, k⟩ := r
    cases c <;> simp only [reduceCtorEq, iff_false] <;> try exact fun h => by cases h
    cases traverse (respace k.length) d <;> exact fun h => by cases h

/-- The samples are then transformed as they are. -/
theorem C133_samples_kept (I : Interp ℝ) (F : Formulae) (kIn : Pts ℝ) (d : List (Option Multipole × List ℝ))
    (hd : setRIn F kIn = .ok d) (hk : ∀ p ∈ d, checkLoglin p.2 = .ok) (B : List (Key × Mat ℝ)) :
    ∃ k, bispecIn F kIn = .ok k ∧ bispecSamples I k B = .ok B :=
  ⟨_, (C133_kept F kIn d hd).2 hk, rfl⟩

/-- **C133.** Too few wavenumbers, or wavenumbers of both signs or zero at an end, are rejected. -/
theorem C133_rejected (F : Formulae) (kIn : Pts ℝ) (d : List (Option Multipole × List ℝ)) (hd : setRIn F kIn = .ok d)
    (pre : List (Option Multipole × List ℝ)) (p : Option Multipole × List ℝ) (suf : List (Option Multipole × List ℝ))
    (hs : d = pre ++ p :: suf) (hpre : ∀ q ∈ pre, checkLoglin q.2 = .ok)
    (hp : checkLoglin p.2 = .shapeError ∨ checkLoglin p.2 = .mixedSignError) :
    bispecIn F kIn = .error .valueError := by
  have hf : firstBad d = some (checkLoglin p.2, p.2) := by
    rw [hs]
    clear hs hd
    induction pre with
    | nil =>
      rw [List.nil_append, firstBad, if_neg]
      rcases hp with h | h <;> rw [h] <;> simp
    | cons q pre ih =>
      rw [List.cons_append, firstBad, if_pos (hpre q (by simp)), ih fun q hq => hpre q (by simp [hq])]
  unfold bispecIn
  rw [hd]
  simp only [hf]
  rcases hp with h | h <;> rw [h]

/-- **C133 (part).** Otherwise, if there are as many wavenumbers of each multipole, these are replaced by as
many logarithmically spaced ones in the same range, and the samples by interpolated ones, which are the
given ones wherever a wavenumber is kept.  Missing: different numbers, see `C133_number_violated`. -/
theorem C133_respaced_partial (I : Interp ℝ) (hI : I.Ok) (F : Formulae) (kIn : Pts ℝ) (d : List (Option Multipole × List ℝ))
    (hd : setRIn F kIn = .ok d) (k : List ℝ) (hf : firstBad d = some (.spacingError, k)) (n : ℕ) (hn : 2 ≤ n)
    (hlen : ∀ p ∈ d, p.2.length = n) (hpos : ∀ p ∈ d, ∀ x ∈ p.2, 0 < x) (hinc : ∀ p ∈ d, p.2.Pairwise (· < ·)) :
    ∃ d', bispecIn F kIn = .ok (d', some d) ∧ d'.map Prod.fst = d.map Prod.fst ∧
      ∀ z x, get d (some z) = .ok x → ∃ y, get d' (some z) = .ok y ∧ y.length = n ∧ y[0]? = x[0]? ∧
        y[n - 1]? = x[n - 1]? ∧ checkLoglin y = .ok ∧
        ∀ M : Mat ℝ, M.rows = n → M.cols = n → ∃ M', reinterpOne I d' d (.mp z, M) = .ok (.mp z, M') ∧
          M'.rows = n ∧ M'.cols = n ∧ ∀ a b i j, a < n → b < n → i < n → j < n → y.getD a 0 = x.getD i 0 →
            y.getD b 0 = x.getD j 0 → M'.e a b = M.e i j := by
  obtain ⟨_, q, hq, hqk, _⟩ := firstBad_some hf
  have hk : k.length = n := by rw [← hqk]; exact hlen q hq
  have hne : ∀ p ∈ d, p.2 ≠ [] := fun p hp h => by
    have := hlen p hp
    rw [h] at this
    simp at this
    omega
  refine ⟨d.map fun p : Option Multipole × List ℝ => (p.1, relog n p.2), ?_, by simp [Function.comp_def], ?_⟩
  · unfold bispecIn
    rw [hd]
    simp only [hf]
    rw [hk, respace_ok hne]
  · intro z x hx
    have hm : (some z, x) ∈ d := by
      unfold get get? at hx
      cases hfi : d.find? fun p => p.1 = some z with
      | none => rw [hfi] at hx; cases hx
      | some p =>
        rw [hfi] at hx
        cases hx
        have h1 := List.find?_some hfi
        have h2 := List.mem_of_find?_eq_some hfi
        simp only [decide_eq_true_eq] at h1
        rw [← h1]
        exact h2
    have hy : get (d.map fun p : Option Multipole × List ℝ => (p.1, relog n p.2)) (some z) = .ok (relog n x) := by
      rw [get_relog, hx]
      rfl
    have hxl := hlen _ hm
    simp only at hxl
    have hx0 : x ≠ [] := hne _ hm
    obtain ⟨a, l, rfl⟩ := List.exists_cons_of_ne_nil hx0
    have ha : 0 < a := hpos _ hm a (by simp)
    have hb : 0 < (a :: l).getLastD 0 := by
      rw [List.getLastD_eq_getLast?, List.getLast?_eq_getLast_of_ne_nil hx0]
      exact hpos _ hm _ (List.getLast_mem hx0)
    refine ⟨_, hy, length_logspace _ _ _, ?_, ?_, checkLoglin_logspace hn, ?_⟩
    · exact logspace_first ha hn
    · rw [relog, logspace_last hb hn, ← hxl, List.getLastD_eq_getLast?, ← List.getLast?_eq_getElem?,
        List.getLast?_eq_getLast_of_ne_nil hx0]
      rfl
    · intro M h1 h2
      refine ⟨⟨(relog n (a :: l)).length, (relog n (a :: l)).length,
        fun i j => I.spl2 (a :: l) M.e ((relog n (a :: l)).getD i 0) ((relog n (a :: l)).getD j 0)⟩, ?_,
        length_logspace _ _ _, length_logspace _ _ _, ?_⟩
      · unfold reinterpOne
        simp only [keyMult, hx, hy]
        rw [if_neg (by rw [h1, h2, hxl]; simp)]
      · intro a' b' i j _ _ hi hj e1 e2
        simp only
        rw [e1, e2]
        exact spl2_knot hI (hinc _ hm) _ (by simp only; omega) (by simp only; omega)

/-- If the wavenumbers are replaced, then those of every multipole become as many as there are of the
multipole first found not to be logarithmically spaced, whatever their number was. -/
theorem C133_number_violated (F : Formulae) (kIn : Pts ℝ) (d : List (Option Multipole × List ℝ))
    (hd : setRIn F kIn = .ok d) (k : List ℝ) (hf : firstBad d = some (.spacingError, k)) (hne : ∀ p ∈ d, p.2 ≠ []) :
    ∃ d', bispecIn F kIn = .ok (d', some d) ∧
      ∀ z x, get d z = .ok x → ∃ y, get d' z = .ok y ∧ y.length = k.length := by
  refine ⟨d.map fun p : Option Multipole × List ℝ => (p.1, relog k.length p.2), ?_, ?_⟩
  · unfold bispecIn
    rw [hd]
    simp only [hf]
    rw [respace_ok hne]
  · intro z x hx
    refine ⟨relog k.length x, ?_, length_logspace _ _ _⟩
    rw [get_relog, hx]
    rfl

/-- Samples of a multipole without wavenumbers, which are passed over if all wavenumbers are logarithmically
spaced (`C133_samples_kept`), are rejected if they are not. -/
theorem C133_extra_samples_violated (I : Interp ℝ) (F : Formulae) (kIn : Pts ℝ) (d d' : List (Option Multipole × List ℝ))
    (_hb : bispecIn F kIn = .ok (d', some d)) (B : List (Key × Mat ℝ)) (z : Multipole) (M : Mat ℝ) (hz : (.mp z, M) ∈ B)
    (hg : get d (some z) = .error .keyError) : ∃ e, bispecSamples I (d', some d) B = .error e := by
  cases hr : bispecSamples I (d', some d) B with
  | error e => exact ⟨e, rfl⟩
  | ok r =>
    obtain ⟨b, _, hb'⟩ := traverse_mem hr _ hz
    unfold reinterpOne at hb'
    simp only [keyMult, hg] at hb'
    cases hb'

/-! ### Concrete wavenumbers -/

theorem lin_fail : checkLoglin [1, 2, 3, 4] = .spacingError := by
  have h := linWin_fail
  unfold firstFail at h
  by_cases hc : checkLoglin [1, 2, 3, 4] = .ok
  · simp [hc, firstFail] at h
  · simpa [hc] using h

/-- Wavenumbers logarithmically spaced between 1 and 8 are kept. -/
example : ∃ d, bispecIn formulae19 (.all (logspace 1 8 4)) = .ok (d, none) :=
  ⟨_, (C133_kept formulae19 (.all (logspace 1 8 4)) _ rfl).2 fun p hp => by
    obtain ⟨z, _, rfl⟩ := List.mem_map.1 hp
    exact checkLoglin_logspace (by norm_num)⟩

/-- A single wavenumber is rejected. -/
example : bispecIn formulae19 (.all [1]) = .error .valueError :=
  C133_rejected formulae19 (.all [1]) _ rfl [] _ _ rfl (by simp) (Or.inl (by simp [checkLoglin]))

theorem lin_bad : firstBad (formulae19.multipolesZ.map fun z => (z, [1, 2, 3, 4])) = some (.spacingError, [1, 2, 3, 4]) := by
  rw [show formulae19.multipolesZ = some m000 :: formulae19.multipolesZ.tail from rfl, List.map_cons, firstBad, lin_fail,
    if_neg (by simp)]

/-- The wavenumbers 1, 2, 3, 4 are replaced by four others. -/
example (I : Interp ℝ) (hI : I.Ok) : ∃ d d' y, bispecIn formulae19 (.all [1, 2, 3, 4]) = .ok (d', some d) ∧
    get d' (some m110) = .ok y ∧ y.length = 4 ∧ checkLoglin y = .ok := by
  obtain ⟨d', h1, _, h2⟩ := C133_respaced_partial I hI formulae19 (.all [1, 2, 3, 4]) _ rfl _ lin_bad 4 (by norm_num)
    (by
      intro p hp
      obtain ⟨z, _, rfl⟩ := List.mem_map.1 hp
      rfl)
    (by
      intro p hp
      obtain ⟨z, _, rfl⟩ := List.mem_map.1 hp
      norm_num)
    (by
      intro p hp
      obtain ⟨z, _, rfl⟩ := List.mem_map.1 hp
      norm_num)
  obtain ⟨y, h3, h4, _, _, h5, _⟩ := h2 m110 [1, 2, 3, 4] rfl
  exact ⟨_, d', y, h1, h3, h4, h5⟩

/-- Two wavenumbers of one multipole, which are logarithmically spaced, become four because of the
wavenumbers of another. -/
example : ∃ d d' y, bispecIn formulae19 (.dict [(.mp m000, [1, 2, 3, 4]), (.mp m110, logspace 1 8 2)]) = .ok (d', some d) ∧
    get d (some m110) = .ok (logspace 1 8 2) ∧ (logspace 1 8 2).length = 2 ∧ get d' (some m110) = .ok y ∧ y.length = 4 := by
  obtain ⟨d', h1, h2⟩ := C133_number_violated formulae19 (.dict [(.mp m000, [1, 2, 3, 4]), (.mp m110, logspace 1 8 2)])
    [(some m000, [1, 2, 3, 4]), (some m110, logspace 1 8 2)] rfl [1, 2, 3, 4]
    (by rw [firstBad, lin_fail, if_neg (by simp)])
    (by
      intro p hp
      simp only [List.mem_cons, List.not_mem_nil, or_false] at hp
      rcases hp with rfl | rfl
      · simp
      · intro h
        have := length_logspace 1 8 2
        simp only at h
        rw [h] at this
        simp at this)
  obtain ⟨y, h3, h4⟩ := h2 (some m110) (logspace 1 8 2) rfl
  exact ⟨_, d', y, h1, rfl, length_logspace 1 8 2, h3, h4⟩

end Trv.Wc

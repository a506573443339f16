import Verif.Spec.ConvRange
import Verif.Lemmas.WinBuild
import Mathlib.Tactic.Linarith
import Mathlib.Tactic.NormNum
/-
Lemmas on the coverage of ranges of convolution.
-/
namespace Trv.Wc

open Trv

theorem traverse_ok_iff {ε α β : Type} (f : α → Except ε β) : ∀ (l : List α) (r : List β),
    traverse f l = .ok r ↔ List.Forall₂ (fun a b => f a = .ok b) l r
  | [], r => by
    cases r <;> simp [traverse]
  | a :: l, r => by
    unfold traverse
    cases h : f a with
    | error e =>
      cases r with
      | nil => simp
      | cons b r => simp [h]
    | ok b =>
      simp only
      cases h' : traverse f l with
      | error e =>
        simp only
        constructor
        · intro hh; cases hh
        · intro hh
          cases hh with
          | cons h1 h2 =>
            rw [(traverse_ok_iff f l _).2 h2] at h'
            cases h'
      | ok r' =>
        constructor
        · intro hh
          cases hh
          exact List.Forall₂.cons h ((traverse_ok_iff f l r').1 h')
        · intro hh
          cases hh with
          | cons h1 h2 =>
            rw [(traverse_ok_iff f l _).2 h2] at h'
            rw [h] at h1
            cases h1; cases h'; rfl

theorem traverse_ok_of {ε α β : Type} (f : α → Except ε β) : ∀ (l : List α),
    (∀ a ∈ l, ∃ b, f a = .ok b) → ∃ r, traverse f l = .ok r
  | [], _ => ⟨[], rfl⟩
  | a :: l, h => by
    obtain ⟨b, hb⟩ := h a (by simp)
    obtain ⟨r, hr⟩ := traverse_ok_of f l fun c hc => h c (by simp [hc])
    exact ⟨b :: r, by unfold traverse; rw [hb, hr]⟩

theorem forall₂_left {α β : Type} {R : α → β → Prop} : ∀ {l : List α} {r : List β},
    List.Forall₂ R l r → ∀ a ∈ l, ∃ b ∈ r, R a b
  | _, _, .nil, a, h => by simp at h
  | _, _, .cons h1 h2, a, h => by
    rcases List.mem_cons.1 h with rfl | h
    · exact ⟨_, by simp, h1⟩
    · obtain ⟨b, hb, hR⟩ := forall₂_left h2 a h
      exact ⟨b, by simp [hb], hR⟩

theorem forall₂_right {α β : Type} {R : α → β → Prop} : ∀ {l : List α} {r : List β},
    List.Forall₂ R l r → ∀ b ∈ r, ∃ a ∈ l, R a b
  | _, _, .nil, a, h => by simp at h
  | _, _, .cons h1 h2, a, h => by
    rcases List.mem_cons.1 h with rfl | h
    · exact ⟨_, by simp, h1⟩
    · obtain ⟨b, hb, hR⟩ := forall₂_right h2 a h
      exact ⟨b, by simp [hb], hR⟩

theorem foldr_min_le (d : ℝ) : ∀ (x : List ℝ), ∀ s ∈ x, x.foldr min d ≤ s
  | [], s, h => by simp at h
  | a :: x, s, h => by
    simp only [List.foldr_cons]
    rcases List.mem_cons.1 h with rfl | h
    · exact min_le_left _ _
    · exact (min_le_right _ _).trans (foldr_min_le d x s h)

theorem le_foldr_max (d : ℝ) : ∀ (x : List ℝ), ∀ s ∈ x, s ≤ x.foldr max d
  | [], s, h => by simp at h
  | a :: x, s, h => by
    simp only [List.foldr_cons]
    rcases List.mem_cons.1 h with rfl | h
    · exact le_max_left _ _
    · exact (le_foldr_max d x s h).trans (le_max_right _ _)

theorem foldr_min_mem (d : ℝ) : ∀ (x : List ℝ), x.foldr min d = d ∨ x.foldr min d ∈ x
  | [] => by simp
  | a :: x => by
    simp only [List.foldr_cons]
    rcases min_choice a (x.foldr min d) with h | h
    · right; rw [h]; simp
    · rw [h]
      rcases foldr_min_mem d x with h' | h'
      · left; exact h'
      · right; simp [h']

theorem foldr_max_mem (d : ℝ) : ∀ (x : List ℝ), x.foldr max d = d ∨ x.foldr max d ∈ x
  | [] => by simp
  | a :: x => by
    simp only [List.foldr_cons]
    rcases max_choice a (x.foldr max d) with h | h
    · right; rw [h]; simp
    · rw [h]
      rcases foldr_max_mem d x with h' | h'
      · left; exact h'
      · right; simp [h']

theorem lo_mem {x : List ℝ} (hx : x ≠ []) : lo x ∈ x := by
  obtain ⟨a, l, rfl⟩ := List.exists_cons_of_ne_nil hx
  rcases foldr_min_mem a (a :: l) with h | h
  · unfold lo
    simp only [List.headD_cons]
    rw [h]; simp
  · exact h

theorem hi_mem {x : List ℝ} (hx : x ≠ []) : hi x ∈ x := by
  obtain ⟨a, l, rfl⟩ := List.exists_cons_of_ne_nil hx
  rcases foldr_max_mem a (a :: l) with h | h
  · unfold hi
    simp only [List.headD_cons]
    rw [h]; simp
  · exact h

theorem lo_le {x : List ℝ} {s : ℝ} (h : s ∈ x) : lo x ≤ s := foldr_min_le _ x s h

theorem le_hi {x : List ℝ} {s : ℝ} (h : s ∈ x) : s ≤ hi x := le_foldr_max _ x s h

/-- The check, in terms of points. -/
theorem checkCoverage_ok {rc rs : List ℝ} (hc : rc ≠ []) (hs : rs ≠ []) :
    ∃ b, checkCoverage rc rs = .ok b ∧ (b = true ↔ Covers rc rs) := by
  refine ⟨_, by rw [checkCoverage, if_neg hs, if_neg hc], ?_⟩
  simp only [Bool.and_eq_true, decide_eq_true_eq]
  constructor
  · rintro ⟨h1, h2⟩ p hp
    exact ⟨⟨lo rs, lo_mem hs, h1.trans (lo_le hp)⟩, ⟨hi rs, hi_mem hs, (le_hi hp).trans h2⟩⟩
  · intro h
    obtain ⟨⟨s, hs1, hs2⟩, -⟩ := h _ (lo_mem hc)
    obtain ⟨-, ⟨s', hs1', hs2'⟩⟩ := h _ (hi_mem hc)
    constructor
    · refine le_trans ?_ hs2
      exact mul_le_mul_of_nonneg_left (lo_le hs1) (by norm_num)
    · refine hs2'.trans ?_
      exact mul_le_mul_of_nonneg_left (le_hi hs1') (by norm_num)

theorem checkCoverage_eq {rc rs : List ℝ} {b : Bool} (h : checkCoverage rc rs = .ok b) :
    rc ≠ [] ∧ rs ≠ [] ∧ (b = true ↔ Covers rc rs) := by
  have hs : rs ≠ [] := by
    intro hs; rw [checkCoverage, if_pos hs] at h; cases h
  have hc : rc ≠ [] := by
    intro hc; rw [checkCoverage, if_neg hs, if_pos hc] at h; cases h
  obtain ⟨b', hb', hw⟩ := checkCoverage_ok hc hs
  rw [hb'] at h
  cases h
  exact ⟨hc, hs, hw⟩

theorem get_ok_iff {κ α : Type} [DecidableEq κ] {d : List (κ × α)} {k : κ} {a : α} :
    get d k = .ok a ↔ get? d k = some a := by
  unfold get
  cases get? d k <;> simp

theorem mem_warnUnless {b : Bool} {w w' : Warn} : w ∈ warnUnless b w' ↔ b = false ∧ w = w' := by
  cases b <;> simp [warnUnless]

/-- What the checks of one term do. -/
theorem termWarns_ok {rQ : List (Multipole × List ℝ)} {rIn : List (Option Multipole × List ℝ)}
    {rOut : List (Multipole × List ℝ)} {m : Multipole} {t : Term} {ws : List Warn}
    (h : termWarns rQ rIn rOut m t = .ok ws) :
    ∃ rc, get? rOut m = some rc ∧ rc ≠ [] ∧ (∃ x, Reads rQ rIn t .window x) ∧
      (∀ z, t.z = some z → ∃ x, Reads rQ rIn t .correlation x) ∧
      (∀ s x, Reads rQ rIn t s x → x ≠ []) ∧
      ∀ w, w ∈ ws ↔ w.m = m ∧ w.t = t ∧ ∃ x, Reads rQ rIn t w.side x ∧ ¬ Covers rc x := by
  unfold termWarns at h
  cases h1 : get rOut m with
  | error e => rw [h1] at h; cases h
  | ok rc =>
    rw [h1] at h
    simp only at h
    cases h2 : get rQ t.q with
    | error e => rw [h2] at h; cases h
    | ok rs =>
      rw [h2] at h
      simp only [checkConvRange] at h
      cases h3 : checkCoverage rc rs with
      | error e => rw [h3] at h; cases h
      | ok b =>
        rw [h3] at h
        simp only at h
        obtain ⟨hc, hs, hb⟩ := checkCoverage_eq h3
        rw [get_ok_iff] at h1 h2
        refine ⟨rc, h1, hc, ⟨rs, h2⟩, ?_⟩
        cases hz : t.z with
        | none =>
          rw [hz] at h
          cases h
          refine ⟨fun z hz' => absurd hz' (by simp), ?_, ?_⟩
          · intro s x hx
            cases s with
            | window =>
              simp only [Reads] at hx
              rw [h2] at hx; cases hx; exact hs
            | correlation =>
              obtain ⟨z, hz', -⟩ := hx
              rw [hz] at hz'; cases hz'
          · intro w
            rw [mem_warnUnless]
            constructor
            · rintro ⟨hb', rfl⟩
              refine ⟨rfl, rfl, rs, h2, ?_⟩
              rw [← hb, hb']; decide
            · rintro ⟨hm, ht, x, hx, hw⟩
              obtain ⟨m', t', s⟩ := w
              simp only at hm ht hx
              subst hm; subst ht
              cases s with
              | window =>
                simp only [Reads] at hx
                rw [h2] at hx; cases hx
                rw [← hb] at hw
                exact ⟨by simpa using hw, rfl⟩
              | correlation =>
                obtain ⟨z, hz', -⟩ := hx
                rw [hz] at hz'; cases hz'
        | some z =>
          rw [hz] at h
          simp only at h
          cases h4 : get rIn (some z) with
          | error e => rw [h4] at h; cases h
          | ok rs' =>
            rw [h4] at h
            simp only at h
            cases h5 : checkCoverage rc rs' with
            | error e => rw [h5] at h; cases h
            | ok b' =>
              rw [h5] at h
              cases h
              obtain ⟨-, hs', hb'⟩ := checkCoverage_eq h5
              rw [get_ok_iff] at h4
              refine ⟨fun z' hz' => ⟨rs', z, hz, h4⟩, ?_, ?_⟩
              · intro s x hx
                cases s with
                | window =>
                  simp only [Reads] at hx
                  rw [h2] at hx; cases hx; exact hs
                | correlation =>
                  obtain ⟨z', hz', hx⟩ := hx
                  rw [hz] at hz'; cases hz'
                  rw [h4] at hx; cases hx; exact hs'
              · intro w
                rw [List.mem_append, mem_warnUnless, mem_warnUnless]
                constructor
                · rintro (⟨hf, rfl⟩ | ⟨hf, rfl⟩)
                  · refine ⟨rfl, rfl, rs, h2, ?_⟩
                    rw [← hb, hf]; decide
                  · refine ⟨rfl, rfl, rs', ⟨z, hz, h4⟩, ?_⟩
                    rw [← hb', hf]; decide
                · rintro ⟨hm, ht, x, hx, hw⟩
                  obtain ⟨m', t', s⟩ := w
                  simp only at hm ht hx
                  subst hm; subst ht
                  cases s with
                  | window =>
                    simp only [Reads] at hx
                    rw [h2] at hx; cases hx
                    rw [← hb] at hw
                    exact .inl ⟨by simpa using hw, rfl⟩
                  | correlation =>
                    obtain ⟨z', hz', hx⟩ := hx
                    rw [hz] at hz'; cases hz'
                    rw [h4] at hx; cases hx
                    rw [← hb'] at hw
                    exact .inr ⟨by simpa using hw, rfl⟩

/-- When the checks of one term succeed. -/
theorem termWarns_of {rQ : List (Multipole × List ℝ)} {rIn : List (Option Multipole × List ℝ)}
    {rOut : List (Multipole × List ℝ)} {m : Multipole} {t : Term} {rc : List ℝ}
    (h1 : get? rOut m = some rc) (hc : rc ≠ []) (h2 : ∃ x, Reads rQ rIn t .window x)
    (h3 : ∀ z, t.z = some z → ∃ x, Reads rQ rIn t .correlation x)
    (h4 : ∀ s x, Reads rQ rIn t s x → x ≠ []) : ∃ ws, termWarns rQ rIn rOut m t = .ok ws := by
  obtain ⟨x, hx⟩ := h2
  obtain ⟨b, hb, -⟩ := checkCoverage_ok hc (h4 _ _ hx)
  unfold termWarns
  rw [get_ok_iff.2 h1]
  simp only
  rw [get_ok_iff.2 hx]
  simp only [checkConvRange]
  rw [hb]
  simp only
  cases hz : t.z with
  | none => exact ⟨_, rfl⟩
  | some z =>
    obtain ⟨y, hy⟩ := h3 z hz
    obtain ⟨b', hb', -⟩ := checkCoverage_ok hc (h4 _ _ hy)
    obtain ⟨z', hz', hy⟩ := hy
    rw [hz] at hz'; cases hz'
    simp only
    rw [get_ok_iff.2 hy]
    simp only
    rw [hb']
    exact ⟨_, rfl⟩

/-- The coordinates of one term are the points it reads. -/
theorem termCoords_ok {rQ : List (Multipole × List ℝ)} {rIn : List (Option Multipole × List ℝ)} {t : Term}
    {xs : List (List ℝ)} (h : termCoords rQ rIn t = .ok xs) :
    (∀ x, x ∈ xs ↔ ∃ s, Reads rQ rIn t s x) ∧ (∃ x, Reads rQ rIn t .window x) ∧
      ∀ z, t.z = some z → ∃ x, Reads rQ rIn t .correlation x := by
  unfold termCoords at h
  cases h2 : get rQ t.q with
  | error e => rw [h2] at h; cases h
  | ok a =>
    rw [h2] at h
    simp only at h
    rw [get_ok_iff] at h2
    cases hz : t.z with
    | none =>
      rw [hz] at h
      cases h
      refine ⟨fun x => ?_, ⟨a, h2⟩, fun z hz' => absurd hz' (by simp)⟩
      rw [List.mem_singleton]
      constructor
      · rintro rfl; exact ⟨.window, h2⟩
      · rintro ⟨s, hx⟩
        cases s with
        | window =>
          simp only [Reads] at hx
          rw [h2] at hx; cases hx; rfl
        | correlation =>
          obtain ⟨z, hz', -⟩ := hx
          rw [hz] at hz'; cases hz'
    | some z =>
      rw [hz] at h
      simp only at h
      cases h4 : get rIn (some z) with
      | error e => rw [h4] at h; cases h
      | ok b =>
        rw [h4] at h
        cases h
        rw [get_ok_iff] at h4
        refine ⟨fun x => ?_, ⟨a, h2⟩, fun z' hz' => ⟨b, z, hz, h4⟩⟩
        simp only [List.mem_cons, List.not_mem_nil, or_false]
        constructor
        · rintro (rfl | rfl)
          · exact ⟨.window, h2⟩
          · exact ⟨.correlation, z, hz, h4⟩
        · rintro ⟨s, hx⟩
          cases s with
          | window =>
            simp only [Reads] at hx
            rw [h2] at hx; cases hx; exact .inl rfl
          | correlation =>
            obtain ⟨z', hz', hx⟩ := hx
            rw [hz] at hz'; cases hz'
            rw [h4] at hx; cases hx; exact .inr rfl

theorem foldl_max_spec : ∀ (l : List ℝ) (a : ℝ), (∀ x ∈ a :: l, x ≤ l.foldl max a) ∧ l.foldl max a ∈ a :: l
  | [], a => by simp
  | b :: l, a => by
    obtain ⟨h1, h2⟩ := foldl_max_spec l (max a b)
    simp only [List.foldl_cons]
    constructor
    · intro x hx
      simp only [List.mem_cons] at hx
      have h0 := h1 (max a b) (by simp)
      rcases hx with rfl | rfl | hx
      · exact (le_max_left _ _).trans h0
      · exact (le_max_right _ _).trans h0
      · exact h1 x (by simp [hx])
    · rcases List.mem_cons.1 h2 with h | h
      · rw [h]
        rcases max_choice a b with h' | h' <;> rw [h'] <;> simp
      · simp [h]

theorem foldl_min_spec {α : Type} [LinearOrder α] : ∀ (l : List α) (a : α),
    (∀ x ∈ a :: l, l.foldl min a ≤ x) ∧ l.foldl min a ∈ a :: l
  | [], a => by simp
  | b :: l, a => by
    obtain ⟨h1, h2⟩ := foldl_min_spec l (min a b)
    simp only [List.foldl_cons]
    constructor
    · intro x hx
      simp only [List.mem_cons] at hx
      have h0 := h1 (min a b) (by simp)
      rcases hx with rfl | rfl | hx
      · exact h0.trans (min_le_left _ _)
      · exact h0.trans (min_le_right _ _)
      · exact h1 x (by simp [hx])
    · rcases List.mem_cons.1 h2 with h | h
      · rw [h]
        rcases min_choice a b with h' | h' <;> rw [h'] <;> simp
      · simp [h]

/-- What the common range is: from the largest of the smallest points to the smallest of the largest,
with the smallest number of points. -/
theorem convRange_ok {xs : List (List ℝ)} {y : List ℝ} (h : convRange xs = .ok y) :
    (∀ x ∈ xs, x ≠ []) ∧ xs ≠ [] ∧ ∃ a b : ℝ, ∃ n : ℕ, y = logspace a b n ∧
      (∀ x ∈ xs, lo x ≤ a ∧ b ≤ hi x ∧ n ≤ x.length) ∧ (∃ x ∈ xs, a = lo x) ∧ (∃ x ∈ xs, b = hi x) ∧
      ∃ x ∈ xs, n = x.length := by
  cases xs with
  | nil => simp [convRange] at h
  | cons x xs =>
    unfold convRange at h
    simp only [List.map_cons] at h
    split_ifs at h with h0
    cases h
    obtain ⟨a1, a2⟩ := foldl_max_spec (xs.map lo) (lo x)
    obtain ⟨b1, b2⟩ := foldl_min_spec (xs.map hi) (hi x)
    obtain ⟨n1, n2⟩ := foldl_min_spec (xs.map List.length) x.length
    rw [← List.map_cons] at a1 a2 b1 b2
    rw [← List.map_cons (f := List.length)] at n1 n2
    refine ⟨?_, by simp, _, _, _, rfl, ?_, ?_, ?_, ?_⟩
    · intro z hz hz0
      apply h0
      rw [List.any_eq_true]
      exact ⟨z, hz, by simp [hz0]⟩
    · intro z hz
      exact ⟨a1 _ (List.mem_map_of_mem hz), b1 _ (List.mem_map_of_mem hz), n1 _ (List.mem_map_of_mem hz)⟩
    · obtain ⟨z, hz, he⟩ := List.mem_map.1 a2
      exact ⟨z, hz, he.symm⟩
    · obtain ⟨z, hz, he⟩ := List.mem_map.1 b2
      exact ⟨z, hz, he.symm⟩
    · obtain ⟨z, hz, he⟩ := List.mem_map.1 n2
      exact ⟨z, hz, he.symm⟩

theorem convRange_of {xs : List (List ℝ)} (h : ∀ x ∈ xs, x ≠ []) (h0 : xs ≠ []) :
    ∃ y, convRange xs = .ok y := by
  obtain ⟨x, l, rfl⟩ := List.exists_cons_of_ne_nil h0
  unfold convRange
  simp only [List.map_cons]
  rw [if_neg]
  · exact ⟨_, rfl⟩
  rw [List.any_eq_true]
  rintro ⟨z, hz, hz0⟩
  exact h z hz (by simpa using hz0)

/-- Points of a logarithmic spacing lie between its ends. -/
theorem mem_logspace {a b : ℝ} {n : ℕ} (ha : 0 < a) (hab : a ≤ b) {p : ℝ} (hp : p ∈ logspace a b n) :
    a ≤ p ∧ p ≤ b := by
  unfold logspace at hp
  obtain ⟨i, hi, rfl⟩ := List.mem_map.1 hp
  rw [List.mem_range] at hi
  split_ifs with hn
  · exact ⟨le_rfl, hab⟩
  · have hn2 : 2 ≤ n := by omega
    have h1 : (0 : ℝ) < (n : ℝ) - 1 := by
      have : (2 : ℝ) ≤ n := by exact_mod_cast hn2
      linarith
    have hi' : (i : ℝ) ≤ (n : ℝ) - 1 := by
      have : (i : ℝ) + 1 ≤ n := by exact_mod_cast hi
      linarith
    have hq0 : 0 ≤ (i : ℝ) / ((n : ℝ) - 1) := div_nonneg (Nat.cast_nonneg i) h1.le
    have hq1 : (i : ℝ) / ((n : ℝ) - 1) ≤ 1 := (div_le_one h1).2 hi'
    have hl : Real.log a ≤ Real.log b := Real.log_le_log ha hab
    constructor
    · calc a = Real.exp (Real.log a) := (Real.exp_log ha).symm
        _ ≤ _ := Real.exp_le_exp.2 (by nlinarith)
    · calc _ ≤ Real.exp (Real.log b) := Real.exp_le_exp.2 (by nlinarith)
        _ = b := Real.exp_log (ha.trans_le hab)

/-- A logarithmic spacing starts where it is told to. -/
theorem first_mem_logspace {a b : ℝ} {n : ℕ} (ha : 0 < a) (hn : 1 ≤ n) : a ∈ logspace a b n := by
  unfold logspace
  refine List.mem_map.2 ⟨0, by rw [List.mem_range]; omega, ?_⟩
  split_ifs with h
  · rfl
  · simp [Real.exp_log ha]

end Trv.Wc

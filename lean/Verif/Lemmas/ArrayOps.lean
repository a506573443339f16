import Verif.Spec.ArrayOps
import Mathlib.Tactic.Linarith
import Mathlib.Tactic.Ring
import Mathlib.Tactic.FieldSimp
import Mathlib.Tactic.Positivity
/-
Helper lemmas for the array operations.
-/
set_option linter.unusedSectionVars false
namespace Trv.Arr

open Trv

section
variable {K : Type} [Field K] [LinearOrder K]

theorem check1d_ok {a : List K} (h : 2 ≤ a.length) : check1d a = .ok a := by
  unfold check1d; rw [if_neg (by omega)]

theorem check1d_err {a : List K} (h : ¬ 2 ≤ a.length) : check1d a = .error .valueError := by
  unfold check1d; rw [if_pos (by omega)]

theorem front2_eq {a : List K} (h : 2 ≤ a.length) :
    front2 a = some (a.getD 0 0, a.getD 1 0) := by
  match a, h with
  | x :: y :: l, _ => rfl

theorem back2_eq {a : List K} (h : 2 ≤ a.length) :
    back2 a = some (a.getD (a.length - 1) 0, a.getD (a.length - 2) 0) := by
  unfold back2
  rw [front2_eq (by simpa using h)]
  simp only [List.getD_eq_getElem?_getD]
  rw [List.getElem?_reverse (by omega), List.getElem?_reverse (by omega)]
  congr 3

theorem range_split (n N : ℕ) {α : Type} (f : ℕ → α) :
    (List.range (n + N + n)).map f = (List.range n).map f ++
      (List.range N).map (fun i => f (n + i)) ++ (List.range n).map (fun i => f (n + N + i)) := by
  rw [List.range_add, List.range_add, List.map_append, List.map_append, List.map_map, List.map_map]
  rfl

theorem cppFill_eq (a : List K) (n : ℕ) (lo hi : ℕ → K) :
    cppFill a n lo hi = (List.range n).map lo ++ a ++
      (List.range n).map (fun i => hi (n + a.length + i)) := by
  unfold cppFill
  rw [range_split]
  congr 1
  · congr 1
    · apply List.map_congr_left
      intro i hi'; rw [List.mem_range] at hi'; rw [if_pos hi']
    · apply List.ext_getElem
      · simp
      · intro i h1 h2
        rw [List.getElem_map, List.getElem_range, if_neg (by omega), if_pos (by omega)]
        simp [List.getD_eq_getElem?_getD, List.getElem?_eq_getElem h2]
  · apply List.map_congr_left
    intro i _; rw [if_neg (by omega), if_neg (by omega)]

theorem linSeq_getD (A d : K) (s : ℤ) (N i : ℕ) (h : i < N) :
    (linSeq A d s N).getD i 0 = A + d * ((s + (i : ℤ) : ℤ) : K) := by
  unfold linSeq
  rw [List.getD_eq_getElem?_getD, List.getElem?_map, List.getElem?_range h]; rfl

theorem geomSeq_getD (A r : K) (s : ℤ) (N i : ℕ) (h : i < N) :
    (geomSeq A r s N).getD i 0 = A * r ^ (s + (i : ℤ)) := by
  unfold geomSeq
  rw [List.getD_eq_getElem?_getD, List.getElem?_map, List.getElem?_range h]; rfl

theorem allAdj_iff (R : K → K → Prop) [DecidableRel R] (htrans : ∀ x y z, R x y → R y z → R x z)
    (a : List K) : allAdj R a = true ↔ a.Pairwise R := by
  match a with
  | [] => simp [allAdj]
  | [x] => simp [allAdj]
  | x :: y :: l =>
    have ih := allAdj_iff R htrans (y :: l)
    simp only [allAdj, Bool.and_eq_true, decide_eq_true_eq, ih]
    constructor
    · rintro ⟨h1, h2⟩
      rw [List.pairwise_cons]
      refine ⟨?_, h2⟩
      intro z hz
      rcases List.mem_cons.1 hz with rfl | hz
      · exact h1
      · exact htrans _ _ _ h1 ((List.pairwise_cons.1 h2).1 z hz)
    · intro h
      rw [List.pairwise_cons] at h
      exact ⟨h.1 y (by simp), h.2⟩

theorem allAdj_getElem (R : K → K → Prop) [DecidableRel R] (a : List K) :
    allAdj R a = true ↔ ∀ i, (h : i + 1 < a.length) → R a[i] a[i + 1] := by
  match a with
  | [] => simp [allAdj]
  | [x] => simp [allAdj]
  | x :: y :: l =>
    have ih := allAdj_getElem R (y :: l)
    simp only [allAdj, Bool.and_eq_true, decide_eq_true_eq, ih]
    constructor
    · rintro ⟨h1, h2⟩ i hi
      cases i with
      | zero => exact h1
      | succ i => exact h2 i (by simpa using hi)
    · intro h
      exact ⟨h 0 (by simp), fun i hi => h (i + 1) (by simpa using hi)⟩

end

/-! ### Oscillation-safe slopes -/

theorem powLeft_nonpos {g : List ℝ} {x0 x1 : ℝ} {q : List ℝ} {p : ℝ}
    (h : powLeft g x0 x1 q = .ok p) : p ≤ 0 := by
  unfold powLeft at h
  split_ifs at h with h1 h2 h3
  · simp only [Except.ok.injEq] at h; linarith
  · simp only [Except.ok.injEq] at h; linarith
  · simp only [Except.ok.injEq] at h; linarith
  · cases hm : meanLngrad q with
    | error e => rw [hm] at h; simp at h
    | ok m =>
      rw [hm] at h; simp only at h
      split_ifs at h with h4 <;> simp only [Except.ok.injEq] at h <;> linarith

theorem powRight_nonpos {g : List ℝ} {x0 x1 : ℝ} {q : List ℝ} {p : ℝ}
    (h : powRight g x0 x1 q = .ok p) : p ≤ 0 := by
  unfold powRight at h
  split_ifs at h with h1 h2 h3
  · simp only [Except.ok.injEq] at h; linarith
  · simp only [Except.ok.injEq] at h; linarith
  · simp only [Except.ok.injEq] at h; linarith
  · cases hm : meanLngrad q with
    | error e => rw [hm] at h; simp at h
    | ok m =>
      rw [hm] at h; simp only at h
      split_ifs at h with h4 <;> simp only [Except.ok.injEq] at h <;> linarith

/-- The result of the oscillation-safe extrapolation, in terms of its two slopes. -/
theorem pyOscil_ok {a : List ℝ} {n : ℕ} {out : List ℝ} (h : pyOscil a n = .ok out) :
    2 ≤ a.length ∧ ∃ pl pr : ℝ, pl ≤ 0 ∧ pr ≤ 0 ∧
      out = (List.range n).map (fun i : ℕ => a.getD 0 0 * Real.exp (pl * ((n : ℝ) - i))) ++ a ++
        (List.range n).map (fun i : ℕ => a.getD (a.length - 1) 0 * Real.exp (pr * ((i : ℝ) + 1))) := by
  by_cases hl : 2 ≤ a.length
  · refine ⟨hl, ?_⟩
    unfold pyOscil at h
    simp only [check1d_ok hl, bind, Except.bind] at h
    cases h1 : lngrad (sliceTo a (banks a).1) with
    | error e => rw [h1] at h; simp at h
    | ok gl =>
      rw [h1] at h; simp only at h
      cases h2 : lngrad (sliceFrom a (banks a).2) with
      | error e => rw [h2] at h; simp at h
      | ok gr =>
        rw [h2] at h; simp only at h
        cases h3 : lngrad (sliceTo a (min (min (banks a).1 (ldBank a gl)) (quarters a).1)) with
        | error e => rw [h3] at h; simp at h
        | ok glt =>
          rw [h3] at h; simp only [front2_eq hl, back2_eq hl] at h
          cases h4 : powLeft glt (a.getD 0 0) (a.getD 1 0) (sliceTo a (quarters a).1) with
          | error e => rw [h4] at h; simp at h
          | ok pl =>
            rw [h4] at h; simp only at h
            cases h5 : lngrad (sliceFrom a
                (max (max (banks a).2 (rdBank a (banks a).2 gr)) (quarters a).2)) with
            | error e => rw [h5] at h; simp at h
            | ok grt =>
              rw [h5] at h; simp only at h
              cases h6 : powRight grt (a.getD (a.length - 1) 0) (a.getD (a.length - 2) 0)
                  (sliceFrom a (quarters a).2) with
              | error e => rw [h6] at h; simp at h
              | ok pr =>
                rw [h6] at h; simp only [Except.ok.injEq] at h
                exact ⟨pl, pr, powLeft_nonpos h4, powRight_nonpos h6, h.symm⟩
  · unfold pyOscil at h
    simp only [check1d_err hl, bind, Except.bind] at h
    simp at h

theorem gradient_ok (l : List Flt) (h : 2 ≤ l.length) : ∃ g, gradient l = .ok g := by
  unfold gradient
  match l, h with
  | x :: y :: t, _ =>
    have hr : 2 ≤ (x :: y :: t).reverse.length := by simp
    generalize (x :: y :: t).reverse = w at hr
    match w, hr with
    | u :: v :: s, _ => exact ⟨_, rfl⟩

theorem lngrad_ok (l : List ℝ) (h : 2 ≤ l.length) : ∃ g, lngrad l = .ok g := by
  obtain ⟨g, hg⟩ := gradient_ok (l.map logAbs) (by simpa using h)
  unfold lngrad; rw [hg]; exact ⟨_, rfl⟩

theorem meanLngrad_ok (l : List ℝ) (h : 2 ≤ l.length) : ∃ g, meanLngrad l = .ok g := by
  obtain ⟨g, hg⟩ := gradient_ok (l.map logAbs) (by simpa using h)
  unfold meanLngrad; rw [hg]; exact ⟨_, rfl⟩

theorem powLeft_ok (g : List ℝ) (x0 x1 : ℝ) (q : List ℝ) (h : 2 ≤ q.length) :
    ∃ p, powLeft g x0 x1 q = .ok p := by
  obtain ⟨m, hm⟩ := meanLngrad_ok q h
  unfold powLeft
  split_ifs
  · exact ⟨_, rfl⟩
  · exact ⟨_, rfl⟩
  · exact ⟨_, rfl⟩
  · rw [hm]; simp only; split_ifs <;> exact ⟨_, rfl⟩

theorem powRight_ok (g : List ℝ) (x0 x1 : ℝ) (q : List ℝ) (h : 2 ≤ q.length) :
    ∃ p, powRight g x0 x1 q = .ok p := by
  obtain ⟨m, hm⟩ := meanLngrad_ok q h
  unfold powRight
  split_ifs
  · exact ⟨_, rfl⟩
  · exact ⟨_, rfl⟩
  · exact ⟨_, rfl⟩
  · rw [hm]; simp only; split_ifs <;> exact ⟨_, rfl⟩

theorem length_sliceTo {α : Type} (a : List α) (i : ℤ) (h0 : 2 ≤ i) (h : 2 ≤ a.length) :
    2 ≤ (sliceTo a i).length := by
  unfold sliceTo; rw [if_pos (by omega), List.length_take]; omega

theorem length_sliceFrom {α : Type} (a : List α) (i : ℤ) (h0 : 0 ≤ i)
    (h : i + 2 ≤ a.length) : 2 ≤ (sliceFrom a i).length := by
  unfold sliceFrom; rw [if_pos (by omega), List.length_drop]; omega

theorem mem_signChanges_lt {l : List ℝ} {i : ℕ} (h : i ∈ signChanges l) : i < l.length - 1 := by
  unfold signChanges at h
  rw [List.mem_filter, List.mem_range] at h
  exact h.1

theorem argmaxAbs_lt (a : List ℝ) (h : 0 < a.length) : argmaxAbs a < a.length := by
  unfold argmaxAbs
  have : ∀ (l : List ℕ) (b : ℕ), b < a.length → (∀ i ∈ l, i < a.length) →
      l.foldl (fun b i => if |a.getD b 0| < |a.getD i 0| then i else b) b < a.length := by
    intro l
    induction l with
    | nil => intro b hb _; exact hb
    | cons x l ih =>
      intro b hb hl
      rw [List.foldl_cons]
      apply ih
      · split_ifs
        · exact hl x (by simp)
        · exact hb
      · intro i hi; exact hl i (List.mem_cons_of_mem _ hi)
  exact this _ 0 h (fun i hi => List.mem_range.1 hi)

/-- With at least four samples the oscillation-safe extrapolation never fails. -/
theorem pyOscil_total (a : List ℝ) (n : ℕ) (h : 4 ≤ a.length) : ∃ out, pyOscil a n = .ok out := by
  have hl : 2 ≤ a.length := by omega
  have hb : 3 ≤ (banks a).1 ∧ 0 ≤ (banks a).2 ∧ (banks a).2 ≤ (a.length : ℤ) - 4 := by
    unfold banks
    split <;> simp only <;> omega
  have hq : 3 ≤ (quarters a).1 ∧ 0 ≤ (quarters a).2 ∧ (quarters a).2 ≤ (a.length : ℤ) - 4 := by
    have hp := argmaxAbs_lt a (by omega)
    unfold quarters
    simp only
    refine ⟨le_max_right _ _, ?_, min_le_right _ _⟩
    apply le_min
    · split_ifs <;> omega
    · omega
  obtain ⟨gl, h1⟩ := lngrad_ok (sliceTo a (banks a).1) (length_sliceTo a _ (by omega) hl)
  obtain ⟨gr, h2⟩ := lngrad_ok (sliceFrom a (banks a).2) (length_sliceFrom a _ (by omega) (by omega))
  have hld : 3 ≤ ldBank a gl := by
    unfold ldBank; split <;> omega
  have hrd : 0 ≤ rdBank a (banks a).2 gr ∧ rdBank a (banks a).2 gr ≤ (a.length : ℤ) - 4 := by
    unfold rdBank; split <;> omega
  obtain ⟨glt, h3⟩ := lngrad_ok (sliceTo a (min (min (banks a).1 (ldBank a gl)) (quarters a).1))
    (length_sliceTo a _ (by omega) hl)
  obtain ⟨pl, h4⟩ := powLeft_ok glt (a.getD 0 0) (a.getD 1 0) (sliceTo a (quarters a).1)
    (length_sliceTo a _ (by omega) hl)
  obtain ⟨grt, h5⟩ := lngrad_ok (sliceFrom a
    (max (max (banks a).2 (rdBank a (banks a).2 gr)) (quarters a).2))
    (length_sliceFrom a _ (by omega) (by omega))
  obtain ⟨pr, h6⟩ := powRight_ok grt (a.getD (a.length - 1) 0) (a.getD (a.length - 2) 0)
    (sliceFrom a (quarters a).2) (length_sliceFrom a _ (by omega) (by omega))
  unfold pyOscil
  simp only [check1d_ok hl, bind, Except.bind, h1, h2, h3, front2_eq hl, back2_eq hl, h4, h5, h6]
  exact ⟨_, rfl⟩

/-! ### 2-d -/

section
variable {K : Type} [Field K] [LinearOrder K]

theorem check2d_ok {m : Mat K} (hr : 2 ≤ m.r) (hc : 2 ≤ m.c) : check2d m = .ok m := by
  unfold check2d
  rw [if_neg]
  have : 4 ≤ m.r * m.c := Nat.mul_le_mul hr hc
  omega

theorem check2d_err {m : Mat K} (h : ¬ (2 ≤ m.r ∧ 2 ≤ m.c)) : check2d m = .error .valueError := by
  unfold check2d
  rw [if_pos]
  by_contra h'
  push Not at h'
  obtain ⟨h1, h2, h3⟩ := h'
  rcases Nat.lt_or_ge m.r 2 with hr | hr
  · obtain hr : m.r = 0 := by omega
    rw [hr] at h3; simp at h3
  · obtain hc : m.c = 0 := by omega
    rw [hc] at h3; simp at h3

theorem check2d_inv {m m' : Mat K} (h : check2d m = .ok m') : m' = m ∧ 2 ≤ m.r ∧ 2 ≤ m.c := by
  unfold check2d at h
  split_ifs at h with h1
  simp only [Except.ok.injEq] at h
  push Not at h1
  refine ⟨h.symm, ?_, ?_⟩
  · rcases Nat.lt_or_ge m.r 2 with h2 | h2
    · have : m.r = 0 := by omega
      rw [this] at h1; omega
    · exact h2
  · rcases Nat.lt_or_ge m.c 2 with h2 | h2
    · have : m.c = 0 := by omega
      rw [this] at h1; omega
    · exact h2

end

/-! ### Sorting -/

theorem insertBy_perm (lt : ℕ → ℕ → Bool) (x : ℕ) (l : List ℕ) : (insertBy lt x l).Perm (x :: l) := by
  induction l with
  | nil => exact List.Perm.refl _
  | cons y l ih =>
    unfold insertBy
    split_ifs
    · exact List.Perm.refl _
    · exact (ih.cons y).trans (List.Perm.swap x y l)

theorem sortBy_perm (lt : ℕ → ℕ → Bool) (l : List ℕ) : (sortBy lt l).Perm l := by
  unfold sortBy
  have : ∀ (l acc : List ℕ), (l.foldl (fun acc x => insertBy lt x acc) acc).Perm (acc ++ l) := by
    intro l
    induction l with
    | nil => intro acc; simp
    | cons x l ih =>
      intro acc
      rw [List.foldl_cons]
      refine (ih _).trans ?_
      refine ((insertBy_perm lt x acc).append_right l).trans ?_
      simpa using (List.perm_middle (a := x) (l₁ := acc) (l₂ := l)).symm
  simpa using this l []

theorem insertBy_sorted (key : ℕ → ℤ) (x : ℕ) (l : List ℕ)
    (h : l.Pairwise fun a b => key a ≤ key b) :
    (insertBy (fun a b => decide (key a < key b)) x l).Pairwise fun a b => key a ≤ key b := by
  induction l with
  | nil => simp [insertBy]
  | cons y l ih =>
    rw [List.pairwise_cons] at h
    unfold insertBy
    split_ifs with hc
    · simp only [decide_eq_true_eq] at hc
      rw [List.pairwise_cons, List.pairwise_cons]
      refine ⟨?_, h⟩
      intro z hz
      rcases List.mem_cons.1 hz with rfl | hz
      · exact hc.le
      · exact hc.le.trans (h.1 z hz)
    · simp only [decide_eq_true_eq, not_lt] at hc
      rw [List.pairwise_cons]
      refine ⟨?_, ih h.2⟩
      intro z hz
      rcases List.mem_cons.1 ((insertBy_perm _ x l).mem_iff.1 hz) with rfl | hz
      · exact hc
      · exact h.1 z hz

theorem sortBy_sorted (key : ℕ → ℤ) (l : List ℕ) :
    (sortBy (fun a b => decide (key a < key b)) l).Pairwise fun a b => key a ≤ key b := by
  unfold sortBy
  have : ∀ (l acc : List ℕ), (acc.Pairwise fun a b => key a ≤ key b) →
      (l.foldl (fun acc x => insertBy (fun a b => decide (key a < key b)) x acc) acc).Pairwise
        fun a b => key a ≤ key b := by
    intro l
    induction l with
    | nil => intro acc h; exact h
    | cons x l ih => intro acc h; rw [List.foldl_cons]; exact ih _ (insertBy_sorted key x acc h)
  exact this l [] List.Pairwise.nil

theorem mapM_ok {α β ε : Type} {f : α → Except ε β} :
    ∀ {l : List α} {r : List β}, l.mapM f = .ok r →
      r.length = l.length ∧ ∀ i (h : i < l.length) (h' : i < r.length), f l[i] = .ok r[i] := by
  intro l
  induction l with
  | nil =>
    intro r h
    simp only [List.mapM_nil, pure, Except.pure, Except.ok.injEq] at h
    subst h; simp
  | cons x l ih =>
    intro r h
    simp only [List.mapM_cons, bind, Except.bind, pure, Except.pure] at h
    cases hx : f x with
    | error e => rw [hx] at h; simp at h
    | ok y =>
      rw [hx] at h
      simp only at h
      cases hl : l.mapM f with
      | error e => rw [hl] at h; simp at h
      | ok r' =>
        rw [hl] at h
        simp only [Except.ok.injEq] at h
        subst h
        obtain ⟨h1, h2⟩ := ih hl
        refine ⟨by simp [h1], ?_⟩
        intro i hi hi'
        cases i with
        | zero => simpa using hx
        | succ i => simpa using h2 i (by simpa using hi) (by simpa using hi')

theorem rowOscil_ok {m : Mat ℝ} {n : ℕ} {out : Mat ℝ} (h : rowOscil m n = .ok out) :
    out.r = m.r ∧ out.c = n + m.c + n ∧
      ∀ i j, i < m.r → j < m.c → out.v i (n + j) = m.v i j := by
  unfold rowOscil at h
  cases hm : m.rows.mapM (fun a => pyOscil a n) with
  | error e => rw [hm] at h; simp at h
  | ok rows =>
    rw [hm] at h
    simp only [Except.ok.injEq] at h
    subst h
    obtain ⟨h1, h2⟩ := mapM_ok hm
    have hl : rows.length = m.r := by rw [h1]; simp [Mat.rows]
    refine ⟨hl, rfl, ?_⟩
    intro i j hi hj
    have h3 := h2 i (by simp [Mat.rows, hi]) (by omega)
    obtain ⟨_, pl, pr, _, _, h4⟩ := pyOscil_ok h3
    simp only [Mat.ofRows]
    rw [List.getD_eq_getElem?_getD, List.getD_eq_getElem?_getD, List.getElem?_eq_getElem (l := rows) (by omega)]
    simp only [Option.getD_some]
    rw [h4, List.append_assoc, List.getElem?_append_right (by simp)]
    simp only [List.length_map, List.length_range, Nat.add_sub_cancel_left]
    rw [List.getElem?_append_left (by simp [Mat.rows, hj])]
    simp [Mat.rows, hj]

end Trv.Arr

import Verif.Spec.WinSelect
import Verif.Lemmas.Multipole
import Mathlib.Tactic.Ring
import Mathlib.Tactic.Linarith
/-
Lemmas on sub-selecting the samples of a window.
-/
namespace Trv.Wc

open Trv

/-! ### Dictionaries -/

theorem traverse_ok {ε α β : Type} (f : α → Except ε β) (k : α → β) (l : List α)
    (h : ∀ a ∈ l, f a = .ok (k a)) : traverse f l = .ok (l.map k) := by
  have := traverse_map_ok f id k l (by simpa using h)
  simpa using this

theorem get?_map_self {κ α : Type} [DecidableEq κ] (g : κ → α) {m : κ} : ∀ {ms : List κ}, m ∈ ms →
    get? (ms.map fun k => (k, g k)) m = some (g m)
  | k :: ms, h => by
    by_cases hk : k = m
    · subst hk
      simp [get?]
    · have hm : m ∈ ms := by
        rcases List.mem_cons.1 h with h | h
        · exact absurd h.symm hk
        · exact h
      have ih := get?_map_self g hm
      simp only [get?, List.map_cons, List.find?_cons, hk, decide_false] at ih ⊢
      exact ih

theorem get?_map_val {κ α β : Type} [DecidableEq κ] (h : κ × α → β) {m : κ} {a : α} :
    ∀ {d : List (κ × α)}, get? d m = some a → get? (d.map fun p => (p.1, h p)) m = some (h (m, a))
  | p :: d, he => by
    obtain ⟨k, b⟩ := p
    by_cases hk : k = m
    · subst hk
      simp only [get?, List.find?_cons, decide_true, Option.map_some, Option.some.injEq] at he
      subst he
      simp [get?]
    · simp only [get?, List.find?_cons, hk, decide_false] at he
      have ih := get?_map_val h (d := d) he
      simp only [get?, List.map_cons, List.find?_cons, hk, decide_false] at ih ⊢
      exact ih

theorem get?_isMem {κ α : Type} [DecidableEq κ] {m : κ} {a : α} :
    ∀ {d : List (κ × α)}, get? d m = some a → (m, a) ∈ d
  | p :: d, he => by
    obtain ⟨k, b⟩ := p
    by_cases hk : k = m
    · subst hk
      simp only [get?, List.find?_cons, decide_true, Option.map_some, Option.some.injEq] at he
      subst he
      simp
    · simp only [get?, List.find?_cons, hk, decide_false] at he
      exact List.mem_cons_of_mem _ (get?_isMem (d := d) he)

theorem get?_of_nodup {κ α : Type} [DecidableEq κ] {m : κ} {a : α} :
    ∀ {d : List (κ × α)}, (d.map Prod.fst).Nodup → (m, a) ∈ d → get? d m = some a
  | p :: d, hn, hm => by
    obtain ⟨k, b⟩ := p
    rw [List.map_cons, List.nodup_cons] at hn
    by_cases hk : k = m
    · subst hk
      rcases List.mem_cons.1 hm with h | h
      · cases h
        simp [get?]
      · exact absurd (List.mem_map_of_mem (f := Prod.fst) h) hn.1
    · have hm' : (m, a) ∈ d := by
        rcases List.mem_cons.1 hm with h | h
        · exact absurd (Prod.mk.inj h).1.symm hk
        · exact h
      have ih := get?_of_nodup hn.2 hm'
      simp only [get?, List.find?_cons, hk, decide_false] at ih ⊢
      exact ih

/-! ### Masks -/

variable {K : Type} [Field K] [LinearOrder K]

theorem filter_zip {α ι : Type} (f : ι → α) (p : ι → Bool) : ∀ (l : List ι),
    ((l.map f).zip (l.map p)).filterMap (fun q : α × Bool => if q.2 then some q.1 else none) =
      (l.filter p).map f
  | [] => rfl
  | a :: l => by
    have ih := filter_zip f p l
    cases h : p a <;> simp [h, ih]

theorem range_getD {α : Type} (a : List α) (d : α) : (List.range a.length).map (fun i => a.getD i d) = a := by
  apply List.ext_getElem
  · simp
  · intro i h1 h2
    simp at h1
    simp [h1]

theorem maskOf_range {α : Type} (a : List α) (n : ℕ) (h : a.length = n) (d : α) (p : ℕ → Bool) :
    maskOf ((List.range n).map p) a = .ok (((List.range n).filter p).map fun i => a.getD i d) := by
  subst h
  unfold maskOf
  rw [if_neg (by simp)]
  congr 1
  conv_lhs => rw [← range_getD a d]
  simp only [List.length_map, List.length_range]
  exact filter_zip (fun i => a.getD i d) p (List.range a.length)

theorem maskMat_range (q : List (List K)) (n : ℕ) (h : q.length = n) (hr : ∀ row ∈ q, row.length = n)
    (p : ℕ → Bool) :
    maskMat ((List.range n).map p) q = .ok (((List.range n).filter p).map fun i =>
      ((List.range n).filter p).map fun j => (q.getD i []).getD j 0) := by
  unfold maskMat
  rw [maskOf_range q n h []]
  simp only
  refine traverse_map_ok _ _ _ _ fun i hi => ?_
  have hi' : i < q.length := by
    have := (List.mem_filter.1 hi).1
    rw [List.mem_range] at this
    omega
  exact maskOf_range _ n (hr _ (by
    simp [hi'])) 0 p

theorem diagOf_square (e : ℕ → ℕ → K) (J : List ℕ) : diagOf (J.map fun i => J.map fun j => e i j) =
    J.map fun i => e i i := by
  have key : ∀ (I : List ℕ) (k : ℕ), I = J.drop k →
      ((I.map fun i => J.map fun j => e i j).zipIdx k).filterMap
        (fun p : List K × ℕ => p.1[p.2]?) = I.map fun i => e i i := by
    intro I
    induction I with
    | nil => intro k _; rfl
    | cons a I ih =>
      intro k hk
      have ha : J[k]? = some a := by
        have := congrArg List.head? hk
        rw [List.head?_drop] at this
        simpa using this.symm
      have hd : I = J.drop (k + 1) := by
        have := congrArg List.tail hk
        simpa using this
      simp only [List.map_cons, List.zipIdx_cons, List.filterMap_cons, List.getElem?_map, ha,
        Option.map_some, ih (k + 1) hd]
  exact key J 0 (by simp)

/-! ### Slices -/

theorem arith_pos (s k : ℤ) (i : ℤ) (hk : 0 < k) :
    (∃ t : ℕ, i = s + t * k) ↔ s ≤ i ∧ (i - s) % k = 0 := by
  constructor
  · rintro ⟨t, rfl⟩
    refine ⟨?_, ?_⟩
    · have : 0 ≤ (t : ℤ) * k := mul_nonneg (by omega) hk.le
      omega
    · simp
  · rintro ⟨h1, h2⟩
    obtain ⟨c, hc⟩ := Int.dvd_of_emod_eq_zero h2
    have hc0 : 0 ≤ c := by
      by_contra hn
      have : k * c < 0 := mul_neg_of_pos_of_neg hk (by omega)
      omega
    refine ⟨c.toNat, ?_⟩
    rw [Int.toNat_of_nonneg hc0, mul_comm]
    omega

theorem arith_neg (s k : ℤ) (i : ℤ) (hk : k < 0) :
    (∃ t : ℕ, i = s + t * k) ↔ i ≤ s ∧ (s - i) % (-k) = 0 := by
  have := arith_pos (-s) (-k) (-i) (by omega)
  have e1 : (∃ t : ℕ, i = s + t * k) ↔ ∃ t : ℕ, -i = -s + t * (-k) := by
    constructor <;> rintro ⟨t, h⟩ <;> refine ⟨t, ?_⟩
    · rw [h]; ring
    · have h2 : (t : ℤ) * -k = -(t * k) := by ring
      omega
  have e2 : -i - -s = s - i := by ring
  rw [e1, this, e2]
  constructor <;> rintro ⟨h1, h2⟩ <;> exact ⟨by omega, h2⟩

theorem sliceMask_spec (n : ℕ) (start stop step : Option ℤ) (h : step ≠ some 0) :
    ∃ p : ℕ → Bool, sliceMask n (start, stop, step) = .ok ((List.range n).map p) ∧
      ∀ i < n, (p i = true ↔ InSlice n i start stop (step.getD 1)) := by
  have h0 : step.getD 1 ≠ 0 := by
    cases step with
    | none => simp
    | some k => simpa using fun e => h (by rw [e])
  unfold sliceMask InSlice
  simp only
  rw [if_neg h0]
  generalize step.getD 1 = k at h0
  by_cases hk : 0 < k
  · rw [if_pos hk]
    refine ⟨_, rfl, fun i hi => ?_⟩
    rw [if_pos hk, arith_pos _ _ _ hk, decide_eq_true_iff]
    cases start with
    | none =>
      cases stop with
      | none => simp only [Option.map_none, Option.getD_none, max_self]; simp; omega
      | some y =>
        simp only [Option.map_none, Option.getD_none, max_self, Option.some.injEq]
        unfold adjust pos
        constructor
        · rintro ⟨a, b, c⟩
          refine ⟨⟨a, c⟩, ?_⟩
          rintro x rfl
          split_ifs at b ⊢ <;> first | omega | simp_all | (simp_all; omega)
        · rintro ⟨⟨a, c⟩, b⟩
          have b := b y rfl
          refine ⟨a, ?_, c⟩
          split_ifs at b ⊢ <;> first | omega | simp_all | (simp_all; omega)
    | some z =>
      have hs : (adjust n false z ≤ (i : ℤ) ∧ ((i : ℤ) - adjust n false z) % k = 0) ↔
          (max 0 (pos n z) ≤ (i : ℤ) ∧ ((i : ℤ) - max 0 (pos n z)) % k = 0) := by
        by_cases hz : (n : ℤ) ≤ z
        · constructor
          · rintro ⟨a, _⟩
            unfold adjust at a
            split_ifs at a <;> first | omega | simp_all | (simp_all; omega)
          · rintro ⟨a, _⟩
            unfold pos at a
            split_ifs at a <;> first | omega | simp_all | (simp_all; omega)
        · have : adjust n false z = max 0 (pos n z) := by
            unfold adjust pos
            simp only [Bool.false_eq_true, if_false]
            split_ifs <;> omega
          rw [this]
      simp only [Option.map_some, Option.getD_some]
      rw [← hs]
      cases stop with
      | none => simp; omega
      | some y =>
        simp only [Option.some.injEq]
        constructor
        · rintro ⟨a, b, c⟩
          refine ⟨⟨a, c⟩, ?_⟩
          rintro x rfl
          unfold adjust at b
          unfold pos
          split_ifs at b ⊢ <;> first | omega | simp_all | (simp_all; omega)
        · rintro ⟨⟨a, c⟩, b⟩
          have b := b y rfl
          refine ⟨a, ?_, c⟩
          unfold pos at b
          unfold adjust
          split_ifs at b ⊢ <;> first | omega | simp_all | (simp_all; omega)
  · rw [if_neg hk]
    have hk' : k < 0 := by omega
    refine ⟨_, rfl, fun i hi => ?_⟩
    rw [if_neg hk, arith_neg _ _ _ hk', decide_eq_true_iff]
    cases start with
    | none =>
      cases stop with
      | none => simp only [Option.map_none, Option.getD_none, min_self]; simp; omega
      | some y =>
        simp only [Option.map_none, Option.getD_none, min_self, Option.some.injEq]
        unfold adjust pos
        constructor
        · rintro ⟨a, b, c⟩
          refine ⟨⟨a, c⟩, ?_⟩
          rintro x rfl
          split_ifs at b ⊢ <;> first | omega | simp_all | (simp_all; omega)
        · rintro ⟨⟨a, c⟩, b⟩
          have b := b y rfl
          refine ⟨a, ?_, c⟩
          split_ifs at b ⊢ <;> first | omega | simp_all | (simp_all; omega)
    | some z =>
      have hs : ((i : ℤ) ≤ adjust n true z ∧ (adjust n true z - (i : ℤ)) % (-k) = 0) ↔
          ((i : ℤ) ≤ min ((n : ℤ) - 1) (pos n z) ∧ (min ((n : ℤ) - 1) (pos n z) - (i : ℤ)) % (-k) = 0) := by
        by_cases hz : z + (n : ℤ) < 0
        · constructor
          · rintro ⟨a, _⟩
            unfold adjust at a
            split_ifs at a <;> first | omega | simp_all | (simp_all; omega)
          · rintro ⟨a, _⟩
            unfold pos at a
            split_ifs at a <;> first | omega | simp_all | (simp_all; omega)
        · have : adjust n true z = min ((n : ℤ) - 1) (pos n z) := by
            unfold adjust pos
            simp only [if_true]
            split_ifs <;> omega
          rw [this]
      simp only [Option.map_some, Option.getD_some]
      rw [← hs]
      cases stop with
      | none => simp; omega
      | some y =>
        simp only [Option.some.injEq]
        constructor
        · rintro ⟨a, b, c⟩
          refine ⟨⟨a, c⟩, ?_⟩
          rintro x rfl
          unfold adjust at b
          unfold pos
          split_ifs at b ⊢ <;> first | omega | simp_all | (simp_all; omega)
        · rintro ⟨⟨a, c⟩, b⟩
          have b := b y rfl
          refine ⟨a, ?_, c⟩
          unfold pos at b
          unfold adjust
          split_ifs at b ⊢ <;> first | omega | simp_all | (simp_all; omega)

end Trv.Wc

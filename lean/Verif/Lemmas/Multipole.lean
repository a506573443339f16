import Verif.Model.Multipole
import Mathlib.Data.List.Lex
import Mathlib.Data.List.Sort
import Mathlib.Data.Prod.Lex
import Mathlib.Tactic.IntervalCases
/-
Lemmas on multipole indices.
-/
namespace Trv.Wc

open Trv

theorem lexLt_iff : ∀ {l k : List ℤ}, l.length = k.length → (lexLt l k = true ↔ l < k)
  | [], [], _ => by simp [lexLt]
  | a :: l, b :: k, h => by
    have ih := lexLt_iff (l := l) (k := k) (by simpa using h)
    unfold lexLt
    rw [List.cons_lt_cons_iff]
    split_ifs with h1 h2
    · simp [h1]
    · simp; omega
    · rw [ih]
      have : a = b := by omega
      simp [this]

theorem lexGt_eq : ∀ (l k : List ℤ), lexGt l k = lexLt k l
  | [], [] => rfl
  | [], _ :: _ => rfl
  | _ :: _, [] => rfl
  | a :: l, b :: k => by
    unfold lexGt lexLt
    rw [lexGt_eq l k]

/-- The sort key of a multipole: last index, then all but the last two. -/
def keyOf (m : Multipole) : ℤ ×ₗ List ℤ := toLex (m.index.getLast?.getD 0, dropLast2 m.index)

theorem lt_iff {a b : Multipole} (h : a.index.length = b.index.length) (h0 : a.index ≠ []) :
    ∃ t, a.lt b = .ok t ∧ (t = true ↔ keyOf a < keyOf b) := by
  have h0b : b.index ≠ [] := by
    intro e
    rw [e] at h
    exact h0 (List.length_eq_zero_iff.1 h)
  have ga := List.getLast?_eq_some_getLast h0
  have gb := List.getLast?_eq_some_getLast h0b
  unfold Multipole.lt keyOf
  rw [if_neg (by simpa using h), ga, gb, Prod.Lex.toLex_lt_toLex]
  simp only [Option.getD_some]
  have hl : (dropLast2 a.index).length = (dropLast2 b.index).length := by simp [dropLast2, h]
  split_ifs with h1 h2
  · exact ⟨_, rfl, by simp [h1]⟩
  · exact ⟨_, rfl, by simp; omega⟩
  · refine ⟨_, rfl, ?_⟩
    rw [lexLt_iff hl]
    have : a.index.getLast h0 = b.index.getLast h0b := by omega
    simp [this]

theorem gt_eq (a b : Multipole) : a.gt b = b.lt a := by
  unfold Multipole.gt Multipole.lt
  by_cases h : a.index.length = b.index.length
  · rw [if_neg (by simpa using h), if_neg (by simpa using h.symm)]
    cases a.index.getLast? <;> cases b.index.getLast? <;> simp [lexGt_eq]
  · rw [if_pos (by simpa using h), if_pos (by simpa using fun e => h e.symm)]

/-- Multipoles of one kind: the same positive number of indices. -/
def OfKind (n : ℕ) (l : List Multipole) : Prop := 0 < n ∧ ∀ m ∈ l, m.index.length = n

theorem insertM_spec {n : ℕ} (x : Multipole) : ∀ (l : List Multipole), OfKind n (x :: l) →
    l.Pairwise (fun a b => keyOf a ≤ keyOf b) →
    ∃ s, insertM x l = .ok s ∧ s.Perm (x :: l) ∧ s.Pairwise (fun a b => keyOf a ≤ keyOf b)
  | [], _, _ => ⟨[x], rfl, List.Perm.refl _, by simp⟩
  | y :: l, h, hs => by
    have hx : x.index.length = n := h.2 x (by simp)
    have hy : y.index.length = n := h.2 y (by simp)
    obtain ⟨t, ht, hk⟩ := lt_iff (a := y) (b := x) (by omega) (by
      intro e
      rw [e] at hy
      have := h.1
      simp at hy
      omega)
    unfold insertM
    rw [ht]
    cases t with
    | true =>
      obtain ⟨s, h1, h2, h3⟩ := insertM_spec x l ⟨h.1, fun m hm => h.2 m (by simp at hm ⊢; tauto)⟩
        (List.pairwise_cons.1 hs).2
      refine ⟨y :: s, by simp [h1], ?_, ?_⟩
      · exact (h2.cons y).trans (List.Perm.swap x y l)
      · rw [List.pairwise_cons]
        refine ⟨fun z hz => ?_, h3⟩
        rcases List.mem_cons.1 (h2.mem_iff.1 hz) with e | e
        · rw [e]
          exact (hk.1 rfl).le
        · exact (List.pairwise_cons.1 hs).1 z e
    | false =>
      refine ⟨_, rfl, List.Perm.refl _, ?_⟩
      have hle : keyOf x ≤ keyOf y := not_lt.1 fun e => by simpa using hk.2 e
      rw [List.pairwise_cons]
      refine ⟨fun z hz => ?_, hs⟩
      rcases List.mem_cons.1 hz with e | e
      · rw [e]
        exact hle
      · exact hle.trans ((List.pairwise_cons.1 hs).1 z e)

theorem sortM_spec {n : ℕ} : ∀ (l : List Multipole), OfKind n l →
    ∃ s, sortM l = .ok s ∧ s.Perm l ∧ s.Pairwise (fun a b => keyOf a ≤ keyOf b)
  | [], _ => ⟨[], rfl, List.Perm.refl _, by simp⟩
  | x :: l, h => by
    obtain ⟨s, h1, h2, h3⟩ := sortM_spec l ⟨h.1, fun m hm => h.2 m (by simp [hm])⟩
    obtain ⟨s', g1, g2, g3⟩ := insertM_spec (n := n) x s ⟨h.1, fun m hm => by
      rcases List.mem_cons.1 hm with e | e
      · rw [e]
        exact h.2 x (by simp)
      · exact h.2 m (by simp [h2.mem_iff.1 e])⟩ h3
    refine ⟨s', ?_, g2.trans (h2.cons x), g3⟩
    unfold sortM
    rw [h1]
    exact g1

/-! ### Strings -/

theorem splitComma_ne_nil : ∀ s, splitComma s ≠ []
  | [] => by simp [splitComma]
  | c :: cs => by
    unfold splitComma
    split_ifs
    · simp
    · cases splitComma cs <;> simp

theorem splitComma_plain : ∀ {s : List Char}, ',' ∉ s → splitComma s = [s]
  | [], _ => rfl
  | c :: cs, h => by
    unfold splitComma
    rw [if_neg (by intro e; simp [e] at h), splitComma_plain (by intro e; exact h (by simp [e]))]

theorem splitComma_append {s t : List Char} (h : ',' ∉ s) :
    splitComma (s ++ ',' :: t) = s :: splitComma t := by
  induction s with
  | nil => simp [splitComma]
  | cons c cs ih =>
    rw [List.cons_append, splitComma, if_neg (by intro e; simp [e] at h), ih (by intro e; exact h (by simp [e]))]

theorem splitComma_join : ∀ {ps : List (List Char)}, ps ≠ [] → (∀ p ∈ ps, ',' ∉ p) →
    splitComma (joinComma ps) = ps
  | [], h, _ => absurd rfl h
  | [s], _, h => splitComma_plain (h s (by simp))
  | s :: t :: r, _, h => by
    rw [joinComma, splitComma_append (h s (by simp)),
      splitComma_join (by simp) (fun p hp => h p (by simp at hp ⊢; tauto))]
    simp

theorem digitChar_isDigit {n : ℕ} (h : n < 10) : (Nat.digitChar n).isDigit = true := by
  interval_cases n <;> decide

theorem toDigits_all (n : ℕ) : ∀ c ∈ Nat.toDigits 10 n, c.isDigit = true := by
  induction n using Nat.strong_induction_on with
  | _ n ih =>
    rw [Nat.toDigits_eq_if (by norm_num)]
    split_ifs with h
    · intro c hc
      simp at hc
      rw [hc]
      exact digitChar_isDigit h
    · intro c hc
      rcases List.mem_append.1 hc with e | e
      · exact ih (n / 10) (by omega) c e
      · simp at e
        rw [e]
        exact digitChar_isDigit (Nat.mod_lt _ (by norm_num))

theorem toDigits_ne_nil (n : ℕ) : Nat.toDigits 10 n ≠ [] := by
  rw [Nat.toDigits_eq_if (by norm_num)]
  split_ifs <;> simp

theorem digitsVal_toDigits (n : ℕ) : digitsVal (Nat.toDigits 10 n) = n := by
  have hv : ∀ {n : ℕ}, n < 10 → (Nat.digitChar n).toNat - '0'.toNat = n := by
    intro n h
    interval_cases n <;> decide
  have ha : ∀ (l : List Char) (c : Char),
      digitsVal (l ++ [c]) = 10 * digitsVal l + (c.toNat - '0'.toNat) := by
    intro l c
    simp [digitsVal, List.foldl_append]
  induction n using Nat.strong_induction_on with
  | _ n ih =>
    rw [Nat.toDigits_eq_if (by norm_num)]
    split_ifs with h
    · simp only [digitsVal, List.foldl_cons, List.foldl_nil]
      rw [hv h]
      omega
    · rw [ha, ih (n / 10) (by omega), hv (Nat.mod_lt _ (by norm_num))]
      omega

theorem isDigits_toDigits (n : ℕ) : isDigits (Nat.toDigits 10 n) = true := by
  unfold isDigits
  rw [Bool.and_eq_true, List.all_eq_true]
  exact ⟨by simpa using toDigits_ne_nil n, toDigits_all n⟩

theorem pyInt_toStr (z : ℤ) : pyInt (Mon.toStr z) = .ok z := by
  unfold Mon.toStr
  split_ifs with h
  · rw [pyInt, if_pos (isDigits_toDigits _), digitsVal_toDigits]
    congr 1
    omega
  · have hd := toDigits_all z.toNat
    cases hc : Nat.toDigits 10 z.toNat with
    | nil => exact absurd hc (toDigits_ne_nil _)
    | cons c cs =>
      have hcd : c.isDigit = true := hd c (by rw [hc]; simp)
      unfold pyInt
      split
      · rename_i he
        simp at he
        rw [he.1] at hcd
        simp [Char.isDigit] at hcd
      · rename_i he
        simp at he
        rw [he.1] at hcd
        simp [Char.isDigit] at hcd
      · rw [← hc, if_pos (isDigits_toDigits _), digitsVal_toDigits]
        congr 1
        omega

theorem comma_notMem_toStr (z : ℤ) : ',' ∉ Mon.toStr z := by
  unfold Mon.toStr
  split_ifs with h
  · intro hc
    rcases List.mem_cons.1 hc with e | e
    · simp at e
    · have := toDigits_all _ _ e
      simp [Char.isDigit] at this
  · intro e
    have := toDigits_all _ _ e
    simp [Char.isDigit] at this

theorem traverse_map_ok {ε α β γ : Type} (f : β → Except ε γ) (g : α → β) (k : α → γ) :
    ∀ (l : List α), (∀ a ∈ l, f (g a) = .ok (k a)) → traverse f (l.map g) = .ok (l.map k)
  | [], _ => rfl
  | a :: l, h => by
    rw [List.map_cons, traverse, h a (by simp)]
    simp only
    rw [traverse_map_ok f g k l (fun b hb => h b (by simp [hb]))]
    simp

end Trv.Wc

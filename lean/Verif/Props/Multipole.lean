import Verif.Lemmas.Multipole
/-
Property theorems for the multipole indices of `winconv.py`: C50, C79.
-/
namespace Trv.Wc

open Trv

/-! ### C50 -/

theorem keyOf_eq_iff {a b : Multipole} (h : a.index.length = b.index.length) (h0 : a.index ≠ []) :
    (keyOf a = keyOf b ∧ a.index.dropLast.getLast? = b.index.dropLast.getLast?) ↔ a = b := by
  constructor
  · rintro ⟨hk, hs⟩
    have h0b : b.index ≠ [] := by
      intro e
      rw [e] at h
      exact h0 (List.length_eq_zero_iff.1 h)
    simp only [keyOf, EmbeddingLike.apply_eq_iff_eq, Prod.mk.injEq] at hk
    rw [List.getLast?_eq_some_getLast h0, List.getLast?_eq_some_getLast h0b] at hk
    simp only [Option.getD_some, dropLast2] at hk
    have hd : a.index.dropLast = b.index.dropLast := by
      by_cases he : a.index.dropLast = []
      · have : b.index.dropLast = [] := by
          rw [← List.length_eq_zero_iff, List.length_dropLast, ← h]
          rw [← List.length_eq_zero_iff, List.length_dropLast] at he
          exact he
        rw [he, this]
      · have he' : b.index.dropLast ≠ [] := by
          intro e
          apply he
          rw [← List.length_eq_zero_iff, List.length_dropLast] at e ⊢
          rwa [h]
        rw [List.getLast?_eq_some_getLast he, List.getLast?_eq_some_getLast he',
          Option.some.injEq] at hs
        rw [← List.dropLast_append_getLast he, ← List.dropLast_append_getLast he', hk.2, hs]
    have : a.index = b.index := by
      rw [← List.dropLast_append_getLast h0, ← List.dropLast_append_getLast h0b, hd, hk.1]
    cases a
    cases b
    simpa using this
  · rintro rfl
    exact ⟨rfl, rfl⟩

/-- **C50 (part).** Less-than and greater-than are opposite, whether or not the comparison raises. -/
theorem C50_opposite (a b : Multipole) : a.gt b = b.lt a := gt_eq a b

/-- **C50 (part).** On multipoles of one kind less-than never raises, is irreflexive and transitive,
and being incomparable is transitive. -/
theorem C50_strict_weak_order (n : ℕ) (hn : 0 < n) (a b c : Multipole) (ha : a.index.length = n)
    (hb : b.index.length = n) (hc : c.index.length = n) :
    a.lt a = .ok false ∧ (a.lt b = .ok true → b.lt a = .ok false) ∧
    (a.lt b = .ok true → b.lt c = .ok true → a.lt c = .ok true) ∧
    (a.lt b = .ok false → b.lt c = .ok false → a.lt c = .ok false) := by
  have ne : ∀ {m : Multipole}, m.index.length = n → m.index ≠ [] := by
    intro m hm e
    rw [e] at hm
    simp at hm
    omega
  have key : ∀ {x y : Multipole}, x.index.length = n → y.index.length = n →
      ((x.lt y = .ok true ↔ keyOf x < keyOf y) ∧ (x.lt y = .ok false ↔ keyOf y ≤ keyOf x)) := by
    intro x y hx hy
    obtain ⟨t, h1, h2⟩ := lt_iff (a := x) (b := y) (by omega) (ne hx)
    rw [h1]
    cases t <;> simp_all
  refine ⟨(key ha ha).2.2 le_rfl, fun h => (key hb ha).2.2 ((key ha hb).1.1 h).le,
    fun h1 h2 => (key ha hc).1.2 (((key ha hb).1.1 h1).trans ((key hb hc).1.1 h2)),
    fun h1 h2 => (key ha hc).2.2 (((key hb hc).2.1 h2).trans ((key ha hb).2.1 h1))⟩

/-- **C50 (part).** Exactly one of less-than, equal and greater-than holds for multipoles of one
kind *with the same index before the last* (in particular for a single index).  Missing: that index
is never compared, see the next theorem. -/
theorem C50_trichotomy_partial (a b : Multipole) (h : a.index.length = b.index.length)
    (h0 : a.index ≠ []) (hs : a.index.dropLast.getLast? = b.index.dropLast.getLast?) :
    (a.lt b = .ok true ∧ a ≠ b ∧ a.gt b = .ok false) ∨
    (a.lt b = .ok false ∧ a = b ∧ a.gt b = .ok false) ∨
    (a.lt b = .ok false ∧ a ≠ b ∧ a.gt b = .ok true) := by
  have h0b : b.index ≠ [] := by
    intro e
    rw [e] at h
    exact h0 (List.length_eq_zero_iff.1 h)
  obtain ⟨t, h1, h2⟩ := lt_iff h h0
  obtain ⟨t', h1', h2'⟩ := lt_iff h.symm h0b
  have he := keyOf_eq_iff h h0
  rw [gt_eq, h1, h1']
  rcases lt_trichotomy (keyOf a) (keyOf b) with hlt | heq | hgt
  · left
    have : t' = false := by rw [← Bool.not_eq_true, h2']; exact hlt.asymm
    exact ⟨by rw [h2.2 hlt], fun e => by rw [e] at hlt; exact lt_irrefl _ hlt, by rw [this]⟩
  · right; left
    have e1 : t = false := by rw [← Bool.not_eq_true, h2, heq]; exact lt_irrefl _
    have e2 : t' = false := by rw [← Bool.not_eq_true, h2', heq]; exact lt_irrefl _
    exact ⟨by rw [e1], he.1 ⟨heq, hs⟩, by rw [e2]⟩
  · right; right
    have : t = false := by rw [← Bool.not_eq_true, h2]; exact hgt.asymm
    exact ⟨by rw [this], fun e => by rw [e] at hgt; exact lt_irrefl _ hgt, by rw [h2'.2 hgt]⟩

/-- **C50 (violated).** Two different multipoles which differ in the second of three degrees are
neither less than, nor equal to, nor greater than each other. -/
theorem C50_not_total_violated (l1 L a b : ℤ) (hab : a ≠ b) :
    (⟨[l1, a, L]⟩ : Multipole).lt ⟨[l1, b, L]⟩ = .ok false ∧
    (⟨[l1, a, L]⟩ : Multipole).gt ⟨[l1, b, L]⟩ = .ok false ∧
    (⟨[l1, a, L]⟩ : Multipole) ≠ ⟨[l1, b, L]⟩ := by
  refine ⟨?_, ?_, ?_⟩
  · simp [Multipole.lt, dropLast2, lexLt]
  · simp [Multipole.gt, dropLast2, lexGt]
  · simpa using hab

/-- **C50 (part).** Sorting multipoles of one kind, no two of which are incomparable, succeeds and
does not depend on the input order. -/
theorem C50_sorted_partial (n : ℕ) (hn : 0 < n) (l k : List Multipole) (hlk : l.Perm k)
    (hl : ∀ m ∈ l, m.index.length = n)
    (hc : ∀ a ∈ l, ∀ b ∈ l, a ≠ b → a.lt b = .ok true ∨ b.lt a = .ok true) :
    ∃ s, sortM l = .ok s ∧ sortM k = .ok s ∧ s.Perm l ∧
      s.Pairwise (fun a b => a = b ∨ a.lt b = .ok true) := by
  obtain ⟨s, h1, h2, h3⟩ := sortM_spec (n := n) l ⟨hn, hl⟩
  obtain ⟨s', g1, g2, g3⟩ := sortM_spec (n := n) k ⟨hn, fun m hm => hl m (hlk.mem_iff.2 hm)⟩
  have ne : ∀ {m : Multipole}, m.index.length = n → m.index ≠ [] := by
    intro m hm e
    rw [e] at hm
    simp at hm
    omega
  have key : ∀ {x y : Multipole}, x.index.length = n → y.index.length = n →
      (x.lt y = .ok true ↔ keyOf x < keyOf y) := by
    intro x y hx hy
    obtain ⟨t, h1, h2⟩ := lt_iff (a := x) (b := y) (by omega) (ne hx)
    rw [h1]
    cases t <;> simp_all
  have anti : ∀ a ∈ l, ∀ b ∈ l, keyOf a ≤ keyOf b → a = b ∨ a.lt b = .ok true := by
    intro a ha b hb hle
    by_cases e : a = b
    · exact Or.inl e
    · rcases hc a ha b hb e with h | h
      · exact Or.inr h
      · exact absurd ((key (hl b hb) (hl a ha)).1 h) (not_lt.2 hle)
  have hs : s' = s := by
    refine List.Perm.eq_of_pairwise ?_ g3 h3 (g2.trans (hlk.symm.trans h2.symm))
    intro a b ha hb hab hba
    have ha' : a ∈ l := hlk.mem_iff.2 (g2.mem_iff.1 ha)
    have hb' : b ∈ l := h2.mem_iff.1 hb
    rcases anti a ha' b hb' hab with e | e
    · exact e
    · exact absurd ((key (hl a ha') (hl b hb')).1 e) (not_lt.2 hba)
  refine ⟨s, h1, by rw [g1, hs], h2, ?_⟩
  refine h3.imp_of_mem ?_
  intro a b ha hb hab
  exact anti a (h2.mem_iff.1 ha) b (h2.mem_iff.1 hb) hab

/-- The built-in three-point multipoles are comparable, so that their order is well-defined. -/
example : sortM [m112, m000, m202, m022, m110] = .ok [m000, m110, m022, m112, m202] := by decide

/-- **C50 (violated).** Sorting two such multipoles returns them in the input order. -/
theorem C50_sorted_order_violated (l1 L a b : ℤ) (hab : a ≠ b) :
    sortM [⟨[l1, a, L]⟩, ⟨[l1, b, L]⟩] = .ok [⟨[l1, a, L]⟩, ⟨[l1, b, L]⟩] ∧
    sortM [⟨[l1, b, L]⟩, ⟨[l1, a, L]⟩] = .ok [⟨[l1, b, L]⟩, ⟨[l1, a, L]⟩] := by
  constructor
  · simp [sortM, insertM, (C50_not_total_violated l1 L b a hab.symm).1]
  · simp [sortM, insertM, (C50_not_total_violated l1 L a b hab).1]

example : (⟨[2, 0, 2]⟩ : Multipole).lt ⟨[2, 2, 2]⟩ = .ok false ∧
    (⟨[2, 2, 2]⟩ : Multipole).lt ⟨[2, 0, 2]⟩ = .ok false := by decide

/-! ### C79 -/

/-- **C79 (part).** The string form of a multipole with at least two indices is read back as that
multipole. -/
theorem C79_roundtrip_partial (m : Multipole) (h : 2 ≤ m.index.length) :
    Multipole.ofKey (.str m.toStr) = .ok m := by
  unfold Multipole.ofKey Multipole.toStr
  simp only
  rw [splitComma_join]
  · have : intPieces (m.index.map Mon.toStr) = m.index.map Mon.toStr := by
      unfold intPieces
      split
      · rename_i p he
        have := congrArg List.length he
        simp at this
        omega
      · rfl
    rw [this, traverse_map_ok pyInt Mon.toStr id _ (fun z _ => pyInt_toStr z)]
    simp
  · intro e
    rw [List.map_eq_nil_iff] at e
    rw [e] at h
    simp at h
  · intro p hp
    obtain ⟨z, _, rfl⟩ := List.mem_map.1 hp
    exact comma_notMem_toStr z

theorem ofKey_plain (s : List Char) (h : ',' ∉ s) : Multipole.ofKey (.str s) =
    match traverse pyInt (s.map fun c => [c]) with
    | .error e => .error e
    | .ok l => .ok ⟨l⟩ := by
  unfold Multipole.ofKey
  simp only
  rw [splitComma_plain h]
  rfl

theorem pyInt_digit {c : Char} (h : c.isDigit = true) :
    pyInt [c] = .ok ((c.toNat - '0'.toNat : ℕ) : ℤ) := by
  unfold pyInt
  split
  · rename_i he
    simp at he
    rw [he.1] at h
    simp [Char.isDigit] at h
  · rename_i he
    simp at he
    rw [he.1] at h
    simp [Char.isDigit] at h
  · rw [if_pos (by simp [isDigits, h])]
    simp [digitsVal]

/-- **C79 (violated).** The string form of a single degree of ten or more is read back as several
indices. -/
theorem C79_single_violated (n : ℕ) (h : 10 ≤ n) :
    ∃ m, Multipole.ofKey (.str (⟨[n]⟩ : Multipole).toStr) = .ok m ∧ 2 ≤ m.index.length ∧ m ≠ ⟨[n]⟩ := by
  have hs : (⟨[n]⟩ : Multipole).toStr = Nat.toDigits 10 n := by
    unfold Multipole.toStr
    simp [joinComma, Mon.toStr]
  have hlen : 2 ≤ (Nat.toDigits 10 n).length := by
    rw [Nat.toDigits_eq_if (by norm_num), if_neg (by omega)]
    have := List.length_pos_of_ne_nil (toDigits_ne_nil (n / 10))
    simp
    omega
  have hc : ',' ∉ Nat.toDigits 10 n := by
    intro e
    have := toDigits_all _ _ e
    simp [Char.isDigit] at this
  refine ⟨⟨(Nat.toDigits 10 n).map fun c => ((c.toNat - '0'.toNat : ℕ) : ℤ)⟩, ?_, ?_, ?_⟩
  · rw [hs, ofKey_plain _ hc, traverse_map_ok pyInt (fun c => [c])
      (fun c => ((c.toNat - '0'.toNat : ℕ) : ℤ)) _ (fun c hcm => pyInt_digit (toDigits_all n c hcm))]
  · simpa using hlen
  · intro e
    have := congrArg (fun m : Multipole => m.index.length) e
    simp at this
    omega

/-- **C79 (part).** The undelimited string form is read back when each degree has a single digit. -/
theorem C79_abstr_partial (m : Multipole) (h : ∀ z ∈ m.index, 0 ≤ z ∧ z < 10) :
    Multipole.ofKey (.str m.abstr) = .ok m := by
  have hd : ∀ z ∈ m.index, Mon.toStr z = [Nat.digitChar z.toNat] := by
    intro z hz
    have := h z hz
    unfold Mon.toStr
    rw [if_neg (by omega), Nat.toDigits_of_lt_base (by omega)]
  have hs : m.abstr = m.index.map fun z : ℤ => Nat.digitChar z.toNat := by
    unfold Multipole.abstr
    clear h
    generalize m.index = l at hd
    induction l with
    | nil => rfl
    | cons z l ih =>
      rw [List.flatMap_cons, hd z (by simp), ih fun y hy => hd y (by simp [hy])]
      rfl
  have hv : ∀ {n : ℕ}, n < 10 → (Nat.digitChar n).toNat - '0'.toNat = n := by
    intro n h
    interval_cases n <;> decide
  rw [hs, ofKey_plain, List.map_map, traverse_map_ok pyInt _ id]
  · simp
  · intro z hz
    have := h z hz
    simp only [Function.comp_apply]
    rw [pyInt_digit (digitChar_isDigit (by omega)), hv (by omega)]
    congr 1
    simp
    omega
  · intro e
    obtain ⟨z, hz, hz'⟩ := List.mem_map.1 e
    have := digitChar_isDigit (n := z.toNat) (by have := h z hz; omega)
    rw [hz'] at this
    simp [Char.isDigit] at this

/-- **C79 (violated).** Different multipoles have the same undelimited form. -/
theorem C79_abstr_violated (a b : ℕ) (ha : 1 ≤ a) (ha' : a < 10) (hb : b < 10) :
    (⟨[10 * a + b]⟩ : Multipole).abstr = (⟨[(a : ℤ), b]⟩ : Multipole).abstr := by
  unfold Multipole.abstr
  simp only [List.flatMap_cons, List.flatMap_nil, List.append_nil]
  have h2 : ∀ n : ℕ, Mon.toStr (n : ℤ) = Nat.toDigits 10 n := by intro n; simp [Mon.toStr]
  have h3 : (10 * (a : ℤ) + b) = ((10 * a + b : ℕ) : ℤ) := by push_cast; rfl
  rw [h3, h2, h2, h2, Nat.toDigits_eq_if (by norm_num), if_neg (by omega),
    Nat.toDigits_of_lt_base (n := b) (by omega)]
  rw [show (10 * a + b) / 10 = a by omega, show (10 * a + b) % 10 = b by omega]

example : Multipole.ofKey (.str "1,10,2".toList) = .ok ⟨[1, 10, 2]⟩ := by decide +kernel
example : Multipole.ofKey (.str "112".toList) = .ok m112 := by decide +kernel
example : Multipole.ofKey (.str "ic".toList) = .error .valueError := by decide +kernel

end Trv.Wc

import Verif.Spec.AxesApp
import Mathlib.Data.List.Sort
import Mathlib.Data.List.Perm.Basic
/-
C167: exchange of the axes of a saved three-point measurement.
-/
set_option linter.unusedSectionVars false
namespace Trv.Axa
open Trv

section
variable {K : Type} [LinearOrder K]

theorem swap_swap (r : Row K) : r.swap.swap = r := rfl

theorem rowLe_iff {r s : Row K} :
    rowLe r s = true ↔ r.a.1 < s.a.1 ∨ (r.a.1 = s.a.1 ∧ r.b.1 ≤ s.b.1) := by
  simp [rowLe]

theorem rowLe_trans (r s t : Row K) (h1 : rowLe r s = true) (h2 : rowLe s t = true) :
    rowLe r t = true := by
  rw [rowLe_iff] at *
  rcases h1 with h1 | ⟨h1, h1'⟩ <;> rcases h2 with h2 | ⟨h2, h2'⟩
  · exact .inl (h1.trans h2)
  · exact .inl (h2 ▸ h1)
  · exact .inl (h1 ▸ h2)
  · exact .inr ⟨h1.trans h2, h1'.trans h2'⟩

theorem rowLe_total (r s : Row K) : (rowLe r s || rowLe s r) = true := by
  rw [Bool.or_eq_true, rowLe_iff, rowLe_iff]
  rcases lt_trichotomy r.a.1 s.a.1 with h | h | h
  · exact .inl (.inl h)
  · rcases le_total r.b.1 s.b.1 with h' | h'
    · exact .inl (.inr ⟨h, h'⟩)
    · exact .inr (.inr ⟨h.symm, h'⟩)
  · exact .inr (.inl h)

theorem rowLe_keys {r s : Row K} (h1 : rowLe r s = true) (h2 : rowLe s r = true) :
    r.a.1 = s.a.1 ∧ r.b.1 = s.b.1 := by
  rw [rowLe_iff] at *
  rcases h1 with h1 | ⟨h1, h1'⟩ <;> rcases h2 with h2 | ⟨h2, h2'⟩
  · exact absurd h1 (not_lt.2 h2.le)
  · exact absurd h1 (by rw [h2]; exact lt_irrefl _)
  · exact absurd h2 (by rw [h1]; exact lt_irrefl _)
  · exact ⟨h1, le_antisymm h1' h2'⟩

/-- **C167 (rows).** The exchanged table has exactly the rows of the input with their coordinates
exchanged and their measurements unchanged, each as often, in the order of the first and then the
second bin centre. -/
theorem C167_rows (t : List (Row K)) :
    (transposeTable t).Perm (t.map Row.swap) ∧
      (transposeTable t).Pairwise fun r s => r.a.1 < s.a.1 ∨ (r.a.1 = s.a.1 ∧ r.b.1 ≤ s.b.1) := by
  refine ⟨List.mergeSort_perm _ _, ?_⟩
  have h := List.pairwise_mergeSort (le := rowLe) rowLe_trans rowLe_total (t.map Row.swap)
  exact h.imp fun hr => rowLe_iff.1 hr

/-- A sorted table with distinct pairs of bin centres is determined by its rows. -/
theorem unique_sorted {t u : List (Row K)} (hp : t.Perm u)
    (ht : t.Pairwise fun r s => rowLe r s = true) (hu : u.Pairwise fun r s => rowLe r s = true)
    (hk : ∀ r ∈ u, ∀ s ∈ u, r.a.1 = s.a.1 → r.b.1 = s.b.1 → r = s) : t = u := by
  refine List.Perm.eq_of_pairwise (le := fun r s => rowLe r s = true) ?_ ht hu hp
  intro r s hr hs h1 h2
  obtain ⟨e1, e2⟩ := rowLe_keys h1 h2
  exact hk r (hp.mem_iff.1 hr) s hs e1 e2

/-- **C167 (twice is nothing).** Exchanging the axes of a table twice gives the table back, when its
rows are in the order of their bin centres and no pair of bin centres occurs in two rows. -/
theorem C167_involution (t : List (Row K))
    (hs : t.Pairwise fun r s => r.a.1 < s.a.1 ∨ (r.a.1 = s.a.1 ∧ r.b.1 < s.b.1)) :
    transposeTable (transposeTable t) = t := by
  have hp : (transposeTable (transposeTable t)).Perm t := by
    refine (C167_rows _).1.trans ?_
    have h := (C167_rows t).1.map Row.swap
    rw [List.map_map] at h
    have e : (Row.swap ∘ Row.swap : Row K → Row K) = id := rfl
    rw [e, List.map_id] at h
    exact h
  refine unique_sorted hp ((C167_rows _).2.imp fun h => rowLe_iff.2 h)
    (hs.imp fun h => rowLe_iff.2 (h.imp id fun h => ⟨h.1, h.2.le⟩)) ?_
  intro r hr s hs' e1 e2
  obtain ⟨i, hi, rfl⟩ := List.mem_iff_getElem.1 hr
  obtain ⟨j, hj, rfl⟩ := List.mem_iff_getElem.1 hs'
  rw [List.pairwise_iff_getElem] at hs
  rcases lt_trichotomy i j with h | h | h
  · rcases hs i j hi hj h with h' | ⟨_, h'⟩
    · exact absurd e1 h'.ne
    · exact absurd e2 h'.ne
  · subst h; rfl
  · rcases hs j i hj hi h with h' | ⟨_, h'⟩
    · exact absurd e1 h'.ne'
    · exact absurd e2 h'.ne'

theorem mem_fullTable {n : ℕ} {g : ℕ → ℕ → Row K} {r : Row K} :
    r ∈ fullTable n g ↔ ∃ i j, i < n ∧ j < n ∧ g i j = r := by
  unfold fullTable
  simp only [List.mem_flatMap, List.mem_range, List.mem_map]
  constructor
  · rintro ⟨i, hi, j, hj, e⟩; exact ⟨i, j, hi, hj, e⟩
  · rintro ⟨i, j, hi, hj, e⟩; exact ⟨i, hi, j, hj, e⟩

theorem full_strict {n : ℕ} {c : ℕ → K} (hc : ∀ i j, i < j → j < n → c i < c j)
    {g : ℕ → ℕ → Row K} (hg : Centred n c g) :
    (fullTable n g).Pairwise fun r s => r.a.1 < s.a.1 ∨ (r.a.1 = s.a.1 ∧ r.b.1 < s.b.1) := by
  unfold fullTable
  rw [List.pairwise_flatMap]
  constructor
  · intro i hi
    rw [List.mem_range] at hi
    rw [List.pairwise_map]
    refine List.Pairwise.imp_of_mem ?_ List.pairwise_lt_range
    intro j k hj hk hjk
    rw [List.mem_range] at hj hk
    right
    rw [(hg i j hi hj).1, (hg i k hi hk).1, (hg i j hi hj).2, (hg i k hi hk).2]
    exact ⟨rfl, hc j k hjk hk⟩
  · refine List.Pairwise.imp_of_mem ?_ List.pairwise_lt_range
    intro i k hi hk hik x hx y hy
    rw [List.mem_range] at hi hk
    obtain ⟨j, hj, rfl⟩ := List.mem_map.1 hx
    obtain ⟨l, hl, rfl⟩ := List.mem_map.1 hy
    rw [List.mem_range] at hj hl
    left
    rw [(hg i j hi hj).1, (hg k l hk hl).1]
    exact hc i k hik hk

/-- **C167 (full form).** For a table in the full form with increasing bin centres, the entry at a
pair of bins of the exchanged table is the one at the opposite pair. -/
theorem C167_full (n : ℕ) (c : ℕ → K) (hc : ∀ i j, i < j → j < n → c i < c j)
    (g : ℕ → ℕ → Row K) (hg : Centred n c g) :
    transposeTable (fullTable n g) = fullTable n fun i j => (g j i).swap := by
  have hg' : Centred n c fun i j => (g j i).swap := fun i j hi hj =>
    ⟨(hg j i hj hi).2, (hg j i hj hi).1⟩
  have s1 := full_strict hc hg
  have s2 := full_strict hc hg'
  have nd : ∀ {l : List (Row K)},
      (l.Pairwise fun r s => r.a.1 < s.a.1 ∨ (r.a.1 = s.a.1 ∧ r.b.1 < s.b.1)) → l.Nodup := by
    intro l h
    refine h.imp ?_
    rintro r s h rfl
    rcases h with h | ⟨_, h⟩ <;> exact lt_irrefl _ h
  have hp : (transposeTable (fullTable n g)).Perm (fullTable n fun i j => (g j i).swap) := by
    refine (C167_rows _).1.trans ?_
    refine (List.perm_ext_iff_of_nodup ((nd s1).map fun r s h => ?_) (nd s2)).2 fun r => ?_
    · have := congrArg Row.swap h
      exact this
    · rw [List.mem_map, mem_fullTable]
      constructor
      · rintro ⟨s, hs, rfl⟩
        obtain ⟨i, j, hi, hj, rfl⟩ := mem_fullTable.1 hs
        exact ⟨j, i, hj, hi, rfl⟩
      · rintro ⟨i, j, hi, hj, rfl⟩
        exact ⟨g j i, mem_fullTable.2 ⟨j, i, hj, hi, rfl⟩, rfl⟩
  refine unique_sorted hp ((C167_rows _).2.imp fun h => rowLe_iff.2 h)
    (s2.imp fun h => rowLe_iff.2 (h.imp id fun h => ⟨h.1, h.2.le⟩)) ?_
  intro r hr s hs e1 e2
  obtain ⟨i, j, hi, hj, rfl⟩ := mem_fullTable.1 hr
  obtain ⟨k, l, hk, hl, rfl⟩ := mem_fullTable.1 hs
  rw [(hg' i j hi hj).1, (hg' k l hk hl).1] at e1
  rw [(hg' i j hi hj).2, (hg' k l hk hl).2] at e2
  have inj : ∀ i k, i < n → k < n → c i = c k → i = k := by
    intro i k hi hk e
    rcases lt_trichotomy i k with h | h | h
    · exact absurd e (hc i k h hk).ne
    · exact h
    · exact absurd e (hc k i h hi).ne'
  rw [inj i k hi hk e1, inj j l hj hl e2]

end

/-! ### File names -/

theorem runs_prefix {ty : List Char} (h : ∀ x ∈ ty, x.isDigit = false) (s : List Char) :
    digitRuns [] (ty ++ s) = digitRuns [] s := by
  induction ty with
  | nil => rfl
  | cons x ty ih =>
    rw [List.cons_append, digitRuns, h x (by simp)]
    simp only [Bool.false_eq_true, if_false, if_true, List.nil_append]
    exact ih fun y hy => h y (by simp [hy])

theorem take_prefix {ty : List Char} (h : ∀ x ∈ ty, x.isDigit = false) {d : Char}
    (hd : d.isDigit = true) (s : List Char) :
    (ty ++ d :: s).takeWhile (fun c => !c.isDigit) = ty := by
  induction ty with
  | nil => simp [hd]
  | cons x ty ih =>
    rw [List.cons_append, List.takeWhile_cons, h x (by simp)]
    simp only [Bool.not_false, if_true]
    rw [ih fun y hy => h y (by simp [hy])]

theorem stat_three {ty : List Char} (hne : ty ≠ []) (h : ∀ x ∈ ty, x.isDigit = false ∧ x ≠ ',')
    {a b c : Char} (ha : a.isDigit = true) (hb : b.isDigit = true) (hc : c.isDigit = true) :
    transposeStat (ty ++ [a, b, c]) = if a = b
      then .error (.valueError "The first two multipole indices are the same.")
      else .ok (ty ++ [b, a, c]) := by
  have hnd : ∀ x ∈ ty, x.isDigit = false := fun x hx => (h x hx).1
  have hr : digitRuns [] (ty ++ [a, b, c]) = [[a, b, c]] := by
    rw [runs_prefix hnd]
    simp [digitRuns, ha, hb, hc]
  have hcomma : ',' ∉ ty ++ [a, b, c] := by
    intro hm
    rw [List.mem_append] at hm
    rcases hm with hm | hm
    · exact (h _ hm).2 rfl
    · simp only [List.mem_cons, List.not_mem_nil, or_false] at hm
      rcases hm with rfl | rfl | rfl
      · exact absurd ha (by decide)
      · exact absurd hb (by decide)
      · exact absurd hc (by decide)
  unfold transposeStat
  simp only [take_prefix hnd ha [b, c], if_neg hne, hr, if_neg hcomma]
  simp [joinWith]

/-- **C167 (file names).** A field of a statistic and three different digits is given with its first
two digits exchanged, and doing it twice gives the field back. -/
theorem C167_name (ty : List Char) (hne : ty ≠ []) (h : ∀ x ∈ ty, x.isDigit = false ∧ x ≠ ',')
    (a b c : Char) (ha : a.isDigit = true) (hb : b.isDigit = true) (hc : c.isDigit = true)
    (hab : a ≠ b) :
    main (ty ++ [a, b, c]) = .transposed (ty ++ [b, a, c]) ∧
      main (ty ++ [b, a, c]) = .transposed (ty ++ [a, b, c]) := by
  constructor
  · simp only [main, stat_three hne h ha hb hc, if_neg hab]
  · simp only [main, stat_three hne h hb ha hc, if_neg hab.symm]

theorem runs_digits {d : List Char} (h : ∀ x ∈ d, x.isDigit = true) (cur s : List Char) :
    digitRuns cur (d ++ s) = digitRuns (cur ++ d) s := by
  induction d generalizing cur with
  | nil => simp
  | cons x d ih =>
    rw [List.cons_append, digitRuns, h x (by simp), if_pos rfl, ih fun y hy => h y (by simp [hy])]
    simp

theorem runs_comma {cur : List Char} (h : cur ≠ []) (s : List Char) :
    digitRuns cur (',' :: s) = cur :: digitRuns [] s := by
  have hd : (',').isDigit = false := by decide
  rw [digitRuns, hd]
  simp [h]

theorem stat_comma {ty a b c : List Char} (hne : ty ≠ []) (h : ∀ x ∈ ty, x.isDigit = false)
    (ha : a ≠ []) (hb : b ≠ []) (hc : c ≠ []) (da : ∀ x ∈ a, x.isDigit = true)
    (db : ∀ x ∈ b, x.isDigit = true) (dc : ∀ x ∈ c, x.isDigit = true) :
    transposeStat (ty ++ (a ++ ',' :: (b ++ ',' :: c))) = if a = b
      then .error (.valueError "The first two multipole indices are the same.")
      else .ok (ty ++ (b ++ ',' :: (a ++ ',' :: c))) := by
  have hr : digitRuns [] (ty ++ (a ++ ',' :: (b ++ ',' :: c))) = [a, b, c] := by
    have e := runs_digits dc [] []
    rw [List.append_nil, List.nil_append] at e
    rw [runs_prefix h, runs_digits da, List.nil_append, runs_comma ha, runs_digits db,
      List.nil_append, runs_comma hb, e, digitRuns, if_neg hc]
  have hcomma : ',' ∈ ty ++ (a ++ ',' :: (b ++ ',' :: c)) := by simp
  have ht : (ty ++ (a ++ ',' :: (b ++ ',' :: c))).takeWhile (fun c => !c.isDigit) = ty := by
    cases a with
    | nil => exact absurd rfl ha
    | cons x a => exact take_prefix h (da x (by simp)) _
  unfold transposeStat
  simp only [ht, if_neg hne, hr, if_pos hcomma]
  simp [joinWith]

/-- **C167 (file names with commas).** A field of a statistic and three numbers separated by commas, of any
numbers of digits, is given with the first two numbers exchanged if they differ, and ends in the exception
if they do not. -/
theorem C167_name_commas (ty a b c : List Char) (hne : ty ≠ []) (h : ∀ x ∈ ty, x.isDigit = false)
    (ha : a ≠ []) (hb : b ≠ []) (hc : c ≠ []) (da : ∀ x ∈ a, x.isDigit = true)
    (db : ∀ x ∈ b, x.isDigit = true) (dc : ∀ x ∈ c, x.isDigit = true) :
    main (ty ++ (a ++ ',' :: (b ++ ',' :: c))) = if a = b then .raised
      else .transposed (ty ++ (b ++ ',' :: (a ++ ',' :: c))) := by
  have m1 : contains "The first two multipole indices the same.".toList
      "The first two multipole indices are the same.".toList = false := by decide +kernel
  by_cases hab : a = b
  · simp only [main, stat_comma hne h ha hb hc da db dc, if_pos hab, m1, Bool.false_eq_true, if_false]
  · simp only [main, stat_comma hne h ha hb hc da db dc, if_neg hab]

/-- **C167 is violated for equal degrees**: the script means to skip a measurement whose first two
degrees are the same, but looks for a message that is never raised, and ends in the exception. -/
theorem C167_same_violated (ty : List Char) (hne : ty ≠ [])
    (h : ∀ x ∈ ty, x.isDigit = false ∧ x ≠ ',') (a c : Char) (ha : a.isDigit = true)
    (hc : c.isDigit = true) : main (ty ++ [a, a, c]) = .raised := by
  have : contains "The first two multipole indices the same.".toList
      "The first two multipole indices are the same.".toList = false := by decide +kernel
  simp only [main, stat_three hne h ha ha hc, if_true, this, Bool.false_eq_true, if_false]

/-- The skipping branch is never taken, whatever the name. -/
theorem C167_never_skips_violated (field : List Char) : main field ≠ .skipped := by
  have m1 : contains "The first two multipole indices the same.".toList
      "The first two multipole indices are the same.".toList = false := by decide +kernel
  have m2 : contains "The first two multipole indices the same.".toList
      ("The filename must start with the statistic type and multipole " ++
         "indices of length 3 before any underscores, e.g. 'bk000_' or 'bk0,0,0_'.").toList = false := by
    decide +kernel
  have key : ∀ e, transposeStat field = .error e → e = .attributeError ∨
      e = .valueError "The first two multipole indices are the same." ∨
      e = .valueError ("The filename must start with the statistic type and multipole " ++
         "indices of length 3 before any underscores, e.g. 'bk000_' or 'bk0,0,0_'.") := by
    intro e he
    unfold transposeStat at he
    simp only at he
    split_ifs at he with h0
    · cases he; exact .inl rfl
    all_goals
      split at he
      · split_ifs at he
        cases he; exact .inr (.inl rfl)
      · cases he; exact .inr (.inr rfl)
  unfold main
  cases ht : transposeStat field with
  | ok f => simp
  | error e =>
    rcases key e ht with rfl | rfl | rfl
    · simp
    · simp only [m1, Bool.false_eq_true, if_false]; simp
    · simp only [m2, Bool.false_eq_true, if_false]; simp

/-- A table of two bins, exchanged: the entries at the opposite pairs are 20 and 30. -/
def exTable : ℕ → ℕ → Row ℤ := fun i j =>
  ⟨(i + 1, i + 1, 5), (j + 1, j + 1, 5), [10 * (2 * i + j + 1)]⟩

example : fullTable 2 exTable = [⟨(1, 1, 5), (1, 1, 5), [10]⟩, ⟨(1, 1, 5), (2, 2, 5), [20]⟩,
      ⟨(2, 2, 5), (1, 1, 5), [30]⟩, ⟨(2, 2, 5), (2, 2, 5), [40]⟩] ∧
    transposeTable (fullTable 2 exTable)
    = [⟨(1, 1, 5), (1, 1, 5), [10]⟩, ⟨(1, 1, 5), (2, 2, 5), [30]⟩,
      ⟨(2, 2, 5), (1, 1, 5), [20]⟩, ⟨(2, 2, 5), (2, 2, 5), [40]⟩] := by
  refine ⟨by decide +kernel, ?_⟩
  rw [C167_full 2 (fun i => (i : ℤ) + 1) (fun i j h _ => by omega) exTable
    (fun i j _ _ => ⟨rfl, rfl⟩)]
  decide +kernel

example : main "bk202".toList = .transposed "bk022".toList ∧ main "bk1,10,2".toList
    = .transposed "bk10,1,2".toList ∧ main "bk002".toList = .raised := by decide +kernel

end Trv.Axa

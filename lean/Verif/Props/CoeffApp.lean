import Verif.Model.CoeffApp
import Mathlib.Data.List.Sort
import Mathlib.Data.List.Perm.Basic
import Mathlib.Algebra.Order.Group.Int
/-
C170: list of the window convolution terms of a multipole.
-/
set_option linter.unusedSectionVars false
namespace Trv.Cap
open Trv

variable {ι K : Type} [LinearOrder ι] [LinearOrder K] [AddCommGroup K]

theorem termLe_trans (s : SortBy) (a b c : Term ι K) (h1 : termLe s a b = true)
    (h2 : termLe s b c = true) : termLe s a c = true := by
  cases s <;> simp only [termLe, decide_eq_true_eq] at * <;> exact le_trans h1 h2

theorem termLe_total (s : SortBy) (a b : Term ι K) : (termLe s a b || termLe s b a) = true := by
  cases s <;> simp only [termLe, Bool.or_eq_true, decide_eq_true_eq] <;> exact le_total _ _

theorem termLe_antisymm (s : SortBy) (a b : Term ι K) (h1 : termLe s a b = true)
    (h2 : termLe s b a = true) : a = b := by
  obtain ⟨aq, az, ac⟩ := a
  obtain ⟨bq, bz, bc⟩ := b
  cases s <;> simp only [termLe, decide_eq_true_eq] at h1 h2 <;>
    · have h := le_antisymm h1 h2
      have h' := congrArg ofLex h
      simp only [ofLex_toLex, Prod.mk.injEq, EmbeddingLike.apply_eq_iff_eq, neg_inj] at h'
      clear h1 h2 h
      obtain ⟨h1, h2, h3⟩ := h'
      subst h1; subst h2; subst h3; rfl

/-- **C170 (terms).** The printed and saved terms are exactly those of a window multipole and an unwindowed
multipole of the lists given with a coefficient that is not zero. -/
theorem C170_terms (coeff : ι → ι → K) (W U : List ι) (s : SortBy) (t : Term ι K) :
    t ∈ (terms coeff W U).mergeSort (termLe s) ↔
      t.q ∈ W ∧ t.z ∈ U ∧ t.c = coeff t.q t.z ∧ t.c ≠ 0 := by
  rw [(List.mergeSort_perm _ _).mem_iff, terms, List.mem_filterMap]
  constructor
  · rintro ⟨⟨w, u⟩, hm, he⟩
    rw [List.mem_flatMap] at hm
    obtain ⟨w', hw, hm⟩ := hm
    obtain ⟨u', hu, e⟩ := List.mem_map.1 hm
    cases e
    split_ifs at he with h0
    cases he
    exact ⟨hw, hu, rfl, h0⟩
  · rintro ⟨hw, hu, hc, h0⟩
    refine ⟨(t.q, t.z), List.mem_flatMap.2 ⟨t.q, hw, List.mem_map.2 ⟨t.z, hu, rfl⟩⟩, ?_⟩
    obtain ⟨q, z, c⟩ := t
    simp only at hc h0 ⊢
    subst hc
    rw [if_pos h0]

theorem terms_perm (coeff : ι → ι → K) {W W' U U' : List ι} (hW : W.Perm W') (hU : U.Perm U') :
    (terms coeff W U).Perm (terms coeff W' U') := by
  unfold terms
  refine List.Perm.filterMap _ ?_
  exact hW.flatMap fun w _ => hU.map _

/-- **C170 (order).** What is printed and saved does not depend on the order in which the multipoles are
given. -/
theorem C170_order (coeff : ι → ι → K) {W W' U U' : List ι} (hW : W.Perm W') (hU : U.Perm U')
    (s : SortBy) (save : Bool) :
    script coeff (some W) (some U) s save = script coeff (some W') (some U') s save := by
  have h : (terms coeff W U).mergeSort (termLe s) = (terms coeff W' U').mergeSort (termLe s) := by
    refine List.Perm.eq_of_pairwise (le := fun a b => termLe s a b = true)
      (fun a b _ _ h1 h2 => termLe_antisymm s a b h1 h2)
      (List.pairwise_mergeSort (termLe_trans s) (termLe_total s) _)
      (List.pairwise_mergeSort (termLe_trans s) (termLe_total s) _) ?_
    exact (List.mergeSort_perm _ _).trans
      ((terms_perm coeff hW hU).trans (List.mergeSort_perm _ _).symm)
  simp only [script, h]

/-- **C170 (options).** The options of sorting give the same terms in different orders: `c` with the largest
coefficient first, `u` by the unwindowed multipole, `w` by the window multipole. -/
theorem C170_options [IsOrderedAddMonoid K] (coeff : ι → ι → K) (W U : List ι) (s s' : SortBy) :
    ((terms coeff W U).mergeSort (termLe s)).Perm ((terms coeff W U).mergeSort (termLe s')) ∧
    ((terms coeff W U).mergeSort (termLe .c)).Pairwise (fun a b => b.c ≤ a.c) ∧
    ((terms coeff W U).mergeSort (termLe .u)).Pairwise (fun a b => a.z ≤ b.z) ∧
    ((terms coeff W U).mergeSort (termLe .w)).Pairwise (fun a b => a.q ≤ b.q) := by
  refine ⟨(List.mergeSort_perm _ _).trans (List.mergeSort_perm _ _).symm, ?_, ?_, ?_⟩
  · refine (List.pairwise_mergeSort (termLe_trans .c) (termLe_total .c) _).imp ?_
    intro a b h
    simp only [termLe, decide_eq_true_eq, Prod.Lex.toLex_le_toLex] at h
    rcases h with h | ⟨h, _⟩
    · exact (neg_lt_neg_iff.1 h).le
    · exact (neg_inj.1 h).ge
  · refine (List.pairwise_mergeSort (termLe_trans .u) (termLe_total .u) _).imp ?_
    intro a b h
    simp only [termLe, decide_eq_true_eq, Prod.Lex.toLex_le_toLex] at h
    rcases h with h | ⟨h, _⟩
    · exact h.le
    · exact h.le
  · refine (List.pairwise_mergeSort (termLe_trans .w) (termLe_total .w) _).imp ?_
    intro a b h
    simp only [termLe, decide_eq_true_eq, Prod.Lex.toLex_le_toLex] at h
    rcases h with h | ⟨h, _⟩
    · exact h.le
    · exact h.le

/-- **C170 is violated without terms**: when every coefficient is zero the script writes the file of no terms
and then fails on the width of the coefficients. -/
theorem C170_no_terms_violated (coeff : ι → ι → K) (W U : List ι)
    (h0 : ∀ w ∈ W, ∀ u ∈ U, coeff w u = 0) (s : SortBy) :
    (script coeff (some W) (some U) s true).saved = some [] ∧
      (script coeff (some W) (some U) s true).printed = .error .valueError := by
  have : (terms coeff W U).mergeSort (termLe s) = [] := by
    rw [List.eq_nil_iff_forall_not_mem]
    intro t ht
    obtain ⟨hw, hu, hc, hne⟩ := (C170_terms coeff W U s t).1 ht
    exact hne (hc.trans (h0 _ hw _ hu))
  simp [script, this]

/-- **C170 is violated without a list**: the two lists are options of the command line and not required, but
the script fails with a type error without one. -/
theorem C170_no_list_violated (coeff : ι → ι → K) (W U : Option (List ι)) (h : W = none ∨ U = none)
    (s : SortBy) (save : Bool) :
    (script coeff W U s save).printed = .error .typeError := by
  rcases h with rfl | rfl
  · rfl
  · cases W <;> rfl

/-- The coefficient `w - u`: of the four pairs of two lists three have a term. -/
example : (terms (fun w u : ℕ => (w : ℤ) - u) [2, 0] [0, 1]) = [⟨2, 0, 2⟩, ⟨2, 1, 1⟩, ⟨0, 1, -1⟩] := by
  decide +kernel

end Trv.Cap

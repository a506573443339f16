import Verif.Lemmas.Layout
import Mathlib.Algebra.BigOperators.Group.Finset.Basic
import Mathlib.Algebra.BigOperators.Group.Finset.Piecewise
import Mathlib.Algebra.BigOperators.Group.Finset.Sigma
import Mathlib.Algebra.BigOperators.Ring.Finset
import Mathlib.Order.Interval.Finset.Basic
import Mathlib.Data.Int.Interval
/-
Helper lemmas for the spherical-order loop.
-/
set_option linter.unusedSectionVars false
namespace Trv.ThreePt

theorem isInverse_iff (t s : Triplet) : t.isInverse s = true ↔ s = t.neg := by
  obtain ⟨a, b, c⟩ := t; obtain ⟨a', b', c'⟩ := s
  simp only [Triplet.isInverse, Triplet.neg, Bool.and_eq_true, decide_eq_true_eq, Triplet.mk.injEq]
  constructor <;> intro h <;> omega

theorem isZeros_iff (t : Triplet) : t.isZeros = true ↔ t = ⟨0, 0, 0⟩ := by
  obtain ⟨a, b, c⟩ := t
  simp only [Triplet.isZeros, Bool.and_eq_true, decide_eq_true_eq, Triplet.mk.injEq, and_assoc]

theorem neg_neg (t : Triplet) : t.neg.neg = t := by
  obtain ⟨a, b, c⟩ := t; simp [Triplet.neg]

theorem neg_eq_self (t : Triplet) : t.neg = t ↔ t = ⟨0, 0, 0⟩ := by
  obtain ⟨a, b, c⟩ := t
  simp only [Triplet.neg, Triplet.mk.injEq]
  constructor <;> intro h <;> omega

theorem neg_injective : Function.Injective Triplet.neg := by
  intro a b h; rw [← neg_neg a, h, neg_neg]

section
variable {K : Type} [Field K] [LinearOrder K] (c : Triplet → K) (eps : K)

/-- The list of triplets handed to the innermost loop body. -/
def visited (ell1 ell2 ELL : ℤ) : List Triplet :=
  (upto (-ell1) (ell1 + 1)).flatMap fun m1 => (upto (-ell2) (ell2 + 1)).flatMap fun m2 =>
    if rowLive c eps ELL m1 m2 then (upto (-ELL) (ELL + 1)).map fun M => ⟨m1, m2, M⟩ else []

theorem computedOrders_eq (ell1 ell2 ELL : ℤ) :
    computedOrders c eps ell1 ell2 ELL = (visited c eps ell1 ell2 ELL).foldl (stepM c eps) [] := by
  unfold computedOrders visited
  rw [List.foldl_flatMap]
  congr 1
  funext acc m1
  rw [List.foldl_flatMap]
  congr 1
  funext acc m2
  split_ifs
  · rw [List.foldl_map]
  · rfl

theorem mem_visited (ell1 ell2 ELL : ℤ) (t : Triplet) : t ∈ visited c eps ell1 ell2 ELL ↔
    t.Allowed ell1 ell2 ELL ∧ ∃ M, |M| ≤ ELL ∧ eps < |c ⟨t.m1, t.m2, M⟩| := by
  obtain ⟨a, b, d⟩ := t
  simp only [visited, List.mem_flatMap, mem_upto, Triplet.Allowed, abs_le]
  constructor
  · rintro ⟨m1, h1, m2, h2, h⟩
    split_ifs at h with hl
    · simp only [List.mem_map, mem_upto, Triplet.mk.injEq] at h
      obtain ⟨M, hM, rfl, rfl, rfl⟩ := h
      simp only [rowLive, List.any_eq_true, mem_upto, decide_eq_true_eq] at hl
      obtain ⟨M', h', h''⟩ := hl
      exact ⟨⟨by omega, by omega, by omega⟩, M', by omega, h''⟩
    · simp at h
  · rintro ⟨⟨h1, h2, h3⟩, M', h', h''⟩
    refine ⟨a, by omega, b, by omega, ?_⟩
    rw [if_pos]
    · simp only [List.mem_map, mem_upto]; exact ⟨d, by omega, rfl⟩
    · simp only [rowLive, List.any_eq_true, mem_upto, decide_eq_true_eq]
      exact ⟨M', by omega, h''⟩

theorem nodup_visited (ell1 ell2 ELL : ℤ) : (visited c eps ell1 ell2 ELL).Nodup := by
  apply pairwise_flatMap_upto
  · intro m1
    apply pairwise_flatMap_upto
    · intro m2
      split_ifs
      · apply pairwise_map_upto; intro i j h e; simp at e; omega
      · simp
    · intro i j hij x hx y hy e
      split_ifs at hx hy <;> simp only [List.mem_map, List.not_mem_nil] at hx hy
      obtain ⟨_, _, rfl⟩ := hx; obtain ⟨_, _, rfl⟩ := hy
      simp at e; omega
  · intro i j hij x hx y hy e
    simp only [List.mem_flatMap] at hx hy
    obtain ⟨_, _, hx⟩ := hx; obtain ⟨_, _, hy⟩ := hy
    split_ifs at hx hy <;> simp only [List.mem_map, List.not_mem_nil] at hx hy
    obtain ⟨_, _, rfl⟩ := hx; obtain ⟨_, _, rfl⟩ := hy
    simp at e; omega

/-- The innermost loop over any list of triplets. -/
theorem foldl_stepM (l : List Triplet) :
    (l.foldl (stepM c eps) []).Sublist l ∧
    (∀ s ∈ l.foldl (stepM c eps) [], eps ≤ |c s|) ∧
    (l.Nodup → ∀ s ∈ l.foldl (stepM c eps) [], s.neg ∈ l.foldl (stepM c eps) [] → s = ⟨0, 0, 0⟩) ∧
    (∀ s ∈ l, eps ≤ |c s| →
      s ∈ l.foldl (stepM c eps) [] ∨ s.neg ∈ l.foldl (stepM c eps) []) := by
  induction l using List.reverseRecOn with
  | nil => simp
  | append_singleton l t ih =>
    obtain ⟨h1, h2, h3, h4⟩ := ih
    rw [List.foldl_append]
    simp only [List.foldl_cons, List.foldl_nil]
    obtain ⟨P, hP⟩ : ∃ P, P = l.foldl (stepM c eps) [] := ⟨_, rfl⟩
    rw [← hP] at h1 h2 h3 h4 ⊢
    unfold stepM
    by_cases hinv : P.any (fun s => t.isInverse s) = true
    · rw [if_pos hinv]
      refine ⟨h1.trans (List.sublist_append_left _ _), h2, ?_, ?_⟩
      · intro hn; exact h3 (List.Nodup.of_append_left hn)
      · intro s hs hc
        rcases List.mem_append.1 hs with hs | hs
        · exact h4 s hs hc
        · rw [List.mem_singleton] at hs; subst hs
          rw [List.any_eq_true] at hinv
          obtain ⟨u, hu, hi⟩ := hinv
          rw [isInverse_iff] at hi; subst hi
          exact Or.inr hu
    · rw [if_neg hinv]
      by_cases hc : |c t| < eps
      · rw [if_pos hc]
        refine ⟨h1.trans (List.sublist_append_left _ _), h2, ?_, ?_⟩
        · intro hn; exact h3 (List.Nodup.of_append_left hn)
        · intro s hs hcs
          rcases List.mem_append.1 hs with hs | hs
          · exact h4 s hs hcs
          · rw [List.mem_singleton] at hs; subst hs
            exact absurd hc (not_lt.2 hcs)
      · rw [if_neg hc]
        have hno : t.neg ∉ P := by
          intro h; apply hinv; rw [List.any_eq_true]; exact ⟨_, h, by rw [isInverse_iff]⟩
        refine ⟨h1.append (List.Sublist.refl _), ?_, ?_, ?_⟩
        · intro s hs
          rcases List.mem_append.1 hs with hs | hs
          · exact h2 s hs
          · rw [List.mem_singleton] at hs; subst hs; exact not_lt.1 hc
        · intro hn s hs hs'
          rcases List.mem_append.1 hs with hs | hs
          · rcases List.mem_append.1 hs' with hs' | hs'
            · exact h3 (List.Nodup.of_append_left hn) s hs hs'
            · rw [List.mem_singleton] at hs'
              exfalso; apply hno; rw [← hs', neg_neg]; exact hs
          · rw [List.mem_singleton] at hs; subst hs
            rcases List.mem_append.1 hs' with hs' | hs'
            · exact absurd hs' hno
            · rw [List.mem_singleton] at hs'; exact (neg_eq_self s).1 hs'
        · intro s hs hcs
          rcases List.mem_append.1 hs with hs | hs
          · rcases h4 s hs hcs with h | h
            · exact Or.inl (List.mem_append_left _ h)
            · exact Or.inr (List.mem_append_left _ h)
          · exact Or.inl (List.mem_append_right _ hs)

theorem allowed_neg (ell1 ell2 ELL : ℤ) (t : Triplet) :
    t.neg.Allowed ell1 ell2 ELL ↔ t.Allowed ell1 ell2 ELL := by
  obtain ⟨a, b, d⟩ := t; simp [Triplet.Allowed, Triplet.neg, abs_neg]

/-- The order sum over any list of triplets closed under negation. -/
theorem sum_foldl_stepM [DecidableEq Triplet] (V : List Triplet) (hnd : V.Nodup)
    (hneg : ∀ t ∈ V, t.neg ∈ V)
    (hsym : ∀ t ∈ V, |c t.neg| = |c t|) (hgap : ∀ t ∈ V, |c t| ≠ eps)
    {G : Type} [AddCommMonoid G] (f : Triplet → G) :
    ((V.foldl (stepM c eps) []).map fun t => f t + if t.isZeros then 0 else f t.neg).sum =
      ∑ t ∈ V.toFinset.filter (fun t => eps < |c t|), f t := by
  obtain ⟨h1, h2, h3, h4⟩ := foldl_stepM c eps V
  have h3' := h3 hnd
  obtain ⟨P, hP⟩ : ∃ P, P = V.foldl (stepM c eps) [] := ⟨_, rfl⟩
  rw [← hP] at h1 h2 h3' h4 ⊢
  have hndP : P.Nodup := hnd.sublist h1
  have hS' : V.toFinset.filter (fun t => eps < |c t|)
      = P.toFinset ∪ (P.toFinset.filter fun t => ¬ t.isZeros = true).image Triplet.neg := by
    ext t
    rw [Finset.mem_filter, List.mem_toFinset, Finset.mem_union, List.mem_toFinset, Finset.mem_image]
    constructor
    · rintro ⟨ht, hc⟩
      rcases h4 t ht hc.le with h | h
      · exact Or.inl h
      · by_cases hz : t.neg.isZeros = true
        · rw [isZeros_iff] at hz
          have : t = ⟨0, 0, 0⟩ := by rw [← neg_neg t, hz]; rfl
          left; rw [this] at h ⊢; exact h
        · right; exact ⟨t.neg, Finset.mem_filter.2 ⟨List.mem_toFinset.2 h, hz⟩, neg_neg t⟩
    · rintro (h | ⟨s, hs, rfl⟩)
      · have hv := h1.subset h
        exact ⟨hv, lt_of_le_of_ne (h2 t h) (Ne.symm (hgap t hv))⟩
      · have hs := List.mem_toFinset.1 (Finset.mem_filter.1 hs).1
        have hv := h1.subset hs
        refine ⟨hneg s hv, ?_⟩
        rw [hsym s hv]
        exact lt_of_le_of_ne (h2 s hs) (Ne.symm (hgap s hv))
  have hdisj : Disjoint P.toFinset
      ((P.toFinset.filter fun t => ¬ t.isZeros = true).image Triplet.neg) := by
    rw [Finset.disjoint_left]
    intro t ht ht'
    rw [Finset.mem_image] at ht'
    obtain ⟨s, hs, rfl⟩ := ht'
    obtain ⟨hs, hz⟩ := Finset.mem_filter.1 hs
    apply hz
    rw [isZeros_iff]
    exact h3' s (List.mem_toFinset.1 hs) (List.mem_toFinset.1 ht)
  rw [hS', Finset.sum_union hdisj, Finset.sum_image (fun a _ b _ h => neg_injective h),
    ← List.sum_toFinset _ hndP, Finset.sum_add_distrib, Finset.sum_filter]
  congr 1
  apply Finset.sum_congr rfl
  intro t _
  by_cases h : t.isZeros = true <;> simp [h]

variable (ell1 ell2 ELL : ℤ)
  (hsym : ∀ t : Triplet, t.Allowed ell1 ell2 ELL → |c t.neg| = |c t|)
  (hgap : ∀ t : Triplet, t.Allowed ell1 ell2 ELL → |c t| ≠ eps)
include hsym hgap

theorem computed_iff (t : Triplet) :
    (t ∈ computedOrders c eps ell1 ell2 ELL ∨ t.neg ∈ computedOrders c eps ell1 ell2 ELL) ↔
      t.Allowed ell1 ell2 ELL ∧ eps < |c t| := by
  obtain ⟨h1, h2, h3, h4⟩ := foldl_stepM c eps (visited c eps ell1 ell2 ELL)
  rw [computedOrders_eq]
  constructor
  · rintro (h | h)
    · have hv := (mem_visited c eps ell1 ell2 ELL t).1 (h1.subset h)
      exact ⟨hv.1, lt_of_le_of_ne (h2 t h) (Ne.symm (hgap t hv.1))⟩
    · have hv := (mem_visited c eps ell1 ell2 ELL t.neg).1 (h1.subset h)
      have ha := (allowed_neg ell1 ell2 ELL t).1 hv.1
      refine ⟨ha, lt_of_le_of_ne ?_ (Ne.symm (hgap t ha))⟩
      rw [← hsym t ha]; exact h2 _ h
  · rintro ⟨ha, hc⟩
    apply h4 t _ hc.le
    rw [mem_visited]
    exact ⟨ha, t.M, ha.2.2, hc⟩

theorem sum_computed {G : Type} [AddCommMonoid G] (f : Triplet → G) :
    ((computedOrders c eps ell1 ell2 ELL).map fun t =>
        f t + if t.isZeros then 0 else f t.neg).sum =
      ∑ m1 ∈ Finset.Icc (-ell1) ell1, ∑ m2 ∈ Finset.Icc (-ell2) ell2,
        ∑ M ∈ Finset.Icc (-ELL) ELL,
          if eps < |c ⟨m1, m2, M⟩| then f ⟨m1, m2, M⟩ else 0 := by
  classical
  rw [computedOrders_eq, sum_foldl_stepM c eps _ (nodup_visited c eps ell1 ell2 ELL)]
  · let emb : ℤ × ℤ × ℤ → Triplet := fun p => ⟨p.1, p.2.1, p.2.2⟩
    have hemb : Function.Injective emb := by
      rintro ⟨a, b, d⟩ ⟨a', b', d'⟩ h; simpa [emb] using h
    have hS : (visited c eps ell1 ell2 ELL).toFinset.filter (fun t => eps < |c t|) =
        ((Finset.Icc (-ell1) ell1 ×ˢ Finset.Icc (-ell2) ell2 ×ˢ Finset.Icc (-ELL) ELL).image
          emb).filter fun t => eps < |c t| := by
      ext t
      rw [Finset.mem_filter, List.mem_toFinset, mem_visited, Finset.mem_filter, Finset.mem_image]
      simp only [Finset.mem_product, Finset.mem_Icc, Triplet.Allowed, abs_le]
      constructor
      · rintro ⟨⟨h, _⟩, hc⟩; exact ⟨⟨(t.m1, t.m2, t.M), h, rfl⟩, hc⟩
      · rintro ⟨⟨⟨a, b, d⟩, h, rfl⟩, hc⟩; exact ⟨⟨h, d, h.2.2, hc⟩, hc⟩
    rw [hS, Finset.sum_filter, Finset.sum_image (fun a _ b _ h => hemb h), Finset.sum_product]
    apply Finset.sum_congr rfl; intro m1 _
    rw [Finset.sum_product]
  · intro t ht
    rw [mem_visited] at ht ⊢
    obtain ⟨ha, M, hM, hc⟩ := ht
    refine ⟨(allowed_neg ell1 ell2 ELL t).2 ha, -M, by rwa [abs_neg], ?_⟩
    have := hsym ⟨t.m1, t.m2, M⟩ ⟨ha.1, ha.2.1, hM⟩
    rw [show (⟨t.neg.m1, t.neg.m2, -M⟩ : Triplet) = Triplet.neg ⟨t.m1, t.m2, M⟩ from rfl, this]
    exact hc
  · intro t ht; exact hsym t ((mem_visited c eps ell1 ell2 ELL t).1 ht).1
  · intro t ht; exact hgap t ((mem_visited c eps ell1 ell2 ELL t).1 ht).1

theorem sum_computedGpp (hL : 0 ≤ ELL) {G : Type} [AddCommMonoid G] (f : Triplet → G) :
    ((computedOrdersGpp c eps ell1 ell2).map fun t =>
        f t + if t.isZeros then 0 else f t.neg).sum =
      ∑ m1 ∈ Finset.Icc (-ell1) ell1, ∑ m2 ∈ Finset.Icc (-ell2) ell2,
          if eps < |c ⟨m1, m2, 0⟩| then f ⟨m1, m2, 0⟩ else 0 := by
  classical
  let V : List Triplet := (upto (-ell1) (ell1 + 1)).flatMap fun m1 =>
    (upto (-ell2) (ell2 + 1)).map fun m2 => ⟨m1, m2, 0⟩
  have hV : ∀ t, t ∈ V ↔ |t.m1| ≤ ell1 ∧ |t.m2| ≤ ell2 ∧ t.M = 0 := by
    rintro ⟨a, b, d⟩
    simp only [V, List.mem_flatMap, List.mem_map, mem_upto, Triplet.mk.injEq, abs_le]
    constructor
    · rintro ⟨m1, h1, m2, h2, rfl, rfl, rfl⟩; omega
    · rintro ⟨h1, h2, rfl⟩; exact ⟨a, by omega, b, by omega, rfl, rfl, rfl⟩
  have hVa : ∀ t ∈ V, t.Allowed ell1 ell2 ELL := by
    intro t ht
    obtain ⟨h1, h2, h3⟩ := (hV t).1 ht
    exact ⟨h1, h2, by rw [h3]; simpa using hL⟩
  have hnd : V.Nodup := by
    apply pairwise_flatMap_upto
    · intro m1; apply pairwise_map_upto; intro i j h e; simp at e; omega
    · intro i j hij x hx y hy e
      simp only [List.mem_map] at hx hy
      obtain ⟨_, _, rfl⟩ := hx; obtain ⟨_, _, rfl⟩ := hy
      simp at e; omega
  have hc : computedOrdersGpp c eps ell1 ell2 = V.foldl (stepM c eps) [] := by
    simp only [V, computedOrdersGpp]
    rw [List.foldl_flatMap]; congr 1; funext acc m1; rw [List.foldl_map]
  rw [hc, sum_foldl_stepM c eps V hnd]
  · let emb : ℤ × ℤ → Triplet := fun p => ⟨p.1, p.2, 0⟩
    have hemb : Function.Injective emb := by
      rintro ⟨a, b⟩ ⟨a', b'⟩ h; simpa [emb] using h
    have hS : V.toFinset.filter (fun t => eps < |c t|) =
        ((Finset.Icc (-ell1) ell1 ×ˢ Finset.Icc (-ell2) ell2).image emb).filter
          fun t => eps < |c t| := by
      ext t
      rw [Finset.mem_filter, List.mem_toFinset, hV, Finset.mem_filter, Finset.mem_image]
      simp only [Finset.mem_product, Finset.mem_Icc, abs_le]
      constructor
      · rintro ⟨⟨h1, h2, h3⟩, hc⟩
        refine ⟨⟨(t.m1, t.m2), ⟨h1, h2⟩, ?_⟩, hc⟩
        obtain ⟨a, b, d⟩ := t; simp only at h3; subst h3; rfl
      · rintro ⟨⟨⟨a, b⟩, h, rfl⟩, hc⟩; exact ⟨⟨h.1, h.2, rfl⟩, hc⟩
    rw [hS, Finset.sum_filter, Finset.sum_image (fun a _ b _ h => hemb h), Finset.sum_product]
  · intro t ht
    rw [hV] at ht ⊢
    obtain ⟨h1, h2, h3⟩ := ht
    exact ⟨by simpa [Triplet.neg, abs_neg] using h1, by simpa [Triplet.neg, abs_neg] using h2,
      by simp [Triplet.neg, h3]⟩
  · intro t ht; exact hsym t (hVa t ht)
  · intro t ht; exact hgap t (hVa t ht)

end
end Trv.ThreePt

import Verif.Lemmas.Orders
import Verif.Lemmas.Reshape
/-
C36-C39: data-vector layout, shot-noise writes, spherical-order sum and reshaping
of three-point statistics.
-/
namespace Trv.ThreePt

/-! ### C36 -/

/-- **C36.** For every form and bin number the measurement loops write the
positions `0, 1, …, dim - 1` in this order, each exactly once; the bin pairs they
are written for are exactly those of the form, without repetition, in row-major
order. -/
theorem C36_layout_bijection (n : ℤ) (hn : 0 ≤ n) (f : Form) (hf : ValidForm n f) :
    0 ≤ dim n f ∧
    (measWrites n f).map Entry.pos = (List.range (dim n f).toNat).map (fun t : ℕ => (t : ℤ)) ∧
    (∀ r c, (∃ p, (⟨r, c, p⟩ : Entry) ∈ measWrites n f) ↔ InForm n f r c) ∧
    ((measWrites n f).map fun e => (e.row, e.col)).Pairwise RowMajor := by
  refine ⟨?_, ?_, mem_measWrites_pairs n f, ?_⟩
  · cases f with
    | diag => exact hn
    | row b => exact hn
    | offDiag k => simp only [ValidForm] at hf; simp only [dim]; omega
    | full => exact mul_nonneg hn hn
    | triu => have := two_dim_triu n; nlinarith
  · rw [measWrites_pos n hn f]; unfold upto; simp
  · rw [List.pairwise_map]; exact measWrites_rowMajor n f

/-- Hence the position determines the pair and the pair the position. -/
theorem C36_layout_injective (n : ℤ) (hn : 0 ≤ n) (f : Form) (x y : Entry)
    (hx : x ∈ measWrites n f) (hy : y ∈ measWrites n f) :
    x.pos = y.pos ↔ (x.row = y.row ∧ x.col = y.col) := by
  have hnd : ((measWrites n f).map Entry.pos).Nodup := by
    rw [measWrites_pos n hn f]; exact nodup_upto _ _
  have hrm : ((measWrites n f).map fun e => (e.row, e.col)).Nodup := by
    rw [List.nodup_iff_pairwise_ne, List.pairwise_map]
    refine (measWrites_rowMajor n f).imp ?_
    intro a b h e
    simp only [Prod.mk.injEq] at e
    simp only [RowMajor] at h; omega
  constructor
  · intro h
    have := List.inj_on_of_nodup_map hnd hx hy h
    rw [this]; exact ⟨rfl, rfl⟩
  · rintro ⟨h1, h2⟩
    have := List.inj_on_of_nodup_map hrm hx hy (by simp [h1, h2])
    rw [this]

example : measWrites 3 .triu =
    [⟨0, 0, 0⟩, ⟨0, 1, 1⟩, ⟨0, 2, 2⟩, ⟨1, 1, 3⟩, ⟨1, 2, 4⟩, ⟨2, 2, 5⟩] := by decide +kernel
example : ValidForm 3 (.offDiag (-2)) ∧ measWrites 3 (.offDiag (-2)) = [⟨2, 0, 0⟩] := by
  constructor
  · simp [ValidForm]
  · decide +kernel

/-! ### C37 -/

/-- The property as stated: all positions written are inside the data vector. -/
def NoiseInBounds (n ell1 ell2 : ℤ) (f : Form) : Prop :=
  ∀ p ∈ noisePositions n ell1 ell2 f, 0 ≤ p ∧ p < dim n f

/-- **C37 is violated**: for every number of bins, in the full form, whenever
`ell1 = 0`, entries just beyond the end of the data vector are written. -/
theorem C37_full_form_out_of_bounds_violated (n : ℤ) (hn : 0 < n) (ell2 : ℤ) :
    ¬ NoiseInBounds n 0 ell2 .full ∧
    ∀ c, 0 ≤ c → c < n → (c, dim n .full + c) ∈ noiseWritesCol n .full := by
  have key : ∀ c, 0 ≤ c → c < n → (c, dim n .full + c) ∈ noiseWritesCol n .full := by
    intro c h0 h1
    simp only [noiseWritesCol, List.mem_flatMap, List.mem_map, mem_upto, Prod.mk.injEq, dim]
    exact ⟨c, by omega, n, by omega, rfl, rfl⟩
  refine ⟨?_, key⟩
  intro h
  have := h (dim n .full + 0) (by
    unfold noisePositions
    simp only [List.mem_append]
    left; right
    rw [if_pos trivial]
    exact List.mem_map.2 ⟨_, key 0 le_rfl hn, rfl⟩)
  omega

/-- **C37 (partial: all but the full form with `ell1 = 0`).** All positions
written are inside the data vector, and the two coupled shot-noise loops add to
each entry exactly once the contribution of its own row (column) bin. -/
theorem C37_writes_in_bounds_partial (n : ℤ) (hn : 0 ≤ n) (ell1 ell2 : ℤ) (f : Form)
    (h : f ≠ .full ∨ ell1 ≠ 0) :
    NoiseInBounds n ell1 ell2 f ∧
    noiseWritesRow n f = (measWrites n f).map (fun e => (e.row, e.pos)) ∧
    (f ≠ .full → (noiseWritesCol n f).Perm ((measWrites n f).map fun e => (e.col, e.pos))) := by
  have hpos : ∀ p ∈ (measWrites n f).map Entry.pos, 0 ≤ p ∧ p < dim n f := by
    intro p hp; rw [measWrites_pos n hn f, mem_upto] at hp; exact hp
  refine ⟨?_, noiseWritesRow_eq n f, noiseWritesCol_perm n f⟩
  intro p hp
  unfold noisePositions at hp
  simp only [List.mem_append] at hp
  rcases hp with ((hp | hp) | hp) | hp
  · split_ifs at hp
    · exact mem_upto.1 hp
    · simp at hp
  · split_ifs at hp
    · rw [noiseWritesRow_eq, List.map_map] at hp; exact hpos p hp
    · simp at hp
  · by_cases h1 : ell1 = 0
    · rw [if_pos h1] at hp
      have hf : f ≠ .full := h.resolve_right (by simpa using h1)
      have := ((noiseWritesCol_perm n f hf).map Prod.snd).mem_iff.1 hp
      rw [List.map_map] at this; exact hpos p this
    · rw [if_neg h1] at hp; simp at hp
  · exact mem_upto.1 hp

/-- **C37 (three-point correlation functions).** The shot noise is added exactly
once to each entry whose two bins coincide, from that bin, and to no other entry;
all positions written are inside the data vector. -/
theorem C37_3pcf_diagonal_writes (n : ℤ) (hn : 0 ≤ n) (f : Form) (hf : ValidForm n f) :
    noiseWrites3pcf n f =
      ((measWrites n f).filter fun e => e.row = e.col).map (fun e => (e.row, e.pos)) ∧
    ∀ x ∈ noiseWrites3pcf n f, 0 ≤ x.2 ∧ x.2 < dim n f := by
  have hpos : ∀ p ∈ (measWrites n f).map Entry.pos, 0 ≤ p ∧ p < dim n f := by
    intro p hp; rw [measWrites_pos n hn f, mem_upto] at hp; exact hp
  have heq : noiseWrites3pcf n f =
      ((measWrites n f).filter fun e => e.row = e.col).map (fun e => (e.row, e.pos)) := by
    -- a column range filtered at one value
    have hsel : ∀ (a b r : ℤ), a ≤ r → r < b → (upto a b).filter (fun c => r = c) = [r] := by
      intro a b r h1 h2
      rw [← upto_append h1 (by omega : r ≤ b), ← upto_append (by omega : r ≤ r + 1) (by omega : r + 1 ≤ b),
        upto_succ_right le_rfl, upto_self, List.filter_append, List.filter_append]
      have e1 : (upto a r).filter (fun c => r = c) = [] := by
        rw [List.filter_eq_nil_iff]; intro x hx; rw [mem_upto] at hx; simp; omega
      have e2 : (upto (r + 1) b).filter (fun c => r = c) = [] := by
        rw [List.filter_eq_nil_iff]; intro x hx; rw [mem_upto] at hx; simp; omega
      rw [e1, e2]; simp
    cases f with
    | diag =>
      simp only [noiseWrites3pcf, measWrites]
      rw [List.filter_eq_self.2]
      · rw [List.map_map]; rfl
      · intro e he; obtain ⟨i, _, rfl⟩ := List.mem_map.1 he; simp
    | row b =>
      simp only [ValidForm] at hf
      simp only [noiseWrites3pcf, measWrites, dim, List.filter_map, Function.comp_def]
      rw [hsel 0 n b hf.1 hf.2]; rfl
    | offDiag k =>
      simp only [noiseWrites3pcf, measWrites]
      by_cases hk : k = 0
      · subst hk
        rw [if_pos rfl, List.filter_eq_self.2]
        · rw [List.map_map]; apply List.map_congr_left; intro i _; simp
        · intro e he; obtain ⟨i, _, rfl⟩ := List.mem_map.1 he; simp
      · rw [if_neg hk, List.filter_eq_nil_iff.2, List.map_nil]
        intro e he
        obtain ⟨i, _, rfl⟩ := List.mem_map.1 he
        have : 0 < |k| := abs_pos.2 hk
        split_ifs <;> simp <;> omega
    | full =>
      simp only [noiseWrites3pcf, measWrites, List.filter_flatMap, List.map_flatMap, List.filter_map,
        Function.comp_def, List.map_map]
      rw [List.map_eq_flatMap]
      apply List.flatMap_congr
      intro r hr; rw [mem_upto] at hr
      rw [hsel 0 n r hr.1 hr.2]; rfl
    | triu =>
      simp only [noiseWrites3pcf, measWrites, List.filter_flatMap, List.map_flatMap, List.filter_map,
        Function.comp_def, List.map_map]
      rw [List.map_eq_flatMap]
      apply List.flatMap_congr
      intro r hr; rw [mem_upto] at hr
      rw [hsel r n r le_rfl hr.2]; simp [triuIdx]
  refine ⟨heq, ?_⟩
  intro x hx
  rw [heq, List.mem_map] at hx
  obtain ⟨e, he, rfl⟩ := hx
  exact hpos _ (List.mem_map.2 ⟨e, (List.mem_filter.1 he).1, rfl⟩)

example : NoiseInBounds 3 0 2 .triu ∧ noiseWritesCol 2 .full = [(0, 0), (0, 2), (0, 4), (1, 1), (1, 3), (1, 5)]
    ∧ dim 2 .full = 4 :=
  ⟨(C37_writes_in_bounds_partial 3 (by omega) 0 2 .triu (Or.inl (by decide))).1, by decide +kernel, rfl⟩

/-! ### C38 -/

variable {K : Type} [Field K] [LinearOrder K]

/-- **C38.** For every coupling whose magnitude is even in the orders (and never
equal to the threshold), the orders evaluated are distinct, include exactly one
of each pair `{t, -t}` of orders with non-vanishing coupling and none other, and
adding to each evaluated order its mirror image (except for the zero order)
gives the sum over all orders with non-vanishing coupling, each once. -/
theorem C38_orders_counted_once (c : Triplet → K) (eps : K) (ell1 ell2 ELL : ℤ)
    (hsym : ∀ t : Triplet, t.Allowed ell1 ell2 ELL → |c t.neg| = |c t|)
    (hgap : ∀ t : Triplet, t.Allowed ell1 ell2 ELL → |c t| ≠ eps) :
    (computedOrders c eps ell1 ell2 ELL).Nodup ∧
    (∀ t, (t ∈ computedOrders c eps ell1 ell2 ELL ∨ t.neg ∈ computedOrders c eps ell1 ell2 ELL) ↔
      t.Allowed ell1 ell2 ELL ∧ eps < |c t|) ∧
    (∀ t, t ≠ ⟨0, 0, 0⟩ → ¬ (t ∈ computedOrders c eps ell1 ell2 ELL ∧
      t.neg ∈ computedOrders c eps ell1 ell2 ELL)) ∧
    ∀ (G : Type) [AddCommMonoid G] (f : Triplet → G),
      ((computedOrders c eps ell1 ell2 ELL).map fun t =>
          f t + if t.isZeros then 0 else f t.neg).sum =
        ∑ m1 ∈ Finset.Icc (-ell1) ell1, ∑ m2 ∈ Finset.Icc (-ell2) ell2,
          ∑ M ∈ Finset.Icc (-ELL) ELL,
            if eps < |c ⟨m1, m2, M⟩| then f ⟨m1, m2, M⟩ else 0 := by
  obtain ⟨h1, h2, h3, h4⟩ := foldl_stepM c eps (visited c eps ell1 ell2 ELL)
  rw [← computedOrders_eq] at h1 h2 h3 h4
  have hnv := nodup_visited c eps ell1 ell2 ELL
  refine ⟨hnv.sublist h1, computed_iff c eps ell1 ell2 ELL hsym hgap, ?_, ?_⟩
  · rintro t ht ⟨ha, hb⟩; exact ht (h3 hnv t ha hb)
  · intro G _ f; exact sum_computed c eps ell1 ell2 ELL hsym hgap f

/-- **C38, bispectrum entries.** If the coupling is even in the orders (as it is
when `ell1 + ell2 + ELL` is even) and the components obey the reality condition
`B(-t) = (-1)^ELL conj B(t)`, the accumulated entry is the full sum of coupling
times component over all non-vanishing orders. -/
theorem C38_bispectrum_sum (c : Triplet → ℝ) (B : Triplet → ℂ) (vol eps : ℝ) (ell1 ell2 ELL : ℤ)
    (hsym : ∀ t : Triplet, t.Allowed ell1 ell2 ELL → c t.neg = c t)
    (hgap : ∀ t : Triplet, t.Allowed ell1 ell2 ELL → |c t| ≠ eps)
    (hB : ∀ t : Triplet, t.Allowed ell1 ell2 ELL →
      B t.neg = (-1) ^ ELL.toNat * (starRingEnd ℂ) (B t)) :
    bkTotal c B vol eps ell1 ell2 ELL =
      ∑ m1 ∈ Finset.Icc (-ell1) ell1, ∑ m2 ∈ Finset.Icc (-ell2) ell2,
        ∑ M ∈ Finset.Icc (-ELL) ELL,
          if eps < |c ⟨m1, m2, M⟩| then (c ⟨m1, m2, M⟩ : ℂ) * (vol : ℂ) * B ⟨m1, m2, M⟩ else 0 := by
  have hs : ∀ t : Triplet, t.Allowed ell1 ell2 ELL → |c t.neg| = |c t| :=
    fun t ht => by rw [hsym t ht]
  rw [← sum_computed c eps ell1 ell2 ELL hs hgap (fun t => (c t : ℂ) * (vol : ℂ) * B t)]
  unfold bkTotal
  congr 1
  apply List.map_congr_left
  intro t ht
  have ha : t.Allowed ell1 ell2 ELL :=
    ((computed_iff c eps ell1 ell2 ELL hs hgap t).1 (Or.inl ht)).1
  unfold factorMirror
  by_cases hz : t.isZeros = true
  · simp only [hz, if_true]; push_cast; ring
  · simp only [hz, if_false, hsym t ha, hB t ha]; push_cast; ring

/-- **C38, global plane-parallel loop.** -/
theorem C38_plane_parallel_sum (c : Triplet → K) (eps : K) (ell1 ell2 ELL : ℤ) (hL : 0 ≤ ELL)
    (hsym : ∀ t : Triplet, t.Allowed ell1 ell2 ELL → |c t.neg| = |c t|)
    (hgap : ∀ t : Triplet, t.Allowed ell1 ell2 ELL → |c t| ≠ eps)
    {G : Type} [AddCommMonoid G] (f : Triplet → G) :
    ((computedOrdersGpp c eps ell1 ell2).map fun t =>
        f t + if t.isZeros then 0 else f t.neg).sum =
      ∑ m1 ∈ Finset.Icc (-ell1) ell1, ∑ m2 ∈ Finset.Icc (-ell2) ell2,
          if eps < |c ⟨m1, m2, 0⟩| then f ⟨m1, m2, 0⟩ else 0 :=
  sum_computedGpp c eps ell1 ell2 ELL hsym hgap hL f

/-- A coupling with the selection rule of the Wigner symbols. -/
def sampleCoupling : Triplet → ℚ := fun t => if t.m1 + t.m2 + t.M = 0 then 1 + t.M ^ 2 else 0

example : (∀ t : Triplet, t.Allowed 1 1 2 → |sampleCoupling t.neg| = |sampleCoupling t|) ∧
    (∀ t : Triplet, t.Allowed 1 1 2 → |sampleCoupling t| ≠ 1 / 10) ∧
    computedOrders sampleCoupling (1 / 10) 1 1 2 =
      [⟨-1, -1, 2⟩, ⟨-1, 0, 1⟩, ⟨-1, 1, 0⟩, ⟨0, -1, 1⟩, ⟨0, 0, 0⟩] := by
  refine ⟨?_, ?_, by decide +kernel⟩
  · intro t _
    have : (-t.m1 + -t.m2 + -t.M = 0) ↔ (t.m1 + t.m2 + t.M = 0) := by omega
    simp [sampleCoupling, Triplet.neg, this]
  · intro t _
    unfold sampleCoupling
    split_ifs with h
    · rw [abs_of_nonneg (by positivity)]
      have : (0 : ℚ) ≤ (t.M : ℚ) ^ 2 := by positivity
      intro e; linarith
    · norm_num

/-! ### C39 -/

/-- **C39, upper-triangular tables.** A table with `n (n + 1) / 2` entries is
accepted; the result is a symmetric `n × n` matrix whose upper triangle, flattened
in row-major order, is the table; each entry is the one measured for its pair of
bins; and the coordinates are those of the bins. -/
theorem C39_reshape_upper {α : Type} [Zero α] (n : ℕ) (rows : List (α × α)) (flat : List α)
    (h1 : 2 * flat.length = n * (n + 1)) (h2 : rows.length = flat.length) :
    ∃ R, reshape (some rows) flat "triu" = .ok R ∧ R.n = n ∧
      (∀ r c, R.mat r c = R.mat c r) ∧
      flattenUpper n R.mat = flat ∧
      (∀ r c p : ℕ, (⟨r, c, p⟩ : Entry) ∈ measWrites n .triu → flat[p]? = some (R.mat r c)) ∧
      (∀ x : ℕ → α, rows = (measWrites n .triu).map (fun e => (x e.row.toNat, x e.col.toNat)) →
        R.coords = (List.range n).map x) := by
  have hx : (Real.sqrt (8 * (rows.length : ℝ) + 1) - 1) / 2 = (n : ℝ) := by
    rw [h2]; exact sqrt_triangular n _ h1
  have hlen : (triuIndices n).length = flat.length := by
    have := length_triuIndices n; omega
  have hkeys : ((triuIndices n).zip flat).map Prod.fst = triuIndices n :=
    List.map_fst_zip hlen.le
  have hnd : (((triuIndices n).zip flat).map Prod.fst).Nodup := by
    rw [hkeys]; exact nodup_triuIndices n
  have hfl : ⌊(Real.sqrt (8 * (rows.length : ℝ) + 1) - 1) / 2⌋₊ = n := by rw [hx, Nat.floor_natCast]
  have hcl : IsClose ((Real.sqrt (8 * (rows.length : ℝ) + 1) - 1) / 2)
      ⌊(Real.sqrt (8 * (rows.length : ℝ) + 1) - 1) / 2⌋₊ := by rw [hfl, hx]; exact isClose_self _
  unfold reshape
  dsimp only
  rw [if_neg (not_not.2 h2), if_pos rfl, if_neg (not_not.2 hcl)]
  rw [hfl]
  rw [if_neg (not_not.2 hlen)]
  refine ⟨_, rfl, rfl, ?_, ?_, ?_, ?_⟩
  · -- symmetric
    intro r c
    show setAll _ _ c r = setAll _ _ r c
    obtain ⟨ws, hws⟩ : ∃ ws, ws = (triuIndices n).zip flat := ⟨_, rfl⟩
    rw [← hws] at hnd ⊢
    by_cases hrc : r = c
    · rw [hrc]
    · by_cases ha : ∃ v, ((r, c), v) ∈ ws
      · obtain ⟨v, hv⟩ := ha
        have hb : ∀ v', ((c, r), v') ∉ ws := by
          intro v' hv'
          have m1 := (mem_triuIndices n r c).1 (by
            rw [← hkeys, ← hws]; exact List.mem_map.2 ⟨_, hv, rfl⟩)
          have m2 := (mem_triuIndices n c r).1 (by
            rw [← hkeys, ← hws]; exact List.mem_map.2 ⟨_, hv', rfl⟩)
          omega
        rw [setAll_of_not_mem _ ws c r hb, setAll_of_mem _ ws r c v hnd hv]
        show setAll _ ws r c = v
        exact setAll_of_mem _ ws r c v hnd hv
      · by_cases hb : ∃ v, ((c, r), v) ∈ ws
        · obtain ⟨v, hv⟩ := hb
          rw [setAll_of_mem _ ws c r v hnd hv, setAll_of_not_mem _ ws r c (by simpa using ha)]
          show v = setAll _ ws c r
          exact (setAll_of_mem _ ws c r v hnd hv).symm
        · rw [setAll_of_not_mem _ ws c r (by simpa using hb),
            setAll_of_not_mem _ ws r c (by simpa using ha)]
          show setAll _ ws r c = setAll _ ws c r
          rw [setAll_of_not_mem _ ws c r (by simpa using hb),
            setAll_of_not_mem _ ws r c (by simpa using ha)]
  all_goals
    have hval : ∀ r c v, ((r, c), v) ∈ (triuIndices n).zip flat →
        tr (setAll (tr (setAll (fun _ _ => 0) ((triuIndices n).zip flat)))
          ((triuIndices n).zip flat)) r c = v := by
      intro r c v hv
      show setAll _ _ c r = v
      have hrc := (mem_triuIndices n r c).1 (by
        rw [← hkeys]; exact List.mem_map.2 ⟨_, hv, rfl⟩)
      by_cases he : r = c
      · subst he; exact setAll_of_mem _ _ r r v hnd hv
      · rw [setAll_of_not_mem]
        · show setAll _ _ r c = v; exact setAll_of_mem _ _ r c v hnd hv
        · intro v' hv'
          have := (mem_triuIndices n c r).1 (by
            rw [← hkeys]; exact List.mem_map.2 ⟨_, hv', rfl⟩)
          omega
  · -- flattening
    have hfl : ∀ M : ℕ → ℕ → α, flattenUpper n M = (triuIndices n).map fun p => M p.1 p.2 := by
      intro M; simp [flattenUpper, triuIndices, List.map_flatMap, Function.comp_def]
    show flattenUpper n (tr (setAll (tr (setAll (fun _ _ => 0) ((triuIndices n).zip flat)))
          ((triuIndices n).zip flat))) = flat
    rw [hfl]
    apply List.ext_getElem
    · rw [List.length_map, hlen]
    · intro i hi hi'
      rw [List.getElem_map]
      apply hval
      rw [List.mem_iff_getElem]
      exact ⟨i, by simp; omega, by simp⟩
  · -- layout
    intro r c p hp
    rw [measWrites_triu_eq] at hp
    obtain ⟨⟨r', c'⟩, hm, he⟩ := List.mem_map.1 hp
    simp only [Entry.mk.injEq, Nat.cast_inj] at he
    obtain ⟨rfl, rfl, hpos⟩ := he
    obtain ⟨i, hi, hget⟩ := List.mem_iff_getElem.1 hm
    have hidx := triuIdx_at n i r' c' (by rw [List.getElem?_eq_getElem hi, hget])
    have hpi : p = i := by rw [hidx] at hpos; exact_mod_cast hpos.symm
    subst hpi
    rw [List.getElem?_eq_getElem (by omega)]
    congr 1
    symm
    apply hval
    rw [List.mem_iff_getElem]
    exact ⟨p, by simp; omega, by simp [hget]⟩
  · -- coordinates
    intro x hrows
    show (List.take n rows).map Prod.snd = _
    rw [hrows, measWrites_triu_eq, List.map_map]
    cases n with
    | zero => simp
    | succ m =>
      have : triuIndices (m + 1) = (List.range (m + 1)).map (fun c => (0, c)) ++
          (List.range' 1 m).flatMap (fun r => (List.range' r (m + 1 - r)).map fun c => (r, c)) := by
        simp only [triuIndices, List.range_eq_range', List.range'_succ, List.flatMap_cons]
        simp [List.range'_succ]
      rw [this, List.map_append, List.take_left' (by simp), List.map_map, List.map_map]
      apply List.map_congr_left
      intro t _; simp [Function.comp]

/-- **C39, full tables.** A table with `n²` entries is accepted; the matrix
flattens to the table in row-major order and each entry is the one measured for
its pair of bins. -/
theorem C39_reshape_full {α : Type} [Zero α] (n : ℕ) (rows : List (α × α)) (flat : List α)
    (h1 : flat.length = n * n) (h2 : rows.length = flat.length) :
    ∃ R, reshape (some rows) flat "full" = .ok R ∧ R.n = n ∧
      flattenFull n R.mat = flat ∧
      (∀ r c p : ℕ, (⟨r, c, p⟩ : Entry) ∈ measWrites n .full → flat[p]? = some (R.mat r c)) ∧
      (∀ x : ℕ → α, rows = (measWrites n .full).map (fun e => (x e.row.toNat, x e.col.toNat)) →
        R.coords = (List.range n).map x) := by
  have hx : Real.sqrt (rows.length : ℝ) = (n : ℝ) := by
    rw [h2]; exact sqrt_square n _ h1
  have hne : ¬ ("full" = "triu") := by decide
  have hfl : ⌊Real.sqrt (rows.length : ℝ)⌋₊ = n := by rw [hx, Nat.floor_natCast]
  have hcl : IsClose (Real.sqrt (rows.length : ℝ)) ⌊Real.sqrt (rows.length : ℝ)⌋₊ := by
    rw [hfl, hx]; exact isClose_self _
  unfold reshape
  dsimp only
  rw [if_neg (not_not.2 h2), if_neg hne, if_pos rfl, if_neg (not_not.2 hcl)]
  rw [hfl]
  rw [if_neg (not_not.2 h1.symm)]
  refine ⟨_, rfl, rfl, ?_, ?_, ?_⟩
  · -- flattening of blocks
    have key : ∀ (m : ℕ) (l : List α), l.length = m * n →
        (List.range m).flatMap (fun r => (List.range n).map fun c => l.getD (r * n + c) 0) = l := by
      intro m
      induction m with
      | zero => intro l hl; simp at hl; simp [hl]
      | succ m ih =>
        intro l hl
        rw [List.range_succ, List.flatMap_append]
        have h3 : (l.take (m * n)).length = m * n := by
          rw [List.length_take, hl]; apply min_eq_left; nlinarith
        have h4 := ih (l.take (m * n)) h3
        conv_rhs => rw [← List.take_append_drop (m * n) l]
        congr 1
        · rw [← h4]
          apply List.flatMap_congr
          intro r hr
          rw [List.mem_range] at hr
          apply List.map_congr_left
          intro c hc
          rw [List.mem_range] at hc
          have hlt : r * n + c < m * n := by
            have : (r + 1) * n ≤ m * n := Nat.mul_le_mul_right n hr
            nlinarith
          simp only [List.getD_eq_getElem?_getD]
          rw [List.getElem?_take, if_pos hlt]
        · simp only [List.flatMap_cons, List.flatMap_nil, List.append_nil]
          apply List.ext_getElem
          · simp [hl]; rw [Nat.succ_mul]; omega
          · intro i hi hi'
            have : m * n + i < l.length := by simp at hi; rw [hl, Nat.succ_mul]; omega
            simp [List.getD_eq_getElem?_getD, this]
    exact key n flat h1
  · intro r c p hp
    simp only [measWrites, List.mem_flatMap, List.mem_map, mem_upto, Entry.mk.injEq] at hp
    obtain ⟨a, ha, b, hb, h3, h4, h5⟩ := hp
    subst h3; subst h4
    have hp : p = r * n + c := by exact_mod_cast h5.symm
    have hlt : r * n + c < n * n := by
      have hr : r + 1 ≤ n := by omega
      have : (r + 1) * n ≤ n * n := Nat.mul_le_mul_right n hr
      have hc : c < n := by omega
      nlinarith
    subst hp
    show flat[r * n + c]? = some (flat.getD (r * n + c) 0)
    rw [List.getD_eq_getElem?_getD, List.getElem?_eq_getElem (by omega)]; rfl
  · intro x hrows
    show (List.take n rows).map Prod.snd = _
    rw [hrows]
    cases n with
    | zero => simp
    | succ m =>
      have : measWrites ((m + 1 : ℕ) : ℤ) .full =
          (List.range (m + 1)).map (fun c : ℕ => ⟨0, (c : ℤ), ((0 : ℕ) : ℤ) * ((m + 1 : ℕ) : ℤ) + c⟩) ++
          (List.range' 1 m).flatMap (fun r : ℕ => (List.range (m + 1)).map fun c : ℕ =>
            ⟨(r : ℤ), (c : ℤ), (r : ℤ) * ((m + 1 : ℕ) : ℤ) + c⟩) := by
        simp only [measWrites, upto_zero_cast, List.flatMap_map, List.map_map]
        simp only [List.range_eq_range', List.range'_succ, List.flatMap_cons, List.map_cons]
        simp [Function.comp_def]
      rw [this, List.map_append, List.map_map, List.take_left' (by simp), List.map_map]
      apply List.map_congr_left
      intro t _; simp [Function.comp]

/-- **C39, rejection.** A table is accepted only if it is two-dimensional, the two
arrays have equal lengths, the shape is recognised and the length is that of a
triangle (square) of some size; every rejection is a `ValueError`. -/
theorem C39_reshape_rejects {α : Type} [Zero α] (paired : Option (List (α × α))) (flat : List α)
    (shape : String) :
    (∀ R, reshape paired flat shape = .ok R → ∃ rows, paired = some rows ∧
      rows.length = flat.length ∧
      ((shape = "triu" ∧ 2 * flat.length = R.n * (R.n + 1)) ∨
       (shape = "full" ∧ flat.length = R.n * R.n))) ∧
    (∀ e, reshape paired flat shape = .error e → e = .valueError) := by
  constructor
  · intro R h
    unfold reshape at h
    cases paired with
    | none => simp at h
    | some rows =>
      simp only at h
      refine ⟨rows, rfl, ?_⟩
      split_ifs at h with h1 h2 h3 h4 h5 h6 h7
      · simp only [Except.ok.injEq] at h
        subst h
        refine ⟨not_not.1 h1, Or.inl ⟨h2, ?_⟩⟩
        have := length_triuIndices ⌊(Real.sqrt (8 * (rows.length : ℝ) + 1) - 1) / 2⌋₊
        rw [not_not.1 h4] at this
        exact this
      · simp only [Except.ok.injEq] at h
        subst h
        exact ⟨not_not.1 h1, Or.inr ⟨h5, (not_not.1 h7).symm⟩⟩
  · intro e h
    unfold reshape at h
    cases paired with
    | none => simp at h; exact h.symm
    | some rows =>
      simp only at h
      split_ifs at h <;> first | (simp at h; exact h.symm) | simp at h

/-- Concrete case: three entries make a symmetric `2 × 2` matrix. -/
example : ∃ R, reshape (some [(1, 1), (1, 2), (2, 2)]) [10, 11, (12 : ℚ)] "triu" = .ok R ∧
    R.mat 1 0 = 11 := by
  obtain ⟨R, h, hn, hs, _, hl, _⟩ := C39_reshape_upper 2 [(1, 1), (1, 2), (2, 2)] [10, 11, (12 : ℚ)]
    (by rfl) (by rfl)
  refine ⟨R, h, ?_⟩
  have := hl 0 1 1 (by decide +kernel)
  rw [hs]; simpa using this.symm

end Trv.ThreePt

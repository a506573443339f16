import Verif.Lemmas.WinSelect
import Mathlib.Data.Rat.Defs
import Mathlib.Algebra.Order.Ring.Rat
/-
C53: sub-selecting the samples of a three-point window.
-/
namespace Trv.Wc

open Trv

variable {K : Type} [Field K] [LinearOrder K]

/-- The sample points of a multipole (empty if there are none). -/
def Win.pts (w : Win K) (m : Multipole) : List K :=
  match w.r.at (.mp m) with
  | .ok x => x
  | .error _ => []

omit [Field K] [LinearOrder K] in
theorem Win.pts_eq {w : Win K} {m : Multipole} {x : List K} (h : w.r.at (.mp m) = .ok x) : w.pts m = x := by
  unfold Win.pts
  rw [h]

theorem Win.Ok.at {w : Win K} (hw : w.Ok) {m : Multipole} (hm : m ∈ w.multipoles) :
    w.r.at (.mp m) = .ok (w.pts m) := by
  obtain ⟨d, hd, h1, _⟩ := hw.dict
  obtain ⟨x, hx⟩ := h1 m hm
  have : w.r.at (.mp m) = .ok x := by
    rw [hd]
    simp only [RAttr.at, get, hx]
  rw [Win.pts_eq this, this]

omit [Field K] [LinearOrder K] in
theorem fullLike_spec {w : Win K} (hw : ∀ m ∈ w.multipoles, w.r.at (.mp m) = .ok (w.pts m)) (v : Bool) :
    fullLike w v = .ok (w.multipoles.map fun m => (m, (List.range (w.pts m).length).map fun _ => v)) := by
  unfold fullLike
  refine traverse_ok _ _ _ fun m hm => ?_
  rw [hw m hm]
  simp

/-- What a mask has to say for each multipole. -/
def MaskSpec (w : Win K) (s : List (Multipole × List Bool)) (P : Multipole → ℕ → Prop) : Prop :=
  ∀ m ∈ w.multipoles, ∃ p : ℕ → Bool, get? s m = some ((List.range (w.pts m).length).map p) ∧
    ∀ i < (w.pts m).length, (p i = true ↔ P m i)

theorem rMask_range (lo : K) (hi : Option K) (x : List K) : rMask lo hi x =
    (List.range x.length).map fun i => decide (lo ≤ x.getD i 0) && upOk hi (x.getD i 0) := by
  unfold rMask
  conv_lhs => rw [← range_getD x 0]
  rw [List.map_map]
  rfl

theorem selectRange_spec {w : Win K} (hw : w.Ok) (h0 : ∀ m ∈ w.multipoles, ∀ v ∈ w.pts m, 0 ≤ v)
    {rr : RRange K} (hr : rr.Valid w) :
    ∃ s, selectRange w rr = .ok s ∧ MaskSpec w s fun m i => rr.Holds m ((w.pts m).getD i 0) := by
  cases rr with
  | none =>
    refine ⟨_, fullLike_spec (fun m hm => hw.at hm) true, fun m hm => ⟨fun _ => true, ?_, ?_⟩⟩
    · exact get?_map_self (fun m => (List.range (w.pts m).length).map fun _ => true) hm
    · intro i _
      simp [RRange.Holds]
  | tuple b =>
    obtain ⟨lo, hi⟩ := b
    simp only [RRange.Valid] at hr
    have ht : orElse hi none = hi := by
      cases hi with
      | none => rfl
      | some h => simp only [orElse]; rw [if_neg (fun e => hr (by rw [e]))]
    refine ⟨w.multipoles.map fun m => (m, rMask ((orElse lo (some 0)).getD 0) hi (w.pts m)), ?_, ?_⟩
    · unfold selectRange
      simp only
      refine traverse_ok _ _ _ fun m hm => ?_
      rw [hw.at hm, ht]
    · intro m hm
      refine ⟨fun i => decide ((orElse lo (some 0)).getD 0 ≤ (w.pts m).getD i 0) &&
        upOk hi ((w.pts m).getD i 0), ?_, ?_⟩
      · rw [get?_map_self (fun m => rMask ((orElse lo (some 0)).getD 0) hi (w.pts m)) hm, rMask_range]
      · intro i hi'
        have hv : 0 ≤ (w.pts m).getD i 0 := h0 m hm _ (by simp [hi'])
        change _ ↔ RRange.Holds m ((w.pts m).getD i 0) (.tuple (lo, hi))
        simp only
        generalize (w.pts m).getD i 0 = v at hv
        rw [Bool.and_eq_true, decide_eq_true_iff]
        unfold RRange.Holds Within
        refine and_congr ?_ ?_
        · cases lo with
          | none => simpa [orElse] using hv
          | some l =>
            simp only [orElse]
            by_cases hl : l = 0
            · subst hl; simpa using hv
            · rw [if_neg hl]; simp
        · cases hi <;> simp [upOk]
  | dict d =>
    obtain ⟨hn, hall, hd⟩ := hr
    refine ⟨d.map fun p => match p with
      | (Key.mp m, some lo, some hi) => (m, rMask lo (some hi) (w.pts m))
      | _ => (⟨[]⟩, []), ?_, ?_⟩
    · unfold selectRange
      refine traverse_ok _ _ _ fun p hp => ?_
      obtain ⟨⟨m, hm, h1⟩, lo, hi, h2⟩ := hd p hp
      obtain ⟨k, b⟩ := p
      simp only at h1 h2
      subst h1 h2
      simp only [rEntry, Multipole.ofKey, hw.at hm]
    · intro m hm
      obtain ⟨p, hp, hk⟩ := List.mem_map.1 (hall m hm)
      obtain ⟨_, lo, hi, h2⟩ := hd p hp
      obtain ⟨k, b⟩ := p
      simp only at hk h2
      subst hk h2
      refine ⟨fun i => decide (lo ≤ (w.pts m).getD i 0) &&
        upOk (some hi) ((w.pts m).getD i 0), ?_, ?_⟩
      · rw [← rMask_range lo (some hi)]
        apply get?_of_nodup
        · rw [List.map_map]
          refine List.Nodup.map_on ?_ (hn.of_map _)
          intro a ha b hb hab
          obtain ⟨⟨m1, _, h1⟩, lo1, hi1, h1'⟩ := hd a ha
          obtain ⟨⟨m2, _, h2⟩, lo2, hi2, h2'⟩ := hd b hb
          obtain ⟨k1, b1⟩ := a
          obtain ⟨k2, b2⟩ := b
          simp only at h1 h1' h2 h2'
          subst h1 h1' h2 h2'
          simp only [Function.comp] at hab
          subst hab
          exact List.inj_on_of_nodup_map hn ha hb rfl
        · exact List.mem_map.2 ⟨_, hp, rfl⟩
      · intro i _
        simp only [RRange.Holds, Within]
        rw [Bool.and_eq_true, decide_eq_true_iff]
        simp only [upOk, decide_eq_true_iff]
        constructor
        · rintro ⟨a, b⟩ c hc
          have := List.inj_on_of_nodup_map hn hc hp rfl
          cases this
          exact ⟨by rintro _ ⟨⟩; exact a, by rintro _ ⟨⟩; exact b⟩
        · intro h
          have := h _ hp
          simpa using this

theorem selectIdx_spec (hb : Bool) {w : Win K} (hw : w.Ok) {ir : IRange} (hi : ir.Valid) :
    ∃ s, selectIdx hb w ir = .ok s ∧ MaskSpec w s fun m i => ir.Holds (w.pts m).length i := by
  have tup : ∀ a start stop step, mkSlice a = .ok (start, stop, step) → step ≠ some 0 →
      ∃ s, selectIdx hb w (.tuple a) = .ok s ∧
        MaskSpec w s fun m i => InSlice (w.pts m).length i start stop (step.getD 1) := by
    intro a start stop step ha hs
    choose p hp1 hp2 using fun n : ℕ => sliceMask_spec n start stop step hs
    refine ⟨w.multipoles.map fun m => (m, (List.range (w.pts m).length).map (p (w.pts m).length)), ?_, ?_⟩
    · unfold selectIdx
      refine traverse_ok _ _ _ fun m hm => ?_
      rw [hw.at hm]
      simp only [ha, hp1]
    · intro m hm
      exact ⟨_, get?_map_self (fun m => (List.range (w.pts m).length).map (p (w.pts m).length)) hm, hp2 _⟩
  match ir, hi with
  | .none, _ =>
    refine ⟨_, fullLike_spec (fun m hm => hw.at hm) true, fun m hm => ⟨fun _ => true, ?_, ?_⟩⟩
    · exact get?_map_self (fun m => (List.range (w.pts m).length).map fun _ => true) hm
    · intro i _
      simp [IRange.Holds]
  | .tuple [b], _ => exact tup [b] none b none rfl (by simp)
  | .tuple [a, b], _ => exact tup [a, b] a b none rfl (by simp)
  | .tuple [a, b, step], h => exact tup [a, b, step] a b step rfl h

theorem selector_spec (hb : Bool) {w : Win K} (hw : w.Ok)
    (h0 : ∀ m ∈ w.multipoles, ∀ v ∈ w.pts m, 0 ≤ v) {rr : RRange K} (hr : rr.Valid w) {ir : IRange}
    (hi : ir.Valid) :
    ∃ s, selector hb w rr ir = .ok s ∧ ∀ m ∈ w.multipoles, ∃ p : ℕ → Bool,
      get? s m = some ((List.range (w.pts m).length).map p) ∧
      (List.range (w.pts m).length).filter p = kept m (w.pts m) rr ir := by
  obtain ⟨sr, e1, s1⟩ := selectRange_spec hw h0 hr
  obtain ⟨si, e2, s2⟩ := selectIdx_spec hb hw hi
  choose! p1 hp1 hq1 using s1
  choose! p2 hp2 hq2 using s2
  refine ⟨w.multipoles.map fun m => (m, (List.range (w.pts m).length).map fun i => p1 m i && p2 m i), ?_, ?_⟩
  · unfold selector
    simp only [e1, e2]
    refine traverse_ok _ _ _ fun m hm => ?_
    simp only [get, hp1 m hm, hp2 m hm, List.zipWith_map, List.zipWith_self]
  · intro m hm
    refine ⟨fun i => p1 m i && p2 m i,
      get?_map_self (fun m => (List.range (w.pts m).length).map fun i => p1 m i && p2 m i) hm, ?_⟩
    unfold kept
    refine List.filter_congr fun i hi' => ?_
    rw [List.mem_range] at hi'
    rw [Bool.eq_iff_iff, Bool.and_eq_true, hq1 m hm i hi', hq2 m hm i hi']
    simp only [decide_eq_true_iff]

/-- Sub-selecting in place keeps, for every multipole and in order, exactly the sample points in the
range of separations and in the range of indices, the rows and columns of the samples which belong to
them, and their diagonal; the window stays well-formed.  Missing: call forms which raise or select
something else, see `C53_new_object_violated`, `C53_zero_upper_bound_violated`,
`C53_index_dictionary_violated` and `C53_partial_dictionary_violated`. -/
theorem C53_subselect_inplace_partial (hb : Bool) (w : Win K) (hw : w.Ok)
    (h0 : ∀ m ∈ w.multipoles, ∀ x, w.r.at (.mp m) = .ok x → ∀ v ∈ x, 0 ≤ v)
    (rr : RRange K) (hr : rr.Valid w) (ir : IRange) (hi : ir.Valid) :
    ∃ w', subselect hb w rr ir true = (w', .ok none) ∧ Selected w w' rr ir ∧ w'.Ok := by
  have h0' : ∀ m ∈ w.multipoles, ∀ v ∈ w.pts m, 0 ≤ v := fun m hm v hv => h0 m hm _ (hw.at hm) v hv
  obtain ⟨s, e, hs⟩ := selector_spec hb hw h0' hr hi
  choose! p hp hk using hs
  obtain ⟨d, hd, hd1, hd2⟩ := hw.dict
  have hlen : ∀ q ∈ w.Q, q.1 ∈ w.multipoles ∧ q.2.length = (w.pts q.1).length ∧
      ∀ row ∈ q.2, row.length = (w.pts q.1).length := by
    intro q hq
    obtain ⟨h1, h2⟩ := hd2 q hq
    obtain ⟨x, hx⟩ := hd1 _ h1
    have hpx : w.pts q.1 = x := Win.pts_eq (by rw [hd]; simp only [RAttr.at, get, hx])
    have := h2 x hx
    rw [hpx]
    exact ⟨h1, this⟩
  have eR : maskR w s = .ok (w.multipoles.map fun m =>
      (m, (kept m (w.pts m) rr ir).map fun i => (w.pts m).getD i 0)) := by
    unfold maskR
    refine traverse_ok _ _ _ fun m hm => ?_
    rw [hw.at hm]
    simp only [get, hp m hm]
    rw [maskOf_range _ _ rfl 0, hk m hm]
  let newQ : Multipole × List (List K) → List (List K) := fun q =>
    (kept q.1 (w.pts q.1) rr ir).map fun i => (kept q.1 (w.pts q.1) rr ir).map fun j =>
      (q.2.getD i []).getD j 0
  have eQ : maskQ s w.Q = .ok (w.Q.map fun q => (q.1, newQ q)) := by
    unfold maskQ
    refine traverse_ok _ _ _ fun q hq => ?_
    obtain ⟨h1, h2, h3⟩ := hlen q hq
    simp only [get, hp _ h1]
    rw [maskMat_range _ _ h2 h3, hk _ h1]
  have hQ' : ∀ m q, get? w.Q m = some q →
      get? (w.Q.map fun q => (q.1, newQ q)) m = some (newQ (m, q)) := fun m q h => get?_map_val newQ h
  have hR' : ∀ m ∈ w.multipoles, (RAttr.dict (w.multipoles.map fun m =>
      (m, (kept m (w.pts m) rr ir).map fun i => (w.pts m).getD i 0))).at (.mp m) =
        .ok ((kept m (w.pts m) rr ir).map fun i => (w.pts m).getD i 0) := by
    intro m hm
    simp only [RAttr.at, get]
    rw [get?_map_self (fun m => (kept m (w.pts m) rr ir).map fun i => (w.pts m).getD i 0) hm]
  refine ⟨{ w with
      r := .dict (w.multipoles.map fun m =>
        (m, (kept m (w.pts m) rr ir).map fun i => (w.pts m).getD i 0))
      Q := w.Q.map fun q => (q.1, newQ q)
      qDiag := diags (w.Q.map fun q => (q.1, newQ q)) }, ?_, ⟨?_, ?_, ?_⟩, ?_⟩
  rotate_left
  · exact rfl
  · exact rfl
  · intro m hm x q g ⟨hx, hq, hg⟩
    have hpx : w.pts m = x := Win.pts_eq hx
    subst hpx
    refine ⟨hR' m hm, hQ' m q hq, ?_⟩
    unfold diags
    rw [get?_map_val (fun p : Multipole × List (List K) => diagOf p.2) (hQ' m q hq)]
    simp only [newQ]
    rw [diagOf_square fun i j => (q.getD i []).getD j 0]
  · refine ⟨?_, ⟨_, rfl, ?_, ?_⟩, ?_, rfl⟩
    · intro m hm
      obtain ⟨q, hq⟩ := hw.keys m hm
      exact ⟨_, hQ' m q hq⟩
    · intro m hm
      exact ⟨_, get?_map_self (fun m => (kept m (w.pts m) rr ir).map fun i => (w.pts m).getD i 0) hm⟩
    · intro q' hq'
      obtain ⟨q, hq, rfl⟩ := List.mem_map.1 hq'
      obtain ⟨h1, _⟩ := hlen q hq
      refine ⟨h1, fun x hx => ?_⟩
      rw [get?_map_self (fun m => (kept m (w.pts m) rr ir).map fun i => (w.pts m).getD i 0) h1] at hx
      simp only [Option.some.injEq] at hx
      subst hx
      simp [newQ]
    · simpa [List.map_map, Function.comp_def] using hw.nodup
  · unfold subselect
    simp only [e, eR, eQ]
    simp

/-- A window with two multipoles and different sample points. -/
def exWin : Win ℚ :=
  ⟨[⟨[0, 0, 0]⟩, ⟨[2, 0, 2]⟩],
   .dict [(⟨[0, 0, 0]⟩, [10, 20, 30]), (⟨[2, 0, 2]⟩, [15, 25])],
   [(⟨[0, 0, 0]⟩, [[1, 2, 3], [2, 5, 6], [3, 6, 9]]), (⟨[2, 0, 2]⟩, [[7, 8], [4, 6]])],
   [(⟨[0, 0, 0]⟩, [1, 5, 9]), (⟨[2, 0, 2]⟩, [7, 6])], ["array", "array"]⟩

theorem exWin_ok : exWin.Ok := by
  refine ⟨?_, ⟨_, rfl, ?_, ?_⟩, by decide +kernel, by decide +kernel⟩
  · intro m hm
    simp only [exWin, List.mem_cons, List.not_mem_nil, or_false] at hm
    rcases hm with rfl | rfl
    · exact ⟨_, rfl⟩
    · exact ⟨_, rfl⟩
  · intro m hm
    simp only [exWin, List.mem_cons, List.not_mem_nil, or_false] at hm
    rcases hm with rfl | rfl
    · exact ⟨_, rfl⟩
    · exact ⟨_, rfl⟩
  · intro p hp
    simp only [exWin, List.mem_cons, List.not_mem_nil, or_false] at hp
    rcases hp with rfl | rfl
    · refine ⟨by decide, fun x hx => ?_⟩
      obtain rfl : [10, 20, 30] = x := Option.some.inj hx
      decide
    · refine ⟨by decide, fun x hx => ?_⟩
      obtain rfl : [15, 25] = x := Option.some.inj hx
      decide

-- the hypotheses are met, and something is left out and something kept
example : ∃ w', subselect false exWin (.tuple (none, some 25)) (.tuple [some (-2), none]) true = (w', .ok none) ∧
    Selected exWin w' (.tuple (none, some 25)) (.tuple [some (-2), none]) ∧ w'.Ok := by
  refine C53_subselect_inplace_partial _ _ exWin_ok ?_ _ ?_ _ trivial
  · intro m hm x hx
    simp only [exWin, List.mem_cons, List.not_mem_nil, or_false] at hm
    rcases hm with rfl | rfl
    · obtain rfl : [10, 20, 30] = x := Except.ok.inj hx
      decide +kernel
    · obtain rfl : [15, 25] = x := Except.ok.inj hx
      decide +kernel
  · show (some (25 : ℚ)) ≠ some 0
    decide +kernel
example : ((subselect false exWin (.tuple (none, some 25)) (.tuple [some (-2), none]) true).1.r.at
    (.mp ⟨[0, 0, 0]⟩)) = .ok [20] := by rfl

/-- Without `inplace=True` no window is returned unless a tuple of indices is given: the variable
`multipole` is not assigned (`UnboundLocalError`).  The object itself is untouched. -/
theorem C53_new_object_violated (hb : Bool) (w : Win K) (hw : w.Ok)
    (h0 : ∀ m ∈ w.multipoles, ∀ x, w.r.at (.mp m) = .ok x → ∀ v ∈ x, 0 ≤ v)
    (rr : RRange K) (hr : rr.Valid w) :
    subselect hb w rr .none false = (w, .error .nameError) := by
  have h0' : ∀ m ∈ w.multipoles, ∀ v ∈ w.pts m, 0 ≤ v := fun m hm v hv => h0 m hm _ (hw.at hm) v hv
  obtain ⟨s, e, _⟩ := selector_spec hb hw h0' hr (ir := .none) trivial
  unfold subselect
  simp only [e]
  rfl

/-- With a tuple of indices a window is returned, but its attribute `r` is an array holding the sample
points of the last multipole only: looking up the sample points of any multipole raises.  Its sources are those of the
window and its multipoles are sorted. -/
theorem C53_new_object_points_violated (hb : Bool) (w w' : Win K) (rr : RRange K) (ir : IRange)
    (h : (subselect hb w rr ir false).2 = .ok (some w')) (m : Multipole) :
    w'.r.at (.mp m) = .error .indexError ∧ w'.sources = w.sources ∧
      (∀ n, OfKind n (w'.Q.map Prod.fst) → w'.multipoles.Perm (w'.Q.map Prod.fst) ∧
        w'.multipoles.Pairwise fun a b => keyOf a ≤ keyOf b) := by
  unfold subselect at h
  cases hs : selector hb w rr ir with
  | error e => simp [hs] at h
  | ok s =>
    rw [hs] at h
    simp only [Bool.not_false, if_true] at h
    cases hn : subselectNew w ir s with
    | error e => simp [hn] at h
    | ok v =>
      rw [hn] at h
      simp only [Except.ok.injEq, Option.some.injEq] at h
      subst h
      unfold subselectNew at hn
      split at hn
      · simp at hn
      split at hn
      · simp at hn
      split at hn
      · simp at hn
      split at hn
      · simp at hn
      split at hn
      · simp at hn
      rename_i Q _
      unfold loadFromDict at hn
      cases hm : sortM (Q.map Prod.fst) with
      | error e => simp [hm] at hn
      | ok ms =>
        rw [hm] at hn
        simp only [Except.ok.injEq] at hn
        subst hn
        refine ⟨rfl, rfl, fun n hk => ?_⟩
        obtain ⟨s', h1, h2, h3⟩ := sortM_spec _ hk
        have hm' : sortM (Q.map Prod.fst) = .ok s' := h1
        rw [hm] at hm'
        obtain rfl := Except.ok.inj hm'
        exact ⟨h2, h3⟩
example : ((subselect false exWin .none (.tuple [none, some (-1)]) false).2.toOption.bind id).isSome = true := by
  rfl

/-- The object is never changed without `inplace=True`. -/
theorem C53_original_untouched (hb : Bool) (w : Win K) (rr : RRange K) (ir : IRange) :
    (subselect hb w rr ir false).1 = w := by
  unfold subselect
  split
  · rfl
  · simp only [Bool.not_false, if_true]
    split <;> rfl

/-- An upper bound of zero is taken for no bound: everything is kept although nothing is in range. -/
theorem C53_zero_upper_bound_violated :
    ∃ (w w' : Win ℚ) (x : List ℚ), w.Ok ∧ subselect false w (.tuple (none, some 0)) .none true = (w', .ok none) ∧
      w'.r.at (.mp ⟨[0, 0, 0]⟩) = .ok x ∧ x ≠ [] ∧ ∀ v ∈ x, ¬ Within (none, some 0) v := by
  refine ⟨exWin, _, [10, 20, 30], exWin_ok, rfl, rfl, by decide, ?_⟩
  intro v hv h
  have := h.2 0 rfl
  have h2 : ∀ v ∈ [(10 : ℚ), 20, 30], ¬ v ≤ 0 := by decide +kernel
  exact h2 v hv this

/-- A dictionary of index ranges never selects anything: the assignment raises, or (where slices are
hashable) no sample of the multipole is kept. -/
theorem C53_index_dictionary_violated :
    (subselect false exWin .none (.dict [(.mp ⟨[0, 0, 0]⟩, [none, some 2])]) true).2 = .error .typeError ∧
    (subselect true exWin .none (.dict [(.mp ⟨[0, 0, 0]⟩, [none, some 2])]) true).1.r.at
      (.mp ⟨[0, 0, 0]⟩) = .ok [] := by
  constructor <;> rfl

/-- Documented forms of the dictionary of separation ranges which raise: an entry for some multipoles
only, a multipole not given as a `Multipole` object, and an open range. -/
theorem C53_partial_dictionary_violated :
    (subselect false exWin (.dict [(.mp ⟨[0, 0, 0]⟩, some 0, some 25)]) .none true).2 = .error .keyError ∧
    (subselect false exWin (.dict [(.ints [0, 0, 0], some 0, some 25), (.ints [2, 0, 2], some 0, some 25)])
      .none true).2 = .error .keyError ∧
    (subselect false exWin (.dict [(.mp ⟨[0, 0, 0]⟩, none, some 25), (.mp ⟨[2, 0, 2]⟩, none, some 25)])
      .none true).2 = .error .typeError := by
  refine ⟨?_, ?_, ?_⟩ <;> rfl

end Trv.Wc

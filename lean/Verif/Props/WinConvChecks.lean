import Verif.Props.WinConv3
/-
Property theorems for the window convolution of correlation functions (`winconv.py`): C80, C81, C84.
-/
namespace Trv.Wc

open Trv

theorem insertM_perm (x : Multipole) : ∀ (l s : List Multipole), insertM x l = .ok s → s.Perm (x :: l)
  | [], s, h => by
    simp [insertM] at h
    simp [← h]
  | y :: l, s, h => by
    unfold insertM at h
    cases hb : y.lt x with
    | error e => simp [hb] at h
    | ok b =>
      cases b with
      | false =>
        simp [hb] at h
        simp [← h]
      | true =>
        cases hi : insertM x l with
        | error e => simp [hb, hi] at h
        | ok s' =>
          simp [hb, hi] at h
          rw [← h]
          exact ((insertM_perm x l s' hi).cons y).trans (List.Perm.swap x y l)

theorem sortM_perm : ∀ (l s : List Multipole), sortM l = .ok s → s.Perm l
  | [], s, h => by
    simp [sortM] at h
    simp [← h]
  | x :: l, s, h => by
    unfold sortM at h
    cases hs : sortM l with
    | error e => simp [hs] at h
    | ok s' =>
      simp only [hs] at h
      exact (insertM_perm x s' s h).trans ((sortM_perm l s' hs).cons x)

theorem get?_mem {κ α : Type} [DecidableEq κ] {d : List (κ × α)} {k : κ} {a : α} (h : get? d k = some a) :
    (k, a) ∈ d := by
  unfold get? at h
  cases hf : d.find? (fun p => p.1 = k) with
  | none => simp [hf] at h
  | some p =>
    have h1 := List.mem_of_find?_eq_some hf
    have h2 := List.find?_some hf
    simp [hf] at h
    simp at h2
    rw [← h, ← h2]
    exact h1

theorem get?_of_mem_keys {κ α : Type} [DecidableEq κ] {d : List (κ × α)} {k : κ}
    (h : k ∈ d.map Prod.fst) : ∃ a, get? d k = some a := by
  unfold get?
  cases hf : d.find? (fun p => p.1 = k) with
  | none =>
    rw [List.find?_eq_none] at hf
    obtain ⟨p, hp, e⟩ := List.mem_map.1 h
    exact absurd e (by simpa using hf p hp)
  | some p => exact ⟨p.2, rfl⟩

/-- What the constructor of formulae guarantees. -/
theorem ofItems_terms {items : List (Multipole × List Term)} {F : Formulae}
    (h : Formulae.ofItems items = .ok F) (m : Multipole) (t : Term) (ht : t ∈ F.terms m) :
    t.q ∈ F.multipolesQ ∧ (∀ z, t.z = some z → z ∈ F.zTrue) ∧ (t.z = none → F.needsIc = true) := by
  unfold Formulae.ofItems at h
  simp only at h
  cases h1 : sortM ((dictOf items).map Prod.fst) with
  | error e => simp [h1] at h
  | ok ms =>
    cases h2 : sortM (((dictOf items).flatMap Prod.snd).map Term.q).dedup with
    | error e => simp [h1, h2] at h
    | ok qs =>
      cases h3 : sortM (((dictOf items).flatMap Prod.snd).filterMap Term.z).dedup with
      | error e => simp [h1, h2, h3] at h
      | ok zs =>
        simp only [h1, h2, h3, Except.ok.injEq] at h
        have hmem : t ∈ (dictOf items).flatMap Prod.snd := by
          unfold Formulae.terms at ht
          rw [← h] at ht
          cases hg : get? (dictOf items) m with
          | none => simp [hg] at ht
          | some l =>
            simp [hg] at ht
            exact List.mem_flatMap.2 ⟨(m, l), get?_mem hg, ht⟩
        rw [← h]
        refine ⟨?_, ?_, ?_⟩
        · rw [(sortM_perm _ _ h2).mem_iff, List.mem_dedup]
          exact List.mem_map_of_mem hmem
        · intro z hz
          rw [(sortM_perm _ _ h3).mem_iff, List.mem_dedup]
          exact List.mem_filterMap.2 ⟨t, hmem, hz⟩
        · intro hz
          exact List.any_eq_true.2 ⟨t, hmem, by simp [hz]⟩

theorem traverse_total {ε α β : Type} {f : α → Except ε β} : ∀ (l : List α), (∀ a ∈ l, ∃ b, f a = .ok b) →
    ∃ r, traverse f l = .ok r
  | [], _ => ⟨[], rfl⟩
  | a :: l, h => by
    obtain ⟨b, hb⟩ := h a (by simp)
    obtain ⟨r, hr⟩ := traverse_total l (fun c hc => h c (by simp [hc]))
    exact ⟨b :: r, by unfold traverse; rw [hb, hr]⟩

theorem traverse_map_rel {ε α β γ : Type} {f : α → Except ε β} {g : α → Except ε γ} (k : β → γ) :
    ∀ {l : List α} {r : List β}, traverse f l = .ok r →
    (∀ a ∈ l, ∀ b, f a = .ok b → g a = .ok (k b)) → traverse g l = .ok (r.map k)
  | [], r, h, _ => by
    simp [traverse] at h
    simp [h, traverse]
  | a :: l, r, h, hg => by
    unfold traverse at h
    cases hf : f a with
    | error e => simp [hf] at h
    | ok b =>
      cases ht : traverse f l with
      | error e => simp [hf, ht] at h
      | ok bs =>
        simp only [hf, ht, Except.ok.injEq] at h
        unfold traverse
        rw [hg a (by simp) b hf, traverse_map_rel k ht (fun c hc => hg c (by simp [hc])), ← h]
        rfl

section

variable {K : Type} [Field K]

/-! ### C80 -/

/-- What a constructed object guarantees. -/
theorem mkBase_spec {α : Type} {F : Formulae} {sampts : Pts K} {Q : List (Key × α)} {rIn : Pts K}
    {rOut : Option (Pts K)} {B : Base K α} (h : mkBase F sampts Q rIn rOut = .ok B) :
    B.F = F ∧ F.multipolesQ ⊆ B.rQ.map Prod.fst ∧ F.multipolesQ ⊆ B.Q.map Prod.fst ∧
    ∀ m ∈ F.multipoles, ∀ t ∈ F.terms m, (get? B.rOut m).isSome ∧ (get? B.rQ t.q).isSome ∧
      ∀ z, t.z = some z → (get? B.rIn (some z)).isSome := by
  unfold mkBase at h
  cases h1 : initWindow F sampts Q with
  | error e => simp [h1] at h
  | ok p =>
    obtain ⟨rQ, Q'⟩ := p
    cases h2 : setRIn F rIn with
    | error e => simp [h1, h2] at h
    | ok rI =>
      cases h3 : setROut F rI rOut with
      | error e => simp [h1, h2, h3] at h
      | ok rO =>
        simp only [h1, h2, h3] at h
        by_cases hc : (F.multipoles.all fun m => (F.terms m).all fun t => lookups rQ rI rO m t) = true
        · rw [if_pos hc, Except.ok.injEq] at h
          rw [← h]
          refine ⟨rfl, ?_, ?_, ?_⟩
          · unfold initWindow at h1
            split at h1
            · simp at h1
            · simp only at h1
              split at h1
              · simp at h1
              · split at h1
                · simp at h1
                · split at h1
                  · simp at h1
                  · rename_i hs
                    split at h1
                    · simp at h1
                    · simp only [Except.ok.injEq, Prod.mk.injEq] at h1
                      rw [← h1.1]
                      exact not_not.1 hs
          · unfold initWindow at h1
            split at h1
            · simp at h1
            · simp only at h1
              split at h1
              · simp at h1
              · split at h1
                · simp at h1
                · split at h1
                  · simp at h1
                  · split at h1
                    · simp at h1
                    · rename_i hs
                      simp only [Except.ok.injEq, Prod.mk.injEq] at h1
                      rw [← h1.2]
                      exact not_not.1 hs
          · intro m hm t ht
            have := List.all_eq_true.1 (List.all_eq_true.1 hc m hm) t ht
            unfold lookups at this
            simp only [Bool.and_eq_true] at this
            refine ⟨this.1.1, this.1.2, ?_⟩
            intro z hz
            have h4 := this.2
            rw [hz] at h4
            exact h4
        · rw [if_neg hc] at h
          simp at h

/-- **C80.** A two-point window convolution which could be constructed has all sample points the
formula requires, so that convolving samples of matching sizes never fails and returns exactly the
multipoles of the formula.  Missing: that sufficient sample points are always accepted, see
`C80_superset_violated`; that missing ones are reported, see `C80_missing_violated`. -/
theorem C80_constructed_convolves_partial {items : List (Multipole × List Term)} {F : Formulae}
    (hF : Formulae.ofItems items = .ok F) (hn : F.needsIc = false) (ht : ∀ m ∈ F.multipoles, F.terms m ≠ [])
    {sampts : Pts K} {Q : List (Key × List K)} {rIn : Pts K} {rOut : Option (Pts K)} {B : Base K (List K)}
    (h : mkBase F sampts Q rIn rOut = .ok B)
    (hQ : ∀ m x y, get? B.rQ m = some x → get? B.Q m = some y → x.length = y.length)
    (I : Interp K) (xi : List (Key × List K))
    (hxi : ∀ z ∈ F.zTrue, ∀ x, get? B.rIn (some z) = some x → ∃ y, get? xi (.mp z) = some y ∧ x.length = y.length) :
    ∃ o, conv2 I B xi = .ok o ∧ o.map Prod.fst = F.multipoles := by
  obtain ⟨hB, _, h2, h3⟩ := mkBase_spec h
  have hterm : ∀ m ∈ F.multipoles, ∀ t ∈ F.terms m, ∃ f, conv2Term I B xi t = .ok f := by
    intro m hm t htm
    obtain ⟨q1, q2, q3⟩ := ofItems_terms hF m t htm
    obtain ⟨_, s2, s3⟩ := h3 m hm t htm
    obtain ⟨x, hx⟩ := Option.isSome_iff_exists.1 s2
    obtain ⟨y, hy⟩ := get?_of_mem_keys (h2 q1)
    unfold conv2Term
    simp only [get, hx, hy]
    rw [if_neg (not_not.2 (hQ _ x y hx hy))]
    cases hz : t.z with
    | none => exact absurd (q3 hz) (by simp [hn])
    | some z =>
      obtain ⟨x', hx'⟩ := Option.isSome_iff_exists.1 (s3 z hz)
      obtain ⟨y', hy', hl⟩ := hxi z (q2 z hz) x' hx'
      simp only [hx', hy']
      rw [if_neg (not_not.2 hl)]
      exact ⟨_, rfl⟩
  have hm : ∀ m ∈ F.multipoles, ∃ out fs, get B.rOut m = .ok out ∧
      traverse (conv2Term I B xi) (F.terms m) = .ok fs := by
    intro m hm
    obtain ⟨fs, hfs⟩ := traverse_total (F.terms m) (hterm m hm)
    obtain ⟨t, l, e⟩ := List.exists_cons_of_ne_nil (ht m hm)
    obtain ⟨out, ho⟩ := Option.isSome_iff_exists.1 (h3 m hm t (by rw [e]; simp)).1
    exact ⟨out, fs, by simp [get, ho], hfs⟩
  unfold conv2
  rw [hB]
  generalize F.multipoles = ms at hm
  induction ms with
  | nil => exact ⟨[], rfl, rfl⟩
  | cons m ms ih =>
    obtain ⟨o, ho, hk⟩ := ih (fun m' hm' => hm m' (by simp [hm']))
    obtain ⟨out, fs, e1, e2⟩ := hm m (by simp)
    refine ⟨(m, out.map fun p => (fs.map fun f => f p).sum) :: o, ?_, by simp [hk]⟩
    unfold traverse
    rw [e1, e2]
    simp only
    rw [ho]

/-- **C80 (violated).** Input sample points given for every multipole of the built-in formula and one
more are rejected. -/
theorem C80_superset_violated (x : List K) (Q : ℕ → K → K) :
    ∃ F, Formulae.ofItems wilson16 = .ok F ∧
      mkBase F (.all x) (dict2 [0, 2, 4, 6, 8] x Q) (.dict ([0, 2, 4, 6].map fun l : ℕ => (.int l, x))) none =
        .error .valueError := by
  refine ⟨_, ofItems_wilson16, ?_⟩
  rfl

/-- **C80 (violated).** Input sample points which lack a required multipole pass the check made for
that purpose; construction fails later with `KeyError` instead of `ValueError`. -/
theorem C80_missing_violated (x : List K) (Q : ℕ → K → K) :
    ∃ F, Formulae.ofItems wilson16 = .ok F ∧
      (∃ r, setRIn F (.dict ([0, 2].map fun l : ℕ => (.int l, x))) = .ok r) ∧
      mkBase F (.all x) (dict2 [0, 2, 4, 6, 8] x Q) (.dict ([0, 2].map fun l : ℕ => (.int l, x)))
        (some (.all x)) = .error .keyError := by
  refine ⟨_, ofItems_wilson16, ⟨[(some ⟨[0]⟩, x), (some ⟨[2]⟩, x)], rfl⟩, ?_⟩
  rfl

/-- The hypotheses of `C80_constructed_convolves_partial` are met by the built-in formula. -/
example : Formulae.ofItems wilson16 = .ok formulae16 ∧ formulae16.needsIc = false ∧
    (∀ m ∈ formulae16.multipoles, formulae16.terms m ≠ []) ∧
    ∃ B, mkBase formulae16 (.all [1, 2]) (dict2 [0, 2, 4, 6, 8] [1, 2] fun (_ : ℕ) (r : ℚ) => r) (.all [1, 2]) none = .ok B :=
  ⟨ofItems_wilson16, rfl, by decide +kernel, _, rfl⟩

/-! ### C81 -/

/-- **C81 (violated).** Samples keyed by degrees, which construction accepts, are not found by the
convolution: for every window and all samples, `KeyError`. -/
theorem C81_keys_violated (I : Interp K) (x : List K) (Q f : ℕ → K → K) :
    ∃ F B, Formulae.ofItems wilson16 = .ok F ∧
      mkBase F (.all x) (dict2 [0, 2, 4, 6, 8] x Q) (.all x) none = .ok B ∧
      conv2 I B (dict2 [0, 2, 4] x f) = .error .keyError := by
  refine ⟨_, base16 x Q, ofItems_wilson16, rfl, ?_⟩
  have h1 : ∀ (t : Term) z, t.q = ⟨[0]⟩ → t.z = some z →
      get (base16 x Q).rIn (some z) = .ok x → conv2Term I (base16 x Q) (dict2 [0, 2, 4] x f) t =
        .error .keyError := by
    intro t z hq hz hr
    unfold conv2Term
    rw [hq, hz, show get (base16 x Q).rQ ⟨[0]⟩ = .ok x from rfl,
      show get (base16 x Q).Q ⟨[0]⟩ = .ok (x.map (Q 0)) from rfl]
    simp only [List.length_map, ne_eq, not_true_eq_false, if_false]
    rw [hr]
    have : get (dict2 [0, 2, 4] x f) (.mp z) = .error .keyError := by
      simp [get, get?, dict2]
    rw [this]
  unfold conv2
  rw [show (base16 x Q).F.multipoles = ⟨[0]⟩ :: [⟨[2]⟩, ⟨[4]⟩] from rfl, traverse,
    show get (base16 x Q).rOut ⟨[0]⟩ = .ok x from rfl,
    show (base16 x Q).F.terms ⟨[0]⟩ = term2 0 0 1 :: [term2 2 2 (1 / 5), term2 4 4 (1 / 9)] from rfl, traverse,
    h1 (term2 0 0 1) ⟨[0]⟩ rfl rfl rfl]

/-- **C81.** Samples keyed by multipoles are found, whatever the representation at construction.
Missing: other representations of the keys of the samples, see `C81_keys_violated`. -/
theorem C81_multipole_keys_partial [LinearOrder K] {I : Interp K} (hI : I.Ok) {x : List K}
    (hx : x.Pairwise (· < ·)) (Q f : ℕ → K → K) :
    ∃ B o, mkBase formulae16 (.all x) (dict2 [0, 2, 4, 6, 8] x Q) (.all x) none = .ok B ∧
      mkBase formulae16 (.all x) (dictM2 [0, 2, 4, 6, 8] x Q) (.all x) none = .ok B ∧
      conv2 I B (dictM2 [0, 2, 4] x f) = .ok o :=
  ⟨_, _, rfl, rfl, conv2_16 hI hx Q f⟩

end

/-! ### C84 -/

section

variable {K : Type} [Field K] [LinearOrder K]

/-- Diagonals (real parts) of samples. -/
def diagSamples (zeta : List (Key × Mat (K × K))) : List (Key × List K) :=
  zeta.map fun p : Key × Mat (K × K) => (p.1, (List.range p.2.rows).map fun i => (p.2.e i i).1)

/-- Diagonal of a square list of rows. -/
def diagonal (rows : List (List K)) : List K :=
  (List.range rows.length).map fun i => (rows.getD i []).getD i 0

theorem diagonal_map (x : List K) (g : K → K → K) :
    diagonal (x.map fun p => x.map fun q => g p q) = x.map fun p => g p p := by
  unfold diagonal
  apply List.ext_getElem
  · simp
  · intro i h1 h2
    simp only [List.length_map, List.length_range] at h1
    simp [h1]

theorem get?_diag (zeta : List (Key × Mat (K × K))) (k : Key) :
    get? (diagSamples zeta) k = (get? zeta k).map fun M => (List.range M.rows).map fun i => (M.e i i).1 := by
  unfold get? diagSamples
  rw [List.find?_map, Option.map_map, Option.map_map]
  rfl

theorem spl_diag {I : Interp K} (hI : I.Ok) (ext : Bool) {x : List K} (hx : x.Pairwise (· < ·))
    (g : ℕ → ℕ → K) {p : K} (hp : p ∈ x) :
    I.spl ext x ((List.range x.length).map fun i => g i i) p = I.spl2 x g p p := by
  obtain ⟨j, hj, rfl⟩ := mem_getD hp
  rw [spl2_knot hI hx g hj hj]
  unfold Interp.spl
  rw [Finset.sum_eq_single j]
  · rw [hI.knot ext x hx j j hj hj]
    simp [hj]
  · intro i hi hne
    rw [hI.knot ext x hx i j (Finset.mem_range.1 hi) hj, if_neg hne, zero_mul]
  · intro h
    exact absurd (Finset.mem_range.2 hj) h

/-- The output points of every multipole are among the sample points, which increase. -/
def SharedPoints (B : Base K (Mat K)) : Prop :=
  ∀ m ∈ B.F.multipoles, ∀ out, get? B.rOut m = some out → ∀ t ∈ B.F.terms m,
    (∀ x, get? B.rQ t.q = some x → x.Pairwise (· < ·) ∧ out ⊆ x) ∧
    ∀ z, t.z = some z → ∀ x, get? B.rIn (some z) = some x → x.Pairwise (· < ·) ∧ out ⊆ x

/-- **C84.** Convolving the diagonal of the samples gives the diagonal of the convolution of the
samples, for every formula and window, when the output points are among the sample points and the
integral constraint is the same. -/
theorem C84_diagonal {I : Interp K} (hI : I.Ok) (B : Base K (Mat K)) (hB : SharedPoints B)
    (zeta : List (Key × Mat (K × K))) (c : K) (o : List (Multipole × List (List K)))
    (h : conv3 I B zeta (some c) = .ok o) :
    convDiag I B (diagSamples zeta) (some c) = .ok (o.map fun p => (p.1, diagonal p.2)) := by
  have hterm : ∀ (t : Term) f, conv3Term I B zeta (some c) t = .ok f → ∃ g,
      convDiagTerm I B (diagSamples zeta) (some c) t = .ok g ∧ ∀ p,
        (∀ x, get? B.rQ t.q = some x → x.Pairwise (· < ·) ∧ p ∈ x) →
        (∀ z, t.z = some z → ∀ x, get? B.rIn (some z) = some x → x.Pairwise (· < ·) ∧ p ∈ x) →
        g p = f p p := by
    intro t f hf
    unfold conv3Term at hf
    unfold convDiagTerm
    cases hx : get? B.rQ t.q with
    | none => simp [get, hx] at hf
    | some x =>
      cases hM : get? B.Q t.q with
      | none => simp [get, hx, hM] at hf
      | some M =>
        simp only [get, hx, hM] at hf ⊢
        by_cases hl : M.rows ≠ x.length ∨ M.cols ≠ x.length
        · rw [if_pos hl] at hf
          simp at hf
        · rw [if_neg hl] at hf
          have hl2 : ¬ min M.rows M.cols ≠ x.length := by omega
          rw [if_neg hl2]
          cases hz : t.z with
          | none =>
            simp only [hz, Except.ok.injEq] at hf ⊢
            refine ⟨_, rfl, ?_⟩
            intro p h1 _
            obtain ⟨i1, i2⟩ := h1 x rfl
            rw [← hf, spl_diag hI true i1 _ i2]
          | some z =>
            simp only [hz] at hf ⊢
            cases hx' : get? B.rIn (some z) with
            | none => simp [hx'] at hf
            | some x' =>
              cases hZ : get? zeta (.mp z) with
              | none => simp [hx', hZ] at hf
              | some Z =>
                simp only [hx', hZ] at hf
                rw [get?_diag, hZ]
                simp only [Option.map_some, List.length_map, List.length_range]
                by_cases l : Z.rows ≠ x'.length ∨ Z.cols ≠ x'.length
                · rw [if_pos l] at hf
                  simp at hf
                · rw [if_neg l, Except.ok.injEq] at hf
                  have hr : Z.rows = x'.length := by omega
                  rw [if_neg (by omega)]
                  refine ⟨_, rfl, ?_⟩
                  intro p h1 h2
                  obtain ⟨i1, i2⟩ := h1 x rfl
                  obtain ⟨j1, j2⟩ := h2 z rfl x' hx'
                  rw [← hf, spl_diag hI true i1 _ i2, hr,
                    spl_diag hI false j1 (fun i j => (Z.e i j).1) j2]
  have hterms : ∀ (ts : List Term) fs, traverse (conv3Term I B zeta (some c)) ts = .ok fs → ∃ gs,
      traverse (convDiagTerm I B (diagSamples zeta) (some c)) ts = .ok gs ∧ ∀ p, (∀ t ∈ ts,
        (∀ x, get? B.rQ t.q = some x → x.Pairwise (· < ·) ∧ p ∈ x) ∧
        (∀ z, t.z = some z → ∀ x, get? B.rIn (some z) = some x → x.Pairwise (· < ·) ∧ p ∈ x)) →
        (gs.map fun g => g p).sum = (fs.map fun f => f p p).sum := by
    intro ts
    induction ts with
    | nil =>
      intro fs h
      simp [traverse] at h
      refine ⟨[], rfl, ?_⟩
      intro p _
      simp [h]
    | cons t ts ih =>
      intro fs h
      unfold traverse at h
      cases h1 : conv3Term I B zeta (some c) t with
      | error e => simp [h1] at h
      | ok f =>
        cases h2 : traverse (conv3Term I B zeta (some c)) ts with
        | error e => simp [h1, h2] at h
        | ok fs' =>
          simp only [h1, h2, Except.ok.injEq] at h
          obtain ⟨g, g1, g2⟩ := hterm t f h1
          obtain ⟨gs, k1, k2⟩ := ih fs' h2
          refine ⟨g :: gs, by unfold traverse; rw [g1, k1], ?_⟩
          intro p hp
          have e1 := g2 p (hp t (by simp)).1 (hp t (by simp)).2
          have e2 := k2 p (fun t' ht' => hp t' (by simp [ht']))
          rw [← h]
          simp [e1, e2]
  unfold conv3 at h
  rw [if_neg (by simp)] at h
  unfold convDiag
  rw [if_neg (by simp)]
  unfold conv3Sum at h
  unfold SharedPoints at hB
  refine traverse_map_rel _ h ?_
  intro m hm b hb
  cases ho : get? B.rOut m with
  | none => simp [get, ho] at hb
  | some out =>
    cases hf : traverse (conv3Term I B zeta (some c)) (B.F.terms m) with
    | error e => simp [get, ho, hf] at hb
    | ok fs =>
      obtain ⟨gs, k1, k2⟩ := hterms _ fs hf
      simp only [get, ho, hf, Except.ok.injEq] at hb
      rw [k1]
      simp only [get, ho, ← hb, diagonal_map]
      congr 2
      apply List.map_congr_left
      intro p hp
      apply k2
      intro t ht
      obtain ⟨s1, s2⟩ := hB m hm out ho t ht
      exact ⟨fun x hx => ⟨(s1 x hx).1, (s1 x hx).2 hp⟩,
        fun z hz x hx => ⟨(s2 z hz x hx).1, (s2 z hz x hx).2 hp⟩⟩

/-- The hypotheses of `C84_diagonal` are met by the built-in formula with the same points everywhere. -/
example (f : Multipole → ℚ → ℚ → ℚ × ℚ) : SharedPoints (base19 [1, 2] (fun (_ : Multipole) (p q : ℚ) => p + q) true) ∧
    ∃ o, conv3 (stepInterp ℚ) (base19 [1, 2] (fun (_ : Multipole) (p q : ℚ) => p + q) true) (dictZ3 [1, 2] f) (some 3) = .ok o := by
  refine ⟨?_, ?_⟩
  · have hr : ∀ (m : Multipole) y, get? (base19 [1, 2] (fun (_ : Multipole) (p q : ℚ) => p + q) true).rOut m = some y → y = [1, 2] := by
      intro m y h
      have := get?_mem h
      simp [base19] at this
      tauto
    have hq : ∀ (m : Multipole) y, get? (base19 [1, 2] (fun (_ : Multipole) (p q : ℚ) => p + q) true).rQ m = some y → y = [1, 2] := by
      intro m y h
      have := get?_mem h
      simp [base19, poles19] at this
      tauto
    have hi : ∀ m y, get? (base19 [1, 2] (fun (_ : Multipole) (p q : ℚ) => p + q) true).rIn m = some y → y = [1, 2] := by
      intro m y h
      have := get?_mem h
      simp [base19, poles19] at this
      tauto
    intro m _ out ho t _
    refine ⟨fun x hx => ?_, fun z _ x hx => ?_⟩
    · rw [hr m out ho, hq _ x hx]
      exact ⟨by norm_num, List.Subset.refl _⟩
    · rw [hr m out ho, hi _ x hx]
      exact ⟨by norm_num, List.Subset.refl _⟩
  · unfold conv3
    rw [if_neg (by simp)]
    exact ⟨_, conv3Sum_19 (stepInterp_ok ℚ) (by norm_num) _ _ _ _⟩

end

end Trv.Wc

import Verif.Lemmas.WinBuild
import Verif.Lemmas.WinConv
import Verif.Props.Layout
/-
C85: construction and resampling of a three-point window.
-/
namespace Trv.Wc

open Trv ThreePt

/-- A key gives a multipole. -/
def Key.to? (k : Key) : Option Multipole :=
  match Multipole.ofKey k with
  | .ok m => some m
  | .error _ => none

/-- The matrix a flattened table stands for: the upper triangle of a symmetric matrix row by row if the
first two indices of the multipole agree, all rows otherwise. -/
def TableOf (m : Multipole) (n : ℕ) (M : ℕ → ℕ → ℝ) (flat : List ℝ) : Prop :=
  (m.issym = .ok true ∧ (∀ i j, M i j = M j i) ∧ flattenUpper n M = flat) ∨
  (m.issym = .ok false ∧ flattenFull n M = flat)

theorem buildOne_ok {paired : Paired} {alpha : ℝ} {p : Key × List ℝ}
    {b : Multipole × List ℝ × List (List ℝ)} (h : buildOne paired alpha p = .ok b) :
    Key.to? p.1 = some b.1 ∧ ∃ rows n M, paired.at p.1 = .ok (some rows) ∧ TableOf b.1 n M p.2 ∧
      b.2.1 = (rows.take n).map Prod.snd ∧ n ≤ rows.length ∧
      b.2.2 = (List.range n).map fun i => (List.range n).map fun j => alpha ^ 2 * M i j := by
  unfold buildOne at h
  cases hk : Multipole.ofKey p.1 with
  | error e => simp [hk] at h
  | ok m =>
    rw [hk] at h
    simp only at h
    cases hs : m.issym with
    | error e => simp [hs] at h
    | ok s =>
      rw [hs] at h
      simp only at h
      cases hp : paired.at p.1 with
      | error e => simp [hp] at h
      | ok rows =>
        rw [hp] at h
        simp only at h
        cases hr : reshape rows p.2 (if s then "triu" else "full") with
        | error e => simp [hr] at h
        | ok R =>
          rw [hr] at h
          simp only [Except.ok.injEq] at h
          subst h
          refine ⟨by simp [Key.to?, hk], ?_⟩
          obtain ⟨rows', hrows, hlen, hsh⟩ := (C39_reshape_rejects rows p.2 _).1 R hr
          subst hrows
          cases s with
          | true =>
            have h2 : 2 * p.2.length = R.n * (R.n + 1) := by
              rcases hsh with h | h
              · exact h.2
              · exact absurd h.1 (by decide)
            obtain ⟨R', hR', hn, hsym, hfl, _⟩ := C39_reshape_upper R.n rows' p.2 h2 hlen
            simp only [if_true] at hr
            rw [hr] at hR'
            obtain rfl := Except.ok.inj hR'
            refine ⟨rows', R.n, R.mat, rfl, Or.inl ⟨hs, hsym, hfl⟩, ?_, ?_, rfl⟩
            · unfold reshape at hr
              simp only at hr
              split_ifs at hr
              obtain rfl := Except.ok.inj hr
              rfl
            · rw [hlen]
              nlinarith
          | false =>
            have h2 : p.2.length = R.n * R.n := by
              rcases hsh with h | h
              · exact absurd h.1 (by decide)
              · exact h.2
            obtain ⟨R', hR', hn, hfl, _⟩ := C39_reshape_full R.n rows' p.2 h2 hlen
            simp only [Bool.false_eq_true, if_false] at hr
            rw [hr] at hR'
            obtain rfl := Except.ok.inj hR'
            refine ⟨rows', R.n, R.mat, rfl, Or.inr ⟨hs, hfl⟩, ?_, ?_, rfl⟩
            · unfold reshape at hr
              simp only at hr
              split_ifs at hr with h1 h2 h3 h4 h5 h6
              · exact absurd h2 (by decide)
              · obtain rfl := Except.ok.inj hr
                rfl
            · rw [hlen, h2]
              nlinarith

/-- The samples of a window before any resampling: for every multipole given, the separations of the
first row of the table and `alpha²` times the tabulated samples, with the diagonal; the window is
well-formed. -/
theorem C85_window_samples (paired : Paired) (flat : List (Key × List ℝ)) (alpha : ℝ) (w : Win ℝ)
    (hn : (flat.map fun p => Key.to? p.1).Nodup) (h : buildRaw paired flat alpha = .ok w) :
    w.Ok ∧ w.multipoles.length = flat.length ∧
    ∀ p ∈ flat, ∃ m rows n M, Key.to? p.1 = some m ∧ m ∈ w.multipoles ∧
      paired.at p.1 = .ok (some rows) ∧ TableOf m n M p.2 ∧
      w.Has m ((rows.take n).map Prod.snd)
        ((List.range n).map fun i => (List.range n).map fun j => alpha ^ 2 * M i j)
        ((List.range n).map fun i => alpha ^ 2 * M i i) := by
  unfold buildRaw at h
  cases hl : traverse (buildOne paired alpha) flat with
  | error e => simp [hl] at h
  | ok l =>
    rw [hl] at h
    simp only at h
    cases hs : sortM (l.map Prod.fst) with
    | error e => simp [hs] at h
    | ok ms =>
      rw [hs] at h
      simp only [Except.ok.injEq] at h
      have hfst : l.map (fun b => some b.1) = flat.map fun p => Key.to? p.1 :=
        traverse_fst _ _ (fun a b hb => (buildOne_ok hb).1.symm) hl
      have hnd : (l.map Prod.fst).Nodup := by
        rw [← hfst] at hn
        have : l.map (fun b => some b.1) = (l.map Prod.fst).map some := by simp
        rw [this] at hn
        exact hn.of_map _
      have hperm := sortM_perm' _ _ hs
      have hQ : dictOf (l.map fun p => (p.1, p.2.2)) = l.map fun p => (p.1, p.2.2) :=
        dictOf_nodup _ (by simpa [List.map_map, Function.comp_def] using hnd)
      have hR : dictOf (l.map fun p => (p.1, p.2.1)) = l.map fun p => (p.1, p.2.1) :=
        dictOf_nodup _ (by simpa [List.map_map, Function.comp_def] using hnd)
      rw [hQ, hR] at h
      have gQ : ∀ b ∈ l, get? (l.map fun p => (p.1, p.2.2)) b.1 = some b.2.2 := fun b hb =>
        get?_of_nodup (by simpa [List.map_map, Function.comp_def] using hnd)
          (List.mem_map.2 ⟨b, hb, rfl⟩)
      have gR : ∀ b ∈ l, get? (l.map fun p => (p.1, p.2.1)) b.1 = some b.2.1 := fun b hb =>
        get?_of_nodup (by simpa [List.map_map, Function.comp_def] using hnd)
          (List.mem_map.2 ⟨b, hb, rfl⟩)
      have back : ∀ b ∈ l, ∃ p ∈ flat, buildOne paired alpha p = .ok b := by
        have : ∀ (fl : List (Key × List ℝ)) (l : List _), traverse (buildOne paired alpha) fl = .ok l →
            ∀ b ∈ l, ∃ p ∈ fl, buildOne paired alpha p = .ok b := by
          intro fl
          induction fl with
          | nil =>
            intro l hl b hb
            simp [traverse] at hl
            subst hl
            simp at hb
          | cons q fl ih =>
            intro l hl b hb
            unfold traverse at hl
            cases hq : buildOne paired alpha q with
            | error e => simp [hq] at hl
            | ok c =>
              rw [hq] at hl
              simp only at hl
              cases ht : traverse (buildOne paired alpha) fl with
              | error e => simp [ht] at hl
              | ok bs =>
                rw [ht] at hl
                simp only [Except.ok.injEq] at hl
                subst hl
                rcases List.mem_cons.1 hb with rfl | hb
                · exact ⟨q, by simp, hq⟩
                · obtain ⟨p, hp, he⟩ := ih bs ht b hb
                  exact ⟨p, by simp [hp], he⟩
        exact this flat l hl
      subst h
      refine ⟨⟨?_, ⟨_, rfl, ?_, ?_⟩, ?_, rfl⟩, ?_, ?_⟩
      · intro m hm
        obtain ⟨b, hb, rfl⟩ := List.mem_map.1 (hperm.mem_iff.1 hm)
        exact ⟨_, gQ b hb⟩
      · intro m hm
        obtain ⟨b, hb, rfl⟩ := List.mem_map.1 (hperm.mem_iff.1 hm)
        exact ⟨_, gR b hb⟩
      · intro q hq
        obtain ⟨b, hb, rfl⟩ := List.mem_map.1 hq
        refine ⟨hperm.mem_iff.2 (List.mem_map_of_mem hb), fun x hx => ?_⟩
        rw [gR b hb] at hx
        obtain rfl := Option.some.inj hx
        obtain ⟨p, _, he⟩ := back b hb
        obtain ⟨_, rows, n, M, _, _, h1, h2, h3⟩ := buildOne_ok he
        rw [h1, h3]
        simp [h2]
      · simpa [List.map_map, Function.comp_def] using hnd
      · show ms.length = flat.length
        have := congrArg List.length hfst
        rw [hperm.length_eq]
        simpa using this
      · intro p hp
        obtain ⟨b, hb, he⟩ := traverse_mem hl p hp
        obtain ⟨h0, rows, n, M, h1, h2, h3, h4, h5⟩ := buildOne_ok he
        refine ⟨b.1, rows, n, M, h0, hperm.mem_iff.2 (List.mem_map_of_mem hb), h1, h2, ?_, ?_, ?_⟩
        · simp only [RAttr.at, get, gR b hb, h3]
        · rw [← h5]
          exact gQ b hb
        · unfold diags
          rw [get?_map_val (fun p : Multipole × List (List ℝ) => diagOf p.2) (gQ b hb)]
          simp only [h5]
          rw [diagOf_square fun i j => alpha ^ 2 * M i j]

/-- Tables of the right length are accepted: `n (n + 1) / 2` samples if the first two indices agree,
`n²` otherwise, with as many pairs of separations. -/
theorem C85_window_accepted (paired : Paired) (flat : List (Key × List ℝ)) (alpha : ℝ)
    (h : ∀ p ∈ flat, ∃ (a b c : ℤ) (rows : List (ℝ × ℝ)) (n : ℕ), Key.to? p.1 = some ⟨[a, b, c]⟩ ∧
      paired.at p.1 = .ok (some rows) ∧ rows.length = p.2.length ∧
      (if a = b then 2 * p.2.length = n * (n + 1) else p.2.length = n * n)) :
    ∃ w, buildRaw paired flat alpha = .ok w := by
  have h1 : ∀ p ∈ flat, ∃ b, buildOne paired alpha p = .ok b ∧ b.1.index.length = 3 := by
    intro p hp
    obtain ⟨a, b, c, rows, n, h0, h1, h2, h3⟩ := h p hp
    have hk : Multipole.ofKey p.1 = .ok ⟨[a, b, c]⟩ := by
      unfold Key.to? at h0
      cases hk : Multipole.ofKey p.1 with
      | error e => simp [hk] at h0
      | ok m => simp [hk] at h0; rw [h0]
    unfold buildOne
    simp only [hk, Multipole.issym, h1]
    by_cases hab : a = b
    · rw [if_pos hab] at h3
      obtain ⟨R, hR, _⟩ := C39_reshape_upper n rows p.2 h3 h2
      simp only [hab, decide_true, if_true, hR]
      exact ⟨_, rfl, rfl⟩
    · rw [if_neg hab] at h3
      obtain ⟨R, hR, _⟩ := C39_reshape_full n rows p.2 h3 h2
      simp only [hab, decide_false, Bool.false_eq_true, if_false, hR]
      exact ⟨_, rfl, rfl⟩
  obtain ⟨l, hl⟩ : ∃ l, traverse (buildOne paired alpha) flat = .ok l := by
    exact traverse_total' _ fun p hp => ⟨_, (h1 p hp).choose_spec.1⟩
  have hkind : OfKind 3 (l.map Prod.fst) := by
    have hidx : l.map (fun b => some b.1) = flat.map fun p => Key.to? p.1 :=
      traverse_fst _ _ (fun a b hb => (buildOne_ok hb).1.symm) hl
    refine ⟨by omega, fun m hm => ?_⟩
    have : some m ∈ flat.map fun p => Key.to? p.1 := by
      rw [← hidx]
      obtain ⟨b, hb, rfl⟩ := List.mem_map.1 hm
      exact List.mem_map.2 ⟨b, hb, rfl⟩
    obtain ⟨p, hp, he⟩ := List.mem_map.1 this
    obtain ⟨a, b, c, _, _, h0, _⟩ := h p hp
    rw [h0] at he
    obtain rfl := Option.some.inj he
    rfl
  obtain ⟨s, hs, _⟩ := sortM_spec _ hkind
  unfold buildRaw
  simp only [hl, hs]
  exact ⟨_, rfl⟩

/-- The sample points of all multipoles are positive, increase, and are enough for a cubic spline. -/
def Win.Spline (w : Win ℝ) : Prop :=
  ∀ m ∈ w.multipoles, ∀ x, w.r.at (.mp m) = .ok x → 4 ≤ x.length ∧ x.Pairwise (· < ·) ∧ ∀ v ∈ x, 0 < v

/-- Resampling with a number of points. -/
theorem resample_spec (I : Interp ℝ) (w : Win ℝ) (hw : w.Ok) (hs : w.Spline) (size : Option ℤ) (n : ℕ → ℕ)
    (hn : ∀ k, sizeOr size k = .ok (n k)) :
    ∃ w', w.resample I size = .ok w' ∧ w'.Ok ∧ w'.multipoles = w.multipoles ∧ w'.sources = w.sources ∧
      ∀ m ∈ w.multipoles, ∀ x q g, w.Has m x q g → ∃ a b, x.head? = some a ∧ x.getLast? = some b ∧
        w'.Has m (logspace a b (n x.length))
          ((logspace a b (n x.length)).map fun u => (logspace a b (n x.length)).map fun v =>
            I.spl2 x (fun i j => (q.getD i []).getD j 0) u v)
          ((logspace a b (n x.length)).map fun u =>
            I.spl2 x (fun i j => (q.getD i []).getD j 0) u u) := by
  obtain ⟨d, hd, hd1, hd2⟩ := hw.dict
  have hat : ∀ m ∈ w.multipoles, ∃ x, w.r.at (.mp m) = .ok x ∧ get? d m = some x := by
    intro m hm
    obtain ⟨x, hx⟩ := hd1 m hm
    exact ⟨x, by rw [hd]; simp only [RAttr.at, get, hx], hx⟩
  choose! X hX hXd using hat
  have hends : ∀ m ∈ w.multipoles, ∃ a b, (X m).head? = some a ∧ (X m).getLast? = some b := by
    intro m hm
    have h4 := (hs m hm _ (hX m hm)).1
    have hne : X m ≠ [] := by
      intro h
      simp [h] at h4
    exact ⟨_, _, List.head?_eq_some_head hne, List.getLast?_eq_some_getLast hne⟩
  choose! A B hA hB using hends
  let Y : Multipole → List ℝ := fun m => logspace (A m) (B m) (n (X m).length)
  let S : Multipole × List (List ℝ) → ℝ → ℝ → ℝ := fun p u v =>
    I.spl2 (X p.1) (fun i j => (p.2.getD i []).getD j 0) u v
  let newQ : Multipole × List (List ℝ) → List (List ℝ) := fun p => (Y p.1).map fun u => (Y p.1).map fun v => S p u v
  have hstep : traverse (resampleOne I w size) w.Q = .ok (w.Q.map fun p => (p.1, Y p.1, newQ p)) := by
    refine traverse_ok _ _ _ fun p hp => ?_
    obtain ⟨hm, hlen⟩ := hd2 p hp
    obtain ⟨hl, _⟩ := hlen _ (hXd _ hm)
    obtain ⟨h4, hinc, _⟩ := hs _ hm _ (hX _ hm)
    unfold resampleOne
    rw [hX _ hm]
    simp only
    unfold resampleLglin
    rw [if_neg (by omega), hA _ hm, hB _ hm, hn]
    simp only
    rw [if_neg (by
      rintro (h | h)
      · omega
      · exact h (allAdj_of_pairwise hinc))]
  have gQ : ∀ m q, get? w.Q m = some q → get? (w.Q.map fun p => (p.1, newQ p)) m = some (newQ (m, q)) :=
    fun m q h => get?_map_val newQ h
  have gR : ∀ m q, get? w.Q m = some q → get? (w.Q.map fun p => (p.1, Y p.1)) m = some (Y m) :=
    fun m q h => get?_map_val (fun p : Multipole × List (List ℝ) => Y p.1) h
  refine ⟨{ w with
      r := .dict (w.Q.map fun p => (p.1, Y p.1))
      Q := w.Q.map fun p => (p.1, newQ p)
      qDiag := diags (w.Q.map fun p => (p.1, newQ p)) }, ?_, ⟨?_, ⟨_, rfl, ?_, ?_⟩, ?_, rfl⟩, rfl, rfl, ?_⟩
  · unfold Win.resample
    rw [hstep]
    simp [List.map_map, Function.comp_def]
  · intro m hm
    obtain ⟨q, hq⟩ := hw.keys m hm
    exact ⟨_, gQ m q hq⟩
  · intro m hm
    obtain ⟨q, hq⟩ := hw.keys m hm
    exact ⟨_, gR m q hq⟩
  · intro p' hp'
    obtain ⟨p, hp, rfl⟩ := List.mem_map.1 hp'
    obtain ⟨hm, _⟩ := hd2 p hp
    refine ⟨hm, fun x hx => ?_⟩
    obtain ⟨q, hq⟩ := hw.keys _ hm
    rw [gR _ q hq] at hx
    obtain rfl := Option.some.inj hx
    simp [newQ]
  · simpa [List.map_map, Function.comp_def] using hw.nodup
  · intro m hm x q g ⟨h1, h2, _⟩
    have hx : X m = x := by
      have := hX m hm
      rw [h1] at this
      exact (Except.ok.inj this).symm
    subst hx
    refine ⟨A m, B m, hA m hm, hB m hm, ?_, ?_, ?_⟩
    · simp only [RAttr.at, get, gR m q h2]
      rfl
    · exact gQ m q h2
    · unfold diags
      rw [get?_map_val (fun p : Multipole × List (List ℝ) => diagOf p.2) (gQ m q h2)]
      simp only [newQ]
      have key : ∀ (y : List ℝ) (f : ℝ → ℝ → ℝ), diagOf (y.map fun u => y.map fun v => f u v) =
          y.map fun u => f u u := by
        intro y f
        have := diagOf_square (fun i j => f (y.getD i 0) (y.getD j 0)) (List.range y.length)
        have e1 : (List.range y.length).map (fun i => (List.range y.length).map fun j =>
            f (y.getD i 0) (y.getD j 0)) = y.map fun u => y.map fun v => f u v := by
          conv_rhs => rw [← range_getD y 0]
          simp only [List.map_map, Function.comp_def]
        have e2 : (List.range y.length).map (fun i => f (y.getD i 0) (y.getD i 0)) = y.map fun u => f u u := by
          conv_rhs => rw [← range_getD y 0]
          simp only [List.map_map, Function.comp_def]
        rw [← e1, this, e2]
      rw [key]

/-- If the separations are not logarithmically spaced and a number of points is given, then every
multipole is resampled at that many separations from the first to the last, which pass the check of
logarithmic spacing, and samples at separations which are kept are unchanged.  Missing: with
`make_loglin=True`, which is the default, see `C85_default_resampling_violated`. -/
theorem C85_resampled_partial (I : Interp ℝ) (hI : I.Ok) (w : Win ℝ) (hw : w.Ok) (hs : w.Spline)
    (d : List (Multipole × List ℝ)) (hd : w.r = .dict d)
    (hf : firstFail d = .mixedSignError ∨ firstFail d = .spacingError) (n : ℕ) (hn : 2 ≤ n) :
    ∃ w', finish I w (.int n) = .ok w' ∧ w'.Ok ∧ w'.multipoles = w.multipoles ∧
      ∀ m ∈ w.multipoles, ∀ x q g, w.Has m x q g → ∃ y q' g', w'.Has m y q' g' ∧ y.length = n ∧
        y[0]? = x[0]? ∧ y[n - 1]? = x[x.length - 1]? ∧ checkLoglin y = .ok ∧
        ∀ (a b i j : ℕ), a < n → b < n → i < x.length → j < x.length → y.getD a 0 = x.getD i 0 →
          y.getD b 0 = x.getD j 0 → (q'.getD a []).getD b 0 = (q.getD i []).getD j 0 := by
  obtain ⟨w', h1, h2, h3, _, h4⟩ := resample_spec I w hw hs (some (n : ℤ)) (fun _ => n) (by
    intro k
    simp only [sizeOr]
    rw [if_neg (by omega), if_neg (by omega)]
    simp)
  refine ⟨w', ?_, h2, h3, ?_⟩
  · unfold finish
    rw [hd]
    have ht : (MakeLog.int n).truthy = true := by simp [MakeLog.truthy]; omega
    rcases hf with hf | hf <;> simp only [hf, ht, if_true] <;> exact h1
  · intro m hm x q g hh
    obtain ⟨a, b, ha, hb, hy⟩ := h4 m hm x q g hh
    obtain ⟨_, hinc, hpos⟩ := hs m hm x hh.1
    refine ⟨_, _, _, hy, length_logspace _ _ _, ?_, ?_, checkLoglin_logspace hn, ?_⟩
    · rw [logspace_first (hpos a (List.mem_of_head? ha)) hn, ← ha, List.head?_eq_getElem?]
    · rw [logspace_last (hpos b (List.mem_of_getLast? hb)) hn, ← hb, List.getLast?_eq_getElem?]
    · intro a' b' i j ha' hb' hi hj e1 e2
      have hl := length_logspace a b n
      have e1' : (logspace a b n)[a']'(by omega) = x.getD i 0 := by rw [← e1]; simp [hl, ha']
      have e2' : (logspace a b n)[b']'(by omega) = x.getD j 0 := by rw [← e2]; simp [hl, hb']
      have : ((((logspace a b n).map fun u => (logspace a b n).map fun v =>
          I.spl2 x (fun i j => (q.getD i []).getD j 0) u v)).getD a' []).getD b' 0 =
          I.spl2 x (fun i j => (q.getD i []).getD j 0) (x.getD i 0) (x.getD j 0) := by
        rw [← e1', ← e2']
        simp [hl, ha', hb']
      rw [this]
      exact spl2_knot hI hinc _ hi hj

/-- With `make_loglin=True` every multipole of a window whose separations are not logarithmically
spaced is left with the single sample at the smallest separation. -/
theorem C85_default_resampling_violated (I : Interp ℝ) (w : Win ℝ) (hw : w.Ok) (hs : w.Spline)
    (d : List (Multipole × List ℝ)) (hd : w.r = .dict d)
    (hf : firstFail d = .mixedSignError ∨ firstFail d = .spacingError) :
    ∃ w', finish I w (.bool true) = .ok w' ∧
      ∀ m ∈ w.multipoles, ∀ x q g, w.Has m x q g → ∃ a q' g', x.head? = some a ∧ w'.Has m [a] q' g' := by
  obtain ⟨w', h1, h2, h3, _, h4⟩ := resample_spec I w hw hs (some 1) (fun _ => 1) (by
    intro k
    simp [sizeOr])
  refine ⟨w', ?_, ?_⟩
  · unfold finish
    rw [hd]
    have ht : (MakeLog.bool true).truthy = true := rfl
    rcases hf with hf | hf <;> simp only [hf, ht, if_true] <;> exact h1
  · intro m hm x q g hh
    obtain ⟨a, b, ha, hb, hy⟩ := h4 m hm x q g hh
    simp only [logspace_one] at hy
    exact ⟨a, _, _, ha, hy⟩

/-- Nothing is resampled if all separations are logarithmically spaced, or if it is not requested. -/
theorem C85_not_resampled (I : Interp ℝ) (w : Win ℝ) (d : List (Multipole × List ℝ)) (hd : w.r = .dict d)
    (mk : MakeLog) (h : firstFail d = .ok ∨ (firstFail d ≠ .shapeError ∧ mk.truthy = false)) :
    finish I w mk = .ok w := by
  unfold finish
  rw [hd]
  simp only
  cases hf : firstFail d with
  | ok => rfl
  | shapeError => simp [hf] at h
  | mixedSignError =>
    rcases h with h | h
    · simp [hf] at h
    · simp [h.2]
  | spacingError =>
    rcases h with h | h
    · simp [hf] at h
    · simp [h.2]

/-! ### A concrete window -/

/-- Samples at the separations 1, 2, 3, 4. -/
noncomputable def linWin : Win ℝ :=
  ⟨[m000], .dict [(m000, [1, 2, 3, 4])], [(m000, [[1, 0, 0, 0], [0, 1, 0, 0], [0, 0, 1, 0], [0, 0, 0, 1]])],
    diags [(m000, [[1, 0, 0, 0], [0, 1, 0, 0], [0, 0, 1, 0], [0, 0, 0, 1]])], ["array"]⟩

theorem linWin_ok : linWin.Ok := by
  refine ⟨?_, ⟨_, rfl, ?_, ?_⟩, by simp [linWin], rfl⟩
  · intro m hm
    obtain rfl : m = m000 := by simpa [linWin] using hm
    exact ⟨_, by simp [linWin, get?]; rfl⟩
  · intro m hm
    obtain rfl : m = m000 := by simpa [linWin] using hm
    exact ⟨_, by simp [get?]; rfl⟩
  · intro p hp
    simp only [linWin, List.mem_singleton] at hp
    subst hp
    refine ⟨by simp [linWin], fun x hx => ?_⟩
    obtain rfl : [1, 2, 3, 4] = x := by simpa [get?] using hx
    simp

theorem linWin_fail : firstFail [(m000, [1, 2, 3, 4])] = .spacingError := by
  have hc : checkLoglin [1, 2, 3, 4] = .spacingError := by
    unfold checkLoglin
    rw [if_neg (by simp)]
    simp only [Arr.front2, Arr.back2, List.reverse_cons, List.reverse_nil, List.nil_append,
      List.cons_append]
    rw [if_neg (by norm_num)]
    have hd : Fft.logDiffs [1, 2, 3, 4] = some [Real.log 2, Real.log (3 / 2), Real.log (4 / 3)] := by
      simp only [Fft.logDiffs]
      norm_num
    rw [hd]
    simp only
    rw [if_neg]
    intro h
    have h2 := h (Real.log 2) (by simp)
    have hm : Arr.mean [Real.log 2, Real.log (3 / 2), Real.log (4 / 3)] = 2 / 3 * Real.log 2 := by
      unfold Arr.mean
      have e1 : Real.log (3 / 2) + Real.log (4 / 3) = Real.log 2 := by
        rw [← Real.log_mul (by norm_num) (by norm_num)]
        norm_num
      simp only [List.sum_cons, List.sum_nil, List.length_cons, List.length_nil, add_zero]
      rw [e1]
      push_cast
      ring
    rw [hm] at h2
    have hl := Real.log_two_gt_d9
    have hl2 := Real.log_two_lt_d9
    rw [abs_of_nonneg (by linarith), abs_of_nonneg (by linarith)] at h2
    linarith
  unfold firstFail
  rw [if_neg (by rw [hc]; simp), hc]

theorem linWin_spline : linWin.Spline := by
  intro m hm x hx
  obtain rfl : m = m000 := by simpa [linWin] using hm
  obtain rfl : [1, 2, 3, 4] = x := by simpa [linWin, RAttr.at, get, get?] using hx
  refine ⟨by simp, ?_, ?_⟩
  · simp only [List.pairwise_cons, List.mem_cons, List.not_mem_nil, or_false]
    norm_num
  · simp

-- the hypotheses are met
example : ∃ w', finish (stepInterp ℝ) linWin (.int 8) = .ok w' ∧ w'.Ok ∧ w'.multipoles = [m000] := by
  obtain ⟨w', h1, h2, h3, _⟩ := C85_resampled_partial _ (stepInterp_ok ℝ) linWin linWin_ok linWin_spline
    _ rfl (Or.inr linWin_fail) 8 (by omega)
  exact ⟨w', h1, h2, h3⟩
example : ∃ w' q' g', finish (stepInterp ℝ) linWin (.bool true) = .ok w' ∧ w'.Has m000 [1] q' g' := by
  obtain ⟨w', h1, h2⟩ := C85_default_resampling_violated (stepInterp ℝ) linWin linWin_ok linWin_spline
    _ rfl (Or.inr linWin_fail)
  obtain ⟨a, q', g', ha, hh⟩ := h2 m000 (by simp [linWin]) [1, 2, 3, 4] _ _
    ⟨by simp [linWin, RAttr.at, get, get?], by simp [linWin, get?]; rfl, by simp [linWin, diags, get?]; rfl⟩
  obtain rfl : 1 = a := by simpa using ha
  exact ⟨w', q', g', h1, hh⟩
-- a table with one symmetric and one other multipole
example : ∃ w, buildRaw (.dict [(.ints [0, 0, 0], some [(1, 1), (1, 2), (2, 2)]),
      (.str ['2', '0', '2'], some [(1, 1), (1, 2), (2, 1), (2, 2)])])
    [(.ints [0, 0, 0], [5, 6, 7]), (.str ['2', '0', '2'], [1, 2, 3, 4])] 2 = .ok w := by
  refine C85_window_accepted _ _ _ ?_
  intro p hp
  simp only [List.mem_cons, List.not_mem_nil, or_false] at hp
  rcases hp with rfl | rfl
  · exact ⟨0, 0, 0, _, 2, rfl, rfl, rfl, rfl⟩
  · exact ⟨2, 0, 2, _, 2, rfl, rfl, rfl, rfl⟩

/-- **C85.** A window is rejected if the sample points of a multipole are fewer than two, all
before it being logarithmically spaced: whatever the argument `make_loglin`. -/
theorem C85_too_few_points (I : Interp ℝ) (w : Win ℝ) (pre post : List (Multipole × List ℝ))
    (m : Multipole) (x : List ℝ) (hd : w.r = .dict (pre ++ (m, x) :: post))
    (hp : ∀ p ∈ pre, checkLoglin p.2 = .ok) (hx : x.length < 2) (mk : MakeLog) :
    finish I w mk = .error .valueError := by
  have hc : checkLoglin x = .shapeError := by unfold checkLoglin; rw [if_pos hx]
  have hf : firstFail (pre ++ (m, x) :: post) = .shapeError := by
    clear hd
    induction pre with
    | nil => simp only [List.nil_append, firstFail, hc]; rfl
    | cons p pre ih =>
      simp only [List.cons_append, firstFail]
      rw [if_pos (hp p (by simp))]
      exact ih fun p' hp' => hp p' (by simp [hp'])
  unfold finish
  rw [hd]
  simp only [hf]

-- the hypotheses are met
example (I : Interp ℝ) : finish I ⟨[m000], .dict [(m000, [1])], [(m000, [[1]])], [(m000, [1])], ["array"]⟩
    (.bool false) = .error .valueError :=
  C85_too_few_points I _ [] [] m000 [1] rfl (by simp) (by simp) _

/-- **C85.** A window which needs resampling is rejected if a multipole has fewer than four
sample points, the spline being of degree three. -/
theorem C85_resampling_too_few (I : Interp ℝ) (w : Win ℝ) (d : List (Multipole × List ℝ))
    (hd : w.r = .dict d) (hf : firstFail d = .mixedSignError ∨ firstFail d = .spacingError)
    (mk : MakeLog) (hmk : mk.truthy = true) (m : Multipole) (q : List (List ℝ)) (hm : (m, q) ∈ w.Q)
    (x : List ℝ) (hx : w.r.at (.mp m) = .ok x) (h4 : x.length < 4) :
    ¬ ∃ w', finish I w mk = .ok w' := by
  rintro ⟨w', h⟩
  have h' : w.resample I mk.size = .ok w' := by
    unfold finish at h
    rw [hd] at h
    simp only at h
    rcases hf with hf | hf <;> rw [hf] at h <;> simpa [hmk] using h
  unfold Win.resample at h'
  cases ht : traverse (resampleOne I w mk.size) w.Q with
  | error e => rw [ht] at h'; cases h'
  | ok l =>
    obtain ⟨b, _, hb⟩ := traverse_mem ht (m, q) hm
    unfold resampleOne at hb
    simp only [hx] at hb
    have : ∃ e, resampleLglin I x q mk.size = .error e := by
      unfold resampleLglin
      by_cases h1 : q.length = 1
      · rw [if_pos h1]; exact ⟨_, rfl⟩
      · rw [if_neg h1]
        split
        · split
          · exact ⟨_, rfl⟩
          · rw [if_pos (Or.inl h4)]; exact ⟨_, rfl⟩
        · exact ⟨_, rfl⟩
    obtain ⟨e, he⟩ := this
    rw [he] at hb
    cases hb

/-- The hypotheses are met by three points which are not logarithmically spaced. -/
theorem threePoints_fail : firstFail [(m000, [1, 2, 0])] = .mixedSignError := by
  have : checkLoglin [1, 2, 0] = .mixedSignError := by
    unfold checkLoglin
    rw [if_neg (by simp)]
    simp only [Arr.front2, Arr.back2, List.reverse_cons, List.reverse_nil, List.nil_append,
      List.cons_append]
    rw [if_pos (by norm_num)]
  simp only [firstFail, this]; rfl

example (I : Interp ℝ) : ¬ ∃ w', finish I ⟨[m000], .dict [(m000, [1, 2, 0])], [(m000, [])], [], ["array"]⟩
    (.int 5) = .ok w' :=
  C85_resampling_too_few I _ _ rfl (Or.inl threePoints_fail) _ rfl m000 [] (by simp) [1, 2, 0] rfl (by simp)

end Trv.Wc

import Verif.Props.BispecWin
import Verif.Props.BispecIn
import Verif.Props.WinConv3
import Verif.Lemmas.DoubleBack
/-
Property theorems for the window convolution of bispectra (`winconv.py`): C135, trivial windows.
-/
namespace Trv.Wc

open Trv Trv.Fft

/-! ### The built-in formula with different points for the multipoles -/

/-- The multipoles returned. -/
def outs19 : List Multipole := [m000, m110, m112, m202]

/-- The convolution object with input and output points `r` by multipole. -/
noncomputable def baseBis (x : List ℝ) (Q : Multipole → ℝ → ℝ → ℝ) (r : Multipole → List ℝ) : Base ℝ (Mat ℝ) :=
  ⟨formulae19, poles19.map fun m => (m, x),
    poles19.map fun m => (m, ⟨x.length, x.length, fun i j => Q m (x.getD i 0) (x.getD j 0)⟩),
    poles19.map fun m => (some m, r m), outs19.map fun m => (m, r m)⟩

theorem poles_cases {P : Multipole → Prop} (h0 : P m000) (h1 : P m110) (h2 : P m022) (h3 : P m112) (h4 : P m202) :
    ∀ m ∈ poles19, P m := by
  intro m hm
  simp only [poles19, List.mem_cons, List.not_mem_nil, or_false] at hm
  rcases hm with rfl | rfl | rfl | rfl | rfl <;> assumption

theorem outs_poles : ∀ m ∈ outs19, m ∈ poles19 := by decide

/-- A look-up in a dictionary made from a list of keys. -/
theorem get_map {κ α : Type} [DecidableEq κ] (g : Multipole → κ) (hg : Function.Injective g) (f : Multipole → α) :
    ∀ {l : List Multipole} {m : Multipole}, m ∈ l → get (l.map fun m => (g m, f m)) (g m) = .ok (f m)
  | [], m, h => by cases h
  | a :: l, m, h => by
    by_cases ha : a = m
    · subst ha
      simp [get, get?]
    · have hm : m ∈ l := by
        rcases List.mem_cons.1 h with rfl | h
        · exact absurd rfl ha
        · exact h
      have := get_map g hg f hm
      unfold get get? at this ⊢
      rw [List.map_cons, List.find?_cons, show decide ((g a, f a).1 = g m) = false from
        decide_eq_false fun h => ha (hg h)]
      exact this

/-- A trivial window leaves the real parts of the samples as they are, except for the constant subtracted from
the monopole. -/
theorem conv3_trivial {I : Interp ℝ} (hI : I.Ok) {x : List ℝ} (hx : x.Pairwise (· < ·)) (hx0 : x ≠ [])
    (Q : Multipole → ℝ → ℝ → ℝ) (h0 : ∀ p q, Q m000 p q = 1) (hl : ∀ m, m ≠ m000 → ∀ p q, Q m p q = 0)
    (r : Multipole → List ℝ) (Z : Multipole → Mat (ℝ × ℝ))
    (hr : ∀ m ∈ poles19, (r m).Pairwise (· < ·)) (hZ : ∀ m ∈ poles19, (Z m).rows = (r m).length ∧ (Z m).cols = (r m).length)
    (c : ℝ) :
    conv3 I (baseBis x Q r) (poles19.map fun m => (.mp m, Z m)) (some c) = .ok (outs19.map fun m =>
      (m, table (r m).length fun i j => ((Z m).e i j).1 - if m = m000 then c else 0)) := by
  have q0 : ∀ p q, I.spl2 x (fun i j => Q m000 (x.getD i 0) (x.getD j 0)) p q = 1 := by
    intro p q
    simp only [h0]
    exact spl2_const hI hx hx0 1 p q
  have ql : ∀ m, m ≠ m000 → ∀ p q, I.spl2 x (fun i j => Q m (x.getD i 0) (x.getD j 0)) p q = 0 := by
    intro m hm p q
    simp only [hl m hm]
    exact spl2_zero I x p q
  have term : ∀ t : Term, t.q ∈ poles19 → (∀ z, t.z = some z → z ∈ poles19) →
      conv3Term I (baseBis x Q r) (poles19.map fun m => (.mp m, Z m)) (some c) t = .ok fun p q =>
        if t.q = m000 then (t.coeff : ℝ) * match t.z with
          | none => c
          | some z => I.spl2 (r z) (fun i j => ((Z z).e i j).1) p q
        else 0 := by
    intro t hq hz
    obtain ⟨tq, tz, tc⟩ := t
    simp only at hq hz ⊢
    have g1 : get (baseBis x Q r).rQ tq = .ok x := get_map id Function.injective_id _ hq
    have g2 : get (baseBis x Q r).Q tq = .ok ⟨x.length, x.length, fun i j => Q tq (x.getD i 0) (x.getD j 0)⟩ :=
      get_map id Function.injective_id _ hq
    unfold conv3Term
    rw [g1, g2]
    simp only [ne_eq, not_true_eq_false, or_self, if_false]
    cases tz with
    | none =>
      simp only [Except.ok.injEq]
      funext p q
      split_ifs with hm
      · subst hm; rw [q0]; ring
      · rw [ql _ hm]; ring
    | some z =>
      have hz := hz z rfl
      have g3 : get (baseBis x Q r).rIn (some z) = .ok (r z) := get_map some (Option.some_injective _) _ hz
      have g4 : get (poles19.map fun m => ((.mp m : Key), Z m)) (.mp z) = .ok (Z z) := get_map Key.mp mp_injective _ hz
      simp only
      rw [g3, g4]
      simp only
      rw [if_neg (by rw [(hZ z hz).1, (hZ z hz).2]; simp)]
      simp only [Except.ok.injEq]
      funext p q
      split_ifs with hm
      · subst hm; rw [q0]; ring
      · rw [ql _ hm]; ring
  unfold conv3
  rw [if_neg (by simp)]
  unfold conv3Sum
  rw [← List.map_id (baseBis x Q r).F.multipoles, show (baseBis x Q r).F.multipoles = outs19 from rfl]
  apply traverse_map_ok
  intro m hm
  have g1 : get (baseBis x Q r).rOut (id m) = .ok (r m) := get_map id Function.injective_id _ hm
  have h3 : ∀ t ∈ formulae19.terms m, t.q ∈ poles19 ∧ ∀ z, t.z = some z → z ∈ poles19 := by
    have : ∀ m ∈ formulae19.multipoles, ∀ t ∈ formulae19.terms m,
        t.q ∈ poles19 ∧ ∀ z ∈ t.z, z ∈ poles19 := by decide +kernel
    intro t ht
    exact ⟨(this m hm t ht).1, fun z hz => (this m hm t ht).2 z hz⟩
  have h4 := traverse_map_ok (conv3Term I (baseBis x Q r) (poles19.map fun m => (.mp m, Z m)) (some c)) id _
    (formulae19.terms m) (fun t ht => term t (h3 t ht).1 (h3 t ht).2)
  rw [List.map_id] at h4
  rw [g1, id, show (baseBis x Q r).F = formulae19 from rfl, h4]
  simp only
  congr 2
  have hsum : ∀ p q, ((formulae19.terms m).map fun t : Term => if t.q = m000 then (t.coeff : ℝ) * (match t.z with
          | none => c
          | some z => I.spl2 (r z) (fun i j => ((Z z).e i j).1) p q) else 0).sum =
      I.spl2 (r m) (fun i j => ((Z m).e i j).1) p q - if m = m000 then c else 0 := by
    intro p q
    have t0 : formulae19.terms m000 = [⟨m000, some m000, 1⟩, ⟨m000, none, -1⟩, ⟨m110, some m110, 1 / 3⟩] := rfl
    have t1 : formulae19.terms m110 = [⟨m000, some m110, 1⟩, ⟨m110, some m000, 1⟩, ⟨m110, none, -1⟩] := rfl
    have t2 : formulae19.terms m202 = [⟨m000, some m202, 1⟩, ⟨m202, some m000, 1⟩, ⟨m202, none, -1⟩,
      ⟨m110, some m112, 1 / 3⟩, ⟨m112, some m110, 1 / 3⟩] := rfl
    have t3 : formulae19.terms m112 = [⟨m000, some m112, 1⟩, ⟨m112, some m000, 1⟩, ⟨m112, none, -1⟩,
      ⟨m022, some m110, 2 / 5⟩, ⟨m202, some m110, 2 / 5⟩, ⟨m110, some m022, 2 / 5⟩,
      ⟨m110, some m202, 2 / 5⟩] := rfl
    have n1 : m110 ≠ m000 := by decide
    have n2 : m022 ≠ m000 := by decide
    have n3 : m112 ≠ m000 := by decide
    have n4 : m202 ≠ m000 := by decide
    simp only [outs19, List.mem_cons, List.not_mem_nil, or_false] at hm
    rcases hm with rfl | rfl | rfl | rfl
    · rw [t0]
      simp [n1]
      ring
    · rw [t1]
      simp [n1]
    · rw [t3]
      simp [n1, n2, n3, n4]
    · rw [t2]
      simp [n1, n3, n4]
  rw [table_eq]
  unfold tabulate
  have hself : ∀ (g : ℝ → List ℝ) (l : List ℝ), l.map g = (List.range l.length).map fun i => g (l.getD i 0) := by
    intro g l
    conv_lhs => rw [← tabulate_real l]
    unfold tabulate
    rw [List.map_map]
    rfl
  have hself' : ∀ (g : ℝ → ℝ) (l : List ℝ), l.map g = (List.range l.length).map fun i => g (l.getD i 0) := by
    intro g l
    conv_lhs => rw [← tabulate_real l]
    unfold tabulate
    rw [List.map_map]
    rfl
  rw [hself]
  apply List.map_congr_left
  intro i hi
  rw [hself']
  apply List.map_congr_left
  intro j hj
  have := hsum ((r m).getD i 0) ((r m).getD j 0)
  rw [spl2_knot hI (hr m (outs_poles m hm)) _ (List.mem_range.1 hi) (List.mem_range.1 hj)] at this
  rw [List.map_map]
  exact this

/-! ### The object -/

/-- The degrees of a multipole. -/
def deg0 (m : Multipole) : ℕ := (m.index.getD 0 0).toNat

def deg1 (m : Multipole) : ℕ := (m.index.getD 1 0).toNat

theorem newAll2_plain {G : LnGamma} {kr : ℝ} {lowring : Bool} {pts : Multipole → Except PyErr (List ℝ)} {ms : List Multipole}
    {L : List (Multipole × Fft.Dsbt)} (h : newAll2 (plainDsbt G kr lowring) pts ms = .ok L) :
    ∃ H0 H1 : Multipole → Hankel, (∀ m ∈ ms, ∃ x, pts m = .ok x ∧
      initialise G ((deg0 m : ℝ) + 1 / 2) 0 x kr lowring .none 2 = .ok (H0 m) ∧
      initialise G ((deg1 m : ℝ) + 1 / 2) 0 x kr lowring .none 2 = .ok (H1 m)) ∧
      L = ms.map fun m => (m, plainD (deg0 m) (deg1 m) (H0 m) (H1 m)) := by
  have key : ∀ m : Multipole, ∃ A B : Hankel, m ∈ ms → ∃ x, pts m = .ok x ∧
      initialise G ((deg0 m : ℝ) + 1 / 2) 0 x kr lowring .none 2 = .ok A ∧
      initialise G ((deg1 m : ℝ) + 1 / 2) 0 x kr lowring .none 2 = .ok B ∧
      ∃ a b, degrees01 m = .ok (a, b) ∧ plainDsbt G kr lowring a b x = .ok (plainD (deg0 m) (deg1 m) A B) := by
    intro m
    by_cases hm : m ∈ ms
    · obtain ⟨a, b, x, D, q1, q2, q3, q4⟩ := newAll2_get h m hm
      obtain ⟨A, B, hA, hB, hD⟩ := init_none q3
      have e : deg0 m = a.toNat ∧ deg1 m = b.toNat := by
        unfold degrees01 at q1
        unfold deg0 deg1
        split at q1
        · cases q1
          rename_i hi
          rw [hi]
          exact ⟨rfl, rfl⟩
        · cases q1
      refine ⟨A, B, fun _ => ⟨x, q2, ?_, ?_, a, b, q1, ?_⟩⟩
      · rw [e.1]; exact hA
      · rw [e.2]; exact hB
      · rw [q3, hD, e.1, e.2]; rfl
    · have : Nonempty Hankel := by
        exact ⟨(init_geometric trueLg (half_cast 0) (q := 0) (r0 := 1) (d := 1) one_pos one_pos (N := 2) (by norm_num) (kr := 1)
          one_pos true 2).choose⟩
      exact ⟨this.some, this.some, fun h => absurd h hm⟩
  choose H0 H1 hH using key
  refine ⟨H0, H1, fun m hm => ?_, ?_⟩
  · obtain ⟨x, a1, a2, a3, -⟩ := hH m hm
    exact ⟨x, a1, a2, a3⟩
  · have hL : newAll2 (plainDsbt G kr lowring) pts ms =
        .ok (ms.map fun m => (m, plainD (deg0 m) (deg1 m) (H0 m) (H1 m))) := by
      conv_lhs => rw [← List.map_id ms]
      unfold newAll2
      apply traverse_map_ok
      intro m hm
      obtain ⟨x, a1, a2, a3, a, b, a4, a5⟩ := hH m hm
      simp only [id, a1, a4, a5]
    rw [hL] at h
    exact (Except.ok.inj h).symm

theorem mkBase_bis (x : List ℝ) (Q : Multipole → ℝ → ℝ → ℝ) (r : Multipole → List ℝ) :
    mkBase formulae19 (.dict (asKeys (poles19.map fun m => (m, x))))
        (asKeys (poles19.map fun m => (m, (⟨x.length, x.length, fun i j => Q m (x.getD i 0) (x.getD j 0)⟩ : Mat ℝ))))
        (.dict (asKeys (poles19.map fun m => (m, r m)))) none = .ok (baseBis x Q r) := by
  rfl

theorem mkBis_trivial {G : LnGamma} {kr : ℝ} {lowring : Bool} {x k : List ℝ} {Q : Multipole → ℝ → ℝ → ℝ} {S : BisConv}
    (hk : checkLoglin k = .ok)
    (h : mkBis (plainDsbt G kr lowring) formulae19 (.all x) (dictQ3 x Q) (.all k) (some k) none = .ok S) :
    ∃ H0 H1 H0' H1' : Multipole → Hankel,
      (∀ m ∈ poles19, initialise G ((deg0 m : ℝ) + 1 / 2) 0 k kr lowring .none 2 = .ok (H0 m) ∧
        initialise G ((deg1 m : ℝ) + 1 / 2) 0 k kr lowring .none 2 = .ok (H1 m)) ∧
      (∀ m ∈ outs19, initialise G ((deg0 m : ℝ) + 1 / 2) 0 (H0 m).post kr lowring .none 2 = .ok (H0' m) ∧
        initialise G ((deg1 m : ℝ) + 1 / 2) 0 (H0 m).post kr lowring .none 2 = .ok (H1' m)) ∧
      S = ⟨baseBis x Q fun m => (H0 m).post, (formulae19.multipolesZ.map fun z => (z, k), none),
        poles19.map fun m => (m, plainD (deg0 m) (deg1 m) (H0 m) (H1 m)),
        outs19.map fun m => (m, plainD (deg0 m) (deg1 m) (H0' m) (H1' m)), k⟩ := by
  unfold mkBis at h
  rw [show initWindow formulae19 (.all x) (dictQ3 x Q) = .ok (poles19.map fun m => (m, x),
      poles19.map fun m => (m, ⟨x.length, x.length, fun i j => Q m (x.getD i 0) (x.getD j 0)⟩)) from rfl,
    (C133_kept formulae19 (.all k) (formulae19.multipolesZ.map fun z => (z, k)) rfl).2 (by
      intro p hp
      obtain ⟨z, _, rfl⟩ := List.mem_map.1 hp
      exact hk)] at h
  simp only at h
  cases hb : newAll2 (plainDsbt G kr lowring) (fun z => get (formulae19.multipolesZ.map fun z => (z, k)) (some z)) formulae19.zTrue with
  | error e => rw [hb] at h; cases h
  | ok L =>
    rw [hb] at h
    obtain ⟨H0, H1, hH, rfl⟩ := newAll2_plain hb
    simp only at h
    rw [if_neg (by simp)] at h
    have hP : (formulae19.zTrue.map fun m => (m, plainD (deg0 m) (deg1 m) (H0 m) (H1 m))).map
          (fun p : Multipole × Fft.Dsbt => (p.1, p.2.points)) = poles19.map fun m => (m, (H0 m).post) := by
      rw [List.map_map]
      apply List.map_congr_left
      intro m _
      simp only [Function.comp_apply, plainD, none_points]
    rw [show Option.map Pts.all (none : Option (List ℝ)) = none from rfl] at h
    rw [hP, mkBase_bis x Q fun m => (H0 m).post] at h
    simp only at h
    cases hf : newAll2 (plainDsbt G kr lowring) (fun m => get (baseBis x Q fun m => (H0 m).post).rOut m) formulae19.multipoles with
    | error e => rw [hf] at h; cases h
    | ok L' =>
      rw [hf] at h
      obtain ⟨H0', H1', hH', rfl⟩ := newAll2_plain hf
      cases h
      refine ⟨H0, H1, H0', H1', ?_, ?_, rfl⟩
      · intro m hm
        obtain ⟨x', e1, e2, e3⟩ := hH m hm
        have : get (formulae19.multipolesZ.map fun z => (z, k)) (some m) = .ok k :=
          poles_cases (P := fun m => get (formulae19.multipolesZ.map fun z => (z, k)) (some m) = .ok k) rfl rfl rfl rfl rfl m hm
        rw [this] at e1
        cases e1
        exact ⟨e2, e3⟩
      · intro m hm
        obtain ⟨x', e1, e2, e3⟩ := hH' m hm
        have : get (baseBis x Q fun m => (H0 m).post).rOut m = .ok (H0 m).post := get_map id Function.injective_id _ hm
        rw [this] at e1
        cases e1
        exact ⟨e2, e3⟩

theorem toMat_table {β : Type} (g : ℂ → β) {n : ℕ} (hn : 0 < n) (f : ℕ → ℕ → ℂ) :
    (toMat g (table n f)).rows = n ∧ (toMat g (table n f)).cols = n ∧
      ∀ i < n, ∀ j < n, (toMat g (table n f)).e i j = g (f i j) := by
  obtain ⟨k, rfl⟩ : ∃ k, n = k + 1 := ⟨n - 1, by omega⟩
  refine ⟨by simp [toMat, table], ?_, ?_⟩
  · simp [toMat, table, List.range_succ_eq_map]
  · intro i hi j hj
    simp [toMat, table, List.getD_eq_getElem?_getD, hi, hj]

theorem map_range (g : ℝ → List ℂ) (l : List ℝ) : l.map g = (List.range l.length).map fun i => g (l.getD i 0) := by
  conv_lhs => rw [← tabulate_real l]
  unfold tabulate
  rw [List.map_map]
  rfl

theorem map_range' (g : ℝ → ℂ) (l : List ℝ) : l.map g = (List.range l.length).map fun i => g (l.getD i 0) := by
  conv_lhs => rw [← tabulate_real l]
  unfold tabulate
  rw [List.map_map]
  rfl

/-- Interpolation at the points of the transform gives the samples. -/
theorem splOut_same {I : Interp ℝ} (hI : I.Ok) {k : List ℝ} (hk : k.Pairwise (· < ·)) (hk0 : 0 < k.length) {D : Fft.Dsbt}
    (hD : D.points = k) (f : ℕ → ℕ → ℝ) :
    splOut I k D (table k.length fun i j => (f i j : ℂ)) = .ok (table k.length fun i j => (f i j : ℂ)) := by
  obtain ⟨r1, r2, r3⟩ := toMat_table Complex.re hk0 fun i j => (f i j : ℂ)
  obtain ⟨j1, j2, j3⟩ := toMat_table Complex.im hk0 fun i j => (f i j : ℂ)
  unfold splOut
  simp only
  rw [if_neg (by rw [r1, r2, hD]; simp), hD]
  congr 1
  rw [map_range]
  unfold table
  apply List.map_congr_left
  intro i hi
  rw [map_range']
  apply List.map_congr_left
  intro j hj
  have hi := List.mem_range.1 hi
  have hj := List.mem_range.1 hj
  apply Complex.ext
  · simp only
    rw [spl2_knot hI hk _ hi hj]
    exact r3 i hi j hj
  · simp only
    rw [spl2_knot hI hk _ hi hj]
    exact j3 i hi j hj

/-- The arrays of the five multipoles. -/
def pinB (i : Multipole → ℕ) : List (Key × ℕ) := poles19.map fun m => (.mp m, i m)

theorem get_pinB (i : Multipole → ℕ) {m : Multipole} (hm : m ∈ poles19) : get (pinB i) (.mp m) = .ok (i m) :=
  get_map Key.mp mp_injective _ hm

theorem apart_pinB {i : Multipole → ℕ} (hd : ∀ m ∈ poles19, ∀ m' ∈ poles19, i m = i m' → m = m') :
    Apart2 .mp (pinB i) formulae19.zTrue := by
  have hn : poles19.Nodup := by decide
  refine List.Pairwise.imp_of_mem ?_ hn
  intro a b ha hb hab j hj hj'
  rw [get_pinB i ha] at hj
  rw [get_pinB i hb] at hj'
  cases hj
  exact hab (hd a ha b hb (Except.ok.inj hj').symm)

/-- The convolution of real samples with a trivial window, given its transforms. -/
theorem bis_trivial {G : LnGamma} (hG : LgOk G) {I : Interp ℝ} (hI : I.Ok) {kr : ℝ} {lowring : Bool}
    {x k : List ℝ} (hx : x.Pairwise (· < ·)) (hx0 : x ≠ []) (hk : k.Pairwise (· < ·)) (hpos : ∀ r ∈ k, 0 < r)
    (hN : 3 ≤ k.length) (hring : (lowring = false ∧ k.length % 2 = 1) ∨ (lowring = true ∧ 0 < kr))
    {Q : Multipole → ℝ → ℝ → ℝ} (h0 : ∀ p q, Q m000 p q = 1) (hl : ∀ m, m ≠ m000 → ∀ p q, Q m p q = 0)
    {H0 H1 H0' H1' : Multipole → Hankel} {kIn : List (Option Multipole × List ℝ)}
    (hH : ∀ m ∈ poles19, initialise G ((deg0 m : ℝ) + 1 / 2) 0 k kr lowring .none 2 = .ok (H0 m) ∧
      initialise G ((deg1 m : ℝ) + 1 / 2) 0 k kr lowring .none 2 = .ok (H1 m))
    (hH' : ∀ m ∈ outs19, initialise G ((deg0 m : ℝ) + 1 / 2) 0 (H0 m).post kr lowring .none 2 = .ok (H0' m) ∧
      initialise G ((deg1 m : ℝ) + 1 / 2) 0 (H0 m).post kr lowring .none 2 = .ok (H1' m))
    (h : MHeap) (i : Multipole → ℕ) (hd : ∀ m ∈ poles19, ∀ m' ∈ poles19, i m = i m' → m = m') (f : Multipole → ℕ → ℕ → ℝ)
    (hi : ∀ m ∈ poles19, h.arr (i m) = table k.length fun a b => (f m a b : ℂ)) :
    ((⟨baseBis x Q fun m => (H0 m).post, (kIn, none),
        poles19.map fun m => (m, plainD (deg0 m) (deg1 m) (H0 m) (H1 m)),
        outs19.map fun m => (m, plainD (deg0 m) (deg1 m) (H0' m) (H1' m)), k⟩ : BisConv).convolve I h (pinB i) (some 0)).2.map Prod.fst =
      .ok (outs19.map fun m => (m, table k.length fun a b => ((((H0 m).pivot / (H1 m).pivot) ^ 3 * f m a b : ℝ) : ℂ))) := by
  have hk0 : 0 < k.length := by omega
  have heven : ∀ m ∈ poles19, Even (deg0 m + deg1 m) := by decide
  have key : ∀ m : Multipole, ∃ b : ℕ → ℕ → ℂ, (m ∈ poles19 →
      ((plainD (deg0 m) (deg1 m) (H0 m) (H1 m)).cosmo false (table k.length fun a b => (f m a b : ℂ))).2 =
        .ok (((H0 m).post, (H0 m).post), table k.length b)) ∧
      (m ∈ outs19 → ((plainD (deg0 m) (deg1 m) (H0' m) (H1' m)).cosmo true (table k.length fun a c => ((b a c).re : ℂ))).2 =
        .ok ((k, k), table k.length fun a b => ((((H0 m).pivot / (H1 m).pivot) ^ 3 * f m a b : ℝ) : ℂ))) := by
    intro m
    by_cases hm : m ∈ outs19
    · have hp := outs_poles m hm
      obtain ⟨b, b1, b2⟩ := double_back_forth hG (heven m hp) (hH m hp).1 (hH m hp).2 (hH' m hm).1 (hH' m hm).2 hring hpos hN (f m)
      exact ⟨fun i j => (b i j : ℂ), fun _ => b1, fun _ => b2⟩
    · by_cases hp : m ∈ poles19
      · obtain ⟨b, b1⟩ := double_back (hH m hp).1 (hH m hp).2 hN fun a c => (f m a c : ℂ)
        exact ⟨b, fun _ => b1, fun h => absurd h hm⟩
      · exact ⟨fun _ _ => 0, fun h => absurd h hp, fun h => absurd h hm⟩
  choose b hb hf using key
  rw [C135_values I _ h (pinB i) (some 0) (Or.inr ⟨by
    change poles19.Nodup
    decide, fun _ => apart_pinB hd⟩) (Or.inr (by
    change outs19.Nodup
    decide))]
  have hB : traverse (runSpec (poles19.map fun m => (m, plainD (deg0 m) (deg1 m) (H0 m) (H1 m))) false Key.mp (fun _ s => .ok s)
      (contents2 h (pinB i))) (poles19.map id) = .ok (poles19.map fun m => (m, table k.length (b m))) := by
    apply traverse_map_ok
    intro m hm
    unfold runSpec
    rw [id, show get (poles19.map fun m => (m, plainD (deg0 m) (deg1 m) (H0 m) (H1 m))) m = .ok _ from
      get_map id Function.injective_id _ hm, get_contents2, get_pinB i hm]
    simp only
    rw [hi m hm, hb m hm]
  have hC : conv3 I (baseBis x Q fun m => (H0 m).post) ((poles19.map fun m => (m, table k.length (b m))).map
      fun p : Multipole × List (List ℂ) => ((.mp p.1 : Key), toMat (fun z : ℂ => (z.re, z.im)) p.2)) (some 0) =
      .ok (outs19.map fun m => (m, table k.length fun a c => (b m a c).re)) := by
    rw [List.map_map]
    have hlen : ∀ m ∈ poles19, (H0 m).post.length = k.length := fun m hm => (C48_reciprocal (hH m hm).1).1
    have := conv3_trivial hI hx hx0 Q h0 hl (fun m => (H0 m).post)
      (fun m => toMat (fun z : ℂ => (z.re, z.im)) (table k.length (b m)))
      (fun m hm => post_increasing (hH m hm).1 hk hpos)
      (fun m hm => by
        have t := toMat_table (fun z : ℂ => (z.re, z.im)) hk0 (b m)
        exact ⟨t.1.trans (hlen m hm).symm, t.2.1.trans (hlen m hm).symm⟩) 0
    refine Eq.trans this ?_
    congr 1
    apply List.map_congr_left
    intro m hm
    simp only [Prod.mk.injEq, true_and]
    rw [hlen m (outs_poles m hm)]
    apply table_congr
    intro a ha c hc
    rw [(toMat_table (fun z : ℂ => (z.re, z.im)) hk0 (b m)).2.2 a ha c hc]
    simp
  have hF : traverse (runSpec (outs19.map fun m => (m, plainD (deg0 m) (deg1 m) (H0' m) (H1' m))) true id (splOut I k)
      (cplx (outs19.map fun m => (m, table k.length fun a c => (b m a c).re)))) (outs19.map id) =
      .ok (outs19.map fun m => (m, table k.length fun a b => ((((H0 m).pivot / (H1 m).pivot) ^ 3 * f m a b : ℝ) : ℂ))) := by
    apply traverse_map_ok
    intro m hm
    have hp := outs_poles m hm
    unfold runSpec cplx
    rw [List.map_map, id, show get (outs19.map fun m => (m, plainD (deg0 m) (deg1 m) (H0' m) (H1' m))) m = .ok _ from
      get_map id Function.injective_id _ hm]
    rw [show get (outs19.map ((fun p : Multipole × List (List ℝ) => (p.1, p.2.map fun r => r.map fun u : ℝ => (u : ℂ))) ∘
        fun m => (m, table k.length fun a c => (b m a c).re))) (id m) = .ok _ from get_map id Function.injective_id _ hm]
    simp only
    rw [show (table k.length fun a c => (b m a c).re).map (fun r => r.map fun u : ℝ => (u : ℂ)) =
      table k.length fun a c => ((b m a c).re : ℂ) by
        unfold table
        simp only [List.map_map, Function.comp_def], hf m hm]
    simp only
    have hpts : (plainD (deg0 m) (deg1 m) (H0' m) (H1' m)).points = k := by
      unfold plainD
      rw [none_points]
      exact forth_points hG (hH m hp).1 (hH' m hm).1 hring hN
    rw [splOut_same hI hk hk0 hpts fun a c => ((H0 m).pivot / (H1 m).pivot) ^ 3 * f m a c]
  unfold bisSpec
  simp only [samplesSpec]
  rw [show (baseBis x Q fun m => (H0 m).post).F.zTrue = poles19.map id from rfl, hB]
  simp only
  rw [hC]
  simp only
  rw [show (baseBis x Q fun m => (H0 m).post).F.multipoles = outs19.map id from rfl, hF]
  rfl

/-! ### C135 -/

/-- **C135 (part).** Convolution with a trivial window (monopole one, other multipoles zero) and no integral
constraint gives back the bispectra at the input wavenumbers, for multipoles of equal degrees, and for all
multipoles if the pivot is not adjusted: transforming backwards and forwards without extrapolation loses
nothing then. -/
theorem C135_trivial_window_partial {G : LnGamma} (hG : LgOk G) {I : Interp ℝ} (hI : I.Ok) {kr : ℝ} {lowring : Bool}
    {x k : List ℝ} (hx : x.Pairwise (· < ·)) (hx0 : x ≠ []) (hk : k.Pairwise (· < ·)) (hpos : ∀ r ∈ k, 0 < r)
    (hN : 3 ≤ k.length) (hlin : checkLoglin k = .ok)
    (hring : (lowring = false ∧ k.length % 2 = 1) ∨ (lowring = true ∧ 0 < kr))
    {Q : Multipole → ℝ → ℝ → ℝ} (h0 : ∀ p q, Q m000 p q = 1) (hl : ∀ m, m ≠ m000 → ∀ p q, Q m p q = 0) {S : BisConv}
    (hS : mkBis (plainDsbt G kr lowring) formulae19 (.all x) (dictQ3 x Q) (.all k) (some k) none = .ok S)
    (h : MHeap) (i : Multipole → ℕ) (hd : ∀ m ∈ poles19, ∀ m' ∈ poles19, i m = i m' → m = m') (f : Multipole → ℕ → ℕ → ℝ)
    (hi : ∀ m ∈ poles19, h.arr (i m) = table k.length fun a b => (f m a b : ℂ)) :
    ∃ R ids, (S.convolve I h (pinB i) (some 0)).2 = .ok (R, ids) ∧ R.map Prod.fst = [m000, m110, m112, m202] ∧
      ∀ m ∈ [m000, m110, m112, m202], m ≠ m202 ∨ lowring = false →
        get R m = .ok (table k.length fun a b => (f m a b : ℂ)) := by
  obtain ⟨H0, H1, H0', H1', hH, hH', rfl⟩ := mkBis_trivial hlin hS
  have hT := bis_trivial (kIn := formulae19.multipolesZ.map fun z => (z, k)) hG hI hx hx0 hk hpos hN hring h0 hl hH hH' h i hd f hi
  cases hc : ((⟨baseBis x Q fun m => (H0 m).post, (formulae19.multipolesZ.map fun z => (z, k), none),
        poles19.map fun m => (m, plainD (deg0 m) (deg1 m) (H0 m) (H1 m)),
        outs19.map fun m => (m, plainD (deg0 m) (deg1 m) (H0' m) (H1' m)), k⟩ : BisConv).convolve I h (pinB i) (some 0)).2 with
  | error e => rw [hc] at hT; cases hT
  | ok r =>
    rw [hc] at hT
    obtain ⟨R, ids⟩ := r
    have hR := Except.ok.inj hT
    simp only at hR
    subst hR
    refine ⟨_, ids, rfl, rfl, ?_⟩
    intro m hm hc
    rw [show get (outs19.map fun m => (m, table k.length fun a b => ((((H0 m).pivot / (H1 m).pivot) ^ 3 * f m a b : ℝ) : ℂ))) m =
      .ok _ from get_map id Function.injective_id _ hm]
    have hp := outs_poles m hm
    have hr : (H0 m).pivot / (H1 m).pivot = 1 := by
      have e : (H0 m).pivot = (H1 m).pivot := by
        rcases hc with hc | hc
        · have hdeg : ∀ m ∈ outs19, m ≠ m202 → deg0 m = deg1 m := by decide
          have h1 := (hH m hp).1
          rw [hdeg m hm hc, (hH m hp).2] at h1
          rw [Except.ok.inj h1]
        · rw [(init_ready (hH m hp).1).hpivot, (init_ready (hH m hp).2).hpivot, if_neg (by simp [hc]), if_neg (by simp [hc])]
      rw [e]
      exact div_self (init_ready (hH m hp).2).ppos.ne'
    rw [hr]
    simp

/-- **C135 (violated).** With the pivot adjusted to reduce ringing (the default option `lowring`), convolution with
a trivial window multiplies the bispectrum of degrees (2, 0, 2) by a constant which is not one: the
points of both dimensions are taken from the transform of the first degree, and the pivots of
the two degrees differ. -/
theorem C135_lowring_violated {G : LnGamma} (hG : LgOk G) {I : Interp ℝ} (hI : I.Ok) {kr : ℝ}
    {x k : List ℝ} (hx : x.Pairwise (· < ·)) (hx0 : x ≠ []) (hk : k.Pairwise (· < ·)) (hpos : ∀ r ∈ k, 0 < r)
    (hN : 3 ≤ k.length) (hlin : checkLoglin k = .ok) (hkr : 0 < kr)
    {Q : Multipole → ℝ → ℝ → ℝ} (h0 : ∀ p q, Q m000 p q = 1) (hl : ∀ m, m ≠ m000 → ∀ p q, Q m p q = 0) {S : BisConv}
    (hS : mkBis (plainDsbt G kr true) formulae19 (.all x) (dictQ3 x Q) (.all k) (some k) none = .ok S) :
    ∃ c : ℝ, 0 < c ∧ c ≠ 1 ∧ ∀ (h : MHeap) (i : Multipole → ℕ), (∀ m ∈ poles19, ∀ m' ∈ poles19, i m = i m' → m = m') →
      ∀ f : Multipole → ℕ → ℕ → ℝ, (∀ m ∈ poles19, h.arr (i m) = table k.length fun a b => (f m a b : ℂ)) →
      ∃ R ids, (S.convolve I h (pinB i) (some 0)).2 = .ok (R, ids) ∧
        get R m202 = .ok (table k.length fun a b => ((c * f m202 a b : ℝ) : ℂ)) := by
  obtain ⟨H0, H1, H0', H1', hH, hH', rfl⟩ := mkBis_trivial hlin hS
  have hp : m202 ∈ poles19 := by decide
  have ho : m202 ∈ outs19 := by decide
  have R0 := init_ready (hH m202 hp).1
  have R1 := init_ready (hH m202 hp).2
  have hpr : 0 < (H0 m202).pivot / (H1 m202).pivot := div_pos R0.ppos R1.ppos
  have hne : (H0 m202).pivot / (H1 m202).pivot ≠ 1 := by
    intro he
    have he := (div_eq_one_iff_eq R1.ppos.ne').1 he
    rw [R0.hpivot, R1.hpivot, if_pos rfl, if_pos rfl] at he
    have hd := pivot_differs hG (mu := 1 / 2) (dL := (H1 m202).logres) (kr := kr) (by norm_num) R1.lpos hkr
    apply hd
    have hlog : (H0 m202).logres = (H1 m202).logres := by rw [R0.hlog, R1.hlog]
    rw [hlog] at he
    rw [show ((deg0 m202 : ℕ) : ℝ) + 1 / 2 = 1 / 2 + 2 by
      rw [show deg0 m202 = 2 from rfl]; norm_num, show ((deg1 m202 : ℕ) : ℝ) + 1 / 2 = 1 / 2 by
      rw [show deg1 m202 = 0 from rfl]; norm_num] at he
    exact he
  refine ⟨((H0 m202).pivot / (H1 m202).pivot) ^ 3, by positivity, ?_, ?_⟩
  · intro hc
    exact hne ((pow_eq_one_iff_of_nonneg hpr.le (by norm_num)).1 hc)
  intro h i hd f hi
  have hT := bis_trivial (kIn := formulae19.multipolesZ.map fun z => (z, k)) hG hI hx hx0 hk hpos hN (Or.inr ⟨rfl, hkr⟩) h0 hl hH hH'
    h i hd f hi
  cases hc : ((⟨baseBis x Q fun m => (H0 m).post, (formulae19.multipolesZ.map fun z => (z, k), none),
        poles19.map fun m => (m, plainD (deg0 m) (deg1 m) (H0 m) (H1 m)),
        outs19.map fun m => (m, plainD (deg0 m) (deg1 m) (H0' m) (H1' m)), k⟩ : BisConv).convolve I h (pinB i) (some 0)).2 with
  | error e => rw [hc] at hT; cases hT
  | ok r =>
    rw [hc] at hT
    obtain ⟨R, ids⟩ := r
    have hR := Except.ok.inj hT
    simp only at hR
    subst hR
    exact ⟨_, ids, rfl, get_map id Function.injective_id _ ho⟩

/-- For any window, transforms without extrapolation can be made at logarithmically spaced wavenumbers. -/
theorem C135_constructs_partial (G : LnGamma) {r0 d kr : ℝ} {N : ℕ} (hr : 0 < r0) (hd : 0 < d) (hN : 2 ≤ N) (hk : 0 < kr)
    (lowring : Bool) (x : List ℝ) (Q : Multipole → ℝ → ℝ → ℝ) :
    ∃ S, mkBis (plainDsbt G kr lowring) formulae19 (.all x) (dictQ3 x Q) (.all (geometric r0 d N))
      (some (geometric r0 d N)) none = .ok S := by
  choose H hH using fun l : ℕ => init_geometric G (half_cast l) hr hd hN hk lowring 2
  have key : ∀ (l : ℕ) (m : ℕ), ∃ H', initialise G ((l : ℝ) + 1 / 2) 0 (H m).post kr lowring .none 2 = .ok H' := by
    intro l m
    obtain ⟨r1, h1, h2⟩ := post_geometric hr hN (hH m)
    rw [h2]
    exact init_geometric G (half_cast l) h1 hd hN hk lowring 2
  choose H' hH' using key
  have mk : ∀ (pts : Multipole → Except PyErr (List ℝ)) (ms : List Multipole) (A B : Multipole → Hankel) (p : Multipole → List ℝ),
      (∀ m ∈ ms, m ∈ poles19) → (∀ m ∈ ms, pts m = .ok (p m)) →
      (∀ m ∈ ms, initialise G ((deg0 m : ℝ) + 1 / 2) 0 (p m) kr lowring .none 2 = .ok (A m)) →
      (∀ m ∈ ms, initialise G ((deg1 m : ℝ) + 1 / 2) 0 (p m) kr lowring .none 2 = .ok (B m)) →
      newAll2 (plainDsbt G kr lowring) pts ms = .ok (ms.map fun m => (m, plainD (deg0 m) (deg1 m) (A m) (B m))) := by
    intro pts ms A B p h1 h2 h3 h4
    conv_lhs => rw [← List.map_id ms]
    unfold newAll2
    apply traverse_map_ok
    intro m hm
    have hdeg : degrees01 m = .ok ((deg0 m : ℤ), (deg1 m : ℤ)) :=
      poles_cases (P := fun m => degrees01 m = .ok ((deg0 m : ℤ), (deg1 m : ℤ))) rfl rfl rfl rfl rfl m (h1 m hm)
    simp only [id, hdeg, h2 m hm, plainDsbt, Int.toNat_natCast]
    unfold Dsbt.init Dsbt.pair Line.init
    simp only [h3 m hm, h4 m hm]
    rfl
  refine ⟨⟨baseBis x Q fun m => (H (deg0 m)).post, (formulae19.multipolesZ.map fun z => (z, geometric r0 d N), none),
        poles19.map fun m => (m, plainD (deg0 m) (deg1 m) (H (deg0 m)) (H (deg1 m))),
        outs19.map fun m => (m, plainD (deg0 m) (deg1 m) (H' (deg0 m) (deg0 m)) (H' (deg1 m) (deg0 m))), geometric r0 d N⟩, ?_⟩
  unfold mkBis
  rw [show initWindow formulae19 (.all x) (dictQ3 x Q) = .ok (poles19.map fun m => (m, x),
      poles19.map fun m => (m, ⟨x.length, x.length, fun i j => Q m (x.getD i 0) (x.getD j 0)⟩)) from rfl,
    (C133_kept formulae19 (.all (geometric r0 d N)) (formulae19.multipolesZ.map fun z => (z, geometric r0 d N)) rfl).2 (by
      intro p hp
      obtain ⟨z, _, rfl⟩ := List.mem_map.1 hp
      exact checkLoglin_geometric hr d hN)]
  simp only
  rw [show formulae19.zTrue = poles19 from rfl, show formulae19.multipoles = outs19 from rfl,
    mk _ poles19 (fun m => H (deg0 m)) (fun m => H (deg1 m)) (fun _ => geometric r0 d N) (fun _ h => h)
      (fun m hm => poles_cases (P := fun m => get (formulae19.multipolesZ.map fun z => (z, geometric r0 d N)) (some m) =
        .ok (geometric r0 d N)) rfl rfl rfl rfl rfl m hm) (fun m _ => hH (deg0 m)) (fun m _ => hH (deg1 m))]
  simp only
  rw [if_neg (by simp)]
  have hP : (poles19.map fun m => (m, plainD (deg0 m) (deg1 m) (H (deg0 m)) (H (deg1 m)))).map
        (fun p : Multipole × Fft.Dsbt => (p.1, p.2.points)) = poles19.map fun m => (m, (H (deg0 m)).post) := by
    rw [List.map_map]
    apply List.map_congr_left
    intro m _
    simp only [Function.comp_apply, plainD, none_points]
  rw [hP, show Option.map Pts.all (none : Option (List ℝ)) = none from rfl, mkBase_bis x Q fun m => (H (deg0 m)).post]
  simp only
  rw [mk (fun m => get (baseBis x Q fun m => (H (deg0 m)).post).rOut m) outs19 (fun m => H' (deg0 m) (deg0 m)) (fun m => H' (deg1 m) (deg0 m)) (fun m => (H (deg0 m)).post) outs_poles
    (fun m hm => get_map (α := List ℝ) id Function.injective_id (fun m => (H (deg0 m)).post) hm) (fun m _ => hH' (deg0 m) (deg0 m)) (fun m _ => hH' (deg1 m) (deg0 m))]

/-! ### Non-vacuity -/

theorem geometric_increasing {r0 d : ℝ} (hr : 0 < r0) (hd : 0 < d) (N : ℕ) : (geometric r0 d N).Pairwise (· < ·) := by
  unfold geometric
  rw [List.pairwise_map]
  refine List.Pairwise.imp ?_ (List.pairwise_lt_range (n := N))
  intro a b hab
  have : (a : ℝ) < b := by exact_mod_cast hab
  exact mul_lt_mul_of_pos_left (Real.exp_lt_exp.2 (mul_lt_mul_of_pos_right this hd)) hr

theorem geometric_pos {r0 d : ℝ} (hr : 0 < r0) (N : ℕ) : ∀ r ∈ geometric r0 d N, 0 < r := by
  unfold geometric
  intro r h
  obtain ⟨i, _, rfl⟩ := List.mem_map.1 h
  exact mul_pos hr (Real.exp_pos _)

/-- The case of three separations and five wavenumbers: the bispectrum (2, 0, 2) comes back multiplied. -/
example : ∃ S, mkBis (plainDsbt trueLg 1 true) formulae19 (.all [1, 2, 3])
      (dictQ3 [1, 2, 3] fun m _ _ => if m = m000 then 1 else 0) (.all (geometric 1 1 5)) (some (geometric 1 1 5)) none = .ok S ∧
    ∃ c : ℝ, c ≠ 1 ∧ ∃ R ids, (S.convolve (stepInterp ℝ) ⟨fun _ => table 5 fun a b => (((a + b : ℕ) : ℝ) : ℂ), 5⟩
        (pinB fun m => poles19.idxOf m) (some 0)).2 = .ok (R, ids) ∧
      get R m202 = .ok (table 5 fun a b => ((c * ((a + b : ℕ) : ℝ) : ℝ) : ℂ)) ∧
      get R m112 = .ok (table 5 fun a b => (((a + b : ℕ) : ℝ) : ℂ)) := by
  obtain ⟨S, hS⟩ := C135_constructs_partial trueLg (r0 := 1) (d := 1) (N := 5) (kr := 1) one_pos one_pos (by norm_num) one_pos
    true [1, 2, 3] fun m _ _ => if m = m000 then 1 else 0
  have hx : ([1, 2, 3] : List ℝ).Pairwise (· < ·) := by norm_num
  have hd : ∀ m ∈ poles19, ∀ m' ∈ poles19, poles19.idxOf m = poles19.idxOf m' → m = m' := by decide
  have hlen : (geometric 1 1 5).length = 5 := by simp [geometric_length]
  have h0 : ∀ p q : ℝ, (fun (m : Multipole) (_ _ : ℝ) => if m = m000 then (1 : ℝ) else 0) m000 p q = 1 := fun _ _ => if_pos rfl
  have hl : ∀ m, m ≠ m000 → ∀ p q : ℝ, (fun (m : Multipole) (_ _ : ℝ) => if m = m000 then (1 : ℝ) else 0) m p q = 0 :=
    fun m hm _ _ => if_neg hm
  obtain ⟨c, -, c1, hc⟩ := C135_lowring_violated trueLg_ok (stepInterp_ok ℝ) hx (by simp) (geometric_increasing one_pos one_pos 5)
    (geometric_pos one_pos 5) (by simp [geometric_length]) (checkLoglin_geometric one_pos 1 (by norm_num)) one_pos h0 hl hS
  refine ⟨S, hS, c, c1, ?_⟩
  obtain ⟨R, ids, e1, e2⟩ := hc ⟨fun _ => table 5 fun a b => (((a + b : ℕ) : ℝ) : ℂ), 5⟩ (fun m => poles19.idxOf m) hd
    (fun _ a b => ((a + b : ℕ) : ℝ)) (fun m _ => by rw [hlen])
  obtain ⟨R', ids', e1', -, e2'⟩ := C135_trivial_window_partial trueLg_ok (stepInterp_ok ℝ) hx (by simp)
    (geometric_increasing one_pos one_pos 5)
    (geometric_pos one_pos 5) (by simp [geometric_length]) (checkLoglin_geometric one_pos 1 (by norm_num)) (Or.inr ⟨rfl, one_pos⟩)
    h0 hl hS ⟨fun _ => table 5 fun a b => (((a + b : ℕ) : ℝ) : ℂ), 5⟩ (fun m => poles19.idxOf m) hd
    (fun _ a b => ((a + b : ℕ) : ℝ)) (fun m _ => by rw [hlen])
  rw [hlen] at e2 e2'
  rw [e1] at e1'
  cases e1'
  exact ⟨R, ids, e1, e2, e2' m112 (by decide) (Or.inl (by decide))⟩

/-- The same call changes the arrays passed to it. -/
example : ∃ S, mkBis (plainDsbt trueLg 1 false) formulae19 (.all [1, 2, 3])
      (dictQ3 [1, 2, 3] fun m _ _ => if m = m000 then 1 else 0) (.all (geometric 1 1 5)) (some (geometric 1 1 5)) none = .ok S ∧
    (S.convolve (stepInterp ℝ) ⟨fun _ => table 5 fun _ _ => ((1 : ℝ) : ℂ), 5⟩
        (pinB fun m => poles19.idxOf m) (some 0)).1.arr 2 =
      table 5 fun _ b => ((1 : ℝ) : ℂ) * ((((geometric 1 1 5).getD b 0) ^ (3 / 2 : ℝ) : ℝ) : ℂ) := by
  obtain ⟨S, hS⟩ := C135_constructs_partial trueLg (r0 := 1) (d := 1) (N := 5) (kr := 1) one_pos one_pos (by norm_num) one_pos
    false [1, 2, 3] fun m _ _ => if m = m000 then 1 else 0
  have hx : ([1, 2, 3] : List ℝ).Pairwise (· < ·) := by norm_num
  have hd : ∀ m ∈ poles19, ∀ m' ∈ poles19, poles19.idxOf m = poles19.idxOf m' → m = m' := by decide
  have hlen : (geometric 1 1 5).length = 5 := by simp [geometric_length]
  obtain ⟨R, ids, e1, -⟩ := C135_trivial_window_partial trueLg_ok (stepInterp_ok ℝ) hx (by simp)
    (geometric_increasing one_pos one_pos 5)
    (geometric_pos one_pos 5) (by simp [geometric_length]) (checkLoglin_geometric one_pos 1 (by norm_num))
    (Or.inl ⟨rfl, by simp [geometric_length]⟩)
    (fun _ _ => if_pos rfl) (fun m hm _ _ => if_neg hm) hS ⟨fun _ => table 5 fun _ _ => ((1 : ℝ) : ℂ), 5⟩
    (fun m => poles19.idxOf m) hd (fun _ _ _ => 1) (fun m _ => by rw [hlen])
  refine ⟨S, hS, ?_⟩
  have hkin : S.kIn = (formulae19.multipolesZ.map fun z => (z, geometric 1 1 5), none) := by
    obtain ⟨H0, H1, H0', H1', -, -, rfl⟩ := mkBis_trivial (checkLoglin_geometric one_pos 1 (by norm_num)) hS
    rfl
  obtain ⟨i, x, g1, g2, g3⟩ := C135_mutated_violated (stepInterp ℝ) hS ⟨fun _ => table 5 fun _ _ => ((1 : ℝ) : ℂ), 5⟩
    (pinB fun m => poles19.idxOf m) (some 0) (by decide) (by rw [hkin]) (apart_pinB hd) e1 m022 (by decide)
  rw [hkin] at g2
  cases g1
  cases g2
  rw [hlen] at g3
  exact g3 (fun _ _ => ((1 : ℝ) : ℂ)) (by norm_num) rfl

/-- Transforms of copies keep the arrays. -/
example (S : BisConv) (h : MHeap) (Bin : List (Key × ℕ)) (ic : Option ℝ) (i : ℕ) (hi : i < h.next) :
    ((⟨S.base, S.kIn, S.bdsjt.map fun p : Multipole × Fft.Dsbt => (p.1, ⟨p.2.deg0, p.2.deg1, p.2.t0, p.2.t1, 0, some fun l => .ok l⟩),
      S.fdsjt, S.kout⟩ : BisConv).convolve (stepInterp ℝ) h Bin ic).1.arr i = h.arr i := by
  refine (C135_unchanged_partial _ _ h Bin ic (Or.inl ?_)).1 i hi
  intro p hp
  obtain ⟨q, _, rfl⟩ := List.mem_map.1 hp
  intro m
  rfl

end Trv.Wc

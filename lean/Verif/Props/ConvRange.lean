import Verif.Lemmas.ConvRange
import Verif.Props.WinConv
/-
**C142.** Warnings about the range of convolution, and output points chosen to be covered.
-/
namespace Trv.Wc

open Trv

variable {α : Type}

/-- **C142.** For two arrays which are not empty the check passes exactly if every point of the first lies
between two points of the second, up to a relative `1e-5`. -/
theorem C142_check {rc rs : List ℝ} (hc : rc ≠ []) (hs : rs ≠ []) :
    ∃ b, checkConvRange (.arr rc) (.arr rs) = .ok b ∧ (b = true ↔ Covers rc rs) :=
  checkCoverage_ok hc hs

/-- The parts of a successful initialisation. -/
theorem initSampts_ok {root : Bool} {F : Formulae} {sampts : Pts ℝ} {Q : List (Key × α)} {rIn : Pts ℝ}
    {rOut : Option (Pts ℝ)} {enforce : Bool} {B : Base ℝ α} {ws : List Warn}
    (h : initSampts root F sampts Q rIn rOut enforce = .ok (B, ws)) :
    B.F = F ∧ initWindow F sampts Q = .ok (B.rQ, B.Q) ∧ setRIn F rIn = .ok B.rIn ∧
      chooseROut F B.rQ B.rIn rOut enforce = .ok B.rOut ∧
      ∃ wss, traverse (fun m => traverse (termWarns B.rQ B.rIn B.rOut m) (F.terms m)) F.multipoles = .ok wss ∧
        ws = if root then wss.flatten.flatten else [] := by
  unfold initSampts at h
  cases h1 : initWindow F sampts Q with
  | error e => rw [h1] at h; cases h
  | ok p =>
    obtain ⟨rQ, Q'⟩ := p
    rw [h1] at h
    simp only at h
    cases h2 : setRIn F rIn with
    | error e => rw [h2] at h; cases h
    | ok r =>
      rw [h2] at h
      simp only at h
      cases h3 : chooseROut F rQ r rOut enforce with
      | error e => rw [h3] at h; cases h
      | ok o =>
        rw [h3] at h
        simp only at h
        cases h4 : traverse (fun m => traverse (termWarns rQ r o m) (F.terms m)) F.multipoles with
        | error e => rw [h4] at h; cases h
        | ok wss =>
          rw [h4] at h
          cases h
          exact ⟨rfl, rfl, rfl, h3, wss, h4, rfl⟩

/-- Every term of every formula has been checked. -/
theorem initSampts_checked {F : Formulae} {rQ : List (Multipole × List ℝ)}
    {rIn : List (Option Multipole × List ℝ)} {rOut : List (Multipole × List ℝ)} {wss : List (List (List Warn))}
    (h : traverse (fun m => traverse (termWarns rQ rIn rOut m) (F.terms m)) F.multipoles = .ok wss)
    {m : Multipole} (hm : m ∈ F.multipoles) {t : Term} (ht : t ∈ F.terms m) :
    ∃ ws, termWarns rQ rIn rOut m t = .ok ws ∧ ∀ w ∈ ws, w ∈ wss.flatten.flatten := by
  rw [traverse_ok_iff] at h
  obtain ⟨l, hl, h'⟩ := forall₂_left h m hm
  rw [traverse_ok_iff] at h'
  obtain ⟨ws, hws, h''⟩ := forall₂_left h' t ht
  refine ⟨ws, h'', fun w hw => ?_⟩
  rw [List.mem_flatten]
  exact ⟨ws, List.mem_flatten.2 ⟨l, hl, hws⟩, hw⟩

/-- **C142.** On the root process there is a warning about a term of the formula of a multipole exactly if
the output points of the multipole are not covered by the points of the window, or of the correlation
function, which the term reads; whichever way the output points have been chosen. -/
theorem C142_warnings {F : Formulae} {sampts : Pts ℝ} {Q : List (Key × α)} {rIn : Pts ℝ}
    {rOut : Option (Pts ℝ)} {enforce : Bool} {B : Base ℝ α} {ws : List Warn}
    (h : initSampts true F sampts Q rIn rOut enforce = .ok (B, ws)) (m : Multipole) (t : Term) (s : Side) :
    (⟨m, t, s⟩ : Warn) ∈ ws ↔ m ∈ F.multipoles ∧ t ∈ F.terms m ∧
      ∃ rc x, get? B.rOut m = some rc ∧ Reads B.rQ B.rIn t s x ∧ ¬ Covers rc x := by
  obtain ⟨-, -, -, -, wss, hw, rfl⟩ := initSampts_ok h
  simp only [if_true]
  constructor
  · intro hmem
    rw [List.mem_flatten] at hmem
    obtain ⟨l, hl, hmem⟩ := hmem
    rw [List.mem_flatten] at hl
    obtain ⟨ll, hll, hl⟩ := hl
    rw [traverse_ok_iff] at hw
    obtain ⟨m', hm', h'⟩ := forall₂_right hw ll hll
    rw [traverse_ok_iff] at h'
    obtain ⟨t', ht', h''⟩ := forall₂_right h' l hl
    obtain ⟨rc, h1, -, -, -, -, h2⟩ := termWarns_ok h''
    obtain ⟨hm, ht, x, hx, hc⟩ := (h2 _).1 hmem
    simp only at hm ht hx
    subst hm; subst ht
    exact ⟨hm', ht', rc, x, h1, hx, hc⟩
  · rintro ⟨hm, ht, rc, x, h1, hx, hc⟩
    obtain ⟨ws, h', hsub⟩ := initSampts_checked hw hm ht
    obtain ⟨rc', h1', -, -, -, -, h2⟩ := termWarns_ok h'
    rw [h1] at h1'
    cases h1'
    exact hsub _ ((h2 _).2 ⟨rfl, rfl, x, hx, hc⟩)

/-- **C142.** The other processes of a communicator do the same without warnings. -/
theorem C142_silent (F : Formulae) (sampts : Pts ℝ) (Q : List (Key × α)) (rIn : Pts ℝ)
    (rOut : Option (Pts ℝ)) (enforce : Bool) (B : Base ℝ α) :
    ((∃ ws, initSampts true F sampts Q rIn rOut enforce = .ok (B, ws)) ↔
      initSampts false F sampts Q rIn rOut enforce = .ok (B, [])) ∧
    ∀ ws, initSampts false F sampts Q rIn rOut enforce = .ok (B, ws) → ws = [] := by
  have key : ∀ root ws, initSampts root F sampts Q rIn rOut enforce = .ok (B, ws) →
      ∀ root', ∃ wss : List (List (List Warn)), initSampts root' F sampts Q rIn rOut enforce =
        .ok (B, if root' then wss.flatten.flatten else []) := by
    intro root ws h root'
    obtain ⟨hF, h1, h2, h3, wss, h4, -⟩ := initSampts_ok h
    refine ⟨wss, ?_⟩
    unfold initSampts
    simp only [h1, h2, h3, h4]
    rw [← hF]
  refine ⟨⟨?_, ?_⟩, ?_⟩
  · rintro ⟨ws, h⟩
    obtain ⟨wss, h'⟩ := key _ _ h false
    simpa using h'
  · intro h
    obtain ⟨wss, h'⟩ := key _ _ h true
    exact ⟨_, h'⟩
  · intro ws h
    obtain ⟨-, -, -, -, wss, -, rfl⟩ := initSampts_ok h
    simp

/-- **C142.** Without `enforce_coverage` or with output points given, the checks change nothing else: the
object is the one made without them, and it is made exactly if no array compared is empty. -/
theorem C142_unchanged (root : Bool) (F : Formulae) (sampts : Pts ℝ) (Q : List (Key × α)) (rIn : Pts ℝ)
    (rOut : Option (Pts ℝ)) (enforce : Bool) (he : enforce = true → rOut ≠ none) (B : Base ℝ α) :
    (∃ ws, initSampts root F sampts Q rIn rOut enforce = .ok (B, ws)) ↔
      mkBase F sampts Q rIn rOut = .ok B ∧
        ∀ m ∈ F.multipoles, F.terms m ≠ [] → (∀ rc, get? B.rOut m = some rc → rc ≠ []) ∧
          ∀ x, ReadsAny B m x → x ≠ [] := by
  have hch : ∀ (rQ : List (Multipole × List ℝ)) (r : List (Option Multipole × List ℝ)),
      chooseROut F rQ r rOut enforce = setROut F r rOut := by
    intro rQ r
    unfold chooseROut
    cases rOut with
    | none => cases enforce with
      | true => exact absurd rfl (he rfl)
      | false => rfl
    | some o => rfl
  constructor
  · rintro ⟨ws, h⟩
    obtain ⟨hF, h1, h2, h3, wss, h4, -⟩ := initSampts_ok h
    rw [hch] at h3
    refine ⟨?_, ?_⟩
    · unfold mkBase
      simp only [h1, h2, h3]
      rw [if_pos]
      · rw [← hF]
      · rw [List.all_eq_true]
        intro m hm
        rw [List.all_eq_true]
        intro t ht
        obtain ⟨ws', h5, -⟩ := initSampts_checked h4 hm ht
        obtain ⟨rc, g1, -, ⟨x, g2⟩, g3, -, -⟩ := termWarns_ok h5
        unfold lookups
        simp only [Reads] at g2
        rw [g1, g2]
        cases hz : t.z with
        | none => rfl
        | some z =>
          obtain ⟨y, z', hz', hy⟩ := g3 z hz
          rw [hz] at hz'; cases hz'
          simp [hy]
    · intro m hm hne
      constructor
      · intro rc hrc
        obtain ⟨t, ht⟩ := List.exists_mem_of_ne_nil _ hne
        obtain ⟨ws', h5, -⟩ := initSampts_checked h4 hm ht
        obtain ⟨rc', g1, g2, -⟩ := termWarns_ok h5
        rw [hrc] at g1; cases g1; exact g2
      · rintro x ⟨t, ht, s, hx⟩
        rw [hF] at ht
        obtain ⟨ws', h5, -⟩ := initSampts_checked h4 hm ht
        obtain ⟨rc', -, -, -, -, g2, -⟩ := termWarns_ok h5
        exact g2 s x hx
  · rintro ⟨h, hne⟩
    unfold mkBase at h
    cases h1 : initWindow F sampts Q with
    | error e => rw [h1] at h; cases h
    | ok p =>
      obtain ⟨rQ, Q'⟩ := p
      rw [h1] at h
      simp only at h
      cases h2 : setRIn F rIn with
      | error e => rw [h2] at h; cases h
      | ok r =>
        rw [h2] at h
        simp only at h
        cases h3 : setROut F r rOut with
        | error e => rw [h3] at h; cases h
        | ok o =>
          rw [h3] at h
          simp only at h
          split_ifs at h with h4
          cases h
          rw [List.all_eq_true] at h4
          obtain ⟨wss, h5⟩ := traverse_ok_of (fun m => traverse (termWarns rQ r o m) (F.terms m)) F.multipoles (by
            intro m hm
            apply traverse_ok_of
            intro t ht
            have h6 := h4 m hm
            rw [List.all_eq_true] at h6
            have h7 := h6 t ht
            unfold lookups at h7
            rw [Bool.and_eq_true, Bool.and_eq_true] at h7
            obtain ⟨⟨g1, g2⟩, g3⟩ := h7
            obtain ⟨rc, g1⟩ := Option.isSome_iff_exists.1 g1
            obtain ⟨x, g2⟩ := Option.isSome_iff_exists.1 g2
            obtain ⟨k1, k2⟩ := hne m hm (List.ne_nil_of_mem ht)
            refine termWarns_of g1 (k1 _ g1) ⟨x, g2⟩ ?_ fun s y hy => k2 y ⟨t, ht, s, hy⟩
            intro z hz
            rw [hz] at g3
            obtain ⟨y, g3⟩ := Option.isSome_iff_exists.1 g3
            exact ⟨y, z, hz, g3⟩)
          unfold initSampts
          simp only [h1, h2, hch, h3, h5]
          exact ⟨_, rfl⟩

/-- Look-up in a dictionary made by a comprehension. -/
theorem get?_traverse {β : Type} (f : Multipole → Except PyErr β) : ∀ {ms : List Multipole}
    {r : List (Multipole × β)}, traverse (fun m => item m (f m)) ms = .ok r → ∀ m ∈ ms, ∃ x, get? r m = some x ∧ f m = .ok x := by
  intro ms
  induction ms with
  | nil => intro r _ m hm; simp at hm
  | cons a ms ih =>
    intro r h m hm
    rw [traverse_ok_iff] at h
    cases h with
    | cons h1 h2 =>
      rename_i b r'
      cases hf : f a with
      | error e => rw [hf] at h1; cases h1
      | ok x =>
        rw [hf] at h1
        cases h1
        by_cases hma : m = a
        · subst hma
          exact ⟨x, by simp [get?], hf⟩
        · have hm' : m ∈ ms := by
            rcases List.mem_cons.1 hm with h | h
            · exact absurd h hma
            · exact h
          obtain ⟨y, hy, hfy⟩ := ih ((traverse_ok_iff _ _ _).2 h2) m hm'
          refine ⟨y, ?_, hfy⟩
          rw [← hy]
          unfold get?
          rw [List.find?_cons_of_neg]
          simpa using fun h => hma h.symm

/-- The output points of a multipole under `enforce_coverage`. -/
theorem enforce_ok {root : Bool} {F : Formulae} {sampts : Pts ℝ} {Q : List (Key × α)} {rIn : Pts ℝ}
    {B : Base ℝ α} {ws : List Warn} (h : initSampts root F sampts Q rIn none true = .ok (B, ws))
    {m : Multipole} (hm : m ∈ F.multipoles) :
    ∃ xs rc, get? B.rOut m = some rc ∧ convRange xs = .ok rc ∧ ∀ x, x ∈ xs ↔ ReadsAny B m x := by
  obtain ⟨hF, h1, h2, h3, wss, h4, -⟩ := initSampts_ok h
  unfold chooseROut enforceROut at h3
  simp only at h3
  obtain ⟨rc, g1, g2⟩ := get?_traverse (enforcePts F B.rQ B.rIn) h3 m hm
  unfold enforcePts at g2
  cases h6 : traverse (termCoords B.rQ B.rIn) (F.terms m) with
  | error e => rw [h6] at g2; cases g2
  | ok xs =>
    rw [h6] at g2
    refine ⟨_, rc, g1, g2, fun x => ?_⟩
    rw [traverse_ok_iff] at h6
    rw [List.mem_flatten]
    unfold ReadsAny
    rw [hF]
    constructor
    · rintro ⟨l, hl, hx⟩
      obtain ⟨t, ht, h7⟩ := forall₂_right h6 l hl
      exact ⟨t, ht, ((termCoords_ok h7).1 x).1 hx⟩
    · rintro ⟨t, ht, hx⟩
      obtain ⟨l, hl, h7⟩ := forall₂_left h6 t ht
      exact ⟨l, hl, ((termCoords_ok h7).1 x).2 hx⟩

/-- **C142.** With `enforce_coverage`, where the ranges of all the positive points read for a multipole
overlap, its output points lie between points of each array read (without tolerance), there are as many as
in the shortest of them, they are logarithmically spaced, and there is no warning about the multipole. -/
theorem C142_enforced {F : Formulae} {sampts : Pts ℝ} {Q : List (Key × α)} {rIn : Pts ℝ} {B : Base ℝ α}
    {ws : List Warn} (h : initSampts true F sampts Q rIn none true = .ok (B, ws)) {m : Multipole}
    (hm : m ∈ F.multipoles) (hpos : ∀ x, ReadsAny B m x → ∀ p ∈ x, 0 < p)
    (hov : ∀ x y, ReadsAny B m x → ReadsAny B m y → ∃ p ∈ x, ∃ q ∈ y, p ≤ q) :
    ∃ rc, get? B.rOut m = some rc ∧
      (∀ x, ReadsAny B m x → (∀ p ∈ rc, (∃ s ∈ x, s ≤ p) ∧ ∃ s ∈ x, p ≤ s) ∧ rc.length ≤ x.length) ∧
      (∃ x, ReadsAny B m x ∧ rc.length = x.length) ∧ (2 ≤ rc.length → checkLoglin rc = .ok) ∧
      ∀ w ∈ ws, w.m ≠ m := by
  obtain ⟨xs, rc, h1, h2, h3⟩ := enforce_ok h hm
  obtain ⟨g1, -, a, b, n, rfl, g2, ⟨xa, ha, ea⟩, ⟨xb, hb, eb⟩, ⟨xn, hn, en⟩⟩ := convRange_ok h2
  have ha0 : 0 < a := by
    rw [ea]; exact hpos _ ((h3 _).1 ha) _ (lo_mem (g1 _ ha))
  have hab : a ≤ b := by
    obtain ⟨p, hp, q, hq, hpq⟩ := hov _ _ ((h3 _).1 ha) ((h3 _).1 hb)
    rw [ea, eb]
    exact (lo_le hp).trans (hpq.trans (le_hi hq))
  have hin : ∀ x, ReadsAny B m x → ∀ p ∈ logspace a b n, (∃ s ∈ x, s ≤ p) ∧ ∃ s ∈ x, p ≤ s := by
    intro x hx p hp
    have hx' := (h3 x).2 hx
    obtain ⟨k1, k2⟩ := mem_logspace ha0 hab hp
    obtain ⟨k3, k4, -⟩ := g2 x hx'
    exact ⟨⟨lo x, lo_mem (g1 x hx'), k3.trans k1⟩, ⟨hi x, hi_mem (g1 x hx'), k2.trans k4⟩⟩
  refine ⟨_, h1, ?_, ?_, ?_, ?_⟩
  · intro x hx
    exact ⟨hin x hx, by rw [length_logspace]; exact (g2 x ((h3 x).2 hx)).2.2⟩
  · exact ⟨xn, (h3 _).1 hn, by rw [length_logspace, en]⟩
  · intro h2
    rw [length_logspace] at h2
    exact checkLoglin_logspace h2
  · rintro ⟨m', t, s⟩ hw rfl
    obtain ⟨-, ht, rc, x, k1, k2, k3⟩ := (C142_warnings h _ t s).1 hw
    rw [h1] at k1
    cases k1
    obtain ⟨hF, -⟩ := initSampts_ok h
    have hx : ReadsAny B m' x := ⟨t, by rw [hF]; exact ht, s, k2⟩
    apply k3
    intro p hp
    obtain ⟨⟨s1, m1, l1⟩, ⟨s2, m2, l2⟩⟩ := hin x hx p hp
    have p1 := hpos x hx s1 m1
    have p2 := hpos x hx s2 m2
    exact ⟨⟨s1, m1, by linarith⟩, ⟨s2, m2, by linarith⟩⟩

/-- **C142.** With `enforce_coverage`, where two arrays read for a multipole have ranges apart by more than
the tolerance, no output points are covered, and there is a warning about the multipole. -/
theorem C142_apart {F : Formulae} {sampts : Pts ℝ} {Q : List (Key × α)} {rIn : Pts ℝ} {B : Base ℝ α}
    {ws : List Warn} (h : initSampts true F sampts Q rIn none true = .ok (B, ws)) {m : Multipole}
    (hm : m ∈ F.multipoles) (hpos : ∀ x, ReadsAny B m x → ∀ p ∈ x, 0 < p) {x y : List ℝ}
    (hx : ReadsAny B m x) (hy : ReadsAny B m y) (hxy : ∀ p ∈ x, ∀ q ∈ y, (1 + 1 / 100000) * q < p) :
    ∃ w ∈ ws, w.m = m := by
  obtain ⟨xs, rc, h1, h2, h3⟩ := enforce_ok h hm
  obtain ⟨g1, -, a, b, n, rfl, g2, ⟨xa, ha, ea⟩, -, ⟨xn, hn, en⟩⟩ := convRange_ok h2
  have ha0 : 0 < a := by
    rw [ea]; exact hpos _ ((h3 _).1 ha) _ (lo_mem (g1 _ ha))
  have hn1 : 1 ≤ n := by
    rw [en]; exact List.length_pos_of_ne_nil (g1 _ hn)
  obtain ⟨t, ht, s, hs⟩ := hy
  obtain ⟨hF, -⟩ := initSampts_ok h
  rw [hF] at ht
  refine ⟨⟨m, t, s⟩, (C142_warnings h m t s).2 ⟨hm, ht, _, y, h1, hs, ?_⟩, rfl⟩
  intro hc
  obtain ⟨-, ⟨q, hq, hle⟩⟩ := hc a (first_mem_logspace ha0 hn1)
  have hx' := (h3 x).2 hx
  have := hxy _ (lo_mem (g1 x hx')) q hq
  have := (g2 x hx').1
  linarith

/-- **C142.** Whatever is accepted with output points given is accepted with `enforce_coverage`, if no
formula is empty. -/
theorem C142_enforced_accepts {root : Bool} {F : Formulae} {sampts : Pts ℝ} {Q : List (Key × α)} {rIn : Pts ℝ}
    {o : Pts ℝ} {B : Base ℝ α} {ws : List Warn} {e : Bool}
    (h : initSampts root F sampts Q rIn (some o) e = .ok (B, ws)) (hne : ∀ m ∈ F.multipoles, F.terms m ≠ []) :
    ∃ B' ws', initSampts root F sampts Q rIn none true = .ok (B', ws') ∧ B'.rQ = B.rQ ∧ B'.Q = B.Q ∧
      B'.rIn = B.rIn := by
  obtain ⟨hF, h1, h2, h3, wss, h4, -⟩ := initSampts_ok h
  have hterm : ∀ m ∈ F.multipoles, ∃ xs, traverse (termCoords B.rQ B.rIn) (F.terms m) = .ok xs := by
    intro m hm
    apply traverse_ok_of
    intro t ht
    obtain ⟨ws', h5, -⟩ := initSampts_checked h4 hm ht
    obtain ⟨rc, -, -, ⟨x, hx⟩, g3, -⟩ := termWarns_ok h5
    unfold termCoords
    rw [get_ok_iff.2 hx]
    cases hz : t.z with
    | none => exact ⟨_, rfl⟩
    | some z =>
      obtain ⟨y, z', hz', hy⟩ := g3 z hz
      rw [hz] at hz'; cases hz'
      simp only
      rw [get_ok_iff.2 hy]
      exact ⟨_, rfl⟩
  have hread : ∀ m ∈ F.multipoles, ∀ t ∈ F.terms m, ∀ s x, Reads B.rQ B.rIn t s x → x ≠ [] := by
    intro m hm t ht
    obtain ⟨ws', h5, -⟩ := initSampts_checked h4 hm ht
    obtain ⟨rc, -, -, -, -, g, -⟩ := termWarns_ok h5
    exact g
  have hrange : ∀ m ∈ F.multipoles, ∀ xs, traverse (termCoords B.rQ B.rIn) (F.terms m) = .ok xs →
      (∀ x ∈ xs.flatten, x ≠ []) ∧ xs.flatten ≠ [] := by
    intro m hm xs hxs
    rw [traverse_ok_iff] at hxs
    constructor
    · intro x hx
      obtain ⟨l, hl, hx⟩ := List.mem_flatten.1 hx
      obtain ⟨t, ht, h7⟩ := forall₂_right hxs l hl
      obtain ⟨s, hs⟩ := ((termCoords_ok h7).1 x).1 hx
      exact hread m hm t ht s x hs
    · obtain ⟨t, ht⟩ := List.exists_mem_of_ne_nil _ (hne m hm)
      obtain ⟨l, hl, h7⟩ := forall₂_left hxs t ht
      obtain ⟨h8, ⟨x, hx⟩, -⟩ := termCoords_ok h7
      exact List.ne_nil_of_mem (List.mem_flatten.2 ⟨l, hl, (h8 x).2 ⟨_, hx⟩⟩)
  obtain ⟨o', ho'⟩ : ∃ o', enforceROut F B.rQ B.rIn = .ok o' := by
    unfold enforceROut
    apply traverse_ok_of
    intro m hm
    obtain ⟨xs, hxs⟩ := hterm m hm
    obtain ⟨k1, k2⟩ := hrange m hm xs hxs
    obtain ⟨y, hy⟩ := convRange_of k1 k2
    exact ⟨(m, y), by simp only [item, enforcePts, hxs, hy]⟩
  have hout : ∀ m ∈ F.multipoles, ∃ rc, get? o' m = some rc ∧ rc ≠ [] := by
    intro m hm
    unfold enforceROut at ho'
    obtain ⟨rc, g1, g2⟩ := get?_traverse (enforcePts F B.rQ B.rIn) ho' m hm
    refine ⟨rc, g1, ?_⟩
    obtain ⟨xs, hxs⟩ := hterm m hm
    simp only [enforcePts, hxs] at g2
    obtain ⟨k1, -, a, b, n, rfl, -, -, -, ⟨x, hx, rfl⟩⟩ := convRange_ok g2
    intro h0
    have := length_logspace a b x.length
    rw [h0] at this
    exact k1 x hx (List.length_eq_zero_iff.1 this.symm)
  obtain ⟨wss', h5⟩ := traverse_ok_of (fun m => traverse (termWarns B.rQ B.rIn o' m) (F.terms m)) F.multipoles (by
    intro m hm
    apply traverse_ok_of
    intro t ht
    obtain ⟨rc, r1, r2⟩ := hout m hm
    obtain ⟨ws', h5, -⟩ := initSampts_checked h4 hm ht
    obtain ⟨_, -, -, g2, g3, g4, -⟩ := termWarns_ok h5
    exact termWarns_of r1 r2 g2 g3 g4)
  refine ⟨⟨F, B.rQ, B.Q, B.rIn, o'⟩, if root then wss'.flatten.flatten else [], ?_, rfl, rfl, rfl⟩
  unfold initSampts
  simp only [h1, h2, chooseROut, ho', h5]

/-- **C142 (violation).** The documentation of the check allows either argument to be an array or a
dictionary.  For a range which is covered it passes in three of the four cases and raises `ValueError` for
an array compared with a dictionary. -/
theorem C142_mixed_violated {rc rs : List ℝ} (hc : rc ≠ []) (hs : rs ≠ []) (h : Covers rc rs) (m : Multipole) :
    checkConvRange (.arr rc) (.arr rs) = .ok true ∧ checkConvRange (.dict [(m, rc)]) (.arr rs) = .ok true ∧
    checkConvRange (.dict [(m, rc)]) (.dict [(m, rs)]) = .ok true ∧
    checkConvRange (.arr rc) (.dict [(m, rs)]) = .error .valueError := by
  obtain ⟨b, hb, hw⟩ := checkCoverage_ok hc hs
  have hb' : b = true := hw.2 h
  subst hb'
  refine ⟨hb, ?_, ?_, rfl⟩
  · simp [checkConvRange, allM, hb]
  · simp [checkConvRange, allM, hb, get?]

/-- The object for the built-in two-point formula with a window sampled at 1, 2, 3 and a correlation
function at 2 and 4 (any samples `Q`). -/
noncomputable def exB (x y z : List ℝ) (Q : ℕ → ℝ → ℝ) : Base ℝ (List ℝ) :=
  ⟨formulae16, [0, 2, 4, 6, 8].map fun l : ℕ => (⟨[l]⟩, x),
    [0, 2, 4, 6, 8].map fun l : ℕ => (⟨[l]⟩, x.map (Q l)),
    [0, 2, 4].map fun l : ℕ => (some ⟨[l]⟩, y), [0, 2, 4].map fun l : ℕ => (⟨[l]⟩, z)⟩

theorem exB_reads {x y z a : List ℝ} {Q : ℕ → ℝ → ℝ} {m : Multipole}
    {B : Base ℝ (List ℝ)} (hQ : B.rQ = (exB x y z Q).rQ) (hI : B.rIn = (exB x y z Q).rIn)
    (h : ReadsAny B m a) : a = x ∨ a = y := by
  obtain ⟨t, -, s, hs⟩ := h
  have key : ∀ {κ : Type} [DecidableEq κ] (d : List (κ × List ℝ)) (v : List ℝ), (∀ p ∈ d, p.2 = v) →
      ∀ k, get? d k = some a → a = v := by
    intro κ _ d v hd k hk
    unfold get? at hk
    obtain ⟨p, hp, rfl⟩ := Option.map_eq_some_iff.1 hk
    exact hd p (List.mem_of_find?_eq_some hp)
  cases s with
  | window =>
    left
    simp only [Reads] at hs
    rw [hQ] at hs
    exact key _ x (by simp [exB]) _ hs
  | correlation =>
    right
    obtain ⟨k, -, hs⟩ := hs
    rw [hI] at hs
    exact key _ y (by simp [exB]) _ hs

theorem exB_init {x y z : List ℝ} (hx : x ≠ []) (hy : y ≠ []) (hz : z ≠ []) (Q : ℕ → ℝ → ℝ) :
    ∃ ws, initSampts true formulae16 (.all x) (dict2 [0, 2, 4, 6, 8] x Q) (.all y) (some (.all z)) false =
      .ok (exB x y z Q, ws) := by
  rw [C142_unchanged _ _ _ _ _ _ _ (by simp)]
  refine ⟨rfl, ?_⟩
  intro m hm _
  refine ⟨?_, ?_⟩
  · intro rc hrc
    unfold get? at hrc
    obtain ⟨p, hp, rfl⟩ := Option.map_eq_some_iff.1 hrc
    have := List.mem_of_find?_eq_some hp
    have hp2 : p.2 = z := by
      simp only [exB, List.map_cons, List.map_nil, List.mem_cons, List.not_mem_nil, or_false] at this
      rcases this with rfl | rfl | rfl <;> rfl
    rw [hp2]; exact hz
  · intro a ha
    rcases exB_reads (x := x) (y := y) (z := z) (Q := Q) rfl rfl ha with rfl | rfl
    · exact hx
    · exact hy

/-- The hypotheses of `C142_enforced` are met by a window sampled at 1, 2, 3 and a correlation function
sampled at 2, 4; those of `C142_apart` by samples at 1, 2 and at 3, 4. -/
example (Q : ℕ → ℝ → ℝ) :
    (∃ B ws, initSampts true formulae16 (.all [1, 2, 3]) (dict2 [0, 2, 4, 6, 8] [1, 2, 3] Q) (.all [2, 4]) none
      true = .ok (B, ws) ∧ (∀ m x, ReadsAny B m x → ∀ p ∈ x, 0 < p) ∧
      ∀ m x y, ReadsAny B m x → ReadsAny B m y → ∃ p ∈ x, ∃ q ∈ y, p ≤ q) ∧
    ∃ B ws, initSampts true formulae16 (.all [1, 2]) (dict2 [0, 2, 4, 6, 8] [1, 2] Q) (.all [3, 4]) none
      true = .ok (B, ws) ∧ (∀ m x, ReadsAny B m x → ∀ p ∈ x, 0 < p) ∧ ReadsAny B ⟨[0]⟩ [3, 4] ∧
      ReadsAny B ⟨[0]⟩ [1, 2] := by
  constructor
  · obtain ⟨ws, h⟩ := exB_init (x := [1, 2, 3]) (y := [2, 4]) (z := [2]) (by simp) (by simp) (by simp) Q
    obtain ⟨B, ws', h', hQ, -, hI⟩ := C142_enforced_accepts h (by decide)
    refine ⟨B, ws', h', ?_, ?_⟩
    · intro m x hx p hp
      rcases exB_reads hQ hI hx with rfl | rfl
      · simp only [List.mem_cons, List.not_mem_nil, or_false] at hp
        rcases hp with rfl | rfl | rfl <;> norm_num
      · simp only [List.mem_cons, List.not_mem_nil, or_false] at hp
        rcases hp with rfl | rfl <;> norm_num
    · intro m x y hx hy
      rcases exB_reads hQ hI hx with rfl | rfl <;> rcases exB_reads hQ hI hy with rfl | rfl
      · exact ⟨1, by simp, 1, by simp, le_rfl⟩
      · exact ⟨1, by simp, 2, by simp, by norm_num⟩
      · exact ⟨2, by simp, 3, by simp, by norm_num⟩
      · exact ⟨2, by simp, 2, by simp, le_rfl⟩
  · obtain ⟨ws, h⟩ := exB_init (x := [1, 2]) (y := [3, 4]) (z := [2]) (by simp) (by simp) (by simp) Q
    obtain ⟨B, ws', h', hQ, -, hI⟩ := C142_enforced_accepts h (by decide)
    obtain ⟨hF, -⟩ := initSampts_ok h'
    refine ⟨B, ws', h', ?_, ?_, ?_⟩
    · intro m x hx p hp
      rcases exB_reads hQ hI hx with rfl | rfl
      · simp only [List.mem_cons, List.not_mem_nil, or_false] at hp
        rcases hp with rfl | rfl <;> norm_num
      · simp only [List.mem_cons, List.not_mem_nil, or_false] at hp
        rcases hp with rfl | rfl <;> norm_num
    · refine ⟨term2 0 0 1, by rw [hF]; decide +kernel, .correlation, ⟨[0]⟩, rfl, ?_⟩
      rw [hI]; rfl
    · refine ⟨term2 0 0 1, by rw [hF]; decide +kernel, .window, ?_⟩
      simp only [Reads]
      rw [hQ]; rfl

end Trv.Wc

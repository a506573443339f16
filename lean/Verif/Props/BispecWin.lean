import Verif.Lemmas.BispecWin
import Verif.Props.DoubleSbt
/-
Property theorems for the window convolution of bispectra (`winconv.py`): C135.
-/
namespace Trv.Wc

open Trv Trv.Fft

/-! ### C135 -/

theorem mp_injective : Function.Injective Key.mp := fun _ _ h => by cases h; rfl

/-- The array objects transformed by `convolve` hold the specified samples. -/
theorem arrays_spec (I : Interp ℝ) (k : List (Option Multipole × List ℝ) × Option (List (Option Multipole × List ℝ))) (h : MHeap)
    (Bin : List (Key × ℕ)) :
    ((bispecArrays I k h Bin).2.map (contents2 (bispecArrays I k h Bin).1) = samplesSpec I k (contents2 h Bin)) ∧
    h.next ≤ (bispecArrays I k h Bin).1.next ∧
    (∀ i < h.next, (bispecArrays I k h Bin).1.arr i = h.arr i) ∧
    (k.2 ≠ none → ∀ B, (bispecArrays I k h Bin).2 = .ok B → (∀ p ∈ B, h.next ≤ p.2) ∧
      ∀ zs : List Multipole, zs.Nodup → Apart2 .mp B zs) ∧
    (k.2 = none → bispecArrays I k h Bin = (h, .ok Bin)) := by
  unfold bispecArrays samplesSpec
  cases hk : k.2 with
  | none => exact ⟨rfl, le_refl _, fun _ _ => rfl, fun g => absurd rfl g, fun _ => rfl⟩
  | some o =>
    simp only
    cases hB : bispecSamples I k ((contents2 h Bin).map fun p : Key × List (List ℂ) => (p.1, toMat Complex.re p.2)) with
    | error e => exact ⟨rfl, le_refl _, fun _ _ => rfl, fun _ B g => (by cases g), fun g => (by cases g)⟩
    | ok B =>
      simp only
      obtain ⟨a1, a2, a3, a4, a5, a6⟩ := allocAll2_spec (B.map fun p : Key × Mat ℝ => (p.1, ofMat p.2)) h
      refine ⟨congrArg Except.ok a1, a3, a6, ?_, fun g => (by cases g)⟩
      intro _ B' g
      cases g
      exact ⟨fun p hp => (a4 p hp).1, fun zs hz => alloc2_apart mp_injective _ _ hz⟩

/-- What a call of `convolve` which succeeds has done. -/
theorem convolve_steps {I : Interp ℝ} {S : BisConv} {h h' : MHeap} {Bin : List (Key × ℕ)} {ic : Option ℝ}
    {r : Except Err (List (Multipole × List (List ℂ)) × List (Multipole × ℕ))} (hc : S.convolve I h Bin ic = (h', r)) :
    (h' = (bispecArrays I S.kIn h Bin).1 ∧ ∃ e, r = .error e) ∨
    ∃ B, (bispecArrays I S.kIn h Bin).2 = .ok B ∧
      ((h' = (runAll (β := List (List ℂ)) S.bdsjt false Key.mp (fun _ s => .ok s) B S.base.F.zTrue (bispecArrays I S.kIn h Bin).1).1 ∧
        ∃ e, r = .error e) ∨
      ∃ zeta conv, (runAll (β := List (List ℂ)) S.bdsjt false Key.mp (fun _ s => .ok s) B S.base.F.zTrue
          (bispecArrays I S.kIn h Bin).1).2 = .ok zeta ∧
        conv3 I S.base (zeta.map fun p : Multipole × List (List ℂ) => (.mp p.1, toMat (fun z => (z.re, z.im)) p.2)) ic = .ok conv ∧
        ∃ H, H = (runAll (β := List (List ℂ)) S.bdsjt false Key.mp (fun _ s => .ok s) B S.base.F.zTrue
            (bispecArrays I S.kIn h Bin).1).1 ∧
          h' = (runAll S.fdsjt true id (splOut I S.kout) (allocAll2 (cplx conv) H).2 S.base.F.multipoles
            (allocAll2 (cplx conv) H).1).1 ∧
          r = (runAll S.fdsjt true id (splOut I S.kout) (allocAll2 (cplx conv) H).2 S.base.F.multipoles
            (allocAll2 (cplx conv) H).1).2.map fun R => (R, (allocAll2 (cplx conv) H).2)) := by
  unfold BisConv.convolve at hc
  generalize bispecArrays I S.kIn h Bin = b at hc ⊢
  obtain ⟨h1, _ | B⟩ := b
  · cases hc
    exact Or.inl ⟨rfl, _, rfl⟩
  refine Or.inr ⟨B, rfl, ?_⟩
  simp only at hc ⊢
  generalize runAll (β := List (List ℂ)) S.bdsjt false Key.mp (fun _ s => .ok s) B S.base.F.zTrue h1 = w at hc ⊢
  obtain ⟨h2, _ | zeta⟩ := w
  · cases hc
    exact Or.inl ⟨rfl, _, rfl⟩
  simp only at hc
  cases h3 : conv3 I S.base (zeta.map fun p : Multipole × List (List ℂ) => (.mp p.1, toMat (fun z => (z.re, z.im)) p.2)) ic with
  | error e =>
    rw [h3] at hc
    cases hc
    exact Or.inl ⟨rfl, _, rfl⟩
  | ok conv =>
    rw [h3] at hc
    refine Or.inr ⟨zeta, conv, rfl, h3, h2, rfl, ?_⟩
    change (match runAll S.fdsjt true id (splOut I S.kout) (allocAll2 (cplx conv) h2).2 S.base.F.multipoles
            (allocAll2 (cplx conv) h2).1 with
      | (h, .error e) => (h, .error e)
      | (h, .ok B) => (h, .ok (B, (allocAll2 (cplx conv) h2).2))) = (h', r) at hc
    generalize runAll S.fdsjt true id (splOut I S.kout) (allocAll2 (cplx conv) h2).2 S.base.F.multipoles
            (allocAll2 (cplx conv) h2).1 = w at hc ⊢
    obtain ⟨h4, _ | l⟩ := w
    · cases hc
      exact ⟨rfl, rfl⟩
    · cases hc
      exact ⟨rfl, rfl⟩

/-- **C135.** The convolved bispectra are those of the specification, in which nothing is modified: with
transforms of copies (any extrapolation, such as the default one) for all inputs, and with the others
whenever no two multipoles are given the same array object, or the samples are interpolated first. -/
theorem C135_values (I : Interp ℝ) (S : BisConv) (h : MHeap) (Bin : List (Key × ℕ)) (ic : Option ℝ)
    (hb : (∀ p ∈ S.bdsjt, Keeps p.2) ∨ (S.base.F.zTrue.Nodup ∧ (S.kIn.2 = none → Apart2 .mp Bin S.base.F.zTrue)))
    (hf : (∀ p ∈ S.fdsjt, Keeps p.2) ∨ S.base.F.multipoles.Nodup) :
    (S.convolve I h Bin ic).2.map Prod.fst = (bisSpec I S (contents2 h Bin) ic).map Prod.fst := by
  obtain ⟨b1, b2, b3, b4, b5⟩ := arrays_spec I S.kIn h Bin
  unfold BisConv.convolve bisSpec
  rw [← b1]
  have hb' : ∀ B, (bispecArrays I S.kIn h Bin).2 = .ok B → (∀ p ∈ S.bdsjt, Keeps p.2) ∨ Apart2 .mp B S.base.F.zTrue := by
    intro B hB
    rcases hb with hb | ⟨h1, h2⟩
    · exact Or.inl hb
    · by_cases hk : S.kIn.2 = none
      · rw [b5 hk] at hB
        cases hB
        exact Or.inr (h2 hk)
      · exact Or.inr ((b4 hk B hB).2 _ h1)
  generalize bispecArrays I S.kIn h Bin = r at hb'
  obtain ⟨h1, _ | B⟩ := r
  · rfl
  have hb := hb' B rfl
  simp only [Except.map]
  have R := runAll_spec S.bdsjt false .mp (fun _ s => .ok s) B (contents2 h1 B) S.base.F.zTrue h1
    (fun z _ => get_contents2 _ _ _) hb
  rw [← R.1]
  clear R
  generalize runAll S.bdsjt _ Key.mp _ _ _ _ = w
  obtain ⟨h2, _ | zeta⟩ := w
  · rfl
  simp only
  generalize conv3 I S.base _ ic = c
  obtain _ | conv := c
  · rfl
  simp only
  rw [show (conv.map fun p : Multipole × List (List ℝ) => (p.1, p.2.map fun r => r.map fun u : ℝ => (u : ℂ))) = cplx conv from rfl]
  obtain ⟨a1, -⟩ := allocAll2_spec (cplx conv) h2
  have R' := runAll_spec S.fdsjt true id (splOut I S.kout) (allocAll2 (cplx conv) h2).2 (cplx conv) S.base.F.multipoles
    (allocAll2 (cplx conv) h2).1
    (fun m _ => by
      conv_lhs => rw [← a1]
      exact get_contents2 _ _ _)
    (hf.imp (fun x => x) fun g => alloc2_apart Function.injective_id _ _ g)
  rw [← R'.1]
  clear R'
  generalize runAll S.fdsjt _ (id : Multipole → Multipole) _ _ _ _ = w
  obtain ⟨h3, _ | l⟩ := w
  · rfl
  · rfl

/-- **C135 (part).** With transforms of copies, or with samples which are interpolated first, `convolve` leaves
all arrays as they are, whether or not it succeeds; with transforms of copies the correlation functions
returned are those of the specification. -/
theorem C135_unchanged_partial (I : Interp ℝ) (S : BisConv) (h : MHeap) (Bin : List (Key × ℕ)) (ic : Option ℝ)
    (hb : (∀ p ∈ S.bdsjt, Keeps p.2) ∨ S.kIn.2 ≠ none) :
    (∀ i < h.next, (S.convolve I h Bin ic).1.arr i = h.arr i) ∧
    ((∀ p ∈ S.bdsjt, Keeps p.2) → (∀ p ∈ S.fdsjt, Keeps p.2) → ∀ R ids, (S.convolve I h Bin ic).2 = .ok (R, ids) →
      bisSpec I S (contents2 h Bin) ic = .ok (R, contents2 (S.convolve I h Bin ic).1 ids)) := by
  obtain ⟨b1, b2, b3, b4, b5⟩ := arrays_spec I S.kIn h Bin
  constructor
  · intro i hi
    cases hc : S.convolve I h Bin ic with
    | mk h' r =>
      rcases convolve_steps hc with ⟨g, -⟩ | ⟨B, hB, g⟩
      · rw [g]; exact b3 i hi
      have hrun := runAll_other (β := List (List ℂ)) S.bdsjt false Key.mp (fun _ s => .ok s) B i S.base.F.zTrue
        (bispecArrays I S.kIn h Bin).1 (hb.imp (fun x => x) fun hk z _ hz => by
          have := (b4 hk B hB).1 _ (get_mem' hz)
          simp only at this
          omega)
      rcases g with ⟨g, -⟩ | ⟨zeta, conv, -, -, H, hH, g, -⟩
      · rw [g]; exact hrun.1.trans (b3 i hi)
      · rw [← hH] at hrun
        have hi' : i < H.next := by rw [hrun.2]; omega
        obtain ⟨-, -, -, a4, -, a6⟩ := allocAll2_spec (cplx conv) H
        rw [g]
        simp only
        rw [(runAll_other S.fdsjt true id (splOut I S.kout) (allocAll2 (cplx conv) H).2 i S.base.F.multipoles
          (allocAll2 (cplx conv) H).1 (Or.inr fun m _ hm => by
            have := (a4 _ (get_mem' hm)).1
            simp only at this
            omega)).1, a6 i hi', hrun.1, b3 i hi]
  · intro kb kf R ids hr
    cases hc : S.convolve I h Bin ic with
    | mk h' r =>
      rw [hc] at hr
      simp only at hr ⊢
      subst hr
      rcases convolve_steps hc with ⟨-, e, g⟩ | ⟨B, hB, ⟨-, e, g⟩ | ⟨zeta, conv, g1, g2, H, hH, g3, g4⟩⟩
      · cases g
      · cases g
      have c1 : samplesSpec I S.kIn (contents2 h Bin) = .ok (contents2 (bispecArrays I S.kIn h Bin).1 B) := by
        rw [← b1, hB]; rfl
      have c2 := (runAll_spec (β := List (List ℂ)) S.bdsjt false Key.mp (fun _ s => .ok s) B _ S.base.F.zTrue
        (bispecArrays I S.kIn h Bin).1 (fun z _ => get_contents2 _ _ _) (Or.inl kb)).1
      rw [g1] at c2
      obtain ⟨a1, -⟩ := allocAll2_spec (cplx conv) H
      have c3 := runAll_spec S.fdsjt true id (splOut I S.kout) (allocAll2 (cplx conv) H).2 (cplx conv) S.base.F.multipoles
        (allocAll2 (cplx conv) H).1 (fun m _ => by
          conv_lhs => rw [← a1]
          exact get_contents2 _ _ _) (Or.inl kf)
      unfold bisSpec
      rw [c1]
      simp only
      rw [← c2]
      simp only
      rw [g2]
      simp only
      rw [← c3.1]
      have c4 : ∀ i, h'.arr i = (allocAll2 (cplx conv) H).1.arr i := by
        intro i
        rw [g3]
        exact c3.2.2 i (Or.inl kf)
      generalize runAll S.fdsjt true (id : Multipole → Multipole) _ _ _ _ = w at g4
      obtain ⟨h4, _ | l⟩ := w
      · cases g4
      · cases g4
        simp only [Except.ok.injEq, Prod.mk.injEq, true_and]
        conv_lhs => rw [← a1]
        unfold contents2
        apply List.map_congr_left
        intro p _
        rw [c4]

/-- What the arrays passed are after a call which succeeds. -/
theorem convolve_inplace (I : Interp ℝ) (S : BisConv) (h : MHeap) (Bin : List (Key × ℕ)) (ic : Option ℝ)
    (hlt : ∀ p ∈ Bin, p.2 < h.next) (hk : S.kIn.2 = none) (hA : Apart2 .mp Bin S.base.F.zTrue)
    {R : List (Multipole × List (List ℂ))} {ids : List (Multipole × ℕ)} (hr : (S.convolve I h Bin ic).2 = .ok (R, ids)) :
    (∀ z ∈ S.base.F.zTrue, ∃ i D, get Bin (.mp z) = .ok i ∧ get S.bdsjt z = .ok D ∧
      (S.convolve I h Bin ic).1.arr i = (D.transform (h.arr i)).1) := by
  cases hc : S.convolve I h Bin ic with
  | mk h' r =>
    rw [hc] at hr
    simp only at hr ⊢
    subst hr
    have b5 := (arrays_spec I S.kIn h Bin).2.2.2.2 hk
    rcases convolve_steps hc with ⟨-, e, g⟩ | ⟨B, hB, ⟨-, e, g⟩ | ⟨zeta, conv, g1, g2, H, hH, g3, g4⟩⟩
    · cases g
    · cases g
    rw [b5] at hB g1 hH
    cases hB
    simp only at g1 hH
    intro z hz
    have hrun := Prod.ext (x := runAll (β := List (List ℂ)) S.bdsjt false Key.mp (fun _ s => .ok s) Bin S.base.F.zTrue h)
      (y := (H, .ok zeta)) hH.symm g1
    obtain ⟨i, D, e1, e2, e3⟩ := runAll_inplace S.bdsjt false Key.mp _ Bin S.base.F.zTrue h H zeta hA hrun z hz
    refine ⟨i, D, e1, e2, ?_⟩
    rw [← e3, g3]
    have hn := (runAll_spec (β := List (List ℂ)) S.bdsjt false Key.mp (fun _ s => .ok s) Bin (contents2 h Bin) S.base.F.zTrue h
      (fun z _ => get_contents2 _ _ _) (Or.inr hA)).2.1
    rw [← hH] at hn
    have hi : i < H.next := by
      rw [hn]
      exact hlt _ (get_mem' e1)
    obtain ⟨-, -, -, a4, -, a6⟩ := allocAll2_spec (cplx conv) H
    rw [(runAll_other S.fdsjt true id (splOut I S.kout) (allocAll2 (cplx conv) H).2 i S.base.F.multipoles
      (allocAll2 (cplx conv) H).1 (Or.inr fun m _ hm => by
        have := (a4 _ (get_mem' hm)).1
        simp only at this
        omega)).1, a6 i hi]

theorem newAll2_get {new : NewDsbt} {pts : Multipole → Except PyErr (List ℝ)} : ∀ {ms : List Multipole} {L : List (Multipole × Dsbt)},
    newAll2 new pts ms = .ok L → ∀ z ∈ ms, ∃ a b x D, degrees01 z = .ok (a, b) ∧ pts z = .ok x ∧ new a b x = .ok D ∧
      get L z = .ok D
  | [], L, _ => by simp
  | m :: ms, L, h => by
    unfold newAll2 traverse at h
    cases hd : degrees01 m with
    | error e => rw [hd] at h; cases h
    | ok ab =>
      cases hp : pts m with
      | error e => rw [hd, hp] at h; cases h
      | ok x =>
        cases hn : new ab.1 ab.2 x with
        | error e => rw [hd, hp] at h; simp only [hn] at h; cases h
        | ok D =>
          rw [hd, hp] at h
          simp only [hn] at h
          cases hL : newAll2 new pts ms with
          | error e =>
            unfold newAll2 at hL
            rw [hL] at h; cases h
          | ok L' =>
            have IH := newAll2_get hL
            unfold newAll2 at hL
            rw [hL] at h
            cases h
            intro z hz
            by_cases hzm : m = z
            · subst hzm
              exact ⟨ab.1, ab.2, x, D, hd, hp, hn, by simp [get, get?]⟩
            · obtain ⟨a, b, x', D', q1, q2, q3, q4⟩ := IH z (by
                rcases List.mem_cons.1 hz with rfl | hz
                · exact absurd rfl hzm
                · exact hz)
              refine ⟨a, b, x', D', q1, q2, q3, ?_⟩
              rw [← q4]
              simp [get, get?, hzm]

theorem mkBis_back {new : NewDsbt} {F : Formulae} {sampts : Pts ℝ} {Q : List (Key × Mat ℝ)} {kIn : Pts ℝ} {kOut rCommon : Option (List ℝ)}
    {S : BisConv} (h : mkBis new F sampts Q kIn kOut rCommon = .ok S) :
    newAll2 new (fun z => get S.kIn.1 (some z)) F.zTrue = .ok S.bdsjt ∧ S.base.F = F := by
  unfold mkBis at h
  cases h1 : initWindow F sampts Q with
  | error e => rw [h1] at h; cases h
  | ok w =>
    cases h2 : bispecIn F kIn with
    | error e => rw [h1, h2] at h; cases h
    | ok k =>
      cases h3 : newAll2 new (fun z => get k.1 (some z)) F.zTrue with
      | error e => rw [h1, h2] at h; simp only [h3] at h; cases h
      | ok L =>
        rw [h1, h2] at h
        simp only [h3] at h
        split at h
        · cases h
        split at h
        · cases h
        rename_i B hB
        split at h
        · cases h
        split at h
        · cases h
        cases h
        refine ⟨h3, ?_⟩
        unfold mkBase at hB
        repeat (split at hB; · cases hB)
        split at hB
        · cases hB; rfl
        · cases hB

/-- **C135 (violated).** With transforms without extrapolation at logarithmically spaced wavenumbers, a call which
succeeds multiplies in place the arrays passed to it by the powers `3/2` of the wavenumbers of the
second dimension. -/
theorem C135_mutated_violated (I : Interp ℝ) {G : LnGamma} {kr : ℝ} {lowring : Bool} {F : Formulae} {sampts : Pts ℝ}
    {Q : List (Key × Mat ℝ)} {kIn : Pts ℝ} {kOut rCommon : Option (List ℝ)} {S : BisConv}
    (hS : mkBis (plainDsbt G kr lowring) F sampts Q kIn kOut rCommon = .ok S) (h : MHeap) (Bin : List (Key × ℕ)) (ic : Option ℝ)
    (hlt : ∀ p ∈ Bin, p.2 < h.next) (hk : S.kIn.2 = none) (hA : Apart2 .mp Bin F.zTrue)
    {r : List (Multipole × List (List ℂ)) × List (Multipole × ℕ)} (hr : (S.convolve I h Bin ic).2 = .ok r) :
    ∀ z ∈ F.zTrue, ∃ i x, get Bin (.mp z) = .ok i ∧ get S.kIn.1 (some z) = .ok x ∧
      ∀ f : ℕ → ℕ → ℂ, 3 ≤ x.length → h.arr i = table x.length f →
        (S.convolve I h Bin ic).1.arr i =
          table x.length fun a b => f a b * (((x.getD b 0) ^ (3 / 2 : ℝ) : ℝ) : ℂ) := by
  obtain ⟨hb, hF⟩ := mkBis_back hS
  obtain ⟨R, ids⟩ := r
  intro z hz
  obtain ⟨i, D, e1, e2, e3⟩ := convolve_inplace I S h Bin ic hlt hk (by rw [hF]; exact hA) hr z (by rw [hF]; exact hz)
  obtain ⟨a, b, x, D', q1, q2, q3, q4⟩ := newAll2_get hb z hz
  rw [e2] at q4
  cases q4
  refine ⟨i, x, e1, q2, ?_⟩
  intro f hN hf
  rw [e3, hf]
  exact C116_mutated_violated q3 hN f

end Trv.Wc

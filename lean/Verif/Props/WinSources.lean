import Verif.Model.WinSources
import Verif.Props.OutputLoad
import Verif.Lemmas.WinMatLinear
/-
C132: the sources of a window name the file of each multipole.
-/
namespace Trv.Out

open Trv ThreePt

/-- Each source is the path given for the multipole at the same position. -/
def Aligned (items : List Item) (w : Wc.Win ℝ) : Prop :=
  w.sources.length = w.multipoles.length ∧
  ∀ (i : ℕ) (m : Wc.Multipole) (s : String), w.multipoles[i]? = some m → w.sources[i]? = some s →
    ∃ it ∈ items, Wc.Key.to? it.key = some m ∧ it.path = s

theorem to?_ofKey {k : Wc.Key} {m : Wc.Multipole} (h : Wc.Multipole.ofKey k = .ok m) : Wc.Key.to? k = some m := by
  unfold Wc.Key.to?
  rw [h]

theorem finish_multipoles {I : Wc.Interp ℝ} {w w' : Wc.Win ℝ} {mk : Wc.MakeLog} (h : Wc.finish I w mk = .ok w') :
    w'.multipoles = w.multipoles := by
  unfold Wc.finish at h
  split at h
  · simp at h
  · split at h
    · simp only [Except.ok.injEq] at h
      rw [h]
    · simp at h
    · split at h
      · unfold Wc.Win.resample at h
        split at h
        · simp at h
        · simp only [Except.ok.injEq] at h
          subst h
          rfl
      · simp only [Except.ok.injEq] at h
        rw [h]

theorem buildOne_key {paired : Wc.Paired} {alpha : ℝ} (p : Wc.Key × List ℝ)
    (b : Wc.Multipole × List ℝ × List (List ℝ)) (h : Wc.buildOne paired alpha p = .ok b) :
    some b.1 = Wc.Key.to? p.1 := (Wc.buildOne_ok h).1.symm

/-- The multipoles of a loaded window are those of the keys, sorted; its sources are in the order of the items. -/
theorem loaded_order {F : Fmt} {I : Wc.Interp ℝ} {s : List Item} {sub : Bool} {usecols : List ℕ} {alpha : ℝ}
    {mk : Wc.MakeLog} {w : Wc.Win ℝ} (h : loadFromTextfiles F I s sub usecols alpha mk = .ok w) :
    w.sources = s.map Item.path ∧ ∃ ms : List Wc.Multipole, ms.map some = s.map (fun it => Wc.Key.to? it.key) ∧
      Wc.sortM ms = .ok w.multipoles := by
  unfold loadFromTextfiles at h
  cases hl : Wc.traverse (loadItem F sub usecols) s with
  | error e => simp [hl] at h
  | ok l =>
    rw [hl] at h
    simp only at h
    have hk : l.map Prod.fst = s.map Item.key := by
      refine Wc.traverse_fst (f := loadItem F sub usecols) Prod.fst Item.key ?_ hl
      intro it t ht
      unfold loadItem at ht
      split at ht
      · simp at ht
      · simp only [Except.ok.injEq] at ht
        rw [← ht]
    generalize hp : Wc.Paired.dict (l.map fun t => (t.1, some t.2.1)) = paired at h
    generalize hf : (l.map fun t => (t.1, t.2.2)) = flat at h
    have hkf : flat.map Prod.fst = s.map Item.key := by
      rw [← hf, ← hk, List.map_map]
      rfl
    cases hb : Wc.buildWin I paired flat alpha mk with
    | error e => simp [hb] at h
    | ok w1 =>
      rw [hb] at h
      simp only [Except.ok.injEq] at h
      subst h
      refine ⟨rfl, ?_⟩
      unfold Wc.buildWin at hb
      cases hr : Wc.buildRaw paired flat alpha with
      | error e => simp [hr] at hb
      | ok w0 =>
        rw [hr] at hb
        simp only at hb
        have hm := finish_multipoles hb
        unfold Wc.buildRaw at hr
        cases ht : Wc.traverse (Wc.buildOne paired alpha) flat with
        | error e => simp [ht] at hr
        | ok l2 =>
          rw [ht] at hr
          simp only at hr
          cases hs : Wc.sortM (l2.map Prod.fst) with
          | error e => simp [hs] at hr
          | ok ms =>
            rw [hs] at hr
            simp only [Except.ok.injEq] at hr
            refine ⟨l2.map Prod.fst, ?_, ?_⟩
            · have := Wc.traverse_fst (f := Wc.buildOne paired alpha) (fun b => some b.1)
                (fun p => Wc.Key.to? p.1) buildOne_key ht
              rw [List.map_map]
              have e2 : (s.map fun it => Wc.Key.to? it.key) = (s.map Item.key).map Wc.Key.to? := by simp
              rw [e2, ← hkf, List.map_map]
              exact this
            · rw [hs]
              have : w1.multipoles = ms := by rw [hm, ← hr]
              exact congrArg Except.ok this.symm

/-- Sorting a sorted list changes nothing. -/
theorem sortM_sorted {n : ℕ} : ∀ (l : List Wc.Multipole), Wc.OfKind n l →
    l.Pairwise (fun a b => Wc.keyOf a ≤ Wc.keyOf b) → Wc.sortM l = .ok l
  | [], _, _ => rfl
  | x :: l, h, hs => by
    have h' := List.pairwise_cons.1 hs
    have ih := sortM_sorted l ⟨h.1, fun m hm => h.2 m (by simp [hm])⟩ h'.2
    unfold Wc.sortM
    rw [ih]
    simp only
    cases l with
    | nil => rfl
    | cons y l =>
      have hx := h.2 x (by simp)
      have hy := h.2 y (by simp)
      obtain ⟨t, ht, hk⟩ := Wc.lt_iff (a := y) (b := x) (by omega) (by
        intro e
        have h0 := h.1
        rw [e] at hy
        simp at hy
        omega)
      have hf : t = false := by
        cases t with
        | false => rfl
        | true => exact absurd (hk.1 rfl) (not_lt.2 (h'.1 y (by simp)))
      subst hf
      unfold Wc.insertM
      rw [ht]

/-- For keys which are multipoles the items are sorted as the multipoles are. -/
theorem insertItem_objects (x : Item) (mx : Wc.Multipole) (hx : x.key = .mp mx) : ∀ (l : List Item)
    (ms : List Wc.Multipole), l.map Item.key = ms.map .mp → ∀ s, insertItem x l = .ok s →
    s.Perm (x :: l) ∧ ∃ ms', s.map Item.key = ms'.map .mp ∧ Wc.insertM mx ms = .ok ms'
  | [], ms, hl, s, h => by
    obtain rfl : ms = [] := by simpa using hl.symm
    simp only [insertItem, Except.ok.injEq] at h
    subst h
    exact ⟨List.Perm.refl _, [mx], by simp [hx], rfl⟩
  | y :: l, [], hl, s, h => by simp at hl
  | y :: l, m :: ms, hl, s, h => by
    simp only [List.map_cons, List.cons.injEq] at hl
    obtain ⟨hy, hl⟩ := hl
    unfold insertItem at h
    rw [hy, hx] at h
    simp only [keyLt] at h
    unfold Wc.insertM
    cases hb : m.lt mx with
    | error e => simp [hb] at h
    | ok b =>
      rw [hb] at h
      cases b with
      | false =>
        simp only [Except.ok.injEq] at h
        subst h
        exact ⟨List.Perm.refl _, mx :: m :: ms, by simp [hx, hy, hl], rfl⟩
      | true =>
        simp only at h
        cases hi : insertItem x l with
        | error e => simp [hi] at h
        | ok s' =>
          rw [hi] at h
          simp only [Except.ok.injEq] at h
          subst h
          obtain ⟨p, ms', e1, e2⟩ := insertItem_objects x mx hx l ms hl s' hi
          refine ⟨(p.cons y).trans (List.Perm.swap x y l), m :: ms', by simp [hy, e1], ?_⟩
          simp only [e2]

theorem sortItems_objects : ∀ (l : List Item) (ms : List Wc.Multipole), l.map Item.key = ms.map .mp →
    ∀ s, sortItems l = .ok s → s.Perm l ∧ ∃ ms', s.map Item.key = ms'.map .mp ∧ Wc.sortM ms = .ok ms'
  | [], ms, hl, s, h => by
    obtain rfl : ms = [] := by simpa using hl.symm
    simp only [sortItems, Except.ok.injEq] at h
    subst h
    exact ⟨List.Perm.refl _, [], rfl, rfl⟩
  | x :: l, [], hl, s, h => by simp at hl
  | x :: l, m :: ms, hl, s, h => by
    simp only [List.map_cons, List.cons.injEq] at hl
    unfold sortItems at h
    cases hs : sortItems l with
    | error e => simp [hs] at h
    | ok s' =>
      rw [hs] at h
      simp only at h
      obtain ⟨p, ms', e1, e2⟩ := sortItems_objects l ms hl.2 s' hs
      obtain ⟨q, ms'', f1, f2⟩ := insertItem_objects x m hl.1 s' ms' e1 s h
      refine ⟨q.trans (p.cons x), ms'', f1, ?_⟩
      unfold Wc.sortM
      rw [e2]
      exact f2

/-- If the multipoles of the keys are in order after the items have been sorted, each source is the file of the
multipole at the same position. -/
theorem aligned_of_sorted {F : Fmt} {I : Wc.Interp ℝ} {items s : List Item} {sub : Bool} {usecols : List ℕ} {alpha : ℝ}
    {mk : Wc.MakeLog} {w : Wc.Win ℝ} (hp : s.Perm items)
    (h : loadFromTextfiles F I s sub usecols alpha mk = .ok w) (ms : List Wc.Multipole)
    (hk : ms.map some = s.map fun it => Wc.Key.to? it.key) (hs : Wc.sortM ms = .ok ms) : Aligned items w := by
  obtain ⟨h1, ms', h2, h3⟩ := loaded_order h
  have e : ms' = ms := (List.map_injective_iff.2 (Option.some_injective _)) (h2.trans hk.symm)
  subst e
  rw [h3] at hs
  have hm : w.multipoles = ms' := Except.ok.inj hs
  have hl : ms'.length = s.length := by simpa using congrArg List.length hk
  refine ⟨by rw [h1, hm, List.length_map, hl], fun i m p hi hj => ?_⟩
  rw [hm] at hi
  rw [h1, List.getElem?_map] at hj
  cases hsi : s[i]? with
  | none => simp [hsi] at hj
  | some it =>
    rw [hsi] at hj
    refine ⟨it, hp.subset (List.mem_of_getElem? hsi), ?_, by simpa using hj⟩
    have := congrArg (fun l : List (Option Wc.Multipole) => l[i]?) hk
    simp only [List.getElem?_map, hi, hsi, Option.map_some, Option.some.injEq] at this
    exact this.symm

/-- With `Multipole` objects for keys, in any order of the dictionary, each source of a loaded window is the file of
the multipole at the same position. -/
theorem C132_sources_partial (F : Fmt) (I : Wc.Interp ℝ) (items : List Item) (sub : Bool) (usecols : List ℕ) (alpha : ℝ)
    (mk : Wc.MakeLog) (w : Wc.Win ℝ) (n : ℕ) (hn : 0 < n)
    (hk : ∀ it ∈ items, ∃ m : Wc.Multipole, it.key = .mp m ∧ m.index.length = n)
    (h : loadTextDict F I items sub usecols alpha mk = .ok w) : Aligned items w := by
  obtain ⟨ms, hms, hlen⟩ : ∃ ms : List Wc.Multipole, items.map Item.key = ms.map .mp ∧ ∀ m ∈ ms, m.index.length = n := by
    clear h
    induction items with
    | nil => exact ⟨[], rfl, by simp⟩
    | cons it items ih =>
      obtain ⟨ms, h1, h2⟩ := ih fun i hi => hk i (by simp [hi])
      obtain ⟨m, h3, h4⟩ := hk it (by simp)
      refine ⟨m :: ms, by simp [h1, h3], ?_⟩
      intro x hx
      rcases List.mem_cons.1 hx with rfl | hx
      · exact h4
      · exact h2 x hx
  unfold loadTextDict at h
  cases hs : sortItems items with
  | error e => simp [hs] at h
  | ok s =>
    rw [hs] at h
    simp only at h
    obtain ⟨hp, ms', e1, e2⟩ := sortItems_objects items ms hms s hs
    obtain ⟨s', g1, g2, g3⟩ := Wc.sortM_spec ms ⟨hn, hlen⟩
    rw [e2] at g1
    obtain rfl : ms' = s' := Except.ok.inj g1
    refine aligned_of_sorted hp h ms' ?_ (sortM_sorted ms' ⟨hn, fun m hm => hlen m (g2.subset hm)⟩ g3)
    have e3 : (s.map fun it => Wc.Key.to? it.key) = (s.map Item.key).map Wc.Key.to? := by simp
    rw [e3, e1, List.map_map]
    rfl

/-- With strings for keys, whatever the order of the dictionary, the windows of degrees (0, 2, 2) and (1, 1, 0) have
each other's file for source. -/
theorem C132_text_keys_violated (F : Fmt) (I : Wc.Interp ℝ) (a b : Item) (ha : a.key = .str ['0', '2', '2'])
    (hb : b.key = .str ['1', '1', '0']) (items : List Item) (hi : items = [a, b] ∨ items = [b, a])
    (sub : Bool) (usecols : List ℕ) (alpha : ℝ) (mk : Wc.MakeLog) (w : Wc.Win ℝ)
    (h : loadTextDict F I items sub usecols alpha mk = .ok w) :
    w.multipoles = [Wc.m110, Wc.m022] ∧ w.sources = [a.path, b.path] ∧ (a.path ≠ b.path → ¬ Aligned items w) := by
  have hs : sortItems items = .ok [a, b] := by
    rcases hi with rfl | rfl
    · have e : keyLt b.key a.key = .ok false := by rw [ha, hb]; decide
      simp only [sortItems, insertItem, e]
    · have e : keyLt a.key b.key = .ok true := by rw [ha, hb]; decide
      simp only [sortItems, insertItem, e]
  unfold loadTextDict at h
  rw [hs] at h
  simp only at h
  obtain ⟨h1, ms, h2, h3⟩ := loaded_order h
  have hm : ms = [Wc.m022, Wc.m110] := by
    apply List.map_injective_iff.2 (Option.some_injective _)
    rw [h2]
    simp only [List.map_cons, List.map_nil, ha, hb]
    rfl
  subst hm
  have h4 : w.multipoles = [Wc.m110, Wc.m022] := by
    have e : Wc.sortM [Wc.m022, Wc.m110] = .ok [Wc.m110, Wc.m022] := rfl
    rw [e] at h3
    exact (Except.ok.inj h3).symm
  have h5 : w.sources = [a.path, b.path] := h1
  refine ⟨h4, h5, fun hne hal => ?_⟩
  obtain ⟨it, hit, h6, h7⟩ := hal.2 0 Wc.m110 a.path (by rw [h4]; rfl) (by rw [h5]; rfl)
  have hit' : it = a ∨ it = b := by
    rcases hi with rfl | rfl
    · simpa using hit
    · simpa [or_comm] using hit
  rcases hit' with rfl | rfl
  · rw [ha] at h6
    exact absurd h6 (by decide)
  · exact hne h7.symm

/-! ### Windows which are loaded -/

theorem mem_dictSet {κ α : Type} [DecidableEq κ] {d : List (κ × α)} {k : κ} {v : α} {p : κ × α}
    (h : p ∈ Wc.dictSet d k v) : p ∈ d ∨ p = (k, v) := by
  unfold Wc.dictSet at h
  split at h
  · obtain ⟨q, hq, e⟩ := List.mem_map.1 h
    split at e
    · exact Or.inr e.symm
    · exact Or.inl (e ▸ hq)
  · simpa using h

theorem mem_dictOf {κ α : Type} [DecidableEq κ] {l : List (κ × α)} {p : κ × α} (h : p ∈ Wc.dictOf l) : p ∈ l := by
  have key : ∀ (l D : List (κ × α)), p ∈ l.foldl (fun d q => Wc.dictSet d q.1 q.2) D → p ∈ D ∨ p ∈ l := by
    intro l
    induction l with
    | nil => exact fun D h => Or.inl h
    | cons q l ih =>
      intro D h
      rcases ih _ h with h | h
      · rcases mem_dictSet h with h | h
        · exact Or.inl h
        · exact Or.inr (by simp [h])
      · exact Or.inr (by simp [h])
  rcases key l [] h with h | h
  · simp at h
  · exact h

theorem checkLoglin_long {x : List ℝ} (h : 2 ≤ x.length) : Wc.checkLoglin x ≠ .shapeError := by
  have front : ∀ y : List ℝ, 2 ≤ y.length → ∃ t, Arr.front2 y = some t := by
    intro y hy
    match y, hy with
    | a :: b :: l, _ => exact ⟨_, rfl⟩
  obtain ⟨t, ht⟩ := front x h
  obtain ⟨u, hu⟩ := front x.reverse (by simpa using h)
  have hb : Arr.back2 x = some u := hu
  unfold Wc.checkLoglin
  rw [if_neg (by omega), ht, hb]
  simp only
  split_ifs
  · cases Fft.logDiffs x with
    | none => simp
    | some d => by_cases hd : Fft.isclose d (Arr.mean d) <;> simp [hd]
  · simp

theorem firstFail_long : ∀ {d : List (Wc.Multipole × List ℝ)}, (∀ p ∈ d, 2 ≤ p.2.length) → Wc.firstFail d ≠ .shapeError
  | [], _ => by simp [Wc.firstFail]
  | p :: d, h => by
    unfold Wc.firstFail
    split
    · exact firstFail_long fun q hq => h q (by simp [hq])
    · exact checkLoglin_long (h p (by simp))

/-- A window of tables of at least two entries is constructed if it need not be resampled. -/
theorem build_long {I : Wc.Interp ℝ} {paired : Wc.Paired} {flat : List (Wc.Key × List ℝ)} {alpha : ℝ} {w : Wc.Win ℝ}
    (h : Wc.buildRaw paired flat alpha = .ok w) (hf : ∀ p ∈ flat, 2 ≤ p.2.length) :
    Wc.buildWin I paired flat alpha (.bool false) = .ok w := by
  have h0 := h
  unfold Wc.buildRaw at h
  cases ht : Wc.traverse (Wc.buildOne paired alpha) flat with
  | error e => simp [ht] at h
  | ok l =>
    rw [ht] at h
    simp only at h
    cases hs : Wc.sortM (l.map Prod.fst) with
    | error e => simp [hs] at h
    | ok ms =>
      rw [hs] at h
      simp only [Except.ok.injEq] at h
      unfold Wc.buildWin
      rw [h0]
      simp only
      refine Wc.C85_not_resampled I w (Wc.dictOf (l.map fun p => (p.1, p.2.1))) (by rw [← h]) _
        (Or.inr ⟨firstFail_long ?_, rfl⟩)
      intro q hq
      obtain ⟨b, hb, rfl⟩ := List.mem_map.1 (mem_dictOf hq)
      obtain ⟨p, hp, hpb⟩ := Wc.traverse_of_mem ht b hb
      obtain ⟨_, rows, n, M, _, htab, hc, hn, _⟩ := Wc.buildOne_ok hpb
      have h2 := hf p hp
      simp only [hc, List.length_map, List.length_take]
      have hn2 : 2 ≤ n := by
        rcases htab with ⟨_, _, e⟩ | ⟨_, e⟩
        · have := length_flattenUpper n M
          rw [e] at this
          by_contra hlt
          have : n ≤ 1 := by omega
          interval_cases n <;> omega
        · have := length_flattenFull n M
          rw [e] at this
          by_contra hlt
          have : n ≤ 1 := by omega
          interval_cases n <;> omega
      omega

/-- Saved windows are loaded if they need not be resampled. -/
theorem load_saved {F : Fmt} {rd : ℝ → ℝ} (hF : F.Ok rd) (I : Wc.Interp ℝ) (items : List Item)
    (sub : Bool) (alpha : ℝ) (hn : (items.map fun it => Wc.Key.to? it.key).Nodup)
    (h : ∀ it ∈ items, ∃ a b c n reff raw shot, SavedWindow F it a b c n reff raw shot) :
    ∃ w : Wc.Win ℝ, loadFromTextfiles F I items sub (if sub then [1, 4, 6, 8] else [1, 4, 6]) alpha (.bool false) =
      .ok w := by
  have hload : ∀ it ∈ items, ∃ t : List (ℝ × ℝ) × List ℝ,
      loadItem F sub (if sub then [1, 4, 6, 8] else [1, 4, 6]) it = .ok (it.key, t) ∧
      ∃ (a b c : ℤ) (n : ℕ), Wc.Key.to? it.key = some ⟨[a, b, c]⟩ ∧ t.1.length = t.2.length ∧ 2 ≤ t.2.length ∧
        (if a = b then 2 * t.2.length = n * (n + 1) else t.2.length = n * n) := by
    intro it hit
    obtain ⟨a, b, c, n, reff, raw, shot, hs⟩ := h it hit
    refine ⟨_, loadItem_saved hF sub hs, a, b, c, n, hs.1, by simp, ?_, ?_⟩
    · have hn2 := hs.2.1
      by_cases hab : a = b
      · rw [if_pos hab]
        have := length_triu n
        rw [List.length_map]
        nlinarith
      · rw [if_neg hab, List.length_map, length_full]
        nlinarith
    · by_cases hab : a = b
      · rw [if_pos hab, if_pos hab]
        simpa using length_triu n
      · rw [if_neg hab, if_neg hab]
        simpa using length_full n
  choose! tab htab using hload
  have htr : Wc.traverse (loadItem F sub (if sub then [1, 4, 6, 8] else [1, 4, 6])) items =
      .ok (items.map fun it => (it.key, tab it)) := by
    have := Wc.traverse_map_ok (loadItem F sub (if sub then [1, 4, 6, 8] else [1, 4, 6])) id
      (fun it => (it.key, tab it)) items fun it hit => (htab it hit).1
    rwa [List.map_id] at this
  have hkeys : (items.map Item.key).Nodup := by
    have : (items.map fun it => Wc.Key.to? it.key) = (items.map Item.key).map Wc.Key.to? := by simp
    rw [this] at hn
    exact List.Nodup.of_map _ hn
  obtain ⟨w, hw⟩ := Wc.C85_window_accepted (.dict (items.map fun it => (it.key, some (tab it).1)))
    (items.map fun it => (it.key, (tab it).2)) alpha (by
      intro p hp
      obtain ⟨it, hit, rfl⟩ := List.mem_map.1 hp
      obtain ⟨a, b, c, n, h1, h2, _, h4⟩ := (htab it hit).2
      refine ⟨a, b, c, (tab it).1, n, h1, ?_, h2, h4⟩
      unfold Wc.Paired.at Wc.get
      have hg := Wc.get?_of_nodup (d := items.map fun it => (it.key, some (tab it).1)) (m := it.key)
        (a := some (tab it).1) (by simpa [Function.comp_def] using hkeys) (List.mem_map.2 ⟨it, hit, rfl⟩)
      simp only [hg])
  have hb := build_long (I := I) hw (by
    intro p hp
    obtain ⟨it, hit, rfl⟩ := List.mem_map.1 hp
    obtain ⟨a, b, c, n, _, _, h3, _⟩ := (htab it hit).2
    exact h3)
  unfold loadFromTextfiles
  rw [htr]
  simp only [List.map_map, Function.comp_def]
  rw [hb]
  exact ⟨_, rfl⟩

/-- The files of two windows, of degrees (0, 2, 2) and (1, 1, 0), under the keys given. -/
noncomputable def twoItems (k l : Wc.Key) : List Item :=
  [⟨k, "zetaw022.txt", savetxt unaryFmt [] (cppRows3 (savedRes 2 .full (fun i => i + 1)
      (fun i j => 10 * i + j) (fun _ _ => 1)) (measWrites 2 .full).length)⟩,
   ⟨l, "zetaw110.txt", savetxt unaryFmt [] (cppRows3 (savedRes 3 .triu (fun i => i + 1)
      (fun i j => 10 * i + j) (fun _ _ => 1)) (measWrites 3 .triu).length)⟩]

theorem twoItems_saved (k l : Wc.Key) (hk : Wc.Key.to? k = some Wc.m022) (hl : Wc.Key.to? l = some Wc.m110) :
    ∀ it ∈ twoItems k l, ∃ a b c n reff raw shot, SavedWindow unaryFmt it a b c n reff raw shot := by
  intro it hit
  rcases List.mem_cons.1 hit with rfl | hit
  · exact ⟨0, 2, 2, 2, _, _, _, savedWindow_of unaryFmt _ _ [] 0 2 2 hk 2 (by norm_num) _ _ _⟩
  · rw [List.mem_singleton] at hit
    subst hit
    exact ⟨1, 1, 0, 3, _, _, _, savedWindow_of unaryFmt _ _ [] 1 1 0 hl 3 (by norm_num) _ _ _⟩

-- with strings for keys the sources are exchanged
example (I : Wc.Interp ℝ) : ∃ w, loadTextDict unaryFmt I (twoItems (.str ['0', '2', '2']) (.str ['1', '1', '0'])) true
      [1, 4, 6, 8] 1 (.bool false) = .ok w ∧ w.multipoles = [Wc.m110, Wc.m022] ∧
    w.sources = ["zetaw022.txt", "zetaw110.txt"] := by
  obtain ⟨w, hw⟩ := load_saved unaryFmt_ok I (twoItems (.str ['0', '2', '2']) (.str ['1', '1', '0'])) true 1 (by
    rw [show (twoItems (.str ['0', '2', '2']) (.str ['1', '1', '0'])).map (fun it => Wc.Key.to? it.key) =
      [some Wc.m022, some Wc.m110] by rfl]
    decide) (twoItems_saved _ _ rfl rfl)
  have h : loadTextDict unaryFmt I (twoItems (.str ['0', '2', '2']) (.str ['1', '1', '0'])) true
      [1, 4, 6, 8] 1 (.bool false) = .ok w := hw
  obtain ⟨h1, h2, _⟩ := C132_text_keys_violated unaryFmt I _ _ rfl rfl _ (Or.inl rfl) true [1, 4, 6, 8] 1 _ w h
  exact ⟨w, h, h1, h2⟩
-- with multipoles for keys they are not, although the dictionary is in the same order
example (I : Wc.Interp ℝ) : ∃ w, loadTextDict unaryFmt I (twoItems (.mp Wc.m022) (.mp Wc.m110)) true
      [1, 4, 6, 8] 1 (.bool false) = .ok w ∧ Aligned (twoItems (.mp Wc.m022) (.mp Wc.m110)) w := by
  obtain ⟨w, hw⟩ := load_saved unaryFmt_ok I (twoItems (.mp Wc.m022) (.mp Wc.m110)).reverse true 1 (by
    rw [show ((twoItems (.mp Wc.m022) (.mp Wc.m110)).reverse).map (fun it => Wc.Key.to? it.key) =
      [some Wc.m110, some Wc.m022] by rfl]
    decide) (fun it hit => twoItems_saved (.mp Wc.m022) (.mp Wc.m110) rfl rfl it (List.mem_reverse.1 hit))
  have h : loadTextDict unaryFmt I (twoItems (.mp Wc.m022) (.mp Wc.m110)) true
      [1, 4, 6, 8] 1 (.bool false) = .ok w := hw
  refine ⟨w, h, C132_sources_partial unaryFmt I _ true _ 1 _ w 3 (by norm_num) ?_ h⟩
  intro it hit
  rcases List.mem_cons.1 hit with rfl | hit
  · exact ⟨Wc.m022, rfl, rfl⟩
  · rw [List.mem_singleton] at hit
    subst hit
    exact ⟨Wc.m110, rfl, rfl⟩

end Trv.Out

import Verif.Props.OutputTable
import Verif.Lemmas.OutputText
import Verif.Props.WinBuild
/-
C120: window functions saved as text files are read back.
-/
namespace Trv.Out

open Trv Trv.Par Trv.Mon ThreePt

/-- An item stands for a window measured in the full form at `n` bins and saved as a text file: `reff` are
the effective separations of the bins, `raw` and `shot` the measured multipole and its shot noise.  The
upper triangle is saved if the first two degrees agree. -/
def SavedWindow (F : Fmt) (it : Item) (a b c : ℤ) (n : ℕ) (reff : ℕ → ℝ) (raw shot : ℕ → ℕ → ℂ) : Prop :=
  Wc.Key.to? it.key = some ⟨[a, b, c]⟩ ∧ 2 ≤ n ∧
  ∃ (r : Res3) (T : List (List ℝ)) (header : Str),
    r.Len (measWrites n (if a = b then .triu else .full)).length ∧
    r.eff1 = (measWrites n (if a = b then .triu else .full)).map (fun e => reff e.row.toNat) ∧
    r.eff2 = (measWrites n (if a = b then .triu else .full)).map (fun e => reff e.col.toNat) ∧
    r.raw = (measWrites n (if a = b then .triu else .full)).map (fun e => raw e.row.toNat e.col.toNat) ∧
    r.shot = (measWrites n (if a = b then .triu else .full)).map (fun e => shot e.row.toNat e.col.toNat) ∧
    table (dictZeta r) keysZeta = .ok T ∧ it.file = savetxt F header T

/-- The sample read back for a pair of bins. -/
noncomputable def loadedValue (rd : ℝ → ℝ) (sub : Bool) (raw shot : ℕ → ℕ → ℂ) (i j : ℕ) : ℝ :=
  if sub then rd (raw i j).re - rd (shot i j).re else rd (raw i j).re

/-- The matrix of a multipole: symmetric if the first two degrees agree. -/
def matrixOf (sym : Prop) [Decidable sym] (f : ℕ → ℕ → ℝ) (i j : ℕ) : ℝ :=
  if sym then f (min i j) (max i j) else f i j

theorem measWrites_full_eq (n : ℕ) : measWrites (n : ℤ) .full =
    (List.range n).flatMap fun r : ℕ => (List.range n).map fun c : ℕ => (⟨r, c, (r : ℤ) * n + c⟩ : Entry) := by
  unfold measWrites
  rw [upto_zero_cast, List.flatMap_map]
  simp [List.map_map, Function.comp_def]

theorem map_full {α : Type} (n : ℕ) (f : ℕ → ℕ → α) :
    (measWrites (n : ℤ) .full).map (fun e => f e.row.toNat e.col.toNat) = flattenFull n f := by
  rw [measWrites_full_eq, List.map_flatMap]
  simp [flattenFull, Function.comp_def]

theorem map_triu {α : Type} (n : ℕ) (f : ℕ → ℕ → α) :
    (measWrites (n : ℤ) .triu).map (fun e => f e.row.toNat e.col.toNat) = flattenUpper n f := by
  rw [measWrites_triu_eq, List.map_map]
  simp [flattenUpper, triuIndices, List.map_flatMap, Function.comp_def]

theorem length_full (n : ℕ) : (measWrites (n : ℤ) .full).length = n * n := by
  rw [measWrites_full_eq]
  simp

theorem length_triu (n : ℕ) : 2 * (measWrites (n : ℤ) .triu).length = n * (n + 1) := by
  rw [measWrites_triu_eq, List.length_map]
  exact length_triuIndices n

theorem flatMap_inj {α β : Type} (f g : α → List β) : ∀ (l : List α), (∀ x ∈ l, (f x).length = (g x).length) →
    l.flatMap f = l.flatMap g → ∀ x ∈ l, f x = g x
  | [], _, _ => by simp
  | a :: l, h, e => by
    rw [List.flatMap_cons, List.flatMap_cons] at e
    obtain ⟨e1, e2⟩ := List.append_inj e (h a (by simp))
    intro x hx
    rcases List.mem_cons.1 hx with rfl | hx
    · exact e1
    · exact flatMap_inj f g l (fun x hx => h x (by simp [hx])) e2 x hx

theorem map_inj {α β : Type} (f g : α → β) : ∀ (l : List α), l.map f = l.map g → ∀ x ∈ l, f x = g x
  | [], _ => by simp
  | a :: l, e => by
    simp only [List.map_cons, List.cons.injEq] at e
    intro x hx
    rcases List.mem_cons.1 hx with rfl | hx
    · exact e.1
    · exact map_inj f g l e.2 x hx

theorem flattenFull_inj {α : Type} {n : ℕ} {M N : ℕ → ℕ → α} (h : flattenFull n M = flattenFull n N)
    {i j : ℕ} (hi : i < n) (hj : j < n) : M i j = N i j := by
  have h1 := flatMap_inj _ _ _ (by simp) h i (List.mem_range.2 hi)
  exact map_inj _ _ _ h1 j (List.mem_range.2 hj)

theorem flattenUpper_inj {α : Type} {n : ℕ} {M N : ℕ → ℕ → α} (h : flattenUpper n M = flattenUpper n N)
    {i j : ℕ} (hi : i ≤ j) (hj : j < n) : M i j = N i j := by
  have h1 := flatMap_inj _ _ _ (by simp) h i (List.mem_range.2 (by omega))
  exact map_inj _ _ _ h1 j (by rw [List.mem_range'_1]; omega)

theorem length_flattenFull {α : Type} (n : ℕ) (M : ℕ → ℕ → α) : (flattenFull n M).length = n * n := by
  simp [flattenFull]

theorem length_flattenUpper {α : Type} (n : ℕ) (M : ℕ → ℕ → α) :
    2 * (flattenUpper n M).length = n * (n + 1) := by
  rw [← map_triu, List.length_map, length_triu]

theorem reshape_coords {rows : List (ℝ × ℝ)} {flat : List ℝ} {sh : String} {R : Reshaped ℝ}
    (h : reshape (some rows) flat sh = .ok R) : R.coords = (rows.take R.n).map Prod.snd := by
  unfold reshape at h
  simp only at h
  split_ifs at h
  all_goals
    rw [Except.ok.injEq] at h
    rw [← h]

/-- One item is loaded, whichever pairs of bins it holds. -/
theorem loadItem_rows {F : Fmt} {rd : ℝ → ℝ} (hF : F.Ok rd) (sub : Bool) {it : Item} (es : List Entry)
    (hlen : es.length ≠ 1) {reff : ℕ → ℝ} {raw shot : ℕ → ℕ → ℂ} {r : Res3} {T : List (List ℝ)} {header : Str}
    (hl : r.Len es.length) (h1 : r.eff1 = es.map (fun e => reff e.row.toNat))
    (h2 : r.eff2 = es.map (fun e => reff e.col.toNat))
    (h3 : r.raw = es.map (fun e => raw e.row.toNat e.col.toNat))
    (h4 : r.shot = es.map (fun e => shot e.row.toNat e.col.toNat))
    (hT : table (dictZeta r) keysZeta = .ok T) (hf : it.file = savetxt F header T) :
    loadItem F sub (if sub then [1, 4, 6, 8] else [1, 4, 6]) it = .ok (it.key,
      es.map (fun e => (rd (reff e.row.toNat), rd (reff e.col.toNat))),
      es.map fun e => loadedValue rd sub raw shot e.row.toNat e.col.toNat) := by
  have hT' : T = cppRows3 r es.length := by
    have := (C119_threept { stat := "" } r es.length hl).1
    rw [hT] at this
    simpa using this
  have hrow : ∀ row ∈ T, row.length = 10 := by
    intro row hr
    rw [hT'] at hr
    obtain ⟨i, _, rfl⟩ := List.mem_map.1 hr
    rfl
  have hload : ∀ u : List ℕ, (∀ c ∈ u, c < 10 ∧ c ≠ 2 ∧ c ≠ 5) → loadtxt F u it.file =
      .ok (T.map fun row => u.map fun c => rd (row.getD c 0)) := by
    intro u hu
    rw [hf]
    refine loadtxt_savetxt hF header T u fun row hr => ⟨?_, ?_⟩
    · intro e
      have := hrow row hr
      rw [e] at this
      simp at this
    · intro c hc
      rw [hrow row hr]
      exact hu c hc
  have hTl : T.length = es.length := by rw [hT']; simp [cppRows3]
  have hval : ∀ g : List ℝ → ℝ × ℝ, ∀ k : Entry → ℝ × ℝ, (∀ e : Entry, ∀ b1 b2 n1 n2 x y : ℝ,
      g [b1, reff e.row.toNat, n1, b2, reff e.col.toNat, n2, (raw e.row.toNat e.col.toNat).re, x,
        (shot e.row.toNat e.col.toNat).re, y] = k e) → T.map g = es.map k := by
    intro g k hg
    rw [hT']
    unfold cppRows3
    apply List.ext_getElem
    · simp
    · intro i hi hi'
      have hi2 : i < es.length := by simpa using hi'
      simp only [List.getElem_map, List.getElem_range]
      rw [h1, h2, h3, h4]
      simp only [List.getD_eq_getElem?_getD, List.getElem?_map, List.getElem?_eq_getElem hi2, Option.map_some,
        Option.getD_some]
      exact hg _ _ _ _ _ _ _
  have hval1 : ∀ g : List ℝ → ℝ, ∀ k : Entry → ℝ, (∀ e : Entry, ∀ b1 b2 n1 n2 x y : ℝ,
      g [b1, reff e.row.toNat, n1, b2, reff e.col.toNat, n2, (raw e.row.toNat e.col.toNat).re, x,
        (shot e.row.toNat e.col.toNat).re, y] = k e) → T.map g = es.map k := by
    intro g k hg
    have := hval (fun row => (g row, 0)) (fun e => (k e, 0)) (fun e b1 b2 n1 n2 x y => by rw [hg])
    have := congrArg (List.map Prod.fst) this
    simpa [List.map_map, Function.comp_def] using this
  unfold loadItem loadOne
  cases sub with
  | true =>
    simp only [if_true]
    rw [if_neg (by simp), hload _ (by simp)]
    simp only [List.length_map]
    rw [if_neg (by rw [hTl]; exact hlen)]
    simp only [List.map_map]
    refine congrArg Except.ok (Prod.ext rfl (Prod.ext ?_ ?_))
    · exact hval _ _ fun e _ _ _ _ _ _ => rfl
    · exact hval1 _ _ fun e _ _ _ _ _ _ => rfl
  | false =>
    simp only [Bool.false_eq_true, if_false]
    rw [if_neg (by simp), hload _ (by simp)]
    simp only [List.length_map]
    rw [if_neg (by rw [hTl]; exact hlen)]
    simp only [List.map_map]
    refine congrArg Except.ok (Prod.ext rfl (Prod.ext ?_ ?_))
    · exact hval _ _ fun e _ _ _ _ _ _ => rfl
    · exact hval1 _ _ fun e _ _ _ _ _ _ => rfl

/-- One item is loaded. -/
theorem loadItem_saved {F : Fmt} {rd : ℝ → ℝ} (hF : F.Ok rd) (sub : Bool) {it : Item} {a b c : ℤ} {n : ℕ}
    {reff : ℕ → ℝ} {raw shot : ℕ → ℕ → ℂ} (h : SavedWindow F it a b c n reff raw shot) :
    loadItem F sub (if sub then [1, 4, 6, 8] else [1, 4, 6]) it = .ok (it.key,
      (measWrites n (if a = b then .triu else .full)).map (fun e =>
        (rd (reff e.row.toNat), rd (reff e.col.toNat))),
      (measWrites n (if a = b then .triu else .full)).map fun e =>
        loadedValue rd sub raw shot e.row.toNat e.col.toNat) := by
  obtain ⟨_, hn, r, T, header, hl, h1, h2, h3, h4, hT, hf⟩ := h
  refine loadItem_rows hF sub _ ?_ hl h1 h2 h3 h4 hT hf
  by_cases hab : a = b
  · rw [if_pos hab]
    have := length_triu n
    intro e
    rw [e] at this
    nlinarith
  · rw [if_neg hab, length_full]
    nlinarith

/-- **C120, saved windows are read back.** Files saved by `compute_3pcf_window` in the full form are loaded,
with the default columns, as the window whose separations are the effective separations of the bins and
whose samples are alpha squared times the real part of the measured multipole less that of its shot noise (or
of the multipole only), at the right pairs of bins, each printed number being rounded; the lower triangle
is filled in if the first two degrees agree.  The window is then checked and resampled as usual. -/
theorem C120_saved_windows_load {F : Fmt} {rd : ℝ → ℝ} (hF : F.Ok rd) (I : Wc.Interp ℝ) (items : List Item)
    (sub : Bool) (alpha : ℝ) (mk : Wc.MakeLog) (hn : (items.map fun it => Wc.Key.to? it.key).Nodup)
    (h : ∀ it ∈ items, ∃ a b c n reff raw shot, SavedWindow F it a b c n reff raw shot) :
    ∃ w : Wc.Win ℝ,
      loadFromTextfiles F I items sub (if sub then [1, 4, 6, 8] else [1, 4, 6]) alpha mk =
        (match Wc.finish I w mk with
          | .error e => .error e
          | .ok w' => .ok { w' with sources := items.map Item.path }) ∧
      w.Ok ∧ w.multipoles.length = items.length ∧
      ∀ it ∈ items, ∀ a b c n reff raw shot, SavedWindow F it a b c n reff raw shot →
        (⟨[a, b, c]⟩ : Wc.Multipole) ∈ w.multipoles ∧
        w.Has ⟨[a, b, c]⟩ ((List.range n).map fun i => rd (reff i))
          ((List.range n).map fun i => (List.range n).map fun j =>
            alpha ^ 2 * matrixOf (a = b) (loadedValue rd sub raw shot) i j)
          ((List.range n).map fun i => alpha ^ 2 * loadedValue rd sub raw shot i i) := by
  -- what is loaded for each item
  have hload : ∀ it ∈ items, ∃ t, loadItem F sub (if sub then [1, 4, 6, 8] else [1, 4, 6]) it = .ok (it.key, t) := by
    intro it hit
    obtain ⟨a, b, c, n, reff, raw, shot, hs⟩ := h it hit
    exact ⟨_, loadItem_saved hF sub hs⟩
  obtain ⟨tab, htab⟩ : ∃ tab : Item → List (ℝ × ℝ) × List ℝ, ∀ it ∈ items,
      loadItem F sub (if sub then [1, 4, 6, 8] else [1, 4, 6]) it = .ok (it.key, tab it) := by
    refine ⟨fun it => match loadItem F sub (if sub then [1, 4, 6, 8] else [1, 4, 6]) it with
      | .ok t => t.2 | .error _ => ([], []), ?_⟩
    intro it hit
    obtain ⟨t, ht⟩ := hload it hit
    simp only [ht]
  have htr : Wc.traverse (loadItem F sub (if sub then [1, 4, 6, 8] else [1, 4, 6])) items =
      .ok (items.map fun it => (it.key, tab it)) := by
    have := Wc.traverse_map_ok (loadItem F sub (if sub then [1, 4, 6, 8] else [1, 4, 6])) id
      (fun it => (it.key, tab it)) items htab
    rwa [List.map_id] at this
  have htab' : ∀ it ∈ items, ∀ a b c n reff raw shot, SavedWindow F it a b c n reff raw shot → tab it =
      ((measWrites n (if a = b then .triu else .full)).map (fun e =>
        (rd (reff e.row.toNat), rd (reff e.col.toNat))),
      (measWrites n (if a = b then .triu else .full)).map fun e =>
        loadedValue rd sub raw shot e.row.toNat e.col.toNat) := by
    intro it hit a b c n reff raw shot hs
    have := htab it hit
    rw [loadItem_saved hF sub hs] at this
    simp only [Except.ok.injEq, Prod.mk.injEq, true_and] at this
    exact this.symm
  obtain ⟨paired, hpaired⟩ : ∃ paired, paired = Wc.Paired.dict (items.map fun it => (it.key, some (tab it).1)) :=
    ⟨_, rfl⟩
  obtain ⟨flat, hflat⟩ : ∃ flat, flat = items.map fun it => (it.key, (tab it).2) := ⟨_, rfl⟩
  have hkeys : (items.map Item.key).Nodup := by
    have : (items.map fun it => Wc.Key.to? it.key) = (items.map Item.key).map Wc.Key.to? := by simp
    rw [this] at hn
    exact List.Nodup.of_map _ hn
  have hat : ∀ it ∈ items, paired.at it.key = .ok (some (tab it).1) := by
    intro it hit
    rw [hpaired]
    unfold Wc.Paired.at Wc.get
    have hg := Wc.get?_of_nodup (d := items.map fun it => (it.key, some (tab it).1)) (m := it.key)
      (a := some (tab it).1) (by simpa [Function.comp_def] using hkeys) (List.mem_map.2 ⟨it, hit, rfl⟩)
    simp only [hg]
  have hacc : ∃ w, Wc.buildRaw paired flat alpha = .ok w := by
    apply Wc.C85_window_accepted
    intro p hp
    rw [hflat] at hp
    obtain ⟨it, hit, rfl⟩ := List.mem_map.1 hp
    obtain ⟨a, b, c, n, reff, raw, shot, hs⟩ := h it hit
    refine ⟨a, b, c, _, n, hs.1, hat it hit, ?_, ?_⟩
    · rw [htab' it hit _ _ _ _ _ _ _ hs]; simp
    · rw [htab' it hit _ _ _ _ _ _ _ hs]
      by_cases hab : a = b
      · rw [if_pos hab, if_pos hab]
        simpa using length_triu n
      · rw [if_neg hab, if_neg hab]
        simpa using length_full n
  obtain ⟨w, hw⟩ := hacc
  obtain ⟨w1, w2, w3⟩ := Wc.C85_window_samples paired flat alpha w (by
    rw [hflat, List.map_map]; exact hn) hw
  refine ⟨w, ?_, w1, by rw [w2, hflat, List.length_map], ?_⟩
  · unfold loadFromTextfiles
    rw [htr]
    simp only [List.map_map, Function.comp_def]
    rw [← hpaired, ← hflat]
    unfold Wc.buildWin
    rw [hw]
    simp only
    cases Wc.finish I w mk <;> rfl
  · intro it hit a b c n reff raw shot hs
    obtain ⟨m, rows, n', M, g1, g2, g3, g4, g5⟩ := w3 (it.key, (tab it).2) (by
      rw [hflat]; exact List.mem_map.2 ⟨it, hit, rfl⟩)
    have hm : m = ⟨[a, b, c]⟩ := by
      have := g1.symm.trans hs.1
      simpa using this
    subst hm
    refine ⟨g2, ?_⟩
    have ht := htab' it hit _ _ _ _ _ _ _ hs
    have hrows : rows = (tab it).1 := by
      have := g3.symm.trans (hat it hit)
      simpa using this
    rw [hrows] at g5
    simp only at g4
    rw [ht] at g4 g5
    simp only at g4 g5
    by_cases hab : a = b
    · rw [if_pos hab] at g4 g5
      have e1 := map_triu n (loadedValue rd sub raw shot)
      rw [e1] at g4
      rcases g4 with ⟨_, hsym, hfl⟩ | ⟨hbad, _⟩
      · have hnn : n' = n := by
          have l1 := length_flattenUpper n' M
          rw [hfl, length_flattenUpper] at l1
          nlinarith [hs.2.1]
        subst hnn
        have hM : ∀ i j, i < n' → j < n' → M i j = matrixOf (a = b) (loadedValue rd sub raw shot) i j := by
          intro i j hi hj
          unfold matrixOf
          rw [if_pos hab]
          rcases le_total i j with hij | hij
          · rw [min_eq_left hij, max_eq_right hij]
            exact flattenUpper_inj hfl hij hj
          · rw [min_eq_right hij, max_eq_left hij, hsym]
            exact flattenUpper_inj hfl hij hi
        have hc : ((((measWrites (n' : ℤ) .triu).map fun e =>
            (rd (reff e.row.toNat), rd (reff e.col.toNat))).take n').map Prod.snd) =
            (List.range n').map fun i => rd (reff i) := by
          obtain ⟨R, hR, hRn, _, _, _, hx⟩ := C39_reshape_upper n'
            ((measWrites (n' : ℤ) .triu).map fun e => (rd (reff e.row.toNat), rd (reff e.col.toNat)))
            (flattenUpper n' (loadedValue rd sub raw shot)) (length_flattenUpper _ _) (by
              have := length_flattenUpper n' (loadedValue rd sub raw shot)
              have := length_triu n'
              rw [List.length_map]; omega)
          have hx' := hx (fun i => rd (reff i)) rfl
          rw [← hx']
          rw [reshape_coords hR, hRn]
        rw [hc] at g5
        convert g5 using 1
        · apply List.map_congr_left
          intro i hi
          apply List.map_congr_left
          intro j hj
          rw [hM i j (List.mem_range.1 hi) (List.mem_range.1 hj)]
        · apply List.map_congr_left
          intro i hi
          rw [hM i i (List.mem_range.1 hi) (List.mem_range.1 hi)]
          unfold matrixOf
          rw [if_pos hab, min_self, max_self]
      · simp [Wc.Multipole.issym, hab] at hbad
    · rw [if_neg hab] at g4 g5
      have e1 := map_full n (loadedValue rd sub raw shot)
      rw [e1] at g4
      rcases g4 with ⟨hbad, _⟩ | ⟨_, hfl⟩
      · simp [Wc.Multipole.issym, hab] at hbad
      · have hnn : n' = n := by
          have l1 := length_flattenFull n' M
          rw [hfl, length_flattenFull] at l1
          nlinarith [hs.2.1]
        subst hnn
        have hM : ∀ i j, i < n' → j < n' → M i j = matrixOf (a = b) (loadedValue rd sub raw shot) i j := by
          intro i j hi hj
          unfold matrixOf
          rw [if_neg hab]
          exact flattenFull_inj hfl hi hj
        have hc : ((((measWrites (n' : ℤ) .full).map fun e =>
            (rd (reff e.row.toNat), rd (reff e.col.toNat))).take n').map Prod.snd) =
            (List.range n').map fun i => rd (reff i) := by
          obtain ⟨m, rfl⟩ : ∃ m, n' = m + 1 := ⟨n' - 1, by have := hs.2.1; omega⟩
          rw [measWrites_full_eq, List.range_succ_eq_map, List.flatMap_cons, List.map_append,
            List.take_left' (by simp)]
          simp [List.map_map, Function.comp_def]
        rw [hc] at g5
        convert g5 using 1
        · apply List.map_congr_left
          intro i hi
          apply List.map_congr_left
          intro j hj
          rw [hM i j (List.mem_range.1 hi) (List.mem_range.1 hj)]
        · apply List.map_congr_left
          intro i hi
          rw [hM i i (List.mem_range.1 hi) (List.mem_range.1 hi)]
          unfold matrixOf
          rw [if_neg hab]

/-! ### A concrete format and window -/

/-- Numbers rounded down and written in unary. -/
noncomputable def unary (x : ℝ) : Str :=
  ' ' :: (if ⌊x⌋ < 0 then '-' else '+') :: List.replicate ⌊x⌋.natAbs '1'

noncomputable def unaryFmt : Fmt where
  e := unary
  s := unary
  d := unary
  read w := match w with
    | [] => none
    | c :: w => some (if c = '-' then -(w.length : ℝ) else w.length)

theorem unaryFmt_ok : unaryFmt.Ok fun x => (⌊x⌋ : ℝ) := by
  have h : ∀ x, ∃ k w, unary x = List.replicate k ' ' ++ w ∧ w ≠ [] ∧ (∀ c ∈ w, ws c = false ∧ c ≠ '#') ∧
      unaryFmt.read w = some (⌊x⌋ : ℝ) := by
    intro x
    refine ⟨1, (if ⌊x⌋ < 0 then '-' else '+') :: List.replicate ⌊x⌋.natAbs '1', rfl, by simp, ?_, ?_⟩
    · intro c hc
      rcases List.mem_cons.1 hc with rfl | hc
      · by_cases hx : ⌊x⌋ < 0
        · rw [if_pos hx]; decide
        · rw [if_neg hx]; decide
      · rw [List.mem_replicate] at hc
        rw [hc.2]; decide
    · have hz : ((⌊x⌋.natAbs : ℕ) : ℝ) = |((⌊x⌋ : ℤ) : ℝ)| := by
        rw [Nat.cast_natAbs, Int.cast_abs]
      by_cases hx : ⌊x⌋ < 0
      · have h0 : ((⌊x⌋ : ℤ) : ℝ) < 0 := by exact_mod_cast hx
        simp only [unaryFmt, if_pos hx, if_true, List.length_replicate]
        rw [hz, abs_of_neg h0, _root_.neg_neg]
      · have h0 : (0 : ℝ) ≤ ((⌊x⌋ : ℤ) : ℝ) := by exact_mod_cast not_lt.1 hx
        simp only [unaryFmt, if_neg hx, List.length_replicate]
        rw [if_neg (by decide), hz, abs_of_nonneg h0]
  exact ⟨h, h, fun x => by
    obtain ⟨k, w, h1, h2, h3, h4⟩ := h x
    exact ⟨k, w, h1, h2, h3, _, h4⟩⟩

/-- The results of a measurement of a multipole. -/
noncomputable def savedRes (n : ℕ) (form : Form) (reff : ℕ → ℝ) (raw shot : ℕ → ℕ → ℂ) : Res3 where
  bin1 := (measWrites n form).map fun e => reff e.row.toNat
  bin2 := (measWrites n form).map fun e => reff e.col.toNat
  eff1 := (measWrites n form).map fun e => reff e.row.toNat
  eff2 := (measWrites n form).map fun e => reff e.col.toNat
  num1 := (measWrites n form).map fun _ => 1
  num2 := (measWrites n form).map fun _ => 1
  raw := (measWrites n form).map fun e => raw e.row.toNat e.col.toNat
  shot := (measWrites n form).map fun e => shot e.row.toNat e.col.toNat

/-- Any measurement gives a saved window. -/
theorem savedWindow_of (F : Fmt) (key : Wc.Key) (path : String) (header : Str) (a b c : ℤ)
    (hk : Wc.Key.to? key = some ⟨[a, b, c]⟩) (n : ℕ) (hn : 2 ≤ n) (reff : ℕ → ℝ) (raw shot : ℕ → ℕ → ℂ) :
    SavedWindow F ⟨key, path, savetxt F header (cppRows3 (savedRes n (if a = b then .triu else .full) reff raw shot)
      (measWrites n (if a = b then .triu else .full)).length)⟩ a b c n reff raw shot := by
  have hl : (savedRes n (if a = b then .triu else .full) reff raw shot).Len
      (measWrites n (if a = b then .triu else .full)).length := by
    simp [Res3.Len, savedRes]
  exact ⟨hk, hn, _, _, header, hl, rfl, rfl, rfl, rfl, (C119_threept { stat := "" } _ _ hl).1, rfl⟩

/-- Two windows, of degrees (0, 0, 0) and (2, 0, 2), at three and two bins. -/
noncomputable def exampleItems : List Item :=
  [⟨.str ['0', '0', '0'], "zetaw000.txt", savetxt unaryFmt [] (cppRows3 (savedRes 3 .triu (fun i => i + 1)
      (fun i j => 10 * i + j) (fun _ _ => 1)) (measWrites 3 .triu).length)⟩,
   ⟨.ints [2, 0, 2], "zetaw202.txt", savetxt unaryFmt [] (cppRows3 (savedRes 2 .full (fun i => i + 1)
      (fun i j => 10 * i + j) (fun _ _ => 1)) (measWrites 2 .full).length)⟩]

theorem exampleItems_saved : ∀ it ∈ exampleItems, ∃ a b c n reff raw shot,
    SavedWindow unaryFmt it a b c n reff raw shot := by
  intro it hit
  rcases List.mem_cons.1 hit with rfl | hit
  · exact ⟨0, 0, 0, 3, _, _, _, savedWindow_of unaryFmt _ _ [] 0 0 0 (by rfl) 3 (by norm_num) _ _ _⟩
  · rw [List.mem_singleton] at hit
    subst hit
    exact ⟨2, 0, 2, 2, _, _, _, savedWindow_of unaryFmt _ _ [] 2 0 2 (by rfl) 2 (by norm_num) _ _ _⟩

/-- The hypotheses are met by a file of an upper triangle and one of a full matrix. -/
example (I : Wc.Interp ℝ) (mk : Wc.MakeLog) : ∃ w : Wc.Win ℝ,
    loadFromTextfiles unaryFmt I exampleItems true [1, 4, 6, 8] 3 mk =
      (match Wc.finish I w mk with
        | .error e => .error e
        | .ok w' => .ok { w' with sources := ["zetaw000.txt", "zetaw202.txt"] }) ∧ w.multipoles.length = 2 := by
  obtain ⟨w, h1, _, h3, _⟩ := C120_saved_windows_load unaryFmt_ok I exampleItems true 3 mk (by decide)
    exampleItems_saved
  exact ⟨w, h1, h3⟩

/-! ### Files of other forms -/

theorem firstFail_two (m : Wc.Multipole) (x y : ℝ) : Wc.firstFail [(m, [x, y])] ≠ .shapeError := by
  have h : Wc.checkLoglin [x, y] ≠ .shapeError := by
    have hl : ¬ [x, y].length < 2 := by simp
    unfold Wc.checkLoglin
    rw [if_neg hl]
    have e1 : Arr.front2 [x, y] = some (x, y) := rfl
    have e2 : Arr.back2 [x, y] = some (y, x) := rfl
    simp only [e1, e2]
    split_ifs
    · cases Fft.logDiffs [x, y] with
      | none => simp
      | some d => by_cases hd : Fft.isclose d (Arr.mean d) <;> simp [hd]
    · simp
  unfold Wc.firstFail
  by_cases hc : Wc.checkLoglin [x, y] = .ok
  · rw [if_pos hc]; simp [Wc.firstFail]
  · rw [if_neg hc]; exact h

/-- **C120, a window saved in the diagonal form can be taken for a full one.** The full statement, that only
files of the full form are loaded, fails: three bins on the diagonal are loaded as the upper triangle of a
window at two separations, without an error, with the values of the second and third bins at the wrong pairs. -/
theorem C120_diagonal_form_violated {F : Fmt} {rd : ℝ → ℝ} (hF : F.Ok rd) (I : Wc.Interp ℝ) (path : String)
    (header : Str) (sub : Bool) (alpha : ℝ) (reff : ℕ → ℝ) (raw shot : ℕ → ℕ → ℂ) :
    ∃ w : Wc.Win ℝ, loadFromTextfiles F I [⟨.ints [0, 0, 0], path, savetxt F header
        (cppRows3 (savedRes 3 .diag reff raw shot) 3)⟩] sub (if sub then [1, 4, 6, 8] else [1, 4, 6]) alpha
          (.bool false) = .ok { w with sources := [path] } ∧
      w.Has ⟨[0, 0, 0]⟩ [rd (reff 0), rd (reff 1)]
        [[alpha ^ 2 * loadedValue rd sub raw shot 0 0, alpha ^ 2 * loadedValue rd sub raw shot 1 1],
         [alpha ^ 2 * loadedValue rd sub raw shot 1 1, alpha ^ 2 * loadedValue rd sub raw shot 2 2]]
        [alpha ^ 2 * loadedValue rd sub raw shot 0 0, alpha ^ 2 * loadedValue rd sub raw shot 2 2] := by
  have hes : measWrites ((3 : ℕ) : ℤ) .diag = [⟨0, 0, 0⟩, ⟨1, 1, 1⟩, ⟨2, 2, 2⟩] := by decide
  have hl : (savedRes 3 .diag reff raw shot).Len 3 := by
    simp only [Res3.Len, savedRes, List.length_map, hes]
    decide
  have hlen : (measWrites ((3 : ℕ) : ℤ) .diag).length = 3 := by rw [hes]; rfl
  have h1 := loadItem_rows (it := ⟨.ints [0, 0, 0], path, savetxt F header
    (cppRows3 (savedRes 3 .diag reff raw shot) 3)⟩) hF sub (measWrites ((3 : ℕ) : ℤ) .diag)
    (by rw [hlen]; decide) (reff := reff) (raw := raw) (shot := shot) (r := savedRes 3 .diag reff raw shot)
    (by rw [hlen]; exact hl) rfl rfl rfl rfl (C119_threept { stat := "" } _ 3 hl).1 rfl
  rw [hes] at h1
  simp only [List.map_cons, List.map_nil, Int.toNat_zero, Int.toNat_one, show (2 : ℤ).toNat = 2 from rfl] at h1
  obtain ⟨v, hv⟩ : ∃ v, v = loadedValue rd sub raw shot := ⟨_, rfl⟩
  rw [← hv] at h1 ⊢
  obtain ⟨R, hR, hRn, hsym, hfl, _, _⟩ := C39_reshape_upper 2
    [(rd (reff 0), rd (reff 0)), (rd (reff 1), rd (reff 1)), (rd (reff 2), rd (reff 2))] [v 0 0, v 1 1, v 2 2]
    (by simp) (by simp)
  have hco : R.coords = [rd (reff 0), rd (reff 1)] := by rw [reshape_coords hR, hRn]; rfl
  simp [flattenUpper, List.range_succ, List.range'_succ] at hfl
  have hb : Wc.buildOne (.dict [(.ints [0, 0, 0], some [(rd (reff 0), rd (reff 0)), (rd (reff 1), rd (reff 1)),
      (rd (reff 2), rd (reff 2))])]) alpha (.ints [0, 0, 0], [v 0 0, v 1 1, v 2 2]) =
      .ok (⟨[0, 0, 0]⟩, [rd (reff 0), rd (reff 1)],
        [[alpha ^ 2 * v 0 0, alpha ^ 2 * v 1 1], [alpha ^ 2 * v 1 1, alpha ^ 2 * v 2 2]]) := by
    unfold Wc.buildOne
    have e1 : Wc.Multipole.ofKey (.ints [0, 0, 0]) = .ok ⟨[0, 0, 0]⟩ := rfl
    have e2 : Wc.Multipole.issym ⟨[0, 0, 0]⟩ = .ok true := rfl
    simp only [e1, e2, Wc.Paired.at, Wc.get, Wc.get?, List.find?_cons, decide_true, Option.map_some, if_true, hR]
    rw [hco, hRn]
    simp only [List.range_succ, List.range_zero, List.nil_append, List.map_append, List.map_cons, List.map_nil,
      List.cons_append]
    rw [hsym 1 0, hfl.1, hfl.2.1, hfl.2.2]
  obtain ⟨q, hq⟩ : ∃ q, q = [[alpha ^ 2 * v 0 0, alpha ^ 2 * v 1 1], [alpha ^ 2 * v 1 1, alpha ^ 2 * v 2 2]] :=
    ⟨_, rfl⟩
  rw [← hq] at hb ⊢
  refine ⟨⟨[⟨[0, 0, 0]⟩], .dict [(⟨[0, 0, 0]⟩, [rd (reff 0), rd (reff 1)])], [(⟨[0, 0, 0]⟩, q)],
    Wc.diags [(⟨[0, 0, 0]⟩, q)], ["array"]⟩, ?_, ?_⟩
  · unfold loadFromTextfiles
    simp only [Wc.traverse, h1, List.map_cons, List.map_nil]
    unfold Wc.buildWin Wc.buildRaw
    simp only [Wc.traverse, hb, List.map_cons, List.map_nil, Wc.sortM, Wc.insertM, Wc.dictOf, List.foldl_cons,
      List.foldl_nil, Wc.dictSet, List.length_singleton, List.replicate_one]
    rw [Wc.C85_not_resampled I _ [(⟨[0, 0, 0]⟩, [rd (reff 0), rd (reff 1)])] rfl (.bool false) (Or.inr ⟨?_, rfl⟩)]
    · rfl
    · exact firstFail_two _ _ _
  · refine ⟨rfl, rfl, ?_⟩
    rw [hq]
    rfl

end Trv.Out

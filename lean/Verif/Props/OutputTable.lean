import Verif.Props.Output
/-
C118: what the argument `save` does.  C119: the columns of saved tables.
-/
namespace Trv.Out

open Trv Trv.Par Trv.Mon

/-! ### C118 -/

/-- Formats which are recognised. -/
def Recognised (s : Str) : Prop := lower s = ".txt".toList ∨ ".npz".toList <:+ lower s

/-- **C118, saving.** A measurement which succeeds is returned if `save` is false, in which case no file is
written, or if it is a recognised format, in which case exactly the file of the parameters with the suffix
of the format is written; the header is added to the returned dictionary for the NumPy format only. -/
theorem C118_saved {α : Type} (p : P) (r : α) (n : Str) (hn : pyName p = .ok n) :
    measure (.ok r) p (.bool false) = .ok ⟨r, false, none⟩ ∧
    ∀ s : Str, Recognised s → ∃ suf f h, (suf = ".txt".toList ∨ suf = ".npz".toList) ∧
      (lower s).length ≥ 4 ∧ suf <:+ lower s ∧ pyPath p suf = .ok f ∧
      measure (.ok r) p (.str s) = .ok ⟨r, h, some f⟩ ∧ (h = true ↔ suf = ".npz".toList) := by
  refine ⟨rfl, ?_⟩
  have hpath : ∀ suf, ∃ f, pyPath p suf = .ok f := by
    intro suf
    obtain ⟨a, ha, a1, a2, a3, _⟩ := pyName_tag hn
    unfold pyPath
    rw [hn]
    simp only
    -- the path has at least one component
    have hne : (Path.of (p.dir.getD []) n).parts ≠ [] := by
      have key : ∀ (a t : Str), '/' ∉ a → a ≠ [] → '.' ∉ a → comps (a ++ t) ≠ [] := by
        intro a t h1 h2 h3
        have hsp : ∀ (a t : Str), '/' ∉ a → ∃ h l, splitSlash (a ++ t) = (a ++ h) :: l := by
          intro a
          induction a with
          | nil =>
            intro t _
            cases hs : splitSlash t with
            | nil =>
              exfalso
              cases t with
              | nil => simp [splitSlash] at hs
              | cons c t =>
                rw [splitSlash] at hs
                split_ifs at hs
                split at hs <;> simp at hs
            | cons h l => exact ⟨h, l, by simpa using hs⟩
          | cons c a ih =>
            intro t h
            obtain ⟨h', l, e⟩ := ih t (by intro hc; exact h (by simp [hc]))
            refine ⟨h', l, ?_⟩
            rw [List.cons_append, splitSlash, if_neg (by intro hc; exact h (by simp [hc])), e]
            rfl
        obtain ⟨h', l, e⟩ := hsp a t h1
        unfold comps
        rw [e]
        intro hf
        rw [List.filter_eq_nil_iff] at hf
        have := hf (a ++ h') (by simp)
        simp only [decide_eq_true_eq, not_and_or, not_not] at this
        rcases this with e' | e'
        · exact h2 (by simpa using (List.append_eq_nil_iff.1 e').1)
        · cases a with
          | nil => exact h2 rfl
          | cons c a =>
            simp only [List.cons_append, List.cons.injEq] at e'
            exact h3 (by simp [e'.1])
      unfold Path.of
      simp only
      rw [ha]
      intro e
      exact key a _ a2 a3 a1 (List.append_eq_nil_iff.1 e).2
    unfold Path.withSuffix
    obtain ⟨x, hx⟩ := List.getLast?_isSome.2 hne |> Option.isSome_iff_exists.1
    rw [hx]
    exact ⟨_, rfl⟩
  intro s hs
  unfold measure finishSave
  simp only
  have hs0 : s ≠ [] := by
    rintro rfl
    rcases hs with h | h
    · exact absurd h (by decide)
    · simp [lower] at h
  rw [if_neg hs0]
  by_cases ht : lower s = ".txt".toList
  · obtain ⟨f, hf⟩ := hpath ".txt".toList
    refine ⟨".txt".toList, f, false, Or.inl rfl, by rw [ht]; decide, by rw [ht], hf, ?_, by decide⟩
    rw [if_pos ht, hf]
  · have hz : ".npz".toList <:+ lower s := hs.resolve_left ht
    obtain ⟨f, hf⟩ := hpath ".npz".toList
    refine ⟨".npz".toList, f, true, Or.inr rfl, ?_, hz, hf, ?_, by decide⟩
    · exact hz.length_le
    · rw [if_neg ht, if_pos hz, hf]

/-- **C118 fails for other values of `save`**: they are rejected only after the measurement has been made,
which is then lost.  `True` is one of them. -/
theorem C118_lost_violated {α : Type} (p : P) (r : α) (s : Str) (hs : s ≠ []) (h : ¬ Recognised s) :
    measure (.ok r) p (.str s) = .error .valueError ∧
    measure (.ok r) p (.bool true) = .error .attributeError := by
  refine ⟨?_, rfl⟩
  unfold measure finishSave
  simp only
  rw [if_neg hs, if_neg fun e => h (Or.inl e), if_neg fun e => h (Or.inr e)]

example : Recognised ".TXT".toList ∧ Recognised ".npz".toList ∧ ¬ Recognised ".hdf5".toList := by
  refine ⟨Or.inl (by decide), Or.inr (by decide), ?_⟩
  rintro (h | h)
  · exact absurd h (by decide)
  · exact absurd h (by decide)

/-! ### C119 -/

/-- **C119, any keys.** Columns of one length become a table with a row for each element, whose entry at
row `i` and column `j` is element `i` of column `j`; columns of different lengths are rejected, so that no
table is saved with elements missing or made up. -/
theorem C119_table (d : List (String × Col)) (ks : List (String × Part)) (cs : List (List ℝ))
    (hc : columns d ks = .ok cs) (hne : cs ≠ []) :
    (∀ n : ℕ, (∀ c ∈ cs, c.length = n) → ∃ t : List (List ℝ), table d ks = .ok t ∧ t.length = n ∧
      ∀ i < n, ∀ (j : ℕ) (c : List ℝ), cs[j]? = some c → (t[i]?).bind (fun row : List ℝ => row[j]?) = c[i]?) ∧
    ((∃ a ∈ cs, ∃ b ∈ cs, a.length ≠ b.length) → table d ks = .error .valueError) := by
  obtain ⟨c0, cs', rfl⟩ := List.exists_cons_of_ne_nil hne
  unfold table
  rw [hc]
  simp only [transposed]
  refine ⟨fun n hn => ?_, ?_⟩
  · have h0 := hn c0 (by simp)
    rw [if_pos fun e he => by rw [hn e he, h0], h0]
    refine ⟨_, rfl, by simp, fun i hi j c hj => ?_⟩
    have hl := hn c (List.mem_of_getElem? hj)
    rw [List.getElem?_map, List.getElem?_range hi]
    simp only [Option.map_some, Option.bind_some]
    rw [List.getElem?_map, hj]
    simp [List.getD_eq_getElem?_getD, List.getElem?_eq_getElem, hl, hi]
  · rintro ⟨a, ha, b, hb, hab⟩
    rw [if_neg fun h => hab ((h a ha).trans (h b hb).symm)]

example : columns [("a", .reals [1, 2]), ("b", .ints [3])] [("b", .whole), ("a", .whole)] =
    .ok [[3], [1, 2]] := by
  simp [columns, look, Wc.traverse, Col.part, List.lookup]

set_option maxRecDepth 20000 in
/-- **C119, power spectra.** The table has one row for each bin; every column holds what its label stands
for; and the program prints the same rows under the same labels. -/
theorem C119_powspec (ELL : ℤ) (r : ResPk) (n : ℕ) (h : r.Len n) :
    table (dictPk r) keysPk = .ok (cppRowsPk r n) ∧
    Faithful (labelsPk ELL) (cppRowsPk r n) n (meansPk ELL r) ∧
    cppLinePk ELL = '#' :: ' ' :: labelLine (labelsPk ELL) := by
  obtain ⟨h1, h2, h3, h4, h5⟩ := h
  refine ⟨?_, ⟨by simp [cppRowsPk], ?_⟩, ?_⟩
  · have hc : columns (dictPk r) keysPk = .ok [r.kbin, r.keff, r.nmodes.map fun z : ℤ => (z : ℝ),
        r.raw.map Complex.re, r.raw.map Complex.im, r.shot.map Complex.re, r.shot.map Complex.im] := by
      simp [columns, dictPk, keysPk, look, Wc.traverse, Col.part, List.lookup]
    unfold table
    rw [hc]
    simp only
    unfold transposed
    simp only
    rw [if_pos (by simp [h1, h2, h3, h4, h5])]
    rw [h1]
    refine congrArg Except.ok (List.map_congr_left fun i hi => ?_)
    have hi' : i < n := by simpa using hi
    simp [List.getD_eq_getElem?_getD, List.getElem?_eq_getElem, h1, h2, h3, h4, h5, hi']
  · intro i row hr
    have hi : i < n := by
      have := (List.getElem?_eq_some_iff.1 hr).1
      simpa [cppRowsPk] using this
    have hrow : row = [r.kbin.getD i 0, r.keff.getD i 0, ((r.nmodes.getD i 0 : ℤ) : ℝ), (r.raw.getD i 0).re,
        (r.raw.getD i 0).im, (r.shot.getD i 0).re, (r.shot.getD i 0).im] := by
      unfold cppRowsPk at hr
      simp [hi] at hr
      simp [← hr]
    subst hrow
    refine ⟨rfl, ?_⟩
    intro c l hl
    have hc : c < 7 := by
      have := (List.getElem?_eq_some_iff.1 hl).1
      simpa [labelsPk] using this
    unfold meansPk
    interval_cases c <;> simp [labelsPk, lab] at hl <;> subst hl <;>
      simp [List.getD_eq_getElem?_getD, List.getElem?_eq_getElem, h1, h2, h3, h4, h5, hi]
  · have t : ∀ k : ℕ, k < 10 → toStr (k : ℤ) = [Nat.digitChar k] := by
      intro k hk
      interval_cases k <;> decide
    unfold cppLinePk labelLine labelsPk lab
    simp only [List.zipIdx_cons, List.zipIdx_nil, List.map_cons, List.map_nil, joinC, Nat.zero_add]
    rw [t 0 (by norm_num), t 1 (by norm_num), t (1 + 1) (by norm_num), t (1 + 1 + 1) (by norm_num), t (1 + 1 + 1 + 1) (by norm_num), t (1 + 1 + 1 + 1 + 1) (by norm_num), t (1 + 1 + 1 + 1 + 1 + 1) (by norm_num)]
    simp

set_option maxRecDepth 20000 in
/-- **C119, two-point correlation functions and windows.** -/
theorem C119_corrfunc (ELL : ℤ) (r : ResXi) (n : ℕ) (h : r.Len n) :
    table (dictXi r) keysXi = .ok (cppRowsXi r n) ∧
    Faithful (labelsXi ELL) (cppRowsXi r n) n (meansXi ELL r) ∧
    cppLineXi ELL = '#' :: ' ' :: labelLine (labelsXi ELL) := by
  obtain ⟨h1, h2, h3, h4⟩ := h
  refine ⟨?_, ⟨by simp [cppRowsXi], ?_⟩, ?_⟩
  · have hc : columns (dictXi r) keysXi = .ok [r.rbin, r.reff, r.npairs.map fun z : ℤ => (z : ℝ),
        r.xi.map Complex.re, r.xi.map Complex.im] := by
      simp [columns, dictXi, keysXi, look, Wc.traverse, Col.part, List.lookup]
    unfold table
    rw [hc]
    simp only
    unfold transposed
    simp only
    rw [if_pos (by simp [h1, h2, h3, h4])]
    rw [h1]
    refine congrArg Except.ok (List.map_congr_left fun i hi => ?_)
    have hi' : i < n := by simpa using hi
    simp [List.getD_eq_getElem?_getD, List.getElem?_eq_getElem, h1, h2, h3, h4, hi']
  · intro i row hr
    have hi : i < n := by
      have := (List.getElem?_eq_some_iff.1 hr).1
      simpa [cppRowsXi] using this
    have hrow : row = [r.rbin.getD i 0, r.reff.getD i 0, ((r.npairs.getD i 0 : ℤ) : ℝ), (r.xi.getD i 0).re,
        (r.xi.getD i 0).im] := by
      unfold cppRowsXi at hr
      simp [hi] at hr
      simp [← hr]
    subst hrow
    refine ⟨rfl, ?_⟩
    intro c l hl
    have hc : c < 5 := by
      have := (List.getElem?_eq_some_iff.1 hl).1
      simpa [labelsXi] using this
    unfold meansXi
    interval_cases c <;> simp [labelsXi, lab] at hl <;> subst hl <;>
      simp [List.getD_eq_getElem?_getD, List.getElem?_eq_getElem, h1, h2, h3, h4, hi]
  · have t : ∀ k : ℕ, k < 10 → toStr (k : ℤ) = [Nat.digitChar k] := by
      intro k hk
      interval_cases k <;> decide
    unfold cppLineXi labelLine labelsXi lab
    simp only [List.zipIdx_cons, List.zipIdx_nil, List.map_cons, List.map_nil, joinC, Nat.zero_add]
    rw [t 0 (by norm_num), t 1 (by norm_num), t (1 + 1) (by norm_num), t (1 + 1 + 1) (by norm_num), t (1 + 1 + 1 + 1) (by norm_num)]
    simp

set_option maxRecDepth 20000 in
/-- **C119, bispectra.** The labels of the program are those of the Python functions if the degrees have at
most seven digits in all. -/
theorem C119_bispec (p : P) (r : Res3) (n : ℕ) (h : r.Len n) :
    table (dictBk r) keysBk = .ok (cppRows3 r n) ∧
    Faithful (labelsBk (degs p)) (cppRows3 r n) n (means3 "k" "nmodes" "bk" (degs p) r) ∧
    ((degs p).length ≤ 7 → cppLineBk p = '#' :: ' ' :: labelLine (labelsBk (degs p))) := by
  obtain ⟨h1, h2, h3, h4, h5, h6, h7, h8⟩ := h
  refine ⟨?_, ⟨by simp [cppRows3], ?_⟩, ?_⟩
  · have hc : columns (dictBk r) keysBk = .ok [r.bin1, r.eff1, r.num1.map fun z : ℤ => (z : ℝ), r.bin2, r.eff2,
        r.num2.map fun z : ℤ => (z : ℝ), r.raw.map Complex.re, r.raw.map Complex.im, r.shot.map Complex.re,
        r.shot.map Complex.im] := by
      simp [columns, dictBk, keysBk, look, Wc.traverse, Col.part, List.lookup]
    unfold table
    rw [hc]
    simp only
    unfold transposed
    simp only
    rw [if_pos (by simp [h1, h2, h3, h4, h5, h6, h7, h8])]
    rw [h1]
    refine congrArg Except.ok (List.map_congr_left fun i hi => ?_)
    have hi' : i < n := by simpa using hi
    simp [List.getD_eq_getElem?_getD, List.getElem?_eq_getElem, h1, h2, h3, h4, h5, h6, h7, h8, hi']
  · intro i row hr
    have hi : i < n := by
      have := (List.getElem?_eq_some_iff.1 hr).1
      simpa [cppRows3] using this
    have hrow : row = [r.bin1.getD i 0, r.eff1.getD i 0, ((r.num1.getD i 0 : ℤ) : ℝ), r.bin2.getD i 0,
        r.eff2.getD i 0, ((r.num2.getD i 0 : ℤ) : ℝ), (r.raw.getD i 0).re, (r.raw.getD i 0).im,
        (r.shot.getD i 0).re, (r.shot.getD i 0).im] := by
      unfold cppRows3 at hr
      simp [hi] at hr
      simp [← hr]
    subst hrow
    refine ⟨rfl, ?_⟩
    intro c l hl
    have hc : c < 10 := by
      have := (List.getElem?_eq_some_iff.1 hl).1
      simpa [labelsBk] using this
    unfold means3
    interval_cases c <;> simp [labelsBk, lab] at hl <;> subst hl <;>
      simp [List.getD_eq_getElem?_getD, List.getElem?_eq_getElem, h1, h2, h3, h4, h5, h6, h7, h8, hi]
  · intro hl
    have ht : (degs p).take 7 = degs p := List.take_of_length_le hl
    have t : ∀ k : ℕ, k < 10 → toStr (k : ℤ) = [Nat.digitChar k] := by
      intro k hk
      interval_cases k <;> decide
    unfold cppLineBk labelLine labelsBk lab
    simp only [ht, List.zipIdx_cons, List.zipIdx_nil, List.map_cons, List.map_nil, joinC, Nat.zero_add]
    rw [t 0 (by norm_num), t 1 (by norm_num), t (1 + 1) (by norm_num), t (1 + 1 + 1) (by norm_num), t (1 + 1 + 1 + 1) (by norm_num), t (1 + 1 + 1 + 1 + 1) (by norm_num), t (1 + 1 + 1 + 1 + 1 + 1) (by norm_num), t (1 + 1 + 1 + 1 + 1 + 1 + 1) (by norm_num), t (1 + 1 + 1 + 1 + 1 + 1 + 1 + 1) (by norm_num), t (1 + 1 + 1 + 1 + 1 + 1 + 1 + 1 + 1) (by norm_num)]
    simp

set_option maxRecDepth 20000 in
/-- **C119, three-point correlation functions and windows.** -/
theorem C119_threept (p : P) (r : Res3) (n : ℕ) (h : r.Len n) :
    table (dictZeta r) keysZeta = .ok (cppRows3 r n) ∧
    Faithful (labelsZeta (degs p)) (cppRows3 r n) n (means3 "r" "npairs" "zeta" (degs p) r) ∧
    ((degs p).length ≤ 7 → cppLineZeta p = '#' :: ' ' :: labelLine (labelsZeta (degs p))) := by
  obtain ⟨h1, h2, h3, h4, h5, h6, h7, h8⟩ := h
  refine ⟨?_, ⟨by simp [cppRows3], ?_⟩, ?_⟩
  · have hc : columns (dictZeta r) keysZeta = .ok [r.bin1, r.eff1, r.num1.map fun z : ℤ => (z : ℝ), r.bin2, r.eff2,
        r.num2.map fun z : ℤ => (z : ℝ), r.raw.map Complex.re, r.raw.map Complex.im, r.shot.map Complex.re,
        r.shot.map Complex.im] := by
      simp [columns, dictZeta, keysZeta, look, Wc.traverse, Col.part, List.lookup]
    unfold table
    rw [hc]
    simp only
    unfold transposed
    simp only
    rw [if_pos (by simp [h1, h2, h3, h4, h5, h6, h7, h8])]
    rw [h1]
    refine congrArg Except.ok (List.map_congr_left fun i hi => ?_)
    have hi' : i < n := by simpa using hi
    simp [List.getD_eq_getElem?_getD, List.getElem?_eq_getElem, h1, h2, h3, h4, h5, h6, h7, h8, hi']
  · intro i row hr
    have hi : i < n := by
      have := (List.getElem?_eq_some_iff.1 hr).1
      simpa [cppRows3] using this
    have hrow : row = [r.bin1.getD i 0, r.eff1.getD i 0, ((r.num1.getD i 0 : ℤ) : ℝ), r.bin2.getD i 0,
        r.eff2.getD i 0, ((r.num2.getD i 0 : ℤ) : ℝ), (r.raw.getD i 0).re, (r.raw.getD i 0).im,
        (r.shot.getD i 0).re, (r.shot.getD i 0).im] := by
      unfold cppRows3 at hr
      simp [hi] at hr
      simp [← hr]
    subst hrow
    refine ⟨rfl, ?_⟩
    intro c l hl
    have hc : c < 10 := by
      have := (List.getElem?_eq_some_iff.1 hl).1
      simpa [labelsZeta] using this
    unfold means3
    interval_cases c <;> simp [labelsZeta, lab] at hl <;> subst hl <;>
      simp [List.getD_eq_getElem?_getD, List.getElem?_eq_getElem, h1, h2, h3, h4, h5, h6, h7, h8, hi]
  · intro hl
    have ht : (degs p).take 7 = degs p := List.take_of_length_le hl
    have t : ∀ k : ℕ, k < 10 → toStr (k : ℤ) = [Nat.digitChar k] := by
      intro k hk
      interval_cases k <;> decide
    unfold cppLineZeta labelLine labelsZeta lab
    simp only [ht, List.zipIdx_cons, List.zipIdx_nil, List.map_cons, List.map_nil, joinC, Nat.zero_add]
    rw [t 0 (by norm_num), t 1 (by norm_num), t (1 + 1) (by norm_num), t (1 + 1 + 1) (by norm_num), t (1 + 1 + 1 + 1) (by norm_num), t (1 + 1 + 1 + 1 + 1) (by norm_num), t (1 + 1 + 1 + 1 + 1 + 1) (by norm_num), t (1 + 1 + 1 + 1 + 1 + 1 + 1) (by norm_num), t (1 + 1 + 1 + 1 + 1 + 1 + 1 + 1) (by norm_num), t (1 + 1 + 1 + 1 + 1 + 1 + 1 + 1 + 1) (by norm_num)]
    simp

set_option maxRecDepth 20000 in
/-- The labels of the program differ from those of the Python functions if the degrees have more than seven
digits: they are cut. -/
theorem C119_labels_violated (p : P) (h : 7 < (degs p).length) :
    cppLineBk p ≠ '#' :: ' ' :: labelLine (labelsBk (degs p)) ∧
    cppLineZeta p ≠ '#' :: ' ' :: labelLine (labelsZeta (degs p)) := by
  have t : ∀ k : ℕ, k < 10 → toStr (k : ℤ) = [Nat.digitChar k] := by
    intro k hk
    interval_cases k <;> decide
  constructor
  · intro e
    have := congrArg List.length e
    unfold cppLineBk labelLine labelsBk lab at this
    simp only [List.zipIdx_cons, List.zipIdx_nil, List.map_cons, List.map_nil, joinC, Nat.zero_add] at this
    rw [t 0 (by norm_num), t 1 (by norm_num), t (1 + 1) (by norm_num), t (1 + 1 + 1) (by norm_num),
      t (1 + 1 + 1 + 1) (by norm_num), t (1 + 1 + 1 + 1 + 1) (by norm_num),
      t (1 + 1 + 1 + 1 + 1 + 1) (by norm_num), t (1 + 1 + 1 + 1 + 1 + 1 + 1) (by norm_num),
      t (1 + 1 + 1 + 1 + 1 + 1 + 1 + 1) (by norm_num),
      t (1 + 1 + 1 + 1 + 1 + 1 + 1 + 1 + 1) (by norm_num)] at this
    simp at this
    omega
  · intro e
    have := congrArg List.length e
    unfold cppLineZeta labelLine labelsZeta lab at this
    simp only [List.zipIdx_cons, List.zipIdx_nil, List.map_cons, List.map_nil, joinC, Nat.zero_add] at this
    rw [t 0 (by norm_num), t 1 (by norm_num), t (1 + 1) (by norm_num), t (1 + 1 + 1) (by norm_num),
      t (1 + 1 + 1 + 1) (by norm_num), t (1 + 1 + 1 + 1 + 1) (by norm_num),
      t (1 + 1 + 1 + 1 + 1 + 1) (by norm_num), t (1 + 1 + 1 + 1 + 1 + 1 + 1) (by norm_num),
      t (1 + 1 + 1 + 1 + 1 + 1 + 1 + 1) (by norm_num),
      t (1 + 1 + 1 + 1 + 1 + 1 + 1 + 1 + 1) (by norm_num)] at this
    simp at this
    omega

/-- A table of two bins. -/
example : (⟨[1, 2], [1.1, 2.1], [3, 4], [⟨1, 0⟩, ⟨2, 0⟩], [⟨0, 0⟩, ⟨1, 1⟩]⟩ : ResPk).Len 2 ∧
    (⟨[1], [1], [3], [2], [2], [4], [⟨1, 0⟩], [⟨0, 0⟩]⟩ : Res3).Len 1 := by
  simp [ResPk.Len, Res3.Len]

example : (degs exampleRow).length ≤ 7 ∧ 7 < (degs { exampleRow with ell1 := 100, ell2 := 100, ELL := 10 }).length := by
  decide

end Trv.Out

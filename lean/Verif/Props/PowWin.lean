import Verif.Lemmas.PowWin
/-
Property theorems for the window convolution of power spectra (`winconv.py`): C134.
-/
namespace Trv.Wc

open Trv Trv.Fft

/-! ### C134 -/

theorem forth_hyps (conv : List (Multipole × List ℝ)) (h : Heap) (m : Multipole) :
    (∀ i, get (allocAll conv h).2 m = .ok i →
      i < (allocAll conv h).1.next ∧ get conv m = .ok ((allocAll conv h).1.arr i)) ∧
    (∀ e, get (allocAll conv h).2 m = .error e → get conv m = .error e) := by
  obtain ⟨a1, a2, a3, a4, a5, a6⟩ := allocAll_spec conv h
  have hc := get_contents (allocAll conv h).1 (allocAll conv h).2 m
  rw [a1] at hc
  constructor
  · intro i hi
    rw [hi] at hc
    exact ⟨(a4 _ (get_mem' hi)).2, hc⟩
  · intro e he
    rw [he] at hc
    exact hc

/-- **C134.** The convolved power spectra are those of the specification, in which nothing is modified:
with transforms working on new arrays (any extrapolation in the outer layer, such as the default one)
for all inputs, and with the others whenever no two multipoles are given the same array object. -/
theorem C134_values (I : Interp ℝ) (S : Pow) (h : Heap) (Pin : List (Key × ℕ)) (hlt : ∀ p ∈ Pin, p.2 < h.next)
    (hb : (∀ p ∈ S.bsjt, Fresh p.2) ∨ Apart Pin S.base.F.zTrue)
    (hf : (∀ p ∈ S.fsjt, Fresh p.2) ∨ S.base.F.multipoles.Nodup) :
    (S.convolve I h Pin).2.map Prod.fst = (powSpec I S (contents h Pin)).map Prod.fst := by
  have B := backAll_spec S.bsjt Pin (contents h Pin) S.base.F.zTrue h
    (fun z _ i hi => ⟨hlt _ (get_mem' hi), by rw [get_contents, hi]⟩)
    (fun z _ e he => by rw [get_contents, he]) hb
  unfold Pow.convolve powSpec
  rw [← B.1]
  rcases backAll S.bsjt Pin S.base.F.zTrue h with ⟨h1, _ | xi⟩
  · rfl
  simp only
  cases hc : conv2 I S.base (xi.map fun p => (p.1, p.2.map Complex.re)) with
  | error e => rfl
  | ok conv =>
    simp only
    have A := forthAll_spec I S.fsjt S.kout (allocAll conv h1).2 conv S.base.F.multipoles (allocAll conv h1).1
      (fun m _ => (forth_hyps conv h1 m).1) (fun m _ => (forth_hyps conv h1 m).2)
      (hf.imp (fun x => x) fun hn => alloc_apart conv h1 hn)
    rw [← A.1]
    rcases forthAll I S.fsjt S.kout (allocAll conv h1).2 S.base.F.multipoles (allocAll conv h1).1 with ⟨h2, _ | P⟩
    · rfl
    · rfl

/-- **C134 (part).** With transforms working on new arrays no array of the caller is modified, so that a
call can be repeated, and the arrays of the intermediate correlation functions returned hold them. -/
theorem C134_unchanged_partial (I : Interp ℝ) (S : Pow) (h : Heap) (Pin : List (Key × ℕ))
    (hlt : ∀ p ∈ Pin, p.2 < h.next) (hb : ∀ p ∈ S.bsjt, Fresh p.2) (hf : ∀ p ∈ S.fsjt, Fresh p.2) :
    (∀ i < h.next, (S.convolve I h Pin).1.arr i = h.arr i) ∧
    (∀ P ids, (S.convolve I h Pin).2 = .ok (P, ids) →
      powSpec I S (contents h Pin) = .ok (P, contents (S.convolve I h Pin).1 ids)) := by
  have B := backAll_spec S.bsjt Pin (contents h Pin) S.base.F.zTrue h
    (fun z _ i hi => ⟨hlt _ (get_mem' hi), by rw [get_contents, hi]⟩)
    (fun z _ e he => by rw [get_contents, he]) (Or.inl hb)
  have B3 := fun i hi => B.2.2 i hi (Or.inl hb)
  have B2 := B.2.1
  unfold Pow.convolve powSpec
  rw [← B.1]
  generalize backAll S.bsjt Pin S.base.F.zTrue h = r at B2 B3 ⊢
  obtain ⟨h1, _ | xi⟩ := r
  · exact ⟨B3, fun P ids he => by cases he⟩
  simp only at B2 B3 ⊢
  cases hc : conv2 I S.base (xi.map fun p => (p.1, p.2.map Complex.re)) with
  | error e => exact ⟨B3, fun P ids he => by cases he⟩
  | ok conv =>
    simp only
    obtain ⟨a1, a2, a3, a4, a5, a6⟩ := allocAll_spec conv h1
    have A := forthAll_spec I S.fsjt S.kout (allocAll conv h1).2 conv S.base.F.multipoles (allocAll conv h1).1
      (fun m _ => (forth_hyps conv h1 m).1) (fun m _ => (forth_hyps conv h1 m).2) (Or.inl hf)
    have A3 := fun i hi => A.2.2 i hi (Or.inl hf)
    have key : ∀ i < h.next, (allocAll conv h1).1.arr i = h.arr i := fun i hi => by
      rw [a6 i (by omega), B3 i hi]
    rw [← A.1]
    generalize forthAll I S.fsjt S.kout (allocAll conv h1).2 S.base.F.multipoles (allocAll conv h1).1 = r at A3 ⊢
    obtain ⟨h2, _ | P⟩ := r
    · refine ⟨fun i hi => ?_, fun P ids he => by cases he⟩
      rw [← key i hi]
      exact A3 i (by omega)
    · simp only at A3 ⊢
      refine ⟨fun i hi => ?_, fun P' ids he => ?_⟩
      · rw [← key i hi]
        exact A3 i (by omega)
      · cases he
        congr 2
        refine a1.symm.trans ?_
        unfold contents
        apply List.map_congr_left
        intro p hp
        rw [A3 _ (a4 p hp).2]

/-- Without extrapolation (or with extrapolation in the native layer) every array of the caller is
multiplied by the wavenumbers to the power 3/2, so that repeating the call convolves something
else, and the arrays returned as the intermediate correlation functions are these multiplied by the
separations to the power 3/2. -/
theorem C134_mutated_violated (I : Interp ℝ) (S : Pow) (h : Heap) (Pin : List (Key × ℕ))
    (hlt : ∀ p ∈ Pin, p.2 < h.next) (hb : ∀ p ∈ S.bsjt, InPlace p.2) (hf : ∀ p ∈ S.fsjt, InPlace p.2)
    (hA : Apart Pin S.base.F.zTrue) (hn : S.base.F.multipoles.Nodup) (P : List (Multipole × List ℂ))
    (ids : List (Multipole × ℕ)) (hr : (S.convolve I h Pin).2 = .ok (P, ids)) :
    (∀ z ∈ S.base.F.zTrue, ∃ i T, get Pin (.mp z) = .ok i ∧ get S.bsjt z = .ok T ∧
      (S.convolve I h Pin).1.arr i = scaled T (h.arr i)) ∧
    ∃ conv, powSpec I S (contents h Pin) = .ok (P, conv) ∧
      ∀ m ∈ S.base.F.multipoles, ∃ i T x, get ids m = .ok i ∧ get S.fsjt m = .ok T ∧ get conv m = .ok x ∧
        (S.convolve I h Pin).1.arr i = scaled T x := by
  have hpin : ∀ z ∈ S.base.F.zTrue, ∀ i, get Pin (.mp z) = .ok i → i < h.next := fun z _ i hi => hlt _ (get_mem' hi)
  have B := backAll_spec S.bsjt Pin (contents h Pin) S.base.F.zTrue h
    (fun z hz i hi => ⟨hpin z hz i hi, by rw [get_contents, hi]⟩)
    (fun z _ e he => by rw [get_contents, he]) (Or.inr hA)
  have B2 := B.2.1
  have BI := backAll_inplace S.bsjt hb Pin S.base.F.zTrue h
  unfold Pow.convolve at hr ⊢
  unfold powSpec
  rw [← B.1]
  generalize backAll S.bsjt Pin S.base.F.zTrue h = r at hr B2 BI ⊢
  obtain ⟨h1, _ | xi⟩ := r
  · cases hr
  have BI := BI h1 xi hA hpin rfl
  simp only at hr B2 ⊢
  cases hc : conv2 I S.base (xi.map fun p => (p.1, p.2.map Complex.re)) with
  | error e => rw [hc] at hr; cases hr
  | ok conv =>
    rw [hc] at hr
    simp only at hr ⊢
    obtain ⟨a1, a2, a3, a4, a5, a6⟩ := allocAll_spec conv h1
    have hap := alloc_apart conv h1 hn
    have A := forthAll_spec I S.fsjt S.kout (allocAll conv h1).2 conv S.base.F.multipoles (allocAll conv h1).1
      (fun m _ => (forth_hyps conv h1 m).1) (fun m _ => (forth_hyps conv h1 m).2) (Or.inr hap)
    have AI := forthAll_inplace I S.fsjt hf S.kout (allocAll conv h1).2 S.base.F.multipoles (allocAll conv h1).1
    have A3 := A.2.2
    rw [← A.1]
    generalize forthAll I S.fsjt S.kout (allocAll conv h1).2 S.base.F.multipoles (allocAll conv h1).1 = r at hr A3 AI ⊢
    obtain ⟨h2, _ | P'⟩ := r
    · cases hr
    have AI2 := AI h2 P' hap (fun m _ i hi => ((forth_hyps conv h1 m).1 i hi).1) rfl
    cases hr
    simp only at A3 ⊢
    refine ⟨fun z hz => ?_, conv, rfl, fun m hm => ?_⟩
    · obtain ⟨i, T, g1, g2, g3⟩ := BI z hz
      refine ⟨i, T, g1, g2, ?_⟩
      have hi := hpin z hz i g1
      rw [← g3, A3 i (by omega) (Or.inr fun m _ hm => ?_), a6 i (by omega)]
      have := (a4 _ (get_mem' hm)).1
      omega
    · obtain ⟨i, T, g1, g2, g3⟩ := AI2 m hm
      exact ⟨i, T, _, g1, g2, ((forth_hyps conv h1 m).1 i g1).2, g3⟩

end Trv.Wc

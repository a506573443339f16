import Verif.Spec.ProgressLine
import Verif.Lemmas.Layout
import Verif.Lemmas.Output
import Verif.Props.Monitor
/-
C166: the line of a progress bar.
-/
set_option linter.unusedSectionVars false
namespace Trv.Pln
open Trv Trv.Mon Trv.ThreePt

theorem range_cut (w k : ℕ) (h : k ≤ w) :
    (List.range w).map (fun i : ℕ => if i < k then '=' else if i = k then '>' else ' ') = drawn w k := by
  obtain ⟨m, rfl⟩ : ∃ m, w = k + m := ⟨w - k, by omega⟩
  rw [List.range_add, List.map_append, List.map_map]
  unfold drawn
  congr 1
  · rw [List.eq_replicate_iff]
    refine ⟨by simp, fun c hc => ?_⟩
    obtain ⟨i, hi, rfl⟩ := List.mem_map.1 hc
    exact if_pos (List.mem_range.1 hi)
  · cases m with
    | zero => simp
    | succ m =>
      rw [if_pos (by omega), List.range_succ_eq_map, List.map_cons, List.map_map]
      congr 1
      · simp
      · rw [List.eq_replicate_iff]
        refine ⟨by simp, fun c hc => ?_⟩
        obtain ⟨i, _, rfl⟩ := List.mem_map.1 hc
        simp

section
variable {K : Type} [Field K] [LinearOrder K] [IsStrictOrderedRing K] [FloorRing K]

theorem trunc_floor {x : K} (h : 0 ≤ x) : truncK x = ⌊x⌋ := by
  unfold truncK
  rw [if_pos h]

/-- **C166 (the bar).** For progress between zero and one, the bar has as many cells as its width,
of which the whole number below the share of the progress are filled, followed by the head unless
the bar is complete. -/
theorem C166_bar (w : ℕ) (p : K) (h0 : 0 ≤ p) (h1 : p ≤ 1) :
    cells (w : ℤ) p = drawn w ⌊(w : K) * p⌋.toNat ∧ (cells (w : ℤ) p).length = w := by
  have hw : (0 : K) ≤ (w : K) := Nat.cast_nonneg w
  have hx : 0 ≤ (w : K) * p := mul_nonneg hw h0
  have hp : pos (w : ℤ) p = ⌊(w : K) * p⌋ := by
    unfold pos
    rw [Int.cast_natCast, trunc_floor hx]
  have hk0 : 0 ≤ ⌊(w : K) * p⌋ := Int.floor_nonneg.2 hx
  have hk1 : ⌊(w : K) * p⌋ ≤ w := by
    have h2 : (⌊(w : K) * p⌋ : K) ≤ (w : K) := (Int.floor_le _).trans (mul_le_of_le_one_right hw h1)
    have : ((⌊(w : K) * p⌋ : ℤ) : K) ≤ ((w : ℤ) : K) := by rw [Int.cast_natCast]; exact h2
    exact_mod_cast this
  obtain ⟨k, hk⟩ := Int.eq_ofNat_of_zero_le hk0
  refine ⟨?_, ?_⟩
  · rw [← range_cut w _ (by omega)]
    unfold cells upto
    rw [hp, hk]
    simp only [sub_zero, Int.toNat_natCast, List.map_map]
    refine List.map_congr_left fun i _ => ?_
    simp
  · unfold cells
    rw [List.length_map, length_upto]
    simp

/-- **C166 (percentage).** For progress between zero and one, the percentage is the whole number
below, from 0 to 100, it never falls as the progress grows, and it is 100 exactly at completion. -/
theorem C166_percent (p : K) (h0 : 0 ≤ p) (h1 : p ≤ 1) :
    0 ≤ percent p ∧ percent p ≤ 100 ∧ (percent p : K) ≤ p * 100 ∧ p * 100 < (percent p : K) + 1 ∧
      (percent p = 100 ↔ p = 1) ∧ ∀ q, p ≤ q → q ≤ 1 → percent p ≤ percent q := by
  have hx : 0 ≤ p * 100 := by positivity
  have hp : percent p = ⌊p * 100⌋ := by unfold percent; exact trunc_floor hx
  have hle := Int.floor_le (p * 100)
  have hlt := Int.lt_floor_add_one (p * 100)
  have h100 : ⌊p * 100⌋ ≤ 100 := by
    have : ((⌊p * 100⌋ : ℤ) : K) ≤ ((100 : ℤ) : K) := by push_cast; linarith
    exact_mod_cast this
  rw [hp]
  refine ⟨Int.floor_nonneg.2 hx, h100, hle, hlt, ⟨fun h => ?_, fun h => ?_⟩, fun q hq hq1 => ?_⟩
  · rw [h] at hle
    push_cast at hle
    linarith
  · rw [h, one_mul]
    have := Int.floor_intCast (R := K) 100
    push_cast at this
    exact this
  · have : percent q = ⌊q * 100⌋ := by unfold percent; exact trunc_floor (by linarith)
    rw [this]
    exact Int.floor_le_floor (by linarith)

/-- **C166 (completion is always shown).** Whatever nodes in [0, 1] ending at one are set and
whatever lines were shown before, after updates below completion the update to one writes the full
bar with 100 % and ends the line; no earlier update ends a line. -/
theorem C166_completion (stamp name : List Char) (w : ℕ) (b : Bar K)
    (hnodes : ∀ x ∈ b.nodes, x ≤ 1) (hlast : b.nodes.getLast? = some 1)
    (hnext : b.next < b.nodes.length) (ps : List K) (hps : ∀ p ∈ ps, p < 1) :
    ∃ (b' : Bar K) (ts : List (List Char)), writes stamp (w : ℤ) name (ps ++ [1]) b = .ok (b', ts ++
        [stamp ++ "[".toList ++ List.replicate w '=' ++ "] 100%".toList
          ++ (if name ≠ [] then " < ".toList ++ name else []) ++ "\r\n".toList]) ∧
      ts.length = ps.length ∧
      ∀ (i : ℕ) (t : List Char), ts[i]? = some t → t = [] ∨ ∃ p, ps[i]? = some p ∧ t = line stamp (w : ℤ) name p := by
  induction ps generalizing b with
  | nil =>
    have hx : b.nodes[b.next]? = some (b.nodes[b.next]) := List.getElem?_eq_getElem hnext
    have hle : b.nodes[b.next] ≤ 1 := hnodes _ (List.getElem_mem hnext)
    have hc : cells (w : ℤ) (1 : K) = List.replicate w '=' := by
      rw [(C166_bar w 1 zero_le_one le_rfl).1]
      simp [drawn]
    have hp : percent (1 : K) = 100 := ((C166_percent (1 : K) zero_le_one le_rfl).2.2.2.2.1).2 rfl
    have ht : toStr 100 = "100".toList := by decide
    refine ⟨{ b with progress := 1, next := b.next + 1 }, [], ?_, rfl, by simp⟩
    simp only [List.nil_append, writes, write, Bar.update, le_refl, if_true, hx, hle, line, hc, hp, ht]
    simp
  | cons p ps ih =>
    have hp : p < 1 := hps p (by simp)
    have hx : b.nodes[b.next]? = some (b.nodes[b.next]) := List.getElem?_eq_getElem hnext
    have hstep : ∃ b1 shown, b.update p = .ok (b1, shown) ∧ b1.nodes = b.nodes ∧
        b1.next < b1.nodes.length := by
      unfold Bar.update
      simp only [hp.le, if_true, hx]
      by_cases hc : b.nodes[b.next] ≤ p
      · rw [if_pos hc]
        refine ⟨_, _, rfl, rfl, ?_⟩
        show b.next + 1 < b.nodes.length
        by_contra hn
        have hl : b.next = b.nodes.length - 1 := by omega
        rw [List.getLast?_eq_getElem?, ← hl, hx] at hlast
        rw [Option.some.inj hlast] at hc
        linarith
      · rw [if_neg hc]
        exact ⟨_, _, rfl, rfl, hnext⟩
    obtain ⟨b1, shown, e, e1, e2⟩ := hstep
    obtain ⟨b', ts, g1, g2, g3⟩ := ih b1 (by rw [e1]; exact hnodes) (by rw [e1]; exact hlast) e2
      (fun q hq => hps q (by simp [hq]))
    have hw : write stamp (w : ℤ) name b p
        = .ok (b1, if shown then line stamp (w : ℤ) name p else []) := by
      simp [write, e, hp.ne]
    refine ⟨b', (if shown then line stamp (w : ℤ) name p else []) :: ts, ?_, by simp [g2], ?_⟩
    · rw [List.cons_append, writes, hw]
      simp only [g1]
      rfl
    · intro i t ht
      cases i with
      | zero =>
        simp only [List.getElem?_cons_zero, Option.some.injEq] at ht
        subst ht
        cases shown
        · exact .inl rfl
        · exact .inr ⟨p, rfl, rfl⟩
      | succ i =>
        rw [List.getElem?_cons_succ] at ht
        exact g3 i t ht

/-- **C166 (spacing; negation).** Lines are not shown at the interval that was asked for: a single
update moves past at most one node, so that after a jump over `k + 1` nodes each of the next `k`
updates shows a line, however little the progress has grown. -/
theorem C166_spacing_violated (stamp name : List Char) (w : ℤ) (b : Bar K) (k : ℕ) (p : K)
    (hn : ∀ i, i ≤ k → ∃ x, b.nodes[b.next + i]? = some x ∧ x ≤ p) (ps : List K)
    (hl : ps.length = k + 1) (hps : ∀ q ∈ ps, p ≤ q ∧ q < 1) :
    ∃ b', writes stamp w name ps b = .ok (b', ps.map fun q => line stamp w name q) := by
  have step : ∀ (b : Bar K) (q : K), (∃ x, b.nodes[b.next]? = some x ∧ x ≤ p) → p ≤ q → q < 1 →
      write stamp w name b q
        = .ok ({ b with progress := q, next := b.next + 1 }, line stamp w name q) := by
    intro b q hx hq hq1
    obtain ⟨x, hx, hxp⟩ := hx
    have e : b.update q = .ok ({ b with progress := q, next := b.next + 1 }, true) := by
      simp only [Bar.update, hq1.le, if_true, hx, hxp.trans hq]
    simp [write, e, hq1.ne]
  induction k generalizing b ps with
  | zero =>
    match ps, hl with
    | [q], _ =>
      have hq := hps q (by simp)
      refine ⟨{ b with progress := q, next := b.next + 1 }, ?_⟩
      rw [writes, step b q (hn 0 le_rfl) hq.1 hq.2]
      rfl
  | succ k ih =>
    match ps, hl with
    | q :: ps, hl =>
      have hq := hps q (by simp)
      obtain ⟨b', e⟩ := ih { b with progress := q, next := b.next + 1 }
        (fun i hi => by
          obtain ⟨y, hy, hyp⟩ := hn (i + 1) (by omega)
          exact ⟨y, by rw [← hy]; congr 1; show b.next + 1 + i = _; omega, hyp⟩) ps
        (by simpa using hl) (fun r hr => hps r (by simp [hr]))
      refine ⟨b', ?_⟩
      rw [writes, step b q (hn 0 (by omega)) hq.1 hq.2]
      simp only [e, List.map_cons]

end

/-- The lines of three updates of a bar of ten cells shown every 40 %. -/
example : (match writes "t ".toList 10 "x".toList [1 / 4, 57 / 100, 1]
      (⟨4, 0, 0, [2 / 5, 4 / 5, 1], 0⟩ : Bar ℚ) with
    | .ok r => r.2 | .error _ => []) = ["".toList, "t [=====>    ] 57% < x\r".toList,
      "t [==========] 100% < x\r\n".toList] := by decide +kernel

/-- Three lines within one per cent of progress, with an interval of 20 %. -/
example : (match writes "".toList 10 "".toList [90 / 100, 901 / 1000, 902 / 1000]
      (⟨4, 0, 0, [1 / 5, 2 / 5, 3 / 5, 4 / 5, 1], 0⟩ : Bar ℚ) with
    | .ok r => r.2 | .error _ => []) = List.replicate 3 "[=========>] 90%\r".toList := by
  decide +kernel

end Trv.Pln

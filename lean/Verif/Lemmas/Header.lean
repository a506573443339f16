import Verif.Spec.Header
import Verif.Lemmas.Output
import Verif.Lemmas.OutputText
/-
Lemmas on the headers of saved files.
-/
namespace Trv.Out

open Trv Trv.Par Trv.Mon

theorem splitLines_plain {s : Str} (h : '\n' ∉ s) : splitLines s = [s] := by
  induction s with
  | nil => rfl
  | cons c s ih =>
    rw [List.mem_cons, not_or] at h
    rw [splitLines, if_neg (fun e => h.1 e.symm), ih h.2]

theorem splitLines_append {s : Str} (h : '\n' ∉ s) (t : Str) : splitLines (s ++ '\n' :: t) = s :: splitLines t := by
  induction s with
  | nil => simp [splitLines]
  | cons c s ih =>
    rw [List.mem_cons, not_or] at h
    rw [List.cons_append, splitLines, if_neg (fun e => h.1 e.symm), ih h.2]

theorem splitLines_joinNl : ∀ (ls : List Str), ls ≠ [] → (∀ l ∈ ls, '\n' ∉ l) → splitLines (joinNl ls) = ls
  | [], h, _ => absurd rfl h
  | [s], _, h => by rw [joinNl]; exact splitLines_plain (h s (by simp))
  | s :: t :: r, _, h => by
    rw [joinNl, splitLines_append (h s (by simp)), splitLines_joinNl (t :: r) (by simp)
      (fun l hl => h l (List.mem_cons_of_mem _ hl))]
    simp

theorem joinNl_append : ∀ (a b : List Str), a ≠ [] → b ≠ [] → joinNl [joinNl a, joinNl b] = joinNl (a ++ b)
  | [], _, h, _ => absurd rfl h
  | [s], b :: t, _, _ => by simp [joinNl]
  | s :: t :: r, b, _, hb => by
    have := joinNl_append (t :: r) b (by simp) hb
    simp only [joinNl] at this ⊢
    rw [List.append_assoc, List.cons_append, this]
    simp [joinNl]
  | [_], [], _, h => absurd rfl h

theorem nl_joinC : ∀ (ls : List Str), (∀ l ∈ ls, '\n' ∉ l) → '\n' ∉ joinC ls
  | [], _ => by simp [joinC]
  | [s], h => by rw [joinC]; exact h s (by simp)
  | s :: t :: r, h => by
    have := nl_joinC (t :: r) (fun l hl => h l (List.mem_cons_of_mem _ hl))
    rw [joinC]
    · simp only [List.mem_append, List.mem_cons, not_or]
      exact ⟨h s (by simp), by decide, by decide, this⟩
    · simp

theorem nl_toStr (a : ℤ) : '\n' ∉ toStr a := notMem_toStr (by decide) (by decide) a

theorem nl_degs (p : P) : '\n' ∉ degs p := by
  simp [degs, nl_toStr]

theorem nl_labelLine (ls : List Str) (h : ∀ l ∈ ls, '\n' ∉ l) : '\n' ∉ labelLine ls := by
  refine nl_joinC _ fun l hl => ?_
  obtain ⟨q, hq, rfl⟩ := List.mem_map.1 hl
  have := h q.1 (by
    have := List.mem_zipIdx' (x := q.1) (i := q.2) hq
    rw [this.2]
    exact List.getElem_mem _)
  simp [nl_toStr, this]

theorem nl_lab (a : String) (m : Str) (b : String) (ha : '\n' ∉ a.toList) (hm : '\n' ∉ m) (hb : '\n' ∉ b.toList) :
    '\n' ∉ lab a m b := by
  unfold lab
  simp [ha, hm, hb]

theorem nl_e {F : Fmt} {rd : ℝ → ℝ} (hF : F.Ok rd) (x : ℝ) : '\n' ∉ F.e x := by
  obtain ⟨k, w, h, _, hw, _⟩ := hF.e x
  rw [h, List.mem_append, not_or]
  refine ⟨fun hk => absurd (List.eq_of_mem_replicate hk) (by decide), fun hk => ?_⟩
  exact absurd (hw _ hk).1 (by decide)

/-- A formatted number does not begin with a comment character. -/
theorem head_e {F : Fmt} {rd : ℝ → ℝ} (hF : F.Ok rd) (x : ℝ) (s : Str) : (F.e x ++ s).head? ≠ some '#' := by
  obtain ⟨k, w, h, h0, hw, _⟩ := hF.e x
  rw [h]
  cases k with
  | zero =>
    cases w with
    | nil => exact absurd rfl h0
    | cons c w =>
      have := (hw c (by simp)).2
      simpa using this
  | succ k => simp [List.replicate_succ]

theorem not_prefix {l : Str} (h : l.head? ≠ some '#') : "# Normalisation factor: ".toList.isPrefixOf l = false := by
  cases l with
  | nil => rfl
  | cons c l =>
    have : c ≠ '#' := by simpa using h
    simp [List.isPrefixOf, Ne.symm this]

theorem rowLine_eq (F : Fmt) (a b c d e f g h i j : ℝ) :
    rowLine F [a, b, c, d, e, f, g, h, i, j] = cppRowLine F [a, b, c, d, e, f, g, h, i, j] := by
  simp [rowLine, cppRowLine, joinTab, rowFmt]

theorem rowLine2_five (F : Fmt) (a b c d e : ℝ) :
    rowLine2 F [a, b, c, d, e] = cppRowLine F [a, b, c, d, e] := by
  simp [rowLine2, cppRowLine, joinTab, rowFmt2]

theorem rowLine2_seven (F : Fmt) (a b c d e f g : ℝ) :
    rowLine2 F [a, b, c, d, e, f, g] = cppRowLine F [a, b, c, d, e, f, g] := by
  simp [rowLine2, cppRowLine, joinTab, rowFmt2]

end Trv.Out

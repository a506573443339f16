import Verif.Spec.Output
import Verif.Lemmas.ParamFileRound
import Verif.Lemmas.Multipole
/-
Lemmas on text tables: what is printed is read back.
-/
namespace Trv.Out

open Trv Trv.Par Trv.Mon

/-- A cell of a line: spaces and a word. -/
def IsCell (s w : Str) : Prop :=
  ∃ k, s = List.replicate k ' ' ++ w ∧ w ≠ [] ∧ ∀ c ∈ w, ws c = false ∧ c ≠ '#'

theorem words_space {c : Char} (h : ws c = true) (s : Str) : words (c :: s) = words s := by
  unfold words
  rw [pieces, if_pos h]
  simp

theorem words_replicate (k : ℕ) (s : Str) : words (List.replicate k ' ' ++ s) = words s := by
  induction k with
  | zero => rfl
  | succ k ih =>
    rw [List.replicate_succ, List.cons_append, words_space (by decide), ih]

theorem words_word {w : Str} (h0 : w ≠ []) (hw : ∀ c ∈ w, ws c = false) : words w = [w] := by
  unfold words
  rw [pieces_word hw]
  simp [h0]

theorem words_tab {w : Str} (h0 : w ≠ []) (hw : ∀ c ∈ w, ws c = false) (s : Str) :
    words (w ++ '\t' :: s) = w :: words s := by
  have hp : pieces (w ++ '\t' :: s) = w :: pieces s := by
    clear h0
    induction w with
    | nil => simp [pieces, ws]
    | cons c w ih =>
      rw [List.cons_append, pieces, if_neg (by simp [hw c (by simp)]), ih fun c hc => hw c (by simp [hc])]
  unfold words
  rw [hp]
  simp [h0]

theorem words_join {cells wds : List Str} (h : List.Forall₂ IsCell cells wds) :
    words (joinTab cells) = wds ∧ '#' ∉ joinTab cells := by
  induction h with
  | nil => exact ⟨rfl, by simp [joinTab]⟩
  | @cons s w cells wds h1 h2 ih =>
    obtain ⟨k, rfl, hw0, hw⟩ := h1
    have hns : '#' ∉ List.replicate k ' ' ++ w := by
      simp only [List.mem_append, List.mem_replicate, not_or]
      exact ⟨by rintro ⟨_, e⟩; exact absurd e (by decide), fun e => (hw _ e).2 rfl⟩
    cases h2 with
    | nil =>
      refine ⟨?_, by simpa [joinTab] using hns⟩
      rw [joinTab, words_replicate, words_word hw0 fun c hc => (hw c hc).1]
    | @cons t v cells wds g1 g2 =>
      rw [joinTab]
      · refine ⟨?_, ?_⟩
        · rw [List.append_assoc, words_replicate, words_tab hw0 fun c hc => (hw c hc).1, ih.1]
        · intro e
          rcases List.mem_append.1 e with e | e
          · exact hns e
          · rcases List.mem_cons.1 e with e | e
            · exact absurd e (by decide)
            · exact ih.2 e
      · simp

theorem takeWhile_self {s : Str} (h : '#' ∉ s) : s.takeWhile (fun c => c ≠ '#') = s := by
  induction s with
  | nil => rfl
  | cons c s ih =>
    rw [List.takeWhile_cons, if_pos (by simp; intro e; exact h (by simp [e])),
      ih fun e => h (by simp [e])]

theorem rowFmt_cell {F : Fmt} {rd : ℝ → ℝ} (hF : F.Ok rd) (j : ℕ) (x : ℝ) :
    ∃ w, IsCell (rowFmt F j x) w ∧ (j ≠ 2 → j ≠ 5 → F.read w = some (rd x)) := by
  unfold rowFmt
  split_ifs with h1 h2
  · obtain ⟨k, w, h, h0, hw, _⟩ := hF.d x
    exact ⟨w, ⟨k, h, h0, hw⟩, by omega⟩
  · obtain ⟨k, w, h, h0, hw, hr⟩ := hF.e x
    exact ⟨w, ⟨k, h, h0, hw⟩, fun _ _ => hr⟩
  · obtain ⟨k, w, h, h0, hw, hr⟩ := hF.s x
    exact ⟨w, ⟨k, h, h0, hw⟩, fun _ _ => hr⟩

/-- The words of a printed row. -/
theorem dataWords_rowLine {F : Fmt} {rd : ℝ → ℝ} (hF : F.Ok rd) (row : List ℝ) :
    (dataWords (rowLine F row)).length = row.length ∧
    ∀ (j : ℕ), j < row.length → j ≠ 2 → j ≠ 5 →
      ∃ w, (dataWords (rowLine F row))[j]? = some w ∧ F.read w = some (rd (row.getD j 0)) := by
  choose wd hwd using fun p : ℝ × ℕ => rowFmt_cell hF p.2 p.1
  have hall : List.Forall₂ IsCell (row.zipIdx.map fun p : ℝ × ℕ => rowFmt F p.2 p.1) (row.zipIdx.map wd) := by
    rw [List.forall₂_map_left_iff, List.forall₂_map_right_iff, List.forall₂_same]
    exact fun p _ => (hwd p).1
  obtain ⟨h1, h2⟩ := words_join hall
  have e : dataWords (rowLine F row) = row.zipIdx.map wd := by
    unfold dataWords rowLine
    rw [takeWhile_self h2, h1]
  rw [e]
  refine ⟨by simp, ?_⟩
  intro j hj h2 h5
  refine ⟨wd (row.getD j 0, j), ?_, (hwd (row.getD j 0, j)).2 h2 h5⟩
  simp [List.getElem?_eq_getElem hj, List.getD_eq_getElem?_getD]

theorem readRow_line {F : Fmt} {rd : ℝ → ℝ} (hF : F.Ok rd) (row : List ℝ) (usecols : List ℕ)
    (hu : ∀ c ∈ usecols, c < row.length ∧ c ≠ 2 ∧ c ≠ 5) :
    readRow F usecols (dataWords (rowLine F row)) = .ok (usecols.map fun c => rd (row.getD c 0)) := by
  have h := (dataWords_rowLine hF row).2
  unfold readRow
  have := Wc.traverse_map_ok (readCol F (dataWords (rowLine F row))) id (fun c => rd (row.getD c 0)) usecols (by
    intro c hc
    obtain ⟨h1, h2, h3⟩ := hu c hc
    obtain ⟨w, hw, hr⟩ := h c h1 h2 h3
    simp only [readCol, id, hw, hr])
  rwa [List.map_id] at this

/-- A saved table is read back, rounded, with the columns asked for. -/
theorem loadtxt_savetxt {F : Fmt} {rd : ℝ → ℝ} (hF : F.Ok rd) (header : Str) (rows : List (List ℝ))
    (usecols : List ℕ) (hr : ∀ row ∈ rows, row ≠ [] ∧ ∀ c ∈ usecols, c < row.length ∧ c ≠ 2 ∧ c ≠ 5) :
    loadtxt F usecols (savetxt F header rows) =
      .ok (rows.map fun row => usecols.map fun c => rd (row.getD c 0)) := by
  have hf : ((savetxt F header rows).map dataWords).filter (fun ws => ws ≠ []) =
      rows.map fun row => dataWords (rowLine F row) := by
    unfold savetxt
    rw [List.map_append, List.filter_append, List.map_map, List.map_map]
    have h1 : ((splitLines header).map (dataWords ∘ fun l => '#' :: ' ' :: l)).filter (fun ws => ws ≠ []) = [] := by
      rw [List.filter_eq_nil_iff]
      intro x hx
      obtain ⟨l, _, rfl⟩ := List.mem_map.1 hx
      simp [dataWords, words, pieces]
    rw [h1, List.nil_append, List.filter_eq_self.2]
    · rfl
    · intro x hx
      obtain ⟨row, hrow, rfl⟩ := List.mem_map.1 hx
      have hl := (dataWords_rowLine hF row).1
      simp only [Function.comp, ne_eq, decide_not, Bool.not_eq_eq_eq_not, Bool.not_true, decide_eq_false_iff_not]
      intro e
      rw [e] at hl
      exact (hr row hrow).1 (List.eq_nil_of_length_eq_zero hl.symm)
  unfold loadtxt
  rw [hf]
  exact Wc.traverse_map_ok _ _ _ _ fun row hrow => readRow_line hF row usecols (hr row hrow).2

end Trv.Out

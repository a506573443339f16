import Verif.Lemmas.WarnText
/-
**C143.** The text of logged warnings.
-/
namespace Trv.Log

/-- **C143.** A warning with any message (braces included) and any line of source, from a file without
braces in its name, is logged as the message followed by file, line number, category and line of source;
nothing is raised. -/
theorem C143_text_partial (message category file lineno : List Char) (source : Option (List Char))
    (hf : Plain file) (hc : Plain category) (hl : Plain lineno) :
    formatWarning message category file lineno source =
      .ok (message ++ " (".toList ++ file ++ ":".toList ++ lineno ++ ":".toList ++ category ++
        sourceText source ++ ")".toList) := by
  unfold formatWarning
  rw [format_first]
  simp only
  have h1 : Plain " (".toList := ⟨by decide, by decide⟩
  have h2 : Plain ":".toList := ⟨by decide, by decide⟩
  rw [format_double, format_plain h1, format_plain hf, format_plain h2, format_plain hl, format_plain h2,
    format_plain hc]
  have h3 : "{})".toList = ['{', '}', ')'] := by decide
  rw [h3]
  simp [format, Except.map]

/-- **C143 (violation).** A warning from a file with a name in braces in its path raises `KeyError` instead
of being logged, whatever the message. -/
theorem C143_name_violated (message category lineno p name q : List Char) (source : Option (List Char))
    (hp : Plain p) (hn : name ≠ []) (ha : name.all Char.isAlpha = true) :
    formatWarning message category (p ++ '{' :: name ++ '}' :: q) lineno source = .error .keyError := by
  unfold formatWarning
  rw [format_first]
  simp only
  have h1 : Plain " (".toList := ⟨by decide, by decide⟩
  rw [format_double, format_plain h1]
  simp only [List.append_assoc, List.cons_append]
  rw [format_plain hp]
  obtain ⟨c, name, rfl⟩ := List.exists_cons_of_ne_nil hn
  have hc : ∀ x ∈ c :: name, x ≠ '{' ∧ x ≠ '}' := by
    intro x hx
    rw [List.all_eq_true] at ha
    have := ha x hx
    constructor <;> rintro rfl <;> revert this <;> decide
  obtain ⟨hc1, hc2⟩ := hc c (by simp)
  rw [List.cons_append, format]
  · have hf : ∀ rest : List Char, fieldErr (c :: (name ++ '}' :: rest)) = .keyError := by
      intro rest
      unfold fieldErr
      rw [if_neg (by simp), if_pos]
      rw [← List.cons_append, List.takeWhile_append_of_pos]
      · simpa using ha
      · intro x hx
        simpa using (hc x hx).2
    rw [hf]
    rfl
  all_goals
    intros
    simp_all

/-- **C143 (violation).** So does, with `ValueError`, a single closing brace in the path. -/
theorem C143_brace_violated (message category lineno p q : List Char) (source : Option (List Char))
    (hp : Plain p) (hq : q.head? ≠ some '}') :
    formatWarning message category (p ++ '}' :: q) lineno source = .error .valueError := by
  unfold formatWarning
  rw [format_first]
  simp only
  have h1 : Plain " (".toList := ⟨by decide, by decide⟩
  rw [format_double, format_plain h1]
  simp only [List.append_assoc, List.cons_append]
  rw [format_plain hp]
  rw [format]
  · rfl
  · intro t h
    cases q with
    | nil =>
      have h2 : ":".toList = [':'] := by decide
      rw [h2] at h
      injection h with h _
      exact absurd h (by decide)
    | cons c q =>
      apply hq
      rw [List.cons_append] at h
      injection h with h _
      simp [h]

/-- A message with braces from an ordinary file. -/
example : formatWarning "Unknown key {a}.".toList "UserWarning".toList "/home/x.py".toList "12".toList
    (some "    f({a})\n".toList) = .ok "Unknown key {a}. (/home/x.py:12:UserWarning --> \"f({a})\")".toList := by
  decide +kernel

/-- A path as made by templates of projects. -/
example : formatWarning "Overflow.".toList "UserWarning".toList "/home/{project}/x.py".toList "12".toList none =
    .error .keyError := by decide +kernel

end Trv.Log

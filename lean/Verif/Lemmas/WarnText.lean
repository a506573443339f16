import Verif.Model.WarnText
import Mathlib.Tactic.Common
/-
Lemmas on `str.format`.
-/
namespace Trv.Log

/-- Neither brace occurs. -/
def Plain (s : List Char) : Prop := '{' ∉ s ∧ '}' ∉ s

theorem format_plain_cons {c : Char} (h1 : c ≠ '{') (h2 : c ≠ '}') (t : List Char) (args : List (List Char)) :
    format (c :: t) args = (format t args).map (c :: ·) := by
  rw [format] <;> simp_all

theorem format_plain {s : List Char} (hs : Plain s) (t : List Char) (args : List (List Char)) :
    format (s ++ t) args = (format t args).map (s ++ ·) := by
  induction s with
  | nil =>
    rw [List.nil_append]
    cases format t args <;> rfl
  | cons c s ih =>
    obtain ⟨h1, h2⟩ := hs
    simp only [List.mem_cons, not_or] at h1 h2
    rw [List.cons_append, format_plain_cons (Ne.symm h1.1) (Ne.symm h2.1), ih ⟨h1.2, h2.2⟩]
    cases format t args <;> rfl

/-- Doubled braces are undone by `str.format`. -/
theorem format_double (s t : List Char) (args : List (List Char)) :
    format (double '}' (double '{' s) ++ t) args = (format t args).map (s ++ ·) := by
  induction s with
  | nil => cases h : format t args <;> simp [double, h, Except.map]
  | cons c s ih =>
    by_cases h1 : c = '{'
    · subst h1
      have : double '}' (double '{' ('{' :: s)) = '{' :: '{' :: double '}' (double '{' s) := by
        simp [double]
      rw [this, List.cons_append, List.cons_append, format, ih]
      cases format t args <;> rfl
    · by_cases h2 : c = '}'
      · subst h2
        have : double '}' (double '{' ('}' :: s)) = '}' :: '}' :: double '}' (double '{' s) := by
          simp [double]
        rw [this, List.cons_append, List.cons_append, format, ih]
        cases format t args <;> rfl
      · have : double '}' (double '{' (c :: s)) = c :: double '}' (double '{' s) := by
          simp [double, h1, h2]
        rw [this, List.cons_append, format_plain_cons h1 h2, ih]
        cases format t args <;> rfl

/-- The first formatting only concatenates. -/
theorem format_first (a b c d : List Char) : format "{} ({}:{}:{}{{}})".toList [a, b, c, d] =
    .ok (a ++ (" (".toList ++ (b ++ (":".toList ++ (c ++ (":".toList ++ (d ++ "{})".toList))))))) := by
  have : "{} ({}:{}:{}{{}})".toList =
    ['{', '}', ' ', '(', '{', '}', ':', '{', '}', ':', '{', '}', '{', '{', '}', '}', ')'] := by decide
  rw [this]
  have h1 : ∀ (t : List Char) (args : List (List Char)), format (' ' :: t) args = (format t args).map (' ' :: ·) :=
    format_plain_cons (by decide) (by decide)
  have h2 : ∀ (t : List Char) (args : List (List Char)), format ('(' :: t) args = (format t args).map ('(' :: ·) :=
    format_plain_cons (by decide) (by decide)
  have h3 : ∀ (t : List Char) (args : List (List Char)), format (':' :: t) args = (format t args).map (':' :: ·) :=
    format_plain_cons (by decide) (by decide)
  have h4 : ∀ (t : List Char) (args : List (List Char)), format (')' :: t) args = (format t args).map (')' :: ·) :=
    format_plain_cons (by decide) (by decide)
  have h5 : ∀ args, format [] args = .ok [] := fun args => by rw [format]
  have h6 : ∀ (t a : List Char) (args : List (List Char)), format ('{' :: '}' :: t) (a :: args) =
    (format t args).map (a ++ ·) := fun t a args => by rw [format]
  have h7 : ∀ (t : List Char) (args : List (List Char)), format ('{' :: '{' :: t) args =
    (format t args).map ('{' :: ·) := fun t args => by rw [format]
  have h8 : ∀ (t : List Char) (args : List (List Char)), format ('}' :: '}' :: t) args =
    (format t args).map ('}' :: ·) := fun t args => by rw [format]
  simp only [h1, h2, h3, h4, h5, h6, h7, h8, Except.map]
  simp

end Trv.Log

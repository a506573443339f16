import Verif.Model.Common
import Mathlib.Data.List.Basic
/-
Model of the text of logged warnings: `_format_warning` in `/repo/src/triumvirate/logger.py`, lines
109-143, with the part of Python's `str.format` it uses.

Simplifications: strings are lists of characters.  The line number and the name of the category are given
as text.  Replacement fields other than `{}` and `{name}` with a name made of letters are not modelled
(`FmtErr.unmodelled`).
-/
namespace Trv.Log

/-- What `str.format` with positional arguments raises. -/
inductive FmtErr
  | valueError
  | keyError
  | indexError
  | unmodelled
deriving DecidableEq

/-- The exception of a replacement field which is not `{}`, from what follows its brace: a name made of
letters is not among the (positional) arguments. -/
def fieldErr (t : List Char) : FmtErr :=
  if ¬ '}' ∈ t then .valueError
  else if (t.takeWhile (· ≠ '}')).all Char.isAlpha then .keyError
  else .unmodelled

/-- `str.format(*args)`. -/
def format : List Char → List (List Char) → Except FmtErr (List Char)
  | [], _ => .ok []
  | '{' :: '{' :: t, args => (format t args).map ('{' :: ·)
  | '{' :: '}' :: t, a :: args => (format t args).map (a ++ ·)
  | '{' :: '}' :: _, [] => .error .indexError
  | '{' :: t, _ => .error (fieldErr t)
  | '}' :: '}' :: t, args => (format t args).map ('}' :: ·)
  | '}' :: _, _ => .error .valueError
  | c :: t, args => (format t args).map (c :: ·)

/-- `s.replace(c, c + c)` for a character. -/
def double (c : Char) (s : List Char) : List Char := s.flatMap fun x => if x = c then [c, c] else [x]

/-- `s.strip()`. -/
def strip (s : List Char) : List Char :=
  ((s.dropWhile Char.isWhitespace).reverse.dropWhile Char.isWhitespace).reverse

/-- `logger.py:134-141`: what is inserted for the line of source; `none` and an empty line give nothing. -/
def sourceText : Option (List Char) → List Char
  | none => []
  | some [] => []
  | some (c :: s) => " --> \"".toList ++ strip (c :: s) ++ "\"".toList

/-- `logger.py:109-143`: `_format_warning`; `source` is the line given, or the one found in the file. -/
def formatWarning (message category file lineno : List Char) (source : Option (List Char)) :
    Except FmtErr (List Char) :=
  match format "{} ({}:{}:{}{{}})".toList [double '}' (double '{' message), file, lineno, category] with
  | .error e => .error e
  | .ok txt => format txt [sourceText source]

end Trv.Log

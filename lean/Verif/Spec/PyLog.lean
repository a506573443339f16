import Verif.Model.PyLog
/-
Specification of logging: it does not change the outcome, and the log shows where a measurement failed.
-/
namespace Trv.Plog

open Trv

variable {S : Type}

/-- The outcome without logging. -/
def outcome : List (Step S) → S → Except PyErr S
  | [], x => .ok x
  | .act _ f :: t, x =>
    match f x with
    | .ok y => outcome t y
    | .error e => .error e
  | _ :: t, x => outcome t x

/-- Whether the statement which fails, if any, is announced as a C++ call. -/
def failing : List (Step S) → S → Option Bool
  | [], _ => none
  | .act b f :: t, x =>
    match f x with
    | .ok y => failing t y
    | .error _ => some b
  | _ :: t, x => failing t x

/-- A status line which ends with a text. -/
def ends (m : String) (l : Line) : Bool := decide (l.1 = 15) && m.toList.isSuffixOf l.2

/-- The numbers of entries into C++ and of returns in a log. -/
def entries (ls : List Line) : ℕ := ls.countP (ends " (entering C++)")
def returns (ls : List Line) : ℕ := ls.countP (ends " (exited C++)")

/-- The number of returns which are missing. -/
def missing : Option Bool → ℕ
  | some true => 1
  | _ => 0

end Trv.Plog

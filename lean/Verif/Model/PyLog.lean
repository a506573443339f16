import Verif.Model.Common
import Verif.Model.OptionCase
/-
Model of logging in the Python functions: the adapter and its setting up (`/repo/src/triumvirate/logger.py`
74-106, 146-201) and the calls of the logger in the measurement functions (`twopt.py` 395-665, 953-1175,
1400-1587, `threept.py` 470-740, 1400-1620, 1910-2105) and in the validation of parameters (`parameters.pyx`
548-610).

Simplifications: of the standard library (`logging/__init__.py`) what is modelled is that `Logger` has no
method `stat`, that `LoggerAdapter` has it after `setup_logger`, that a message is dealt with only if the logger is
enabled for its level, and that `Logger._log` raises `TypeError` for a keyword it does not know.  A message is its
text after formatting (the texts added by the adapter contain no format).  What the measurement functions do
between the calls is a list of given functions.
-/
namespace Trv.Plog

open Trv

abbrev Str := List Char

/-- The logger passed: a `logging.Logger` (the documented type), a plain `logging.LoggerAdapter`, or the adapter
returned by `setup_logger` (`logger.py:199`). -/
inductive Kind
  | plain | adapter | cpp
  deriving DecidableEq

/-- A logger with `isEnabledFor`. -/
structure Lg where
  kind : Kind
  enabled : ℕ → Bool

/-- The keyword `cpp_state`: not passed, a string, or another object by its truth value. -/
inductive CppState
  | absent
  | text (s : String)
  | flag (b : Bool)
  deriving DecidableEq

/-- `logger.py:79-106`: `process`. -/
def process (msg : Str) : CppState → Str
  | .absent => msg
  | .flag b => if b then msg ++ " (in C++)".toList else msg
  | .text s =>
    if Par.lower s = "start" then msg ++ " (entering C++)".toList
    else if Par.lower s = "end" then msg ++ " (exited C++)".toList
    else if s ≠ "" then msg ++ " (in C++)".toList
    else msg

/-- A line of the log: level and text. -/
abbrev Line := ℕ × Str

/-- `Logger.info`, `LoggerAdapter.log` of the standard library, with `_CppLogAdapter.process`. -/
def emit (l : Lg) (level : ℕ) (msg : Str) (c : CppState) : Except PyErr (List Line) :=
  if l.enabled level then
    match l.kind with
    | .cpp => .ok [(level, process msg c)]
    | _ => if c = .absent then .ok [(level, msg)] else .error .typeError
  else .ok []

/-- `logging.LoggerAdapter.stat`, defined by `setup_logger` (`logger.py:194-196`). -/
def stat (hasStat : Bool) (l : Lg) (msg : Str) (c : CppState) : Except PyErr (List Line) :=
  match l.kind with
  | .plain => .error .attributeError
  | _ => if hasStat then emit l 15 msg c else .error .attributeError

/-- `twopt.py:407-411, 519-529` and so on: `try: logger.stat(…) except AttributeError: logger.info(…)`. -/
def status (hasStat : Bool) (l : Lg) (msg : Str) (c : CppState) : Except PyErr (List Line) :=
  match stat hasStat l msg c with
  | .error .attributeError => emit l 20 msg c
  | r => r

/-- `parameters.pyx:552-555, 606-609`: `except (AttributeError, TypeError): pass`. -/
def guarded (hasStat : Bool) (l : Lg) (msg : Str) (c : CppState) : Except PyErr (List Line) :=
  match stat hasStat l msg c with
  | .error .attributeError => .ok []
  | .error .typeError => .ok []
  | r => r

/-- A statement of a measurement function; `act` is marked if it is announced as a C++ call. -/
inductive Step (S : Type)
  | status (msg : S → Str) (c : CppState)
  | guarded (msg : S → Str) (c : CppState)
  | info (msg : S → Option Str)
  | act (announced : Bool) (f : S → Except PyErr S)

variable {S : Type}

/-- What a statement logs. -/
def Step.log (hasStat : Bool) (l : Lg) (x : S) : Step S → Except PyErr (List Line)
  | .status msg c => Plog.status hasStat l (msg x) c
  | .guarded msg c => Plog.guarded hasStat l (msg x) c
  | .info msg =>
    match msg x with
    | some m => emit l 20 m .absent
    | none => .ok []
  | .act _ _ => .ok []

/-- What a statement does. -/
def Step.exec (x : S) : Step S → Except PyErr S
  | .act _ f => f x
  | _ => .ok x

/-- `if logger:` before each call. -/
def logOf (hasStat : Bool) (l : Option Lg) (s : Step S) (x : S) : Except PyErr (List Line) :=
  match l with
  | some l => s.log hasStat l x
  | none => .ok []

/-- A measurement function: the lines logged and the outcome. -/
def run (hasStat : Bool) (l : Option Lg) : List (Step S) → S → List Line × Except PyErr S
  | [], x => ([], .ok x)
  | s :: t, x =>
    match logOf hasStat l s x with
    | .error e => ([], .error e)
    | .ok a =>
      match s.exec x with
      | .error e => (a, .error e)
      | .ok y => (a ++ (run hasStat l t y).1, (run hasStat l t y).2)

/-- What happens between the calls of the logger. -/
structure Acts (S : Type) where
  params : S → Except PyErr S
  binning : S → Except PyErr S
  los : S → Except PyErr S
  box : S → Except PyErr S
  boxMsg : S → Option Str
  mesh : S → Except PyErr S
  meshMsg : S → Option Str
  align : S → Except PyErr S
  density : S → Except PyErr S
  densityMsg : S → Option Str
  convert : S → Except PyErr S
  alpha : S → Except PyErr S
  alphaMsg : S → Option Str
  norms : S → Except PyErr S
  normMsg : S → Option Str
  before : S → Str
  compute : S → Except PyErr S
  after : S → Str
  save : S → Except PyErr S
  saveMsg : S → Option Str

def text (s : String) : S → Str := fun _ => s.toList

/-- `twopt.py:395-665`, `threept.py:470-740`: the survey functions. -/
def survey (A : Acts S) : List (Step S) :=
  [.act false A.params, .status (text "Parameter set have been initialised.") .absent,
    .act false A.binning, .status (text "Binning has been initialised.") .absent,
    .act false A.los, .status (text "Lines of sight have been initialised.") .absent,
    .act false A.box, .info A.boxMsg, .act false A.mesh, .info A.meshMsg,
    .act false A.align, .status (text "Catalogues have been aligned.") .absent,
    .status (text "Preparing catalogue for clustering algorithm...") (.text "start"), .act true A.convert,
    .status (text "... prepared catalogue for clustering algorithm.") (.text "end"),
    .act false A.alpha, .info A.alphaMsg, .act false A.norms, .info A.normMsg,
    .status A.before (.text "start"), .act true A.compute, .status A.after (.text "end"),
    .act false A.save, .info A.saveMsg]

/-- `twopt.py:945-1175`, `threept.py:1395-1620`: the functions for simulations. -/
def sim (A : Acts S) : List (Step S) :=
  [.act false A.params, .status (text "Parameter set have been initialised.") .absent,
    .act false A.binning, .status (text "Binning has been initialised.") .absent,
    .act false A.box, .info A.boxMsg, .act false A.mesh, .info A.meshMsg,
    .act false A.align, .status (text "Catalogue box has been periodised.") .absent,
    .act false A.density, .info A.densityMsg,
    .status (text "Preparing catalogue for clustering algorithm...") (.text "start"), .act true A.convert,
    .status (text "... prepared catalogue for clustering algorithm.") (.text "end"),
    .act false A.norms, .info A.normMsg,
    .status A.before (.text "start"), .act true A.compute, .status A.after (.text "end"),
    .act false A.save, .info A.saveMsg]

/-- `twopt.py:1425-1587`, `threept.py:1930-2105`: the window functions, which convert the catalogue without a
message. -/
def window (A : Acts S) : List (Step S) :=
  [.act false A.params, .status (text "Parameter set have been initialised.") .absent,
    .act false A.binning, .status (text "Binning has been initialised.") .absent,
    .act false A.los, .status (text "Lines of sight have been initialised.") .absent,
    .act false A.align, .status (text "Catalogues have been aligned.") .absent,
    .act false A.convert, .act false A.norms, .info A.normMsg,
    .status A.before (.text "start"), .act true A.compute, .status A.after (.text "end"),
    .act false A.save, .info A.saveMsg]

end Trv.Plog

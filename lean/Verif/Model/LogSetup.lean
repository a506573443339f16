import Mathlib.Data.Nat.Notation
import Verif.Model.Common
/-
The state of the logging facility of Python and `setup_logger` (`logger.py:146-201`).

Modelled of the standard library (CPython `logging/__init__.py`, `warnings.py`): the handlers and the level of the root
logger, `logging.disable`, the handler of last resort, the handlers of the logger `py.warnings`, `captureWarnings` with
the function it saves, `warnings.showwarning`, `warnings.formatwarning`.  Not modelled: filters, other named loggers, the
text of a line (`C55`, `C143`), streams which are closed or replaced.
-/
namespace Trv.Lset

/-- Where a line goes. -/
inductive Sink where
  | stdout | stderr | null | other (k : ℕ)
  deriving DecidableEq, Repr

/-- A handler with its level. -/
structure Handler where
  sink : Sink
  level : ℕ
  deriving DecidableEq, Repr

/-- `warnings.showwarning`: that of the library, `logging._showwarning`, or one of the application. -/
inductive Show where
  | default | logging | app (k : ℕ)
  deriving DecidableEq, Repr

/-- `warnings.formatwarning`: that of the library or `_format_warning`. -/
inductive Style where
  | default | trv
  deriving DecidableEq, Repr

/-- What a line says: a message logged, or a warning in one of the two styles. -/
inductive Text where
  | message (m : String) | warning (s : Style) (m : String)
  deriving DecidableEq, Repr

structure State where
  root : List Handler
  level : ℕ
  disabled : ℕ
  pyWarn : List Handler
  shown : Show
  saved : Option Show
  style : Style
  deriving DecidableEq, Repr

/-- `logging/__init__.py`: `captureWarnings`. -/
def capture (b : Bool) (s : State) : State :=
  match b, s.saved with
  | true, none => { s with saved := some s.shown, shown := .logging }
  | false, some x => { s with saved := none, shown := x }
  | _, _ => s

/-- `logger.py:171-181`: the handler. -/
def ownHandler : Handler := ⟨.stdout, 0⟩

/-- `logger.py:167-201`: `setup_logger`; the adapter returned refers to the root logger. -/
def setup (n : ℕ) (s : State) : State :=
  let h := if s.root.isEmpty then s.root else []
  capture true { s with root := h ++ [ownHandler], level := n, style := .trv }

/-- `Logger.isEnabledFor` of the root logger, and of `py.warnings` whose level is not set. -/
def State.enabled (s : State) (l : ℕ) : Bool := decide (s.disabled < l) && decide (s.level ≤ l)

/-- `Logger.callHandlers`: the handlers of the logger and of the root logger; if there is none, the handler of last
resort, which writes warnings and errors to the standard error. -/
def callHandlers (hs : List Handler) (l : ℕ) (t : Text) : List (Sink × Text) :=
  if hs.isEmpty then (if 30 ≤ l then [(.stderr, t)] else [])
  else (hs.filter fun h => decide (h.level ≤ l)).map fun h => (h.sink, t)

/-- A message at a level, logged by any adapter returned by `setup_logger`. -/
def log (s : State) (l : ℕ) (m : String) : List (Sink × Text) :=
  if s.enabled l then callHandlers s.root l (.message m) else []

/-- A warning which passes the filters: `logging._showwarning` adds a handler without effect to `py.warnings` if it has
none, and logs at level 30. -/
def warn (s : State) (m : String) : List (Sink × Text) × State :=
  match s.shown with
  | .default => ([(.stderr, .warning s.style m)], s)
  | .app k => ([(.other k, .warning s.style m)], s)
  | .logging =>
    let s := if s.pyWarn.isEmpty then { s with pyWarn := [⟨.null, 0⟩] } else s
    (if s.enabled 30 then callHandlers (s.pyWarn ++ s.root) 30 (.warning s.style m) else [], s)

/-- What a program does with the facility. -/
inductive Op where
  | setup (n : ℕ) | addRoot (h : Handler) | setLevel (n : ℕ) | disable (n : ℕ) | capture (b : Bool)
  | setShow (k : Show) | warn (m : String) | log (l : ℕ) (m : String)

def step (s : State) : Op → State
  | .setup n => Lset.setup n s
  | .addRoot h => { s with root := s.root ++ [h] }
  | .setLevel n => { s with level := n }
  | .disable n => { s with disabled := n }
  | .capture b => Lset.capture b s
  | .setShow k => { s with shown := k }
  | .warn m => (Lset.warn s m).2
  | .log _ _ => s

def run (s : State) (ops : List Op) : State := ops.foldl step s

/-- The state of a new interpreter. -/
def fresh : State := ⟨[], 30, 0, [], .default, none, .default⟩

end Trv.Lset

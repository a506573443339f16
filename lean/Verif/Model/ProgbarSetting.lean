import Verif.Model.Progress
import Verif.Model.Multipole
import Verif.Model.ParamsPy
/-
Model of the entry `progbar` of a parameter set, in Python (`parameters.pyx:540-541, 589-601`) and
in the program (`parameters.cpp:318, 377-379, 1407-1411`), up to the bar of a three-point
measurement (`threept.cpp:428-445`).

Simplifications: Python's `int` of a string is the one of `Model/Multipole.lean` (a sign and decimal
digits); a Python float is given by its text; the other parameters are taken to be valid.
-/
namespace Trv.Pbs
open Trv Trv.Mon Trv.Prg

/-- The values the entry can hold. -/
inductive Val
  | none
  | bool (b : Bool)
  | int (i : ℤ)
  | float (t : List Char)
  | str (s : List Char)
  deriving DecidableEq, Repr

/-- Python's `str` of the value, unless it is `None`. -/
def Val.text : Val → Option (List Char)
  | .none => Option.none
  | .bool true => some "True".toList
  | .bool false => some "False".toList
  | .int i => some (toStr i)
  | .float t => some t
  | .str s => some s

/-- The entry of the dictionary and the C++ member. -/
structure State where
  entry : Val
  cpp : List Char
  deriving DecidableEq, Repr

/-- `parameters.pyx:540-541`: the C++ member is set from the entry, unless that is `None`. -/
def send (s : State) : State :=
  match s.entry.text with
  | Option.none => s
  | some t => { s with cpp := Par.lowerS t }

/-- `parameters.pyx:589-601`: the entry is fetched back; `none` is the `RuntimeError`. -/
def fetch (t : List Char) : Option Val :=
  match Wc.pyInt t with
  | .ok i => some (.int i)
  | .error _ =>
    if t = "true".toList then some (.bool true)
    else if t = "false".toList then some (.bool false)
    else Option.none

/-- `parameters.pyx:298-609` for this entry: `_parse_params` followed by `_validate`; the flag
tells whether a `RuntimeError` is raised. -/
def parse (s : State) : State × Bool :=
  let s := send s
  match fetch s.cpp with
  | some v => ({ s with entry := v }, false)
  | Option.none => (s, true)

/-- `parameters.pyx:168-181, 257-263`: an assignment to the entry (`some v`), or to another one. -/
def assign (o : Option Val) (s : State) : State × Bool :=
  parse (match o with | some v => { s with entry := v } | Option.none => s)

/-- A history of assignments, each accepted or rejected, with the flags. -/
def history : List (Option Val) → State → State × List Bool
  | [], s => (s, [])
  | o :: l, s =>
    let r := assign o s
    let q := history l r.1
    (q.1, r.2 :: q.2)

/-- `parameters.pyx:114-139`, `parameters.hpp:195`: construction with an entry. -/
def construct (v : Val) : State × Bool := parse { entry := v, cpp := "false".toList }

/-- `threept.cpp:428-445` on the text: what the measurement makes of the C++ member; `num` is
`std::stof` (`monitor.cpp:649-657`). -/
def switchOf {K : Type} (num : List Char → Option K) (t : List Char) : Switch K :=
  if t = "false".toList then .off
  else if t = "true".toList then .on
  else match num t with
    | some x => .every x
    | Option.none => .other

/-- `parameters.cpp:318, 377-379` and 1407-1411: the member in the program, from the word in the
parameter file and from the environment, if they are given; neither is checked. -/
def programText (word env : Option (List Char)) : List Char :=
  match env with
  | some e => e
  | Option.none => match word with
    | some w => if w = [] then "false".toList else w
    | Option.none => "false".toList

end Trv.Pbs

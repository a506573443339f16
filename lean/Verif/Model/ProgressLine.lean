import Verif.Model.Monitor
import Verif.Model.Layout
/-
Model of the line which a progress bar prints (`/repo/src/triumvirate/src/monitor.cpp:585-642`).
The timestamp and colour codes are given as a text in front of the bar.
-/
namespace Trv.Pln
open Trv Trv.Mon Trv.ThreePt

section
variable {K : Type} [Field K] [LinearOrder K] [FloorRing K]

/-- `monitor.cpp:590`: `int pos = this->bar_width * this->progress`, truncated. -/
def pos (w : ℤ) (p : K) : ℤ := truncK ((w : K) * p)

/-- `monitor.cpp:607-616`: the cells of the bar. -/
def cells (w : ℤ) (p : K) : List Char :=
  (upto 0 w).map fun i => if i < pos w p then '=' else if i = pos w p then '>' else ' '

/-- `monitor.cpp:620`: `int(progress * 100.)`. -/
def percent (p : K) : ℤ := truncK (p * 100)

/-- `monitor.cpp:592-629`: the line; `stamp` is the timestamp and status in front. -/
def line (stamp : List Char) (w : ℤ) (name : List Char) (p : K) : List Char :=
  stamp ++ "[".toList ++ cells w p ++ "] ".toList ++ toStr (percent p) ++ "%".toList
    ++ (if name ≠ [] then " < ".toList ++ name else []) ++ "\r".toList

/-- `monitor.cpp:585-642`: an update with what it writes; completion ends the line (641). -/
def write (stamp : List Char) (w : ℤ) (name : List Char) (b : Bar K) (p : K) :
    Except CppErr (Bar K × List Char) :=
  match b.update p with
  | .error e => .error e
  | .ok (b', shown) => .ok (b', (if shown then line stamp w name p else [])
      ++ (if p = 1 then "\n".toList else []))

/-- A sequence of updates, with what each of them writes. -/
def writes (stamp : List Char) (w : ℤ) (name : List Char) : List K → Bar K →
    Except CppErr (Bar K × List (List Char))
  | [], b => .ok (b, [])
  | p :: ps, b =>
    match write stamp w name b p with
    | .error e => .error e
    | .ok (b', t) =>
      match writes stamp w name ps b' with
      | .error e => .error e
      | .ok (b'', ts) => .ok (b'', t :: ts)

end
end Trv.Pln

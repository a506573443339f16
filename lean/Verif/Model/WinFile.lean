import Verif.Model.WinBuild
import Mathlib.Logic.Function.Basic
import Mathlib.Data.List.Infix
/-
Model of `ThreePointWindow.save_to_file` and `ThreePointWindow.load_from_file`
(`/repo/src/triumvirate/winconv.py`, lines 1072-1119).

Simplifications: a file system maps paths to the windows saved there; files which cannot be written are
left out, as are files which were not written by `save_to_file`.  Pickling keeps the objects
it is given, and an array of strings keeps the strings.  The attributes `multipoles` and `sources` of a
window which was loaded are arrays instead of lists, with the same elements in the same order.
-/
namespace Trv.Wc

open Trv

variable {K : Type}

/-- A path. -/
abbrev FPath := List Char

/-- What is stored by `np.savez`: one entry per attribute.  A dictionary becomes an object array of
dimension zero; an array of sample points is stored as it is. -/
structure WinFile (K : Type) where
  r : RAttr K
  Q : List (Multipole × List (List K))
  qDiag : List (Multipole × List K)
  multipoles : List Multipole
  sources : List String

/-- The saved windows of a file system. -/
abbrev WinDisk (K : Type) := FPath → Option (WinFile K)

/-- What stops loading: a missing file, or an exception. -/
inductive LoadErr
  | missing
  | py (e : PyErr)
  deriving DecidableEq, Repr

/-- `np.savez` appends the suffix unless the path has it. -/
def npzPath (p : FPath) : FPath := if ".npz".toList <:+ p then p else p ++ ".npz".toList

/-- `winconv.py:1101-1119`: `save_to_file`. -/
def Win.save (w : Win K) (D : WinDisk K) (p : FPath) : WinDisk K :=
  Function.update D (npzPath p) (some ⟨w.r, w.Q, w.qDiag, w.multipoles, w.sources⟩)

/-- What is loaded: a window, or an object whose attribute `r` is a number (its other attributes are
those of the window). -/
inductive Loaded (K : Type)
  | win (w : Win K)
  | number (v : K) (w : Win K)

/-- `winconv.py:1091-1098`: the attributes taken from a file.  `ndarray.item()` gives the dictionary of
an array of dimension zero and the number in an array of one number; it raises for other
sizes. -/
def WinFile.read (f : WinFile K) : Except PyErr (Loaded K) :=
  match f.r with
  | .dict d => .ok (.win ⟨f.multipoles, .dict d, f.Q, f.qDiag, f.sources⟩)
  | .arr [v] => .ok (.number v ⟨f.multipoles, .arr [v], f.Q, f.qDiag, f.sources⟩)
  | .arr _ => .error .valueError

/-- `winconv.py:1072-1100`: `load_from_file` (`np.load` takes the path as it is). -/
def loadFromFile (D : WinDisk K) (p : FPath) : Except LoadErr (Loaded K) :=
  match D p with
  | none => .error .missing
  | some f =>
    match f.read with
    | .error e => .error (.py e)
    | .ok l => .ok l

/-! ### Sessions -/

/-- A step of a session which holds one window. -/
inductive WinOp
  | select (rr : RRange ℝ) (ir : IRange)
  | resample (size : Option ℤ)
  | save (p : FPath)
  | load (p : FPath)

/-- The window and the files after a step; a call which raises leaves what it left. -/
noncomputable def WinOp.step (I : Interp ℝ) (hashable : Bool) (s : Win ℝ × WinDisk ℝ) : WinOp → Win ℝ × WinDisk ℝ
  | .select rr ir => ((subselect hashable s.1 rr ir true).1, s.2)
  | .resample size =>
    match s.1.resample I size with
    | .error _ => s
    | .ok w => (w, s.2)
  | .save p => (s.1, s.1.save s.2 p)
  | .load p =>
    match loadFromFile s.2 p with
    | .ok (.win w) => (w, s.2)
    | _ => s

/-- A session. -/
noncomputable def winRun (I : Interp ℝ) (hashable : Bool) (s : Win ℝ × WinDisk ℝ) (ops : List WinOp) :
    Win ℝ × WinDisk ℝ := ops.foldl (WinOp.step I hashable) s

end Trv.Wc

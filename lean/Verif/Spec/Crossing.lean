import Verif.Model.Crossing
/-
What a failure of the C++ library should look like in Python.
-/
namespace Trv.Ext

open Trv

/-- A call is safe when a C++ exception is a Python exception: the process is not ended. -/
def Crossed.Safe {α : Type} (c : Crossed α) : Prop := c ≠ .terminated

/-- The Python exception which stands for a C++ one, after the documentation of Cython: `ValueError` for
`std::invalid_argument`, `RuntimeError` for `std::runtime_error`. -/
def Stands : CppErr → Raised → Prop
  | .invalidParameter, y => y = .valueError
  | .invalidData, y => y = .runtimeError
  | .ioError, y => y = .runtimeError
  | .runtimeError, y => y = .runtimeError
  | _, _ => False

/-- The gamma function has a pole at `x`. -/
def Pole (x : ℝ) : Prop := ∃ n : ℕ, x = -n

end Trv.Ext

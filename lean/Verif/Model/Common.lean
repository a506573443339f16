/-
Shared vocabulary of the models: the exceptions raised by the Python layer and
by the C++ layer, as values.
-/
namespace Trv

/-- Python exceptions which the modelled functions can raise. -/
inductive PyErr
  | typeError | valueError | indexError | keyError | nameError
  | attributeError | zeroDivisionError | invalidParameterError
  deriving DecidableEq, Repr

/-- C++ failures: `trvs::InvalidParameterError`, `trvs::InvalidDataError`, an
access outside an allocated array (undefined behaviour), `trvs::IOError`, the
conversion of a value out of range of the integer type (undefined behaviour), and
`std::runtime_error`. -/
inductive CppErr
  | invalidParameter | invalidData | outOfBounds | ioError | undefined | runtimeError
  deriving DecidableEq, Repr

end Trv

import Verif.Model.NormMesh
import Verif.Model.TwoPt
import Verif.Model.Bispec
import Verif.Model.ThreePcf
import Verif.Model.Fftlog
/-
Model of how C++ exceptions cross into Python: the declarations of the C++ functions in the Cython
sources, the exceptions which Cython raises for them, and the functions of `_twopt.pyx`,
`_threept.pyx` and `_fftlog.pyx` which call them.

Cython catches C++ exceptions only in calls of functions declared `except +` (external functions
are `noexcept` otherwise); an exception thrown in any other call is caught by nobody, for which
`std::terminate` ends the process.  The exceptions are `std::invalid_argument`
(`InvalidParameterError`, `monitor.hpp:731`), for which Cython raises `ValueError`, and
`std::runtime_error` (`InvalidDataError`, `monitor.hpp:755`, `IOError`, `monitor.hpp:707`), for
which it raises `RuntimeError`.
-/
namespace Trv.Ext

open Trv Trv.Par Trv.Cat

/-- The C++ functions called by the Python package. -/
inductive Fn
  | powspecNormParticles | powspecNormMesh | powspecNormMeshes
  | powspec | corrfunc | powspecBox | corrfuncBox | corrfuncWindow
  | bispecNormParticles | bispecNormMesh
  | bispec | threepcf | bispecBox | threepcfBox | threepcfWindow
  | hankelNew | hankelInitialise | hankelTransform
  | catalogueNew | catalogueLoad | binningNew | binningSet | fieldStatsNew | binnedVectors | validate
  deriving DecidableEq

/-- Whether the function is declared `except +`: `_twopt.pyx:27-111`, `_threept.pyx:27-94`,
`_fftlog.pxd:21-30`, `_field.pxd:12-18`, `_particles.pxd:9-14`, `dataobjs.pxd:27-30`,
`parameters.pxd:81`. -/
def exceptPlus : Fn → Bool
  | .powspecNormParticles | .bispecNormParticles => true
  | .hankelInitialise | .hankelTransform => true
  | .catalogueLoad | .binningNew | .binningSet | .binnedVectors | .validate => true
  | _ => false

/-- The Python exceptions raised by Cython. -/
inductive Raised | valueError | runtimeError
  deriving DecidableEq

/-- How a call from Python ends. -/
inductive Crossed (α : Type)
  | value (a : α)
  | raised (x : Raised)
  | terminated
  | undefined

/-- The Python exception for a C++ exception; `none` for what is not an exception but undefined
behaviour. -/
def translate : CppErr → Option Raised
  | .invalidParameter => some .valueError
  | .invalidData | .ioError | .runtimeError => some .runtimeError
  | .outOfBounds | .undefined => none

/-- A call from Python of a C++ function with a given outcome. -/
def cross {α : Type} (f : Fn) : Except CppErr α → Crossed α
  | .ok a => .value a
  | .error x =>
    match translate x with
    | none => .undefined
    | some y => if exceptPlus f then .raised y else .terminated

/-- What follows a call, if this returns. -/
def Crossed.bind {α β : Type} (c : Crossed α) (g : α → Crossed β) : Crossed β :=
  match c with
  | .value a => g a
  | .raised x => .raised x
  | .terminated => .terminated
  | .undefined => .undefined

/-- `twopt.py:553-562`: the normalisation factors of a survey two-point statistic, from the
outcome of the particle-based one; the mesh-based ones do not throw but in the validation of the
parameters `p` for the mixed-mesh one (`_twopt.pyx:111-162`, constants at `twopt.py:54-56`). -/
def surveyNorms {K : Type} [Field K] [LinearOrder K] [FloorRing K] (e : Env K) (fuel : ℕ)
    (part : Except CppErr ℝ) (a b : V3 K) (p : Params K) : Crossed (ℝ × Params K) :=
  (cross .powspecNormParticles part).bind fun x =>
    match Prog.normValidated e fuel (1 / 10) 10 "cic" a b p with
    | none => .undefined
    | some r => (cross .powspecNormMeshes r).bind fun q => .value (x, q)

/-- `_fftlog.pyx:72-90`: the construction of a Hankel transform. -/
noncomputable def hankel (mu q : ℝ) : Crossed Unit := cross .hankelNew (Fft.construct mu q)

/-- `transforms.py:144-150`: that of a spherical Bessel transform of a degree and a bias. -/
noncomputable def sphericalBessel (degree bias : ℝ) : Crossed Unit := hankel (degree + 1 / 2) bias

end Trv.Ext

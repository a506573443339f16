import Verif.Model.Common
import Verif.Model.Mesh
import Verif.Model.FieldStats
import Mathlib.Analysis.SpecialFunctions.Trigonometric.Inverse
/-
Model of the assignment window and shot-noise aliasing in Fourier space
(`/repo/src/triumvirate/src/field.cpp` 1114-1201, 1764-1785, 3403-3564) and of the reduced
spherical harmonics (`/repo/src/triumvirate/src/maths.cpp` 171-220), over the real numbers.
-/
namespace Trv.Win
open Trv.Mesh Trv.Stats

/-! ### Assignment window -/

/-- `field.cpp:1138-1145`: one axis, `u = M_PI * i / ngrid`, `(i != 0) ? sin(u) / u : 1`. -/
noncomputable def sincAxis (n i : ℤ) : ℝ :=
  let u := Real.pi * i / n
  if i ≠ 0 then Real.sin u / u else 1

/-- `field.cpp:1136-1149`: the window computed afresh. -/
noncomputable def windowFresh (n : Fin 3 → ℤ) (i j k : ℤ) (order : ℕ) : ℝ :=
  let i := shiftIndex (n 0) i
  let j := shiftIndex (n 1) j
  let k := shiftIndex (n 2) k
  (sincAxis (n 0) i * sincAxis (n 1) j * sincAxis (n 2) k) ^ order

/-- The cached window of a mesh field: `window_assign_order` (initially -1) and `window`. -/
structure Cache where
  order : ℤ
  window : ℤ → ℝ

/-- A new field (`field.hpp`: `int window_assign_order = -1`). -/
def Cache.new : Cache := ⟨-1, fun _ => 0⟩

/-- `field.cpp:1114-1150`: `calc_assignment_window_in_fourier`. -/
noncomputable def calcWindow (n : Fin 3 → ℤ) (C : Cache) (i j k order : ℤ) : Except CppErr ℝ :=
  if order < 0 then .error .invalidParameter
  else if order = C.order then .ok (C.window (gridIndex n i j k))
  else .ok (windowFresh n i j k order.toNat)

/-- `field.cpp:1185-1197`: the loop, cells in the order of the list. -/
noncomputable def fillWindow (n : Fin 3 → ℤ) (order : ℤ) :
    List (ℤ × ℤ × ℤ) → Cache → Except CppErr Cache
  | [], C => .ok C
  | c :: cs, C => match calcWindow n C c.1 c.2.1 c.2.2 order with
    | .error e => .error e
    | .ok x => fillWindow n order cs
        { C with window := fun g => if g = gridIndex n c.1 c.2.1 c.2.2 then x else C.window g }

/-- `field.cpp:1152-1201`: `compute_assignment_window_in_fourier`; `sched` is the order in which
the cells are processed. -/
noncomputable def computeWindow (n : Fin 3 → ℤ) (sched : List (ℤ × ℤ × ℤ)) (C : Cache) (order : ℤ) :
    Except CppErr Cache :=
  if order < 0 then .error .invalidParameter
  else if C.order = order then .ok C
  else match fillWindow n order sched C with
    | .error e => .error e
    | .ok C => .ok { C with order := order }

/-- Requests to a field. -/
inductive Req
  | value (i j k order : ℤ)
  | compute (sched : List (ℤ × ℤ × ℤ)) (order : ℤ)

/-- The state after a request, accepted or rejected. -/
noncomputable def request (n : Fin 3 → ℤ) (C : Cache) : Req → Cache
  | .value .. => C
  | .compute sched order => match computeWindow n sched C order with
    | .error _ => C
    | .ok C' => C'

/-- `field.cpp:1764-1785`: `apply_assignment_compensation`: the window of the assignment order is
computed and each cell divided by it (real and imaginary parts alike). -/
noncomputable def compensate (n : Fin 3 → ℤ) (sched : List (ℤ × ℤ × ℤ)) (C : Cache) (order : ℤ)
    (field : ℤ → ℂ) : Except CppErr (Cache × (ℤ → ℂ)) :=
  match computeWindow n sched C order with
  | .error e => .error e
  | .ok C => .ok (C, fun g => field g / (C.window g : ℂ))

/-! ### Shot-noise aliasing -/

/-- `field.cpp:3445-3457`: `get_shotnoise_aliasing_sin2` on one axis. -/
noncomputable def sin2Axis (n i : ℤ) : ℝ :=
  let i := shiftIndex n i
  let u := Real.pi * i / n
  if i ≠ 0 then Real.sin u * Real.sin u else 0

/-- `field.cpp:3476-3507`: the factor of one axis. -/
noncomputable def aliasAxis : Scheme → ℝ → ℝ
  | .ngp, _ => 1
  | .cic, s => 1 - 2 / 3 * s
  | .tsc, s => 1 - s + 2 / 15 * s * s
  | .pcs, s => 1 - 4 / 3 * s + 2 / 5 * s * s - 4 / 315 * s * s * s

/-- `field.cpp:3476-3507`: aliasing without interlacing. -/
noncomputable def aliasing (sch : Scheme) (n : Fin 3 → ℤ) (i j k : ℤ) : ℝ :=
  aliasAxis sch (sin2Axis (n 0) i) * aliasAxis sch (sin2Axis (n 1) j) *
    aliasAxis sch (sin2Axis (n 2) k)

/-- `field.cpp:3459-3474`: `uhalf`. -/
noncomputable def uHalf (n : Fin 3 → ℤ) (i j k : ℤ) : ℝ :=
  let ux := Real.pi * shiftIndex (n 0) i / n 0
  let uy := Real.pi * shiftIndex (n 1) j / n 1
  let uz := Real.pi * shiftIndex (n 2) k / n 2
  Real.sqrt (ux * ux + uy * uy + uz * uz) / 2

/-- `params.assignment_order` (`parameters.cpp`). -/
def orderOf : Scheme → ℕ
  | .ngp => 1 | .cic => 2 | .tsc => 3 | .pcs => 4

/-- `field.cpp:3504-3527`: aliasing with interlacing. -/
noncomputable def aliasingInterlaced (sch : Scheme) (n : Fin 3 → ℤ) (i j k : ℤ) : ℝ :=
  let u := uHalf n i j k
  let s2h := Real.sin u * Real.sin u
  let c2h := Real.cos u * Real.cos u
  c2h ^ orderOf sch * aliasAxis sch s2h

/-- `field.cpp:2532-2565, 2626-2642`: power and shot noise of a mode without interlacing: both are
divided by the aliasing function. -/
noncomputable def modePower (fa fb : ℂ) (win : ℝ) (ylm : ℂ) : ℂ :=
  fa * (starRingEnd ℂ) fb / (win : ℂ) * ylm
noncomputable def modeShot (amp : ℂ) (al win : ℝ) (ylm : ℂ) : ℂ :=
  amp * (al : ℂ) / (win : ℂ) * ylm

/-! ### Reduced spherical harmonics -/

/-- `maths.cpp:194-205`: the azimuthal angle. -/
noncomputable def azimuth (x y : ℝ) : ℝ :=
  let xy := Real.sqrt (x * x + y * y)
  if |xy| ≥ 1 / 1000000000 then
    let phi := Real.arccos (x / xy)
    if y < 0 then -phi + 2 * Real.pi else phi
  else 0

/-- `maths.cpp:171-220`: `calc_reduced_spherical_harmonic`; `P ell m mu` is
`gsl_sf_legendre_sphPlm`.  `std::pow(-1, (m - |m|)/2)` has an integer exponent. -/
noncomputable def reducedYlm (P : ℕ → ℕ → ℝ → ℝ) (ell : ℕ) (m : ℤ) (x y z : ℝ) : ℂ :=
  if ell = 0 ∧ m = 0 then 1 else
  let r := Real.sqrt (x * x + y * y + z * z)
  if |r| < 1 / 1000000000 then 0 else
  let mu := z / r
  let phi := azimuth x y
  let ylm := Complex.exp (Complex.I * m * phi) * (P ell m.natAbs mu : ℂ)
  let ylm := (-1 : ℂ) ^ ((m - |m|) / 2) * (starRingEnd ℂ) ylm
  ylm * (Real.sqrt (4 * Real.pi / (2 * ell + 1)) : ℂ)

end Trv.Win

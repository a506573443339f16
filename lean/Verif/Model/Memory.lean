import Verif.Model.Common
import Mathlib.Data.Rat.Defs
import Mathlib.Algebra.Order.Ring.Rat
import Mathlib.Algebra.BigOperators.Group.List.Basic
/-
Model of the accounting of memory and mesh grids: the global counters of
`/repo/src/triumvirate/src/monitor.cpp`, lines 93-106, and every place outside the code for graphics cards
and outside dead code where they change: `particles.cpp`, lines 47-79, `field.cpp`, lines 56-79, 391-408,
478-497, 1165-1200, 1209-1226 (and the like), 2096-2113, 2193-2250, 2447-2499, 3529-3563, `twopt.cpp`,
lines 162-203, `threept.cpp`, lines 342-351 and 1000-1003 (and the like), and
`/repo/src/triumvirate/main/triumvirate.cpp`, lines 337-343, 365-371, 913-924 and 962-969.

Objects live in a list indexed by identity, `none` once destroyed.  With each object are kept the flags
by which the code decides what to release, and separately the lengths of the arrays it really owns.

Simplifications: the counters are exact; in the code they are binary floating-point numbers, exact as long
as they are below 2^53 bytes and 2^23 grids.  The assignment scheme is one of the supported ones, so that
computing the aliasing function does not throw after it has been counted.  Allocations succeed.
-/
namespace Trv.Mem

/-- The counters (`monitor.cpp` lines 93-106). -/
structure Counters where
  rgrid : ℤ
  cgrid : ℤ
  grid : ℚ
  mem : ℚ
  maxR : ℤ
  maxC : ℤ
  maxGrid : ℚ
  maxMem : ℚ
deriving DecidableEq

/-- Sizes of types in bytes (`particles.hpp` lines 63-69 and `dataobjs.hpp` lines 186-188 for the structures
made of doubles). -/
def szComplex : ℕ := 16
def szDouble : ℕ := 8
def szInt : ℕ := 4
def szParticle : ℕ := 56
def szLos : ℕ := 24

/-- `size_in_gb` (`monitor.hpp` lines 280-299). -/
def sizeInGb (size : ℕ) (num : ℤ) : ℚ := num * size / 1073741824

/-- `update_maxmem` (`monitor.cpp` lines 164-175). -/
def updMem (c : Counters) : Counters := { c with maxMem := if c.mem > c.maxMem then c.mem else c.maxMem }

/-- `update_maxcntgrid` (`monitor.cpp` lines 177-187). -/
def updGrid (c : Counters) : Counters :=
  { c with
    maxR := if c.rgrid > c.maxR then c.rgrid else c.maxR
    maxC := if c.cgrid > c.maxC then c.cgrid else c.maxC
    maxGrid := if c.grid > c.maxGrid then c.grid else c.maxGrid }

/-- Counting memory, e.g. `field.cpp` lines 1211-1212. -/
def addMem (size : ℕ) (num : ℤ) (c : Counters) : Counters :=
  updMem { c with mem := c.mem + sizeInGb size num }

/-- Discounting memory, e.g. `field.cpp` line 1226. -/
def subMem (size : ℕ) (num : ℤ) (c : Counters) : Counters := { c with mem := c.mem - sizeInGb size num }

/-- Counting complex grids, e.g. `field.cpp` lines 58-60 and `threept.cpp` lines 346-348. -/
def addC (n : ℤ) (c : Counters) : Counters := updGrid { c with cgrid := c.cgrid + n, grid := c.grid + n }

/-- Discounting complex grids, e.g. `field.cpp` lines 487-488. -/
def subC (n : ℤ) (c : Counters) : Counters := { c with cgrid := c.cgrid - n, grid := c.grid - n }

/-- Counting a real grid, e.g. `field.cpp` lines 1179-1181. -/
def addR (c : Counters) : Counters := updGrid { c with rgrid := c.rgrid + 1, grid := c.grid + 1 / 2 }

/-- Discounting a real grid, e.g. `field.cpp` lines 479-480. -/
def subR (c : Counters) : Counters := { c with rgrid := c.rgrid - 1, grid := c.grid - 1 / 2 }

/-- The objects with their flags and the arrays they own. -/
inductive Obj
  /-- A mesh field: mesh size, whether `field_s` is allocated, `window_assign_order`, length of `window`. -/
  | mesh (nmesh : ℕ) (shadow : Bool) (order : ℤ) (window : Option ℕ)
  /-- Field statistics: mesh size, `plan_ini` (with `twopt_3d`), `alias_ini`, length of `alias_sn`. -/
  | stats (nmesh : ℕ) (plan aliased : Bool) (aliasSn : Option ℕ)
  /-- A catalogue: `ntotal`, and the number of particles in the array at `pdata`. -/
  | cat (ntotal : ℤ) (pdata : Option ℕ)
  /-- A temporary array: size of its type, number of elements. -/
  | buf (size num : ℕ)
  /-- The four arrays of spherical harmonics of a three-point measurement. -/
  | work (nmesh : ℕ)
deriving DecidableEq

/-- The counters and the objects. -/
structure World where
  c : Counters
  heap : List (Option Obj)

/-- At the start of the program. -/
def World.init : World := ⟨⟨0, 0, 0, 0, 0, 0, 0, 0⟩, []⟩

/-- What the program does with the objects. -/
inductive Op
  /-- A constructor of `MeshField`. -/
  | newMesh (nmesh : ℕ) (interlace : Bool)
  /-- `compute_assignment_window_in_fourier`. -/
  | window (i : ℕ) (order : ℤ)
  /-- The constructor of `FieldStats`. -/
  | newStats (nmesh : ℕ) (plan : Bool)
  /-- `compute_shotnoise_aliasing`. -/
  | aliasing (i : ℕ)
  /-- The constructor of `ParticleCatalogue`. -/
  | newCat
  /-- `initialise_particles`. -/
  | initCat (i : ℕ) (num : ℤ)
  /-- `finalise_particles`. -/
  | finalCat (i : ℕ)
  /-- The allocation of a temporary array. -/
  | newBuf (size num : ℕ)
  /-- The allocation of the arrays of a three-point measurement. -/
  | newWork (nmesh : ℕ)
  /-- A destructor, or the release of a temporary array. -/
  | drop (i : ℕ)
deriving DecidableEq

/-- The object of an identity, if it is alive. -/
def World.obj (w : World) (i : ℕ) : Option Obj := (w.heap[i]?).join

/-- Both constructors of `MeshField` (`field.cpp` lines 56-79 and 391-408). -/
def meshNew (nmesh : ℕ) (interlace : Bool) (c : Counters) : Counters :=
  let c := addMem szComplex nmesh (addC 1 c)
  if interlace then addMem szComplex nmesh (addC 1 c) else c

/-- The destructor of `MeshField` (`field.cpp` lines 478-497). -/
def meshDrop (nmesh : ℕ) (shadow : Bool) (order : ℤ) (c : Counters) : Counters :=
  let c := if order ≠ -1 then subMem szDouble nmesh (subR c) else c
  let c := subMem szComplex nmesh (subC 1 c)
  if shadow then subMem szComplex nmesh (subC 1 c) else c

/-- The constructor of `FieldStats` (`field.cpp` lines 2096-2113). -/
def statsNew (nmesh : ℕ) (plan : Bool) (c : Counters) : Counters :=
  if plan then addMem szComplex nmesh (addC 1 c) else c

/-- The destructor of `FieldStats` (`field.cpp` lines 2193-2250). -/
def statsDrop (nmesh : ℕ) (plan aliased : Bool) (c : Counters) : Counters :=
  let c := if aliased then subMem szDouble nmesh (subR c) else c
  if plan then subMem szComplex nmesh (subC 1 c) else c

/-- `reset_particles` (`particles.cpp` lines 72-78) of a catalogue with this total and this array. -/
def resetCat (ntotal : ℤ) (pdata : Option ℕ) (c : Counters) : Counters :=
  if pdata.isSome then subMem szParticle ntotal c else c

/-- `initialise_particles` (`particles.cpp` lines 58-65) with a positive number: the total is set before
the old array is discounted. -/
def catInit (num : ℤ) (pdata : Option ℕ) (c : Counters) : Counters :=
  addMem szParticle num (resetCat num pdata c)

/-- Releasing an object. -/
def Obj.drop : Obj → Counters → Counters
  | .mesh nmesh shadow order _, c => meshDrop nmesh shadow order c
  | .stats nmesh plan aliased _, c => statsDrop nmesh plan aliased c
  | .cat ntotal pdata, c => resetCat ntotal pdata c
  | .buf size num, c => subMem size num c
  | .work nmesh, c => subMem szComplex (4 * nmesh) (subC 4 c)

/-- One step.  Methods of objects which are not alive or are of another type do nothing. -/
def step (w : World) : Op → World
  | .newMesh nmesh interlace =>
    ⟨meshNew nmesh interlace w.c, w.heap ++ [some (.mesh nmesh interlace (-1) none)]⟩
  | .window i order =>
    match w.obj i with
    | some (.mesh nmesh shadow old win) =>
      if order < 0 then w              -- throws
      else if old = order then w
      else if old = -1 then
        ⟨addMem szDouble nmesh (addR w.c), w.heap.set i (some (.mesh nmesh shadow order (some nmesh)))⟩
      else ⟨w.c, w.heap.set i (some (.mesh nmesh shadow order win))⟩
    | _ => w
  | .newStats nmesh plan => ⟨statsNew nmesh plan w.c, w.heap ++ [some (.stats nmesh plan false none)]⟩
  | .aliasing i =>
    match w.obj i with
    | some (.stats nmesh plan aliased _) =>
      if aliased then w
      else ⟨addMem szDouble nmesh (addR w.c), w.heap.set i (some (.stats nmesh plan true (some nmesh)))⟩
    | _ => w
  | .newCat => ⟨w.c, w.heap ++ [some (.cat 0 none)]⟩
  | .initCat i num =>
    match w.obj i with
    | some (.cat _ pdata) =>
      if num ≤ 0 then w                -- throws
      else ⟨catInit num pdata w.c, w.heap.set i (some (.cat num (some num.toNat)))⟩
    | _ => w
  | .finalCat i =>
    match w.obj i with
    | some (.cat ntotal pdata) => ⟨resetCat ntotal pdata w.c, w.heap.set i (some (.cat ntotal none))⟩
    | _ => w
  | .newBuf size num => ⟨addMem size num w.c, w.heap ++ [some (.buf size num)]⟩
  | .newWork nmesh =>
    ⟨addMem szComplex (4 * nmesh) (addC 4 w.c), w.heap ++ [some (.work nmesh)]⟩
  | .drop i =>
    match w.obj i with
    | some o => ⟨o.drop w.c, w.heap.set i none⟩
    | none => w

/-- A history. -/
def run (ops : List Op) : World := ops.foldl step World.init

/-- The total of a catalogue. -/
def World.total (w : World) (i : ℕ) : ℤ :=
  match w.obj i with
  | some (.cat ntotal _) => ntotal
  | _ => 0

/-- The start of the program (`triumvirate.cpp` lines 210-278 and 337-371): the catalogues are objects 0 and
1; those in use are loaded, and the lines of sight of their particles are allocated as objects 2 and 3. -/
def mainStart (flagData flagRand : Bool) (nd nr : ℕ) : List Op :=
  [.newCat] ++ (if flagData then [.initCat 0 nd] else []) ++ [.newCat] ++
    (if flagRand then [.initCat 1 nr] else []) ++
    [.newBuf szLos (if flagData then nd else 0), .newBuf szLos (if flagRand then nr else 0)]

/-- The end of the program (`triumvirate.cpp` lines 913-924): the particles are discounted by the catalogues
and the lines of sight by the totals. -/
def mainEnd (w : World) : Counters :=
  let w' := step (step w (.finalCat 0)) (.finalCat 1)
  subMem szLos (w'.total 0 + w'.total 1) w'.c

/-- Whether the program warns of memory which is not released (`triumvirate.cpp` lines 962-969). -/
def uncleared (c : Counters) : Bool := decide (c.mem > 0)

end Trv.Mem

import Verif.Model.Common
import Mathlib.Algebra.Order.Field.Basic
import Mathlib.Algebra.Order.Floor.Ring
import Mathlib.Data.Fin.VecNotation
import Mathlib.Analysis.Real.Sqrt
/-
Model of the particle catalogues:
`src/triumvirate/catalogue.py` (`ParticleCatalogue`) and
`src/triumvirate/src/particles.cpp` (`trv::ParticleCatalogue`),
with the callers that align and restore them
(`src/triumvirate/src/twopt.cpp:109-264`) and derive the box size
(`src/triumvirate/twopt.py:462-467`).

Floating-point numbers are elements of an ordered field; NaN and infinities are
not represented.  Catalogue objects live in a store indexed by object identity,
so that two arguments may denote the same object.  Warnings and log messages are
dropped.
-/
namespace Trv.Cat

/-- Three-vectors (one entry for each of the axes x, y, z). -/
abbrev V3 (K : Type) := Fin 3 → K

section field
variable {K : Type} [Field K] [LinearOrder K] [IsStrictOrderedRing K] [FloorRing K]

/-! ### Python catalogues (`catalogue.py`) -/

/-- `catalogue.py:105-148`: the attributes of a catalogue.  Simplifications: the
'astropy' backend only; the columns are the six standard ones; `spans` is derived
from `bounds` (`catalogue.py:711`) and not stored. -/
structure PyCat (K : Type) where
  pos : Fin 3 → List K
  nz : List K
  ws : List K
  wc : List K
  bounds : Fin 3 → K × K
  ntotal : ℕ
  wtotal : K
  wstotal : K

/-- The minimum and maximum of a column (`catalogue.py:706-709`); `none` stands
for the `ValueError` of the reduction of an empty array. -/
def bnd : List K → Option (K × K)
  | [] => none
  | x :: l => some (l.foldl min x, l.foldl max x)

/-- `catalogue.py:692-735`: `_calc_bounds`. -/
def PyCat.calcBounds (c : PyCat K) : Except PyErr (PyCat K) :=
  match bnd (c.pos 0), bnd (c.pos 1), bnd (c.pos 2) with
  | some a, some b, some d => .ok { c with bounds := ![a, b, d] }
  | _, _, _ => .error .valueError

/-- A value assigned to a column: a scalar is broadcast, an array must have as
many entries as the table has rows (length-one arrays, which are broadcast too,
are not distinguished from scalars). -/
inductive Col (K : Type)
  | scalar (c : K)
  | arr (l : List K)

/-- Column values for a table of `n` rows (`astropy.table.Table.__setitem__`). -/
def Col.toList (n : ℕ) : Col K → Except PyErr (List K)
  | .scalar c => .ok (List.replicate n c)
  | .arr l => if l.length = n then .ok l else .error .valueError

/-- `catalogue.py:105-148`: `__init__`. -/
def PyCat.init (x y z : List K) (nz : Option (Col K)) (ws wc : Col K) :
    Except PyErr (PyCat K) := do
  let n := x.length
  let y ← (Col.arr y).toList n
  let z ← (Col.arr z).toList n
  let nz ← (nz.getD (.scalar 0)).toList n
  let ws ← ws.toList n
  let wc ← wc.toList n
  let c ← PyCat.calcBounds
    { pos := ![x, y, z], nz := nz, ws := ws, wc := wc, bounds := fun _ => (0, 0), ntotal := 0,
      wtotal := 0, wstotal := 0 }
  .ok { c with ntotal := n, wtotal := (List.zipWith (· * ·) ws wc).sum, wstotal := ws.sum }

/-- `catalogue.py:678-690`: `offset_coords`. -/
def PyCat.offset (c : PyCat K) (o : V3 K) : Except PyErr (PyCat K) :=
  PyCat.calcBounds { c with pos := fun i => (c.pos i).map fun x => x - o i }

/-- Column names accepted by `__setitem__`; a key which is not a string is
`notString`. -/
inductive Key
  | axis (i : Fin 3) | nz | ws | wc | notString
  deriving DecidableEq

/-- `catalogue.py:421-435`: `__setitem__`. -/
def PyCat.setItem (c : PyCat K) (k : Key) (v : Col K) : Except PyErr (PyCat K) :=
  match k with
  | .notString => .error .valueError
  | .axis i => do
      let l ← v.toList (c.pos 0).length
      .ok { c with pos := Function.update c.pos i l }
  | .nz => do let l ← v.toList (c.pos 0).length; .ok { c with nz := l }
  | .ws => do let l ← v.toList (c.pos 0).length; .ok { c with ws := l }
  | .wc => do let l ← v.toList (c.pos 0).length; .ok { c with wc := l }

/-- `catalogue.py:460-488`: `compute_mean_density`; `volume or np.prod(boxsize)`
takes the box when `volume` is `None` or zero.  A vanishing box volume (division
by zero, giving infinity) is left to the caller to exclude. -/
def PyCat.meanDensity (c : PyCat K) (volume : Option K) (boxsize : Option (V3 K)) :
    Except PyErr (PyCat K) :=
  let vol : Option K :=
    match volume with
    | some v => if v = 0 then boxsize.map (fun L => L 0 * L 1 * L 2) else some v
    | none => boxsize.map (fun L => L 0 * L 1 * L 2)
  match vol with
  | none => .error .typeError
  | some v => .ok { c with nz := List.replicate (c.pos 0).length ((c.ntotal : K) / v) }

/-- Python's `%` on floats: the result has the sign of the divisor. -/
def pyMod (x L : K) : K := x - L * (⌊x / L⌋ : K)

/-- `catalogue.py:648-676`: `periodise`. -/
def PyCat.periodise (c : PyCat K) (L : V3 K) : Except PyErr (PyCat K) :=
  PyCat.calcBounds
    { c with pos := fun i => (c.pos i).map fun x =>
        pyMod (x + L i / 2 - ((c.bounds i).2 + (c.bounds i).1) / 2) (L i) }

/-- Catalogue objects by identity. -/
abbrev Store (ι K : Type) := ι → PyCat K

variable {ι : Type} [DecidableEq ι]

/-- `catalogue.py:540-545` and `:632-636`: offsetting this catalogue and then, if
one is given, the reference catalogue. -/
def offsetBoth (σ : Store ι K) (me : ι) (ref : Option ι) (o : V3 K) :
    Except PyErr (Store ι K) := do
  let c ← (σ me).offset o
  let σ := Function.update σ me c
  match ref with
  | none => .ok σ
  | some r => do
      let d ← (σ r).offset o
      .ok (Function.update σ r d)

/-- `catalogue.py:490-545`: `centre`. -/
def centre (σ : Store ι K) (me : ι) (L : V3 K) (ref : Option ι) : Except PyErr (Store ι K) :=
  let r := ref.getD me
  offsetBoth σ me ref fun i => (((σ r).bounds i).1 + ((σ r).bounds i).2) / 2 - L i / 2

/-- A padding factor: a Python number, a Python sequence, or a NumPy array. -/
inductive PadArg (K : Type)
  | num (c : K)
  | seq (v : V3 K)
  | nparr (v : V3 K)

/-- The truth value of a padding factor (`catalogue.py:625-628`), ambiguous for an
array of three. -/
def PadArg.truthy : PadArg K → Except PyErr Bool
  | .num c => .ok (decide (c ≠ 0))
  | .seq _ => .ok true
  | .nparr _ => .error .valueError

/-- Broadcast to the three axes. -/
def PadArg.vec : PadArg K → V3 K
  | .num c => fun _ => c
  | .seq v => v
  | .nparr v => v

/-- `catalogue.py:625-626`: `if boxsize_pad: origin -= boxsize_pad * boxsize`. -/
def subBoxPad (o L : V3 K) : Option (PadArg K) → Except PyErr (V3 K)
  | none => .ok o
  | some p => do
      let t ← p.truthy
      .ok (if t then fun i => o i - p.vec i * L i else o)

/-- `catalogue.py:627-628`: `if ngrid_pad: origin -= ngrid_pad * (boxsize / ngrid)`. -/
def subGridPad (o L : V3 K) (ngrid : Option (Fin 3 → ℕ)) : Option (PadArg K) →
    Except PyErr (V3 K)
  | none => .ok o
  | some p => do
      let t ← p.truthy
      if t then
        match ngrid with
        | none => .error .typeError
        | some n => .ok fun i => o i - p.vec i * (L i / (n i : K))
      else .ok o

/-- `catalogue.py:547-646`: `pad`. -/
def pad (σ : Store ι K) (me : ι) (L : V3 K) (ngrid : Option (Fin 3 → ℕ))
    (boxPad gridPad : Option (PadArg K)) (ref : Option ι) : Except PyErr (Store ι K) :=
  match boxPad, gridPad with
  | none, none => .ok σ
  | some _, some _ => .error .valueError
  | _, _ => do
      let r := ref.getD me
      let o ← subBoxPad (fun i => ((σ r).bounds i).1) L boxPad
      let o ← subGridPad o L ngrid gridPad
      offsetBoth σ me ref o

/-- The operations on catalogues. -/
inductive Op (ι K : Type)
  | offset (me : ι) (o : V3 K)
  | centre (me : ι) (L : V3 K) (ref : Option ι)
  | pad (me : ι) (L : V3 K) (ngrid : Option (Fin 3 → ℕ)) (boxPad gridPad : Option (PadArg K))
      (ref : Option ι)
  | periodise (me : ι) (L : V3 K)
  | setItem (me : ι) (k : Key) (v : Col K)
  | meanDensity (me : ι) (volume : Option K) (boxsize : Option (V3 K))

/-- One operation on the store. -/
def Op.exec (σ : Store ι K) : Op ι K → Except PyErr (Store ι K)
  | .offset me o => do let c ← (σ me).offset o; .ok (Function.update σ me c)
  | .centre me L ref => Cat.centre σ me L ref
  | .pad me L n b g ref => Cat.pad σ me L n b g ref
  | .periodise me L => do let c ← (σ me).periodise L; .ok (Function.update σ me c)
  | .setItem me k v => do let c ← (σ me).setItem k v; .ok (Function.update σ me c)
  | .meanDensity me v L => do let c ← (σ me).meanDensity v L; .ok (Function.update σ me c)

/-- One operation whose exception, if any, is caught by the caller. -/
def Op.step (σ : Store ι K) (op : Op ι K) : Store ι K :=
  match op.exec σ with
  | .ok σ' => σ'
  | .error _ => σ

/-! ### Deriving the box size (`twopt.py:462-467`, `:996-1001`, `threept.py:540-544`,
`:1441-1445`) -/

/-- The Python values occurring in the product `bounds[ax] * expand`. -/
inductive PyVal (K : Type)
  | flt (x : K)
  | int (n : ℤ)
  | tuple (l : List K)
  deriving DecidableEq

/-- Python's `*` on those values: a tuple may only be repeated an integral number
of times. -/
def PyVal.mul : PyVal K → PyVal K → Except PyErr (PyVal K)
  | .flt x, .flt y => .ok (.flt (x * y))
  | .flt x, .int n => .ok (.flt (x * (n : K)))
  | .int n, .flt y => .ok (.flt ((n : K) * y))
  | .int n, .int m => .ok (.int (n * m))
  | .tuple l, .int n => .ok (.tuple (List.replicate n.toNat l).flatten)
  | .int n, .tuple l => .ok (.tuple (List.replicate n.toNat l).flatten)
  | .tuple _, .flt _ => .error .typeError
  | .flt _, .tuple _ => .error .typeError
  | .tuple _, .tuple _ => .error .typeError

/-- The box size stored for one axis: `catalogue.bounds[ax] * paramset['expand']`. -/
def deriveBoxsize (c : PyCat K) (expand : PyVal K) (ax : Fin 3) : Except PyErr (PyVal K) :=
  PyVal.mul (.tuple [(c.bounds ax).1, (c.bounds ax).2]) expand

/-! ### C++ catalogues (`particles.cpp`) -/

/-- `particles.hpp`: `ParticleData`. -/
structure Particle (K : Type) where
  pos : V3 K
  nz : K
  ws : K
  wc : K
  w : K

/-- `particles.hpp`: the members of `ParticleCatalogue`; `pdata = none` is the
null pointer. -/
structure CppCat (K : Type) where
  source : String
  ntotal : ℕ
  pdata : Option (List (Particle K))
  wtotal : K
  wstotal : K
  posMin : V3 K
  posMax : V3 K
  posSpan : V3 K

/-- `particles.cpp:616-631`: the extents along one axis, starting from particle 0. -/
def extMin (p0 : Particle K) (ps : List (Particle K)) (i : Fin 3) : K :=
  ps.foldl (fun m p => if m < p.pos i then m else p.pos i) (p0.pos i)

/-- `particles.cpp:616-631`. -/
def extMax (p0 : Particle K) (ps : List (Particle K)) (i : Fin 3) : K :=
  ps.foldl (fun m p => if m > p.pos i then m else p.pos i) (p0.pos i)

/-- `particles.cpp:604-651`: `calc_pos_extents`.  Reading past the allocated
particles is `outOfBounds`.  The parallel reduction is a fold in particle order. -/
def CppCat.calcExtents (c : CppCat K) : Except CppErr (CppCat K) :=
  match c.pdata with
  | none => .error .invalidData
  | some [] => .error .outOfBounds
  | some (p0 :: ps) =>
    if (p0 :: ps).length < c.ntotal then .error .outOfBounds
    else
      let l := (p0 :: ps).take c.ntotal
      .ok { c with posMin := extMin p0 l, posMax := extMax p0 l,
                   posSpan := fun i => extMax p0 l i - extMin p0 l i }

/-- A loop `for pid < ntotal: pdata[pid] = f(pdata[pid])`; dereferencing the null
pointer or reading past the array is `outOfBounds`. -/
def CppCat.mapParticles (c : CppCat K) (f : Particle K → Particle K) : Except CppErr (CppCat K) :=
  match c.pdata with
  | none => if c.ntotal = 0 then .ok c else .error .outOfBounds
  | some ps =>
    if ps.length < c.ntotal then .error .outOfBounds
    else .ok { c with pdata := some ((ps.take c.ntotal).map f ++ ps.drop c.ntotal) }

/-- `particles.cpp:658-676`: `offset_coords`. -/
def CppCat.offset (c : CppCat K) (d : V3 K) : Except CppErr (CppCat K) :=
  match c.pdata with
  | none => .error .invalidData
  | some _ => do
      let c ← c.mapParticles fun p => { p with pos := fun i => p.pos i - d i }
      c.calcExtents

/-- `std::fmod`: the result has the sign of the dividend. -/
def fmod (x y : K) : K :=
  if 0 ≤ x / y then x - y * (⌊x / y⌋ : K) else x - y * (⌈x / y⌉ : K)

/-- `particles.cpp:685-695`: one coordinate in
`offset_coords_for_periodicity`. -/
def wrapCoord (L x : K) : K :=
  if L ≤ x then fmod x L else if x < 0 then fmod x L + L else x

/-- `particles.cpp:678-699`: `offset_coords_for_periodicity`, which has no test for
uninitialised particle data. -/
def CppCat.periodic (c : CppCat K) (L : V3 K) : Except CppErr (CppCat K) := do
  let c ← c.mapParticles fun p => { p with pos := fun i => wrapCoord (L i) (p.pos i) }
  c.calcExtents

/-- C++ catalogue objects by identity. -/
abbrev CStore (ι K : Type) := ι → CppCat K

/-- `catalogue.calc_pos_extents(false)` on an object of the store. -/
def recalc (σ : CStore ι K) (i : ι) : Except CppErr (CStore ι K) := do
  let c ← (σ i).calcExtents
  .ok (Function.update σ i c)

/-- `object.offset_coords(dvec)` on an object of the store. -/
def offsetIn (σ : CStore ι K) (i : ι) (d : V3 K) : Except CppErr (CStore ι K) := do
  let c ← (σ i).offset d
  .ok (Function.update σ i c)

/-- The displacement centring the extents of a catalogue
(`particles.cpp:721-727`, `:768-774`). -/
def centreVec (c : CppCat K) (L : V3 K) : V3 K := fun i => (c.posMin i + c.posMax i) / 2 - L i / 2

/-- The displacement padding a catalogue by box fractions
(`particles.cpp:800-804`, `:845-849`). -/
def padBoxVec (c : CppCat K) (L p : V3 K) : V3 K := fun i => c.posMin i - p i * L i

/-- The displacement padding a catalogue by grid cells
(`particles.cpp:861-867`, `:878-882`). -/
def padGridVec (c : CppCat K) (L : V3 K) (n : Fin 3 → ℕ) (p : V3 K) : V3 K :=
  fun i => c.posMin i - p i * L i / (n i : K)

/-- `particles.cpp:701-730`: `centre_in_box(catalogue, boxsize)`. -/
def centreInBox1 (σ : CStore ι K) (c : ι) (L : V3 K) : Except CppErr (CStore ι K) := do
  let σ ← recalc σ c
  offsetIn σ c (centreVec (σ c) L)

/-- `particles.cpp:732-778`: `centre_in_box(catalogue, catalogue_ref, boxsize)`. -/
def centreInBox2 (σ : CStore ι K) (c r : ι) (L : V3 K) : Except CppErr (CStore ι K) := do
  let σ ← recalc σ c
  let σ ← recalc σ r
  let d := centreVec (σ r) L
  let σ ← offsetIn σ r d
  offsetIn σ c d

/-- `particles.cpp:780-807`: `pad_in_box(catalogue, …)`. -/
def padInBox1 (σ : CStore ι K) (c : ι) (L p : V3 K) : Except CppErr (CStore ι K) := do
  let σ ← recalc σ c
  offsetIn σ c (padBoxVec (σ c) L p)

/-- `particles.cpp:809-853`: `pad_in_box(catalogue, catalogue_ref, …)`. -/
def padInBox2 (σ : CStore ι K) (c r : ι) (L p : V3 K) : Except CppErr (CStore ι K) := do
  let σ ← recalc σ c
  let σ ← recalc σ r
  let d := padBoxVec (σ r) L p
  let σ ← offsetIn σ r d
  offsetIn σ c d

/-- `particles.cpp:855-870`: `pad_grids(catalogue, …)`. -/
def padGrids1 (σ : CStore ι K) (c : ι) (L : V3 K) (n : Fin 3 → ℕ) (p : V3 K) :
    Except CppErr (CStore ι K) := do
  let σ ← recalc σ c
  offsetIn σ c (padGridVec (σ c) L n p)

/-- `particles.cpp:872-886`: `pad_grids(catalogue, catalogue_ref, …)`. -/
def padGrids2 (σ : CStore ι K) (c r : ι) (L : V3 K) (n : Fin 3 → ℕ) (p : V3 K) :
    Except CppErr (CStore ι K) := do
  let σ ← recalc σ r
  let d := padGridVec (σ r) L n p
  let σ ← offsetIn σ r d
  offsetIn σ c d

/-- The alignment parameters read by
`calc_powspec_normalisation_from_meshes` (`twopt.cpp:122-149`). -/
structure AlignParams (K : Type) where
  alignment : String
  padscale : String
  padfactor : K
  boxsize : V3 K
  ngrid : Fin 3 → ℕ

/-- `twopt.cpp:122-149` (the same code is in `main/triumvirate.cpp:418-444`): align
both catalogues in the box. -/
def alignBoth (σ : CStore ι K) (data rand : ι) (P : AlignParams K) :
    Except CppErr (CStore ι K) :=
  if P.alignment = "pad" then
    if P.padscale = "grid" then padGrids2 σ data rand P.boxsize P.ngrid fun _ => P.padfactor
    else if P.padscale = "box" then padInBox2 σ data rand P.boxsize fun _ => P.padfactor
    else .ok σ
  else if P.alignment = "centre" then centreInBox2 σ data rand P.boxsize
  else .ok σ

/-- `twopt.cpp:109-232`: the effect of
`calc_powspec_normalisation_from_meshes` on the two catalogues, and the aligned
catalogues that are assigned to the meshes.  The assignment to meshes and the sum
over the meshes only read the catalogues. -/
def normFromMeshes (σ : CStore ι K) (data rand : ι) (P : AlignParams K) :
    Except CppErr (CStore ι K × CStore ι K) := do
  let minData := (σ data).posMin
  let minRand := (σ rand).posMin
  let aligned ← alignBoth σ data rand P
  let offData : V3 K := fun i => (aligned data).posMin i - minData i
  let offRand : V3 K := fun i => (aligned rand).posMin i - minRand i
  let σ ← offsetIn aligned data offData
  let σ ← offsetIn σ rand offRand
  .ok (aligned, σ)

/-- `parameters.cpp:1416-1421`: `set_boxsize_from_expand`, the box size from the
catalogue spans (the subsequent validation does not change it). -/
def boxFromExpand (spans : V3 K) (expand : K) : V3 K := fun i => spans i * expand

/-- `main/triumvirate.cpp:417-445`: the driver's alignment of a pair of survey
catalogues when the box size has to be derived (`volume == 0`). -/
def driverSurvey (σ : CStore ι K) (data rand : ι) (P : AlignParams K) (expand : K) :
    Except CppErr (V3 K × CStore ι K) := do
  let L := boxFromExpand (σ data).posSpan expand
  let σ ← alignBoth σ data rand { P with boxsize := L }
  .ok (L, σ)

/-- `main/triumvirate.cpp:446-453`: the driver's treatment of a simulation box when
the box size has to be derived. -/
def driverSim (σ : CStore ι K) (data : ι) (expand : K) : Except CppErr (V3 K × CStore ι K) := do
  let L := boxFromExpand (σ data).posSpan expand
  let c ← (σ data).periodic L
  .ok (L, Function.update σ data c)

/-- `main/triumvirate.cpp:454-485`: the driver's treatment of a random catalogue with
central alignment when the box size has to be derived. -/
def driverRandomCentre (σ : CStore ι K) (rand : ι) (expand : K) :
    Except CppErr (V3 K × CStore ι K) := do
  let L := boxFromExpand (σ rand).posSpan expand
  let σ ← centreInBox1 σ rand L
  let c ← (σ rand).periodic L
  .ok (L, Function.update σ rand c)

/-- `twopt.cpp:243-251`: the grid number and box size of the dedicated
normalisation mesh, from the spans of the two catalogues. -/
def normGrid (spanData spanRand : V3 K) (padding cellsize : K) : ℤ × K :=
  let m (v : V3 K) : K := max (max (v 0) (v 1)) (v 2)
  let L := (1 + padding) * max (m spanData) (m spanRand)
  let n := ⌈L / cellsize⌉
  let n := n + n.tmod 2
  (n, (n : K) * cellsize)

/-! ### Life cycle and memory accounting (`particles.cpp:47-78`, `monitor.cpp:165-175`) -/

/-- All catalogues together with the global memory counters, counted in units of
`sizeof(ParticleData)`. -/
structure World (ι K : Type) where
  cats : ι → CppCat K
  mem : ℤ
  maxmem : ℤ

/-- `particles.cpp:72-78`: `reset_particles` (also `finalise_particles`, `:68-70`). -/
def World.reset (w : World ι K) (i : ι) : World ι K :=
  match (w.cats i).pdata with
  | none => w
  | some _ =>
    { w with cats := Function.update w.cats i { w.cats i with pdata := none },
             mem := w.mem - ((w.cats i).ntotal : ℤ) }

/-- `monitor.cpp:165-175`: `update_maxmem`. -/
def World.updateMax (w : World ι K) : World ι K :=
  { w with maxmem := if w.mem > w.maxmem then w.mem else w.maxmem }

/-- `particles.cpp:47-66`: `initialise_particles`.  Simplification: the new
particles, uninitialised in C++, are zero. -/
def World.initialise (w : World ι K) (i : ι) (num : ℤ) : Except CppErr (World ι K) :=
  if num ≤ 0 then .error .invalidParameter
  else
    let w : World ι K :=
      { w with cats := Function.update w.cats i { w.cats i with ntotal := num.toNat } }
    let w := w.reset i
    let c := w.cats i
    let zero : Particle K := ⟨fun _ => 0, 0, 0, 0, 0⟩
    let w : World ι K :=
      { w with cats := Function.update w.cats i { c with pdata := some (List.replicate c.ntotal zero) },
               mem := w.mem + (c.ntotal : ℤ) }
    .ok w.updateMax

/-- A life-cycle operation. -/
inductive LifeOp (ι : Type)
  | initialise (i : ι) (num : ℤ)
  | finalise (i : ι)

/-- One life-cycle operation; a rejected one changes nothing. -/
def LifeOp.step (w : World ι K) : LifeOp ι → World ι K
  | .initialise i num => match w.initialise i num with
      | .ok w' => w'
      | .error _ => w
  | .finalise i => w.reset i

/-! ### Loading particle data -/

/-- `particles.cpp:570-602`: `calc_total_weights`. -/
def CppCat.calcTotals (c : CppCat K) : Except CppErr (CppCat K) :=
  match c.pdata with
  | none => .error .invalidData
  | some ps =>
    if ps.length < c.ntotal then .error .outOfBounds
    else .ok { c with wtotal := ((ps.take c.ntotal).map (·.w)).sum,
                      wstotal := ((ps.take c.ntotal).map (·.ws)).sum }

/-- `particles.cpp:541-555`: particle `pid` from six arrays. -/
def mkParticle (x y z nz ws wc : List K) (pid : ℕ) : Particle K :=
  { pos := ![x.getD pid 0, y.getD pid 0, z.getD pid 0], nz := nz.getD pid 0, ws := ws.getD pid 0,
    wc := wc.getD pid 0, w := ws.getD pid 0 * wc.getD pid 0 }

/-- `particles.cpp:512-563`: `load_particle_data`. -/
def World.loadData (w : World ι K) (i : ι) (x y z nz ws wc : List K) :
    Except CppErr (World ι K) := do
  let w : World ι K := { w with cats := Function.update w.cats i { w.cats i with source := "extdata" } }
  if ¬ (x.length = y.length ∧ x.length = z.length ∧ x.length = nz.length ∧ x.length = ws.length ∧
      x.length = wc.length) then .error .invalidData
  else do
    let w ← w.initialise i (x.length : ℤ)
    let c : CppCat K :=
      { w.cats i with pdata := some ((List.range x.length).map (mkParticle x y z nz ws wc)) }
    let c ← c.calcTotals
    let c ← c.calcExtents
    .ok { w with cats := Function.update w.cats i c }

/-- A line of a text catalogue: empty or starting with '#', or the numbers
extracted from it (none if it holds only blanks or no number at the start). -/
inductive Line (K : Type)
  | skip
  | row (entries : List K)

/-- `particles.cpp:137-159`: the index of each of the six column names in the list
of columns of the file, `none` standing for −1. -/
def nameIndices (colnames : List String) : Fin 6 → Option ℕ := fun i =>
  let name := (![ "x", "y", "z", "nz", "ws", "wc"] : Fin 6 → String) i
  let k := colnames.idxOf name
  if k < colnames.length then some k else none

/-- `row[k]`: an access beyond the row, or at index −1, is `outOfBounds`. -/
def readCol (row : List K) (k : Option ℕ) : Except CppErr K :=
  match k with
  | none => .error .outOfBounds
  | some k => match row[k]? with
      | none => .error .outOfBounds
      | some v => .ok v

/-- `particles.cpp:469-485`: an optional column. -/
def readOpt (row : List K) (k : Option ℕ) (dflt : K) : Except CppErr K :=
  match k with
  | none => .ok dflt
  | some k => readCol row (some k)

/-- `particles.cpp:464-490`: one data line to one particle. -/
def rowParticle (ix : Fin 6 → Option ℕ) (nzDefault : K) (row : List K) :
    Except CppErr (Particle K) := do
  let x ← readCol row (ix 0)
  let y ← readCol row (ix 1)
  let z ← readCol row (ix 2)
  let nz ← readOpt row (ix 3) nzDefault
  let ws ← readOpt row (ix 4) 1
  let wc ← readOpt row (ix 5) 1
  .ok { pos := ![x, y, z], nz := nz, ws := ws, wc := wc, w := ws * wc }

/-- The data lines of the files of a catalogue, in order. -/
def dataRows (files : List (List (Line K))) : List (List K) :=
  files.flatten.filterMap fun
    | .skip => none
    | .row r => some r

/-- `particles.cpp:378-510`: reading the text files of a catalogue into particles;
`none` is a file which cannot be opened. -/
def World.loadRows (w : World ι K) (i : ι) (colnames : List String)
    (files : List (Option (List (Line K)))) (volume : K) : Except CppErr (World ι K) :=
  if files.any (fun f => f.isNone) then .error .ioError
  else do
    let rows := dataRows (files.map fun f => f.getD [])
    let w ← w.initialise i (rows.length : ℤ)
    let nz0 : K := if 0 < volume then (rows.length : K) / volume else 0
    let ps ← rows.mapM (rowParticle (nameIndices colnames) nz0)
    let c : CppCat K := { w.cats i with pdata := some ps }
    let c ← c.calcTotals
    let c ← c.calcExtents
    .ok { w with cats := Function.update w.cats i c }

/-- `particles.cpp:97-112`: the source is recorded before the files are read. -/
def World.setSource (w : World ι K) (i : ι) (src : String) : World ι K :=
  { w with cats := Function.update w.cats i { w.cats i with source := src } }

/-- `particles.cpp:91-510`: `load_catalogue_file` for text files (without HDF5), with
the state left behind when it throws.  An exception arises before anything but the
source is changed; what undefined behaviour (`outOfBounds`) leaves behind is not
modelled. -/
def World.loadFile (w : World ι K) (i : ι) (path : String) (colnames : List String)
    (files : List (Option (List (Line K)))) (volume : K) : World ι K × Option CppErr :=
  if (w.cats i).source ≠ "" then (w, some .invalidData)
  else
    let w := w.setSource i ("extfile:" ++ path)
    match w.loadRows i colnames files volume with
    | .ok w' => (w', none)
    | .error e => (w, some e)

end field

/-! ### Lines of sight (`catalogue.py:437-458`, `main/triumvirate.cpp:348-363`) -/

/-- `catalogue.py:446-456`: the line of sight to one particle. -/
noncomputable def los (x : V3 ℝ) : V3 ℝ :=
  let norm := Real.sqrt (x 0 ^ 2 + x 1 ^ 2 + x 2 ^ 2)
  let norm := if norm = 0 then 1 else norm
  fun i => x i / norm

/-- `catalogue.py:437-458`: `compute_los`. -/
noncomputable def computeLos (c : PyCat ℝ) : List (V3 ℝ) :=
  (List.range (c.pos 0).length).map fun k => los fun i => (c.pos i).getD k 0

end Trv.Cat

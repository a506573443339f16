import Mathlib.Algebra.Order.Floor.Ring
import Mathlib.Algebra.Order.Field.Basic
/-
Model of mesh assignment in `/repo/src/triumvirate/src/field.cpp` 533-1112.

Floating-point numbers are replaced by an arbitrary ordered field `K` with floor.
The OpenMP loop over particles performs only atomic additions; the model
produces the list of these additions, to be executed in any order.
-/
set_option linter.unusedSectionVars false
set_option linter.unusedSimpArgs false

namespace Trv.Mesh

variable {K : Type} [Field K] [LinearOrder K] [IsStrictOrderedRing K] [FloorRing K]

/-- `params.assignment` (`field.cpp:593-615`). -/
inductive Scheme
  | ngp | cic | tsc | pcs
  deriving DecidableEq, Repr

/-- C++ conversion `int(x)`: truncation towards zero. -/
def truncInt (x : K) : ℤ := if 0 ≤ x then ⌊x⌋ else ⌈x⌉

/-- `field.cpp:533-538`: `ret_grid_index`. -/
def gridIndex (n : Fin 3 → ℤ) (i j k : ℤ) : ℤ := (i * n 1 + j) * n 2 + k

/-- `field.cpp:540-544` (and 547, 556): the index shift on one axis.  `n/2` is
C++ integer division of a non-negative number. -/
def shiftIndex (n i : ℤ) : ℤ := if i < n / 2 then i else i - n

/-- `field.cpp:643-655`: NGP stencil on one axis, as (grid index, weight). -/
def ngpAxis (n : ℤ) (loc : K) : List (ℤ × K) :=
  let idx := truncInt loc
  let idx := if loc - idx ≥ 1 / 2 then (if idx = n - 1 then 0 else idx + 1) else idx
  [(idx, 1)]

/-- `field.cpp:753-766`: CIC stencil on one axis. -/
def cicAxis (n : ℤ) (loc : K) : List (ℤ × K) :=
  let idx := truncInt loc
  let i0 := idx
  let i1 := if idx = n - 1 then 0 else idx + 1
  let s := loc - idx
  [(i0, 1 - s), (i1, s)]

/-- `field.cpp:884-895` (954-963): the TSC weights. -/
def tscWin (s : K) : K × K × K :=
  if s < 1 / 2 then
    (1 / 2 * (1 / 2 - s) * (1 / 2 - s), 3 / 4 - s * s, 1 / 2 * (1 / 2 + s) * (1 / 2 + s))
  else
    let s := 1 - s
    (1 / 2 * (1 / 2 + s) * (1 / 2 + s), 3 / 4 - s * s, 1 / 2 * (1 / 2 - s) * (1 / 2 - s))

/-- `field.cpp:864-895`: TSC stencil on one axis. -/
def tscAxis (n : ℤ) (loc : K) : List (ℤ × K) :=
  let idx := truncInt loc
  let ijk : ℤ × ℤ × ℤ :=
    if loc - idx < 1 / 2 then
      (if idx = 0 then n - 1 else idx - 1, idx, if idx = n - 1 then 0 else idx + 1)
    else
      let i1 := if idx = n - 1 then 0 else idx + 1
      (idx, i1, if i1 = n - 1 then 0 else i1 + 1)
  let w := tscWin (loc - idx)
  [(ijk.1, w.1), (ijk.2.1, w.2.1), (ijk.2.2, w.2.2)]

/-- `field.cpp:936-963`: TSC stencil on one axis in the *interlaced* loop, whose
index rule differs from the main loop (lines 945-949). -/
def tscAxisShifted (n : ℤ) (loc : K) : List (ℤ × K) :=
  let idx := truncInt loc
  let ijk : ℤ × ℤ × ℤ :=
    if loc - idx < 1 / 2 then
      (if idx = 0 then n - 1 else idx - 1, idx, if idx = n - 1 then 0 else idx + 1)
    else
      let i0 := idx
      let i1 := if idx = n - 1 then 0 else i0 + 1
      (i0, i1, if idx = n - 1 then 0 else i1 + 1)
  let w := tscWin (loc - idx)
  [(ijk.1, w.1), (ijk.2.1, w.2.1), (ijk.2.2, w.2.2)]

/-- `field.cpp:1012-1033`: PCS stencil on one axis. -/
def pcsAxis (n : ℤ) (loc : K) : List (ℤ × K) :=
  let idx := truncInt loc
  let i0 := if idx = 0 then n - 1 else idx - 1
  let i1 := idx
  let i2 := if idx = n - 1 then 0 else idx + 1
  let i3 := if i2 = n - 1 then 0 else i2 + 1
  let s := loc - idx
  [(i0, 1 / 6 * (1 - s) * (1 - s) * (1 - s)),
   (i1, 1 / 6 * (4 - 6 * s * s + 3 * s * s * s)),
   (i2, 1 / 6 * (4 - 6 * (1 - s) * (1 - s) + 3 * (1 - s) * (1 - s) * (1 - s))),
   (i3, 1 / 6 * s * s * s)]

/-- Stencil of the main loops. -/
def axisStencil : Scheme → ℤ → K → List (ℤ × K)
  | .ngp => ngpAxis
  | .cic => cicAxis
  | .tsc => tscAxis
  | .pcs => pcsAxis

/-- Stencil of the interlaced loops (`field.cpp:696-704, 807-815, 936-963,
1074-1090`); only TSC differs from the main loop. -/
def axisStencilShifted : Scheme → ℤ → K → List (ℤ × K)
  | .ngp => ngpAxis
  | .cic => cicAxis
  | .tsc => tscAxisShifted
  | .pcs => pcsAxis

/-- `loc_grid` of the main loops (`field.cpp:643, 753, 864, 1012`). -/
def locMain (n : ℤ) (L x : K) : K := n * x / L

/-- `loc_grid` of the interlaced loops (`field.cpp:689-694, 800-805, 929-934,
1067-1072`): half-cell shift, wrapped only if *strictly* greater than `n`. -/
def locShifted (n : ℤ) (L x : K) : K :=
  let loc := n * x / L + 1 / 2
  if loc > n then loc - n else loc

/-- A mesh: `params.ngrid`, `params.boxsize`. -/
structure Mesh (K : Type) where
  n : Fin 3 → ℤ
  L : Fin 3 → K

/-- `params.nmesh` (product of grid numbers). -/
def Mesh.nmesh (M : Mesh K) : ℤ := M.n 0 * M.n 1 * M.n 2

/-- `vol_cell = volume / nmesh` with `volume` the product of box sizes. -/
def Mesh.volCell (M : Mesh K) : K := (M.L 0 * M.L 1 * M.L 2) / (M.nmesh : K)

/-- A particle position with its complex weight; component `false` is the real
part (`weight[pid][0]`), `true` the imaginary part (`weight[pid][1]`). -/
structure Particle (K : Type) where
  pos : Fin 3 → K
  w : Bool → K

/-- One atomic update `field[gid][c] += v`. -/
structure Update (K : Type) where
  gid : ℤ
  comp : Bool
  val : K

/-- `field.cpp:658-674` (and the seven similar triple loops): the updates
performed for one particle, given its stencils on the three axes. -/
def updatesOfStencils (M : Mesh K) (sx sy sz : List (ℤ × K)) (w : Bool → K) :
    List (Update K) :=
  sx.flatMap fun a => sy.flatMap fun b => sz.flatMap fun c =>
    let gid := gridIndex M.n a.1 b.1 c.1
    if 0 ≤ gid ∧ gid < M.nmesh then
      [⟨gid, false, 1 / M.volCell * w false * a.2 * b.2 * c.2⟩,
       ⟨gid, true, 1 / M.volCell * w true * a.2 * b.2 * c.2⟩]
    else []

/-- Updates of `field` by one particle. -/
def particleUpdates (sch : Scheme) (M : Mesh K) (p : Particle K) : List (Update K) :=
  let st := fun ax => axisStencil sch (M.n ax) (locMain (M.n ax) (M.L ax) (p.pos ax))
  updatesOfStencils M (st 0) (st 1) (st 2) p.w

/-- Updates of `field_s` by one particle. -/
def particleUpdatesShifted (sch : Scheme) (M : Mesh K) (p : Particle K) : List (Update K) :=
  let st := fun ax => axisStencilShifted sch (M.n ax) (locShifted (M.n ax) (M.L ax) (p.pos ax))
  updatesOfStencils M (st 0) (st 1) (st 2) p.w

/-- The field array: value at flattened index and component. -/
abbrev Grid (K : Type) := ℤ → Bool → K

/-- One atomic addition. -/
def applyUpdate (f : Grid K) (u : Update K) : Grid K := fun g c =>
  if g = u.gid ∧ c = u.comp then f g c + u.val else f g c

/-- Executing a list of atomic additions in the given order, from the zero field
set by `reset_density_field` (`field.cpp:500-517`). -/
def runUpdates (us : List (Update K)) : Grid K :=
  us.foldl applyUpdate (fun _ _ => 0)

/-- All updates of the main loop, in program order. -/
def allUpdates (sch : Scheme) (M : Mesh K) (ps : List (Particle K)) : List (Update K) :=
  ps.flatMap (particleUpdates sch M)

/-- All updates of the interlaced loop, in program order. -/
def allUpdatesShifted (sch : Scheme) (M : Mesh K) (ps : List (Particle K)) : List (Update K) :=
  ps.flatMap (particleUpdatesShifted sch M)

/-- `assign_weighted_field_to_mesh` (`field.cpp:569-616`), main field,
sequential schedule. -/
def assign (sch : Scheme) (M : Mesh K) (ps : List (Particle K)) : Grid K :=
  runUpdates (allUpdates sch M ps)

/-- The companion field `field_s`, sequential schedule. -/
def assignShifted (sch : Scheme) (M : Mesh K) (ps : List (Particle K)) : Grid K :=
  runUpdates (allUpdatesShifted sch M ps)

/-- A mesh field object: the main array and the interlaced companion (present
exactly if `params.interlace == "true"`). -/
structure MeshField (K : Type) where
  field : Grid K
  fieldS : Option (Grid K)

/-- `assign_weighted_field_to_mesh` on the object (`field.cpp:569-616`). -/
def assignField (sch : Scheme) (M : Mesh K) (interlace : Bool) (ps : List (Particle K)) :
    MeshField K :=
  ⟨assign sch M ps, if interlace then some (assignShifted sch M ps) else none⟩

/-- `compute_unweighted_field` (`field.cpp:1208-1227`): unit weights. -/
def unweighted (pos : List (Fin 3 → K)) : List (Particle K) :=
  pos.map fun x => ⟨x, fun c => if c then 0 else 1⟩

/-- `compute_unweighted_field_fluctuations_insitu` (`field.cpp:1229-1244`):
subtract the mean density `ntotal / vol` from the real part of every cell of the
*main* field; the companion is left as assigned. -/
def fluctuations (sch : Scheme) (M : Mesh K) (interlace : Bool) (pos : List (Fin 3 → K)) :
    MeshField K :=
  let F := assignField sch M interlace (unweighted pos)
  let vol := M.L 0 * M.L 1 * M.L 2
  let nbar := (pos.length : K) / vol
  { F with field := fun g c =>
      if 0 ≤ g ∧ g < M.nmesh then (if c then F.field g c else F.field g c - nbar)
      else F.field g c }

/-- `compute_ylm_wgtd_field`, two catalogues (`field.cpp:1246-1323`).  The
particle weights already include the factor `ylm * w`. -/
def ylmFieldTwo (sch : Scheme) (M : Mesh K) (interlace : Bool)
    (data rand : List (Particle K)) (alpha : K) : MeshField K :=
  let F := assignField sch M interlace data
  let R := assignField sch M interlace rand
  { field := fun g c => F.field g c - alpha * R.field g c
    fieldS := match F.fieldS, R.fieldS with
      | some f, some r => some fun g c => f g c - alpha * r g c
      | s, _ => s }

/-- `compute_ylm_wgtd_field`, one catalogue (`field.cpp:1325-1362`): only `field`
is multiplied by `alpha`. -/
def ylmFieldOne (sch : Scheme) (M : Mesh K) (interlace : Bool)
    (ps : List (Particle K)) (alpha : K) : MeshField K :=
  let F := assignField sch M interlace ps
  { F with field := fun g c => F.field g c * alpha }

/-- `compute_ylm_wgtd_quad_field`, two catalogues (`field.cpp:1364-1447`). -/
def quadFieldTwo (sch : Scheme) (M : Mesh K) (interlace : Bool)
    (data rand : List (Particle K)) (alpha : K) : MeshField K :=
  let F := assignField sch M interlace data
  let R := assignField sch M interlace rand
  { field := fun g c => F.field g c + alpha ^ 2 * R.field g c
    fieldS := match F.fieldS, R.fieldS with
      | some f, some r => some fun g c => f g c + alpha ^ 2 * r g c
      | s, _ => s }

/-- `compute_ylm_wgtd_quad_field`, one catalogue (`field.cpp:1449-1489`): only
`field` is multiplied by `alpha^2`. -/
def quadFieldOne (sch : Scheme) (M : Mesh K) (interlace : Bool)
    (ps : List (Particle K)) (alpha : K) : MeshField K :=
  let F := assignField sch M interlace ps
  { F with field := fun g c => F.field g c * alpha ^ 2 }

end Trv.Mesh

import Verif.Model.Catalogue
import Mathlib.Order.Bounds.Basic
import Mathlib.Algebra.BigOperators.Group.Finset.Basic
/-
Specification of catalogues.
-/
namespace Trv.Cat

variable {K : Type} [Field K] [LinearOrder K] [IsStrictOrderedRing K] [FloorRing K]

/-- `a` and `b` are the least and greatest entries of a column. -/
def IsExtent (l : List K) (a b : K) : Prop :=
  IsLeast {x | x ∈ l} a ∧ IsGreatest {x | x ∈ l} b

/-- The reported bounds are the true ones. -/
def PyCat.TrueBounds (c : PyCat K) : Prop := ∀ i, IsExtent (c.pos i) (c.bounds i).1 (c.bounds i).2

/-- The reported totals are those of the particles. -/
def PyCat.TrueTotals (c : PyCat K) : Prop :=
  c.ntotal = (c.pos 0).length ∧ c.wtotal = (List.zipWith (· * ·) c.ws c.wc).sum ∧
  c.wstotal = c.ws.sum

/-- All columns have the same positive number of rows. -/
def PyCat.Shape (c : PyCat K) : Prop :=
  0 < (c.pos 0).length ∧ (∀ i, (c.pos i).length = (c.pos 0).length) ∧
  c.nz.length = (c.pos 0).length ∧ c.ws.length = (c.pos 0).length ∧ c.wc.length = (c.pos 0).length

/-- `c'` is `c` with all particles moved by `- o`. -/
def PyCat.ShiftedBy (o : V3 K) (c c' : PyCat K) : Prop :=
  (∀ i, c'.pos i = (c.pos i).map fun x => x - o i) ∧ c'.nz = c.nz ∧ c'.ws = c.ws ∧ c'.wc = c.wc

/-- The particles of a C++ catalogue. -/
def CppCat.particles (c : CppCat K) : List (Particle K) := c.pdata.getD []

/-- A C++ catalogue holding exactly its `ntotal` particles, at least one. -/
def CppCat.Loaded (c : CppCat K) : Prop :=
  ∃ ps, c.pdata = some ps ∧ ps ≠ [] ∧ ps.length = c.ntotal

/-- The extents recorded in a C++ catalogue are the true ones. -/
def CppCat.TrueExtents (c : CppCat K) : Prop :=
  ∀ i, IsExtent (c.particles.map fun p => p.pos i) (c.posMin i) (c.posMax i) ∧
    c.posSpan i = c.posMax i - c.posMin i

/-- A particle moved by `- d`. -/
def Particle.shift (d : V3 K) (p : Particle K) : Particle K :=
  { p with pos := fun i => p.pos i - d i }

/-- The memory held by all catalogues, in units of `sizeof(ParticleData)`. -/
def World.held {ι : Type} [Fintype ι] (w : World ι K) : ℤ :=
  ∑ i, ((w.cats i).particles.length : ℤ)

/-- The entry of a named column of a data line. -/
def named (colnames : List String) (row : List K) (name : String) : Option K :=
  (colnames.zip row).lookup name

/-- The particle described by a data line: coordinates from the named columns, and
the defaults for the optional columns. -/
def lineParticle (colnames : List String) (nz0 : K) (row : List K) : Particle K :=
  let get (name : String) (dflt : K) : K := (named colnames row name).getD dflt
  { pos := ![get "x" 0, get "y" 0, get "z" 0], nz := get "nz" nz0, ws := get "ws" 1,
    wc := get "wc" 1, w := get "ws" 1 * get "wc" 1 }

end Trv.Cat

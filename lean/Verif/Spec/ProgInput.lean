import Verif.Spec.Program
import Verif.Spec.Params
import Verif.Spec.Catalogue
/-
Specification of what a completed run of the program has measured: the catalogues of the files named in the
parameters, placed in the box given or found from them, on the mesh given or found from the cutoff.
-/
namespace Trv.Prog
open Trv Trv.Par Trv.Mon Trv.Cat

variable {K : Type} [Field K] [LinearOrder K] [IsStrictOrderedRing K] [FloorRing K]

/-- The catalogue `c` is the one in the files named by `path`: all of them are readable, the columns include the
coordinates, and there is one particle for each data line, in order. -/
def ReadFrom (D : Disk K) (p : Params K) (path : Str) (c : CppCat K) : Prop :=
  ∃ fs : List (List (Line K)), (split path fnDelim).map D.cat = fs.map some ∧ dataRows fs ≠ [] ∧
    (∀ n ∈ ["x", "y", "z"], n ∈ (commaNames p.columns).map String.ofList) ∧
    c.particles = (dataRows fs).map (lineParticle ((commaNames p.columns).map String.ofList)
      (if 0 < p.volume then ((dataRows fs).length : K) / p.volume else 0)) ∧ c.Loaded ∧ c.TrueExtents

/-- The particles `qs` are the particles `ps` moved to the periodic box. -/
def Wrapped (L : V3 K) (ps qs : List (Particle K)) : Prop :=
  qs = ps.map fun p => { p with
    pos := fun i => wrapCoord (L i) (p.pos i) }

/-- The particles `qs` are the particles `ps` moved by a common vector. -/
def MovedBy (d : V3 K) (ps qs : List (Particle K)) : Prop := qs = ps.map (Particle.shift d)

/-- The mesh of `q` is the one of `p` if this has one; otherwise, for a box with positive sides and a positive cutoff, on each axis
the least positive even number of cells which resolves the cutoff. -/
def MeshFor (pi : K) (p q : Params K) : Prop :=
  (0 < p.ngrid 0 * p.ngrid 1 * p.ngrid 2 → q.ngrid = p.ngrid) ∧
  (p.ngrid 0 * p.ngrid 1 * p.ngrid 2 ≤ 0 → (∀ i, 0 < q.box i) → 0 < p.cutoff → ∀ i, 0 < q.ngrid i ∧ 2 ∣ q.ngrid i ∧
    Resolves pi q.space (q.box i) p.cutoff (q.ngrid i) ∧
    ∀ m : ℤ, 0 < m → 2 ∣ m → Resolves pi q.space (q.box i) p.cutoff m → q.ngrid i ≤ m)

/-- What is handed to the measurement for the parameters read `p`. -/
structure Measured (pi : K) (losf : V3 K → V3 K) (D : Disk K) (p : Params K) (I : Input K) : Prop where
  survey : p.catType = "survey" → ∃ c r d, ReadFrom D p p.dataFile c ∧ ReadFrom D p p.randFile r ∧
    I.losData = c.particles.map (fun x => losf x.pos) ∧ I.losRand = r.particles.map (fun x => losf x.pos) ∧
    MovedBy d c.particles I.data.particles ∧ MovedBy d r.particles I.rand.particles ∧
    (p.volume = 0 → ∀ i, I.p.box i = (c.posMax i - c.posMin i) * p.expand)
  sim : p.catType = "sim" → ∃ c, ReadFrom D p p.dataFile c ∧
    I.losData = c.particles.map (fun x => losf x.pos) ∧ Wrapped I.p.box c.particles I.data.particles ∧
    (p.volume = 0 → ∀ i, I.p.box i = (c.posMax i - c.posMin i) * p.expand)
  random : p.catType = "random" → ∃ r d qs, ReadFrom D p p.randFile r ∧
    I.losRand = r.particles.map (fun x => losf x.pos) ∧ MovedBy d r.particles qs ∧
    (p.alignment = "pad" → I.rand.particles = qs) ∧ (p.alignment = "centre" → Wrapped I.p.box qs I.rand.particles) ∧
    (p.volume = 0 → ∀ i, I.p.box i = (r.posMax i - r.posMin i) * p.expand)
  mesh : MeshFor pi p I.p

end Trv.Prog

import Verif.Model.Common
import Mathlib.Algebra.Order.Field.Basic
/-
Model of the binning objects: `src/triumvirate/src/dataobjs.cpp:39-249` (class
`trv::Binning`), `src/triumvirate/dataobjs.pyx:16-219` (its Python wrapper) and
`src/triumvirate/main/triumvirate.cpp:51-99` (`_set_custom_bins`).

Simplified: numbers live in an ordered field `K`; `std::log`, `std::exp` and
`M_PI` are the fields of a `MathLib`.  An unrecognised `space` leaves the local
`dbin_pad` (and, for mesh-based bins, `bin_max`) indeterminate in the C++ code;
here `space` is one of the two documented values.
-/
namespace Trv.Binning

variable {K : Type} [Field K] [LinearOrder K] [IsStrictOrderedRing K]

/-- The elementary functions used by the code. -/
structure MathLib (K : Type) where
  log : K → K
  exp : K → K
  pi : K

inductive Space | config | fourier
  deriving DecidableEq, Repr

/-- `dataobjs.hpp:60-67, 144-146`: the attributes of `trv::Binning`. -/
structure Cpp (K : Type) where
  space : Space
  scheme : String
  binMin : K
  binMax : K
  numBins : ℤ
  edges : List K
  centres : List K
  widths : List K
  padFourier : K
  padConfig : K
  deriving DecidableEq

/-- `int nbin_pad = 5` (`dataobjs.hpp:144`). -/
def nbinPad : ℕ := 5

/-- Constructor from space and scheme (`dataobjs.cpp:39-40`) with the header
defaults; the C++ code leaves range and number uninitialised, here given as
arguments. -/
def Cpp.new (space : Space) (scheme : String) (lo hi : K) (n : ℤ) : Cpp K :=
  ⟨space, scheme, lo, hi, n, [], [], [], 1 / 1000, 10⟩

/-- A `for (int ibin = a; ibin < n; ibin++)` loop as the list of its indices. -/
def loop (a : ℕ) (n : ℤ) : List ℕ := List.range' a (n.toNat - a)

/-- The padding width in use (`dataobjs.cpp:136-142`). -/
def Cpp.pad (B : Cpp K) : K := match B.space with
  | .fourier => B.padFourier
  | .config => B.padConfig

/-- `compute_binning` (`dataobjs.cpp:134-249`), appending to the vectors. -/
def computeBinning (m : MathLib K) (B : Cpp K) : Cpp K × Option CppErr :=
  let pad := B.pad
  let n : K := B.numBins
  if B.scheme = "lin" then
    let d := (B.binMax - B.binMin) / n
    let is := loop 0 B.numBins
    ({ B with
        edges := B.edges ++ is.map (fun i : ℕ => B.binMin + d * (i : K)) ++ [B.binMax]
        centres := B.centres ++ is.map (fun i : ℕ => B.binMin + d * (i : K) + d / 2)
        widths := B.widths ++ is.map (fun _ => d) }, none)
  else if B.scheme = "log" then
    if B.binMin = 0 then (B, some .invalidParameter) else
    let d := (m.log B.binMax - m.log B.binMin) / n
    let is := loop 0 B.numBins
    let l := fun i : ℕ => B.binMin * m.exp (d * (i : K))
    let r := fun i : ℕ => B.binMin * m.exp (d * ((i : K) + 1))
    ({ B with
        edges := B.edges ++ is.map l ++ [B.binMax]
        centres := B.centres ++ is.map (fun i => (l i + r i) / 2)
        widths := B.widths ++ is.map (fun i => r i - l i) }, none)
  else if B.scheme = "linpad" then
    let ps := loop 0 nbinPad
    let lo := pad * (nbinPad : K)
    let d := (B.binMax - lo) / (n - (nbinPad : K))
    let is := loop nbinPad B.numBins
    let l := fun i : ℕ => lo + d * ((i : K) - (nbinPad : K))
    ({ B with
        edges := B.edges ++ ps.map (fun i : ℕ => pad * (i : K)) ++ is.map l ++ [B.binMax]
        centres := B.centres ++ ps.map (fun i : ℕ => pad * (i : K) + pad / 2)
          ++ is.map (fun i => l i + d / 2)
        widths := B.widths ++ ps.map (fun _ => pad) ++ is.map (fun _ => d) }, none)
  else if B.scheme = "logpad" then
    let ps := loop 0 nbinPad
    let lo := pad * (nbinPad : K)
    let d := (m.log B.binMax - m.log lo) / (n - (nbinPad : K))
    let is := loop nbinPad B.numBins
    let l := fun i : ℕ => lo * m.exp (d * ((i : K) - (nbinPad : K)))
    let r := fun i : ℕ => lo * m.exp (d * ((i : K) - (nbinPad : K) + 1))
    ({ B with
        edges := B.edges ++ ps.map (fun i : ℕ => pad * (i : K)) ++ is.map l ++ [B.binMax]
        centres := B.centres ++ ps.map (fun i : ℕ => pad * (i : K) + pad / 2)
          ++ is.map (fun i => (l i + r i) / 2)
        widths := B.widths ++ ps.map (fun _ => pad) ++ is.map (fun i => r i - l i) }, none)
  else (B, some .invalidParameter)

/-- Clearing the three vectors (`dataobjs.cpp:79-81` and `105-107`). -/
def Cpp.clear (B : Cpp K) : Cpp K := { B with edges := [], centres := [], widths := [] }

/-- `set_bins()` (`dataobjs.cpp:77-84`). -/
def Cpp.reset (m : MathLib K) (B : Cpp K) : Cpp K × Option CppErr :=
  computeBinning m B.clear

/-- `set_bins(coord_min, coord_max, nbin)` (`dataobjs.cpp:58-75`). -/
def Cpp.setBins (m : MathLib K) (B : Cpp K) (lo hi : K) (n : ℤ) : Cpp K × Option CppErr :=
  if lo < 0 then (B, some .invalidParameter)
  else if n ≤ 0 then (B, some .invalidParameter)
  else Cpp.reset m { B with binMin := lo, binMax := hi, numBins := n }

/-- `bin_width` and the initial `bin_max` of the next function
(`dataobjs.cpp:91-99`). -/
def gridWidth (m : MathLib K) (s : Space) (L : K) (N : ℤ) : K := match s with
  | .config => L / (N : K)
  | .fourier => 2 * m.pi / L
def gridMax (m : MathLib K) (s : Space) (L : K) (N : ℤ) : K := match s with
  | .config => L / 2
  | .fourier => m.pi * (N : K) / L

/-- `set_bins(boxsize_max, ngrid_min)` (`dataobjs.cpp:86-110`). -/
def Cpp.setGridBins (m : MathLib K) (B : Cpp K) (L : K) (N : ℤ) : Cpp K × Option CppErr :=
  Cpp.reset m { B with scheme := "lin", binMin := 0,
                       binMax := gridMax m B.space L N + gridWidth m B.space L N / 2,
                       numBins := N.tdiv 2 }

/-- Midpoints and differences of consecutive entries. -/
def mids (es : List K) : List K := List.zipWith (fun a b => (a + b) / 2) es es.tail
def diffs (es : List K) : List K := List.zipWith (fun a b => b - a) es es.tail

/-- `set_bins(bin_edges)` (`dataobjs.cpp:112-132`).  On an empty vector `front`
is undefined behaviour. -/
def Cpp.setCustomBins (B : Cpp K) (es : List K) : Cpp K × Option CppErr :=
  match es.head?, es.getLast? with
  | some lo, some hi =>
    ({ B with binMin := lo, binMax := hi, numBins := (es.length : ℤ) - 1, scheme := "custom",
              edges := es, centres := mids es, widths := diffs es }, none)
  | _, _ => (B, some .outOfBounds)

/-- `_set_custom_bins` of the main program (`triumvirate.cpp:51-99`), for the
configuration space (in Fourier space it throws).  The constants are `dbin_pad =
10.` and `nbin_pad = 5`. -/
def mainCustomBins (m : MathLib K) (B : Cpp K) : Cpp K × Option CppErr :=
  match B.space with
  | .fourier => (B.clear, some .invalidParameter)
  | .config =>
    let pad : K := 10
    let ps := loop 1 nbinPad
    let lo := pad * (nbinPad : K)
    let d := (m.log B.binMax - m.log lo) / ((B.numBins : K) - (nbinPad : K))
    let is := loop nbinPad B.numBins
    let l := fun i : ℕ => lo * m.exp (d * ((i : K) - (nbinPad : K)))
    let r := fun i : ℕ => lo * m.exp (d * ((i : K) - (nbinPad : K) + 1))
    ({ B with
        edges := [0] ++ [1] ++ ps.map (fun i : ℕ => pad * (i : K)) ++ is.map l ++ [B.binMax]
        centres := [1 / 2] ++ [5] ++ ps.map (fun i : ℕ => pad * (i : K) + pad / 2)
          ++ is.map (fun i => (l i + r i) / 2)
        widths := [1] ++ [9] ++ ps.map (fun _ => pad) ++ is.map (fun i => r i - l i) }, none)

/-- The Python object (`dataobjs.pxd`, class `Binning`): its own copies of the
attributes and the wrapped C++ object. -/
structure Py (K : Type) where
  scheme : String
  binMin : K
  binMax : K
  numBins : ℤ
  edges : List K
  centres : List K
  widths : List K
  cpp : Cpp K
  deriving DecidableEq

/-- Calls on the Python object. -/
inductive Call (K : Type)
  /-- `set_bins(bin_min, bin_max, num_bins)` -/
  | setBins (lo hi : K) (n : ℤ)
  /-- `set_grid_based_bins(boxsize, ngrid)` after reduction to maximum and minimum -/
  | setGrid (L : K) (N : ℤ)
  /-- `set_custom_bins(bin_edges)` -/
  | setCustom (es : List K)

/-- One call: the object afterwards and whether it raised.
`dataobjs.pyx:139-160`, `162-189`, `191-219`. -/
def Py.call (m : MathLib K) (P : Py K) : Call K → Py K × Bool
  | .setBins lo hi n =>
    let P := { P with binMin := lo, binMax := hi, numBins := n }
    let (c, e) := P.cpp.setBins m lo hi n
    match e with
    | some _ => ({ P with cpp := c }, true)
    | none => ({ P with cpp := c, edges := c.edges, centres := c.centres, widths := c.widths }, false)
  | .setGrid L N =>
    let (c, e) := P.cpp.setGridBins m L N
    match e with
    | some _ => ({ P with cpp := c }, true)
    | none => ({ scheme := c.scheme, binMin := c.binMin, binMax := c.binMax, numBins := c.numBins,
                 edges := c.edges, centres := c.centres, widths := c.widths, cpp := c }, false)
  | .setCustom es =>
    match es.head?, es.getLast? with
    | some lo, some hi =>
      let c := { P.cpp with binMin := lo, binMax := hi, numBins := (es.length : ℤ) - 1,
                            scheme := "custom", edges := es, centres := mids es, widths := diffs es }
      ({ scheme := "custom", binMin := lo, binMax := hi, numBins := (es.length : ℤ) - 1,
         edges := es, centres := mids es, widths := diffs es, cpp := c }, false)
    | _, _ => (P, true)

/-- A history of calls. -/
def Py.run (m : MathLib K) (P : Py K) (cs : List (Call K)) : Py K :=
  cs.foldl (fun P c => (P.call m c).1) P

/-- A new object (`dataobjs.pyx:65-90`); unset numeric attributes are zero-initialised. -/
def Py.new (space : Space) (scheme : String) : Py K :=
  ⟨scheme, 0, 0, 0, [], [], [], Cpp.new space scheme 0 0 0⟩

end Trv.Binning

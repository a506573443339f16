import Verif.Model.Mesh
import Verif.Model.Binning
import Verif.Model.ArrayOps
/-
Model of the binned two-point statistics and the record of binned vectors in
`/repo/src/triumvirate/src/field.cpp` 2273-2945 (class `trv::FieldStats`).

Floating-point numbers are replaced by an ordered field `K` with floor; the magnitude of a vector
(`std::sqrt`, `maths.cpp:53-59`) is a parameter `mag`.  The OpenMP loops perform atomic additions
(or appends in a critical section); the model executes them in an arbitrary order given as a list.
Not modelled: the conversion of a number beyond the range of `int` (undefined in C++), logging,
files, memory counters, graphics-card branches.
-/
set_option linter.unusedSectionVars false
namespace Trv.Stats
open Trv.Mesh Trv.Binning

variable {K : Type} [Field K] [LinearOrder K] [IsStrictOrderedRing K] [FloorRing K]

/-! ### Compatibility of fields -/

/-- The parameters compared by `if_fields_compatible`. -/
structure Dims (K : Type) where
  box : Fin 3 → K
  ngrid : Fin 3 → ℤ
  nmesh : ℤ
  volume : K

/-- `field.cpp:2273-2302`: `if_fields_compatible` (the volume of the second field is compared
twice). -/
def compatible (p a b : Dims K) : Bool :=
  let flag := true
  let flag := [(0 : Fin 3), 1, 2].foldl (fun fl ax =>
    if p.box ax ≠ a.box ax ∨ p.box ax ≠ b.box ax ∨ p.ngrid ax ≠ a.ngrid ax ∨ p.ngrid ax ≠ b.ngrid ax
    then false else fl) flag
  if p.nmesh ≠ a.nmesh ∨ p.nmesh ≠ b.nmesh ∨ p.volume ≠ b.volume ∨ p.volume ≠ b.volume
  then false else flag

/-! ### Mesh vectors -/

/-- The cells of the mesh in the order of the triple loop (`field.cpp:2604-2606`). -/
def cells (n : Fin 3 → ℤ) : List (ℤ × ℤ × ℤ) :=
  let ax := fun i => (List.range (n i).toNat).map (Int.ofNat)
  (ax 0).flatMap fun i => (ax 1).flatMap fun j => (ax 2).map fun k => (i, j, k)

/-- `field.cpp:546-562`: `get_grid_pos_vector`, `get_grid_wavevector` with cell sizes `d`. -/
def gridVec (n : Fin 3 → ℤ) (d : Fin 3 → K) (c : ℤ × ℤ × ℤ) : Fin 3 → K
  | 0 => if c.1 < n 0 / 2 then c.1 * d 0 else (c.1 - n 0 : ℤ) * d 0
  | 1 => if c.2.1 < n 1 / 2 then c.2.1 * d 1 else (c.2.1 - n 1 : ℤ) * d 1
  | 2 => if c.2.2 < n 2 / 2 then c.2.2 * d 2 else (c.2.2 - n 2 : ℤ) * d 2

/-! ### Two-point statistics in bins -/

/-- A mode (or separation) with its length and its contribution (the power and the shot noise,
real and imaginary parts, or the correlation function), a vector over `K`. -/
structure Mode (K V : Type) where
  len : K
  val : V

/-- The fine samples (`field.cpp:2580-2598, 2838-2852`). -/
structure Fine (K V : Type) where
  num : ℕ → ℕ
  len : ℕ → K
  val : ℕ → V

section
variable {V : Type} [AddCommGroup V] [Module K V]

def Fine.zero : Fine K V := ⟨fun _ => 0, fun _ => 0, fun _ => 0⟩

/-- `field.cpp:2614-2656, 2868-2894`: the contribution of one mode. -/
def Fine.add (ns : ℕ) (d : K) (F : Fine K V) (m : Mode K V) : Fine K V :=
  let idx := truncInt (m.len / d)
  if 0 ≤ idx ∧ idx < ns then
    { num := fun i => if (i : ℤ) = idx then F.num i + 1 else F.num i
      len := fun i => if (i : ℤ) = idx then F.len i + m.len else F.len i
      val := fun i => if (i : ℤ) = idx then F.val i + m.val else F.val i }
  else F

/-- The fine binning, in the order of the list. -/
def fine (ns : ℕ) (d : K) (ms : List (Mode K V)) : Fine K V := ms.foldl (Fine.add ns d) Fine.zero

/-- One bin of the statistics: number, mean length, mean value. -/
structure Bin (K V : Type) where
  num : ℕ
  len : K
  val : V

/-- `field.cpp:2666-2690, 2905-2926`: the final binning of the fine samples in one bin. -/
def coarse (ns : ℕ) (d lower upper centre : K) (F : Fine K V) : Bin K V :=
  let acc := (List.range ns).foldl (fun (b : Bin K V) (i : ℕ) =>
    if lower ≤ (i : K) * d ∧ (i : K) * d < upper then
      ⟨b.num + F.num i, b.len + F.len i, b.val + F.val i⟩ else b) ⟨0, 0, 0⟩
  if acc.num ≠ 0 then
    ⟨acc.num, acc.len / (acc.num : K), ((acc.num : K)⁻¹ : K) • acc.val⟩
  else ⟨acc.num, centre, 0⟩

/-- The binned statistics, modes contributing in the order of the list. -/
def binStats (ns : ℕ) (d : K) (edges centres : List K) (numBins : ℕ) (ms : List (Mode K V)) :
    List (Bin K V) :=
  (List.range numBins).map fun b =>
    coarse ns d (edges.getD b 0) (edges.getD (b + 1) 0) (centres.getD b 0) (fine ns d ms)

end

/-- Sampling in Fourier space: `n_sample = 1e6`, `dk_sample = 1.e-5` (`field.cpp:2570-2571`). -/
def nSample : ℕ := 1000000
def dkSample : K := 1 / 100000
/-- Sampling in configuration space (`field.cpp:2827-2828`): `dr_sample = 1.e-1`. -/
def drSample : K := 1 / 10

/-! ### Record of binned vectors -/

/-- `field.cpp:2321-2334`: cell sizes, from the constructor (`field.cpp:2082-2089`). -/
def cellSize (m : MathLib K) (s : Space) (n : ℤ) (L : K) : K := match s with
  | .config => L / n
  | .fourier => 2 * m.pi / L

/-- The number of cells covering the maximum of the bins, `b * ngrid / boxsize` or
`b * boxsize / (2*M_PI)` (`field.cpp:2353, 2371`). -/
def reach (m : MathLib K) (s : Space) (n : ℤ) (L b : K) : K := match s with
  | .config => b * n / L
  | .fourier => b * L / (2 * m.pi)

/-- `field.cpp:2352-2355, 2370-2373`. -/
def lrangeUpper (q : K) (n : ℤ) : ℤ := min ⌈q⌉ ⌈(n : K) / 2⌉

/-- `field.cpp:2356-2362, 2374-2380`. -/
def rrangeLower (q : K) (n : ℤ) : ℤ := max ⌊(n : K) - q⌋ ⌊(n : K) / 2⌋

/-- A loop `for (int i = a; i <= b; i++)`. -/
def irange (a b : ℤ) : List ℤ := (List.range (b + 1 - a).toNat).map fun i : ℕ => a + (i : ℤ)

/-- `field.cpp:2384-2403`: `generate_range`. -/
def generateRange (ll lu rl ru : ℤ) : List ℤ :=
  if lu < rl then irange ll lu ++ irange rl ru else irange ll ru

/-- `field.cpp:2405-2413`: the index range on one axis. -/
def axisRange (m : MathLib K) (s : Space) (n : ℤ) (L b : K) : List ℤ :=
  let q := reach m s n L b
  generateRange 0 (lrangeUpper q n) (rrangeLower q n) (n - 1)

/-- One record (`field.cpp:2443-2448`). -/
structure Rec (K : Type) where
  idx : ℤ
  lower : K
  upper : K
  vec : Fin 3 → K

/-- `field.cpp:2439-2452`: the loop over the bins, ending at the first match. -/
def findBin (edges : List K) (scale : K) (v : Fin 3 → K) : List ℕ → Option (Rec K)
  | [] => none
  | b :: bs =>
    let lower := edges.getD b 0
    let upper := edges.getD (b + 1) 0
    if lower ≤ scale ∧ scale < upper then some ⟨b, lower, upper, v⟩
    else findBin edges scale v bs

/-- The cells visited (`field.cpp:2423-2425`). -/
def visited (m : MathLib K) (B : Cpp K) (n : Fin 3 → ℤ) (L : Fin 3 → K) : List (ℤ × ℤ × ℤ) :=
  let ax := fun i => axisRange m B.space (n i) (L i) B.binMax
  (ax 0).flatMap fun i => (ax 1).flatMap fun j => (ax 2).map fun k => (i, j, k)

/-- `field.cpp:2426-2455`: the records in the order in which the cells are processed. -/
def collect (m : MathLib K) (mag : (Fin 3 → K) → K) (B : Cpp K) (n : Fin 3 → ℤ) (L : Fin 3 → K)
    (order : List (ℤ × ℤ × ℤ)) : List (Rec K) :=
  let d := fun i => cellSize m B.space (n i) (L i)
  order.filterMap fun c =>
    let v := gridVec n d c
    findBin B.edges (mag v) v (List.range B.numBins.toNat)

/-- `field.cpp:2462-2485`: sorting by bin index. -/
def sortRecs (rs : List (Rec K)) : List (Rec K) :=
  (Arr.getSortedIndices (rs.map Rec.idx)).map fun i => rs.getD i ⟨0, 0, 0, fun _ => 0⟩

/-- `field.cpp:2317-2504`: `record_binned_vectors`, with the cells processed in the order given
(a permutation of `visited`, as OpenMP threads interleave). -/
def recordBinned (m : MathLib K) (mag : (Fin 3 → K) → K) (B : Cpp K) (n : Fin 3 → ℤ)
    (L : Fin 3 → K) (order : List (ℤ × ℤ × ℤ)) : List (Rec K) :=
  sortRecs (collect m mag B n L order)

end Trv.Stats

import Verif.Model.WinConv
import Verif.Model.MpiTools
/-
Model of `BispecWinConv.convolve` and `BispecWinConv.gen_winconv_mat`,
`/repo/src/triumvirate/winconv.py`, lines 2591-2661 and 2749-3072.

Simplifications: a run with MPI is one function of all ranks (they run the same program): it returns one
value per rank, or the first exception raised by any of them (the other ranks then hang or are aborted).
The order in which `Gatherv` delivers the messages is an argument, as is the double spherical Bessel
transform, which enters through its weights (it is linear unless samples are extrapolated
log-linearly, see `C03_default_extrapolation_violated`); the resampling of `k_in`, progress bars, warnings
and the environment variable `OMP_NUM_THREADS` are left out.
-/
namespace Trv.Wc

open Trv

variable {K L : Type}

/-- What stops a run: a Python exception, or an error reported by the MPI library. -/
inductive GenErr
  | py (e : PyErr)
  | mpi
  deriving DecidableEq, Repr

/-! ### Vectorised convolution (`winconv.py:2812-2842`) -/

/-- `np.cumsum`. -/
def cumsum (s : ℕ) : List ℕ → List ℕ
  | [] => []
  | n :: ns => (s + n) :: cumsum (s + n) ns

/-- `np.split(v, nodes)`; `p` is the previous node.  One more piece than nodes. -/
def npSplit (p : ℕ) : List ℕ → List K → List (List K)
  | [], v => [v.drop p]
  | n :: ns, v => (v.take n).drop p :: npSplit n ns v

/-- `winconv.py:2825-2832`: the dictionary of reshaped pieces (`zip` stops at the shortest list). -/
def toModel [Zero K] : List Multipole → List (List K) → List ℕ → Except PyErr (List (Multipole × Mat K))
  | z :: zs, p :: ps, d :: ds =>
    if p.length ≠ d * d then .error .valueError
    else match toModel zs ps ds with
      | .error e => .error e
      | .ok l => .ok ((z, ⟨d, d, fun i j => p.getD (i * d + j) 0⟩) :: l)
  | _, _, _ => .ok []

/-- `ndarray.flatten` (row-major). -/
def Mat.flat (M : Mat L) : List L := (List.range M.rows).flatMap fun i => (List.range M.cols).map (M.e i)

/-- `self.convolve(·, ic=ic)` as seen by `gen_winconv_mat`. -/
abbrev Conv (K L : Type) := List (Multipole × Mat K) → Except PyErr (List (Multipole × Mat L))

/-- `winconv.py:2812-2842`: `win_convolve_vector`; `zs` is `_formulae._multipoles_Z_true`, `ds` is
`dims_1d`. -/
def winVec [Zero K] (zs : List Multipole) (ds : List ℕ) (conv : Conv K L) (v : List K) :
    Except PyErr (List (Multipole × List L)) :=
  match toModel zs (npSplit 0 (cumsum 0 (ds.map fun d => d * d)) v) ds with
  | .error e => .error e
  | .ok B =>
    match conv B with
    | .error e => .error e
    | .ok o => .ok (o.map fun p => (p.1, p.2.flat))

/-- `dim_2d`. -/
def dim2 (ds : List ℕ) : ℕ := (ds.map fun d => d * d).sum

/-- A row of `np.eye(n)`. -/
def unitVec [Zero K] [One K] (n j : ℕ) : List K := (List.range n).map fun i => if i = j then 1 else 0

/-! ### Return value (`winconv.py:2849-2864`) -/

/-- A dictionary of matrices, or one matrix. -/
inductive Res (L : Type)
  | dict (d : List (Multipole × Mat L))
  | one (M : Mat L)

/-- `wcmat_[select_rows]` with `diag`: the rows `idx * (nk + 1)`. -/
def diagRows (nk : ℕ) (M : Mat L) : Except PyErr (Mat L) :=
  if ∀ i < nk, i * (nk + 1) < M.rows then .ok ⟨nk, M.cols, fun i j => M.e (i * (nk + 1)) j⟩
  else .error .indexError

/-- `np.row_stack` of two matrices. -/
def vcat (A B : Mat L) : Except PyErr (Mat L) :=
  if A.cols ≠ B.cols then .error .valueError
  else .ok ⟨A.rows + B.rows, A.cols, fun i j => if i < A.rows then A.e i j else B.e (i - A.rows) j⟩

/-- `np.row_stack` (an empty list is a `ValueError`). -/
def rowStack : List (Mat L) → Except PyErr (Mat L)
  | [] => .error .valueError
  | [A] => .ok A
  | A :: As =>
    match rowStack As with
    | .error e => .error e
    | .ok B => vcat A B

/-- `winconv.py:2849-2864`: `_return_wcmat` on the root. -/
def returnWcmat (ms : List Multipole) (nk : ℕ) (concat diag : Bool) (wcmat : List (Multipole × Mat L)) :
    Except PyErr (Res L) :=
  match traverse (fun p : Multipole × Mat L =>
      match (if diag then diagRows nk p.2 else .ok p.2) with
      | .error e => Except.error e
      | .ok M => Except.ok (p.1, M)) wcmat with
  | .error e => .error e
  | .ok w =>
    if concat then
      match traverse (fun m => get w m) ms with
      | .error e => .error e
      | .ok As =>
        match rowStack As with
        | .error e => .error e
        | .ok M => .ok (.one M)
    else .ok (.dict w)

/-! ### Without MPI (`winconv.py:2866-2889`) -/

/-- `winconv.py:2866-2889`: the path taken for `comm=None`.  After the columns are computed and stacked
(`np.column_stack` of nothing is a `ValueError`), `_return_wcmat` is called with two of its three
arguments. -/
def genSerial [Zero K] [One K] (ms zs : List Multipole) (ds : List ℕ) (conv : Conv K L) :
    Except GenErr (Res L) :=
  match traverse (fun j => winVec zs ds conv (unitVec (dim2 ds) j)) (List.range (dim2 ds)) with
  | .error e => .error (.py e)
  | .ok cols =>
    match traverse (fun o => traverse (fun m => get o m) ms) cols with
    | .error e => .error (.py e)
    | .ok _ => if dim2 ds = 0 ∧ ms ≠ [] then .error (.py .valueError) else .error (.py .typeError)

/-! ### With MPI (`winconv.py:2891-3072`) -/

/-- A buffer: `np.asarray` of a list of complex vectors is an array of floats if the list is empty. -/
structure Buf (L : Type) where
  cplx : Bool
  data : List L

/-- `np.asarray(vs)`, then `ravel()`. -/
def asarray (vs : List (List L)) : Buf L := ⟨!vs.isEmpty, vs.flatten⟩

/-- A message of rank `r` arrives: its data is written at the offset of the rank. -/
def deliver (bufs : List (Buf L)) (buf : ℕ → Option L) (r : ℕ) : ℕ → Option L := fun i =>
  let off := ((bufs.take r).map fun b => b.data.length).sum
  let d := (bufs[r]?.map Buf.data).getD []
  if off ≤ i ∧ i < off + d.length then d[i - off]? else buf i

/-- `winconv.py:3036-3053`: `gather` of the sizes and `Gatherv`.  The receive buffer has the type of the
root's send buffer; a non-empty message of another type is rejected by MPI (message truncated).
`none` is an element of `np.empty` not written. -/
def gatherv (bufs : List (Buf L)) (root : ℕ) (order : List ℕ) : Except GenErr (ℕ × (ℕ → Option L)) :=
  match bufs[root]? with
  | none => .error .mpi
  | some rb =>
    if bufs.any fun b => !b.data.isEmpty && b.cplx != rb.cplx then .error .mpi
    else .ok ((bufs.map fun b => b.data.length).sum, order.foldl (deliver bufs) fun _ => none)

/-- `recvbuf.reshape((dim_2d, recvbuf.size // dim_2d)).T`. -/
def unravel (dim size : ℕ) (buf : ℕ → Option L) : Except GenErr (Mat (Option L)) :=
  if dim * (size / dim) ≠ size then .error (.py .valueError)
  else .ok ⟨size / dim, dim, fun i j => buf (j * (size / dim) + i)⟩

/-- `winconv.py:2943-2978`: the vectors computed by one rank, for its segment of the basis. -/
def rankVecs [Zero K] [One K] (zs : List Multipole) (ds : List ℕ) (conv : Conv K L) (seg : ℕ × ℕ) (size : ℕ) :
    Except PyErr (List (List (Multipole × List L))) :=
  traverse (fun t => winVec zs ds conv (unitVec (dim2 ds) (seg.1 + t))) (List.range size)

/-- `winconv.py:3033-3060`: gathering the matrix of one multipole. -/
def gatherOne (dim root : ℕ) (order : List ℕ) (all : List (List (List (Multipole × List L)))) (m : Multipole) :
    Except GenErr (Multipole × Mat (Option L)) :=
  match traverse (fun vs => traverse (fun o => get o m) vs) all with
  | .error e => .error (.py e)
  | .ok vss =>
    match gatherv (vss.map asarray) root order with
    | .error e => .error e
    | .ok (size, buf) =>
      match unravel dim size buf with
      | .error e => .error e
      | .ok M => .ok (m, M)

/-- `winconv.py:2891-3072`: the path taken with a communicator of `P` processes.  The value of each
rank: the matrices at the root, `None` elsewhere.  `order m` is the order in which the messages for
multipole `m` arrive. -/
def genMpi [Zero K] [One K] (ms zs : List Multipole) (ds : List ℕ) (nk : ℕ) (conv : Conv K L)
    (concat diag : Bool) (P root : ℕ) (order : Multipole → List ℕ) :
    Except GenErr (List (Option (Res (Option L)))) :=
  match Mpi.allocateTasks (.npint (dim2 ds)) (.int P) with
  | .error e => .error (.py e)
  | .ok sizes =>
    match Mpi.distributeTasks (some sizes) .none .none with
    | .error e => .error (.py e)
    | .ok segs =>
      match traverse (fun r => rankVecs zs ds conv (segs.getD r (0, 0)) (sizes.getD r 0)) (List.range P) with
      | .error e => .error (.py e)
      | .ok all =>
        match traverse (fun m => gatherOne (dim2 ds) root (order m) all m) ms with
        | .error e => .error e
        | .ok w =>
          match returnWcmat ms nk concat diag w with
          | .error e => .error (.py e)
          | .ok res => .ok ((List.range P).map fun r => if r = root then some res else none)

/-! ### Convolution of bispectra (`winconv.py:2591-2661`) -/

/-- A double spherical Bessel transform with phases and prefactor (`transform_cosmo_multipoles`):
`n` sample points in either dimension, before and after; `w i j a b` is the weight of the sample
`(a, b)` in the transformed sample `(i, j)`, real and imaginary part. -/
structure Dsbt (K : Type) where
  n : ℕ
  w : ℕ → ℕ → ℕ → ℕ → K × K

variable [Field K]

/-- The transform of real samples. -/
def Dsbt.apply (T : Dsbt K) (x : ℕ → ℕ → K) : Mat (K × K) :=
  ⟨T.n, T.n, fun i j => (∑ a ∈ Finset.range T.n, ∑ b ∈ Finset.range T.n, (T.w i j a b).1 * x a b,
    ∑ a ∈ Finset.range T.n, ∑ b ∈ Finset.range T.n, (T.w i j a b).2 * x a b)⟩

/-- One multipole transformed back to configuration space. -/
def backOne (bwd : Multipole → Dsbt K) (Bin : List (Multipole × Mat K)) (z : Multipole) :
    Except PyErr (Key × Mat (K × K)) :=
  match get Bin z with
  | .error e => .error e
  | .ok M => .ok (.mp z, (bwd z).apply M.e)

/-- One convolved multipole transformed to Fourier space and interpolated at `k_out`; `kc m` are the
points after the transform. -/
def forthOne (I : Interp K) (fwd : Multipole → Dsbt K) (kc : Multipole → List K) (kout : List K)
    (zc : List (Multipole × List (List K))) (m : Multipole) : Except PyErr (Multipole × Mat (K × K)) :=
  match get zc m with
  | .error e => .error e
  | .ok Z =>
    let T := (fwd m).apply fun a b => (Z.getD a []).getD b 0
    .ok (m, ⟨kout.length, kout.length, fun i j =>
      (I.spl2 (kc m) (fun a b => (T.e a b).1) (kout.getD i 0) (kout.getD j 0),
       I.spl2 (kc m) (fun a b => (T.e a b).2) (kout.getD i 0) (kout.getD j 0))⟩)

/-- `winconv.py:2591-2661`: `BispecWinConv.convolve` (without resampling of the input). -/
def bispecConv [DecidableEq K] (I : Interp K) (B : Base K (Mat K)) (bwd fwd : Multipole → Dsbt K)
    (kc : Multipole → List K) (kout : List K) (ic : Option K) : Conv K (K × K) := fun Bin =>
  match traverse (backOne bwd Bin) B.F.zTrue with
  | .error e => .error e
  | .ok zeta =>
    match conv3 I B zeta ic with
    | .error e => .error e
    | .ok zc => traverse (forthOne I fwd kc kout zc) B.F.multipoles

end Trv.Wc

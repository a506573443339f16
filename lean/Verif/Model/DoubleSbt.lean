import Verif.Model.Fftlog
/-
Model of `DoubleSphericalBesselTransform` (`/repo/src/triumvirate/transforms.py:275-523`).

Simplifications: exact arithmetic; a two-dimensional array is the list of its rows, whose elements are
complex (the intermediate samples are); the extrapolation functions (`_arrayops.py`) are parameters.
-/
namespace Trv.Fft

open Trv Trv.Arr

/-- One of the two one-dimensional transforms (`transforms.py:376-384`): a `SphericalBesselTransform`
made without `extrap_layer`, so with the layer 'outer'.  `ext` is its `_perform_extrap` (248-272):
`none` if it returns the array object itself. -/
structure Line where
  fbht : Hankel
  nExt : ℤ
  ext : Option (List ℂ → Except PyErr (List ℂ))

/-- `transforms.py:198-209`: the part of the one-dimensional `transform` after the extrapolation: the
array object afterwards (multiplied in place) and the transformed samples. -/
noncomputable def Line.work (S : Line) (a : List ℂ) : List ℂ × Except Err (List ℂ) :=
  if a.length ≠ S.fbht.pre.length then (a, .error (.inl .valueError))
  else
    let l := List.zipWith (fun (x : ℂ) (r : ℝ) => x * ((r ^ (3 / 2 : ℝ) : ℝ) : ℂ)) a S.fbht.pre
    (l, match biased S.fbht l with
      | .error e => .error (.inr e)
      | .ok B => .ok (List.zipWith
          (fun (x : ℂ) (k : ℝ) => x * (((2 * Real.pi / k) ^ (3 / 2 : ℝ) : ℝ) : ℂ)) (pySlice S.nExt B)
          (pySlice S.nExt S.fbht.post)))

/-- `transforms.py:182-209`: one-dimensional `transform`; first component: the array object of the
caller afterwards. -/
noncomputable def Line.transform (S : Line) (a : List ℂ) : List ℂ × Except Err (List ℂ) :=
  match S.ext with
  | none => S.work a
  | some f => match f a with
    | .error e => (a, .error (.inl e))
    | .ok b => (a, (S.work b).2)

/-- `transforms.py:441-444, 446-449`: the loops over rows; the first component are the rows of the array
afterwards. -/
noncomputable def Line.all (S : Line) : List (List ℂ) → List (List ℂ) × Except Err (List (List ℂ))
  | [] => ([], .ok [])
  | a :: l =>
    match (S.transform a).2 with
    | .error e => ((S.transform a).1 :: l, .error e)
    | .ok b => ((S.transform a).1 :: (S.all l).1, match (S.all l).2 with
      | .error e => .error e
      | .ok m => .ok (b :: m))

/-- `np.asarray(rows).T`. -/
def cols (m : List (List ℂ)) : List (List ℂ) :=
  (List.range (m.headD []).length).map fun j => m.map fun r => r.getD j 0

/-- `transforms.py:345-395`: the attributes of the transform. -/
structure Dsbt where
  deg0 : ℕ
  deg1 : ℕ
  t0 : Line
  t1 : Line
  nExt : ℤ
  ext2 : Option (List (List ℂ) → Except PyErr (List (List ℂ)))

/-- `transforms.py:341-395`: the extrapolation asked for: none (`extrap == 0`), one-dimensional
(`extrap2d=False`), or two-dimensional. -/
inductive Mode
  | none
  | lines (f : List ℂ → Except PyErr (List ℂ))
  | plane (f : List (List ℂ) → Except PyErr (List (List ℂ)))

/-- Sample points that are numbers; others fail the check of the spacing. -/
def finite {K : Type} (l : List (Val K)) : Option (List K) :=
  l.foldr (fun x acc => match x, acc with | some x, some acc => some (x :: acc) | _, _ => none) (some [])

/-- `transforms.py:125-143` and `352-374`: the extension number and the sample points passed on. -/
noncomputable def extended (pts : List ℝ) (e : ℝ) : Except Err (ℤ × List ℝ) :=
  match outerExtension pts e with
  | .error err => .error (.inl err)
  | .ok (n, p) => match finite p with
    | none => .error (.inl .valueError)
    | some p => .ok (n, p)

/-- `transforms.py:106-158`: a one-dimensional transform of the given points, after the extension. -/
noncomputable def Line.init (G : LnGamma) (deg : ℕ) (q : ℝ) (pts : List ℝ) (kr : ℝ) (lowring : Bool) (n : ℤ)
    (ext : Option (List ℂ → Except PyErr (List ℂ))) (e : ℝ) : Except Err Line :=
  match initialise G ((deg : ℝ) + 1 / 2) q pts kr lowring .none e with
  | .error err => .error (.inr err)
  | .ok H => .ok ⟨H, n, ext⟩

/-- The pair of one-dimensional transforms (`transforms.py:376-384`). -/
noncomputable def Dsbt.pair (G : LnGamma) (deg0 deg1 : ℕ) (q0 q1 : ℝ) (pts : List ℝ) (kr : ℝ) (lowring : Bool)
    (nLine nPlane : ℤ) (ext : Option (List ℂ → Except PyErr (List ℂ)))
    (ext2 : Option (List (List ℂ) → Except PyErr (List (List ℂ)))) (e : ℝ) : Except Err Dsbt :=
  match Line.init G deg0 q0 pts kr lowring nLine ext e with
  | .error err => .error err
  | .ok t0 => match Line.init G deg1 q1 pts kr lowring nLine ext e with
    | .error err => .error err
    | .ok t1 => .ok ⟨deg0, deg1, t0, t1, nPlane, ext2⟩

/-- `transforms.py:341-395`: `__init__`. -/
noncomputable def Dsbt.init (G : LnGamma) (deg0 deg1 : ℕ) (q0 q1 : ℝ) (pts : List ℝ) (kr : ℝ) (lowring : Bool)
    (mode : Mode) (e : ℝ) : Except Err Dsbt :=
  match mode with
  | .none => Dsbt.pair G deg0 deg1 q0 q1 pts kr lowring 0 0 none none e
  | .lines f => match extended pts e with
    | .error err => .error err
    | .ok (n, p) => Dsbt.pair G deg0 deg1 q0 q1 p kr lowring n 0 (some f) none e
  | .plane f => match extended pts e with
    | .error err => .error err
    | .ok (n, p) => Dsbt.pair G deg0 deg1 q0 q1 p kr lowring 0 n none (some f) e

/-- `transforms.py:386-395`: `_post_sampts`, from the representative transform, `_rep = 0`. -/
def Dsbt.points (D : Dsbt) : List ℝ := pySlice D.nExt (pySlice D.t0.nExt D.t0.fbht.post)

/-- `transforms.py:441-459`: the two loops, the slices and the mesh of sample points (returned as the
points of the two dimensions).  An array without rows ends in an `IndexError` of the slicing. -/
noncomputable def Dsbt.work (D : Dsbt) (m : List (List ℂ)) :
    List (List ℂ) × Except Err ((List ℝ × List ℝ) × List (List ℂ)) :=
  ((D.t1.all m).1, match (D.t1.all m).2 with
    | .error e => .error e
    | .ok inter => match (D.t0.all (cols inter)).2 with
      | .error e => .error e
      | .ok postT =>
        if postT = [] then .error (.inl .indexError)
        else .ok ((D.points, D.points),
          (pySlice D.nExt (cols postT)).map (pySlice D.nExt)))

/-- `transforms.py:420-459`: `transform`; the first component is the array of the caller afterwards. -/
noncomputable def Dsbt.transform (D : Dsbt) (m : List (List ℂ)) :
    List (List ℂ) × Except Err ((List ℝ × List ℝ) × List (List ℂ)) :=
  match D.ext2 with
  | none => D.work m
  | some f => match f m with
    | .error e => (m, .error (.inl e))
    | .ok b => (m, (D.work b).2)

/-- `transforms.py:461-499`: `transform_cosmo_multipoles`; `forward` is the direction. -/
noncomputable def Dsbt.cosmo (D : Dsbt) (forward : Bool) (m : List (List ℂ)) :
    List (List ℂ) × Except Err ((List ℝ × List ℝ) × List (List ℂ)) :=
  let parity : ℂ := if forward then (-Complex.I) ^ (D.deg0 + D.deg1) else Complex.I ^ (D.deg0 + D.deg1)
  let prefactor : ℂ := if forward then 1 else (2 * (Real.pi : ℂ)) ^ (-(3 * 2) : ℤ)
  ((D.transform m).1, match (D.transform m).2 with
    | .error e => .error e
    | .ok (x, s) => .ok (x, s.map fun r => r.map (· * (prefactor * parity))))

end Trv.Fft

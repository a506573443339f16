import Verif.Model.PowWin
import Verif.Model.BispecIn
import Verif.Model.DoubleSbt
/-
Model of the window convolution of bispectra (`BispecWinConv`, `/repo/src/triumvirate/winconv.py`, lines
2462-2680).

Simplifications: exact arithmetic; two-dimensional arrays are objects by identity (`MHeap`), the lists of
their rows, with complex elements, since the transforms multiply samples in place; the transform options
are those of a function making transforms (`NewDsbt`), given explicitly for `extrap=0`
(`plainDsbt`); negative degrees are not modelled.  A complex array passed to `RectBivariateSpline` loses
its imaginary part (with a warning); the failures of that class are those for the shape of the samples.
-/
namespace Trv.Wc

open Trv Trv.Fft

/-- Two-dimensional array objects by identity. -/
structure MHeap where
  arr : ℕ → List (List ℂ)
  next : ℕ

/-- Assignment to the elements of an array object. -/
def MHeap.set (h : MHeap) (id : ℕ) (x : List (List ℂ)) : MHeap :=
  ⟨fun i => if i = id then x else h.arr i, h.next⟩

/-- A new array object. -/
def MHeap.add (h : MHeap) (x : List (List ℂ)) : MHeap :=
  ⟨fun i => if i = h.next then x else h.arr i, h.next + 1⟩

/-- `DoubleSphericalBesselTransform(degrees, (0, 0), sample_pts, **transform_kwargs)` for given options. -/
abbrev NewDsbt := ℤ → ℤ → List ℝ → Except Err Dsbt

/-- `transforms.py:341-395` with `extrap=0`. -/
noncomputable def plainDsbt (G : LnGamma) (kr : ℝ) (lowring : Bool) : NewDsbt := fun a b pts =>
  Dsbt.init G a.toNat b.toNat 0 0 pts kr lowring .none 2

/-- `(multipole[0], multipole[1])`. -/
def degrees01 (m : Multipole) : Except Err (ℤ × ℤ) :=
  match m.index with
  | a :: b :: _ => .ok (a, b)
  | _ => .error (.inl .indexError)

/-- The transforms of a list of multipoles (`winconv.py:2529-2537`, `2566-2574`). -/
noncomputable def newAll2 (new : NewDsbt) (pts : Multipole → Except PyErr (List ℝ)) (ms : List Multipole) :
    Except Err (List (Multipole × Dsbt)) :=
  traverse (fun m =>
    match degrees01 m with
    | .error e => .error e
    | .ok (a, b) =>
      match pts m with
      | .error e => .error (.inl e)
      | .ok x =>
        match new a b x with
        | .error e => .error e
        | .ok D => .ok (m, D)) ms

/-- The attributes of a `BispecWinConv` object; `kIn` are `k_in` and `_k_in_orig`, `base` are those of the
`ThreePCFWinConv` object made at the end. -/
structure BisConv where
  base : Base ℝ (Mat ℝ)
  kIn : List (Option Multipole × List ℝ) × Option (List (Option Multipole × List ℝ))
  bdsjt : List (Multipole × Dsbt)
  fdsjt : List (Multipole × Dsbt)
  kout : List ℝ

open Classical in
/-- `winconv.py:2462-2596`: `BispecWinConv.__init__`.  The error classes of the spacing check are subclasses
of `ValueError`. -/
noncomputable def mkBis (new : NewDsbt) (F : Formulae) (sampts : Pts ℝ) (Q : List (Key × Mat ℝ)) (kIn : Pts ℝ)
    (kOut : Option (List ℝ)) (rCommon : Option (List ℝ)) : Except Err BisConv :=
  match initWindow F sampts Q with
  | .error e => .error (.inl e)
  | .ok (rQ, Q) =>
    match bispecIn F kIn with
    | .error e => .error (.inl e)
    | .ok kIn =>
      match newAll2 new (fun z => get kIn.1 (some z)) F.zTrue with
      | .error e => .error e
      | .ok bdsjt =>
        if ¬ ∀ r, rCommon = some r → checkLoglin r = .ok then .error (.inl .valueError)
        else
          match mkBase F (.dict (asKeys rQ)) (asKeys Q) (.dict (asKeys (bdsjt.map fun p : Multipole × Dsbt => (p.1, p.2.points))))
              (rCommon.map .all) with
          | .error e => .error (.inl e)
          | .ok B =>
            match newAll2 new (fun m => get B.rOut m) F.multipoles with
            | .error e => .error e
            | .ok fdsjt =>
              match (match kOut with
                | some k => Except.ok k
                | none => convRange (fdsjt.map fun p : Multipole × Dsbt => p.2.points)) with
              | .error e => .error (.inl e)
              | .ok kout => .ok ⟨B, kIn, bdsjt, fdsjt, kout⟩

/-- The loops of transforms of the array objects `A` (`winconv.py:2644-2648`, `2654-2672`); `post` is what is
made of the transformed samples. -/
noncomputable def runAll {κ β : Type} [DecidableEq κ] (T : List (Multipole × Dsbt)) (fwd : Bool) (key : Multipole → κ)
    (post : Dsbt → List (List ℂ) → Except Err β) (A : List (κ × ℕ)) :
    List Multipole → MHeap → MHeap × Except Err (List (Multipole × β))
  | [], h => (h, .ok [])
  | z :: zs, h =>
    match get T z, get A (key z) with
    | .error e, _ => (h, .error (.inl e))
    | _, .error e => (h, .error (.inl e))
    | .ok D, .ok id =>
      match D.cosmo fwd (h.arr id) with
      | (x, .error e) => (h.set id x, .error e)
      | (x, .ok (_, s)) =>
        match post D s with
        | .error e => (h.set id x, .error e)
        | .ok b =>
          match runAll T fwd key post A zs (h.set id x) with
          | (h, .error e) => (h, .error e)
          | (h, .ok l) => (h, .ok ((z, b) :: l))

/-- New array objects, one for each key. -/
def allocAll2 {κ : Type} : List (κ × List (List ℂ)) → MHeap → MHeap × List (κ × ℕ)
  | [], h => (h, [])
  | (m, x) :: l, h =>
    let r := allocAll2 l (h.add x)
    (r.1, (m, h.next) :: r.2)

/-- The shape and the elements of a two-dimensional array. -/
def toMat {β : Type} (g : ℂ → β) (s : List (List ℂ)) : Mat β :=
  ⟨s.length, (s.headD []).length, fun i j => g ((s.getD i []).getD j 0)⟩

/-- The rows of a real array. -/
noncomputable def ofMat (M : Mat ℝ) : List (List ℂ) :=
  (List.range M.rows).map fun i => (List.range M.cols).map fun j => (M.e i j : ℂ)

/-- The values of a dictionary of array objects. -/
def contents2 {κ : Type} (h : MHeap) (d : List (κ × ℕ)) : List (κ × List (List ℂ)) :=
  d.map fun p => (p.1, h.arr p.2)

/-- `winconv.py:2629-2642`: the array objects transformed: the ones passed, or new ones with the
interpolated samples. -/
noncomputable def bispecArrays (I : Interp ℝ)
    (k : List (Option Multipole × List ℝ) × Option (List (Option Multipole × List ℝ))) (h : MHeap) (Bin : List (Key × ℕ)) :
    MHeap × Except PyErr (List (Key × ℕ)) :=
  match k.2 with
  | none => (h, .ok Bin)
  | some _ =>
    match bispecSamples I k ((contents2 h Bin).map fun p : Key × List (List ℂ) => (p.1, toMat Complex.re p.2)) with
    | .error e => (h, .error e)
    | .ok B =>
      let r := allocAll2 (B.map fun p : Key × Mat ℝ => (p.1, ofMat p.2)) h
      (r.1, .ok r.2)

/-- `winconv.py:2664-2672`: interpolation of the real and the imaginary part at the output points. -/
noncomputable def splOut (I : Interp ℝ) (kout : List ℝ) (D : Dsbt) (s : List (List ℂ)) : Except Err (List (List ℂ)) :=
  let R := toMat Complex.re s
  let J := toMat Complex.im s
  if R.rows ≠ D.points.length ∨ R.cols ≠ D.points.length then .error (.inl .valueError)
  else .ok (kout.map fun p => kout.map fun q => ⟨I.spl2 D.points R.e p q, I.spl2 D.points J.e p q⟩)

open Classical in
/-- `winconv.py:2598-2676`: `BispecWinConv.convolve` of the arrays `Bin`: the arrays afterwards, and the
convolved bispectra with the arrays of the intermediate correlation functions (`ret_zeta=True`). -/
noncomputable def BisConv.convolve (I : Interp ℝ) (S : BisConv) (h : MHeap) (Bin : List (Key × ℕ)) (ic : Option ℝ) :
    MHeap × Except Err (List (Multipole × List (List ℂ)) × List (Multipole × ℕ)) :=
  match bispecArrays I S.kIn h Bin with
  | (h, .error e) => (h, .error (.inl e))
  | (h, .ok Bin) =>
    match runAll S.bdsjt false .mp (fun _ s => .ok s) Bin S.base.F.zTrue h with
    | (h, .error e) => (h, .error e)
    | (h, .ok zeta) =>
      match conv3 I S.base (zeta.map fun p : Multipole × List (List ℂ) => (.mp p.1, toMat (fun z => (z.re, z.im)) p.2)) ic with
      | .error e => (h, .error (.inl e))
      | .ok conv =>
        match allocAll2 (conv.map fun p : Multipole × List (List ℝ) => (p.1, p.2.map fun r => r.map fun u : ℝ => (u : ℂ))) h with
        | (h, ids) =>
          match runAll S.fdsjt true id (splOut I S.kout) ids S.base.F.multipoles h with
          | (h, .error e) => (h, .error e)
          | (h, .ok B) => (h, .ok (B, ids))

end Trv.Wc

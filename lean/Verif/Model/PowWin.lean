import Verif.Model.WinBuild
/-
Model of the window convolution of power spectra (`PowspecWinConv`,
`/repo/src/triumvirate/winconv.py`, lines 1959-2130) with the range of convolution (`_find_conv_range`,
1323-1353).

Simplifications: exact real arithmetic; arrays are objects by identity (`Fft.Heap`), since the transforms
multiply samples in place; the transform options are those of a function making transforms
(`NewSbt`), given explicitly for `extrap=0` (`plainSbt`).  A complex array passed to
`InterpolatedUnivariateSpline` loses its imaginary part (with a warning).
-/
namespace Trv.Wc

open Trv Trv.Fft

/-- `SphericalBesselTransform(degree, 0, sample_pts, **transform_kwargs)` for given options. -/
abbrev NewSbt := ℤ → List ℝ → Except Err Sbt

/-- `transforms.py:106-158` with `extrap=0`. -/
noncomputable def plainSbt (G : LnGamma) (kr : ℝ) (lowring : Bool) : NewSbt := fun deg pts =>
  match initialise G ((deg : ℝ) + 1 / 2) 0 pts kr lowring .none 2 with
  | .error e => .error (.inr e)
  | .ok H => .ok ⟨H, true, 0, none⟩

/-- The attribute `_post_sampts` (`transforms.py:156-158`). -/
def sbtPoints (S : Sbt) : List ℝ := pySlice S.nExt S.fbht.post

/-- `transforms.py:211-246`: `transform_cosmo_multipoles`; `fwd` is the direction. -/
noncomputable def sbtCosmo (deg : ℤ) (fwd : Bool) (S : Sbt) (h : Heap) (id : ℕ) :
    Heap × Except Err (List ℝ × List ℂ) :=
  match S.transform h id with
  | (h, .error e) => (h, .error e)
  | (h, .ok (k, v)) =>
    let parity : ℂ := (if fwd then -Complex.I else Complex.I) ^ deg
    let pre : ℂ := if fwd then 1 else (2 * Real.pi) ^ (-3 : ℤ)
    (h, .ok (k, v.map (· * (pre * parity))))

/-- `multipole[0]`. -/
def degree0 (m : Multipole) : Except Err ℤ :=
  match m.index with
  | [] => .error (.inl .indexError)
  | a :: _ => .ok a

/-- `winconv.py:1323-1353`: `_find_conv_range` with logarithmic spacing. -/
noncomputable def convRange (xs : List (List ℝ)) : Except PyErr (List ℝ) :=
  match xs.map (fun x => x.foldr min (x.headD 0)), xs.map (fun x => x.foldr max (x.headD 0)), xs.map List.length with
  | a :: as, b :: bs, n :: ns =>
    if xs.any List.isEmpty then .error .valueError
    else .ok (logspace (as.foldl max a) (bs.foldl min b) (ns.foldl min n))
  | _, _, _ => .error .valueError

/-- The attributes of a `PowspecWinConv` object; `base` are those of the `TwoPCFWinConv` object made at the
end. -/
structure Pow where
  base : Base ℝ (List ℝ)
  bsjt : List (Multipole × Sbt)
  fsjt : List (Multipole × Sbt)
  kout : List ℝ

/-- The transforms of a list of multipoles (`winconv.py:2006-2014`, `2044-2052`). -/
noncomputable def newAll (new : NewSbt) (pts : Multipole → Except PyErr (List ℝ)) (ms : List Multipole) :
    Except Err (List (Multipole × Sbt)) :=
  traverse (fun m =>
    match degree0 m with
    | .error e => .error e
    | .ok d =>
      match pts m with
      | .error e => .error (.inl e)
      | .ok x =>
        match new d x with
        | .error e => .error e
        | .ok S => .ok (m, S)) ms

/-- Keys of a dictionary of multipoles. -/
def asKeys {α : Type} (d : List (Multipole × α)) : List (Key × α) := d.map fun p => (.mp p.1, p.2)

open Classical in
/-- `winconv.py:1959-2069`: `PowspecWinConv.__init__`.  The error classes of the spacing check are
subclasses of `ValueError`. -/
noncomputable def mkPow (new : NewSbt) (F : Formulae) (sampts : Pts ℝ) (Q : List (Key × List ℝ)) (kIn : Pts ℝ)
    (kOut : Option (List ℝ)) (rCommon : Option (List ℝ)) : Except Err Pow :=
  match initWindow F sampts Q with
  | .error e => .error (.inl e)
  | .ok (rQ, Q) =>
    match setRIn F kIn with
    | .error e => .error (.inl e)
    | .ok kIn =>
      if ¬ ∀ p : Option Multipole × List ℝ, p ∈ kIn → checkLoglin p.2 = .ok then .error (.inl .valueError)
      else
        match newAll new (fun z => get kIn (some z)) F.zTrue with
        | .error e => .error e
        | .ok bsjt =>
          if ¬ ∀ r, rCommon = some r → checkLoglin r = .ok then .error (.inl .valueError)
          else
            match mkBase F (.dict (asKeys rQ)) (asKeys Q) (.dict (asKeys (bsjt.map fun p : Multipole × Sbt => (p.1, sbtPoints p.2))))
                (rCommon.map .all) with
            | .error e => .error (.inl e)
            | .ok B =>
              match newAll new (fun m => get B.rOut m) F.multipoles with
              | .error e => .error e
              | .ok fsjt =>
                match (match kOut with
                  | some k => Except.ok k
                  | none => convRange (fsjt.map fun p : Multipole × Sbt => sbtPoints p.2)) with
                | .error e => .error (.inl e)
                | .ok kout => .ok ⟨B, bsjt, fsjt, kout⟩

/-- `winconv.py:2098-2102`: the loop of backward transforms of the arrays `Pin`. -/
noncomputable def backAll (bsjt : List (Multipole × Sbt)) (Pin : List (Key × ℕ)) :
    List Multipole → Heap → Heap × Except Err (List (Key × List ℂ))
  | [], h => (h, .ok [])
  | z :: zs, h =>
    match degree0 z, get bsjt z, get Pin (.mp z) with
    | .error e, _, _ => (h, .error e)
    | _, .error e, _ => (h, .error (.inl e))
    | _, _, .error e => (h, .error (.inl e))
    | .ok d, .ok S, .ok id =>
      match sbtCosmo d false S h id with
      | (h, .error e) => (h, .error e)
      | (h, .ok (_, v)) =>
        match backAll bsjt Pin zs h with
        | (h, .error e) => (h, .error e)
        | (h, .ok l) => (h, .ok ((.mp z, v) :: l))

/-- New array objects, one for each multipole. -/
def allocAll : List (Multipole × List ℝ) → Heap → Heap × List (Multipole × ℕ)
  | [], h => (h, [])
  | (m, x) :: l, h =>
    let r := allocAll l ⟨fun i => if i = h.next then x else h.arr i, h.next + 1⟩
    (r.1, (m, h.next) :: r.2)

/-- Interpolation of the real and the imaginary part at the output points (`winconv.py:2113-2117`). -/
noncomputable def splC (I : Interp ℝ) (k : List ℝ) (v : List ℂ) (p : ℝ) : ℂ :=
  ⟨I.spl false k (v.map Complex.re) p, I.spl false k (v.map Complex.im) p⟩

/-- `winconv.py:2108-2117`: the loop of forward transforms. -/
noncomputable def forthAll (I : Interp ℝ) (fsjt : List (Multipole × Sbt)) (kout : List ℝ) (xi : List (Multipole × ℕ)) :
    List Multipole → Heap → Heap × Except Err (List (Multipole × List ℂ))
  | [], h => (h, .ok [])
  | m :: ms, h =>
    match degree0 m, get fsjt m, get xi m with
    | .error e, _, _ => (h, .error e)
    | _, .error e, _ => (h, .error (.inl e))
    | _, _, .error e => (h, .error (.inl e))
    | .ok d, .ok S, .ok id =>
      match sbtCosmo d true S h id with
      | (h, .error e) => (h, .error e)
      | (h, .ok (k, v)) =>
        match forthAll I fsjt kout xi ms h with
        | (h, .error e) => (h, .error e)
        | (h, .ok l) => (h, .ok ((m, kout.map (splC I k v)) :: l))

/-- `winconv.py:2071-2121`: `PowspecWinConv.convolve` of the arrays `Pin`: the arrays afterwards, and the
convolved power spectra with the arrays of the intermediate correlation functions
(`ret_xi=True`). -/
noncomputable def Pow.convolve (I : Interp ℝ) (S : Pow) (h : Heap) (Pin : List (Key × ℕ)) :
    Heap × Except Err (List (Multipole × List ℂ) × List (Multipole × ℕ)) :=
  match backAll S.bsjt Pin S.base.F.zTrue h with
  | (h, .error e) => (h, .error e)
  | (h, .ok xi) =>
    match conv2 I S.base (xi.map fun p => (p.1, p.2.map Complex.re)) with
    | .error e => (h, .error (.inl e))
    | .ok conv =>
      match allocAll conv h with
      | (h, ids) =>
        match forthAll I S.fsjt S.kout ids S.base.F.multipoles h with
        | (h, .error e) => (h, .error e)
        | (h, .ok P) => (h, .ok (P, ids))

end Trv.Wc

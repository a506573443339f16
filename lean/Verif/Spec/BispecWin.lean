import Verif.Model.BispecWin
/-
Specification of the window convolution of bispectra: a function of the values of the samples, in which
nothing is modified.
-/
namespace Trv.Wc

open Trv Trv.Fft

/-- The transform of the samples of one multipole. -/
noncomputable def runSpec {κ β : Type} [DecidableEq κ] (T : List (Multipole × Dsbt)) (fwd : Bool) (key : Multipole → κ)
    (post : Dsbt → List (List ℂ) → Except Err β) (P : List (κ × List (List ℂ))) (z : Multipole) :
    Except Err (Multipole × β) :=
  match get T z, get P (key z) with
  | .error e, _ => .error (.inl e)
  | _, .error e => .error (.inl e)
  | .ok D, .ok x =>
    match (D.cosmo fwd x).2 with
    | .error e => .error e
    | .ok (_, s) =>
      match post D s with
      | .error e => .error e
      | .ok b => .ok (z, b)

/-- The samples at the input wavenumbers of the transforms. -/
noncomputable def samplesSpec (I : Interp ℝ)
    (k : List (Option Multipole × List ℝ) × Option (List (Option Multipole × List ℝ))) (P : List (Key × List (List ℂ))) :
    Except PyErr (List (Key × List (List ℂ))) :=
  match k.2 with
  | none => .ok P
  | some _ =>
    match bispecSamples I k (P.map fun p : Key × List (List ℂ) => (p.1, toMat Complex.re p.2)) with
    | .error e => .error e
    | .ok B => .ok (B.map fun p : Key × Mat ℝ => (p.1, ofMat p.2))

/-- Samples of real numbers. -/
def cplx (d : List (Multipole × List (List ℝ))) : List (Multipole × List (List ℂ)) :=
  d.map fun p : Multipole × List (List ℝ) => (p.1, p.2.map fun r => r.map fun u : ℝ => (u : ℂ))

open Classical in
/-- The convolved bispectra and the convolved correlation functions. -/
noncomputable def bisSpec (I : Interp ℝ) (S : BisConv) (P : List (Key × List (List ℂ))) (ic : Option ℝ) :
    Except Err (List (Multipole × List (List ℂ)) × List (Multipole × List (List ℂ))) :=
  match samplesSpec I S.kIn P with
  | .error e => .error (.inl e)
  | .ok P =>
    match traverse (runSpec S.bdsjt false .mp (fun _ s => .ok s) P) S.base.F.zTrue with
    | .error e => .error e
    | .ok zeta =>
      match conv3 I S.base (zeta.map fun p : Multipole × List (List ℂ) => (.mp p.1, toMat (fun z => (z.re, z.im)) p.2)) ic with
      | .error e => .error (.inl e)
      | .ok conv =>
        match traverse (runSpec S.fdsjt true id (splOut I S.kout) (cplx conv)) S.base.F.multipoles with
        | .error e => .error e
        | .ok R => .ok (R, cplx conv)

end Trv.Wc

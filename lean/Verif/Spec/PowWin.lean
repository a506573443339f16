import Verif.Model.PowWin
/-
Specification of the window convolution of power spectra: a function of the values of the samples, in
which nothing is modified.
-/
namespace Trv.Wc

open Trv Trv.Fft

/-- The transform of samples, whatever array object holds them. -/
noncomputable def sbtValue (S : Sbt) (x : List ℝ) : Except Err (List ℝ × List ℂ) :=
  (S.transform ⟨fun _ => x, 1⟩ 0).2

/-- The transform between the multipoles of the correlation function and of the power spectrum. -/
noncomputable def cosmoValue (deg : ℤ) (fwd : Bool) (S : Sbt) (x : List ℝ) : Except Err (List ℝ × List ℂ) :=
  match sbtValue S x with
  | .error e => .error e
  | .ok (k, v) => .ok (k, v.map (· * ((if fwd then (1 : ℂ) else (2 * Real.pi) ^ (-3 : ℤ)) *
      (if fwd then -Complex.I else Complex.I) ^ deg)))

/-- The correlation function of one multipole. -/
noncomputable def backSpec (bsjt : List (Multipole × Sbt)) (P : List (Key × List ℝ)) (z : Multipole) :
    Except Err (Key × List ℂ) :=
  match degree0 z, get bsjt z, get P (.mp z) with
  | .error e, _, _ => .error e
  | _, .error e, _ => .error (.inl e)
  | _, _, .error e => .error (.inl e)
  | .ok d, .ok S, .ok x =>
    match cosmoValue d false S x with
    | .error e => .error e
    | .ok (_, v) => .ok (.mp z, v)

/-- The power spectrum of one multipole of the convolved correlation function. -/
noncomputable def forthSpec (I : Interp ℝ) (fsjt : List (Multipole × Sbt)) (kout : List ℝ)
    (xi : List (Multipole × List ℝ)) (m : Multipole) : Except Err (Multipole × List ℂ) :=
  match degree0 m, get fsjt m, get xi m with
  | .error e, _, _ => .error e
  | _, .error e, _ => .error (.inl e)
  | _, _, .error e => .error (.inl e)
  | .ok d, .ok S, .ok x =>
    match cosmoValue d true S x with
    | .error e => .error e
    | .ok (k, v) => .ok (m, kout.map (splC I k v))

/-- The convolved power spectra and the convolved correlation functions. -/
noncomputable def powSpec (I : Interp ℝ) (S : Pow) (P : List (Key × List ℝ)) :
    Except Err (List (Multipole × List ℂ) × List (Multipole × List ℝ)) :=
  match traverse (backSpec S.bsjt P) S.base.F.zTrue with
  | .error e => .error e
  | .ok xi =>
    match conv2 I S.base (xi.map fun p => (p.1, p.2.map Complex.re)) with
    | .error e => .error (.inl e)
    | .ok conv =>
      match traverse (forthSpec I S.fsjt S.kout conv) S.base.F.multipoles with
      | .error e => .error e
      | .ok R => .ok (R, conv)

/-- The values of a dictionary of array objects. -/
def contents {κ : Type} (h : Heap) (d : List (κ × ℕ)) : List (κ × List ℝ) := d.map fun p => (p.1, h.arr p.2)

end Trv.Wc

import Verif.Model.TwoPt
import Verif.Model.Layout
/-
Model of the bispectrum measurement from paired survey-type catalogues
(`/repo/src/triumvirate/src/threept.cpp` 64-150, 239-1012) over the real and complex numbers, with
the band-limited transforms (`field.cpp` 1792-1906) and the uncoupled shot noise
(`field.cpp` 3198-3396).

Spherical Bessel functions (`gsl_spline` of `gsl_sf_bessel_jl`) are a parameter.  A division by a
vanishing number of modes, NaN in C++, is zero here.
-/
namespace Trv.Bis
open Trv.Mesh Trv.Stats Trv.Win Trv.Two Trv.ThreePt

/-- The measurement parameters. -/
structure Env3 extends Two.Env where
  ell1 : ℕ
  ell2 : ℕ
  form : Form
  /-- `SphericalBesselCalculator(ell).eval(x)` -/
  sj : ℕ → ℝ → ℝ

/-- `threept.cpp:64-70`: `calc_coupling_coeff_3pt`. -/
noncomputable def coupling3 (E : Env3) (t : Triplet) : ℝ :=
  (2 * (E.ell1 : ℝ) + 1) * (2 * (E.ell2 : ℝ) + 1) * (2 * (E.ELL : ℝ) + 1) *
    E.w3j E.ell1 E.ell2 E.ELL 0 0 0 * E.w3j E.ell1 E.ell2 E.ELL t.m1 t.m2 t.M

/-- `threept.cpp:94-137`: `calc_bispec_normalisation_from_particles`. -/
noncomputable def normParticles3 (c : List Part) (alpha : ℝ) : Except CppErr ℝ :=
  let norm := (c.map fun p => p.ws * p.nz ^ 2 * p.wc ^ 3).sum
  if norm = 0 then .error .invalidData else .ok (1 / (alpha * norm))

/-- `threept.cpp:139-150`: `calc_bispec_normalisation_from_mesh`. -/
noncomputable def normMesh3 (E : Two.Env) (c : List Part) (alpha : ℝ) : ℝ :=
  powlawNorm E c 3 / alpha ^ 3

/-- The assignment window of a mesh field (`C11_history`). -/
noncomputable def window (E : Env3) (g : ℤ) : ℝ :=
  let c := cellOf E.mesh.n g
  windowFresh E.mesh.n c.1 c.2.1 c.2.2 (orderOf E.sch)

/-- `field.cpp:1823-1828`: the mode is in the band. -/
noncomputable def inBand (E : Env3) (lo up : ℝ) (c : ℤ × ℤ × ℤ) : Bool :=
  @decide (lo ≤ mag (kvec E.mesh c) ∧ mag (kvec E.mesh c) < up) (Classical.dec _)

/-- `field.cpp:1837-1838`: `nmodes`. -/
noncomputable def nmodesBand (E : Env3) (lo up : ℝ) : ℕ :=
  ((cells E.mesh.n).filter (inBand E lo up)).length

/-- `field.cpp:1837, 1905`: `k_eff`. -/
noncomputable def keffBand (E : Env3) (lo up : ℝ) : ℝ :=
  (((cells E.mesh.n).filter (inBand E lo up)).map fun c => mag (kvec E.mesh c)).sum /
    (nmodesBand E lo up : ℝ)

/-- `field.cpp:1792-1906`: `inv_fourier_transform_ylm_wgtd_field_band_limited`; `ylm` on the mesh of
wavevectors (`maths.cpp:222-262`). -/
noncomputable def bandLimited (E : Env3) (fk : ℤ → ℂ) (ell : ℕ) (m : ℤ) (lo up : ℝ) (g : ℤ) : ℂ :=
  dft E.mesh.n 1 (fun g =>
    let c := cellOf E.mesh.n g
    if inBand E lo up c then E.ylm ell m (kvec E.mesh c) * (fk g / (window E g : ℂ)) else 0) g /
  (nmodesBand E lo up : ℂ)

/-- The edges of a bin. -/
def lowerEdge (E : Env3) (b : ℤ) : ℝ := E.edges.getD b.toNat 0
def upperEdge (E : Env3) (b : ℤ) : ℝ := E.edges.getD (b.toNat + 1) 0

/-- `threept.cpp:449-456`: `G_LM`. -/
noncomputable def gField (E : Env3) (data rand : List Part) (alpha : ℝ) (M : ℤ) : ℤ → ℂ :=
  let f := fourier E.mesh (dnField E.toEnv data rand alpha E.ELL M)
  invFourier E.mesh fun g => f g / (window E g : ℂ)

/-- `threept.cpp:490-513` (and the other forms): `bk_component` for a pair of bins. -/
noncomputable def bkComponent (E : Env3) (dn00 G : ℤ → ℂ) (t : Triplet) (row col : ℤ) : ℂ :=
  let Fa := bandLimited E dn00 E.ell1 t.m1 (lowerEdge E row) (upperEdge E row)
  let Fb := bandLimited E dn00 E.ell2 t.m2 (lowerEdge E col) (upperEdge E col)
  ((gids E.mesh).map fun g => Fa g * Fb g * G g).sum

/-- One addition `dv[idx] += v`. -/
structure Add where
  idx : ℤ
  val : ℂ

/-- `dv[idx] += v` in order, from a zero array. -/
noncomputable def runAdds (l : List Add) : ℤ → ℂ :=
  l.foldl (fun a u i => if i = u.idx then a i + u.val else a i) fun _ => 0

/-- A component and its mirror image, `x + f * conj(x)`. -/
noncomputable def mirrored (f : ℝ) (x : ℂ) : ℂ := x + (f : ℂ) * (starRingEnd ℂ) x

/-- `threept.cpp:416-419`: `factor_mirror` and `factor_mirror_w3j`. -/
noncomputable def fMirror (E : Env3) (t : Triplet) : ℝ := (factorMirror E.ELL t : ℤ)
noncomputable def fMirrorW3j (t : Triplet) : ℝ := if t.isZeros then 0 else 1

/-- `threept.cpp:445-768`: the additions to `bk_dv` at one triplet. -/
noncomputable def bkAdds (E : Env3) (data rand : List Part) (alpha : ℝ) (dn00 : ℤ → ℂ)
    (t : Triplet) : List Add :=
  let G := gField E data rand alpha t.M
  (measWrites E.numBins E.form).map fun e =>
    ⟨e.pos, ((coupling3 E t * E.mesh.volCell : ℝ) : ℂ) *
      mirrored (fMirror E t) (bkComponent E dn00 G t e.row e.col)⟩

/-- `field.cpp:3198-3396`: `compute_uncoupled_shotnoise_for_bispec_per_bin`; harmonics on the mesh of
separations (`maths.cpp:264-302`). -/
noncomputable def uncoupled (E : Env3) (fa fb : ℤ → ℂ) (amp : ℂ) (t : Triplet) (ka kb : ℝ) : ℂ :=
  let xi := dft E.mesh.n 1 (twopt3d E.toEnv fa fb amp)
  ((cells E.mesh.n).map fun c =>
    let rv := rvec E.mesh c
    xi (gid E.mesh.n c) * ((E.sj E.ell1 (ka * mag rv) * E.sj E.ell2 (kb * mag rv) : ℝ) *
      E.ylm E.ell1 t.m1 rv * E.ylm E.ell2 t.m2 rv)).sum * (E.mesh.volCell : ℂ)

/-- `threept.cpp:357-985`: the triplets of orders at which components are computed. -/
noncomputable def triplets (E : Env3) : List Triplet :=
  computedOrders (coupling3 E) epsCoupling E.ell1 E.ell2 E.ELL

/-- The entry saved at a position of the data vector at the first triplet (`threept.cpp:481-488`;
each position is written once, `C36_layout_bijection`). -/
noncomputable def entryAt (E : Env3) (idx : ℤ) : Option Entry :=
  if (triplets E).isEmpty then none
  else (measWrites E.numBins E.form).find? fun e => e.pos = idx

/-- `k1eff_dv`, `k2eff_dv`. -/
noncomputable def k1eff (E : Env3) (idx : ℤ) : ℝ := match entryAt E idx with
  | some e => keffBand E (lowerEdge E e.row) (upperEdge E e.row)
  | none => 0
noncomputable def k2eff (E : Env3) (idx : ℤ) : ℝ := match entryAt E idx with
  | some e => keffBand E (lowerEdge E e.col) (upperEdge E e.col)
  | none => 0

/-- `threept.cpp:816-821`: `S_i_jk` of a bin. -/
noncomputable def pairShot (E : Env3) (t : Triplet) (bins : List (Bin ℝ (ℂ × ℂ))) (b : ℤ) : ℂ :=
  let x := (bins.getD b.toNat ⟨0, 0, 0⟩).val
  (coupling3 E t : ℂ) * (x.1 - x.2)

/-- `threept.cpp:774-967`: the additions to `sn_dv` at one triplet. -/
noncomputable def snAdds (E : Env3) (data rand : List Part) (alpha : ℝ) (dn00 : ℤ → ℂ)
    (t : Triplet) : List Add :=
  let dnLM := fourier E.mesh (dnField E.toEnv data rand alpha E.ELL t.M)
  let n00 := fourier E.mesh (quadField E.toEnv data rand alpha 0 0)
  let nLM := fourier E.mesh (quadField E.toEnv data rand alpha E.ELL t.M)
  let sbar := shotAmp3 E.toEnv data rand alpha E.ELL t.M
  let n : ℤ := E.numBins
  (if E.ell1 = 0 ∧ E.ell2 = 0 then
    (upto 0 (dim n E.form)).map fun i => ⟨i, (coupling3 E t : ℂ) * sbar⟩ else []) ++
  (if E.ell2 = 0 then
    let bins := statsFourier E.toEnv dn00 nLM sbar E.ell1 t.m1
    (noiseWritesRow n E.form).map fun w => ⟨w.2, mirrored (fMirror E t) (pairShot E t bins w.1)⟩
   else []) ++
  (if E.ell1 = 0 then
    let bins := statsFourier E.toEnv dn00 nLM sbar E.ell2 t.m2
    (noiseWritesCol n E.form).map fun w => ⟨w.2, mirrored (fMirror E t) (pairShot E t bins w.1)⟩
   else []) ++
  (upto 0 (dim n E.form)).map fun i =>
    ⟨i, Complex.I ^ (E.ell1 + E.ell2) * mirrored (fMirrorW3j t)
      ((coupling3 E t : ℂ) * uncoupled E dnLM n00 sbar t (k1eff E i) (k2eff E i))⟩

/-- One line of the output. -/
structure Row3 where
  k1eff : ℝ
  k2eff : ℝ
  nmodes1 : ℕ
  nmodes2 : ℕ
  raw : ℂ
  shot : ℂ

/-- `threept.cpp:243-1012`: `compute_bispec`.  A write outside `sn_dv` is undefined behaviour. -/
noncomputable def computeBispec (E : Env3) (data rand : List Part) (norm : ℝ) :
    Except CppErr (List Row3) :=
  if |E.w3j E.ell1 E.ell2 E.ELL 0 0 0| < epsCoupling then .error .invalidParameter else
  let alpha := alphaOf data rand
  let dn00 := fourier E.mesh (dnField E.toEnv data rand alpha 0 0)
  let bk := (triplets E).flatMap (bkAdds E data rand alpha dn00)
  let sn := (triplets E).flatMap (snAdds E data rand alpha dn00)
  let d := dim E.numBins E.form
  if (bk ++ sn).all fun u => 0 ≤ u.idx ∧ u.idx < d then
    .ok ((upto 0 d).map fun i =>
      { k1eff := k1eff E i
        k2eff := k2eff E i
        nmodes1 := match entryAt E i with
          | some e => nmodesBand E (lowerEdge E e.row) (upperEdge E e.row) | none => 0
        nmodes2 := match entryAt E i with
          | some e => nmodesBand E (lowerEdge E e.col) (upperEdge E e.col) | none => 0
        raw := (norm : ℂ) * runAdds bk i
        shot := (norm : ℂ) * runAdds sn i })
  else .error .outOfBounds

/-- `main/triumvirate.cpp:499-592` for `npoint = 3pt` and survey-type catalogues: both factors are
computed, then one is chosen (`mesh-mixed` is rejected by `validate`). -/
noncomputable def driverNorm3 (E : Two.Env) (conv : Convention) (data rand : List Part) :
    Except CppErr ℝ :=
  let alpha := alphaOf data rand
  match normParticles3 rand alpha with
  | .error e => .error e
  | .ok part => match conv with
    | .none => .ok 1
    | .particle => .ok part
    | .mesh => .ok (normMesh3 E rand alpha)
    | .meshMixed => .error .invalidParameter

end Trv.Bis

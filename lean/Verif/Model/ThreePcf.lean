import Verif.Model.Bispec
/-
Model of the measurements of the three-point correlation function
(`/repo/src/triumvirate/src/threept.cpp`): from paired survey-type catalogues (1014-1471), in a
periodic box (2190-2619) and of the survey window (2621-3078), and of the bispectrum in a periodic
box (1473-2188), over the real and complex numbers; with the transforms weighted by spherical Bessel
functions (`field.cpp` 1908-2010), the binned uncoupled shot noise (`field.cpp` 2947-3196) and the
wide-angle kernel (`field.cpp` 1727-1762).

The three functions for the correlation function differ in the fields they start from and in the
orders they run through, and share the rest; `Fields` holds the former.  A shape with a negative
dimension (rejected by `validate`) is not modelled faithfully: the result is empty here.
-/
namespace Trv.Zeta
open Trv.Mesh Trv.Stats Trv.Win Trv.Two Trv.ThreePt Trv.Bis

/-- The mesh fields of a measurement, the last three for each order `M`. -/
structure Fields where
  /-- `dn_00` in Fourier space -/
  f00 : ℤ → ℂ
  /-- `N_00` in Fourier space -/
  n00 : ℤ → ℂ
  /-- `dn_LM_for_sn` in Fourier space -/
  fLM : ℤ → ℤ → ℂ
  /-- `G_LM` in configuration space -/
  G : ℤ → ℤ → ℂ
  /-- `Sbar_LM` -/
  sbar : ℤ → ℂ

/-- `field.cpp:1908-2010`: `inv_fourier_transform_sjl_ylm_wgtd_field`. -/
noncomputable def sjlField (E : Env3) (fk : ℤ → ℂ) (ell : ℕ) (m : ℤ) (r : ℝ) (g : ℤ) : ℂ :=
  dft E.mesh.n 1 (fun g =>
    let kv := kvec E.mesh (cellOf E.mesh.n g)
    ((E.sj ell (mag kv * r) : ℝ) : ℂ) * (E.ylm ell m kv * (fk g / (window E g : ℂ))) /
      (vol E.mesh : ℂ)) g

/-- `field.cpp:3085-3086`: `n_sample` and `dr_sample`. -/
def nSample3 : ℕ := 100000
def drSample3 : ℝ := 1

/-- `field.cpp:3110-3145`: the pairs of cells with their weighted correlation. -/
noncomputable def pairs3 (E : Env3) (fa fb : ℤ → ℂ) (amp : ℂ) (t : Triplet) : List (Mode ℝ ℂ) :=
  let xi := dft E.mesh.n 1 (twopt3d E.toEnv fa fb amp)
  (cells E.mesh.n).map fun c =>
    let rv := rvec E.mesh c
    ⟨mag rv, xi (gid E.mesh.n c) * (E.ylm E.ell1 t.m1 rv * E.ylm E.ell2 t.m2 rv)⟩

/-- `field.cpp:3176-3187`: the normalisation factors. -/
noncomputable def normalise3 (E : Env3) (b : Bin ℝ ℂ) : Bin ℝ ℂ :=
  let f : ℝ := 1 / E.mesh.volCell * (-1) ^ (E.ell1 + E.ell2)
  if b.num ≠ 0 then ⟨b.num, b.len, b.val * ((f / (b.num : ℝ) : ℝ) : ℂ)⟩ else b

/-- `field.cpp:2947-3196`: `compute_uncoupled_shotnoise_for_3pcf`: `npairs`, `r` and `xi`. -/
noncomputable def uncoupled3 (E : Env3) (fa fb : ℤ → ℂ) (amp : ℂ) (t : Triplet) :
    List (Bin ℝ ℂ) :=
  (binStats nSample3 drSample3 E.edges E.centres E.numBins (pairs3 E fa fb amp t)).map (normalise3 E)

/-- `threept.cpp:1228-1230`: the statistics `stats_sn` at a triplet. -/
noncomputable def stats3 (E : Env3) (F : Fields) (t : Triplet) : List (Bin ℝ ℂ) :=
  uncoupled3 E (F.fLM t.M) F.n00 (F.sbar t.M) t

/-- `threept.cpp:1233-1286`: the additions to `sn_dv` at a triplet. -/
noncomputable def noiseAdds (E : Env3) (F : Fields) (t : Triplet) : List Add :=
  (noiseWrites3pcf E.numBins E.form).map fun w =>
    ⟨w.2, ((coupling3 E t * (-1) ^ (E.ell1 + E.ell2) : ℝ) : ℂ) *
      mirrored (fMirrorW3j t) ((stats3 E F t).getD w.1.toNat ⟨0, 0, 0⟩).val⟩

/-- The entry recorded at a position of the data vector (`threept.cpp:1288-1375`). -/
def recorded (E : Env3) (idx : ℤ) : Option Entry :=
  (measWrites E.numBins E.form).find? fun e => e.pos = idx

/-- The bin of `stats_sn` recorded at a position, at the first triplet; zero arrays if there are no
triplets. -/
noncomputable def recBin (E : Env3) (F : Fields) (ts : List Triplet) (side : Entry → ℤ)
    (idx : ℤ) : Bin ℝ ℂ :=
  match ts, recorded E idx with
  | t :: _, some e => (stats3 E F t).getD (side e).toNat ⟨0, 0, 0⟩
  | _, _ => ⟨0, 0, 0⟩

/-- `threept.cpp:1398-1432`: `zeta_component` at two separations. -/
noncomputable def zetaComponent (E : Env3) (F : Fields) (t : Triplet) (ra rb : ℝ) : ℂ :=
  let Fa := sjlField E F.f00 E.ell1 t.m1 ra
  let Fb := sjlField E F.f00 E.ell2 t.m2 rb
  ((gids E.mesh).map fun g => Fa g * Fb g * F.G t.M g).sum

/-- `threept.cpp:1398-1437`: the additions to `zeta_dv` at a triplet. -/
noncomputable def zetaAdds (E : Env3) (F : Fields) (ts : List Triplet) (t : Triplet) : List Add :=
  (upto 0 (dim E.numBins E.form)).map fun i =>
    ⟨i, ((coupling3 E t * E.mesh.volCell : ℝ) : ℂ) * Complex.I ^ (E.ell1 + E.ell2) *
      mirrored (fMirror E t) (zetaComponent E F t (recBin E F ts Entry.row i).len
        (recBin E F ts Entry.col i).len)⟩

/-- One line of the output. -/
structure RowZ where
  r1bin : ℝ
  r2bin : ℝ
  r1eff : ℝ
  r2eff : ℝ
  npairs1 : ℕ
  npairs2 : ℕ
  raw : ℂ
  shot : ℂ

/-- The bin centre recorded at a position (`threept.cpp:1294-1295` and the other shapes). -/
def recCentre (E : Env3) (ts : List Triplet) (side : Entry → ℤ) (idx : ℤ) : ℝ :=
  match ts, recorded E idx with
  | _ :: _, some e => E.centres.getD (side e).toNat 0
  | _, _ => 0

/-- An index of a bin, and of an entry of the data vector. -/
def binOk (E : Env3) (b : ℤ) : Prop := 0 ≤ b ∧ b < E.numBins
def posOk (E : Env3) (i : ℤ) : Prop := 0 ≤ i ∧ i < dim E.numBins E.form

/-- All accesses to the arrays of bins and to the data vectors are inside them. -/
def accessOk (E : Env3) (ts : List Triplet) : Prop :=
  ts = [] ∨ ((∀ w ∈ noiseWrites3pcf E.numBins E.form, binOk E w.1 ∧ posOk E w.2) ∧
    ∀ e ∈ measWrites E.numBins E.form, binOk E e.row ∧ binOk E e.col ∧ posOk E e.pos)

open Classical in
/-- `threept.cpp:1032-1471` (2207-2619, 2640-3078) from the fields `F`, through the orders `ts`. -/
noncomputable def measure (E : Env3) (F : Fields) (ts : List Triplet) (norm : ℝ) :
    Except CppErr (List RowZ) :=
  if |E.w3j E.ell1 E.ell2 E.ELL 0 0 0| < epsCoupling then .error .invalidParameter else
  if accessOk E ts then
    .ok ((upto 0 (dim E.numBins E.form)).map fun i =>
      { r1bin := recCentre E ts Entry.row i
        r2bin := recCentre E ts Entry.col i
        r1eff := (recBin E F ts Entry.row i).len
        r2eff := (recBin E F ts Entry.col i).len
        npairs1 := (recBin E F ts Entry.row i).num
        npairs2 := (recBin E F ts Entry.col i).num
        raw := (norm : ℂ) * runAdds (ts.flatMap (zetaAdds E F ts)) i
        shot := (norm : ℂ) * runAdds (ts.flatMap (noiseAdds E F)) i })
  else .error .outOfBounds

/-! ### Survey -/

/-- `threept.cpp:1087-1101, 1217-1226, 1383-1391`. -/
noncomputable def surveyFields (E : Env3) (data rand : List Part) : Fields :=
  let alpha := alphaOf data rand
  { f00 := fourier E.mesh (dnField E.toEnv data rand alpha 0 0)
    n00 := fourier E.mesh (quadField E.toEnv data rand alpha 0 0)
    fLM := fun M => fourier E.mesh (dnField E.toEnv data rand alpha E.ELL M)
    G := fun M => gField E data rand alpha M
    sbar := fun M => shotAmp3 E.toEnv data rand alpha E.ELL M }

/-- `threept.cpp:1014-1471`: `compute_3pcf`. -/
noncomputable def compute3pcf (E : Env3) (data rand : List Part) (norm : ℝ) :
    Except CppErr (List RowZ) :=
  measure E (surveyFields E data rand) (triplets E) norm

/-! ### Periodic box -/

/-- `threept.cpp:1577-1601, 2291-2315`: the triplets in a box. -/
noncomputable def tripletsGpp (E : Env3) : List Triplet :=
  computedOrdersGpp (coupling3 E) epsCoupling E.ell1 E.ell2

/-- The fluctuations `dn_00` and the counts `N_00` in Fourier space (`threept.cpp:2261-2273`). -/
noncomputable def boxDn (E : Env3) (pos : List (Fin 3 → ℝ)) : ℤ → ℂ :=
  fourier E.mesh (fluctuations E.sch E.mesh E.interlace pos)
noncomputable def boxN (E : Env3) (pos : List (Fin 3 → ℝ)) : ℤ → ℂ :=
  fourier E.mesh (assignField E.sch E.mesh E.interlace (unweighted pos))

/-- `threept.cpp:1663-1668, 2540-2545`: `G_00`. -/
noncomputable def boxG (E : Env3) (pos : List (Fin 3 → ℝ)) : ℤ → ℂ :=
  invFourier E.mesh fun g => boxDn E pos g / (window E g : ℂ)

noncomputable def boxFields (E : Env3) (pos : List (Fin 3 → ℝ)) : Fields :=
  { f00 := boxDn E pos
    n00 := boxN E pos
    fLM := fun _ => boxDn E pos
    G := fun _ => boxG E pos
    sbar := fun _ => (pos.length : ℂ) }

/-- `threept.cpp:2190-2619`: `compute_3pcf_in_gpp_box`. -/
noncomputable def compute3pcfBox (E : Env3) (pos : List (Fin 3 → ℝ)) (norm : ℝ) :
    Except CppErr (List RowZ) :=
  measure E (boxFields E pos) (tripletsGpp E) norm

/-! ### Survey window -/

/-- `field.cpp:1325-1362`: `compute_ylm_wgtd_field` of one catalogue. -/
noncomputable def nField (E : Two.Env) (rand : List Part) (alpha : ℝ) (ell : ℕ) (m : ℤ) :
    MeshField ℝ :=
  ylmFieldOne E.sch E.mesh E.interlace (ylmWeights E ell m rand) alpha

/-- `field.cpp:1449-1489`: `compute_ylm_wgtd_quad_field` of one catalogue. -/
noncomputable def quadField1 (E : Two.Env) (rand : List Part) (alpha : ℝ) (ell : ℕ) (m : ℤ) :
    MeshField ℝ :=
  quadFieldOne E.sch E.mesh E.interlace (ylmWeightsQuad E ell m rand) alpha

/-- `field.cpp:1734`: `eps_r`. -/
noncomputable def epsR : ℝ := 1 / 1000000

/-- `field.cpp:1727-1762`: `apply_wide_angle_pow_law_kernel`; `wa` is `(i_wa, j_wa)` if `wide_angle`
is set. -/
noncomputable def wideAngle (E : Env3) (wa : Option (ℕ × ℕ)) (f : ℤ → ℂ) (g : ℤ) : ℂ :=
  match wa with
  | none => f g
  | some (i, j) =>
    let r := mag (rvec E.mesh (cellOf E.mesh.n g))
    if r < epsR then f g else f g * ((r ^ (-(i : ℤ) - (j : ℤ)) : ℝ) : ℂ)

/-- `threept.cpp:2695-2703, 2817-2828, 2972-2986`. -/
noncomputable def windowFields (E : Env3) (rand : List Part) (alpha : ℝ) (wa : Option (ℕ × ℕ)) :
    Fields :=
  { f00 := fourier E.mesh (nField E.toEnv rand alpha 0 0)
    n00 := fourier E.mesh (quadField1 E.toEnv rand alpha 0 0)
    fLM := fun M => fourier E.mesh (nField E.toEnv rand alpha E.ELL M)
    G := fun M => wideAngle E wa (invFourier E.mesh fun g =>
      fourier E.mesh (nField E.toEnv rand alpha E.ELL M) g / (window E g : ℂ))
    sbar := fun M => shotAmp3One E.toEnv rand alpha E.ELL M }

/-- `threept.cpp:2621-3078`: `compute_3pcf_window`. -/
noncomputable def compute3pcfWindow (E : Env3) (rand : List Part) (alpha : ℝ)
    (wa : Option (ℕ × ℕ)) (norm : ℝ) : Except CppErr (List RowZ) :=
  measure E (windowFields E rand alpha wa) (triplets E) norm

/-! ### The bispectrum in a periodic box -/

/-- The entry saved at a position at the first triplet (`threept.cpp:1693-1700` and the other
shapes). -/
noncomputable def entryBox (E : Env3) (idx : ℤ) : Option Entry :=
  if (tripletsGpp E).isEmpty then none else recorded E idx

/-- `k1eff_dv`, `k2eff_dv` (`side` is the row or the column). -/
noncomputable def keffBox (E : Env3) (side : Entry → ℤ) (idx : ℤ) : ℝ := match entryBox E idx with
  | some e => keffBand E (lowerEdge E (side e)) (upperEdge E (side e))
  | none => 0
/-- `nmodes1_dv`, `nmodes2_dv`. -/
noncomputable def nmodesBox (E : Env3) (side : Entry → ℤ) (idx : ℤ) : ℕ := match entryBox E idx with
  | some e => nmodesBand E (lowerEdge E (side e)) (upperEdge E (side e))
  | none => 0

/-- `threept.cpp:1659-1967`: the additions to `bk_dv` at a triplet. -/
noncomputable def bkAddsBox (E : Env3) (pos : List (Fin 3 → ℝ)) (t : Triplet) : List Add :=
  (measWrites E.numBins E.form).map fun e =>
    ⟨e.pos, ((coupling3 E t * E.mesh.volCell : ℝ) : ℂ) *
      mirrored (fMirror E t) (bkComponent E (boxDn E pos) (boxG E pos) t e.row e.col)⟩

/-- `threept.cpp:1970-2143`: the additions to `sn_dv` at a triplet. -/
noncomputable def snAddsBox (E : Env3) (pos : List (Fin 3 → ℝ)) (t : Triplet) : List Add :=
  let n : ℤ := E.numBins
  let sbar : ℂ := (pos.length : ℂ)
  (if E.ell1 = 0 ∧ E.ell2 = 0 then
    (upto 0 (dim n E.form)).map fun i => ⟨i, (coupling3 E t : ℂ) * sbar⟩ else []) ++
  (if E.ell2 = 0 then
    let bins := statsFourier E.toEnv (boxDn E pos) (boxN E pos) sbar E.ell1 t.m1
    (noiseWritesRow n E.form).map fun w => ⟨w.2, mirrored (fMirror E t) (pairShot E t bins w.1)⟩
   else []) ++
  (if E.ell1 = 0 then
    let bins := statsFourier E.toEnv (boxDn E pos) (boxN E pos) sbar E.ell2 t.m2
    (noiseWritesCol n E.form).map fun w => ⟨w.2, mirrored (fMirror E t) (pairShot E t bins w.1)⟩
   else []) ++
  (upto 0 (dim n E.form)).map fun i =>
    ⟨i, Complex.I ^ (E.ell1 + E.ell2) * mirrored (fMirrorW3j t)
      ((coupling3 E t : ℂ) * uncoupled E (boxDn E pos) (boxN E pos) sbar t
        (keffBox E Entry.row i) (keffBox E Entry.col i))⟩

/-- `threept.cpp:1473-2188`: `compute_bispec_in_gpp_box`. -/
noncomputable def computeBispecBox (E : Env3) (pos : List (Fin 3 → ℝ)) (norm : ℝ) :
    Except CppErr (List Row3) :=
  if |E.w3j E.ell1 E.ell2 E.ELL 0 0 0| < epsCoupling then .error .invalidParameter else
  let bk := (tripletsGpp E).flatMap (bkAddsBox E pos)
  let sn := (tripletsGpp E).flatMap (snAddsBox E pos)
  let d := dim E.numBins E.form
  if (bk ++ sn).all fun u => 0 ≤ u.idx ∧ u.idx < d then
    .ok ((upto 0 d).map fun i =>
      { k1eff := keffBox E Entry.row i
        k2eff := keffBox E Entry.col i
        nmodes1 := nmodesBox E Entry.row i
        nmodes2 := nmodesBox E Entry.col i
        raw := (norm : ℂ) * runAdds bk i
        shot := (norm : ℂ) * runAdds sn i })
  else .error .outOfBounds

end Trv.Zeta

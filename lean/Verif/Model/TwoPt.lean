import Verif.Model.Window
/-
Model of the two-point measurements in `/repo/src/triumvirate/src/twopt.cpp` and of the Fourier
transforms of mesh fields (`/repo/src/triumvirate/src/field.cpp` 1496-1720), over the real and
complex numbers.

The fast Fourier transforms (FFTW, `FFTW_FORWARD`, `FFTW_BACKWARD`) are replaced by the sums they
evaluate.  Parallel reductions are sums.  Associated Legendre functions (`gsl_sf_legendre_sphPlm`)
and Wigner 3-j symbols (`gsl_sf_coupling_3j`) are parameters.  Not modelled: memory counters,
logging, graphics-card branches, the debugging variant `DBG_FLAG_NOAC`.
-/
namespace Trv.Two
open Trv.Mesh Trv.Stats Trv.Win

/-! ### Particles -/

/-- A particle (`particles.hpp: ParticleData`) with its line of sight (`los[pid].pos`). -/
structure Part where
  pos : Fin 3 → ℝ
  los : Fin 3 → ℝ
  nz : ℝ
  ws : ℝ
  wc : ℝ

/-- `particles.cpp`: `w = ws * wc`. -/
def Part.w (p : Part) : ℝ := p.ws * p.wc

/-- `particles.cpp: calc_total`: `wstotal`. -/
def wsTotal (c : List Part) : ℝ := (c.map Part.ws).sum

/-- `twopt.cpp:405, 519`: alpha contrast (NaN for an empty random catalogue in C++; here zero). -/
noncomputable def alphaOf (data rand : List Part) : ℝ := wsTotal data / wsTotal rand

/-- The measurement parameters. -/
structure Env where
  mesh : Mesh ℝ
  sch : Scheme
  interlace : Bool
  /-- `gsl_sf_legendre_sphPlm` -/
  P : ℕ → ℕ → ℝ → ℝ
  /-- `wigner_3j(j1, j2, j3, m1, m2, m3)` -/
  w3j : ℤ → ℤ → ℤ → ℤ → ℤ → ℤ → ℝ
  ELL : ℕ
  edges : List ℝ
  centres : List ℝ
  numBins : ℕ

/-- `calc_reduced_spherical_harmonic` of a vector. -/
noncomputable def Env.ylm (E : Env) (ell : ℕ) (m : ℤ) (v : Fin 3 → ℝ) : ℂ :=
  reducedYlm E.P ell m (v 0) (v 1) (v 2)

/-- `maths.cpp:165`. -/
noncomputable def epsCoupling : ℝ := 1 / 1000000000

/-- `twopt.cpp:44-48`: `calc_coupling_coeff_2pt`. -/
noncomputable def coupling2 (E : Env) (ell ELL m M : ℤ) : ℝ :=
  (2 * ell + 1) * (2 * ELL + 1) * E.w3j ell 0 ELL 0 0 0 * E.w3j ell 0 ELL m 0 M

/-! ### Normalisation -/

/-- `twopt.cpp:55-96`: `calc_powspec_normalisation_from_particles`. -/
noncomputable def normParticles (c : List Part) (alpha : ℝ) : Except CppErr ℝ :=
  let norm := (c.map fun p => p.ws * p.nz * p.wc ^ 2).sum
  if norm = 0 then .error .invalidData else .ok (1 / (alpha * norm))

/-- Particles with real weights, `weight[pid] = {v, 0}`, positions less an offset. -/
def realWeights (off : Fin 3 → ℝ) (c : List Part) : List (Particle ℝ) :=
  c.map fun p => ⟨fun ax => p.pos ax - off ax, fun b => if b then 0 else p.w⟩

/-- The indices `gid = 0, …, nmesh - 1`. -/
def gids (M : Mesh ℝ) : List ℤ := (List.range M.nmesh.toNat).map Int.ofNat

/-- `field.cpp:2016-2061`: `calc_grid_based_powlaw_norm`. -/
noncomputable def powlawNorm (E : Env) (c : List Part) (order : ℕ) : ℝ :=
  let f := assign E.sch E.mesh (realWeights 0 c)
  let volInt := ((gids E.mesh).map fun g => f g false ^ order).sum
  1 / (volInt * E.mesh.volCell)

/-- `twopt.cpp:98-109`: `calc_powspec_normalisation_from_mesh`. -/
noncomputable def normMesh (E : Env) (c : List Part) (alpha : ℝ) : ℝ :=
  powlawNorm E c 2 / alpha ^ 2

/-- `twopt.cpp:111-228`: `calc_powspec_normalisation_from_meshes`; `offD`, `offR` are the offsets
by which the catalogues are realigned in the box (and back).  `E` carries the mesh of the
normalisation (`twopt.cpp:230-264`). -/
noncomputable def normMeshes (E : Env) (offD offR : Fin 3 → ℝ) (data rand : List Part)
    (alpha : ℝ) : ℝ :=
  let fd := assign E.sch E.mesh (realWeights offD data)
  let fr := assign E.sch E.mesh (realWeights offR rand)
  let norm := ((gids E.mesh).map fun g => fd g false * fr g false).sum
  1 / (alpha * E.mesh.volCell * norm)

/-! ### Shot noise -/

/-- `twopt.cpp:271-298`: `calc_powspec_shotnoise_from_particles`. -/
def shotParticles (c : List Part) : ℝ := (c.map fun p => p.ws ^ 2 * p.wc ^ 2).sum

/-- `Σ ylm * w^n` (`twopt.cpp:307-349`, `threept.cpp:161-203`). -/
noncomputable def ylmSum (E : Env) (n ell : ℕ) (m : ℤ) (c : List Part) : ℂ :=
  (c.map fun p => E.ylm ell m p.los * ((p.w ^ n : ℝ) : ℂ)).sum

/-- `twopt.cpp:300-352`: `calc_ylm_wgtd_shotnoise_amp_for_powspec`. -/
noncomputable def shotAmp2 (E : Env) (data rand : List Part) (alpha : ℝ) (ell : ℕ) (m : ℤ) : ℂ :=
  ylmSum E 2 ell m data + ((alpha ^ 2 : ℝ) : ℂ) * ylmSum E 2 ell m rand

/-- `twopt.cpp:354-379`: the overload for one catalogue. -/
noncomputable def shotAmp2One (E : Env) (c : List Part) (alpha : ℝ) (ell : ℕ) (m : ℤ) : ℂ :=
  ((alpha ^ 2 : ℝ) : ℂ) * ylmSum E 2 ell m c

/-- `threept.cpp:154-206`: `calc_ylm_wgtd_shotnoise_amp_for_bispec`. -/
noncomputable def shotAmp3 (E : Env) (data rand : List Part) (alpha : ℝ) (ell : ℕ) (m : ℤ) : ℂ :=
  ylmSum E 3 ell m data + ((alpha ^ 3 : ℝ) : ℂ) * ylmSum E 3 ell m rand

/-- `threept.cpp:208-233`: the overload for one catalogue. -/
noncomputable def shotAmp3One (E : Env) (c : List Part) (alpha : ℝ) (ell : ℕ) (m : ℤ) : ℂ :=
  ((alpha ^ 3 : ℝ) : ℂ) * ylmSum E 3 ell m c

/-! ### Fields -/

/-- `field.cpp:1258-1271`: the weights `ylm * w`. -/
noncomputable def ylmWeights (E : Env) (ell : ℕ) (m : ℤ) (c : List Part) : List (Particle ℝ) :=
  c.map fun p => ⟨p.pos, fun b =>
    if b then (E.ylm ell m p.los).im * p.w else (E.ylm ell m p.los).re * p.w⟩

/-- `field.cpp:1379-1392`: the weights `conj(ylm) * w^2`. -/
noncomputable def ylmWeightsQuad (E : Env) (ell : ℕ) (m : ℤ) (c : List Part) : List (Particle ℝ) :=
  c.map fun p => ⟨p.pos, fun b =>
    if b then ((starRingEnd ℂ) (E.ylm ell m p.los)).im * p.w ^ 2
    else ((starRingEnd ℂ) (E.ylm ell m p.los)).re * p.w ^ 2⟩

/-- `field.cpp:1246-1323`: `compute_ylm_wgtd_field`. -/
noncomputable def dnField (E : Env) (data rand : List Part) (alpha : ℝ) (ell : ℕ) (m : ℤ) :
    MeshField ℝ :=
  ylmFieldTwo E.sch E.mesh E.interlace (ylmWeights E ell m data) (ylmWeights E ell m rand) alpha

/-- `field.cpp:1364-1447`: `compute_ylm_wgtd_quad_field`. -/
noncomputable def quadField (E : Env) (data rand : List Part) (alpha : ℝ) (ell : ℕ) (m : ℤ) :
    MeshField ℝ :=
  quadFieldTwo E.sch E.mesh E.interlace (ylmWeightsQuad E ell m data) (ylmWeightsQuad E ell m rand)
    alpha

/-! ### Fourier transforms -/

/-- The complex value `{field[gid][0], field[gid][1]}`. -/
def cplx (f : Grid ℝ) (g : ℤ) : ℂ := ⟨f g false, f g true⟩

/-- The cell of a flattened index. -/
def cellOf (n : Fin 3 → ℤ) (g : ℤ) : ℤ × ℤ × ℤ := (g / (n 1 * n 2), g / n 2 % n 1, g % n 2)

/-- `gridIndex` of a cell. -/
def gid (n : Fin 3 → ℤ) (c : ℤ × ℤ × ℤ) : ℤ := gridIndex n c.1 c.2.1 c.2.2

/-- The phase factor `exp(± 2πi (i i'/n0 + j j'/n1 + k k'/n2))`. -/
noncomputable def phase3 (n : Fin 3 → ℤ) (s : ℤ) (c x : ℤ × ℤ × ℤ) : ℂ :=
  Complex.exp (2 * Real.pi * Complex.I * s *
    (((c.1 * x.1 : ℤ) : ℂ) / (n 0 : ℂ) + ((c.2.1 * x.2.1 : ℤ) : ℂ) / (n 1 : ℂ) +
      ((c.2.2 * x.2.2 : ℤ) : ℂ) / (n 2 : ℂ)))

/-- `fftw_execute` of a three-dimensional transform of sign `s`. -/
noncomputable def dft (n : Fin 3 → ℤ) (s : ℤ) (f : ℤ → ℂ) (g : ℤ) : ℂ :=
  ((cells n).map fun x => f (gid n x) * phase3 n s (cellOf n g) x).sum

/-- `field.cpp:1619-1635`: `m[0] + m[1] + m[2]`. -/
noncomputable def halfShift (n : Fin 3 → ℤ) (c : ℤ × ℤ × ℤ) : ℝ :=
  (if c.1 < n 0 / 2 then (c.1 : ℝ) / n 0 else (c.1 : ℝ) / n 0 - 1) +
  (if c.2.1 < n 1 / 2 then (c.2.1 : ℝ) / n 1 else (c.2.1 : ℝ) / n 1 - 1) +
  (if c.2.2 < n 2 / 2 then (c.2.2 : ℝ) / n 2 else (c.2.2 : ℝ) / n 2 - 1)

/-- `field.cpp:1496-1655`: `fourier_transform`. -/
noncomputable def fourier (M : Mesh ℝ) (F : MeshField ℝ) : ℤ → ℂ :=
  let a := dft M.n (-1) fun g => cplx F.field g * (M.volCell : ℂ)
  match F.fieldS with
  | none => a
  | some s =>
    let b := dft M.n (-1) fun g => cplx s g * (M.volCell : ℂ)
    fun g => (a g + Complex.exp (Complex.I * (Real.pi * halfShift M.n (cellOf M.n g) : ℝ)) * b g) / 2

/-- The volume `params.volume`. -/
def vol (M : Mesh ℝ) : ℝ := M.L 0 * M.L 1 * M.L 2

/-- `field.cpp:1657-1720`: `inv_fourier_transform`. -/
noncomputable def invFourier (M : Mesh ℝ) (f : ℤ → ℂ) : ℤ → ℂ :=
  dft M.n 1 fun g => f g / (vol M : ℂ)

/-! ### Statistics -/

/-- `maths.cpp:53-59`: `get_vec3d_magnitude`. -/
noncomputable def mag (v : Fin 3 → ℝ) : ℝ := Real.sqrt (v 0 ^ 2 + v 1 ^ 2 + v 2 ^ 2)

/-- `field.cpp:556-562`: `get_grid_wavevector`, with `dk = 2π/L` (`field.cpp:2082-2089`). -/
noncomputable def kvec (M : Mesh ℝ) (c : ℤ × ℤ × ℤ) : Fin 3 → ℝ :=
  gridVec M.n (fun ax => 2 * Real.pi / M.L ax) c

/-- `field.cpp:546-554`: `get_grid_pos_vector`, with `dr = L/n`. -/
noncomputable def rvec (M : Mesh ℝ) (c : ℤ × ℤ × ℤ) : Fin 3 → ℝ :=
  gridVec M.n (fun ax => M.L ax / M.n ax) c

/-- `field.cpp:3529-3564`: the aliasing array. -/
noncomputable def Env.alias_ (E : Env) (c : ℤ × ℤ × ℤ) : ℝ :=
  if E.interlace then aliasingInterlaced E.sch E.mesh.n c.1 c.2.1 c.2.2
  else aliasing E.sch E.mesh.n c.1 c.2.1 c.2.2

/-- `field.cpp:2537-2565`: `calc_win_pk` and `calc_win_sn` (the same function).  The assignment
window is that of the order of the scheme (`C11_history`). -/
noncomputable def Env.win (E : Env) (c : ℤ × ℤ × ℤ) : ℝ :=
  if E.interlace then
    windowFresh E.mesh.n c.1 c.2.1 c.2.2 (orderOf E.sch) *
      windowFresh E.mesh.n c.1 c.2.1 c.2.2 (orderOf E.sch)
  else E.alias_ c

/-- `field.cpp:2603-2658`: the modes with their power and shot noise. -/
noncomputable def modes2 (E : Env) (fa fb : ℤ → ℂ) (amp : ℂ) (ell : ℕ) (m : ℤ) :
    List (Mode ℝ (ℂ × ℂ)) :=
  (cells E.mesh.n).map fun c =>
    let kv := kvec E.mesh c
    let y := E.ylm ell m kv
    let g := gid E.mesh.n c
    ⟨mag kv, modePower (fa g) (fb g) (E.win c) y, modeShot amp (E.alias_ c) (E.win c) y⟩

/-- `field.cpp:2506-2704`: `compute_ylm_wgtd_2pt_stats_in_fourier` (values `pk`, `sn`). -/
noncomputable def statsFourier (E : Env) (fa fb : ℤ → ℂ) (amp : ℂ) (ell : ℕ) (m : ℤ) :
    List (Bin ℝ (ℂ × ℂ)) :=
  binStats nSample dkSample E.edges E.centres E.numBins (modes2 E fa fb amp ell m)

/-- `field.cpp:2763-2790` (and 3268-3294): the mode powers less shot noise, over the volume. -/
noncomputable def twopt3d (E : Env) (fa fb : ℤ → ℂ) (amp : ℂ) (g : ℤ) : ℂ :=
  let c := cellOf E.mesh.n g
  (modePower (fa g) (fb g) (E.win c) 1 - modeShot amp (E.alias_ c) (E.win c) 1) / (vol E.mesh : ℂ)

/-- `field.cpp:2706-2945`: `compute_ylm_wgtd_2pt_stats_in_config` (value `xi`). -/
noncomputable def statsConfig (E : Env) (fa fb : ℤ → ℂ) (amp : ℂ) (ell : ℕ) (m : ℤ) :
    List (Bin ℝ ℂ) :=
  let xi := dft E.mesh.n 1 (twopt3d E fa fb amp)
  binStats nSample drSample E.edges E.centres E.numBins
    ((cells E.mesh.n).map fun c =>
      let rv := rvec E.mesh c
      ⟨mag rv, xi (gid E.mesh.n c) * E.ylm ell m rv⟩)

/-! ### Measurements -/

/-- The values saved for one bin; `V` is `ℂ × ℂ` (raw power, shot noise) or `ℂ` (correlation
function). -/
structure Saved (V : Type) where
  num : ℕ
  len : ℝ
  val : V

/-- A loop `for (int m = -L; m <= L; m++)`. -/
def orders (L : ℕ) : List ℤ := irange (-(L : ℤ)) L

/-- `twopt.cpp:445-466, 555-573`: the body of the loop over `m1`: skip if the coupling vanishes,
accumulate, and save mode numbers at `M = m1 = 0`. -/
noncomputable def accumulate {V : Type} [AddCommGroup V] [Module ℝ V] (cpl : ℝ) (M m1 : ℤ)
    (st : ℕ → Saved V) (bins : List (Bin ℝ V)) : ℕ → Saved V :=
  if |cpl| < epsCoupling then st else fun i =>
    let b := bins.getD i ⟨0, 0, 0⟩
    let v := (st i).val + cpl • b.val
    if M = 0 ∧ m1 = 0 then ⟨b.num, b.len, v⟩ else ⟨(st i).num, (st i).len, v⟩

/-- `twopt.cpp:433-473, 543-580`: the loops over `M` and `m1`. -/
noncomputable def sumOrders {V : Type} [AddCommGroup V] [Module ℝ V] (E : Env)
    (bins : ℤ → ℤ → List (Bin ℝ V)) : ℕ → Saved V :=
  (orders E.ELL).foldl (fun st M => (orders E.ELL).foldl (fun st m1 =>
    accumulate (coupling2 E E.ELL E.ELL m1 M) M m1 st (bins M m1)) st) fun _ => ⟨0, 0, 0⟩

/-- One line of the output. -/
structure Row (V : Type) where
  bin : ℝ
  eff : ℝ
  num : ℕ
  val : V

/-- `twopt.cpp:479-488, 586-593`: the output. -/
noncomputable def output {V : Type} [AddCommGroup V] [Module ℝ V] (E : Env) (norm : ℝ)
    (st : ℕ → Saved V) : List (Row V) :=
  (List.range E.numBins).map fun i => ⟨E.centres.getD i 0, (st i).len, (st i).num, norm • (st i).val⟩

/-- `twopt.cpp:388-496`: `compute_powspec`; the value is (`pk_raw`, `pk_shot`). -/
noncomputable def computePowspec (E : Env) (data rand : List Part) (norm : ℝ) :
    List (Row (ℂ × ℂ)) :=
  let alpha := alphaOf data rand
  let dn00 := fourier E.mesh (dnField E data rand alpha 0 0)
  output E norm <| sumOrders E fun M m1 =>
    statsFourier E (fourier E.mesh (dnField E data rand alpha E.ELL M)) dn00
      (shotAmp2 E data rand alpha E.ELL M) E.ELL m1

/-- `twopt.cpp:498-607`: `compute_corrfunc`. -/
noncomputable def computeCorrfunc (E : Env) (data rand : List Part) (norm : ℝ) : List (Row ℂ) :=
  let alpha := alphaOf data rand
  let dn00 := fourier E.mesh (dnField E data rand alpha 0 0)
  output E norm <| sumOrders E fun M m1 =>
    statsConfig E (fourier E.mesh (dnField E data rand alpha E.ELL M)) dn00
      (shotAmp2 E data rand alpha E.ELL M) E.ELL m1

/-- `twopt.cpp:609-701`: `compute_powspec_in_gpp_box`. -/
noncomputable def computePowspecBox (E : Env) (pos : List (Fin 3 → ℝ)) (norm : ℝ) :
    List (Row (ℂ × ℂ)) :=
  let dn := fourier E.mesh (fluctuations E.sch E.mesh E.interlace pos)
  let bins := statsFourier E dn dn (pos.length : ℂ) E.ELL 0
  output E norm fun i =>
    let b := bins.getD i ⟨0, 0, 0⟩
    ⟨b.num, b.len, (2 * (E.ELL : ℝ) + 1) • b.val⟩

/-- `twopt.cpp:703-793`: `compute_corrfunc_in_gpp_box`. -/
noncomputable def computeCorrfuncBox (E : Env) (pos : List (Fin 3 → ℝ)) (norm : ℝ) :
    List (Row ℂ) :=
  let dn := fourier E.mesh (fluctuations E.sch E.mesh E.interlace pos)
  let bins := statsConfig E dn dn (pos.length : ℂ) E.ELL 0
  output E norm fun i =>
    let b := bins.getD i ⟨0, 0, 0⟩
    ⟨b.num, b.len, (2 * (E.ELL : ℝ) + 1) • b.val⟩

/-! ### The choice of normalisation -/

/-- `params.norm_convention`. -/
inductive Convention
  | none | particle | mesh | meshMixed
  deriving DecidableEq

/-- `params.catalogue_type`. -/
inductive CatType
  | survey | random | sim
  deriving DecidableEq

/-- `main/triumvirate.cpp:499-592` for `npoint = 2pt`: all factors are computed, then one is
chosen.  `En` carries the mesh of the mixed-mesh normalisation. -/
noncomputable def driverNorm (E En : Env) (offD offR : Fin 3 → ℝ) (t : CatType) (conv : Convention)
    (data rand : List Part) : Except CppErr ℝ :=
  let alpha := match t with | .survey => alphaOf data rand | _ => 1
  let cat := match t with | .sim => data | _ => rand
  match normParticles cat alpha with
  | .error e => .error e
  | .ok part =>
    let mesh := normMesh E cat alpha
    let meshes := match t with | .survey => normMeshes En offD offR data rand alpha | _ => 0
    .ok (match conv with
      | .none => 1 | .particle => part | .mesh => mesh | .meshMixed => meshes)

end Trv.Two

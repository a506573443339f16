import Verif.Model.ThreePcf
import Verif.Spec.Bispec
/-
Specification of the three-point correlation function: sums over closed triangles of Fourier modes
weighted by spherical Bessel functions, and the self-pair (shot-noise) contribution of shells of
separations.
-/
namespace Trv.Zeta
open Trv.Mesh Trv.Stats Trv.Win Trv.Two Trv.ThreePt Trv.Bis

/-- A field in Fourier space compensated for the assignment window, by mode. -/
noncomputable def comp (E : Env3) (f : ℤ → ℂ) (c : ℤ × ℤ × ℤ) : ℂ :=
  f (gid E.mesh.n c) / (windowFresh E.mesh.n c.1 c.2.1 c.2.2 (orderOf E.sch) : ℂ)

open Classical in
/-- The sum over closed triangles of modes of the field `f` at two sides, each weighted by a
harmonic and a spherical Bessel function, and the field `h` at the third side, over the square of
the volume (`∫ d³k/(2π)³ = Σ / V` for each of the two independent sides). -/
noncomputable def besselTriangles (E : Env3) (f h : ℤ × ℤ × ℤ → ℂ) (t : Triplet) (ra rb : ℝ) : ℂ :=
  (∑ a ∈ allModes E.mesh.n, ∑ b ∈ allModes E.mesh.n,
    ∑ c ∈ (allModes E.mesh.n).filter (Closed E.mesh.n a b),
      ((E.sj E.ell1 (mag (kvec E.mesh a) * ra) : ℝ) : ℂ) * E.ylm E.ell1 t.m1 (kvec E.mesh a) *
      (((E.sj E.ell2 (mag (kvec E.mesh b) * rb) : ℝ) : ℂ) * E.ylm E.ell2 t.m2 (kvec E.mesh b)) *
      (f a * f b * h c)) / (vol E.mesh : ℂ) ^ 2

open Classical in
/-- The separations counted in bin `b`: those whose length rounded down to a whole number is between
the edges of the bin (and less than 100000). -/
noncomputable def shell (E : Env3) (b : ℤ) : Finset (ℤ × ℤ × ℤ) :=
  (allModes E.mesh.n).filter fun c => mag (rvec E.mesh c) < 100000 ∧
    E.edges.getD b.toNat 0 ≤ (⌊mag (rvec E.mesh c)⌋ : ℝ) ∧
    (⌊mag (rvec E.mesh c)⌋ : ℝ) < E.edges.getD (b.toNat + 1) 0

/-- The effective separation of a bin: the mean, or the bin centre if there are no separations. -/
noncomputable def meanSep (E : Env3) (b : ℤ) : ℝ :=
  if (shell E b).card = 0 then E.centres.getD b.toNat 0
  else (∑ c ∈ shell E b, mag (rvec E.mesh c)) / (shell E b).card

/-- The correlation at a separation of two fields, less their shot noise of amplitude `amp`
(`fa` is at the head of the separation, `fb` at its foot), compensated for the mesh. -/
noncomputable def corr (E : Two.Env) (fa fb : ℤ → ℂ) (amp : ℂ) (c : ℤ × ℤ × ℤ) : ℂ :=
  (∑ x ∈ allModes E.mesh.n,
    (fa (gid E.mesh.n x) * (starRingEnd ℂ) (fb (gid E.mesh.n x)) - amp * (E.alias_ x : ℂ)) /
      (E.win x : ℂ) * phase3 E.mesh.n 1 c x) / (vol E.mesh : ℂ)

/-- The mean over a shell of separations of the correlation of `fa` (at the vertex) with `fb` (both
other corners), weighted by the two harmonics of the separation FROM the vertex `-r`, over the
volume of the shell. -/
noncomputable def selfPairs (E : Env3) (fa fb : ℤ → ℂ) (amp : ℂ) (t : Triplet) (b : ℤ) : ℂ :=
  (∑ c ∈ shell E b, corr E.toEnv fa fb amp c *
    (E.ylm E.ell1 t.m1 (fun ax => -rvec E.mesh c ax) * E.ylm E.ell2 t.m2 fun ax => -rvec E.mesh c ax)) /
    ((shell E b).card : ℂ) / ((shell E b).card * E.mesh.volCell : ℂ)

/-- The sum over orders of the triangles of an entry of the three-point correlation function. -/
noncomputable def zetaSum (E : Env3) (ts : List Triplet) (f : ℤ × ℤ × ℤ → ℂ)
    (h : ℤ → ℤ × ℤ × ℤ → ℂ) (row col : ℤ) : ℂ :=
  (ts.map fun t => (coupling3 E t : ℂ) * Complex.I ^ (E.ell1 + E.ell2) * mirrored (fMirror E t)
    (besselTriangles E f (h t.M) t (meanSep E row) (meanSep E col))).sum

/-- The sum over orders of the self-pair contribution. -/
noncomputable def selfSum (E : Env3) (ts : List Triplet) (fa : ℤ → ℤ → ℂ) (fb : ℤ → ℂ) (amp : ℤ → ℂ)
    (b : ℤ) : ℂ :=
  (ts.map fun t => (coupling3 E t : ℂ) * mirrored (fMirrorW3j t)
    (selfPairs E (fa t.M) fb (amp t.M) t b)).sum

/-- A line of the output describes two bins: their centres, effective separations and numbers of
separations. -/
def Describes (E : Env3) (r : RowZ) (row col : ℤ) : Prop :=
  r.r1bin = E.centres.getD row.toNat 0 ∧ r.r2bin = E.centres.getD col.toNat 0 ∧
  r.r1eff = meanSep E row ∧ r.r2eff = meanSep E col ∧
  r.npairs1 = (shell E row).card ∧ r.npairs2 = (shell E col).card

/-- The grid point nearest to a position, on the periodic mesh. -/
noncomputable def nearest (M : Mesh ℝ) (x : Fin 3 → ℝ) : ℤ × ℤ × ℤ :=
  (⌊M.n 0 * x 0 / M.L 0 + 1 / 2⌋ % M.n 0, ⌊M.n 1 * x 1 / M.L 1 + 1 / 2⌋ % M.n 1,
    ⌊M.n 2 * x 2 / M.L 2 + 1 / 2⌋ % M.n 2)

/-- Cell `a` is at separation `c` from cell `b`, on the periodic mesh. -/
def Apart (n : Fin 3 → ℤ) (c a b : ℤ × ℤ × ℤ) : Prop :=
  n 0 ∣ a.1 - b.1 - c.1 ∧ n 1 ∣ a.2.1 - b.2.1 - c.2.1 ∧ n 2 ∣ a.2.2 - b.2.2 - c.2.2

/-- A point of a catalogue: its cell, its weight (with a harmonic) and its weight as second member of
a pair. -/
structure Point where
  cell : ℤ × ℤ × ℤ
  w : ℂ
  ww : ℝ

open Classical in
/-- The weighted number of ordered pairs of DIFFERENT points at a separation. -/
noncomputable def pairCount (n : Fin 3 → ℤ) (ps : List Point) (c : ℤ × ℤ × ℤ) : ℂ :=
  ∑ i : Fin ps.length, ∑ j : Fin ps.length,
    if i ≠ j ∧ Apart n c (ps.get i).cell (ps.get j).cell then (ps.get i).w * ((ps.get j).ww : ℂ) else 0

/-- The points of a catalogue at order `m`, with weights multiplied by `a`; the second member of a
pair is given the power `q` of its weight. -/
noncomputable def pointsOf (E : Two.Env) (q : ℕ) (a : ℝ) (m : ℤ) (ps : List Part) : List Point :=
  ps.map fun p => ⟨nearest E.mesh p.pos, (a : ℂ) * (E.ylm E.ELL m p.los * (p.w : ℂ)), (a * p.w) ^ q⟩

/-- Positions in a box as points of unit weight. -/
noncomputable def pointsBox (M : Mesh ℝ) (pos : List (Fin 3 → ℝ)) : List Point :=
  pos.map fun x => ⟨nearest M x, 1, 1⟩

/-- The mean over a shell of separations of `ξ`, as in `selfPairs`. -/
noncomputable def shellPairs (E : Env3) (ξ : ℤ × ℤ × ℤ → ℂ) (t : Triplet) (b : ℤ) : ℂ :=
  (∑ c ∈ shell E b, ξ c *
    (E.ylm E.ell1 t.m1 (fun ax => -rvec E.mesh c ax) * E.ylm E.ell2 t.m2 fun ax => -rvec E.mesh c ax)) /
    ((shell E b).card : ℂ) / ((shell E b).card * E.mesh.volCell : ℂ)

/-- The sum over orders of the means over a shell of separations. -/
noncomputable def pairSum (E : Env3) (ts : List Triplet) (ξ : ℤ → ℤ × ℤ × ℤ → ℂ) (b : ℤ) : ℂ :=
  (ts.map fun t => (coupling3 E t : ℂ) * mirrored (fMirrorW3j t) (shellPairs E (ξ t.M) t b)).sum

end Trv.Zeta

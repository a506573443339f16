import Verif.Spec.BinnedVectors
import Verif.Spec.TwoPtSums
import Verif.Spec.ThreePcf
/-
Specification of measurements with lengths expressed in another unit.
-/
namespace Trv.Unit
open Trv.Mesh Trv.Two Trv.Bis

/-- The box with its sides in a unit `u` times smaller. -/
def meshIn (u : ℝ) (M : Mesh ℝ) : Mesh ℝ := ⟨M.n, fun a => u * M.L a⟩

/-- A position in that unit. -/
def posIn (u : ℝ) (x : Fin 3 → ℝ) : Fin 3 → ℝ := fun a => u * x a

/-- A particle in that unit: its position and the number density there; directions and weights have no unit. -/
noncomputable def partIn (u : ℝ) (p : Part) : Part := { p with pos := posIn u p.pos, nz := p.nz / u ^ 3 }

/-- A measurement in that unit; the bins are multiplied by `v` (`u` for separations, `1/u` for wavenumbers). -/
noncomputable def envIn (u v : ℝ) (E : Two.Env) : Two.Env :=
  { E with mesh := meshIn u E.mesh, edges := E.edges.map (v * ·), centres := E.centres.map (v * ·) }

/-- A three-point measurement in that unit. -/
noncomputable def envIn3 (u v : ℝ) (E : Env3) : Env3 := { E with toEnv := envIn u v E.toEnv }

/-- A line of a two-point measurement: lengths multiplied by `v` and the values by `s`. -/
noncomputable def rowIn {V : Type} [AddCommGroup V] [Module ℝ V] (v s : ℝ) (r : Two.Row V) : Two.Row V :=
  ⟨v * r.bin, v * r.eff, r.num, s • r.val⟩

/-- A line of a bispectrum: wavenumbers multiplied by `v` and the values by `s`. -/
noncomputable def rowIn3 (v s : ℝ) (r : Row3) : Row3 :=
  { r with
    k1eff := v * r.k1eff
    k2eff := v * r.k2eff
    raw := (s : ℂ) * r.raw
    shot := (s : ℂ) * r.shot }

/-- A line of a three-point correlation function: separations multiplied by `v`. -/
noncomputable def rowInZ (v : ℝ) (r : Zeta.RowZ) : Zeta.RowZ :=
  { r with
    r1bin := v * r.r1bin
    r2bin := v * r.r2bin
    r1eff := v * r.r1eff
    r2eff := v * r.r2eff }

/-- The steps of the mesh are not negligible as lengths, in wavenumber. -/
def ResolvedK (M : Mesh ℝ) : Prop := ∀ a, (1 : ℝ) / 1000000000 ≤ 2 * Real.pi / M.L a

/-- The steps of the mesh are not negligible as lengths, in separation. -/
def ResolvedR (M : Mesh ℝ) : Prop := ∀ a, (1 : ℝ) / 1000000000 ≤ M.L a / M.n a

end Trv.Unit

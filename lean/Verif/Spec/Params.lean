import Verif.Model.Params
/-
Specification of accepted parameter sets, after the documentation of the parameters.
-/
namespace Trv.Par

/-- The assignment schemes and their orders. -/
def orderTable : List (String × ℤ) := [("ngp", 1), ("cic", 2), ("tsc", 3), ("pcs", 4)]

/-- The statistics, their `N`-point order and space, and the catalogue types they admit
(among those recognised). -/
def statTable : List (String × String × String × List String) :=
  [("powspec", "2pt", "fourier", ["survey", "sim"]),
   ("2pcf", "2pt", "config", ["survey", "sim"]),
   ("2pcf-win", "2pt", "config", ["random"]),
   ("bispec", "3pt", "fourier", ["survey", "sim"]),
   ("3pcf", "3pt", "config", ["survey", "sim"]),
   ("3pcf-win", "3pt", "config", ["random"]),
   ("3pcf-win-wa", "3pt", "config", ["random"]),
   ("modes", "none", "fourier", ["survey", "random", "sim", "none"]),
   ("pairs", "none", "config", ["survey", "random", "sim", "none"])]

variable {K : Type} [Field K] [LinearOrder K]

/-- What holds of the derived and categorical parameters. -/
structure Derived (p : Params K) : Prop where
  align : p.alignment ∈ ["centre", "pad"]
  padscale : p.padscale ∈ ["box", "grid"]
  order : (p.assignment, p.assignOrder) ∈ orderTable
  stat : ∃ cats, (p.statType, p.npoint, p.space, cats) ∈ statTable ∧ p.catType ∈ cats
  interlace : p.interlace ∈ ["true", "false"]
  form : p.form ∈ ["full", "diag", "off-diag", "row"]
  shape : p.shape = if p.form = "full" ∧ p.ell1 = p.ell2 then "triu" else p.form
  norm : p.norm ∈ ["none", "particle", "mesh", "mesh-mixed"]
  mixed : p.norm = "mesh-mixed" → p.npoint = "2pt"
  binning : p.binning ∈ ["lin", "log", "linpad", "logpad", "custom"]
  volume : p.volume = p.box 0 * p.box 1 * p.box 2
  nmesh : p.nmesh = p.ngrid 0 * p.ngrid 1 * p.ngrid 2

/-- What holds of an accepted parameter set. -/
structure WellFormed (p : Params K) : Prop extends Derived p where
  meshed : 0 < p.nmesh ∨ (p.volume ≤ 0 ∧ 1 ≤ p.expand ∧ 0 ≤ p.cutoff)
  expanded : p.volume ≤ 0 → 1 ≤ p.expand
  range : 0 ≤ p.binMin ∧ p.binMin < p.binMax
  bins : 2 ≤ p.numBins ∧ |p.idxBin| < p.numBins
  padbins : p.binning ∈ ["linpad", "logpad"] → 7 ≤ p.numBins
  row : p.npoint = "3pt" → p.form = "row" → 0 ≤ p.idxBin
  interlace3 : p.npoint = "3pt" → p.interlace = "false"
  padbox : p.alignment = "pad" → 0 ≤ p.padfactor ∧ (p.padscale = "box" → p.padfactor < 1) ∧
    (p.padscale = "grid" → ∀ i, p.padfactor < (p.ngrid i : K))
  saved : p.statType ∈ ["modes", "pairs"] → p.saveBvec ≠ []

/-- The number of cells resolves the cutoff: the Nyquist wavenumber `π n / L` is at least the
cutoff, or twice the grid spacing `2 L / n` is at most the cutoff. -/
def Resolves (pi : K) (space : String) (L c : K) (n : ℤ) : Prop :=
  if space = "fourier" then c ≤ pi * n / L else 2 * L / n ≤ c

/-- No environment variable occurs in the paths. -/
def Plain (p : Params K) : Prop :=
  '$' ∉ p.catDir ∧ '$' ∉ p.measDir ∧ '$' ∉ p.dataFile ∧ '$' ∉ p.randFile ∧ '$' ∉ p.wisdom ∧
  '$' ∉ p.saveBvec ∧ '$' ∉ p.tag

/-- A list of file names which the delimiter separates: no name is blank, contains the
delimiter or ends with its first character. -/
def GoodFiles (l : List Str) : Prop :=
  ∀ f ∈ l, blank f = false ∧ ¬ [':', ':'] <:+: f ++ [':']

/-- The parameters a user sets which no validation changes. -/
def inputs (p : Params K) :=
  (p.box, p.expand, p.cutoff, p.padfactor, p.binMin, p.binMax, p.numBins, p.idxBin, p.ell1, p.ell2,
   p.ELL, p.iWa, p.jWa, p.alignment, p.padscale, p.assignment, p.catType, p.statType, p.form,
   p.norm, p.binning, p.tag, p.columns, p.dataset, p.verbose, p.progbar)

/-- A box and a mesh which can be used: positive sides and grid numbers. -/
def Usable (p : Params K) : Prop := (∀ i, 0 < p.box i) ∧ ∀ i, 0 < p.ngrid i

/-- The planner flags of FFTW by scheme (`fftw3.h`: `FFTW_ESTIMATE` is bit 6, `FFTW_PATIENT`
bit 5 and `FFTW_MEASURE` zero). -/
def plannerTable : List (String × ℤ) := [("estimate", 2 ^ 6), ("measure", 0), ("patient", 2 ^ 5)]

end Trv.Par

import Verif.Model.ParamsMod
/-
Specification of parameters with overrides: all overrides take effect at once.
-/
namespace Trv.Par
variable {K : Type}

/-- The entries which a user sets and which parsing never rewrites. -/
structure Kept (K : Type) where
  box : Fin 3 → Option K
  expand : Option K
  padfactor : Option K
  alignment : Option String
  padscale : Option String
  assignment : Option String
  ell1 : Option ℤ
  ell2 : Option ℤ
  ELL : Option ℤ
  iWa : Option ℤ
  jWa : Option ℤ
  binMin : Option K
  binMax : Option K
  numBins : Option ℤ
  idxBin : Option ℤ
  cutoff : Option K
  catType : Option String
  statType : Option String
  form : Option String
  norm : Option String
  binning : Option String

/-- The entries of a dictionary. -/
def kept (d : Dict K) : Kept K :=
  ⟨d.box, d.expand, d.padfactor, d.alignment, d.padscale, d.assignment, d.ell1, d.ell2, d.ELL, d.iWa,
   d.jWa, d.binMin, d.binMax, d.numBins, d.idxBin, d.cutoff, d.catType, d.statType, d.form, d.norm,
   d.binning⟩

/-- The padding scale with overrides. -/
def newScale (m : Sampling K) (old : Option String) : Option String :=
  if m.gridpad.isSome then some "grid" else if m.boxpad.isSome then some "box" else old

/-- The entries with all overrides in effect. -/
def override (m : Sampling K) (q : Measure K) (cat stat : Option String) (k : Kept K) : Kept K where
  box := match m.boxsize with | some b => fun i => some (b i) | none => k.box
  expand := m.expand.or k.expand
  padfactor := m.gridpad.or (m.boxpad.or k.padfactor)
  alignment := m.alignment.or k.alignment
  padscale := newScale m k.padscale
  assignment := m.assignment.or k.assignment
  ell1 := q.ell1.or k.ell1
  ell2 := q.ell2.or k.ell2
  ELL := q.ELL.or k.ELL
  iWa := q.iWa.or k.iWa
  jWa := q.jWa.or k.jWa
  binMin := q.binMin.or k.binMin
  binMax := q.binMax.or k.binMax
  numBins := q.numBins.or k.numBins
  idxBin := q.idxBin.or k.idxBin
  cutoff := m.cutoff.or k.cutoff
  catType := cat.or k.catType
  statType := stat.or k.statType
  form := q.form.or k.form
  norm := k.norm
  binning := k.binning

/-- The overrides set both paddings of a padded box. -/
def BothPads (m : Sampling K) (old : Option String) : Prop :=
  m.alignment.or old = some "pad" ∧ m.boxpad.isSome ∧ m.gridpad.isSome

end Trv.Par

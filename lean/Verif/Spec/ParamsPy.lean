import Verif.Model.ParamsPy
/-
Specification of the agreement between the Python view of the parameters and the C++
parameters.
-/
namespace Trv.Par
variable {K : Type} [Field K] [LinearOrder K]

/-- A set entry has the C++ value. -/
def Same {α β : Type} (f : α → β) (o : Option α) (x : β) : Prop := ∀ a, o = some a → x = f a

/-- The Python entries which are set have the values of the C++ parameters (up to letter case);
a box and a mesh are set if all three numbers are. -/
structure Agree (d : Dict K) (c : Params K) : Prop where
  box : (∀ i, (d.box i).isSome) → ∀ i, d.box i = some (c.box i)
  expand : Same id d.expand c.expand
  padfactor : Same id d.padfactor c.padfactor
  alignment : Same lower d.alignment c.alignment
  padscale : Same lower d.padscale c.padscale
  assignment : Same lower d.assignment c.assignment
  ell1 : Same id d.ell1 c.ell1
  ell2 : Same id d.ell2 c.ell2
  ELL : Same id d.ELL c.ELL
  iWa : Same id d.iWa c.iWa
  jWa : Same id d.jWa c.jWa
  binMin : d.binMin = some c.binMin
  binMax : d.binMax = some c.binMax
  numBins : d.numBins = some c.numBins
  idxBin : Same id d.idxBin c.idxBin
  catType : Same lower d.catType c.catType
  statType : Same lower d.statType c.statType
  form : Same lower d.form c.form
  norm : Same lower d.norm c.norm
  binning : Same lower d.binning c.binning
  verbose : Same id d.verbose c.verbose
  tag : Same id d.tag c.tag
  assignOrder : d.assignOrder = some c.assignOrder
  npoint : d.npoint = some c.npoint
  space : d.space = some c.space
  interlace : c.interlace ∈ ["true", "false"] → d.interlace.map lower = some c.interlace

end Trv.Par

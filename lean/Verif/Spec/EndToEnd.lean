import Verif.Model.EndToEnd
import Verif.Spec.Catalogue
import Verif.Spec.Handover
import Verif.Spec.OptionCase
import Verif.Spec.Header
/-
Specification of the agreement of the program and the Python functions.
-/
namespace Trv.E2E

open Trv Trv.Par Trv.Mon Trv.Cat Trv.Prog Trv.Out

/-- A C++ catalogue and a Python one hold the same particles from the same source, with everything derived from the
particles as it should be. -/
structure SameCat (c : CppCat ℝ) (source : Str) (d : PyCat ℝ) : Prop where
  holds : Holding c d.sent
  extents : c.TrueExtents
  bounds : d.TrueBounds
  weight : ∀ q ∈ c.particles, q.w = q.ws * q.wc
  totals : c.wtotal = (c.particles.map fun q => q.w).sum ∧ c.wstotal = (c.particles.map fun q => q.ws).sum
  totalsPy : d.TrueTotals
  source : c.source.toList = source

/-- The options are written as documented and all that the measurement reads is set. -/
structure Written (d : Dict ℝ) : Prop where
  alignment : LowerEntry d.alignment
  padscale : LowerEntry d.padscale
  assignment : LowerEntry d.assignment
  norm : LowerEntry d.norm
  stat : LowerEntry d.statType
  padfactor : d.padfactor.isSome
  box : ∀ i, (d.box i).isSome
  degrees : d.ell1.isSome ∧ d.ell2.isSome ∧ d.ELL.isSome ∧ d.iWa.isSome ∧ d.jWa.isSome

/-- The results have the arrays of the statistic, of the dimension returned. -/
def Kern.Fits (A : Kern) : Prop :=
  ∀ c d l m p f r, A.compute c d l m p f = .ok r → r.1.Fits p.statType r.2

/-- The same for windows. -/
def WinKern.Fits (A : WinKern) : Prop :=
  ∀ c l p f r, A.compute c l p f = .ok r → r.1.Fits p.statType r.2

/-- The statistics measured from catalogues. -/
def measured : List String := ["powspec", "2pcf", "bispec", "3pcf", "2pcf-win", "3pcf-win", "3pcf-win-wa"]

end Trv.E2E

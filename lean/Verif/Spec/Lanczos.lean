import Mathlib.Analysis.SpecialFunctions.Gamma.Beta
/-
Specification of the gamma function of the C++ library: Mathlib's `Complex.Gamma`, whose poles are named here.
-/
namespace Trv.Lz

/-- The poles of the gamma function. -/
def IsPole (z : ℂ) : Prop := ∃ m : ℕ, z = -m

end Trv.Lz

import Verif.Model.ConvRange
/-
Specification of the coverage of a range of convolution, without extrema.
-/
namespace Trv.Wc

open Trv

/-- Every point of `rc` lies between two points of `rs`, up to a relative `1e-5`. -/
def Covers (rc rs : List ℝ) : Prop :=
  ∀ p ∈ rc, (∃ s ∈ rs, (1 - 1 / 100000) * s ≤ p) ∧ ∃ s ∈ rs, p ≤ (1 + 1 / 100000) * s

/-- The sample points a term of a formula reads: `x` on the given side. -/
def Reads (rQ : List (Multipole × List ℝ)) (rIn : List (Option Multipole × List ℝ)) (t : Term)
    (s : Side) (x : List ℝ) : Prop :=
  match s with
  | .window => get? rQ t.q = some x
  | .correlation => ∃ z, t.z = some z ∧ get? rIn (some z) = some x

/-- All the sample points which the formula of a multipole reads. -/
def ReadsAny {α : Type} (B : Base ℝ α) (m : Multipole) (x : List ℝ) : Prop :=
  ∃ t ∈ B.F.terms m, ∃ s, Reads B.rQ B.rIn t s x

end Trv.Wc

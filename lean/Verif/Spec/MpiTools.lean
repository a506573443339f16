import Verif.Model.MpiTools
import Mathlib.Logic.ExistsUnique
/-
Specification vocabulary for C01, C02, C54 (independent of the model functions).
-/
namespace Trv.Mpi

/-- `segs` tile `0..total-1`: every task index lies in exactly one segment and
nothing outside `0..total-1` lies in any; segments are consecutive. -/
def Tiles (segs : List (Nat × Nat)) (total : Nat) : Prop :=
  (∀ i, i < total → ∃! r : Nat, ∃ s : Nat × Nat, segs[r]? = some s ∧ s.1 ≤ i ∧ i < s.2) ∧
  (∀ s ∈ segs, s.1 ≤ s.2 ∧ s.2 ≤ total) ∧
  (∀ r s t, segs[r]? = some s → segs[r + 1]? = some t → s.2 = t.1)

/-- The tasks executed, in rank order. -/
def executed (segs : List (Nat × Nat)) : List Nat :=
  segs.flatMap fun s => List.range' s.1 (s.2 - s.1)

/-- What "each distinct record once, in order of first occurrence" means:
`out` is duplicate free, has the same members, is a sub-sequence of the input,
and for each member the part of the input before its first occurrence contains
exactly the members which precede it in `out`. -/
def FirstOccurrences (inp out : List Record) : Prop :=
  out.Nodup ∧ (∀ r, r ∈ out ↔ r ∈ inp) ∧ out.Sublist inp ∧
  ∀ pre suf, inp = pre ++ suf → ∃ o1 o2, out = o1 ++ o2 ∧ (∀ r, r ∈ o1 ↔ r ∈ pre)

end Trv.Mpi

import Verif.Model.Program
/-
Specification of what the program leaves behind.
-/
namespace Trv.Prog
open Trv Trv.Par Trv.Mon Trv.Cat

variable {K : Type} [Field K] [LinearOrder K] [IsStrictOrderedRing K] [FloorRing K] {α : Type}

/-- The statistics which are measured; `modes` and `pairs` only count. -/
def measuredStats : List String :=
  ["powspec", "2pcf", "2pcf-win", "bispec", "3pcf", "3pcf-win", "3pcf-win-wa"]

/-- The files of a completed run are those of the parameters `p` as read, and of the result `r`
of the measurement with the parameters `q`: a file of used parameters; a file of measurements
for a statistic which is measured; and one of binned vectors if these are asked for. -/
def Complete (p q : Params K) (r : α) (fs : List (File K α)) : Prop :=
  ∃ path, fs = [.used (p.measDir ++ "parameters_used".toList ++ p.tag |>.take 1023) p] ++
    (if q.statType ∈ measuredStats then [.measured path q r] else []) ++
    (if q.saveBvec = [] then [] else [.vectors q.saveBvec q]) ∧
  (q.statType ∈ measuredStats → Out.cppPath (outP q) = some path)

/-- The files of a run which is not completed: none, the used parameters, or these and the
measurement when the binned vectors cannot be written. -/
def Incomplete (p : Params K) (fs : List (File K α)) : Prop :=
  fs = [] ∨ fs = [.used (usedPath p) p] ∨
    ∃ path q r, fs = [.used (usedPath p) p, .measured path q r] ∧ q.saveBvec ≠ []

end Trv.Prog

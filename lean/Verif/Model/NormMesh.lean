import Verif.Model.Program
/-
Model of the parameters with which the mixed-mesh normalisation of survey two-point statistics
is computed (`twopt.cpp:230-264`), and of its place in the program (`main/triumvirate.cpp:499-540`).

Simplifications: `int` and `double` arithmetic is that of integers and an ordered field; the
factors computed before the mixed-mesh one are an arbitrary function which may throw.
-/
namespace Trv.Prog

open Trv Trv.Par Trv.Mon Trv.Cat

section
variable {K : Type} [Field K] [LinearOrder K] [FloorRing K]

/-- `twopt.cpp:239-242`: the largest extent of the two catalogues. -/
def largestSpan (a b : V3 K) : K :=
  max (max (max (a 0) (a 1)) (a 2)) (max (max (b 0) (b 1)) (b 2))

/-- `twopt.cpp:239-246`: the grid number of the normalisation mesh (the `%` of C++ truncates). -/
def normNgrid (padding cell : K) (a b : V3 K) : ℤ :=
  let n := ⌈(1 + padding) * largestSpan a b / cell⌉
  n + n.tmod 2

/-- `twopt.cpp:236-254`: the parameters of the normalisation mesh, before they are validated. -/
def normParams (padding cell : K) (asg : String) (a b : V3 K) (p : Params K) : Params K :=
  { p.copy with
    box := fun _ => (normNgrid padding cell a b : K) * cell
    ngrid := fun _ => normNgrid padding cell a b
    assignment := asg }

/-- `twopt.cpp:236-256`: the parameters of the normalisation mesh. -/
def normValidated (e : Env K) (fuel : ℕ) (padding cell : K) (asg : String) (a b : V3 K) (p : Params K) :
    Option (Except CppErr (Params K)) :=
  validate e fuel true (normParams padding cell asg a b p)

/-- `triumvirate.cpp:512-540`: the mixed-mesh normalisation, as far as it may throw, after the
`first` factors and before the measurement `alg`.  The padding, cell size and assignment are
constants of the program (those of `twopt.py:54-56` are the same). -/
def withNorms {α : Type} (e : Env K) (fuel : ℕ) (first : Input K → Except CppErr Unit)
    (alg : Input K → Except CppErr α) (I : Input K) : Except CppErr α := do
  first I
  if I.p.npoint = "2pt" ∧ I.p.catType = "survey" then
    match normValidated e fuel (1 / 10) 10 "cic" I.data.posSpan I.rand.posSpan I.p with
    | none => .error .undefined
    | some (.error x) => .error x
    | some (.ok _) => alg I
  else alg I

end
end Trv.Prog

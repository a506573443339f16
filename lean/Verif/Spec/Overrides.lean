import Verif.Model.Program
import Verif.Spec.Params
/-
Specification of the environment variables which override parameters: what they are to change.
-/
namespace Trv.Prog
open Trv.Mon Trv.Par

variable {K : Type} [Field K] [LinearOrder K] [FloorRing K]

/-- The wisdom directory: none if the variable says `false`, else as it says. -/
def Overrides.dir (o : Overrides) (getenv : Str → Option Str) (p : Params K) : Str :=
  match o.wisdom with
  | none => p.wisdom
  | some w => if w = "false".toList then [] else expandVars getenv w

/-- The overriding values are fit for use: the verbosity is a number, the planner scheme is
known and one which makes wisdom if wisdom is to be used. -/
def Overrides.Fit (o : Overrides) (getenv : Str → Option Str) (toInt : Str → Option ℤ)
    (p : Params K) : Prop :=
  (∀ v, o.verbose = some v → ∃ n, toInt v = some n) ∧
  (o.scheme.getD p.scheme ∈ ["estimate", "measure", "patient"]) ∧
  (o.dir getenv p ≠ [] → o.scheme.getD p.scheme ∈ ["measure", "patient"])

/-- `q` is `p` but for the overridden parameters. -/
structure Overrides.Replaces (o : Overrides) (e : Env K) (toInt : Str → Option ℤ) (p q : Params K) :
    Prop where
  rest : q = { p with tag := q.tag, scheme := q.scheme, plannerFlag := q.plannerFlag,
                      wisdom := q.wisdom, wisdomF := q.wisdomF, wisdomB := q.wisdomB,
                      verbose := q.verbose, progbar := q.progbar }
  tag : q.tag = o.tag.getD p.tag
  progbar : q.progbar = o.progbar.getD p.progbar
  verbose : q.verbose = ((o.verbose.bind toInt).getD p.verbose)
  scheme : q.scheme = o.scheme.getD p.scheme
  flag : (q.scheme, q.plannerFlag) ∈ plannerTable
  wisdom : q.wisdom = o.dir e.getenv p
  names : q.wisdom ≠ [] → q.wisdomF = wisdomName e q.wisdom 'f' p.ngrid ∧
    q.wisdomB = wisdomName e q.wisdom 'b' p.ngrid
  noNames : q.wisdom = [] → q.wisdomF = p.wisdomF ∧ q.wisdomB = p.wisdomB

/-- The parameters of a file in which the overriding values stand. -/
def Overrides.inFile (o : Overrides) (toInt : Str → Option ℤ) (p : Params K) : Params K :=
  { p with tag := o.tag.getD p.tag, scheme := o.scheme.getD p.scheme,
           wisdom := o.wisdom.getD p.wisdom, verbose := (o.verbose.bind toInt).getD p.verbose,
           progbar := o.progbar.getD p.progbar }

end Trv.Prog

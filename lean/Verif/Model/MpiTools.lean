import Verif.Model.Common
/-
Model of `/repo/src/triumvirate/_mpitools.py`.
-/
namespace Trv.Mpi

open Trv

/-- A Python argument as seen by `isinstance` in `allocate_tasks`: a builtin
`int`, a `numpy.integer`, `None`, or anything else. -/
inductive Arg
  | int (z : Int)
  | npint (z : Int)
  | none
  | other
  deriving DecidableEq, Repr

/-- `_mpitools.py:55-60`: the `while ntask_toassign > 0` loop.  `n` is
`ntask_toassign`, `p` is `nproc_toassign`.  `n // 0` raises
`ZeroDivisionError`.  Simplification: `n`, `p` are natural numbers (they are
positive on entry; `p` is decremented once per iteration and the loop raises as
soon as it is divided by `p = 0`, so it never becomes negative). -/
def allocLoop (n : Nat) : (p : Nat) → Except PyErr (List Nat)
  | 0 => if n = 0 then .ok [] else .error .zeroDivisionError
  | p + 1 =>
    if n = 0 then .ok []
    else
      let a := n / (p + 1)
      match allocLoop (n - a) p with
      | .ok l => .ok (a :: l)
      | .error e => .error e

/-- `_mpitools.py:17-62`: `allocate_tasks`. -/
def allocateTasks (taskTotal procTotal : Arg) : Except PyErr (List Nat) :=
  let go (t p : Int) : Except PyErr (List Nat) :=
    if t ≤ 0 ∨ p ≤ 0 then .error .valueError
    else allocLoop t.toNat p.toNat
  match taskTotal, procTotal with
  | .int t, .int p => go t p
  | .npint t, .int p => go t p
  | _, _ => .error .typeError

/-- `np.insert(np.cumsum(ntasks), 0, values=0)` (`_mpitools.py:93`). -/
def breakpointsFrom (s : Nat) : List Nat → List Nat
  | [] => [s]
  | a :: l => s :: breakpointsFrom (s + a) l

/-- A Python truth test of an optional list / optional integer argument. -/
def truthyList : Option (List Nat) → Bool
  | some (_ :: _) => true
  | _ => false

/-- `_mpitools.py:94-97`: the list comprehension over `range(proc_total)`,
reading `breakpoints[rank]` and `breakpoints[rank + 1]`. -/
def segmentsOf (bp : List Nat) : (ranks : List Nat) → Except PyErr (List (Nat × Nat))
  | [] => .ok []
  | r :: rs =>
    match bp[r]?, bp[r + 1]? with
    | some a, some b =>
      match segmentsOf bp rs with
      | .ok l => .ok ((a, b) :: l)
      | .error e => .error e
    | _, _ => .error .indexError

/-- `_mpitools.py:65-99`: `distribute_tasks`; a segment is the pair
(start, stop) of the returned `slice`.  `proc_total` is modelled for builtin
integers and `None` only. -/
def distributeTasks (ntasks : Option (List Nat)) (taskTotal procTotal : Arg) :
    Except PyErr (List (Nat × Nat)) :=
  let nt := match ntasks with
    | some (a :: l) => Except.ok (a :: l)
    | _ => allocateTasks taskTotal procTotal
  match nt with
  | .error e => .error e
  | .ok nt =>
    let pt : Option Nat := match procTotal with
      | .int z => if z = 0 then some nt.length else some z.toNat
      | .none => some nt.length
      | _ => none
    match pt with
    | some pt => segmentsOf (breakpointsFrom 0 nt) (List.range pt)
    | none => .error .typeError

/-- A captured warning record (`warnings.WarningMessage`): the message object
(compared by identity, hence an object id), category, file name and line. -/
structure Record where
  message : Nat
  category : String
  filename : String
  lineno : Nat
  deriving DecidableEq, Repr

/-- `_mpitools.py:129-138`: the loop with `seen_warnings`. -/
def restoreLoop : (seen : List Record) → List Record → List Record
  | _, [] => []
  | seen, r :: rs =>
    if r ∈ seen then restoreLoop seen rs
    else r :: restoreLoop (r :: seen) rs

/-- `_mpitools.py:102-150`: `restore_warnings`; the pair (returned records,
records emitted by `warnings.showwarning`).  `atRoot` is
`comm is None or comm.rank == comm_root`. -/
def restoreWarnings (captured : List Record) (unique show_ atRoot : Bool) :
    List Record × List Record :=
  let restored := if unique then restoreLoop [] captured else captured
  (restored, if show_ && atRoot then restored else [])

end Trv.Mpi

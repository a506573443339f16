import Verif.Model.Memory
/-
What objects own, and the peak of a quantity over a history.
-/
namespace Trv.Mem.Spec

/-- An array there may be. -/
def some1 (a : Option ℕ) : ℕ := if a.isSome then 1 else 0

/-- Complex grids of an object. -/
def cgrids : Obj → ℕ
  | .mesh _ shadow _ _ => 1 + if shadow then 1 else 0
  | .stats _ plan _ _ => if plan then 1 else 0
  | .cat _ _ => 0
  | .buf _ _ => 0
  | .work _ => 4

/-- Real grids of an object. -/
def rgrids : Obj → ℕ
  | .mesh _ _ _ window => some1 window
  | .stats _ _ _ aliasSn => some1 aliasSn
  | _ => 0

/-- Bytes of the arrays of an object. -/
def bytes : Obj → ℕ
  | .mesh nmesh shadow _ window => 16 * nmesh * (1 + if shadow then 1 else 0) + 8 * window.getD 0
  | .stats nmesh plan _ aliasSn => 16 * nmesh * (if plan then 1 else 0) + 8 * aliasSn.getD 0
  | .cat _ pdata => 56 * pdata.getD 0
  | .buf size num => size * num
  | .work nmesh => 4 * (16 * nmesh)

/-- A total over the objects alive. -/
def total (f : Obj → ℕ) (heap : List (Option Obj)) : ℕ := (heap.map fun o => o.elim 0 f).sum

/-- `x` is the greatest value of a quantity over the beginnings of a history, the empty one and the whole
included. -/
def IsPeak {α : Type} [LE α] (f : List Op → α) (ops : List Op) (x : α) : Prop :=
  (∀ k ≤ ops.length, f (ops.take k) ≤ x) ∧ ∃ k ≤ ops.length, f (ops.take k) = x

/-- The number of particles by which an array shrinks when a catalogue that owns one is given another. -/
def shrink (w : World) : Op → ℤ
  | .initCat i num =>
    match w.obj i with
    | some (.cat _ (some n)) => if 0 < num then n - num else 0
    | _ => 0
  | _ => 0

/-- The sum of these over a history. -/
def shrunk (ops : List Op) : ℤ := ((List.range ops.length).map fun k =>
  (ops[k]?).elim 0 (shrink (run (ops.take k)))).sum

/-- No catalogue that owns an array is given one of another length. -/
def NoResize (ops : List Op) : Prop :=
  ∀ k op, ops[k]? = some op → shrink (run (ops.take k)) op = 0

end Trv.Mem.Spec

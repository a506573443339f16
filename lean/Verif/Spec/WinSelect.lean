import Verif.Model.WinSelect
/-
Specification for sub-selecting the samples of a window: which samples are kept, stated with indices.
-/
namespace Trv.Wc

open Trv

variable {K : Type} [Field K] [LinearOrder K]

/-- A well-formed window: sample points and samples for each multipole, a square matrix on the sample
points. -/
structure Win.Ok (w : Win K) : Prop where
  keys : ∀ m ∈ w.multipoles, ∃ q, get? w.Q m = some q
  dict : ∃ d, w.r = .dict d ∧ (∀ m ∈ w.multipoles, ∃ x, get? d m = some x) ∧
    ∀ p ∈ w.Q, p.1 ∈ w.multipoles ∧ ∀ x, get? d p.1 = some x →
      p.2.length = x.length ∧ ∀ row ∈ p.2, row.length = x.length
  nodup : (w.Q.map Prod.fst).Nodup
  diag : w.qDiag = diags w.Q

/-- The sample points of a multipole, its samples and their diagonal are `x`, `q`, `g`. -/
def Win.Has (w : Win K) (m : Multipole) (x : List K) (q : List (List K)) (g : List K) : Prop :=
  w.r.at (.mp m) = .ok x ∧ get? w.Q m = some q ∧ get? w.qDiag m = some g

/-- A bound is respected; `none` is no bound. -/
def Within (b : Bounds K) (v : K) : Prop := (∀ lo, b.1 = some lo → lo ≤ v) ∧ (∀ hi, b.2 = some hi → v ≤ hi)

/-- A sample point of a multipole lies in the range requested. -/
def RRange.Holds (m : Multipole) (v : K) : RRange K → Prop
  | .none => True
  | .tuple b => Within b v
  | .dict d => ∀ b, (Key.mp m, b) ∈ d → Within b v

/-- The position a possibly negative index refers to in a sequence of length `n`. -/
def pos (n : ℕ) (x : ℤ) : ℤ := if x < 0 then x + n else x

/-- Position `i` of a sequence of length `n` is one of `start, start + step, …` before `stop`. -/
def InSlice (n i : ℕ) (start stop : Option ℤ) (step : ℤ) : Prop :=
  if 0 < step then
    (∃ t : ℕ, (i : ℤ) = max 0 ((start.map (pos n)).getD 0) + t * step) ∧
      ∀ x, stop = some x → (i : ℤ) < pos n x
  else
    (∃ t : ℕ, (i : ℤ) = min ((n : ℤ) - 1) ((start.map (pos n)).getD ((n : ℤ) - 1)) + t * step) ∧
      ∀ x, stop = some x → pos n x < (i : ℤ)

/-- Position `i` is in the range of indices requested (the tuple of one, two or three elements). -/
def IRange.Holds (n i : ℕ) : IRange → Prop
  | .none => True
  | .tuple [stop] => InSlice n i Option.none stop 1
  | .tuple [start, stop] => InSlice n i start stop 1
  | .tuple [start, stop, step] => InSlice n i start stop (step.getD 1)
  | _ => False

/-- The positions kept, in order. -/
noncomputable def kept (m : Multipole) (x : List K) (rr : RRange K) (ir : IRange) : List ℕ := by
  classical
  exact (List.range x.length).filter fun i => decide (rr.Holds m (x.getD i 0) ∧ ir.Holds x.length i)

/-- `w'` holds, for every multipole, exactly the samples of `w` in the ranges requested, in order. -/
def Selected (w w' : Win K) (rr : RRange K) (ir : IRange) : Prop :=
  w'.multipoles = w.multipoles ∧ w'.sources = w.sources ∧
  ∀ m ∈ w.multipoles, ∀ x q g, w.Has m x q g →
    w'.Has m ((kept m x rr ir).map fun i => x.getD i 0)
      ((kept m x rr ir).map fun i => (kept m x rr ir).map fun j => (q.getD i []).getD j 0)
      ((kept m x rr ir).map fun i => (q.getD i []).getD i 0)

/-- A tuple of indices accepted by `slice`, with a non-zero step. -/
def IRange.Valid : IRange → Prop
  | .none => True
  | .tuple [_] => True
  | .tuple [_, _] => True
  | .tuple [_, _, step] => step ≠ some 0
  | _ => False

/-- A range of separations the code handles as documented: the upper bound of a tuple is not zero; a
dictionary is keyed by multipole objects, has both bounds and an entry for every multipole. -/
def RRange.Valid (w : Win K) : RRange K → Prop
  | .none => True
  | .tuple b => b.2 ≠ some 0
  | .dict d => (d.map Prod.fst).Nodup ∧ (∀ m ∈ w.multipoles, Key.mp m ∈ d.map Prod.fst) ∧
      ∀ p ∈ d, (∃ m ∈ w.multipoles, p.1 = .mp m) ∧ (∃ lo hi, p.2 = (some lo, some hi))

end Trv.Wc

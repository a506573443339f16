import Verif.AllProps
import Lean.Elab.Command
import Lean.Util.CollectAxioms
/-
Axiom audit.  Elaborating this file fails if any theorem of the development
(not only the property theorems) depends on an axiom other than the three of
Lean's standard library.
-/
open Lean Elab Command

/-- Check every theorem in namespace `Trv`. -/
elab "#audit_all" : command => do
  let env ← getEnv
  let allowed : List Name := [``propext, ``Classical.choice, ``Quot.sound]
  let mut props : Nat := 0
  let mut total : Nat := 0
  for (n, ci) in env.constants.map₁.toList do
    if (`Trv).isPrefixOf n && !n.isInternal then
      if let .thmInfo _ := ci then
        total := total + 1
        let last := n.getString!
        let isProp := last.length > 4 && last.front == 'C' &&
          ((last.drop 1).take 2).all Char.isDigit
        if isProp then props := props + 1
        let ax ← collectAxioms n
        for a in ax do
          unless allowed.contains a do
            throwError "{n} depends on {a}"
  logInfo m!"audited {total} theorems, {props} property theorems"

#audit_all

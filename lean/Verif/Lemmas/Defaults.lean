import Verif.Model.Defaults
import Mathlib.Tactic.Common
/-
Lemmas on overriding entries of the template of parameters.
-/
set_option linter.unusedSectionVars false
namespace Trv.Par
open Trv.Mon

section
variable {K : Type} [Field K] [LinearOrder K] [FloorRing K]

/-- Entries of a dictionary overridden by the first sampling entries. -/
def over1 (m : Sampling K) (d : Dict K) : Dict K :=
  { d with expand := m.expand.or d.expand, alignment := m.alignment.or d.alignment }

/-- The padding scale chosen by the overrides. -/
def padOver (m : Sampling K) (s : Option String) : Option String :=
  if m.gridpad.isSome then some "grid" else if m.boxpad.isSome then some "box" else s

/-- Entries of a dictionary overridden by the other sampling entries. -/
def over2 (m : Sampling K) (d : Dict K) : Dict K :=
  { d with padscale := padOver m d.padscale, padfactor := m.gridpad.or (m.boxpad.or d.padfactor)
           box := (m.boxsize.map fun (a : Fin 3 → K) (i : Fin 3) => some (a i)).getD d.box
           ngrid := (m.ngrid.map fun (a : Fin 3 → ℤ) (i : Fin 3) => some (a i)).getD d.ngrid
           assignment := m.assignment.or d.assignment, interlace := m.interlace.or d.interlace
           cutoff := m.cutoff.or d.cutoff }

/-- Entries of a dictionary overridden by the measurement entries. -/
def over3 (m : Measure K) (d : Dict K) : Dict K :=
  { d with ell1 := m.ell1.or d.ell1, ell2 := m.ell2.or d.ell2, ELL := m.ELL.or d.ELL
           iWa := m.iWa.or d.iWa, jWa := m.jWa.or d.jWa, idxBin := m.idxBin.or d.idxBin
           form := m.form.or d.form, binMin := m.binMin.or d.binMin, binMax := m.binMax.or d.binMax
           numBins := m.numBins.or d.numBins }

theorem sets_dict : ∀ (l : List (Dict K → Dict K)) (d : Dict K),
    (dictTarget : Target K (Dict K)).sets l d = some (l.foldl (fun d f => f d) d, none)
  | [], d => rfl
  | f :: l, d => by
    unfold Target.sets
    simp only [dictTarget, List.foldl_cons]
    exact sets_dict l (f d)

theorem foldl_edit {α : Type} (o : Option α) (f : α → Dict K → Dict K) (d : Dict K) :
    (edit o f).foldl (fun d g => g d) d = o.elim d fun a => f a d := by
  cases o <;> rfl

theorem sampling1_dict (m : Sampling K) (d : Dict K) :
    (sampling1 m).foldl (fun d f => f d) d = over1 m d := by
  unfold sampling1 over1
  rw [List.foldl_append, foldl_edit, foldl_edit]
  cases m.expand <;> cases m.alignment <;> rfl

theorem sampling2_dict (m : Sampling K) (d : Dict K) :
    (sampling2 m).foldl (fun d f => f d) d = over2 m d := by
  unfold sampling2 over2 padOver
  simp only [List.foldl_append, foldl_edit]
  obtain ⟨me, ma, mb, mg, mbox, mng, mas, mi, mc⟩ := m
  obtain ⟨⟩ := d
  cases mb <;> cases mg <;> cases mbox <;> cases mng <;> cases mas <;> cases mi <;> cases mc <;> rfl

theorem modifySampling_dict (m : Sampling K) (d : Dict K) : modifySampling dictTarget m d =
    if (over1 m d).alignment = some "pad" ∧ m.boxpad.isSome ∧ m.gridpad.isSome then
      some (over1 m d, some .valueError) else some (over2 m (over1 m d), none) := by
  unfold modifySampling
  rw [sets_dict, sampling1_dict]
  simp only [sets_dict, sampling2_dict]
  rfl

theorem modifyMeasure_dict (m : Measure K) (d : Dict K) : modifyMeasure dictTarget m d =
    some (over3 m d, none) := by
  unfold modifyMeasure
  simp only [sets_dict]
  simp only [List.foldl_append, foldl_edit]
  unfold dictTarget measureNested measureRange over3
  simp only
  cases m.idxBin <;> cases m.form <;> cases m.numBins <;> rfl

theorem mem_pops {keys : List Str} {l : List (Str × YVal K)} {p : Str × YVal K} :
    p ∈ pops keys l ↔ p ∈ l ∧ p.1 ∉ keys := by
  unfold pops
  rw [List.mem_filter]
  simp

/-- The defaults of the template. -/
def scalars : List (Str × YVal K) :=
  [("expand".toList, .num 1), ("alignment".toList, .text "centre".toList),
   ("padscale".toList, .text "box".toList), ("assignment".toList, .text "tsc".toList),
   ("interlace".toList, .text "False".toList), ("form".toList, .text "diag".toList),
   ("norm_convention".toList, .text "particle".toList), ("binning".toList, .text "lin".toList),
   ("fftw_scheme".toList, .text "measure".toList), ("use_fftw_wisdom".toList, .text "False".toList),
   ("save_binned_vectors".toList, .text "False".toList), ("verbose".toList, .int 20),
   ("progbar".toList, .text "False".toList)]

theorem defaults_template : defaultsOf (templateItems : List (Str × YVal K)) = scalars := rfl

end

end Trv.Par

import Verif.Model.Catalogue
/-
Model of what the Python measurement functions do to the catalogues they are given,
and of what they hand over to the C++ algorithms:
`src/triumvirate/twopt.py:435-545`, `:985-1062`, `:1440-1490` and
`src/triumvirate/threept.py:515-615`, `:1430-1507`, `:1960-2005`.

Simplifications: the box size and mesh numbers are given (they are never derived
successfully, C28); the values of `alignment` and `padscale` are those admitted by the
validation of the parameters; the measurement proper, which reads only what is handed
over, is left out.
-/
namespace Trv.Cat

variable {ι : Type} [DecidableEq ι]

/-- The alignment options of a parameter set (`parameters.py`, `alignment`, `padscale`,
`padfactor`). -/
inductive PyAlign
  | centre
  | padBox (factor : ℝ)
  | padGrid (factor : ℝ)

/-- `twopt.py:489-505`, `threept.py:566-582`: aligning the data catalogue with the random
catalogue as the reference. -/
noncomputable def alignPy (σ : Store ι ℝ) (data rand : ι) (L : V3 ℝ) (ngrid : Fin 3 → ℕ) :
    PyAlign → Except PyErr (Store ι ℝ)
  | .centre => Cat.centre σ data L (some rand)
  | .padBox f => Cat.pad σ data L none (some (.num f)) none (some rand)
  | .padGrid f => Cat.pad σ data L (some ngrid) none (some (.num f)) (some rand)

/-- The columns handed over by `_convert_to_cpp_catalogue` (`catalogue.py:760-782`). -/
structure Sent where
  pos : Fin 3 → List ℝ
  nz : List ℝ
  ws : List ℝ
  wc : List ℝ

/-- `catalogue.py:760-782`: the columns are copied. -/
def PyCat.sent (c : PyCat ℝ) : Sent := ⟨c.pos, c.nz, c.ws, c.wc⟩

/-- What is handed over to the C++ algorithm: catalogues and lines of sight. -/
structure Feed where
  cats : List Sent
  los : List (List (V3 ℝ))

/-- A call of a measurement function. -/
inductive Meas (ι : Type)
  /-- `_compute_2pt_stats_survey_like` and `_compute_3pt_stats_survey_like`. -/
  | survey (data rand : ι) (losData losRand : Option (List (V3 ℝ))) (L : V3 ℝ)
      (ngrid : Fin 3 → ℕ) (align : PyAlign)
  /-- `_compute_2pt_stats_sim_like` and `_compute_3pt_stats_sim_like`. -/
  | sim (data : ι) (L : V3 ℝ)
  /-- `compute_corrfunc_window` and `compute_3pcf_window`. -/
  | window (rand : ι) (losRand : Option (List (V3 ℝ))) (L : V3 ℝ)

/-- `twopt.py:1038-1042`, `threept.py:1482-1486`: a density column of zeros is replaced. -/
noncomputable def insertDensity (c : PyCat ℝ) (L : V3 ℝ) : Except PyErr (PyCat ℝ) :=
  if ∀ z ∈ c.nz, z = 0 then c.meanDensity none (some L) else .ok c

/-- One call: the catalogues afterwards, and what is handed over. -/
noncomputable def Meas.run (σ : Store ι ℝ) : Meas ι → Except PyErr (Store ι ℝ × Feed)
  | .survey data rand losData losRand L ngrid align => do
      -- `twopt.py:447-451`, `threept.py:524-528`
      let ld := losData.getD (computeLos (σ data))
      let lr := losRand.getD (computeLos (σ rand))
      let σ ← alignPy σ data rand L ngrid align
      .ok (σ, ⟨[(σ data).sent, (σ rand).sent], [ld, lr]⟩)
  | .sim data L => do
      -- `twopt.py:1023-1042`, `threept.py:1467-1486`
      let c ← (σ data).periodise L
      let c ← insertDensity c L
      .ok (Function.update σ data c, ⟨[c.sent], []⟩)
  | .window rand losRand L => do
      -- `twopt.py:1453-1471`, `threept.py:1969-1987`
      let lr := losRand.getD (computeLos (σ rand))
      let σ ← Cat.centre σ rand L none
      let c ← (σ rand).periodise L
      .ok (Function.update σ rand c, ⟨[c.sent], [lr]⟩)

/-- The catalogues after a sequence of calls. -/
noncomputable def Meas.after (σ : Store ι ℝ) : List (Meas ι) → Except PyErr (Store ι ℝ)
  | [] => .ok σ
  | m :: ms => do
      let r ← m.run σ
      Meas.after r.1 ms

end Trv.Cat

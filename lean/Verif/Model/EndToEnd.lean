import Verif.Model.OptionCase
import Verif.Model.Program
/-
Model of a survey measurement and of a window measurement from the catalogues in memory to the file: by the
program (`main/triumvirate.cpp:334-400, 411-485, 499-790`), and by the Python functions
(`twopt.py:446-665, 1452-1570`, `threept.py:523-740, 1968-2090`).

Simplifications: the C++ functions which both call (normalisation factors and the algorithm) are given
functions of what they read; they read all of a C++ catalogue but the name of its source, which only the
headers of files show.  The text of the Python source of a catalogue is given.  Entries of the dictionary which
are not set are read as default values (the theorems require that they be set).  The names of the files are
the subject of C116-C118.
-/
namespace Trv.E2E

open Trv Trv.Par Trv.Mon Trv.Cat Trv.Prog Trv.Out

/-- A C++ catalogue without the name of its source. -/
def bare (c : CppCat ℝ) : CppCat ℝ := { c with source := "" }

/-- The C++ functions called by the program and by the Python functions: the normalisation factors
(`triumvirate.cpp:515-547`, `twopt.py:553-562`, `threept.py:630-636`) of data and random catalogues, parameters
and alpha contrast, and the algorithm, with the catalogues, the lines of sight, the parameters and the
normalisation factor; it returns the results and their dimension. -/
structure Kern where
  norms : CppCat ℝ → CppCat ℝ → Params ℝ → ℝ → Except CppErr Norms
  compute : CppCat ℝ → CppCat ℝ → List (V3 ℝ) → List (V3 ℝ) → Params ℝ → ℝ → Except CppErr (Res × ℕ)

/-- What the header reads of C++ parameters (`io.cpp:148-209`). -/
def hpCpp (c : Params ℝ) : HP :=
  { p := { stat := c.statType, form := c.form, ell1 := c.ell1, ell2 := c.ell2, ELL := c.ELL, iWa := c.iWa,
           jWa := c.jWa, idxBin := some c.idxBin, tag := some c.tag }
    npoint := c.npoint
    space := c.space
    box := c.box
    alignment := c.alignment.toList
    ngrid := c.ngrid
    assignment := c.assignment.toList
    interlace := decide (c.interlace = "true")
    conv := c.norm }

/-- What the header reads of the Python dictionary (`twopt.py:205-272`). -/
def hpPy (d : Dict ℝ) : HP :=
  { p := nameEntries d
    npoint := d.npoint.getD ""
    space := d.space.getD ""
    box := fun i => (d.box i).getD 0
    alignment := (d.alignment.getD "").toList
    ngrid := fun i => (d.ngrid i).getD 0
    assignment := (d.assignment.getD "").toList
    interlace := decide (d.interlace.map Par.lower = some "true")
    conv := d.norm.getD "" }

/-- What the header reads of a C++ catalogue (`io.cpp:108-146`). -/
def infoCpp (c : CppCat ℝ) : CatInfo :=
  ⟨c.source.toList, c.ntotal, c.wtotal, c.wstotal, c.posMin, c.posMax⟩

/-- What the header reads of a Python catalogue (`catalogue.py:820-861`). -/
def infoPy (source : Str) (c : PyCat ℝ) : CatInfo :=
  ⟨source, c.ntotal, c.wtotal, c.wstotal, fun i => (c.bounds i).1, fun i => (c.bounds i).2⟩

/-- `triumvirate.cpp:334-790`: the file of a survey measurement. -/
noncomputable def program (F : Fmt) (f3 : ℝ → Str) (A : Kern) (σ : CStore Which ℝ) (p : Params ℝ) :
    Except CppErr (List Str) := do
  let ld := losOf los (σ .data)
  let lr := losOf los (σ .rand)
  let σ ← alignCats σ p
  let alpha := (σ .data).wstotal / (σ .rand).wstotal
  let n ← A.norms (bare (σ .data)) (bare (σ .rand)) p alpha
  let k := Out.Kind.survey (infoCpp (σ .data)) (infoCpp (σ .rand))
  let r ← A.compute (bare (σ .data)) (bare (σ .rand)) ld lr p (cppUsed (hpCpp p) (cppNorms k (hpCpp p) n))
  .ok (cppSaved F f3 k (hpCpp p) n r.2 fun _ => r.1)

/-- Failures of Python functions: their own exceptions, and those of C++ (how these appear is the subject of C151). -/
inductive Fault
  | py (e : PyErr)
  | cpp (e : CppErr)

def ofPy {α : Type} : Except PyErr α → Except Fault α
  | .ok a => .ok a
  | .error x => .error (.py x)

def ofCpp {α : Type} : Except CppErr α → Except Fault α
  | .ok a => .ok a
  | .error x => .error (.cpp x)

/-- `_particles.pyx:16-50`, `particles.cpp:512-563`: the columns in a new C++ catalogue. -/
noncomputable def toCpp (s : Sent) : Except CppErr (CppCat ℝ) :=
  match World.loadData { cats := fun _ : Unit => noCat, mem := 0, maxmem := 0 } () (s.pos 0) (s.pos 1) (s.pos 2)
    s.nz s.ws s.wc with
  | .ok w => .ok (w.cats ())
  | .error x => .error x

variable {ι : Type} [DecidableEq ι]

/-- `twopt.py:446-665`, `threept.py:523-740`: the text file of a survey measurement. -/
noncomputable def python (F : Fmt) (f3 : ℝ → Str) (A : Kern) (three : Bool) (src : ι → Str) (τ : Cat.Store ι ℝ)
    (data rand : ι) (s : PySet ℝ) : Except Fault (List Str) := do
  let x ← ofPy (surveyRun τ data rand none none (fun i => (s.d.box i).getD 0)
    (fun i => ((s.d.ngrid i).getD 0).toNat) s.d)
  let τ := x.1
  match x.2.cats, x.2.los with
  | [sd, sr], [ld, lr] => do
    let cd ← ofCpp (toCpp sd)
    let cr ← ofCpp (toCpp sr)
    let alpha := (τ data).wstotal / (τ rand).wstotal
    let n ← ofCpp (A.norms (bare cd) (bare cr) s.c alpha)
    let k := Out.Kind.survey (infoPy (src data) (τ data)) (infoPy (src rand) (τ rand))
    let f ← ofPy (factorOf k s.d (pyNorms k three n))
    let r ← ofCpp (A.compute (bare cd) (bare cr) ld lr s.c f)
    ofPy (pySaved F f3 k three (hpPy s.d) n fun _ => r.1)
  | _, _ => .error (.py .valueError)

/-! ### Windows -/

/-- The C++ functions called for a window by both, with the alpha contrast one
(`triumvirate.cpp:499-504, 515-547`, `twopt.py:1486-1494`, `threept.py:2002-2010`). -/
structure WinKern where
  norms : CppCat ℝ → Params ℝ → Except CppErr Norms
  compute : CppCat ℝ → List (V3 ℝ) → Params ℝ → ℝ → Except CppErr (Res × ℕ)

/-- `triumvirate.cpp:334-790`: the file of a window measurement. -/
noncomputable def programWin (F : Fmt) (f3 : ℝ → Str) (A : WinKern) (σ : CStore Which ℝ) (p : Params ℝ) :
    Except CppErr (List Str) := do
  let lr := losOf los (σ .rand)
  let σ ← alignCats σ p
  let n ← A.norms (bare (σ .rand)) p
  let k := Out.Kind.window (infoCpp (σ .rand))
  let r ← A.compute (bare (σ .rand)) lr p (cppUsed (hpCpp p) (cppNorms k (hpCpp p) n))
  .ok (cppSaved F f3 k (hpCpp p) n r.2 fun _ => r.1)

/-- `twopt.py:1452-1570`, `threept.py:1968-2090`: the text file of a window measurement. -/
noncomputable def pythonWin (F : Fmt) (f3 : ℝ → Str) (A : WinKern) (three : Bool) (src : ι → Str) (τ : Cat.Store ι ℝ)
    (rand : ι) (s : PySet ℝ) : Except Fault (List Str) := do
  let x ← ofPy ((Meas.window rand none fun i => (s.d.box i).getD 0).run τ)
  let τ := x.1
  match x.2.cats, x.2.los with
  | [sr], [lr] => do
    let cr ← ofCpp (toCpp sr)
    let n ← ofCpp (A.norms (bare cr) s.c)
    let k := Out.Kind.window (infoPy (src rand) (τ rand))
    let f ← ofPy (factorOf k s.d (pyNorms k three n))
    let r ← ofCpp (A.compute (bare cr) lr s.c f)
    ofPy (pySaved F f3 k three (hpPy s.d) n fun _ => r.1)
  | _, _ => .error (.py .valueError)

end Trv.E2E

import Verif.Model.Layout
import Verif.Model.Monitor
/-
Model of the progress bar of the three-point measurements: the transforms counted and the
updates of the bar, in program order (`/repo/src/triumvirate/src/threept.cpp`).
-/
namespace Trv.Prg
open Trv Trv.ThreePt Trv.Mon

/-- The five three-point measurements that are compiled (`threept.cpp:247, 1014, 1473, 2190,
2621`; the wide-angle routine from 3079 is commented out). -/
inductive Routine
  | bispec | zeta | bispecBox | zetaBox | window
  deriving DecidableEq, Repr

/-- A statement that matters to the bar: a call that counts forward transforms
(`fourier_transform`), one that counts an inverse transform, or a call of `update_progbar`. -/
inductive Step
  | forward | inverse | update
  deriving DecidableEq, Repr

/-- The transforms counted by a statement: `field.cpp:1557` and, for the shadow mesh of
interlacing, `field.cpp:1613`; `field.cpp:1719, 1894, 2009, 3090, 3345` for the inverse ones. -/
def Step.count (il : Bool) : Step → ℤ
  | .forward => if il then 2 else 1
  | .inverse => 1
  | .update => 0

/-- `threept.cpp:465-739` (bispectrum, 1675-1940 in a box): the band-limited inverse transforms.
In the row form the first field is transformed once, before the loop (595, 1797). -/
def bandSteps (n : ℤ) : Form → List Step
  | .row b => .inverse :: (upto 0 (dim n (.row b))).flatMap fun _ => [.inverse, .update]
  | f => (measWrites n f).flatMap fun _ => [.inverse, .inverse, .update]

/-- `threept.cpp:950-960, 2126-2136`: the shot noise of each entry. -/
def noiseSteps (n : ℤ) (f : Form) : List Step :=
  (upto 0 (dim n f)).flatMap fun _ => [.inverse, .update]

/-- `threept.cpp:1387-1397, 2535-2545, 2991-3002`: the inverse transforms weighted by spherical
Bessel functions. -/
def besselSteps (n : ℤ) (f : Form) : List Step :=
  (upto 0 (dim n f)).flatMap fun _ => [.inverse, .inverse, .update]

/-- One term (a triplet of orders) of a measurement, in program order. -/
def termSteps (n : ℤ) (f : Form) : Routine → List Step
  -- `threept.cpp:457-460`, 465-731, 784-792, 950-959
  | .bispec => [.forward, .inverse, .update] ++ (bandSteps n f ++
      ([.forward, .forward, .update] ++ noiseSteps n f))
  -- `threept.cpp:1223-1234`, 1379-1382, 1387-1397
  | .zeta => [.forward, .update, .inverse, .update, .forward, .inverse, .update] ++ besselSteps n f
  -- `threept.cpp:1667-1670`, 1675-1929, 2126-2135
  | .bispecBox => [.forward, .inverse, .update] ++ (bandSteps n f ++ noiseSteps n f)
  -- `threept.cpp:2383-2386`, 2527-2530, 2535-2545
  | .zetaBox => [.inverse, .update, .forward, .inverse, .update] ++ besselSteps n f
  -- `threept.cpp:2825-2835`, 2978-2981, 2991-3002
  | .window => [.forward, .update, .inverse, .update, .forward, .inverse, .update] ++ besselSteps n f

/-- `threept.cpp:422, 1186, 1636, 2348, 2789`: `progbar_task_count`. -/
def taskCount (n : ℤ) (f : Form) : Routine → ℤ
  | .bispec => 4 + 3 * dim n f
  | .zeta => 4 + 2 * dim n f
  | .bispecBox => 2 + 3 * dim n f
  | .zetaBox => 3 + 2 * dim n f
  | .window => 4 + 2 * dim n f

/-- The values of `params.progbar`: `"false"`, `"true"`, a number, or other text. -/
inductive Switch (K : Type)
  | off | on | every (x : K) | other

section field
variable {K : Type} [Field K] [LinearOrder K]

/-- `threept.cpp:428-434` (repeated in each routine) with `monitor.cpp:649-676`: the nodes asked
for; none for the plain switches.  The outer `none` is that the fuel of the loop runs out. -/
def nodesFor (fuel : ℕ) : Switch K → Option (Except CppErr (List K))
  | .off => some (.ok [])
  | .on => some (.ok [])
  | .every x =>
    match nodesByInterval fuel x with
    | .error e => some (.error e)
    | .ok none => none
    | .ok (some l) => some (.ok l)
  | .other => some (.error .invalidParameter)

/-- Whether `update_progbar` does anything (`threept.cpp:437-445`): the bar is switched on and
the task is the root one. -/
def live (sw : Switch K) (root : Bool) : Bool :=
  match sw with
  | .off => false
  | _ => root

/-- The statements of a term: `init` is `count_fft_init`, `c` the transforms counted so far;
`update(int)` is `monitor.cpp:579-583`. -/
def runSteps (il lv : Bool) (init : ℤ) : List Step → ℤ → Bar K → Except CppErr (ℤ × Bar K)
  | [], c, b => .ok (c, b)
  | s :: S, c, b =>
    if s = .update then
      if lv then do
        let r ← Bar.update { b with taskIdx := c - init } (((c - init : ℤ) : K) / (b.taskCount : K))
        runSteps il lv init S c r.1
      else runSteps il lv init S c b
    else runSteps il lv init S (c + s.count il) b

/-- One term: the bar is set up (`threept.cpp:421-436`) and the statements are run. -/
def runTerm (r : Routine) (n : ℤ) (f : Form) (il lv : Bool) (nodes : Except CppErr (List K))
    (c : ℤ) : Except CppErr (ℤ × Bar K) := do
  let b ← Bar.new (taskCount n f r)
  let l ← nodes
  let b ← if 0 < l.length then b.setNodes l else .ok b
  runSteps il lv c (termSteps n f r) c b

/-- The terms of a measurement, with the bars as they are left. -/
def runTerms (r : Routine) (n : ℤ) (f : Form) (il lv : Bool) (nodes : Except CppErr (List K)) :
    ℕ → ℤ → Except CppErr (ℤ × List (Bar K))
  | 0, c => .ok (c, [])
  | t + 1, c => do
    let x ← runTerm r n f il lv nodes c
    let y ← runTerms r n f il lv nodes t x.1
    .ok (y.1, x.2 :: y.2)

/-- The loop over the terms of a measurement, `t` of them, from a count of transforms `c`
(the transforms before the loop are in `c`). -/
def measure (fuel : ℕ) (r : Routine) (n : ℤ) (f : Form) (il : Bool) (sw : Switch K) (root : Bool)
    (t : ℕ) (c : ℤ) : Option (Except CppErr (ℤ × List (Bar K))) :=
  (nodesFor fuel sw).map fun nodes => runTerms r n f il (live sw root) nodes t c

end field
end Trv.Prg

import Verif.Model.Common
import Mathlib.Algebra.Order.Field.Basic
import Mathlib.Algebra.Order.Floor.Ring
/-
Model of the string, time, logging and progress helpers in `src/monitor.cpp`.
Strings are lists of characters; `float` is replaced by an ordered field.
-/
namespace Trv.Mon

section strings
variable {α : Type} [DecidableEq α]

/-- `std::string::find`: the first position at which `d` occurs. -/
def find (d : List α) : List α → Option ℕ
  | [] => if d = [] then some 0 else none
  | c :: t => if d.isPrefixOf (c :: t) then some 0 else (find d t).map (· + 1)

/-- `std::string::rfind`: the last position at which `d` occurs. -/
def rfind (d : List α) : List α → Option ℕ
  | [] => if d = [] then some 0 else none
  | c :: t => match rfind d t with
      | some i => some (i + 1)
      | none => if d.isPrefixOf (c :: t) then some 0 else none

/-- `monitor.cpp:38-43`: `has_extension`. -/
def hasExtension (fname fext : List α) : Bool :=
  if fext.length ≤ fname.length then rfind fext fname == some (fname.length - fext.length) else false

/-- `monitor.cpp:45-57`: `join_strings`. -/
def join (d : List α) : List (List α) → List α
  | [] => []
  | [s] => s
  | s :: t :: l => s ++ d ++ join d (t :: l)

theorem find_lt {d s : List α} {i : ℕ} (h : find d s = some i) : i + d.length ≤ s.length := by
  induction s generalizing i with
  | nil =>
    unfold find at h
    split_ifs at h with hd
    cases h; simp [hd]
  | cons c t ih =>
    unfold find at h
    split_ifs at h with hp
    · cases h
      have := (List.isPrefixOf_iff_prefix.1 hp).length_le
      omega
    · obtain ⟨j, hj, rfl⟩ := Option.map_eq_some_iff.1 h
      have := ih hj
      simp only [List.length_cons]
      omega

/-- `monitor.cpp:75-83` (also `parameters.cpp:519-529`): the loop of
`split_string`, giving the pieces cut off and what is left. -/
def splitLoop (d : List α) (hd : d ≠ []) (s : List α) : List (List α) × List α :=
  match h : find d s with
  | none => ([], s)
  | some i =>
    let r := splitLoop d hd (s.drop (i + d.length))
    (s.take i :: r.1, r.2)
termination_by s.length
decreasing_by
  have h1 := find_lt h
  have h2 : 0 < d.length := List.length_pos_iff.2 hd
  simp only [List.length_drop]
  omega

/-- `monitor.cpp:59-85`: `split_string`. -/
def split (s d : List α) : List (List α) :=
  if s = [] then []
  else if hd : d = [] then [s]
  else
    let r := splitLoop d hd s
    if r.2 = [] then r.1 else r.1 ++ [r.2]

end strings

/-- `monitor.cpp:1012-1037`: one step of `expand_envar_in_path`, at a position:
the variable name and the text after, if `\$\{([^}]+)\}` matches here. -/
def matchVar (s : List Char) : Option (List Char × List Char) :=
  match s with
  | '$' :: '{' :: t =>
    let name := t.takeWhile (· ≠ '}')
    match t.dropWhile (· ≠ '}') with
    | [] => none
    | _ :: rest => if name = [] then none else some (name, rest)
  | _ => none

theorem matchVar_length {s name rest : List Char} (h : matchVar s = some (name, rest)) :
    rest.length < s.length := by
  unfold matchVar at h
  split at h
  · rename_i t
    have hl := (List.dropWhile_suffix (l := t) (fun c => decide (c ≠ '}'))).length_le
    simp only at h
    split at h
    · cases h
    · rename_i x r hd
      rw [hd] at hl
      simp only [List.length_cons] at hl
      split_ifs at h
      cases h
      simp only [List.length_cons]
      omega
  · cases h

/-- `monitor.cpp:1012-1037`: `expand_envar_in_path`: replace the set variables, keep
the unset ones, and continue after the replacement. -/
def expandVars (env : List Char → Option (List Char)) (s : List Char) : List Char :=
  match h : matchVar s with
  | some (name, rest) =>
    have : rest.length < s.length := matchVar_length h
    (match env name with
      | some v => v
      | none => '$' :: '{' :: (name ++ ['}'])) ++ expandVars env rest
  | none => match s with
      | [] => []
      | c :: t => c :: expandVars env t
termination_by s.length

/-! ### Elapsed time -/

/-- `std::to_string` of an `int`. -/
def toStr (n : ℤ) : List Char :=
  if n < 0 then '-' :: Nat.toDigits 10 n.natAbs else Nat.toDigits 10 n.toNat

/-- `std::string(2 - s.length(), '0') + s`: for a longer string the count wraps round
to a huge unsigned number and the constructor throws `std::length_error`. -/
def pad2 (s : List Char) : Except CppErr (List Char) :=
  if s.length ≤ 2 then .ok (List.replicate (2 - s.length) '0' ++ s) else .error .invalidParameter

/-- `monitor.cpp:212-236`: `show_elapsed_time` after the truncation to whole seconds. -/
def showTime (time : ℤ) : Except CppErr (List Char) := do
  let h := toStr (time.tdiv 3600)
  let m := toStr ((time.tmod 3600).tdiv 60)
  let s := toStr (time.tmod 60)
  let hh := if h.length < 2 then List.replicate (2 - h.length) '0' ++ h else h
  let mm ← pad2 m
  let ss ← pad2 s
  .ok (hh ++ [':'] ++ mm ++ [':'] ++ ss)

section field
variable {K : Type} [Field K] [LinearOrder K] [IsStrictOrderedRing K] [FloorRing K]

/-- `int(x)`: truncation towards zero. -/
def truncK (x : K) : ℤ := if 0 ≤ x then ⌊x⌋ else ⌈x⌉

/-- `monitor.cpp:212-236`: `show_elapsed_time`. -/
def showElapsed (x : K) : Except CppErr (List Char) := showTime (truncK x)

/-- Python's `f"{n:02d}"`. -/
def fmt02 (n : ℤ) : List Char :=
  if (toStr n).length < 2 then List.replicate (2 - (toStr n).length) '0' ++ toStr n else toStr n

/-- `logger.py:53-58`: the elapsed time in the Python log records, without the
enclosing `(+…)`; `divmod` floors. -/
def pyElapsed (x : K) : List Char :=
  let h := ⌊x / 3600⌋
  let rem := x - 3600 * (h : K)
  let m := ⌊rem / 60⌋
  let s := rem - 60 * (m : K)
  fmt02 h ++ [':'] ++ fmt02 m ++ [':'] ++ fmt02 (truncK s)

/-! ### Progress bar -/

/-- `monitor.hpp:583-658`: the state of a progress bar (without the parts only used
for printing). -/
structure Bar (K : Type) where
  taskCount : ℤ
  taskIdx : ℤ
  progress : K
  nodes : List K
  next : ℕ

/-- `monitor.cpp:644-648`: `set_default_pcpt_nodes`: `resize(101, 0.)` and then
`push_back` 101 times. -/
def defaultNodes : List K :=
  List.replicate 101 0 ++ (List.range 101).map fun k : ℕ => (k : K) / 100

/-- `monitor.cpp:524-535`: the constructor. -/
def Bar.new (taskCount : ℤ) : Except CppErr (Bar K) :=
  if taskCount < 1 then .error .invalidParameter
  else .ok { taskCount := taskCount, taskIdx := 0, progress := 0, nodes := defaultNodes, next := 0 }

/-- `monitor.cpp:544-551`: `set_nodes`. -/
def Bar.setNodes (b : Bar K) (nodes : List K) : Except CppErr (Bar K) :=
  if nodes.length < 1 then .error .invalidParameter else .ok { b with nodes := nodes }

/-- `monitor.cpp:573-576`: the search for the next node; running off the nodes is
`outOfBounds`. -/
def nextNode (p : K) : List K → Except CppErr ℕ
  | [] => .error .outOfBounds
  | x :: l => if x < p then (nextNode p l).map (· + 1) else .ok 0

/-- `monitor.cpp:566-577`: `set_progress`. -/
def Bar.setProgress (b : Bar K) (p : K) : Except CppErr (Bar K) :=
  if p < 0 ∨ 1 < p then .error .invalidParameter
  else do
    let i ← nextNode p b.nodes
    .ok { b with progress := p, next := i }

/-- `monitor.cpp:553-564`: `set_task_idx`. -/
def Bar.setTaskIdx (b : Bar K) (i : ℤ) : Except CppErr (Bar K) :=
  if i < 0 ∨ b.taskCount < i then .error .invalidParameter
  else Bar.setProgress { b with taskIdx := i } ((i : K) / (b.taskCount : K))

/-- `monitor.cpp:585-642`: `update(float)`; the flag tells whether a line is printed. -/
def Bar.update (b : Bar K) (p : K) : Except CppErr (Bar K × Bool) :=
  let b := { b with progress := p }
  if p ≤ 1 then
    match b.nodes[b.next]? with
    | none => .error .outOfBounds
    | some x => if x ≤ p then .ok ({ b with next := b.next + 1 }, true) else .ok (b, false)
  else .error .invalidData

/-- A sequence of updates. -/
def Bar.updates (b : Bar K) : List K → Except CppErr (Bar K)
  | [] => .ok b
  | p :: ps => do
      let r ← b.update p
      Bar.updates r.1 ps

/-- `monitor.cpp:665-673`: the loop of `set_nodes_by_str`, from the last node; `fuel`
bounds the number of turns. -/
def nodesLoop (interval : K) : ℕ → K → Option (List K)
  | 0, _ => none
  | fuel + 1, back =>
    if back < 1 then
      if back + interval < 1 then (nodesLoop interval fuel (back + interval)).map (back :: ·)
      else (nodesLoop interval fuel 1).map (back :: ·)
    else some [back]

/-- `monitor.cpp:649-676`: `set_nodes_by_str` for a numerical string; `none` when the
fuel runs out. -/
def nodesByInterval (fuel : ℕ) (interval : K) : Except CppErr (Option (List K)) :=
  if ¬ (0 < interval ∧ interval < 100) then .error .invalidParameter
  else .ok (nodesLoop (interval / 100) fuel (interval / 100))

end field

/-! ### Logging -/

/-- `monitor.hpp:435-443`: `LogLevel`. -/
inductive LogLevel
  | nset | dbug | stat | info | warn | erro
  deriving DecidableEq, Repr

/-- The numerical values of the levels. -/
def LogLevel.val : LogLevel → ℤ
  | .nset => 0
  | .dbug => 10
  | .stat => 20
  | .info => 30
  | .warn => 40
  | .erro => 50

/-- The `switch` of `Logger::log`. -/
def LogLevel.ofVal (n : ℤ) : Option LogLevel :=
  [LogLevel.nset, .dbug, .stat, .info, .warn, .erro].find? fun l => l.val == n

/-- `monitor.cpp:377-439`: `Logger::log`: the label under which a message of the given
level is printed; `none` if it is below the limit. -/
def log (limit entry : ℤ) : Except CppErr (Option LogLevel) :=
  if limit ≤ entry then
    match LogLevel.ofVal (entry.tdiv 10) with
    | some l => .ok (some l)
    | none => .error .invalidParameter
  else .ok none

/-! ### Build date -/

/-- A date and time. -/
structure DateTime where
  year : ℤ
  month : ℤ
  day : ℤ
  hour : ℤ
  minute : ℤ
  deriving DecidableEq, Repr

/-- `monitor.cpp:812-833`: the conversion of the build time to UTC in
`get_build_datetime`, for a time zone offset in hours and minutes (of one sign). -/
def toUtc (t : DateTime) (hr mn : ℤ) : DateTime :=
  let hour := t.hour - hr
  let minute := t.minute - mn
  let (minute, hour) :=
    if minute < 0 then (minute + 60, hour - 1)
    else if 60 ≤ minute then (minute - 60, hour + 1) else (minute, hour)
  let (hour, day) :=
    if hour < 0 then (hour + 24, t.day - 1)
    else if 24 ≤ hour then (hour - 24, t.day + 1) else (hour, t.day)
  { t with day := day, hour := hour, minute := minute }

end Trv.Mon

import Verif.Model.Params
/-
Model of reading and writing parameter files: `src/parameters.cpp:95-463, 1271-1366`.
A file is its list of lines.  `sscanf` is modelled by splitting at white space; the library's
number parsing and formatting are parameters of the model.
-/
set_option linter.unusedSectionVars false
namespace Trv.Par
open Trv.Mon

/-- `isspace`. -/
def ws (c : Char) : Bool :=
  c = ' ' ∨ c = '\t' ∨ c = '\n' ∨ c = '\r' ∨ c = '\x0b' ∨ c = '\x0c'

/-- The text between white space characters, with empty pieces. -/
def pieces : Str → List Str
  | [] => [[]]
  | c :: s =>
    if ws c then [] :: pieces s
    else match pieces s with
      | [] => [[c]]
      | p :: l => (c :: p) :: l

/-- The white-space separated words of a line, as `%s` conversions find them. -/
def words (s : Str) : List Str := (pieces s).filter (· ≠ [])

/-- How a parameter is scanned: a word into a buffer of the given size, with (`%1023s`) or
without (`%s`) a limit, or a number. -/
inductive Kind
  | str (size : ℕ) (limit : Bool)
  | num
  | int
deriving DecidableEq

/-- `parameters.cpp:111-133, 170-342`: the parameters looked for in each line, in order,
with their buffers. -/
def fileNames : List (Str × Kind) :=
  [("catalogue_dir".toList, .str 1024 false), ("measurement_dir".toList, .str 1024 false),
   ("data_catalogue_file".toList, .str 262144 false),
   ("rand_catalogue_file".toList, .str 262144 false),
   ("catalogue_columns".toList, .str 1024 false), ("catalogue_dataset".toList, .str 1024 false),
   ("output_tag".toList, .str 1024 false),
   ("boxsize_x".toList, .num), ("boxsize_y".toList, .num), ("boxsize_z".toList, .num),
   ("ngrid_x".toList, .int), ("ngrid_y".toList, .int), ("ngrid_z".toList, .int),
   ("expand".toList, .num), ("alignment".toList, .str 16 true), ("padscale".toList, .str 16 true),
   ("padfactor".toList, .num), ("assignment".toList, .str 16 true),
   ("interlace".toList, .str 16 true), ("catalogue_type".toList, .str 16 true),
   ("statistic_type".toList, .str 16 true), ("form".toList, .str 16 true),
   ("norm_convention".toList, .str 16 true), ("binning".toList, .str 16 true),
   ("ell1".toList, .int), ("ell2".toList, .int), ("ELL".toList, .int), ("i_wa".toList, .int),
   ("j_wa".toList, .int), ("bin_min".toList, .num), ("bin_max".toList, .num),
   ("num_bins".toList, .int), ("idx_bin".toList, .int), ("cutoff_nyq".toList, .num),
   ("fftw_scheme".toList, .str 16 true), ("use_fftw_wisdom".toList, .str 1024 true),
   ("save_binned_vectors".toList, .str 1024 true), ("progbar".toList, .str 16 true),
   ("verbose".toList, .int)]

/-- The values scanned so far, as text. -/
abbrev Store := Str → Option Str

/-- Number parsing: what `%lg` and `%d` make of a word, if they accept it. -/
structure Parse (K : Type) where
  num : Str → Option K
  int : Str → Option ℤ

section
variable {K : Type}

/-- Scan the value word into one parameter: a word longer than the buffer is written past
its end; a number which is not accepted leaves the old value. -/
def scanInto (ps : Parse K) (st : Store) (n : Str) (k : Kind) (v : Str) : Except CppErr Store :=
  match k with
  | .str size limit =>
    let v := if limit then v.take 1023 else v
    if v.length < size then .ok (Function.update st n (some v)) else .error .undefined
  | .num => .ok (if (ps.num v).isSome then Function.update st n (some v) else st)
  | .int => .ok (if (ps.int v).isSome then Function.update st n (some v) else st)

/-- `parameters.cpp:157-163`: `line_str.find(par_name) != npos`. -/
def mentions (line n : Str) : Bool := (find n line).isSome

/-- All parameters mentioned in a line are given its third word. -/
def scanNames (ps : Parse K) (line v : Str) :
    List (Str × Kind) → Store → Except CppErr Store
  | [], st => .ok st
  | (n, k) :: l, st => do
    let st ← if mentions line n then scanInto ps st n k v else .ok st
    scanNames ps line v l st

/-- `parameters.cpp:138-343`: one line.  The first two words are taken to fit the buffers of
1024 characters. -/
def scanLine (ps : Parse K) (st : Store) (line : Str) : Except CppErr Store :=
  if line.head? = some '#' then .ok st
  else match words line with
    | _ :: eq :: v :: _ => if eq ≠ ['='] then .ok st else scanNames ps line v fileNames st
    | _ => .ok st

/-- All lines. -/
def scanFile (ps : Parse K) : List Str → Store → Except CppErr Store
  | [], st => .ok st
  | line :: l, st => do
    let st ← scanLine ps st line
    scanFile ps l st

/-- A string parameter without its own default (`this->x = x_`). -/
def strOf (st : Store) (n : String) : Str := (st n.toList).getD []

/-- A string parameter which keeps its default if not set (`strlen(x_) > 0`). -/
def strOr (st : Store) (n : String) (d : Str) : Str := (st n.toList).getD d

/-- A number which keeps its default if not set. -/
def numOr (f : Str → Option α) (st : Store) (n : String) (d : α) : α :=
  ((st n.toList).bind f).getD d

/-- A number whose variable is not initialised: using it when it is not set is undefined. -/
def numReq (f : Str → Option α) (st : Store) (n : String) : Except CppErr α :=
  match (st n.toList).bind f with
  | some x => .ok x
  | none => .error .undefined

variable [Field K]

/-- `parameters.cpp:351-415`: the parameters from the scanned values. -/
def attribution (ps : Parse K) (st : Store) : Except CppErr (Params K) := do
  let bx ← numReq ps.num st "boxsize_x"
  let byy ← numReq ps.num st "boxsize_y"
  let bz ← numReq ps.num st "boxsize_z"
  let nx ← numReq ps.int st "ngrid_x"
  let ny ← numReq ps.int st "ngrid_y"
  let nz ← numReq ps.int st "ngrid_z"
  let d : Params K := Params.default
  .ok { d with
    catDir := strOf st "catalogue_dir", measDir := strOf st "measurement_dir",
    dataFile := strOf st "data_catalogue_file", randFile := strOf st "rand_catalogue_file",
    columns := strOf st "catalogue_columns", dataset := strOf st "catalogue_dataset",
    tag := strOf st "output_tag",
    box := ![bx, byy, bz], ngrid := ![nx, ny, nz], volume := bx * byy * bz, nmesh := nx * ny * nz,
    expand := numOr ps.num st "expand" d.expand,
    alignment := String.ofList (strOr st "alignment" d.alignment.toList),
    padscale := String.ofList (strOr st "padscale" d.padscale.toList),
    padfactor := numOr ps.num st "padfactor" d.padfactor,
    assignment := String.ofList (strOr st "assignment" d.assignment.toList),
    interlace := String.ofList (strOr st "interlace" d.interlace.toList),
    catType := String.ofList (strOf st "catalogue_type"),
    statType := String.ofList (strOf st "statistic_type"),
    form := String.ofList (strOr st "form" d.form.toList),
    norm := String.ofList (strOr st "norm_convention" d.norm.toList),
    binning := String.ofList (strOr st "binning" d.binning.toList),
    ell1 := numOr ps.int st "ell1" d.ell1, ell2 := numOr ps.int st "ell2" d.ell2,
    ELL := numOr ps.int st "ELL" d.ELL, iWa := numOr ps.int st "i_wa" d.iWa,
    jWa := numOr ps.int st "j_wa" d.jWa, binMin := numOr ps.num st "bin_min" d.binMin,
    binMax := numOr ps.num st "bin_max" d.binMax, numBins := numOr ps.int st "num_bins" d.numBins,
    idxBin := numOr ps.int st "idx_bin" d.idxBin, cutoff := numOr ps.num st "cutoff_nyq" d.cutoff,
    scheme := String.ofList (strOr st "fftw_scheme" d.scheme.toList),
    wisdom := strOr st "use_fftw_wisdom" d.wisdom,
    saveBvec := strOr st "save_binned_vectors" d.saveBvec,
    progbar := strOr st "progbar" d.progbar, verbose := numOr ps.int st "verbose" d.verbose }

variable [LinearOrder K] [FloorRing K]

/-- `parameters.cpp:95-463`: `read_from_file`. -/
def readFile (e : Env K) (ps : Parse K) (fuel : ℕ) (lines : List Str) :
    Option (Except CppErr (Params K)) :=
  match scanFile ps lines (fun _ => none) with
  | .error x => some (.error x)
  | .ok st =>
    match attribution ps st with
    | .error x => some (.error x)
    | .ok p => validate e fuel true p

/-- A printed line `name = value`. -/
def assignLine (n v : Str) : Str := n ++ [' ', '=', ' '] ++ v

/-- `parameters.cpp:1303-1356`: the names and values printed by `print_to_file`, in order, up to the
order of assignment and after it.  `fmt d x` is the text of a number with `d` decimals, `sci x`
that of the volume. -/
def printed (fmt : ℕ → K → Str) (sci : K → Str) (p : Params K) :
    List (String × Str) × List (String × Str) :=
  ([("catalogue_dir", p.catDir), ("measurement_dir", p.measDir), ("data_catalogue_file", p.dataFile),
    ("rand_catalogue_file", p.randFile), ("catalogue_columns", p.columns),
    ("catalogue_dataset", p.dataset), ("output_tag", p.tag),
    ("boxsize_x", fmt 3 (p.box 0)), ("boxsize_y", fmt 3 (p.box 1)), ("boxsize_z", fmt 3 (p.box 2)),
    ("ngrid_x", toStr (p.ngrid 0)), ("ngrid_y", toStr (p.ngrid 1)), ("ngrid_z", toStr (p.ngrid 2)),
    ("volume", sci p.volume), ("nmesh", toStr p.nmesh), ("expand", fmt 4 p.expand),
    ("alignment", p.alignment.toList), ("padscale", p.padscale.toList),
    ("padfactor", fmt 4 p.padfactor), ("assignment", p.assignment.toList),
    ("interlace", p.interlace.toList)],
   [("catalogue_type", p.catType.toList), ("statistic_type", p.statType.toList),
    ("npoint", p.npoint.toList), ("space", p.space.toList), ("ell1", toStr p.ell1),
    ("ell2", toStr p.ell2), ("ELL", toStr p.ELL), ("i_wa", toStr p.iWa), ("j_wa", toStr p.jWa),
    ("form", p.form.toList), ("norm_convention", p.norm.toList), ("binning", p.binning.toList),
    ("shape", p.shape.toList), ("bin_min", fmt 4 p.binMin), ("bin_max", fmt 4 p.binMax),
    ("num_bins", toStr p.numBins), ("idx_bin", toStr p.idxBin), ("fftw_scheme", p.scheme.toList),
    ("use_fftw_wisdom", p.wisdom), ("fftw_wisdom_file_f", p.wisdomF),
    ("fftw_wisdom_file_b", p.wisdomB), ("save_binned_vectors", p.saveBvec), ("progbar", p.progbar),
    ("verbose", toStr p.verbose), ("fftw_planner_flag", toStr p.plannerFlag)])

/-- `parameters.cpp:1271-1366`: the lines of the used-parameter file. -/
def printFile (fmt : ℕ → K → Str) (sci : K → Str) (p : Params K) : List Str :=
  ((printed fmt sci p).1 ++ ("assignment_order", toStr p.assignOrder) :: (printed fmt sci p).2).map
    fun nv => assignLine nv.1.toList nv.2

end
end Trv.Par

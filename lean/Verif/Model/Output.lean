import Verif.Model.ParamFile
import Verif.Model.WinBuild
import Verif.Model.Layout
/-
Model of saving measurements and of reading them back:
* the names of the files: `_get_measurement_filename` of `/repo/src/triumvirate/twopt.py` (158-193) and
  `threept.py` (196-240), with the path of the saving code (`twopt.py` 633-665, `threept.py` 707-738),
  and the paths of the program, `/repo/src/triumvirate/main/triumvirate.cpp` (597-870);
* the tables: `_print_measurement_header` and `_assemble_measurement_datatab` (`twopt.py` 196-315,
  `threept.py` 243-375) and `print_measurement_datatab_to_file` (`src/io.cpp` 360-555);
* `ThreePointWindow.load_from_textfiles` (`winconv.py` 949-1031).

Simplifications: `pathlib` is that of Python up to 3.13 on a POSIX system; the formatting and the parsing
of numbers are parameters; a file is its list of lines, and the header contains no line break other than
"\n"; `np.loadtxt` is modelled for columns counted from zero.
-/
namespace Trv.Out

open Trv Trv.Par Trv.Mon

/-- The parameters which enter the name of a file. -/
structure P where
  stat : String
  form : String := ""
  ell1 : ℤ := 0
  ell2 : ℤ := 0
  ELL : ℤ := 0
  iWa : ℤ := 0
  jWa : ℤ := 0
  idxBin : Option ℤ := none
  tag : Option Str := none
  dir : Option Str := none

/-- `paramset['tags']['output'] or ""`. -/
def P.tagStr (p : P) : Str := p.tag.getD []

/-! ### Names of files -/

/-- `twopt.py:158-193`. -/
def pyName2 (p : P) : Except PyErr Str :=
  if p.stat = "powspec" then .ok ("pk".toList ++ toStr p.ELL ++ p.tagStr)
  else if p.stat = "2pcf" then .ok ("xi".toList ++ toStr p.ELL ++ p.tagStr)
  else if p.stat = "2pcf-win" then .ok ("xiw".toList ++ toStr p.ELL ++ p.tagStr)
  else .error .valueError

/-- `threept.py:215, 303`: `"{ell1}{ell2}{ELL}".format(**paramset['degrees'])`. -/
def degs (p : P) : Str := toStr p.ell1 ++ toStr p.ell2 ++ toStr p.ELL

/-- `threept.py:217-224`: `binform`.  Formatting `None` as an integer raises `TypeError`; if no form is
recognised the variable is unbound (`UnboundLocalError`, a `NameError`) where it is used. -/
def binform (p : P) : Except PyErr Str :=
  if p.form = "diag" then .ok "_diag".toList
  else if p.form = "off-diag" then
    match p.idxBin with
    | some k => .ok ("_offdiag".toList ++ toStr k)
    | none => .error .typeError
  else if p.form = "row" then
    match p.idxBin with
    | some k => .ok ("_row".toList ++ toStr k)
    | none => .error .typeError
  else if p.form = "full" then .ok "_full".toList
  else .error .nameError

/-- `threept.py:196-240`. -/
def pyName3 (p : P) : Except PyErr Str :=
  match binform p with
  | .error .nameError =>
    if p.stat = "bispec" ∨ p.stat = "3pcf" ∨ p.stat = "3pcf-win" ∨ p.stat = "3pcf-win-wa" then
      .error .nameError
    else .error .valueError
  | .error e => .error e
  | .ok b =>
    if p.stat = "bispec" then .ok ("bk".toList ++ degs p ++ b ++ p.tagStr)
    else if p.stat = "3pcf" then .ok ("zeta".toList ++ degs p ++ b ++ p.tagStr)
    else if p.stat = "3pcf-win" then .ok ("zetaw".toList ++ degs p ++ b ++ p.tagStr)
    else if p.stat = "3pcf-win-wa" then
      .ok ("zetaw".toList ++ degs p ++ b ++ ("_wa".toList ++ toStr p.iWa ++ toStr p.jWa) ++ p.tagStr)
    else .error .valueError

/-- The function used by the two-point and by the three-point modules. -/
def pyName (p : P) : Except PyErr Str :=
  if p.stat = "powspec" ∨ p.stat = "2pcf" ∨ p.stat = "2pcf-win" then pyName2 p else pyName3 p

/-- The pieces of a path between slashes. -/
def splitSlash : Str → List Str
  | [] => [[]]
  | c :: cs =>
    if c = '/' then [] :: splitSlash cs
    else match splitSlash cs with
      | [] => [[c]]
      | h :: t => (c :: h) :: t

/-- `pathlib`: the components of a relative path. -/
def comps (s : Str) : List Str := (splitSlash s).filter fun c => c ≠ [] ∧ c ≠ ['.']

/-- `name.rfind('.')`. -/
def rfindDot (n : Str) : Option ℕ :=
  if '.' ∈ n then some (n.length - 1 - n.reverse.idxOf '.') else none

/-- `pathlib`: `with_suffix` on the last component of a path. -/
def withSuffix (n suf : Str) : Str :=
  match rfindDot n with
  | some i => if 0 < i ∧ i + 1 < n.length then n.take i ++ suf else n ++ suf
  | none => n ++ suf

/-- A path: whether it is absolute, and its components. -/
structure Path where
  absolute : Bool
  parts : List Str
  deriving DecidableEq

/-- `Path(odirpath, ofilename)`; the name of a measurement is not an absolute path. -/
def Path.of (dir name : Str) : Path := ⟨dir.head? = some '/', comps dir ++ comps name⟩

/-- `Path.with_suffix`; a path without a name raises `ValueError`. -/
def Path.withSuffix (q : Path) (suf : Str) : Except PyErr Path :=
  match q.parts.getLast? with
  | none => .error .valueError
  | some n => .ok { q with parts := q.parts.dropLast ++ [Out.withSuffix n suf] }

/-- `twopt.py:647-648, 654-655`, `threept.py:722-723, 729-730`: the path of the file. -/
def pyPath (p : P) (suf : Str) : Except PyErr Path :=
  match pyName p with
  | .error e => .error e
  | .ok n => (Path.of (p.dir.getD []) n).withSuffix suf

/-- `triumvirate.cpp:682-870`: the end of the name of a three-point file; the fields in C++ are always
set. -/
def cppForm (p : P) : Option Str :=
  if p.form = "full" ∨ p.form = "diag" then some (p.form.toList ++ p.tagStr)
  else if p.form = "off-diag" then some ("offdiag".toList ++ toStr (p.idxBin.getD 0) ++ p.tagStr)
  else if p.form = "row" then some ("row".toList ++ toStr (p.idxBin.getD 0) ++ p.tagStr)
  else none

/-- `triumvirate.cpp:597-870`: the path before it is cut to fit the buffer; `none` if none is written. -/
def cppFull (p : P) : Option Str :=
  let d := p.dir.getD [] ++ ['/']
  if p.stat = "powspec" then some (d ++ "pk".toList ++ toStr p.ELL ++ p.tagStr)
  else if p.stat = "2pcf" then some (d ++ "xi".toList ++ toStr p.ELL ++ p.tagStr)
  else if p.stat = "2pcf-win" then some (d ++ "xiw".toList ++ toStr p.ELL ++ p.tagStr)
  else if p.stat = "bispec" then
    (cppForm p).map fun f => d ++ "bk".toList ++ degs p ++ ['_'] ++ f
  else if p.stat = "3pcf" then
    (cppForm p).map fun f => d ++ "zeta".toList ++ degs p ++ ['_'] ++ f
  else if p.stat = "3pcf-win" then
    (cppForm p).map fun f => d ++ "zetaw".toList ++ degs p ++ ['_'] ++ f
  else if p.stat = "3pcf-win-wa" then
    (cppForm p).map fun f =>
      d ++ "zetaw".toList ++ degs p ++ "_wa".toList ++ toStr p.iWa ++ toStr p.jWa ++ ['_'] ++ f
  else none

/-- `snprintf(save_filepath, 1024, …)`. -/
def cppPath (p : P) : Option Str := (cppFull p).map fun s => s.take 1023

/-! ### The argument `save` -/

/-- The argument `save`. -/
inductive Save
  | bool (b : Bool)
  | str (s : Str)

/-- `str.lower` on ASCII letters. -/
def lower (s : Str) : Str := s.map Char.toLower

/-- What a call of a measurement function did: the file written, and whether the returned dictionary has
gained the key 'header'. -/
structure Done (α : Type) where
  results : α
  header : Bool
  file : Option Path

/-- `twopt.py:633-665`, `threept.py:707-741` (and the other places): after the measurement.  `str.lower` of
a Boolean raises `AttributeError`. -/
def finishSave {α : Type} (p : P) (r : α) : Save → Except PyErr (Done α)
  | .bool false => .ok ⟨r, false, none⟩
  | .bool true => .error .attributeError
  | .str s =>
    if s = [] then .ok ⟨r, false, none⟩
    else if lower s = ".txt".toList then
      match pyPath p ".txt".toList with
      | .error e => .error e
      | .ok q => .ok ⟨r, false, some q⟩
    else if ".npz".toList <:+ lower s then
      match pyPath p ".npz".toList with
      | .error e => .error e
      | .ok q => .ok ⟨r, true, some q⟩
    else .error .valueError

/-- A measurement followed by saving. -/
def measure {α : Type} (compute : Except PyErr α) (p : P) (s : Save) : Except PyErr (Done α) :=
  match compute with
  | .error e => .error e
  | .ok r => finishSave p r s

/-! ### Tables -/

/-- A column: real numbers, integers, or complex numbers. -/
inductive Col
  | reals (x : List ℝ)
  | ints (x : List ℤ)
  | cplx (x : List ℂ)

/-- `measurements[key]`. -/
def look (d : List (String × Col)) (k : String) : Except PyErr Col :=
  match d.lookup k with
  | some c => .ok c
  | none => .error .keyError

/-- `PowspecMeasurements` (`dataobjs.hpp`). -/
structure ResPk where
  kbin : List ℝ
  keff : List ℝ
  nmodes : List ℤ
  raw : List ℂ
  shot : List ℂ

/-- `TwoPCFMeasurements` and `TwoPCFWindowMeasurements`. -/
structure ResXi where
  rbin : List ℝ
  reff : List ℝ
  npairs : List ℤ
  xi : List ℂ

/-- `BispecMeasurements`, `ThreePCFMeasurements` and `ThreePCFWindowMeasurements`. -/
structure Res3 where
  bin1 : List ℝ
  eff1 : List ℝ
  num1 : List ℤ
  bin2 : List ℝ
  eff2 : List ℝ
  num2 : List ℤ
  raw : List ℂ
  shot : List ℂ

/-- `_twopt.pyx:201-207, 268-274`: the returned dictionary. -/
def dictPk (r : ResPk) : List (String × Col) :=
  [("kbin", .reals r.kbin), ("keff", .reals r.keff), ("nmodes", .ints r.nmodes), ("pk_raw", .cplx r.raw),
   ("pk_shot", .cplx r.shot)]

/-- `_twopt.pyx:247-252, 290-295, 325-330`. -/
def dictXi (r : ResXi) : List (String × Col) :=
  [("rbin", .reals r.rbin), ("reff", .reals r.reff), ("npairs", .ints r.npairs), ("xi", .cplx r.xi)]

/-- `_threept.pyx:165-174, 239-248`. -/
def dictBk (r : Res3) : List (String × Col) :=
  [("k1_bin", .reals r.bin1), ("k2_bin", .reals r.bin2), ("k1_eff", .reals r.eff1),
   ("k2_eff", .reals r.eff2), ("nmodes_1", .ints r.num1), ("nmodes_2", .ints r.num2),
   ("bk_raw", .cplx r.raw), ("bk_shot", .cplx r.shot)]

/-- `_threept.pyx:214-223, 264-273, 305-314`. -/
def dictZeta (r : Res3) : List (String × Col) :=
  [("r1_bin", .reals r.bin1), ("r2_bin", .reals r.bin2), ("r1_eff", .reals r.eff1),
   ("r2_eff", .reals r.eff2), ("npairs_1", .ints r.num1), ("npairs_2", .ints r.num2),
   ("zeta_raw", .cplx r.raw), ("zeta_shot", .cplx r.shot)]

/-- A column of the table: a key, and the part taken of the array (`.real`, `.imag`, or all of it). -/
inductive Part
  | whole | re | im

/-- The numbers of a column; integers become floats in the table.  `.real` of real numbers is not used. -/
def Col.part : Col → Part → List ℝ
  | .reals x, _ => x
  | .ints x, _ => x.map fun z : ℤ => (z : ℝ)
  | .cplx x, .re => x.map Complex.re
  | .cplx x, .im => x.map Complex.im
  | .cplx x, .whole => x.map Complex.re

/-- `np.transpose` of a list of columns; columns of different lengths raise `ValueError`. -/
def transposed (cols : List (List ℝ)) : Except PyErr (List (List ℝ)) :=
  match cols with
  | [] => .ok []
  | c :: _ =>
    if ∀ d ∈ cols, d.length = c.length then
      .ok ((List.range c.length).map fun i => cols.map fun d => d.getD i 0)
    else .error .valueError

/-- The columns taken, in order. -/
def columns (d : List (String × Col)) (ks : List (String × Part)) : Except PyErr (List (List ℝ)) :=
  Wc.traverse (fun k : String × Part =>
    match look d k.1 with
    | .error e => .error e
    | .ok c => .ok (c.part k.2)) ks

/-- The table made of the given keys. -/
def table (d : List (String × Col)) (ks : List (String × Part)) : Except PyErr (List (List ℝ)) :=
  match columns d ks with
  | .error e => .error e
  | .ok cs => transposed cs

/-- `twopt.py:297-302`. -/
def keysPk : List (String × Part) :=
  [("kbin", .whole), ("keff", .whole), ("nmodes", .whole), ("pk_raw", .re), ("pk_raw", .im),
   ("pk_shot", .re), ("pk_shot", .im)]

/-- `twopt.py:303-307`. -/
def keysXi : List (String × Part) :=
  [("rbin", .whole), ("reff", .whole), ("npairs", .whole), ("xi", .re), ("xi", .im)]

/-- `threept.py:353-361`. -/
def keysBk : List (String × Part) :=
  [("k1_bin", .whole), ("k1_eff", .whole), ("nmodes_1", .whole), ("k2_bin", .whole), ("k2_eff", .whole),
   ("nmodes_2", .whole), ("bk_raw", .re), ("bk_raw", .im), ("bk_shot", .re), ("bk_shot", .im)]

/-- `threept.py:362-371`. -/
def keysZeta : List (String × Part) :=
  [("r1_bin", .whole), ("r1_eff", .whole), ("npairs_1", .whole), ("r2_bin", .whole), ("r2_eff", .whole),
   ("npairs_2", .whole), ("zeta_raw", .re), ("zeta_raw", .im), ("zeta_shot", .re), ("zeta_shot", .im)]

/-- A label with a multipole inside: `"Re{{pk{:d}_raw}}".format(…)`. -/
def lab (pre : String) (m : Str) (post : String) : Str := pre.toList ++ m ++ post.toList

/-- `twopt.py:229-236`. -/
def labelsPk (ELL : ℤ) : List Str :=
  ["k_cen".toList, "k_eff".toList, "nmodes".toList, lab "Re{pk" (toStr ELL) "_raw}",
   lab "Im{pk" (toStr ELL) "_raw}", lab "Re{pk" (toStr ELL) "_shot}", lab "Im{pk" (toStr ELL) "_shot}"]

/-- `twopt.py:237-242`. -/
def labelsXi (ELL : ℤ) : List Str :=
  ["r_cen".toList, "r_eff".toList, "npairs".toList, lab "Re{xi" (toStr ELL) "}",
   lab "Im{xi" (toStr ELL) "}"]

/-- `threept.py:304-311`. -/
def labelsBk (m : Str) : List Str :=
  ["k1_cen".toList, "k1_eff".toList, "nmodes_1".toList, "k2_cen".toList, "k2_eff".toList,
   "nmodes_2".toList, lab "Re{bk" m "_raw}", lab "Im{bk" m "_raw}", lab "Re{bk" m "_shot}",
   lab "Im{bk" m "_shot}"]

/-- `threept.py:312-319`. -/
def labelsZeta (m : Str) : List Str :=
  ["r1_cen".toList, "r1_eff".toList, "npairs_1".toList, "r2_cen".toList, "r2_eff".toList,
   "npairs_2".toList, lab "Re{zeta" m "_raw}", lab "Im{zeta" m "_raw}", lab "Re{zeta" m "_shot}",
   lab "Im{zeta" m "_shot}"]

/-- `", ".join`. -/
def joinC : List Str → Str
  | [] => []
  | [s] => s
  | s :: t => s ++ ',' :: ' ' :: joinC t

/-- `twopt.py:259-262`, `threept.py:336-339`: the line of column labels. -/
def labelLine (ls : List Str) : Str :=
  joinC (ls.zipIdx.map fun p : Str × ℕ => '[' :: toStr (p.2 : ℤ) ++ ']' :: ' ' :: p.1)

/-- `io.cpp:365-373`: the line of column labels of a power spectrum. -/
def cppLinePk (ELL : ℤ) : Str :=
  let m := toStr ELL
  "# [0] k_cen, [1] k_eff, [2] nmodes, [3] Re{pk".toList ++ m ++ "_raw}, [4] Im{pk".toList ++ m ++
    "_raw}, [5] Re{pk".toList ++ m ++ "_shot}, [6] Im{pk".toList ++ m ++ "_shot}".toList

/-- `io.cpp:394-399, 419-424`. -/
def cppLineXi (ELL : ℤ) : Str :=
  let m := toStr ELL
  "# [0] r_cen, [1] r_eff, [2] npairs, [3] Re{xi".toList ++ m ++ "}, [4] Im{xi".toList ++ m ++
    "}".toList

/-- `io.cpp:448-465`: the degrees are printed into a buffer of eight characters. -/
def cppLineBk (p : P) : Str :=
  let m := (degs p).take 7
  "# [0] k1_cen, [1] k1_eff, [2] nmodes_1, [3] k2_cen, [4] k2_eff, [5] nmodes_2, [6] Re{bk".toList ++ m ++
    "_raw}, [7] Im{bk".toList ++ m ++ "_raw}, [8] Re{bk".toList ++ m ++ "_shot}, [9] Im{bk".toList ++ m ++
    "_shot}".toList

/-- `io.cpp:485-502, 522-539`. -/
def cppLineZeta (p : P) : Str :=
  let m := (degs p).take 7
  "# [0] r1_cen, [1] r1_eff, [2] npairs_1, [3] r2_cen, [4] r2_eff, [5] npairs_2, [6] Re{zeta".toList ++ m ++
    "_raw}, [7] Im{zeta".toList ++ m ++ "_raw}, [8] Re{zeta".toList ++ m ++ "_shot}, [9] Im{zeta".toList ++
    m ++ "_shot}".toList

/-- `io.cpp:376-388`: the numbers printed in the rows of the table of a power spectrum. -/
def cppRowsPk (r : ResPk) (dim : ℕ) : List (List ℝ) :=
  (List.range dim).map fun i =>
    [r.kbin.getD i 0, r.keff.getD i 0, ((r.nmodes.getD i 0 : ℤ) : ℝ), (r.raw.getD i 0).re,
     (r.raw.getD i 0).im, (r.shot.getD i 0).re, (r.shot.getD i 0).im]

/-- `io.cpp:402-411, 427-436`. -/
def cppRowsXi (r : ResXi) (dim : ℕ) : List (List ℝ) :=
  (List.range dim).map fun i =>
    [r.rbin.getD i 0, r.reff.getD i 0, ((r.npairs.getD i 0 : ℤ) : ℝ), (r.xi.getD i 0).re,
     (r.xi.getD i 0).im]

/-- `io.cpp:467-480, 504-517, 541-555`. -/
def cppRows3 (r : Res3) (dim : ℕ) : List (List ℝ) :=
  (List.range dim).map fun i =>
    [r.bin1.getD i 0, r.eff1.getD i 0, ((r.num1.getD i 0 : ℤ) : ℝ), r.bin2.getD i 0, r.eff2.getD i 0,
     ((r.num2.getD i 0 : ℤ) : ℝ), (r.raw.getD i 0).re, (r.raw.getD i 0).im, (r.shot.getD i 0).re,
     (r.shot.getD i 0).im]

/-! ### Text files -/

/-- Formatting and parsing of numbers: `%.9e`, `% .9e`, `%10d` of a float, and reading a float. -/
structure Fmt where
  e : ℝ → Str
  s : ℝ → Str
  d : ℝ → Str
  read : Str → Option ℝ

/-- `threept.py:718-721`: the formats of a row of a three-point table,
`(['%.9e'] * 2 + ['%10d']) * 2 + ['% .9e'] * (ncol - 6)`. -/
def rowFmt (F : Fmt) (j : ℕ) : ℝ → Str :=
  if j = 2 ∨ j = 5 then F.d else if j < 6 then F.e else F.s

/-- `"\t".join`. -/
def joinTab : List Str → Str
  | [] => []
  | [s] => s
  | s :: t => s ++ '\t' :: joinTab t

/-- A line of a three-point table. -/
def rowLine (F : Fmt) (row : List ℝ) : Str :=
  joinTab (row.zipIdx.map fun p : ℝ × ℕ => rowFmt F p.2 p.1)

/-- The lines of a text. -/
def splitLines : Str → List Str
  | [] => [[]]
  | c :: cs =>
    if c = '\n' then [] :: splitLines cs
    else match splitLines cs with
      | [] => [[c]]
      | h :: t => (c :: h) :: t

/-- `np.savetxt` with a header: each line of the header is commented out. -/
def savetxt (F : Fmt) (header : Str) (rows : List (List ℝ)) : List Str :=
  (splitLines header).map (fun l => '#' :: ' ' :: l) ++ rows.map (rowLine F)

/-- `np.loadtxt`: the words of a line before a comment. -/
def dataWords (l : Str) : List Str := words (l.takeWhile fun c => c ≠ '#')

/-- `np.loadtxt`: the number of a column; a column which is missing or is not a number raises
`ValueError`. -/
def readCol (F : Fmt) (ws : List Str) (c : ℕ) : Except PyErr ℝ :=
  match ws[c]? with
  | none => .error .valueError
  | some w =>
    match F.read w with
    | none => .error .valueError
    | some x => .ok x

/-- `np.loadtxt`: the numbers of the columns asked for. -/
def readRow (F : Fmt) (usecols : List ℕ) (ws : List Str) : Except PyErr (List ℝ) :=
  Wc.traverse (readCol F ws) usecols

/-- `np.loadtxt(filepath, usecols=usecols)`: the rows. -/
def loadtxt (F : Fmt) (usecols : List ℕ) (file : List Str) : Except PyErr (List (List ℝ)) :=
  Wc.traverse (readRow F usecols) ((file.map dataWords).filter fun ws => ws ≠ [])

/-- `winconv.py:996-1018`: the paired sample points and the flattened multipole of one file.  A table of one
row is read as scalars, which have no length (`TypeError` in `reshape_threept_datatab`; raised here). -/
noncomputable def loadOne (F : Fmt) (sub : Bool) (usecols : List ℕ) (file : List Str) :
    Except PyErr (List (ℝ × ℝ) × List ℝ) :=
  if usecols.length ≠ (if sub then 4 else 3) then .error .valueError
  else
    match loadtxt F usecols file with
    | .error e => .error e
    | .ok rows =>
      if rows.length = 1 then .error .typeError
      else .ok (rows.map fun r => (r.getD 0 0, r.getD 1 0),
        rows.map fun r => if sub then r.getD 2 0 - r.getD 3 0 else r.getD 2 0)

/-- An item of `filepaths`: the key, the path, and the contents of the file. -/
structure Item where
  key : Wc.Key
  path : String
  file : List Str

/-- The table of one item, with its key. -/
noncomputable def loadItem (F : Fmt) (sub : Bool) (usecols : List ℕ) (it : Item) :
    Except PyErr (Wc.Key × List (ℝ × ℝ) × List ℝ) :=
  match loadOne F sub usecols it.file with
  | .error e => .error e
  | .ok t => .ok (it.key, t)

/-- `winconv.py:949-1031`: `load_from_textfiles`; `items` are the items in the order given by `sorted`. -/
noncomputable def loadFromTextfiles (F : Fmt) (I : Wc.Interp ℝ) (items : List Item) (sub : Bool)
    (usecols : List ℕ) (alpha : ℝ) (mk : Wc.MakeLog) : Except PyErr (Wc.Win ℝ) :=
  match Wc.traverse (loadItem F sub usecols) items with
  | .error e => .error e
  | .ok l =>
    match Wc.buildWin I (.dict (l.map fun t => (t.1, some t.2.1))) (l.map fun t => (t.1, t.2.2)) alpha mk with
    | .error e => .error e
    | .ok w => .ok { w with sources := items.map Item.path }

end Trv.Out

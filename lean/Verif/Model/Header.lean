import Verif.Model.Output
/-
Model of the text files in which measurements are saved, with their headers:
* `write_attrs_as_header` (`/repo/src/triumvirate/catalogue.py` 803-865), `_print_measurement_header`
  (`twopt.py` 195-272, `threept.py` 245-326), the choice of the normalisation factor and the saving code of
  the measurement functions (`twopt.py` 553-615, 633-665, 1076-1126, 1144-1175, 1488-1540, 1555-1587;
  `threept.py` 630-690, 707-740, 1520-1570, 1588-1620, 2004-2056, 2072-2105);
* `print_measurement_header_to_file` and `print_measurement_datatab_to_file` (`src/io.cpp` 102-298,
  354-560) and the choice of the normalisation factor in the program (`main/triumvirate.cpp` 512-592).

Simplifications: a file is its list of lines; no text other than the header which Python joins contains a
line break (the hypotheses of the theorems say so); `{:.3f}`/`%.3f` are one function and `{:.9e}`/`%.9e`
are one function, given as parameters; the particles, and so the measurement as a function of the
normalisation factor, are given.
-/
namespace Trv.Out

open Trv Trv.Par Trv.Mon

/-- What a catalogue contributes to the header. -/
structure CatInfo where
  source : Str
  ntotal : ℤ
  wtotal : ℝ
  wstotal : ℝ
  lo : Fin 3 → ℝ
  hi : Fin 3 → ℝ

/-- The parameters which enter the header: `npoint` and `space` are derived from the statistic by the
validation (`parameters.cpp:700-815`). -/
structure HP where
  p : P
  npoint : String
  space : String
  box : Fin 3 → ℝ
  alignment : Str
  ngrid : Fin 3 → ℤ
  assignment : Str
  interlace : Bool
  conv : String

/-- The three normalisation factors. -/
structure Norms where
  part : ℝ
  mesh : ℝ
  meshes : ℝ

/-- The kind of measurement, with its catalogues: paired survey-like catalogues, a catalogue in a periodic
box, or a random catalogue (window functions). -/
inductive Kind
  | survey (data rand : CatInfo)
  | box (data : CatInfo)
  | window (rand : CatInfo)

/-- The results of a measurement. -/
inductive Res
  | pk (r : ResPk)
  | xi (r : ResXi)
  | bk (r : Res3)
  | zeta (r : Res3)

/-! ### Python -/

/-- `"\n".join`. -/
def joinNl : List Str → Str
  | [] => []
  | [s] => s
  | s :: t => s ++ '\n' :: joinNl t

/-- `catalogue.py:824-826, 837-839, 847-853`: after `"… catalogue size: "`. -/
def pySize (f3 : ℝ → Str) (c : CatInfo) : Str :=
  "ntotal = ".toList ++ toStr c.ntotal ++ ", wtotal = ".toList ++ f3 c.wtotal ++ ", wstotal = ".toList ++
    f3 c.wstotal

/-- `catalogue.py:827-831, 840-844, 854-860`: `"([{:.3f}, {:.3f}], [{:.3f}, {:.3f}], [{:.3f}, {:.3f}])"`. -/
def pyExtents (f3 : ℝ → Str) (c : CatInfo) : Str :=
  "([".toList ++ f3 (c.lo 0) ++ ", ".toList ++ f3 (c.hi 0) ++ "], [".toList ++ f3 (c.lo 1) ++ ", ".toList ++
    f3 (c.hi 1) ++ "], [".toList ++ f3 (c.lo 2) ++ ", ".toList ++ f3 (c.hi 2) ++ "])".toList

/-- `catalogue.py:820-832`: without a reference catalogue. -/
def pyAttrs (f3 : ℝ → Str) (c : CatInfo) : List Str :=
  ["Catalogue source: ".toList ++ c.source, "Catalogue size: ".toList ++ pySize f3 c,
   "Catalogue particle extents: ".toList ++ pyExtents f3 c]

/-- `catalogue.py:833-861`: with a reference catalogue. -/
def pyAttrsRef (f3 : ℝ → Str) (c d : CatInfo) : List Str :=
  ["Data catalogue source: ".toList ++ c.source, "Data catalogue size: ".toList ++ pySize f3 c,
   "Data-source particle extents: ".toList ++ pyExtents f3 c,
   "Random catalogue source: ".toList ++ d.source, "Random catalogue size: ".toList ++ pySize f3 d,
   "Random-source particle extents: ".toList ++ pyExtents f3 d]

/-- The catalogue part of the header: `twopt.py:636, 1147, 1558`, `threept.py:710, 1591, 2075`. -/
def pyCatLines (f3 : ℝ → Str) : Kind → List Str
  | .survey c d => pyAttrsRef f3 c d
  | .box c => pyAttrs f3 c
  | .window d => pyAttrs f3 d

/-- `twopt.py:219-226`, `threept.py:269-276`: the factor reported; `none` if the variable is unbound. -/
def pyReported (conv : String) (n : Norms) : Option ℝ :=
  if conv = "mesh-mixed" then some n.meshes
  else if conv = "mesh" then some n.mesh
  else if conv = "particle" then some n.part
  else if conv = "none" then some 1
  else none

/-- `twopt.py:228-249`, `threept.py:283-300`: the labels of the columns; `none` if the variable is
unbound. -/
def pyLabels (h : HP) (three : Bool) : Option (List Str) :=
  if h.space = "config" then
    some (if three then labelsZeta (degs h.p) else labelsXi h.p.ELL)
  else if h.space = "fourier" then
    some (if three then labelsBk (degs h.p) else labelsPk h.p.ELL)
  else none

/-- `str` of a boolean. -/
def pyBool (b : Bool) : Str := if b then "True".toList else "False".toList

/-- `twopt.py:195-272` (`three` is false), `threept.py:245-326` (`three` is true). -/
def pyHeader (F : Fmt) (f3 : ℝ → Str) (three : Bool) (h : HP) (n : Norms) : Except PyErr (List Str) :=
  if h.npoint ≠ (if three then "3pt" else "2pt") then .error .valueError
  else
    match pyReported h.conv n, pyLabels h three with
    | some f, some ls => .ok
      ["Box size: [".toList ++ f3 (h.box 0) ++ ", ".toList ++ f3 (h.box 1) ++ ", ".toList ++ f3 (h.box 2) ++
          "]".toList,
       "Box alignment: ".toList ++ h.alignment,
       "Mesh number: [".toList ++ toStr (h.ngrid 0) ++ ", ".toList ++ toStr (h.ngrid 1) ++ ", ".toList ++
          toStr (h.ngrid 2) ++ "]".toList,
       "Mesh assignment and interlacing: ".toList ++ h.assignment ++ ", ".toList ++ pyBool h.interlace,
       "Normalisation factor: ".toList ++ F.e f ++ " (".toList ++ h.conv.toList ++ ")".toList,
       "Normalisation factor alternatives: ".toList ++ F.e n.part ++ " (particle), ".toList ++ F.e n.mesh ++
          " (mesh), ".toList ++ F.e n.meshes ++
          (if three then " (mesh-mixed; n/a)".toList else " (mesh-mixed)".toList),
       labelLine ls]
    | _, _ => .error .nameError

/-- `twopt.py:559-562, 1082, 1494`, `threept.py:636, 1526, 2010`: the mixed-mesh factor is computed for
paired catalogues and two points only. -/
def pyNorms (k : Kind) (three : Bool) (n : Norms) : Norms :=
  match k with
  | .survey _ _ => if three then { n with meshes := 0 } else n
  | .box _ => { n with meshes := 0 }
  | .window _ => { n with meshes := 0 }

/-- `twopt.py:564-587, 1084-1101, 1496-1513`, `threept.py:638-661, 1528-1545, 2012-2029`: the factor
used; there is no branch for `mesh-mixed` in a box or for a window. -/
def pyUsed (k : Kind) (conv : String) (n : Norms) : Except PyErr ℝ :=
  if conv = "none" then .ok 1
  else if conv = "particle" then .ok n.part
  else if conv = "mesh" then .ok n.mesh
  else
    match k with
    | .survey _ _ => if conv = "mesh-mixed" then .ok n.meshes else .error .nameError
    | .box _ => .error .nameError
    | .window _ => .error .nameError

/-- The dictionary returned by the algorithm. -/
def Res.dict : Res → List (String × Col)
  | .pk r => dictPk r
  | .xi r => dictXi r
  | .bk r => dictBk r
  | .zeta r => dictZeta r

/-- `twopt.py:292-308`, `threept.py:348-371`: `_assemble_measurement_datatab`. -/
def pyTable (h : HP) (three : Bool) (d : List (String × Col)) : Except PyErr (List (List ℝ)) :=
  if h.npoint ≠ (if three then "3pt" else "2pt") then .error .valueError
  else if h.space = "config" then table d (if three then keysZeta else keysXi)
  else if h.space = "fourier" then table d (if three then keysBk else keysPk)
  else .error .nameError

/-- `twopt.py:645-647`: the formats of a row of a two-point table,
`['%.9e'] * 2 + ['%10d'] + ['% .9e'] * (ncol - 3)`. -/
def rowFmt2 (F : Fmt) (j : ℕ) : ℝ → Str :=
  if j < 2 then F.e else if j = 2 then F.d else F.s

/-- A line of a two-point table. -/
def rowLine2 (F : Fmt) (row : List ℝ) : Str :=
  joinTab (row.zipIdx.map fun p : ℝ × ℕ => rowFmt2 F p.2 p.1)

/-- `np.savetxt`: each line of the header is commented out. -/
def savetxt2 (F : Fmt) (header : Str) (rows : List (List ℝ)) : List Str :=
  (splitLines header).map (fun l => '#' :: ' ' :: l) ++ rows.map (rowLine2 F)

/-- A measurement saved as a text file by a Python function: the contents of the file and the results. -/
def pySaved (F : Fmt) (f3 : ℝ → Str) (k : Kind) (three : Bool) (h : HP) (n : Norms) (compute : ℝ → Res) :
    Except PyErr (List Str) :=
  let n := pyNorms k three n
  match pyUsed k h.conv n with
  | .error e => .error e
  | .ok f =>
    let results := compute f
    match pyHeader F f3 three h n with
    | .error e => .error e
    | .ok ls =>
      let header := joinNl [joinNl (pyCatLines f3 k), joinNl ls]
      match pyTable h three results.dict with
      | .error e => .error e
      | .ok rows => .ok (if three then savetxt F header rows else savetxt2 F header rows)

/-! ### The program -/

/-- `io.cpp:113-118, 132-137, 224-228`. -/
def cppSize (f3 : ℝ → Str) (c : CatInfo) : Str :=
  "ntotal = ".toList ++ toStr c.ntotal ++ ", wtotal = ".toList ++ f3 c.wtotal ++ ", wstotal = ".toList ++
    f3 c.wstotal

/-- `io.cpp:119-127, 138-146, 229-237`: `"[(%.3f, %.3f), (%.3f, %.3f), (%.3f, %.3f)]"`. -/
def cppExtents (f3 : ℝ → Str) (c : CatInfo) : Str :=
  "[(".toList ++ f3 (c.lo 0) ++ ", ".toList ++ f3 (c.hi 0) ++ "), (".toList ++ f3 (c.lo 1) ++ ", ".toList ++
    f3 (c.hi 1) ++ "), (".toList ++ f3 (c.lo 2) ++ ", ".toList ++ f3 (c.hi 2) ++ ")]".toList

/-- `io.cpp:108-146` and `io.cpp:219-237`; which is called: `triumvirate.cpp:611-624, 644-657, 674-677,
717-730, 771-784, 823-826, 869-872`. -/
def cppCatLines (f3 : ℝ → Str) : Kind → List Str
  | .survey c d =>
    ["# Data catalogue source: ".toList ++ c.source, "# Data catalogue size: ".toList ++ cppSize f3 c,
     "# Data-source particle extents: ".toList ++ cppExtents f3 c,
     "# Random catalogue source: ".toList ++ d.source, "# Random catalogue size: ".toList ++ cppSize f3 d,
     "# Random-source particle extents: ".toList ++ cppExtents f3 d]
  | .box c =>
    ["# Catalogue source: ".toList ++ c.source, "# Catalogue size: ".toList ++ cppSize f3 c,
     "# Catalogue particle extents: ".toList ++ cppExtents f3 c]
  | .window d =>
    ["# Catalogue source: ".toList ++ d.source, "# Catalogue size: ".toList ++ cppSize f3 d,
     "# Catalogue particle extents: ".toList ++ cppExtents f3 d]

/-- The text of `params.interlace`. -/
def cppBool (b : Bool) : Str := if b then "true".toList else "false".toList

/-- `io.cpp:173-202, 263-292`: no line for another convention. -/
def cppFactorLine (F : Fmt) (conv : String) (n : Norms) : List Str :=
  let line (x : ℝ) : List Str :=
    ["# Normalisation factor: ".toList ++ F.e x ++ " (".toList ++ conv.toList ++ ")".toList]
  if conv = "none" then line 1
  else if conv = "particle" then line n.part
  else if conv = "mesh" then line n.mesh
  else if conv = "mesh-mixed" then line n.meshes
  else []

/-- `io.cpp:148-209, 239-298`: the remaining lines of the header. -/
def cppHeader (F : Fmt) (f3 : ℝ → Str) (h : HP) (n : Norms) : List Str :=
  ["# Box size: [".toList ++ f3 (h.box 0) ++ ", ".toList ++ f3 (h.box 1) ++ ", ".toList ++ f3 (h.box 2) ++
      "]".toList,
   "# Box alignment: ".toList ++ h.alignment,
   "# Mesh number: [".toList ++ toStr (h.ngrid 0) ++ ", ".toList ++ toStr (h.ngrid 1) ++ ", ".toList ++
      toStr (h.ngrid 2) ++ "]".toList,
   "# Mesh assignment and interlacing: ".toList ++ h.assignment ++ ", ".toList ++ cppBool h.interlace] ++
  cppFactorLine F h.conv n ++
  ["# Normalisation factor alternatives: ".toList ++ F.e n.part ++ " (particle), ".toList ++ F.e n.mesh ++
      " (mesh), ".toList ++ F.e n.meshes ++ " (mesh-mixed)".toList]

/-- `triumvirate.cpp:515-547`: the factors computed. -/
def cppNorms (k : Kind) (h : HP) (n : Norms) : Norms :=
  if h.npoint = "2pt" then
    match k with
    | .survey _ _ => n
    | .box _ => { n with meshes := 0 }
    | .window _ => { n with meshes := 0 }
  else if h.npoint = "3pt" then { n with meshes := 0 }
  else ⟨0, 0, 0⟩

/-- `triumvirate.cpp:549-592`: the factor used. -/
def cppUsed (h : HP) (n : Norms) : ℝ :=
  if h.npoint ≠ "none" then
    if h.conv = "none" then 1
    else if h.conv = "particle" then n.part
    else if h.conv = "mesh" then n.mesh
    else if h.conv = "mesh-mixed" then n.meshes
    else 0
  else 0

/-- `io.cpp:378, 402`: `"%.9e\t%.9e\t%10d\t% .9e\t% .9e\t% .9e\t% .9e\n"` and
`"%.9e\t%.9e\t%10d\t% .9e\t% .9e\n"`; `io.cpp:472, 509, 546`:
`"%.9e\t%.9e\t%10d\t%.9e\t%.9e\t%10d\t% .9e\t% .9e\t% .9e\t% .9e\n"`. -/
def cppRowLine (F : Fmt) (row : List ℝ) : Str :=
  match row with
  | [a, b, c, d, e] => F.e a ++ '\t' :: F.e b ++ '\t' :: F.d c ++ '\t' :: F.s d ++ '\t' :: F.s e
  | [a, b, c, d, e, f, g] =>
    F.e a ++ '\t' :: F.e b ++ '\t' :: F.d c ++ '\t' :: F.s d ++ '\t' :: F.s e ++ '\t' :: F.s f ++
      '\t' :: F.s g
  | [a, b, c, d, e, f, g, h, i, j] =>
    F.e a ++ '\t' :: F.e b ++ '\t' :: F.d c ++ '\t' :: F.e d ++ '\t' :: F.e e ++ '\t' :: F.d f ++
      '\t' :: F.s g ++ '\t' :: F.s h ++ '\t' :: F.s i ++ '\t' :: F.s j
  | _ => []

/-- `io.cpp:354-560`: the line of labels and the rows. -/
def cppTable (F : Fmt) (p : P) (dim : ℕ) : Res → List Str
  | .pk r => cppLinePk p.ELL :: (cppRowsPk r dim).map (cppRowLine F)
  | .xi r => cppLineXi p.ELL :: (cppRowsXi r dim).map (cppRowLine F)
  | .bk r => cppLineBk p :: (cppRows3 r dim).map (cppRowLine F)
  | .zeta r => cppLineZeta p :: (cppRows3 r dim).map (cppRowLine F)

/-- The file written by the program. -/
def cppSaved (F : Fmt) (f3 : ℝ → Str) (k : Kind) (h : HP) (n : Norms) (dim : ℕ) (compute : ℝ → Res) :
    List Str :=
  let n := cppNorms k h n
  cppCatLines f3 k ++ cppHeader F f3 h n ++ cppTable F h.p dim (compute (cppUsed h n))

end Trv.Out

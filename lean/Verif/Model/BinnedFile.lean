import Verif.Model.Header
import Verif.Model.FieldStats
/-
Model of the file of binned vectors: `print_binned_vectors_to_file` (`/repo/src/triumvirate/src/io.cpp` 305-352), called by
`record_binned_vectors` (`src/field.cpp` 2486-2500) with the path given by the program
(`main/triumvirate.cpp` 879-883), and of the array which Python returns (`_field.pyx` 21-73).

Simplifications: a file is its list of lines; `%.3f`, `%.9e`, `% .9e` are functions given as parameters; `fopen` succeeds
(its result is not checked).
-/
namespace Trv.Out

open Trv Trv.Par Trv.Mon Trv.Stats

/-- `io.cpp:309-340`: the header. -/
def binnedHeader (f3 : ℝ → Str) (box : Fin 3 → ℝ) (ngrid : Fin 3 → ℤ) (count numBins : ℤ) : List Str :=
  ["# Box size: [".toList ++ f3 (box 0) ++ ", ".toList ++ f3 (box 1) ++ ", ".toList ++ f3 (box 2) ++ "]".toList,
   "# Mesh number: [".toList ++ toStr (ngrid 0) ++ ", ".toList ++ toStr (ngrid 1) ++ ", ".toList ++
     toStr (ngrid 2) ++ "]".toList,
   "# Vector count: ".toList ++ toStr count,
   "# Bin number: ".toList ++ toStr numBins,
   "# [0] bin_index, [1] bin_lower, [2] bin_upper, [3] vec_x, [4] vec_y, [5] vec_z".toList]

/-- `io.cpp:343-351`: a row, `"%d\t%.9e\t%.9e\t% .9e\t% .9e\t% .9e\n"`. -/
def binnedLine (F : Fmt) (r : Rec ℝ) : Str :=
  joinTab [toStr r.idx, F.e r.lower, F.e r.upper, F.s (r.vec 0), F.s (r.vec 1), F.s (r.vec 2)]

/-- `io.cpp:305-352`: the lines of the file. -/
def binnedFile (F : Fmt) (f3 : ℝ → Str) (box : Fin 3 → ℝ) (ngrid : Fin 3 → ℤ) (numBins : ℤ) (vs : List (Rec ℝ)) :
    List Str :=
  binnedHeader f3 box ngrid vs.length numBins ++ vs.map (binnedLine F)

/-- `main/triumvirate.cpp:879-883`: the file saved by the program for its binning. -/
noncomputable def programVectors (F : Fmt) (f3 : ℝ → Str) (m : Binning.MathLib ℝ) (mag : (Fin 3 → ℝ) → ℝ) (B : Binning.Cpp ℝ)
    (ngrid : Fin 3 → ℤ) (box : Fin 3 → ℝ) (order : List (ℤ × ℤ × ℤ)) : List Str :=
  binnedFile F f3 box ngrid B.numBins (recordBinned m mag B ngrid box order)

/-- `_field.pyx:47-73`: the columns of the array returned by Python, row by row. -/
noncomputable def pythonVectors (m : Binning.MathLib ℝ) (mag : (Fin 3 → ℝ) → ℝ) (B : Binning.Cpp ℝ) (ngrid : Fin 3 → ℤ)
    (box : Fin 3 → ℝ) (order : List (ℤ × ℤ × ℤ)) : List (ℤ × ℝ × ℝ × ℝ × ℝ × ℝ) :=
  (recordBinned m mag B ngrid box order).map fun r => (r.idx, r.lower, r.upper, r.vec 0, r.vec 1, r.vec 2)

end Trv.Out

import Verif.Model.CombVectors
/-
Rows of the saved tables, and what a reader should find.
-/
namespace Trv.Cmb

/-- A bin of a two-point measurement. -/
structure Bin2 (K : Type) where
  cen : K
  eff : K
  count : K
  raw : K × K
  shot : K × K

/-- A bin of a three-point measurement. -/
structure Bin3 (K : Type) where
  cen1 : K
  eff1 : K
  count1 : K
  cen2 : K
  eff2 : K
  count2 : K
  raw : K × K
  shot : K × K

variable {K : Type}

/-- `src/io.cpp:364-388`: a row of a saved power spectrum. -/
def Bin2.rowPk (b : Bin2 K) : List K := [b.cen, b.eff, b.count, b.raw.1, b.raw.2, b.shot.1, b.shot.2]

/-- `src/io.cpp:392-412`: a row of a saved two-point correlation function. -/
def Bin2.rowXi (b : Bin2 K) : List K := [b.cen, b.eff, b.count, b.raw.1, b.raw.2]

/-- `src/io.cpp:454-482`: a row of a saved three-point measurement. -/
def Bin3.row (b : Bin3 K) : List K :=
  [b.cen1, b.eff1, b.count1, b.cen2, b.eff2, b.count2, b.raw.1, b.raw.2, b.shot.1, b.shot.2]

end Trv.Cmb

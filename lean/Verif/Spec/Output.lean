import Verif.Model.Output
import Verif.Spec.WinSelect
/-
Specification of saved measurements: what identifies a measurement, and what the columns of a table are.
-/
namespace Trv.Out

open Trv Trv.Par

/-- Three-point statistics. -/
def Three (s : String) : Prop := s = "bispec" ∨ s = "3pcf" ∨ s = "3pcf-win" ∨ s = "3pcf-win-wa"

/-- Two-point statistics. -/
def Two (s : String) : Prop := s = "powspec" ∨ s = "2pcf" ∨ s = "2pcf-win"

instance (s : String) : Decidable (Three s) := by unfold Three; infer_instance

instance (s : String) : Decidable (Two s) := by unfold Two; infer_instance

/-- What identifies a measurement: the statistic, its degrees, the form with the bin it refers to, the
wide-angle orders, and the output tag. -/
def ident (p : P) : String × List ℤ × Option (String × Option ℤ) × Option (ℤ × ℤ) × Str :=
  (p.stat, if Three p.stat then [p.ell1, p.ell2, p.ELL] else [p.ELL],
    if Three p.stat then
      some (p.form, if p.form = "off-diag" ∨ p.form = "row" then p.idxBin else none) else none,
    if p.stat = "3pcf-win-wa" then some (p.iWa, p.jWa) else none, p.tag.getD [])

/-- A text does not begin with a digit. -/
def NoDigit (s : Str) : Prop := ∀ c, s.head? = some c → c.isDigit = false

/-- Single-digit degrees of three-point statistics, and an output tag without dots and slashes which does
not begin with a digit, nor, for a window, like a wide-angle tag. -/
structure Plain (p : P) : Prop where
  dot : '.' ∉ p.tag.getD []
  slash : '/' ∉ p.tag.getD []
  digit : NoDigit (p.tag.getD [])
  degree : 0 ≤ p.ELL
  degrees : Three p.stat → (0 ≤ p.ell1 ∧ p.ell1 ≤ 9) ∧ (0 ≤ p.ell2 ∧ p.ell2 ≤ 9) ∧ p.ELL ≤ 9
  orders : p.stat = "3pcf-win-wa" → (0 ≤ p.iWa ∧ p.iWa ≤ 9) ∧ (0 ≤ p.jWa ∧ p.jWa ≤ 9)
  window : p.stat = "3pcf-win" → ¬ "_wa".toList <+: p.tag.getD []

/-- What a label of the table of a power spectrum stands for, in row `i`. -/
def meansPk (ELL : ℤ) (r : ResPk) (i : ℕ) (l : Str) : Option ℝ :=
  if l = "k_cen".toList then r.kbin[i]?
  else if l = "k_eff".toList then r.keff[i]?
  else if l = "nmodes".toList then r.nmodes[i]?.map fun z : ℤ => (z : ℝ)
  else if l = "Re{pk".toList ++ Mon.toStr ELL ++ "_raw}".toList then r.raw[i]?.map Complex.re
  else if l = "Im{pk".toList ++ Mon.toStr ELL ++ "_raw}".toList then r.raw[i]?.map Complex.im
  else if l = "Re{pk".toList ++ Mon.toStr ELL ++ "_shot}".toList then r.shot[i]?.map Complex.re
  else if l = "Im{pk".toList ++ Mon.toStr ELL ++ "_shot}".toList then r.shot[i]?.map Complex.im
  else none

/-- What a label of the table of a two-point correlation function stands for. -/
def meansXi (ELL : ℤ) (r : ResXi) (i : ℕ) (l : Str) : Option ℝ :=
  if l = "r_cen".toList then r.rbin[i]?
  else if l = "r_eff".toList then r.reff[i]?
  else if l = "npairs".toList then r.npairs[i]?.map fun z : ℤ => (z : ℝ)
  else if l = "Re{xi".toList ++ Mon.toStr ELL ++ "}".toList then r.xi[i]?.map Complex.re
  else if l = "Im{xi".toList ++ Mon.toStr ELL ++ "}".toList then r.xi[i]?.map Complex.im
  else none

/-- What a label of the table of a three-point statistic stands for; the names of the coordinate, of the
counts and of the statistic are given. -/
def means3 (x num st : String) (m : Str) (r : Res3) (i : ℕ) (l : Str) : Option ℝ :=
  if l = x.toList ++ "1_cen".toList then r.bin1[i]?
  else if l = x.toList ++ "1_eff".toList then r.eff1[i]?
  else if l = num.toList ++ "_1".toList then r.num1[i]?.map fun z : ℤ => (z : ℝ)
  else if l = x.toList ++ "2_cen".toList then r.bin2[i]?
  else if l = x.toList ++ "2_eff".toList then r.eff2[i]?
  else if l = num.toList ++ "_2".toList then r.num2[i]?.map fun z : ℤ => (z : ℝ)
  else if l = "Re{".toList ++ st.toList ++ m ++ "_raw}".toList then r.raw[i]?.map Complex.re
  else if l = "Im{".toList ++ st.toList ++ m ++ "_raw}".toList then r.raw[i]?.map Complex.im
  else if l = "Re{".toList ++ st.toList ++ m ++ "_shot}".toList then r.shot[i]?.map Complex.re
  else if l = "Im{".toList ++ st.toList ++ m ++ "_shot}".toList then r.shot[i]?.map Complex.im
  else none

/-- A table of `n` rows in which every column holds what its label stands for. -/
def Faithful (labels : List Str) (rows : List (List ℝ)) (n : ℕ) (means : ℕ → Str → Option ℝ) : Prop :=
  rows.length = n ∧ ∀ (i : ℕ) (row : List ℝ), rows[i]? = some row → row.length = labels.length ∧
    ∀ (c : ℕ) (l : Str), labels[c]? = some l → ∃ x, means i l = some x ∧ row[c]? = some x

/-- Arrays of one length. -/
def ResPk.Len (r : ResPk) (n : ℕ) : Prop :=
  r.kbin.length = n ∧ r.keff.length = n ∧ r.nmodes.length = n ∧ r.raw.length = n ∧ r.shot.length = n

def ResXi.Len (r : ResXi) (n : ℕ) : Prop :=
  r.rbin.length = n ∧ r.reff.length = n ∧ r.npairs.length = n ∧ r.xi.length = n

def Res3.Len (r : Res3) (n : ℕ) : Prop :=
  r.bin1.length = n ∧ r.eff1.length = n ∧ r.num1.length = n ∧ r.bin2.length = n ∧ r.eff2.length = n ∧
    r.num2.length = n ∧ r.raw.length = n ∧ r.shot.length = n

/-- A number is printed as one word without a comment character, possibly after spaces, and is read back
as a rounded number. -/
structure Fmt.Ok (F : Fmt) (rd : ℝ → ℝ) : Prop where
  e : ∀ x, ∃ k w, F.e x = List.replicate k ' ' ++ w ∧ w ≠ [] ∧ (∀ c ∈ w, ws c = false ∧ c ≠ '#') ∧
    F.read w = some (rd x)
  s : ∀ x, ∃ k w, F.s x = List.replicate k ' ' ++ w ∧ w ≠ [] ∧ (∀ c ∈ w, ws c = false ∧ c ≠ '#') ∧
    F.read w = some (rd x)
  d : ∀ x, ∃ k w, F.d x = List.replicate k ' ' ++ w ∧ w ≠ [] ∧ (∀ c ∈ w, ws c = false ∧ c ≠ '#') ∧
    ∃ y, F.read w = some y

end Trv.Out

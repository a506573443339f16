import Verif.Spec.Output
import Verif.Model.Header
/-
Specification of the files in which measurements are saved: which normalisation factor a convention stands
for, what a file reports, and how a file written by Python and one written by the program may differ.
-/
namespace Trv.Out

open Trv Trv.Par

/-- The factor which a convention stands for. -/
def Selects (n : Norms) (conv : String) (f : ℝ) : Prop :=
  (conv = "none" ∧ f = 1) ∨ (conv = "particle" ∧ f = n.part) ∨ (conv = "mesh" ∧ f = n.mesh) ∨
    (conv = "mesh-mixed" ∧ f = n.meshes)

/-- A file has exactly one line on the normalisation factor, with the given factor and convention. -/
def Reports (F : Fmt) (file : List Str) (conv : String) (f : ℝ) : Prop :=
  file.filter (fun l => "# Normalisation factor: ".toList.isPrefixOf l) =
    ["# Normalisation factor: ".toList ++ F.e f ++ " (".toList ++ conv.toList ++ ")".toList]

/-- Parameters as left by the validation: the number of points and the space of the statistic. -/
structure HP.Derived (h : HP) : Prop where
  stat : Two h.p.stat ∨ Three h.p.stat
  npoint : h.npoint = if Three h.p.stat then "3pt" else "2pt"
  space : h.space = if h.p.stat = "powspec" ∨ h.p.stat = "bispec" then "fourier" else "config"

/-- The catalogues. -/
def Kind.cats : Kind → List CatInfo
  | .survey c d => [c, d]
  | .box c => [c]
  | .window d => [d]

/-- Paired survey-like catalogues. -/
def Kind.Paired : Kind → Prop
  | .survey _ _ => True
  | .box _ => False
  | .window _ => False

/-- No line breaks in the texts and the numbers which are printed. -/
structure Printable (f3 : ℝ → Str) (k : Kind) (h : HP) : Prop where
  num : ∀ x, '\n' ∉ f3 x
  source : ∀ c ∈ k.cats, '\n' ∉ c.source
  alignment : '\n' ∉ h.alignment
  assignment : '\n' ∉ h.assignment

/-- The results belong to the statistic, with arrays of one length. -/
def Res.Fits (stat : String) (dim : ℕ) : Res → Prop
  | .pk r => stat = "powspec" ∧ r.Len dim
  | .xi r => (stat = "2pcf" ∨ stat = "2pcf-win") ∧ r.Len dim
  | .bk r => stat = "bispec" ∧ r.Len dim
  | .zeta r => (stat = "3pcf" ∨ stat = "3pcf-win" ∨ stat = "3pcf-win-wa") ∧ r.Len dim

/-- Three numbers between brackets: the extents of the particles as printed with the opening, separating
and closing marks. -/
def extents (f3 : ℝ → Str) (a b c : String) (d : CatInfo) : Str :=
  a.toList ++ f3 (d.lo 0) ++ ", ".toList ++ f3 (d.hi 0) ++ b.toList ++ f3 (d.lo 1) ++ ", ".toList ++
    f3 (d.hi 1) ++ b.toList ++ f3 (d.lo 2) ++ ", ".toList ++ f3 (d.hi 2) ++ c.toList

/-- The lines in which the files may differ: the brackets around the extents of the particles, the case of
the interlacing flag, and, for three points, a remark on the third factor. -/
inductive Differ (f3 : ℝ → Str) (k : Kind) (h : HP) : Str → Str → Prop
  | extents (lead : Str) (c : CatInfo) (hc : c ∈ k.cats) :
      Differ f3 k h (lead ++ extents f3 "([" "], [" "])" c) (lead ++ extents f3 "[(" "), (" ")]" c)
  | interlacing (lead : Str) :
      Differ f3 k h (lead ++ (if h.interlace then "True" else "False").toList)
        (lead ++ (if h.interlace then "true" else "false").toList)
  | alternatives (lead : Str) (h3 : Three h.p.stat) :
      Differ f3 k h (lead ++ " (mesh-mixed; n/a)".toList) (lead ++ " (mesh-mixed)".toList)

end Trv.Out

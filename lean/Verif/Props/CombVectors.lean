import Verif.Spec.CombVectors
import Mathlib.Data.List.Basic
import Mathlib.Algebra.Group.Int.Defs
/-
C169: saved measurements read and combined into data vectors.
-/
namespace Trv.Cmb
open Trv

variable {K : Type}

/-- All rows give their chosen entries. -/
theorem pickAll_map {α : Type} (f g : α → List K) (cs : List ℕ) (h : ∀ a, pick (f a) cs = .ok (g a))
    (l : List α) : pickAll cs (l.map f) = .ok (l.map g) := by
  induction l with
  | nil => rfl
  | cons a l ih =>
    rw [List.map_cons, pickAll, h a]
    simp only [ih, Except.map, List.map_cons]

/-- Column `j` of a table of two or more rows. -/
theorem column_map {α : Type} (f : α → List K) (j : ℕ) (g : α → K) (h : ∀ a, (f a)[j]? = some (g a))
    (a b : α) (l : List α) :
    column ((a :: b :: l).map f) j = .ok (.vec ((a :: b :: l).map g)) := by
  have hp : ∀ a, pick (f a) [j] = .ok [g a] := fun a => by simp [pick, h a, Except.map]
  have e := pickAll_map f (fun a => [g a]) [j] hp (a :: b :: l)
  have fl : ∀ l : List α, (l.map fun a => [g a]).flatten = l.map g := by
    intro l
    induction l with
    | nil => rfl
    | cons x l ih => simp [ih]
  rw [List.map_cons, List.map_cons, column]
  · rw [← List.map_cons, ← List.map_cons, e]
    simp only [fl]
  · simp
  · simp

theorem column_short {α : Type} (f : α → List K) (j : ℕ) (h : ∀ a, (f a)[j]? = none)
    (a b : α) (l : List α) : column ((a :: b :: l).map f) j = .error .indexError := by
  rw [List.map_cons, List.map_cons, column]
  · simp [pickAll, pick, h a]
  · simp
  · simp

theorem zip_parts {α : Type} (l : List α) (f g : α → K) :
    (l.map f).zip (l.map g) = l.map fun a => (f a, g a) := by
  induction l with
  | nil => rfl
  | cons a l ih => simp [ih]

variable [Zero K]

/-- **C169 (two-point), for two or more bins.** A saved power spectrum is read as it was measured: centres,
effective coordinates, counts, raw power and shot noise in their places; a saved correlation function too,
with shot noise zero in every bin.  Missing: a single bin and three-point measurements, see the violations. -/
theorem C169_two_point_partial (a b : Bin2 K) (l : List (Bin2 K)) :
    readFile .pk ((a :: b :: l).map Bin2.rowPk) = .ok
      ⟨.vec ((a :: b :: l).map Bin2.cen), .vec ((a :: b :: l).map Bin2.eff),
       .vec ((a :: b :: l).map Bin2.count), .vec ((a :: b :: l).map Bin2.raw),
       .vec ((a :: b :: l).map Bin2.shot)⟩ ∧
    readFile .xi ((a :: b :: l).map Bin2.rowXi) = .ok
      ⟨.vec ((a :: b :: l).map Bin2.cen), .vec ((a :: b :: l).map Bin2.eff),
       .vec ((a :: b :: l).map Bin2.count), .vec ((a :: b :: l).map Bin2.raw),
       .vec ((a :: b :: l).map fun _ => (0, 0))⟩ := by
  constructor
  · unfold readFile
    rw [pickAll_map Bin2.rowPk Bin2.rowPk (useCols .pk) (fun b => rfl)]
    simp only [bind, Except.bind]
    rw [column_map Bin2.rowPk 0 Bin2.cen (fun _ => rfl), column_map Bin2.rowPk 1 Bin2.eff (fun _ => rfl),
      column_map Bin2.rowPk 2 Bin2.count (fun _ => rfl),
      column_map Bin2.rowPk 3 (fun b => b.raw.1) (fun _ => rfl),
      column_map Bin2.rowPk 4 (fun b => b.raw.2) (fun _ => rfl),
      column_map Bin2.rowPk 5 (fun b => b.shot.1) (fun _ => rfl),
      column_map Bin2.rowPk 6 (fun b => b.shot.2) (fun _ => rfl)]
    simp only [complex, zip_parts]
    rfl
  · unfold readFile
    rw [pickAll_map Bin2.rowXi Bin2.rowXi (useCols .xi) (fun b => rfl)]
    simp only [bind, Except.bind]
    rw [column_map Bin2.rowXi 0 Bin2.cen (fun _ => rfl), column_map Bin2.rowXi 1 Bin2.eff (fun _ => rfl),
      column_map Bin2.rowXi 2 Bin2.count (fun _ => rfl),
      column_map Bin2.rowXi 3 (fun b => b.raw.1) (fun _ => rfl),
      column_map Bin2.rowXi 4 (fun b => b.raw.2) (fun _ => rfl),
      column_short Bin2.rowXi 5 (fun _ => rfl)]
    simp only [complex, zip_parts]
    have hl : lastDim ((a :: b :: l).map Bin2.rowXi) = (a :: b :: l).length := by
      simp [lastDim]
    rw [hl, ← List.map_const']
    rfl

/-- The seven columns read from a row of a three-point table. -/
def Bin3.seen (b : Bin3 K) : List K :=
  [b.count1, b.cen2, b.eff2, b.count2, b.raw.1, b.raw.2, b.shot.1]

/-- **C169 is violated for three-point measurements**: counts are read as bin centres, centres as effective
coordinates, effective coordinates as counts; the raw statistic is read as the count with the real part as
imaginary part, and the shot noise as the imaginary part with the real part of the shot noise as
imaginary part.  The imaginary part of the shot noise is not read. -/
theorem C169_three_point_violated (s : Stat) (hs : s = .bk ∨ s = .zeta) (a b : Bin3 K)
    (l : List (Bin3 K)) :
    readFile s ((a :: b :: l).map Bin3.row) = .ok
      ⟨.vec ((a :: b :: l).map Bin3.count1), .vec ((a :: b :: l).map Bin3.cen2),
       .vec ((a :: b :: l).map Bin3.eff2), .vec ((a :: b :: l).map fun b => (b.count2, b.raw.1)),
       .vec ((a :: b :: l).map fun b => (b.raw.2, b.shot.1))⟩ := by
  have hu : useCols s = useCols .bk := by rcases hs with rfl | rfl <;> rfl
  unfold readFile
  rw [hu, pickAll_map Bin3.row Bin3.seen (useCols .bk) (fun b => rfl)]
  simp only [bind, Except.bind]
  rw [column_map Bin3.seen 0 Bin3.count1 (fun _ => rfl), column_map Bin3.seen 1 Bin3.cen2 (fun _ => rfl),
    column_map Bin3.seen 2 Bin3.eff2 (fun _ => rfl), column_map Bin3.seen 3 Bin3.count2 (fun _ => rfl),
    column_map Bin3.seen 4 (fun b => b.raw.1) (fun _ => rfl),
    column_map Bin3.seen 5 (fun b => b.raw.2) (fun _ => rfl),
    column_map Bin3.seen 6 (fun b => b.shot.1) (fun _ => rfl)]
  simp only [complex, zip_parts]
  rfl

/-- **C169 is violated for a single bin**: a table of one row is squeezed; the correlation function is given
five entries of shot noise, and the centres cannot be combined. -/
theorem C169_one_bin_violated (b : Bin2 K) (rs : List (Read K)) :
    readFile .xi [b.rowXi] = .ok ⟨.scalar b.cen, .scalar b.eff, .scalar b.count, .scalar b.raw,
      .vec (List.replicate 5 (0, 0))⟩ ∧
    ∀ r, (readFile .xi [b.rowXi] = .ok r ∨ readFile .pk [b.rowPk] = .ok r) →
      combine (r :: rs) = .error .valueError := by
  have h1 : readFile .xi [b.rowXi] = .ok ⟨.scalar b.cen, .scalar b.eff, .scalar b.count, .scalar b.raw,
      .vec (List.replicate 5 (0, 0))⟩ := rfl
  have h2 : readFile .pk [b.rowPk] = .ok ⟨.scalar b.cen, .scalar b.eff, .scalar b.count, .scalar b.raw,
      .scalar b.shot⟩ := rfl
  refine ⟨h1, fun r hr => ?_⟩
  rcases hr with hr | hr
  · rw [h1] at hr; cases hr; rfl
  · rw [h2] at hr; cases hr; rfl

omit [Zero K] in
/-- **C169 (order).** Components of two or more bins are combined in the order given: centres, coordinates
and counts are those of the components one after the other, so that they stay aligned. -/
theorem C169_combined (ls : List (List K × List K × List K)) (raw shot : Arr (K × K)) :
    combine (ls.map fun x => ⟨.vec x.1, .vec x.2.1, .vec x.2.2, raw, shot⟩)
      = .ok ((ls.map fun x => x.1).flatten, (ls.map fun x => x.2.1).flatten,
          (ls.map fun x => x.2.2).flatten) := by
  have key : ∀ f : List K × List K × List K → List K,
      concatenate (ls.map fun x => Arr.vec (f x)) = .ok (ls.map f).flatten := by
    intro f
    induction ls with
    | nil => rfl
    | cons x ls ih => simp only [List.map_cons, concatenate, ih, Except.map, List.flatten_cons]
  unfold combine
  simp only [List.map_map, Function.comp_def, key]
  rfl

/-- **C169 (realisations).** Row `i` of the combined data vectors consists of the vectors of file `i` of each
component, one after the other, when all components have the same number of files; otherwise the script
fails. -/
theorem C169_rows {α : Type} (A : List (List α)) (Bs : List (List (List α))) :
    (∀ C, hstack A Bs = .ok C → (∀ B ∈ Bs, B.length = A.length) ∧ C.length = A.length ∧
      ∀ i, i < A.length → C[i]? = some ((A :: Bs).map fun B => B[i]?.getD []).flatten) ∧
    ((∀ B ∈ Bs, B.length = A.length) → ∃ C, hstack A Bs = .ok C) := by
  induction Bs generalizing A with
  | nil =>
    refine ⟨fun C h => ?_, fun _ => ⟨A, rfl⟩⟩
    cases h
    refine ⟨by simp, rfl, fun i hi => ?_⟩
    simp [List.getElem?_eq_getElem hi]
  | cons B Bs ih =>
    rw [hstack, hstack2]
    by_cases hl : A.length = B.length
    · rw [if_pos hl]
      have hz : (List.zipWith (· ++ ·) A B).length = A.length := by simp [hl]
      obtain ⟨h1, h2⟩ := ih (List.zipWith (· ++ ·) A B)
      rw [hz] at h1 h2
      refine ⟨fun C hC => ?_, fun h => h2 fun D hD => h D (by simp [hD])⟩
      obtain ⟨e1, e2, e3⟩ := h1 C hC
      refine ⟨fun D hD => ?_, e2, fun i hi => ?_⟩
      · rcases List.mem_cons.1 hD with rfl | hD
        · exact hl.symm
        · exact e1 D hD
      · have hb : i < B.length := hl ▸ hi
        rw [e3 i hi]
        simp [List.getElem?_zipWith, List.getElem?_eq_getElem hi, List.getElem?_eq_getElem hb]
    · rw [if_neg hl]
      exact ⟨fun C hC => by simp at hC, fun h => absurd (h B (by simp)).symm hl⟩

example : hstack [[1, 2], [3, 4]] [[[5], [6]], [[7], [8]]] = .ok [[1, 2, 5, 7], [3, 4, 6, 8]] := by
  decide +kernel

/-- Two bins of a bispectrum with 8 and 12 modes: the modes are taken for bin centres. -/
example : (readFile .bk ([⟨1, 1, 8, 1, 1, 8, (500, 0), (3, 0)⟩, ⟨2, 2, 12, 2, 2, 12, (400, 0), (3, 0)⟩].map
    (Bin3.row (K := Int)))).map Read.bins = .ok (.vec [8, 12]) := by decide +kernel

example : (readFile .pk ([⟨1, 1, 8, (500, 0), (3, 0)⟩, ⟨2, 2, 12, (400, 0), (3, 0)⟩].map
    (Bin2.rowPk (K := Int)))).map Read.bins = .ok (.vec [1, 2]) := by decide +kernel

end Trv.Cmb

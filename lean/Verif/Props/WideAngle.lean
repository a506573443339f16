import Verif.Lemmas.WideAngle
import Verif.Props.ThreePcf
import Verif.Props.Translate
import Verif.Lemmas.WideWitness
/-
Property theorems on the wide-angle corrections of the three-point window function (C112).
-/
namespace Trv.Zeta
open Trv.Mesh Trv.Stats Trv.Win Trv.Two Trv.ThreePt Trv.Bis

/-! ### C112 -/

theorem besselTriangles_congr (E : Env3) (f : ℤ × ℤ × ℤ → ℂ) {h h' : ℤ × ℤ × ℤ → ℂ}
    (hh : ∀ k ∈ box E.mesh.n, h k = h' k) (t : Triplet) (ra rb : ℝ) :
    besselTriangles E f h t ra rb = besselTriangles E f h' t ra rb := by
  classical
  unfold besselTriangles
  congr 1
  apply Finset.sum_congr rfl
  intro a _
  apply Finset.sum_congr rfl
  intro b _
  apply Finset.sum_congr rfl
  intro c hc
  rw [Finset.mem_filter, allModes_eq] at hc
  rw [hh c hc.1]

theorem zetaSum_congr (E : Env3) (ts : List Triplet) (f : ℤ × ℤ × ℤ → ℂ) {h h' : ℤ → ℤ × ℤ × ℤ → ℂ}
    (hh : ∀ M, ∀ k ∈ box E.mesh.n, h M k = h' M k) (row col : ℤ) :
    zetaSum E ts f h row col = zetaSum E ts f h' row col := by
  unfold zetaSum
  simp only [fun t : Triplet => besselTriangles_congr E f (hh t.M) t]

/-- **C112.** With wide-angle corrections of orders `(i, j)` each raw entry of the three-point window
function is the sum over triangles of `C105`, with the field at the vertex weighted by the power
`-i-j` of the distance of the cell (cells closer than `1e-6` are not weighted). -/
theorem C112_wide_angle (E : Env3) (hM : E.mesh.Valid) (hn : ∀ a, 2 ≤ E.mesh.n a) (rand : List Part)
    (alpha norm : ℝ) (i j : ℕ) (rows : List RowZ)
    (h : compute3pcfWindow E rand alpha (some (i, j)) norm = .ok rows) (e : Entry)
    (he : e ∈ measWrites E.numBins E.form) :
    ∃ r, rows[e.pos.toNat]? = some r ∧
      r.raw = (norm : ℂ) * zetaSum E (triplets E)
        (comp E (fourier E.mesh (nField E.toEnv rand alpha 0 0)))
        (fun M => weighted E i j (fourier E.mesh (nField E.toEnv rand alpha E.ELL M))) e.row e.col := by
  obtain ⟨r, hr, hraw, _⟩ := measure_row hM (F := windowFields E rand alpha (some (i, j))) h
    (fun M => uncomp E (weighted E i j (fourier E.mesh (nField E.toEnv rand alpha E.ELL M))))
    (fun _ _ => isG_wide E hM hn i j _) he
  refine ⟨r, hr, hraw.trans (congrArg (fun z => (norm : ℂ) * z) ?_)⟩
  exact zetaSum_congr E _ _ (fun _ k hk => comp_uncomp E hn _ hk) _ _

/-- **C112 (zero orders).** Corrections of orders `(0, 0)` are none. -/
theorem C112_zero_orders (E : Env3) (rand : List Part) (alpha norm : ℝ) :
    compute3pcfWindow E rand alpha (some (0, 0)) norm = compute3pcfWindow E rand alpha none norm := by
  have : ∀ f, wideAngle E (some (0, 0)) f = wideAngle E none f := by
    intro f
    funext g
    unfold wideAngle
    simp
  unfold compute3pcfWindow windowFields
  simp only [this]

/-- **C112 (total order).** Corrections depend on the total order only. -/
theorem C112_total_order (E : Env3) (rand : List Part) (alpha norm : ℝ) (i j i' j' : ℕ) (hij : i + j = i' + j') :
    compute3pcfWindow E rand alpha (some (i, j)) norm = compute3pcfWindow E rand alpha (some (i', j')) norm := by
  have : ∀ f, wideAngle E (some (i, j)) f = wideAngle E (some (i', j')) f := by
    intro f
    funext g
    unfold wideAngle
    simp only
    rw [show -(i : ℤ) - (j : ℤ) = -(i' : ℤ) - (j' : ℤ) by omega]
  unfold compute3pcfWindow windowFields
  simp only [this]

/-- The measurement in the example. -/
theorem exV_raw (z : ℕ) (hz : z < 2) (rows : List RowZ)
    (h : compute3pcfWindow exV [exQ z] 1 (some (1, 1)) 1 = .ok rows) :
    (rows[0]?).map RowZ.raw = some
      (((if z = 0 then 35 / 48 + 7 / 32 * Real.pi - 1 / 64 * Real.pi ^ 2 - 5 / 384 * Real.pi ^ 3
        else 35 / 48 + 7 / 96 * Real.pi + 1 / 192 * Real.pi ^ 2 + 5 / 384 * Real.pi ^ 3 : ℝ) : ℂ) / 64) := by
  have he : (⟨0, 0, 0⟩ : Entry) ∈ measWrites exV.numBins exV.form := by
    show _ ∈ measWrites 1 .diag
    decide
  obtain ⟨r, hr, hraw⟩ := C112_wide_angle exV exV_valid (fun _ => le_refl (2 : ℤ)) [exQ z] 1 1 1 1 rows h _ he
  have hr : rows[0]? = some r := hr
  rw [hr, Option.map_some, hraw, exV_triplets]
  unfold zetaSum
  rw [List.map_singleton, List.sum_singleton, exV_coupling]
  have h00 : ((0, 0, 0) : ℤ × ℤ × ℤ) ∈ box exV.mesh.n := by
    rw [mem_box]
    exact ⟨⟨le_refl _, show (0 : ℤ) < 2 by norm_num⟩, ⟨le_refl _, show (0 : ℤ) < 2 by norm_num⟩, le_refl _,
      show (0 : ℤ) < 2 by norm_num⟩
  show some ((((1 : ℝ) : ℂ)) * (((1 : ℝ) : ℂ) * Complex.I ^ (0 + 0) * mirrored (fMirror exV ⟨0, 0, 0⟩)
    (besselTriangles exV _ (weighted exV 1 1 (fourier exV.mesh (nField exV.toEnv [exQ z] 1 0 0))) ⟨0, 0, 0⟩
      (meanSep exV 0) (meanSep exV 0)))) = _
  rw [exV_sep, exV_triangles, exV_weighted z hz, exV_comp z hz h00]
  have hw : windowFresh (fun _ => 2) 0 0 0 1 = 1 := by
    rw [exV_window (Or.inl rfl) (Or.inl rfl) (Or.inl rfl)]
    unfold ax2
    norm_num
  have hp : phase3 (fun _ => 2) (-1) (0, 0, 0) (0, 0, (z : ℤ)) = 1 := by
    rw [phase_two]
    simp [root_zero]
  rw [hw, hp]
  have hm : ∀ y : ℂ, mirrored (fMirror exV ⟨0, 0, 0⟩) y = y := by
    intro y
    have h0 : factorMirror (exV.ELL : ℤ) ⟨0, 0, 0⟩ = 0 := rfl
    unfold mirrored fMirror
    rw [h0]
    simp
  rw [hm]
  norm_num

/-- **C111 (wide-angle corrections, violated).** The distance in the power law is that of the cell
from the corner of the box, wrapped periodically, and not that from the observer.  Displacing the
catalogue in the box with unchanged lines of sight and weights changes the window function: the two
catalogues of one particle below differ by the displacement of one cell. -/
theorem C111_wide_angle_violated :
    Displaced exV.toEnv (fun a => if a = 2 then 1 else 0) [exQ 0] [exQ 1] ∧
    ∃ rows rows', compute3pcfWindow exV [exQ 0] 1 (some (1, 1)) 1 = .ok rows ∧
      compute3pcfWindow exV [exQ 1] 1 (some (1, 1)) 1 = .ok rows' ∧
      (⟨0, 0, 0⟩ : Entry) ∈ measWrites exV.numBins exV.form ∧
      (rows'[0]?).map RowZ.raw ≠ (rows[0]?).map RowZ.raw := by
  have hw : epsCoupling ≤ |exV.w3j exV.ell1 exV.ell2 exV.ELL 0 0 0| := by
    show epsCoupling ≤ |zeroW 0 0 0 0 0 0|
    unfold epsCoupling zeroW
    norm_num
  have hf : ValidForm exV.numBins exV.form := trivial
  obtain ⟨rows, h, _⟩ := (C37_3pcf_defined exV hw hf [] [exQ 0] [] 1 1 (some (1, 1))).2.2
  obtain ⟨rows', h', _⟩ := (C37_3pcf_defined exV hw hf [] [exQ 1] [] 1 1 (some (1, 1))).2.2
  refine ⟨?_, rows, rows', h, h', ?_, ?_⟩
  · have hin : ∀ z : ℕ, z < 2 → PosInBox exV.mesh (exQ z).pos := by
      intro z hz ax
      have : ((z : ℕ) : ℝ) < 2 := by exact_mod_cast hz
      fin_cases ax
      · exact ⟨le_refl (0 : ℝ), show (0 : ℝ) < 2 by norm_num⟩
      · exact ⟨le_refl (0 : ℝ), show (0 : ℝ) < 2 by norm_num⟩
      · exact ⟨show (0 : ℝ) ≤ z from Nat.cast_nonneg z, this⟩
    refine ⟨List.Forall₂.cons ⟨rfl, fun ax => ⟨0, ?_⟩⟩ List.Forall₂.nil, ?_, ?_, ?_, ?_⟩
    · fin_cases ax
      · show (0 : ℝ) = 0 + ((0 : ℤ) : ℝ) * (2 / ((2 : ℤ) : ℝ)) + ((0 : ℤ) : ℝ) * 2; norm_num
      · show (0 : ℝ) = 0 + ((0 : ℤ) : ℝ) * (2 / ((2 : ℤ) : ℝ)) + ((0 : ℤ) : ℝ) * 2; norm_num
      · show ((1 : ℕ) : ℝ) = ((0 : ℕ) : ℝ) + ((1 : ℤ) : ℝ) * (2 / ((2 : ℤ) : ℝ)) + ((0 : ℤ) : ℝ) * 2; norm_num
    · intro p hp
      rw [List.mem_singleton.1 hp]
      exact hin 0 (by norm_num)
    · intro p hp
      rw [List.mem_singleton.1 hp]
      exact hin 1 (by norm_num)
    · intro hi; cases hi
    · intro hi; cases hi
  · show _ ∈ measWrites 1 .diag
    decide
  · rw [exV_raw 0 (by norm_num) rows h, exV_raw 1 (by norm_num) rows' h', if_pos rfl, if_neg (by norm_num)]
    intro e
    rw [Option.some_inj, div_left_inj' (by norm_num), Complex.ofReal_inj] at e
    have hpi := Real.pi_gt_three
    nlinarith [mul_pos (lt_trans (by norm_num) hpi) (lt_trans (by norm_num : (0 : ℝ) < 3) hpi)]

/-- A case of `C111` (two-point): the displaced catalogue of the example. -/
example : computeCorrfuncWindow exV.toEnv [exQ 1] 1 1 = computeCorrfuncWindow exV.toEnv [exQ 0] 1 1 :=
  (C111_two_point exV.toEnv exV_valid _ [exQ 0] [exQ 1] [exQ 0] [exQ 1] C111_wide_angle_violated.1
    C111_wide_angle_violated.1 1 1).2.2

end Trv.Zeta

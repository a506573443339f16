import Verif.Lemmas.ThreePcf
import Verif.Lemmas.Mirror
import Mathlib.Tactic.FinCases
/-
Lemmas for the property theorems on the three-point correlation function.
-/
namespace Trv.Zeta
open Trv.Mesh Trv.Stats Trv.Win Trv.Two Trv.ThreePt Trv.Bis

theorem recorded_pos (E : Env3) {e : Entry} (h : e ∈ measWrites E.numBins E.form) :
    recorded E e.pos = some e := by
  unfold recorded
  cases hf : (measWrites E.numBins E.form).find? fun x => x.pos = e.pos with
  | none =>
    have := List.find?_eq_none.1 hf e h
    simp at this
  | some x =>
    have h1 := List.mem_of_find?_eq_some hf
    have h2 := List.find?_some hf
    rw [entry_unique E.numBins E.form h1 h (by simpa using h2)]

/-- One addition at each position. -/
theorem runAdds_upto (n : ℕ) (f : Form) (v : ℤ → ℂ) {e : Entry} (h : e ∈ measWrites n f) :
    runAdds ((upto 0 (dim n f)).map fun i => ⟨i, v i⟩) e.pos = v e.pos := by
  rw [← measWrites_pos n (by omega) f, List.map_map]
  exact runAdds_entries n f (fun e => v e.pos) h

/-- Additions at the entries of equal bins. -/
theorem runAdds_diag (n : ℕ) (f : Form) (hf : ValidForm n f) (v : ℤ → ℂ) {e : Entry}
    (h : e ∈ measWrites n f) :
    runAdds ((noiseWrites3pcf n f).map fun w => ⟨w.2, v w.1⟩) e.pos =
      if e.row = e.col then v e.row else 0 := by
  rw [(C37_3pcf_diagonal_writes n (by omega) f hf).1, List.map_map]
  have key := runAdds_entries n f (fun e => if e.row = e.col then v e.row else 0) h
  rw [← key, runAdds_sum, runAdds_sum, List.map_map, List.map_map]
  generalize measWrites n f = l
  induction l with
  | nil => rfl
  | cons x l ih =>
    rw [List.filter_cons, List.map_cons, List.sum_cons]
    by_cases hx : x.row = x.col
    · rw [if_pos (by simpa using hx), List.map_cons, List.sum_cons, ih]
      simp only [Function.comp, if_pos hx]
    · rw [if_neg (by simpa using hx), ih]
      simp [Function.comp, hx]

theorem mem_bins (n : ℕ) (f : Form) (hf : ValidForm n f) {e : Entry} (h : e ∈ measWrites n f) :
    (0 ≤ e.row ∧ e.row < n) ∧ 0 ≤ e.col ∧ e.col < n := by
  have := ((C36_layout_bijection n (by omega) f hf).2.2.1 e.row e.col).1 ⟨e.pos, h⟩
  cases f <;> simp only [InForm, ValidForm] at this hf <;> omega

/-- A valid form is measured without access out of bounds. -/
theorem access_ok (E : Env3) (hf : ValidForm E.numBins E.form) (ts : List Triplet) : accessOk E ts := by
  refine Or.inr ⟨?_, ?_⟩
  · intro w hw
    obtain ⟨h1, h2⟩ := C37_3pcf_diagonal_writes E.numBins (by omega) E.form hf
    refine ⟨?_, h2 w hw⟩
    rw [h1] at hw
    obtain ⟨e, he, rfl⟩ := List.mem_map.1 hw
    exact (mem_bins E.numBins E.form hf (List.mem_filter.1 he).1).1
  · intro e he
    exact ⟨(mem_bins E.numBins E.form hf he).1, (mem_bins E.numBins E.form hf he).2,
      entry_range E.numBins E.form he⟩

theorem measure_ok {E : Env3} {F : Fields} {ts : List Triplet} {norm : ℝ} {rows : List RowZ}
    (h : measure E F ts norm = .ok rows) :
    ¬ |E.w3j E.ell1 E.ell2 E.ELL 0 0 0| < epsCoupling ∧ accessOk E ts ∧
    rows = (upto 0 (dim E.numBins E.form)).map fun i =>
      { r1bin := recCentre E ts Entry.row i
        r2bin := recCentre E ts Entry.col i
        r1eff := (recBin E F ts Entry.row i).len
        r2eff := (recBin E F ts Entry.col i).len
        npairs1 := (recBin E F ts Entry.row i).num
        npairs2 := (recBin E F ts Entry.col i).num
        raw := (norm : ℂ) * runAdds (ts.flatMap (zetaAdds E F ts)) i
        shot := (norm : ℂ) * runAdds (ts.flatMap (noiseAdds E F)) i } := by
  unfold measure at h
  by_cases h1 : |E.w3j E.ell1 E.ell2 E.ELL 0 0 0| < epsCoupling
  · rw [if_pos h1] at h; cases h
  rw [if_neg h1] at h
  by_cases h2 : accessOk E ts
  · rw [if_pos h2] at h
    injection h with h
    exact ⟨h1, h2, h.symm⟩
  · rw [if_neg h2] at h; cases h

/-- The bin recorded at an entry. -/
theorem recBin_eq (E : Env3) (hn : ∀ a, 0 < E.mesh.n a) (F : Fields) (ts : List Triplet) (hne : ts ≠ [])
    (side : Entry → ℤ) {e : Entry} (he : e ∈ measWrites E.numBins E.form) (hb : binOk E (side e)) :
    (recBin E F ts side e.pos).len = meanSep E (side e) ∧
    (recBin E F ts side e.pos).num = (shell E (side e)).card ∧
    recCentre E ts side e.pos = E.centres.getD (side e).toNat 0 := by
  obtain ⟨t, ts', rfl⟩ := List.exists_cons_of_ne_nil hne
  unfold recBin recCentre
  rw [recorded_pos E he]
  simp only
  unfold stats3
  rw [uncoupled3_bin E hn _ _ _ t hb.1 hb.2]
  exact ⟨rfl, rfl, trivial⟩

theorem raw_value (E : Env3) (hM : E.mesh.Valid) (F : Fields) (h : ℤ → ℤ → ℂ) (ts : List Triplet)
    (hG : ∀ t ∈ ts, IsG E (h t.M) (F.G t.M)) (ha : accessOk E ts) {e : Entry}
    (he : e ∈ measWrites E.numBins E.form) :
    runAdds (ts.flatMap (zetaAdds E F ts)) e.pos =
      (ts.map fun t => (coupling3 E t : ℂ) * Complex.I ^ (E.ell1 + E.ell2) * mirrored (fMirror E t)
        (besselTriangles E (comp E F.f00) (comp E (h t.M)) t (meanSep E e.row) (meanSep E e.col))).sum := by
  rw [runAdds_flatMap]
  congr 1
  apply List.map_congr_left
  intro t ht
  have hne : ts ≠ [] := List.ne_nil_of_mem ht
  have hb : binOk E e.row ∧ binOk E e.col := by
    rcases ha with h0 | h0
    · exact absurd h0 hne
    · exact ⟨(h0.2 e he).1, (h0.2 e he).2.1⟩
  unfold zetaAdds
  rw [runAdds_upto E.numBins E.form (fun i => ((coupling3 E t * E.mesh.volCell : ℝ) : ℂ) *
      Complex.I ^ (E.ell1 + E.ell2) * mirrored (fMirror E t) (zetaComponent E F t
        (recBin E F ts Entry.row i).len (recBin E F ts Entry.col i).len)) he]
  rw [(recBin_eq E (fun a => (hM a).1) F ts hne Entry.row he hb.1).1,
    (recBin_eq E (fun a => (hM a).1) F ts hne Entry.col he hb.2).1,
    ← zeta_value E hM F (h t.M) t (hG t ht), ← mirrored_real]
  push_cast
  ring

/-- The cells are not tiny. -/
def Resolved (M : Mesh ℝ) : Prop := ∀ a, (1 : ℝ) / 1000000000 ≤ M.L a / M.n a

theorem rvec_xy (M : Mesh ℝ) (hM : M.Valid) (hr : Resolved M) (c : ℤ × ℤ × ℤ) :
    (rvec M c 0 = 0 ∧ rvec M c 1 = 0) ∨
      (1 : ℝ) / 1000000000 ≤ Real.sqrt (rvec M c 0 * rvec M c 0 + rvec M c 1 * rvec M c 1) := by
  have key : ∀ a, rvec M c a = 0 ∨ (1 : ℝ) / 1000000000 ≤ |rvec M c a| := by
    intro a
    have h : ∃ j : ℤ, rvec M c a = (j : ℝ) * (M.L a / M.n a) := by
      unfold rvec gridVec
      fin_cases a
      · simp only
        split_ifs
        · exact ⟨c.1, rfl⟩
        · exact ⟨c.1 - M.n 0, rfl⟩
      · simp only
        split_ifs
        · exact ⟨c.2.1, rfl⟩
        · exact ⟨c.2.1 - M.n 1, rfl⟩
      · simp only
        split_ifs
        · exact ⟨c.2.2, rfl⟩
        · exact ⟨c.2.2 - M.n 2, rfl⟩
    obtain ⟨j, hj⟩ := h
    have hp : 0 < M.L a / M.n a := lt_of_lt_of_le (by norm_num) (hr a)
    by_cases h0 : j = 0
    · left; rw [hj, h0]; simp
    · right
      rw [hj, abs_mul, abs_of_pos hp]
      have : (1 : ℝ) ≤ |(j : ℝ)| := by exact_mod_cast Int.one_le_abs h0
      calc (1 : ℝ) / 1000000000 ≤ M.L a / M.n a := hr a
        _ ≤ |(j : ℝ)| * (M.L a / M.n a) := le_mul_of_one_le_left hp.le this
  have hs : ∀ x y : ℝ, (1 : ℝ) / 1000000000 ≤ |x| → (1 : ℝ) / 1000000000 ≤ Real.sqrt (x * x + y * y) := by
    intro x y h
    apply Real.le_sqrt_of_sq_le
    have := mul_self_le_mul_self (by norm_num) h
    rw [abs_mul_abs_self] at this
    nlinarith [mul_self_nonneg y]
  rcases key 0 with h0 | h0
  · rcases key 1 with h1 | h1
    · exact Or.inl ⟨h0, h1⟩
    · right; rw [add_comm]; exact hs _ _ h1
  · exact Or.inr (hs _ _ h0)

/-- What is computed and what is meant, in terms of each other. -/
theorem shellMean_eq (E : Env3) (hP : LegendreLike E.P) (hM : E.mesh.Valid) (hr : Resolved E.mesh)
    (fa fb : ℤ → ℂ) (amp : ℂ) (t : Triplet) (h1 : |t.m1| ≤ E.ell1) (h2 : |t.m2| ≤ E.ell2) (b : ℤ) :
    selfPairs E fa fb amp t b = (-1) ^ (E.ell1 + E.ell2) * shellMean E fa fb amp t b := by
  unfold selfPairs shellMean
  rw [← mul_div_assoc, ← mul_div_assoc, Finset.mul_sum]
  congr 2
  apply Finset.sum_congr rfl
  intro c _
  have p1 := ylm_parity hP E.ell1 t.m1 h1 (rvec E.mesh c 0) (rvec E.mesh c 1) (rvec E.mesh c 2)
    (rvec_xy E.mesh hM hr c)
  have p2 := ylm_parity hP E.ell2 t.m2 h2 (rvec E.mesh c 0) (rvec E.mesh c 1) (rvec E.mesh c 2)
    (rvec_xy E.mesh hM hr c)
  unfold Env.ylm
  rw [p1, p2]
  ring

theorem mirrored_sign (n : ℕ) (f : ℝ) (x : ℂ) : (-1) ^ n * mirrored f x = mirrored f ((-1) ^ n * x) := by
  have := mirrored_real f ((-1) ^ n) x
  push_cast at this
  exact this

theorem shot_value (E : Env3) (hM : E.mesh.Valid) (F : Fields) (hf : ValidForm E.numBins E.form)
    (ts : List Triplet) {e : Entry} (he : e ∈ measWrites E.numBins E.form) :
    runAdds (ts.flatMap (noiseAdds E F)) e.pos = if e.row = e.col then
      (ts.map fun t => (coupling3 E t : ℂ) * mirrored (fMirrorW3j t)
        (shellMean E (F.fLM t.M) F.n00 (F.sbar t.M) t e.row)).sum else 0 := by
  rw [runAdds_flatMap]
  have hv : ∀ t, runAdds (noiseAdds E F t) e.pos = if e.row = e.col then
      (coupling3 E t : ℂ) * mirrored (fMirrorW3j t)
        (shellMean E (F.fLM t.M) F.n00 (F.sbar t.M) t e.row) else 0 := by
    intro t
    unfold noiseAdds
    rw [runAdds_diag E.numBins E.form hf (fun b => ((coupling3 E t * (-1) ^ (E.ell1 + E.ell2) : ℝ) : ℂ) *
      mirrored (fMirrorW3j t) ((stats3 E F t).getD b.toNat ⟨0, 0, 0⟩).val) he]
    by_cases h : e.row = e.col
    · rw [if_pos h, if_pos h]
      have hb := (mem_bins E.numBins E.form hf he).1
      unfold stats3
      rw [uncoupled3_bin E (fun a => (hM a).1) _ _ _ t hb.1 hb.2]
      simp only
      rw [← mirrored_sign]
      have := neg_one_pow_cancel (E.ell1 + E.ell2)
      push_cast
      linear_combination ((coupling3 E t : ℂ) * mirrored (fMirrorW3j t)
        (shellMean E (F.fLM t.M) F.n00 (F.sbar t.M) t e.row)) * this
    · rw [if_neg h, if_neg h]
  simp only [hv]
  by_cases h : e.row = e.col
  · simp only [if_pos h]
  · simp only [if_neg h]
    simp

/-- Members of the computed orders are allowed. -/
theorem triplets_allowed (E : Env3) : ∀ t ∈ triplets E, |t.m1| ≤ E.ell1 ∧ |t.m2| ≤ E.ell2 := by
  intro t ht
  unfold triplets at ht
  rw [computedOrders_eq] at ht
  have := (mem_visited _ _ _ _ _ t).1 ((foldl_stepM _ _ _).1.subset ht)
  exact ⟨this.1.1, this.1.2.1⟩

theorem tripletsGpp_allowed (E : Env3) :
    ∀ t ∈ tripletsGpp E, |t.m1| ≤ E.ell1 ∧ |t.m2| ≤ E.ell2 := by
  intro t ht
  unfold tripletsGpp computedOrdersGpp at ht
  have hc : ((upto (-(E.ell1 : ℤ)) (E.ell1 + 1)).foldl (fun acc m1 =>
      (upto (-(E.ell2 : ℤ)) (E.ell2 + 1)).foldl (fun acc m2 =>
        stepM (coupling3 E) epsCoupling acc ⟨m1, m2, 0⟩) acc) []) =
      ((upto (-(E.ell1 : ℤ)) (E.ell1 + 1)).flatMap fun m1 => (upto (-(E.ell2 : ℤ)) (E.ell2 + 1)).map
        fun m2 => (⟨m1, m2, 0⟩ : Triplet)).foldl (stepM (coupling3 E) epsCoupling) [] := by
    rw [List.foldl_flatMap]; congr 1; funext acc m1; rw [List.foldl_map]
  rw [hc] at ht
  have := (foldl_stepM _ _ _).1.subset ht
  simp only [List.mem_flatMap, List.mem_map, mem_upto] at this
  obtain ⟨m1, h1, m2, h2, rfl⟩ := this
  exact ⟨abs_le.2 (by simp only; omega), abs_le.2 (by simp only; omega)⟩

theorem bkComponent_comp (E : Env3) (hn : ∀ a, 0 < E.mesh.n a) (f h G : ℤ → ℂ) (hG : IsG E h G)
    (t : Triplet) (row col : ℤ) :
    bkComponent E f G t row col =
      ((E.mesh.n 0 * E.mesh.n 1 * E.mesh.n 2 : ℤ) : ℂ) / (vol E.mesh : ℂ) *
        triangleMean E (comp E f) (comp E h) t row col := by
  have key := triple_sum hn
    (fun x => if inBand E (lowerEdge E row) (upperEdge E row) x = true then
        E.ylm E.ell1 t.m1 (kvec E.mesh x) * (f (gid E.mesh.n x) / (window E (gid E.mesh.n x) : ℂ)) else 0)
    (fun x => if inBand E (lowerEdge E col) (upperEdge E col) x = true then
        E.ylm E.ell2 t.m2 (kvec E.mesh x) * (f (gid E.mesh.n x) / (window E (gid E.mesh.n x) : ℂ)) else 0)
    (fun x => h (gid E.mesh.n x) / (window E (gid E.mesh.n x) : ℂ) / (vol E.mesh : ℂ))
  have lhs : bkComponent E f G t row col =
      (∑ c ∈ box E.mesh.n, (∑ x ∈ box E.mesh.n, (if inBand E (lowerEdge E row) (upperEdge E row) x = true then
        E.ylm E.ell1 t.m1 (kvec E.mesh x) * (f (gid E.mesh.n x) / (window E (gid E.mesh.n x) : ℂ)) else 0) *
          phase3 E.mesh.n 1 c x) *
        (∑ x ∈ box E.mesh.n, (if inBand E (lowerEdge E col) (upperEdge E col) x = true then
        E.ylm E.ell2 t.m2 (kvec E.mesh x) * (f (gid E.mesh.n x) / (window E (gid E.mesh.n x) : ℂ)) else 0) *
          phase3 E.mesh.n 1 c x) *
        (∑ x ∈ box E.mesh.n, (h (gid E.mesh.n x) / (window E (gid E.mesh.n x) : ℂ) / (vol E.mesh : ℂ)) *
          phase3 E.mesh.n 1 c x)) / ((binModes E row).card * (binModes E col).card : ℂ) := by
    unfold bkComponent
    simp only
    rw [gids_sum E.mesh hn, Finset.sum_div]
    apply Finset.sum_congr rfl
    intro c hc
    rw [bandLimited_eq E hn f _ _ row hc, bandLimited_eq E hn f _ _ col hc]
    have hG : G (gid E.mesh.n c) =
        ∑ x ∈ box E.mesh.n, (h (gid E.mesh.n x) / (window E (gid E.mesh.n x) : ℂ) / (vol E.mesh : ℂ)) *
          phase3 E.mesh.n 1 c x := by
      rw [hG c hc]
      apply Finset.sum_congr rfl
      intro x hx
      unfold comp
      rw [window_gid E hn hx]
    rw [hG]
    ring
  rw [lhs, key]
  unfold triangleMean
  simp only [filter_closed hn, Finset.sum_singleton]
  have hs : ∑ x ∈ box E.mesh.n, ∑ y ∈ box E.mesh.n,
      (if inBand E (lowerEdge E row) (upperEdge E row) x = true then
        E.ylm E.ell1 t.m1 (kvec E.mesh x) * (f (gid E.mesh.n x) / (window E (gid E.mesh.n x) : ℂ)) else 0) *
      (if inBand E (lowerEdge E col) (upperEdge E col) y = true then
        E.ylm E.ell2 t.m2 (kvec E.mesh y) * (f (gid E.mesh.n y) / (window E (gid E.mesh.n y) : ℂ)) else 0) *
      (h (gid E.mesh.n (third E.mesh.n x y)) / (window E (gid E.mesh.n (third E.mesh.n x y)) : ℂ) /
        (vol E.mesh : ℂ)) =
      (∑ a ∈ binModes E row, ∑ b ∈ binModes E col,
        E.ylm E.ell1 t.m1 (kvec E.mesh a) * E.ylm E.ell2 t.m2 (kvec E.mesh b) *
          (comp E f a * comp E f b *
            comp E h (third E.mesh.n a b))) / (vol E.mesh : ℂ) := by
    rw [binModes_eq, binModes_eq, Finset.sum_filter, Finset.sum_div]
    apply Finset.sum_congr rfl
    intro x hx
    by_cases hb : inBand E (lowerEdge E row) (upperEdge E row) x = true
    · simp only [if_pos hb]
      rw [Finset.sum_filter, Finset.sum_div]
      apply Finset.sum_congr rfl
      intro y hy
      by_cases hb' : inBand E (lowerEdge E col) (upperEdge E col) y = true
      · simp only [if_pos hb']
        unfold comp
        rw [window_gid E hn hx, window_gid E hn hy, window_gid E hn (third_mem hn x y)]
        ring
      · simp only [if_neg hb', mul_zero, zero_mul, zero_div]
    · simp only [if_neg hb, zero_mul, zero_div, Finset.sum_const_zero]
  rw [hs]
  ring

theorem bk_value_comp (E : Env3) (hM : E.mesh.Valid) (f h G : ℤ → ℂ) (hG : IsG E h G) (t : Triplet)
    (row col : ℤ) :
    ((coupling3 E t * E.mesh.volCell : ℝ) : ℂ) * mirrored (fMirror E t) (bkComponent E f G t row col) =
      (coupling3 E t : ℂ) * mirrored (fMirror E t)
        (triangleMean E (comp E f) (comp E h) t row col) := by
  have hn := fun a => (hM a).1
  obtain ⟨hv, hV, _⟩ := volCell_mul E.mesh hM
  rw [bkComponent_comp E hn f h G hG]
  have e : ((E.mesh.n 0 * E.mesh.n 1 * E.mesh.n 2 : ℤ) : ℂ) / (vol E.mesh : ℂ) =
      (((E.mesh.n 0 * E.mesh.n 1 * E.mesh.n 2 : ℤ) : ℝ) / vol E.mesh : ℝ) := by push_cast; rfl
  rw [e, ← mirrored_real, ← e, Complex.ofReal_mul]
  have e2 : (E.mesh.volCell : ℂ) * (((E.mesh.n 0 * E.mesh.n 1 * E.mesh.n 2 : ℤ) : ℂ) / (vol E.mesh : ℂ)) = 1 := by
    rw [← mul_div_assoc, hv, div_self hV]
  linear_combination ((coupling3 E t : ℂ) * mirrored (fMirror E t)
    (triangleMean E (comp E f) (comp E h) t row col)) * e2

/-- A line of the output. -/
theorem measure_row {E : Env3} (hM : E.mesh.Valid) {F : Fields} {ts : List Triplet} {norm : ℝ}
    {rows : List RowZ} (h : measure E F ts norm = .ok rows) (g : ℤ → ℤ → ℂ)
    (hG : ∀ t ∈ ts, IsG E (g t.M) (F.G t.M)) {e : Entry} (he : e ∈ measWrites E.numBins E.form) :
    ∃ r, rows[e.pos.toNat]? = some r ∧
      r.raw = (norm : ℂ) * zetaSum E ts (comp E F.f00) (fun M => comp E (g M)) e.row e.col ∧
      (ts ≠ [] → Describes E r e.row e.col) := by
  obtain ⟨_, ha, hrows⟩ := measure_ok h
  obtain ⟨h0, h1⟩ := entry_range E.numBins E.form he
  rw [hrows, getElem_upto _ _ h0 h1]
  refine ⟨_, rfl, ?_, ?_⟩
  · simp only
    rw [raw_value E hM F g ts hG ha he]
    rfl
  · intro hne
    have hb : binOk E e.row ∧ binOk E e.col := by
      rcases ha with h0 | h0
      · exact absurd h0 hne
      · exact ⟨(h0.2 e he).1, (h0.2 e he).2.1⟩
    have hr := recBin_eq E (fun a => (hM a).1) F ts hne Entry.row he hb.1
    have hc := recBin_eq E (fun a => (hM a).1) F ts hne Entry.col he hb.2
    exact ⟨hr.2.2, hc.2.2, hr.1, hc.1, hr.2.1, hc.2.1⟩

/-- The shot noise in a line of the output. -/
theorem measure_shot {E : Env3} (hP : LegendreLike E.P) (hM : E.mesh.Valid) (hr : Resolved E.mesh)
    (hf : ValidForm E.numBins E.form) {F : Fields} {ts : List Triplet}
    (hts : ∀ t ∈ ts, |t.m1| ≤ E.ell1 ∧ |t.m2| ≤ E.ell2) {norm : ℝ} {rows : List RowZ}
    (h : measure E F ts norm = .ok rows) {e : Entry} (he : e ∈ measWrites E.numBins E.form) :
    (rows[e.pos.toNat]?).map RowZ.shot = some (if e.row = e.col then
      (-1) ^ (E.ell1 + E.ell2) * ((norm : ℂ) * selfSum E ts F.fLM F.n00 F.sbar e.row) else 0) := by
  obtain ⟨_, ha, hrows⟩ := measure_ok h
  obtain ⟨h0, h1⟩ := entry_range E.numBins E.form he
  rw [hrows, getElem_upto _ _ h0 h1, Option.map_some]
  simp only
  rw [shot_value E hM F hf ts he]
  by_cases hd : e.row = e.col
  · rw [if_pos hd, if_pos hd, mul_left_comm]
    congr 2
    unfold selfSum
    rw [← List.sum_map_mul_left]
    congr 1
    apply List.map_congr_left
    intro t ht
    rw [shellMean_eq E hP hM hr _ _ _ t (hts t ht).1 (hts t ht).2, ← mirrored_sign]
    have := neg_one_pow_cancel (E.ell1 + E.ell2)
    linear_combination (-1) * ((coupling3 E t : ℂ) * mirrored (fMirrorW3j t)
        (shellMean E (F.fLM t.M) F.n00 (F.sbar t.M) t e.row)) * this
  · rw [if_neg hd, if_neg hd, mul_zero]

end Trv.Zeta

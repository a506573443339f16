import Mathlib.Analysis.SpecialFunctions.Pow.Real
import Verif.Lemmas.ArrayOps
import Verif.Spec.ArrayOps
/-
Lemmas for the oscillation-safe extrapolation of power laws (geometric sequences).
-/
namespace Trv.Arr

/-- The geometric sequence `A, A r, …` of `N` samples. -/
def gp (A r : ℝ) : ℕ → List ℝ
  | 0 => []
  | N + 1 => A :: gp (A * r) r N

/-- An arithmetic progression of floats. -/
def ap (α β : ℝ) : ℕ → List Flt
  | 0 => []
  | N + 1 => .fin α :: ap (α + β) β N

theorem gp_length (A r : ℝ) (N : ℕ) : (gp A r N).length = N := by
  induction N generalizing A with
  | zero => rfl
  | succ N ih => simp [gp, ih]

theorem ap_length (α β : ℝ) (N : ℕ) : (ap α β N).length = N := by
  induction N generalizing α with
  | zero => rfl
  | succ N ih => simp [ap, ih]

theorem gp_getD (A r : ℝ) (N i : ℕ) (h : i < N) : (gp A r N).getD i 0 = A * r ^ i := by
  induction N generalizing A i with
  | zero => omega
  | succ N ih =>
    cases i with
    | zero => simp [gp]
    | succ i =>
      rw [gp, List.getD_cons_succ, ih (A * r) i (by omega), pow_succ]; ring

theorem gp_take (A r : ℝ) (N k : ℕ) (h : k ≤ N) : (gp A r N).take k = gp A r k := by
  induction N generalizing A k with
  | zero => obtain rfl : k = 0 := by omega
            rfl
  | succ N ih =>
    cases k with
    | zero => rfl
    | succ k => rw [gp, List.take_succ_cons, ih _ k (by omega)]; rfl

theorem gp_drop (A r : ℝ) (N k : ℕ) (h : k ≤ N) : (gp A r N).drop k = gp (A * r ^ k) r (N - k) := by
  induction N generalizing A k with
  | zero => obtain rfl : k = 0 := by omega
            simp [gp]
  | succ N ih =>
    cases k with
    | zero => simp
    | succ k =>
      rw [gp, List.drop_succ_cons, ih _ k (by omega), Nat.add_sub_add_right]
      congr 1
      rw [pow_succ]; ring

theorem gp_snoc (A r : ℝ) (N : ℕ) : gp A r (N + 1) = gp A r N ++ [A * r ^ N] := by
  induction N generalizing A with
  | zero => simp [gp]
  | succ N ih =>
    rw [gp, ih (A * r), gp, List.cons_append]
    congr 3
    rw [pow_succ]; ring

theorem ap_snoc (α β : ℝ) (N : ℕ) : ap α β (N + 1) = ap α β N ++ [.fin (α + N * β)] := by
  induction N generalizing α with
  | zero => simp [ap]
  | succ N ih =>
    rw [ap, ih (α + β), ap, List.cons_append]
    congr 3
    push_cast
    congr 1
    ring

theorem gp_log (A r : ℝ) (hA : A ≠ 0) (hr : 0 < r) (N : ℕ) :
    (gp A r N).map logAbs = ap (Real.log |A|) (Real.log r) N := by
  induction N generalizing A with
  | zero => rfl
  | succ N ih =>
    have : Real.log |A * r| = Real.log |A| + Real.log r := by
      rw [abs_mul, abs_of_pos hr, Real.log_mul (abs_ne_zero.2 hA) hr.ne']
    rw [gp, List.map_cons, ih (A * r) (mul_ne_zero hA hr.ne'), this, ap]
    congr 1
    simp [logAbs, hA]

theorem gradInner_ap (α β : ℝ) (N : ℕ) :
    gradInner (ap α β (N + 2)) = List.replicate N (.fin β) := by
  induction N generalizing α with
  | zero => rfl
  | succ N ih =>
    have := ih (α + β)
    simp only [ap] at this ⊢
    simp only [gradInner, Flt.sub, Flt.divPos, List.replicate_succ, this]
    congr 2
    ring

theorem gradient_ap (α β : ℝ) (N : ℕ) :
    gradient (ap α β (N + 2)) = .ok (List.replicate (N + 2) (.fin β)) := by
  have hr : (ap α β (N + 2)).reverse
      = .fin (α + (N + 1 : ℕ) * β) :: .fin (α + N * β) :: (ap α β N).reverse := by
    rw [ap_snoc, ap_snoc]
    simp
  have hf : ap α β (N + 2) = .fin α :: .fin (α + β) :: ap (α + β + β) β N := rfl
  have hi := gradInner_ap α β N
  unfold gradient
  rw [hr]
  rw [hf] at hi ⊢
  simp only [hi, Flt.sub]
  congr 1
  rw [show α + β - α = β by ring,
    show α + (N + 1 : ℕ) * β - (α + N * β) = β by push_cast; ring,
    List.replicate_succ, List.replicate_succ', List.cons_append]

theorem lngrad_gp (A r : ℝ) (hA : A ≠ 0) (hr : 0 < r) (N : ℕ) (hN : 2 ≤ N) :
    lngrad (gp A r N) = .ok (List.replicate N (Real.log r)) := by
  obtain ⟨M, rfl⟩ : ∃ M, N = M + 2 := ⟨N - 2, by omega⟩
  unfold lngrad
  rw [gp_log A r hA hr, gradient_ap]
  simp [Flt.toNum]

theorem foldl_fin (l : ℕ) (x β : ℝ) :
    (List.replicate l (Flt.fin β)).foldl Flt.add (.fin x) = .fin (x + l * β) := by
  induction l generalizing x with
  | zero => simp
  | succ l ih =>
    rw [List.replicate_succ, List.foldl_cons]
    simp only [Flt.add]
    rw [ih]
    push_cast
    congr 1
    ring

theorem meanLngrad_gp (A r : ℝ) (hA : A ≠ 0) (hr : 0 < r) (N : ℕ) (hN : 2 ≤ N) :
    meanLngrad (gp A r N) = .ok (Real.log r) := by
  obtain ⟨M, rfl⟩ : ∃ M, N = M + 2 := ⟨N - 2, by omega⟩
  unfold meanLngrad
  rw [gp_log A r hA hr, gradient_ap]
  simp only [meanF, foldl_fin, Flt.divPos, Flt.toNum, List.length_replicate]
  congr 1
  field_simp
  ring

theorem signChanges_replicate (N : ℕ) (x : ℝ) : signChanges (List.replicate N x) = [] := by
  unfold signChanges
  rw [List.filter_eq_nil_iff]
  intro i hi
  rw [List.mem_range, List.length_replicate] at hi
  have h1 : (List.replicate N x).getD i 0 = x := by
    rw [List.getD_eq_getElem?_getD, List.getElem?_replicate, if_pos (by omega)]; rfl
  have h2 : (List.replicate N x).getD (i + 1) 0 = x := by
    rw [List.getD_eq_getElem?_getD, List.getElem?_replicate, if_pos (by omega)]; rfl
  simp only [h1, h2, ne_eq, not_true_eq_false, decide_false, Bool.false_eq_true, not_false_eq_true]

theorem signChanges_gp (A r : ℝ) (hr : 0 < r) (N : ℕ) : signChanges (gp A r N) = [] := by
  unfold signChanges
  rw [List.filter_eq_nil_iff]
  intro i hi
  rw [List.mem_range, gp_length] at hi
  rw [gp_getD _ _ _ _ (by omega), gp_getD _ _ _ _ (by omega), sign_mul, sign_mul,
    sign_pos (pow_pos hr _), sign_pos (pow_pos hr _)]
  simp

/-- The extrapolation of a power law: exact on the decaying side, constant on the growing one. -/
theorem pyOscil_gp (A r : ℝ) (hA : A ≠ 0) (hr : 0 < r) (N n : ℕ) (hN : 4 ≤ N) :
    pyOscil (gp A r N) n = .ok ((List.range n).map (fun i : ℕ => A * Real.exp ((if 1 ≤ r then -Real.log r else 0) * ((n : ℝ) - i)))
      ++ gp A r N ++
      (List.range n).map (fun i : ℕ => A * r ^ (N - 1) *
        Real.exp ((if r ≤ 1 then Real.log r else 0) * ((i : ℝ) + 1)))) := by
  have hsc := signChanges_gp A r hr N
  have hb : banks (gp A r N) = ((N : ℤ) - 1, 0) := by
    simp [banks, hsc, gp_length]
  have hto : ∀ k : ℤ, 2 ≤ k → ∃ M, 2 ≤ M ∧ sliceTo (gp A r N) k = gp A r M := by
    intro k h1
    rw [sliceTo, if_pos (by omega)]
    by_cases h : k.toNat ≤ N
    · exact ⟨k.toNat, by omega, gp_take _ _ _ _ h⟩
    · exact ⟨N, by omega, List.take_of_length_le (by rw [gp_length]; omega)⟩
  have hfrom : ∀ k : ℤ, 0 ≤ k → k ≤ N - 2 → ∃ B M, B ≠ 0 ∧ 2 ≤ M ∧
      sliceFrom (gp A r N) k = gp B r M := by
    intro k h1 h2
    rw [sliceFrom, if_pos (by omega), gp_drop _ _ _ _ (by omega)]
    exact ⟨_, _, mul_ne_zero hA (pow_pos hr _).ne', by omega, rfl⟩
  obtain ⟨lq, rq, hq, hlq, hrq0, hrq1⟩ : ∃ lq rq : ℤ, quarters (gp A r N) = (lq, rq) ∧ 3 ≤ lq ∧
      0 ≤ rq ∧ rq ≤ (N : ℤ) - 4 := by
    refine ⟨_, _, rfl, le_max_right _ _, ?_, ?_⟩
    · rw [gp_length]
      refine le_min ?_ (by omega)
      generalize hp : (if argmaxAbs (gp A r N) = 0 ∨ argmaxAbs (gp A r N) = N - 1 then N / 2
        else argmaxAbs (gp A r N)) = p
      by_cases h : p ≤ N - 1
      · omega
      · omega
    · rw [gp_length]; exact min_le_right _ _
  have hfront : front2 (gp A r N) = some (A, A * r) := by
    obtain ⟨M, rfl⟩ : ∃ M, N = M + 2 := ⟨N - 2, by omega⟩
    rfl
  have hback : back2 (gp A r N) = some (A * r ^ (N - 1), A * r ^ (N - 2)) := by
    obtain ⟨M, rfl⟩ : ∃ M, N = M + 2 := ⟨N - 2, by omega⟩
    unfold back2
    rw [gp_snoc, gp_snoc]
    simp [front2]
  have hlog : ∀ B : ℝ, B ≠ 0 → ((logAbs (B * r)).sub (logAbs B)).toNum = Real.log r := by
    intro B hB
    have : Real.log |B * r| = Real.log |B| + Real.log r := by
      rw [abs_mul, abs_of_pos hr, Real.log_mul (abs_ne_zero.2 hB) hr.ne']
    rw [logAbs, logAbs, if_neg (mul_ne_zero hB hr.ne'), if_neg hB]
    simp only [Flt.sub, Flt.toNum, this]
    ring
  have hlr : (0 ≤ Real.log r) = (1 ≤ r) := propext ⟨fun h => by
      by_contra h'
      exact absurd (Real.log_neg hr (not_le.1 h')) (not_lt.2 h), Real.log_nonneg⟩
  have hlr' : (Real.log r ≤ 0) = (r ≤ 1) := propext ⟨fun h => by
      by_contra h'
      exact absurd (Real.log_pos (not_le.1 h')) (not_lt.2 h), Real.log_nonpos hr.le⟩
  obtain ⟨M1, hM1, e1⟩ := hto ((N : ℤ) - 1) (by omega)
  obtain ⟨B2, M2, hB2, hM2, e2⟩ := hfrom 0 le_rfl (by omega)
  have hld : ldBank (gp A r N) (List.replicate M1 (Real.log r)) = (N : ℤ) - 1 := by
    simp [ldBank, signChanges_replicate, gp_length]
  have hrd : rdBank (gp A r N) 0 (List.replicate M2 (Real.log r)) = 0 := by
    simp [rdBank, signChanges_replicate]
  obtain ⟨M3, hM3, e3⟩ := hto (min (min ((N : ℤ) - 1) ((N : ℤ) - 1)) lq) (by omega)
  obtain ⟨B4, M4, hB4, hM4, e4⟩ := hfrom (max (max 0 0) rq) (by omega) (by omega)
  obtain ⟨M5, hM5, e5⟩ := hto lq (by omega)
  obtain ⟨B6, M6, hB6, hM6, e6⟩ := hfrom rq hrq0 (by omega)
  have hpl : powLeft (List.replicate M3 (Real.log r)) A (A * r) (gp A r M5)
      = .ok (if 1 ≤ r then -Real.log r else 0) := by
    unfold powLeft
    rw [if_neg (by rw [signChanges_replicate]; simp), hlog A hA, meanLngrad_gp A r hA hr M5 hM5]
    simp only [ge_iff_le, hlr]
    by_cases h : 1 ≤ r
    · rw [if_pos h, if_pos h]
    · rw [if_neg h, if_neg h, if_neg h]
  have hlast : A * r ^ (N - 1) = A * r ^ (N - 2) * r := by
    rw [show N - 1 = N - 2 + 1 by omega, pow_succ]; ring
  have hpr : powRight (List.replicate M4 (Real.log r)) (A * r ^ (N - 1)) (A * r ^ (N - 2)) (gp B6 r M6)
      = .ok (if r ≤ 1 then Real.log r else 0) := by
    unfold powRight
    rw [if_neg (by rw [signChanges_replicate]; simp), hlast,
      hlog _ (mul_ne_zero hA (pow_pos hr _).ne'), meanLngrad_gp B6 r hB6 hr M6 hM6]
    simp only [hlr']
    by_cases h : r ≤ 1
    · rw [if_pos h, if_pos h]
    · rw [if_neg h, if_neg h, if_neg h]
  unfold pyOscil
  simp only [check1d_ok (show 2 ≤ (gp A r N).length by rw [gp_length]; omega), bind, Except.bind, hb,
    e1, e2, lngrad_gp A r hA hr M1 hM1, lngrad_gp B2 r hB2 hr M2 hM2, hld, hrd, hq, e3, e4, e5, e6,
    lngrad_gp A r hA hr M3 hM3, lngrad_gp B4 r hB4 hr M4 hM4, hfront, hback, hpl, hpr]

theorem gp_eq (A r : ℝ) (N : ℕ) : gp A r N = geomSeq A r 0 N := by
  apply List.ext_getElem
  · simp [gp_length, geomSeq]
  · intro i h1 h2
    rw [gp_length] at h1
    have := gp_getD A r N i h1
    rw [List.getD_eq_getElem?_getD, List.getElem?_eq_getElem (by rw [gp_length]; exact h1)] at this
    rw [Option.getD_some] at this
    rw [this]
    simp [geomSeq]

theorem exp_pow (r : ℝ) (hr : 0 < r) (z : ℤ) : Real.exp (Real.log r * (z : ℝ)) = r ^ z := by
  rw [← Real.rpow_intCast, Real.rpow_def_of_pos hr]

theorem exp_bound (x p t : ℝ) (hp : p ≤ 0) (ht : 0 ≤ t) : |x * Real.exp (p * t)| ≤ |x| := by
  rw [abs_mul, abs_of_pos (Real.exp_pos _)]
  exact mul_le_of_le_one_right (abs_nonneg _)
    (Real.exp_le_one_iff.2 (mul_nonpos_of_nonpos_of_nonneg hp ht))

theorem rowOscil_bounded {m : Mat ℝ} {n : ℕ} {out : Mat ℝ} (h : rowOscil m n = .ok out) :
    Mat.RowsBounded n m.c out := by
  have hok := rowOscil_ok h
  obtain ⟨hor, _, _⟩ := hok
  unfold rowOscil at h
  cases hm : m.rows.mapM (fun a => pyOscil a n) with
  | error e => rw [hm] at h; simp at h
  | ok rows =>
    rw [hm] at h
    simp only [Except.ok.injEq] at h
    subst h
    obtain ⟨h1, h2⟩ := mapM_ok hm
    have hl : rows.length = m.r := by rw [h1]; simp [Mat.rows]
    intro i j hi hj
    rw [hor] at hi
    have h3 := h2 i (by simp [Mat.rows, hi]) (by omega)
    obtain ⟨hlen, pl, pr, hpl, hpr, h4⟩ := pyOscil_ok h3
    simp only [Mat.ofRows]
    rw [List.getD_eq_getElem?_getD (l := rows), List.getElem?_eq_getElem (l := rows) (by omega)]
    simp only [Option.getD_some]
    rw [h4]
    generalize hA : m.rows[i] = A at hlen h4 ⊢
    have hAl : A.length = m.c := by rw [← hA]; simp [Mat.rows]
    have g : ∀ (f g : ℕ → ℝ) (k : ℕ), k < n →
        ((List.range n).map f ++ A ++ (List.range n).map g).getD k 0 = f k ∧
        ((List.range n).map f ++ A ++ (List.range n).map g).getD (n + m.c + k) 0 = g k := by
      intro f g k hk
      rw [List.getD_eq_getElem?_getD, List.getD_eq_getElem?_getD]
      constructor
      · rw [List.append_assoc, List.getElem?_append_left (by simpa using hk)]
        simp [hk]
      · rw [List.getElem?_append_right (by simp [hAl])]
        simp [hAl, hk]
    have g' : ∀ (f g : ℕ → ℝ) (k : ℕ), k < m.c →
        ((List.range n).map f ++ A ++ (List.range n).map g).getD (n + k) 0 = A.getD k 0 := by
      intro f g k hk
      rw [List.getD_eq_getElem?_getD, List.getD_eq_getElem?_getD, List.append_assoc,
        List.getElem?_append_right (by simp), List.getElem?_append_left (by simp; omega)]
      simp
    rw [(g _ _ j hj).1, (g _ _ j hj).2]
    have e0 := g' (fun i : ℕ => A.getD 0 0 * Real.exp (pl * ((n : ℝ) - i)))
      (fun i : ℕ => A.getD (A.length - 1) 0 * Real.exp (pr * ((i : ℝ) + 1))) 0 (by omega)
    have e1 := g' (fun i : ℕ => A.getD 0 0 * Real.exp (pl * ((n : ℝ) - i)))
      (fun i : ℕ => A.getD (A.length - 1) 0 * Real.exp (pr * ((i : ℝ) + 1))) (m.c - 1) (by omega)
    rw [Nat.add_zero] at e0
    rw [show n + m.c - 1 = n + (m.c - 1) by omega, e0, e1, hAl]
    constructor
    · refine exp_bound _ _ _ hpl ?_
      have : (j : ℝ) ≤ n := by exact_mod_cast hj.le
      linarith
    · exact exp_bound _ _ _ hpr (by positivity)

end Trv.Arr

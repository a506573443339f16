import Verif.Lemmas.FftlogInit
import Mathlib.Analysis.SpecialFunctions.Gamma.Beta
/-
C45-C48: FFTLog transforms (C++ layer).
-/
namespace Trv.Fft

open Trv.Arr

/-- A log-gamma function meeting the specification. -/
noncomputable def trueLg : LnGamma := fun x y =>
  (Real.log ‖Complex.Gamma (x + y * Complex.I)‖, Complex.arg (Complex.Gamma (x + y * Complex.I)))

theorem trueLg_ok : LgOk trueLg := by
  intro x y h
  have hg : Complex.Gamma (x + y * Complex.I) ≠ 0 := Complex.Gamma_ne_zero h
  unfold trueLg
  simp only
  rw [Real.exp_log (norm_pos_iff.2 hg)]
  exact Complex.norm_mul_exp_arg_mul_I _

theorem construct_half (ell : ℕ) : construct (ell + 1 / 2) 0 = .ok () := by
  have h : (0 : ℝ) ≤ ell := Nat.cast_nonneg ell
  unfold construct
  rw [if_neg]
  rintro (⟨h1, -⟩ | ⟨h1, -⟩) <;> linarith

/-! ### C45 -/

/-- **C45.** With extrapolation, an accepted transform has as its size the smallest power of two at
least the expansion factor times the sample size; the original sample points are in the centre of
the extended ones. -/
theorem C45_transform_size {G : LnGamma} {mu q : ℝ} {pts : List ℝ} {kr : ℝ} {lowring : Bool}
    {x : Extrap} {e : ℝ} {H : Hankel} (hx : x ≠ .none)
    (h : initialise G mu q pts kr lowring x e = .ok H) :
    (∃ k : ℕ, H.nsampTrans = 2 ^ k ∧ e * pts.length ≤ 2 ^ k ∧
      ∀ j : ℕ, e * pts.length ≤ 2 ^ j → 2 ^ k ≤ 2 ^ j) ∧
    H.nExt + pts.length + H.nExt = H.nsampTrans ∧ H.preExt.length = H.nsampTrans ∧
    (H.preExt.drop H.nExt).take pts.length = pts := by
  have R := init_ready h
  have he := R.ext
  have hl := R.len
  unfold extension at he
  rw [if_neg hx] at he
  by_cases h1 : pts.length % 2 ≠ 0
  · rw [if_pos h1] at he; cases he
  rw [if_neg h1] at he
  simp only at he
  by_cases h2 : transSize e pts.length < pts.length
  · rw [if_pos h2] at he; cases he
  rw [if_neg h2] at he
  cases hp : cppLoglin pts ((transSize e pts.length - pts.length) / 2) with
  | error err => rw [hp] at he; cases he
  | ok p =>
    rw [hp] at he
    simp only [Except.ok.injEq, Prod.mk.injEq] at he
    obtain ⟨e1, e2, e3⟩ := he
    obtain ⟨k, hk, hk1, hk2⟩ := transSize_spec (e := e) (n := pts.length) (by omega)
    obtain ⟨hc1, hc2⟩ := cppLoglin_centre hp
    have hk0 : k ≠ 0 := by
      rintro rfl
      rw [hk] at h2
      simp at h2
      omega
    have hev : transSize e pts.length % 2 = 0 := by
      rw [hk]
      obtain ⟨k', rfl⟩ := Nat.exists_eq_succ_of_ne_zero hk0
      rw [pow_succ]; omega
    refine ⟨⟨k, by rw [← e1, hk], hk1, fun j hj => Nat.pow_le_pow_right (by norm_num) (hk2 j hj)⟩, ?_, ?_, ?_⟩
    · omega
    · rw [← e3, hc1]; omega
    · rw [← e3, ← e2]; exact hc2

/-- **C45.** Without extrapolation the transform has the size of the samples. -/
theorem C45_no_extrapolation {G : LnGamma} {mu q : ℝ} {pts : List ℝ} {kr : ℝ} {lowring : Bool}
    {e : ℝ} {H : Hankel} (h : initialise G mu q pts kr lowring .none e = .ok H) :
    H.nsampTrans = pts.length ∧ H.nExt = 0 := by
  have he := (init_ready h).ext
  unfold extension at he
  simp only [if_true, Except.ok.injEq, Prod.mk.injEq] at he
  exact ⟨he.1.symm, he.2.1.symm⟩

/-- **C45.** The extended samples keep the original samples (their real parts) in the centre, for
every extrapolation option. -/
theorem C45_samples_centred {H : Hankel} (hx : H.extrap ≠ .none) {a buf : List ℂ}
    (h : buffer H a = .ok buf) :
    buf.length = H.nExt + H.nsamp + H.nExt ∧
    (buf.drop H.nExt).take H.nsamp = (a.take H.nsamp).map fun z : ℂ => ((z.re : ℝ) : ℂ) := by
  unfold buffer at h
  split_ifs at h with hl
  simp only at h
  have hlen : ((a.take H.nsamp).map Complex.re).length = H.nsamp := by
    rw [List.length_map, List.length_take]; omega
  have key : ∀ out : List ℝ, out.length = H.nExt + ((a.take H.nsamp).map Complex.re).length + H.nExt ∧
      (out.drop H.nExt).take ((a.take H.nsamp).map Complex.re).length = (a.take H.nsamp).map Complex.re →
      (out.map fun x : ℝ => (x : ℂ)).length = H.nExt + H.nsamp + H.nExt ∧
      ((out.map fun x : ℝ => (x : ℂ)).drop H.nExt).take H.nsamp =
        (a.take H.nsamp).map fun z : ℂ => ((z.re : ℝ) : ℂ) := by
    rintro out ⟨h1, h2⟩
    rw [hlen] at h1 h2
    refine ⟨by rw [List.length_map, h1], ?_⟩
    rw [← List.map_drop, ← List.map_take, h2, List.map_map]
    rfl
  cases hE : H.extrap with
  | none => exact absurd hE hx
  | zero =>
    rw [hE] at h; cases h
    exact key _ ⟨cppFill_length _ _ _ _, cppFill_centre _ _ _ _⟩
  | pad =>
    rw [hE] at h; cases h
    exact key _ ⟨cppFill_length _ _ _ _, cppFill_centre _ _ _ _⟩
  | lin =>
    rw [hE] at h
    simp only at h
    cases hp : cppLin ((a.take H.nsamp).map Complex.re) H.nExt with
    | error e => rw [hp] at h; cases h
    | ok l => rw [hp] at h; cases h; exact key _ (cppLin_centre hp)
  | loglin =>
    rw [hE] at h
    simp only at h
    cases hp : cppLoglin ((a.take H.nsamp).map Complex.re) H.nExt with
    | error e => rw [hp] at h; cases h
    | ok l => rw [hp] at h; cases h; exact key _ (cppLoglin_centre hp)
  | other => rw [hE] at h; cases h

theorem transSize_example (n : ℕ) (c : ℝ) (k : ℕ) (h : c * n = 2 ^ k) : transSize c n = 2 ^ k := by
  unfold transSize
  rw [h, if_neg (by rw [not_le]; positivity)]
  have : Real.logb 2 ((2 : ℝ) ^ k) = k := by
    rw [Real.logb_pow, Real.logb_self_eq_one (by norm_num), mul_one]
  rw [this, Int.ceil_natCast, zpow_natCast, show (2 : ℝ) ^ k = ((2 ^ k : ℕ) : ℝ) by push_cast; rfl,
    Nat.floor_natCast]

/-- **C45 (violated).** In the 'outer' layer of the Python class the shrunken size is not rejected:
with eight samples and an expansion factor of a quarter, the transform is initialised with an
extension number of -3, and the slice taken of any result is empty. -/
theorem C45_outer_shrunk_violated (pts : List ℝ) (hl : pts.length = 8) (hp : ∀ x ∈ pts, 0 < x) :
    outerExtension pts (1 / 4) = .ok (-3, pts.map some) ∧
    ∀ l : List ℂ, l.length = 8 → pySlice (-3) l = [] := by
  constructor
  · obtain ⟨x0, x1, x2, x3, x4, x5, x6, x7, rfl⟩ : ∃ x0 x1 x2 x3 x4 x5 x6 x7,
        pts = [x0, x1, x2, x3, x4, x5, x6, x7] := by
      match pts, hl with
      | [x0, x1, x2, x3, x4, x5, x6, x7], _ => exact ⟨_, _, _, _, _, _, _, _, rfl⟩
    have ht := transSize_example 8 (1 / 4) 1 (by norm_num)
    have h0 := hp x0 (by simp)
    have h1 := hp x1 (by simp)
    have h6 := hp x6 (by simp)
    have h7 := hp x7 (by simp)
    unfold outerExtension
    rw [hl, if_neg (by norm_num)]
    simp only [ht]
    have e1 : (((2 ^ 1 : ℕ) : ℤ) - ((8 : ℕ) : ℤ)) / 2 = -3 := by norm_num
    rw [e1]
    unfold pyLoglin check1d
    rw [if_neg (by simp)]
    have hs : (epsign1 x0 x1 && epsign1 x7 x6) = true := by
      unfold epsign1
      have : 0 < x0 * x1 := mul_pos h0 h1
      have : 0 < x7 * x6 := mul_pos h7 h6
      simp [*]
    have hf : front2 [x0, x1, x2, x3, x4, x5, x6, x7] = some (x0, x1) := rfl
    have hb : back2 [x0, x1, x2, x3, x4, x5, x6, x7] = some (x7, x6) := rfl
    simp only [hf, hb, hs]
    rfl
  · intro l hl
    unfold pySlice
    rw [if_neg (by norm_num), if_neg (by norm_num), hl]
    apply List.drop_eq_nil_of_le
    rw [List.length_take]
    norm_num

/-- The hypotheses are met: eight points. -/
example : ∃ pts : List ℝ, pts.length = 8 ∧ ∀ x ∈ pts, 0 < x :=
  ⟨List.replicate 8 1, by simp, by intro x hx; rw [List.eq_of_mem_replicate hx]; norm_num⟩

/-- **C45 (part).** The slice of the 'outer' layer takes the centre whenever the extension number is
not negative. -/
theorem C45_outer_slice_partial {α : Type} (n : ℕ) (lo l hi : List α) (h1 : lo.length = n) (h2 : hi.length = n) :
    pySlice (n : ℤ) (lo ++ l ++ hi) = l := by
  unfold pySlice
  by_cases h : n = 0
  · subst h
    rw [List.length_eq_zero_iff] at h1 h2
    subst h1; subst h2
    simp
  · rw [if_neg (by exact_mod_cast h), if_pos (by omega), Int.toNat_natCast]
    have : (lo ++ l ++ hi).length - n = (lo ++ l).length := by
      rw [List.length_append, h2]; omega
    rw [this, List.take_left, ← h1, List.drop_left]

/-! ### C46 -/

/-- **C46.** The transform of real samples is real, for every sample number, order, bias, pivot and
extrapolation option. -/
theorem C46_real {G : LnGamma} (hG : LgOk G) {mu q : ℝ} {pts : List ℝ} {kr : ℝ} {lowring : Bool}
    {x : Extrap} {e : ℝ} {H : Hankel} (h : initialise G mu q pts kr lowring x e = .ok H)
    {a b : List ℂ} (ha : ∀ z ∈ a, z.im = 0) (hb : biased H a = .ok b) : ∀ z ∈ b, z.im = 0 := by
  have R := init_ready h
  unfold biased at hb
  split_ifs at hb with h1
  cases hbuf : buffer H a with
  | error err => rw [hbuf] at hb; cases hb
  | ok buf =>
    rw [hbuf] at hb
    cases hb
    have hreal : ∀ z ∈ buf, (starRingEnd ℂ) z = z := by
      have hmap : ∀ l : List ℝ, ∀ z ∈ l.map (fun x : ℝ => (x : ℂ)), (starRingEnd ℂ) z = z := by
        intro l z hz
        obtain ⟨r, -, rfl⟩ := List.mem_map.1 hz
        exact Complex.conj_ofReal r
      unfold buffer at hbuf
      split_ifs at hbuf with hl
      simp only at hbuf
      cases hE : H.extrap with
      | none =>
        rw [hE] at hbuf; cases hbuf
        intro z hz
        rw [Complex.conj_eq_iff_im]
        exact ha z (List.mem_of_mem_take hz)
      | zero => rw [hE] at hbuf; cases hbuf; exact hmap _
      | pad => rw [hE] at hbuf; cases hbuf; exact hmap _
      | lin =>
        rw [hE] at hbuf
        simp only at hbuf
        split at hbuf
        · cases hbuf
        · cases hbuf; exact hmap _
      | loglin =>
        rw [hE] at hbuf
        simp only at hbuf
        split at hbuf
        · cases hbuf
        · cases hbuf; exact hmap _
      | other => rw [hE] at hbuf; cases hbuf
    intro z hz
    obtain ⟨j, -, rfl⟩ := List.mem_map.1 hz
    rw [← Complex.conj_eq_iff_im, R.hker]
    refine convolve_real R.npos.ne' (kernelCoeff G mu q H.logres H.pivot H.nsampTrans)
      (fun i => buf.getD i 0) (fun m hm => kernel_symm hG R.con H.logres H.pivot hm) (fun i _ => ?_) _
    by_cases hi : i < buf.length
    · rw [List.getD_eq_getElem?_getD, List.getElem?_eq_getElem hi]
      exact hreal _ (List.getElem_mem hi)
    · rw [List.getD_eq_getElem?_getD, List.getElem?_eq_none (by omega)]
      simp

/-! ### C48 -/

/-- **C48.** The product of each output sample point with the input sample point in reverse order
is constant, and the ratios of adjacent output points are those of the input points in reverse. -/
theorem C48_reciprocal {G : LnGamma} {mu q : ℝ} {pts : List ℝ} {kr : ℝ} {lowring : Bool}
    {x : Extrap} {e : ℝ} {H : Hankel} (h : initialise G mu q pts kr lowring x e = .ok H) :
    H.post.length = pts.length ∧
    (∀ j < pts.length, H.post.getD j 0 * pts.getD (pts.length - 1 - j) 0 =
      H.pivot * Real.exp (-H.logres)) ∧
    (∀ j, j + 1 < pts.length → H.post.getD (j + 1) 0 / H.post.getD j 0 =
      pts.getD (pts.length - 1 - j) 0 / pts.getD (pts.length - 2 - j) 0) := by
  have R := init_ready h
  have hnz := loglinOk_ne_zero R.lin R.len
  have hp : ∀ j < pts.length, H.post.getD j 0 =
      H.pivot * Real.exp (-H.logres) / pts.getD (pts.length - 1 - j) 0 := by
    intro j hj
    rw [R.hpost, List.getD_eq_getElem?_getD, List.getElem?_map, List.getElem?_range hj]
    simp only [Option.map_some, Option.getD_some]
    rw [show pts.length - j - 1 = pts.length - 1 - j by omega]
  refine ⟨by rw [R.hpost]; simp, ?_, ?_⟩
  · intro j hj
    rw [hp j hj, div_mul_cancel₀ _ (hnz _ (getD_mem (by omega)))]
  · intro j hj
    rw [hp j (by omega), hp (j + 1) hj]
    have e1 : pts.length - 1 - (j + 1) = pts.length - 2 - j := by omega
    rw [e1]
    have n1 := hnz _ (getD_mem (l := pts) (j := pts.length - 1 - j) (by omega))
    have n2 := hnz _ (getD_mem (l := pts) (j := pts.length - 2 - j) (by omega))
    have n3 := R.ppos.ne'
    have n4 := (Real.exp_pos (-H.logres)).ne'
    field_simp

theorem post_getD {G : LnGamma} {mu q : ℝ} {pts : List ℝ} {kr : ℝ} {lowring : Bool}
    {x : Extrap} {e : ℝ} {H : Hankel} (h : initialise G mu q pts kr lowring x e = .ok H)
    {j : ℕ} (hj : j < pts.length) : H.post.getD j 0 =
      H.pivot * Real.exp (-H.logres) / pts.getD (pts.length - 1 - j) 0 := by
  rw [(init_ready h).hpost, List.getD_eq_getElem?_getD, List.getElem?_map, List.getElem?_range hj]
  simp only [Option.map_some, Option.getD_some]
  rw [show pts.length - j - 1 = pts.length - 1 - j by omega]

/-- The two transforms have the same logarithmic spacing. -/
theorem post_logres {G : LnGamma} {mu q : ℝ} {pts : List ℝ} {kr : ℝ} {lowring : Bool}
    {x : Extrap} {e : ℝ} {H : Hankel} (h : initialise G mu q pts kr lowring x e = .ok H) :
    Real.log (H.post.getLastD 0 / H.post.headD 0) / ((H.post.length : ℝ) - 1) = H.logres := by
  have R := init_ready h
  have hl := R.len
  have hnz := loglinOk_ne_zero R.lin R.len
  have hlen := (C48_reciprocal h).1
  have hd : ∀ l : List ℝ, l.headD 0 = l.getD 0 0 := by intro l; cases l <;> rfl
  have hla : ∀ l : List ℝ, l.getLastD 0 = l.getD (l.length - 1) 0 := by
    intro l
    rw [List.getD_eq_getElem?_getD, ← List.getLast?_eq_getElem?, List.getLastD_eq_getLast?]
  rw [hlen, R.hlog, hd, hla, hd pts, hla pts, hlen, post_getD h (by omega), post_getD h (by omega)]
  have n1 := hnz _ (getD_mem (l := pts) (j := pts.length - 1) (by omega))
  have n2 := hnz _ (getD_mem (l := pts) (j := 0) (by omega))
  have n3 := R.ppos.ne'
  have n4 := (Real.exp_pos (-H.logres)).ne'
  rw [show pts.length - 1 - (pts.length - 1) = 0 by omega, Nat.sub_zero]
  congr 2
  field_simp

/-- **C48.** Initialising a transform (of any order and bias) at the output sample points with the
pivot of the first one gives back the original sample points. -/
theorem C48_involution {G : LnGamma} {mu q : ℝ} {pts : List ℝ} {kr : ℝ} {lowring : Bool}
    {x : Extrap} {e : ℝ} {H : Hankel} (h : initialise G mu q pts kr lowring x e = .ok H)
    {G' : LnGamma} {mu' q' kr' : ℝ} {lowring' : Bool} {x' : Extrap} {e' : ℝ} {H' : Hankel}
    (h' : initialise G' mu' q' H.post kr' lowring' x' e' = .ok H') (hk : H'.pivot = H.pivot) :
    H'.post = pts ∧ H'.logres = H.logres := by
  have R := init_ready h
  have R' := init_ready h'
  have hl := R.len
  have hnz := loglinOk_ne_zero R.lin R.len
  have hlen := (C48_reciprocal h).1
  have hlen' := (C48_reciprocal h').1
  have hlog : H'.logres = H.logres := by rw [R'.hlog, post_logres h]
  refine ⟨?_, hlog⟩
  apply List.ext_getElem?
  intro j
  by_cases hj : j < pts.length
  · have e1 : H'.post.getD j 0 = pts.getD j 0 := by
      rw [post_getD h' (by omega), post_getD h (by omega), hlog, hk, hlen]
      rw [show pts.length - 1 - (pts.length - 1 - j) = j by omega]
      have n1 := hnz _ (getD_mem (l := pts) hj)
      have n3 := R.ppos.ne'
      have n4 := (Real.exp_pos (-H.logres)).ne'
      field_simp
    rw [List.getD_eq_getElem?_getD, List.getD_eq_getElem?_getD,
      List.getElem?_eq_getElem (by omega : j < H'.post.length), List.getElem?_eq_getElem hj] at e1
    rw [List.getElem?_eq_getElem (by omega : j < H'.post.length), List.getElem?_eq_getElem hj]
    exact congrArg some e1
  · rw [List.getElem?_eq_none (by omega), List.getElem?_eq_none (by omega)]

/-- **C48 (violated).** Whenever the samples are extended, the extended output points are read
outside the array of input points. -/
theorem C48_extended_violated {G : LnGamma} {mu q : ℝ} {pts : List ℝ} {kr : ℝ} {lowring : Bool}
    {x : Extrap} {e : ℝ} {H : Hankel} (hx : x ≠ .none)
    (h : initialise G mu q pts kr lowring x e = .ok H) (hn : 0 < H.nExt) :
    H.postExt[0]? = some none := by
  have R := init_ready h
  obtain ⟨-, h2, -⟩ := C45_transform_size hx h
  rw [R.hpostE, if_neg hx, List.getElem?_map, List.getElem?_range R.npos]
  simp only [Option.map_some]
  rw [List.getElem?_eq_none (by omega)]
  rfl

/-! ### C47 -/

/-- **C47.** A transform followed by the transform with the opposite bias, at the reciprocal sample
points and with the same pivot, is the identity, for every sample number and all samples: either
the sample number is odd, or the low-ringing condition is on (with a positive initial pivot, or
with none and a logarithmic spacing for which the pivot is not from an asymptotic series). -/
theorem C47_roundtrip {G : LnGamma} (hG : LgOk G) {mu q : ℝ} {pts : List ℝ} {kr : ℝ} {lowring : Bool}
    {e e' : ℝ} {H H' : Hankel} (h : initialise G mu q pts kr lowring .none e = .ok H)
    (h' : initialise G mu (-q) H.post H.pivot lowring .none e' = .ok H')
    (hring : (lowring = false ∧ pts.length % 2 = 1) ∨
      (lowring = true ∧ (0 < kr ∨ Real.pi / H.logres < 100)))
    {a : List ℂ} (ha : a.length = pts.length) (hN : 3 ≤ pts.length) :
    ∃ b, biased H a = .ok b ∧ biased H' b = .ok a ∧ H'.post = pts := by
  have R := init_ready h
  have R' := init_ready h'
  obtain ⟨t1, t2⟩ := C45_no_extrapolation h
  obtain ⟨t1', t2'⟩ := C45_no_extrapolation h'
  have hlen := (C48_reciprocal h).1
  have hlog : H'.logres = H.logres := by rw [R'.hlog, post_logres h]
  have hmid : MidReal G mu q H.logres H.pivot H.nsampTrans := by
    rcases hring with ⟨-, ho⟩ | ⟨hl, hk⟩
    · intro he
      rw [t1] at he
      omega
    · refine midReal_of R.lpos.ne' R.npos.ne' ?_
      rw [R.hpivot, if_pos hl]
      by_cases hkr : 0 < kr
      · exact lowring_pos G mu q R.lpos.ne' hkr
      · exact lowring_direct hG mu q R.lpos (not_lt.1 hkr) (hk.resolve_left hkr)
  have hpiv : H'.pivot = H.pivot := by
    rw [R'.hpivot]
    rcases hring with ⟨hl, -⟩ | ⟨hl, hk⟩
    · rw [if_neg (by simp [hl])]
    · rw [if_pos hl, hlog]
      apply lowring_fix R.ppos
      rw [R.hpivot, if_pos hl]
      by_cases hkr : 0 < kr
      · exact lowring_pos G mu q R.lpos.ne' hkr
      · exact lowring_direct hG mu q R.lpos (not_lt.1 hkr) (hk.resolve_left hkr)
  have hbuf : buffer H a = .ok a := by
    unfold buffer
    rw [R.hns, R.hext, if_neg (by omega)]
    simp only
    rw [List.take_of_length_le (by omega)]
  refine ⟨(List.range H.nsamp).map fun j : ℕ =>
    convolve H.nsampTrans H.kernel (fun i => a.getD i 0) (j + H.nExt), ?_, ?_, (C48_involution h h' hpiv).1⟩
  · unfold biased
    rw [if_neg (by rw [R.hns, t1]; omega), hbuf]
  · unfold biased
    rw [if_neg (by rw [R'.hns, t1', hlen]; omega)]
    have hbuf' : buffer H' ((List.range H.nsamp).map fun j : ℕ =>
        convolve H.nsampTrans H.kernel (fun i => a.getD i 0) (j + H.nExt)) =
        .ok ((List.range H.nsamp).map fun j : ℕ =>
          convolve H.nsampTrans H.kernel (fun i => a.getD i 0) (j + H.nExt)) := by
      unfold buffer
      rw [R'.hns, R'.hext, hlen, if_neg (by rw [List.length_map, List.length_range, R.hns]; omega)]
      simp only
      rw [List.take_of_length_le (by rw [List.length_map, List.length_range, R.hns])]
    rw [hbuf']
    simp only
    congr 1
    apply List.ext_getElem?
    intro j
    rw [R'.hns, hlen]
    by_cases hj : j < pts.length
    · rw [List.getElem?_map, List.getElem?_range hj, List.getElem?_eq_getElem (by omega : j < a.length)]
      simp only [Option.map_some]
      rw [t2', add_zero, t1', hlen]
      have hb : ∀ i < pts.length, ((List.range H.nsamp).map fun j : ℕ =>
          convolve H.nsampTrans H.kernel (fun i => a.getD i 0) (j + H.nExt)).getD i 0 =
          convolve pts.length H.kernel (fun i => a.getD i 0) i := by
        intro i hi
        rw [List.getD_eq_getElem?_getD, List.getElem?_map, R.hns, List.getElem?_range hi, t2, t1]
        rfl
      unfold convolve at hb ⊢
      rw [dft_congr (b := fun m => dft pts.length (convolve pts.length H.kernel (fun i => a.getD i 0)) m *
        H'.kernel m / pts.length) (fun m hm => by rw [dft_congr (fun i hi => hb i hi)]; rfl)]
      have := convolve_inverse (N := pts.length) (by omega) H.kernel H'.kernel (fun i => a.getD i 0)
        (fun m hm => by
          rw [R.hker, R'.hker, hlog, hpiv, t1', hlen, ← t1]
          exact kernel_inverse hG R.con _ _ (by omega) hmid) hj
      unfold convolve at this ⊢
      rw [this, List.getD_eq_getElem?_getD, List.getElem?_eq_getElem (by omega : j < a.length)]
      rfl
    · rw [List.getElem?_eq_none (by simp; omega), List.getElem?_eq_none (by omega)]

/-- The hypotheses are met by the monopole transform of four logarithmically spaced points with the
low-ringing condition: both transforms are accepted. -/
example : ∃ H H' : Hankel,
    initialise trueLg (0 + 1 / 2) 0 (geometric 1 1 4) 1 true .none 2 = .ok H ∧
    initialise trueLg (0 + 1 / 2) (-0) H.post H.pivot true .none 2 = .ok H' ∧
    (3 : ℕ) ≤ (geometric 1 1 4).length := by
  have hc : construct (0 + 1 / 2) 0 = .ok () := by simpa using construct_half 0
  obtain ⟨H, hH⟩ := init_geometric trueLg hc (r0 := 1) (d := 1) one_pos one_pos (N := 4) (by norm_num)
    (kr := 1) one_pos true 2
  have R := init_ready hH
  have hd : H.logres = 1 := by rw [R.hlog, geometric_logres one_pos 1 (by norm_num)]
  have hpost : H.post = geometric (H.pivot * Real.exp (-4)) 1 4 := by
    rw [R.hpost, geometric_length, hd]
    unfold geometric
    apply List.map_congr_left
    intro j hj
    have hj' := List.mem_range.1 hj
    have := geometric_getD 1 1 (N := 4) (j := 4 - j - 1) (by omega) 0
    unfold geometric at this
    rw [this, one_mul, mul_div_assoc, mul_assoc, ← Real.exp_sub, ← Real.exp_add]
    congr 2
    have : ((4 - j - 1 : ℕ) : ℝ) = 3 - j := by
      rw [show 4 - j - 1 = 3 - j by omega, Nat.cast_sub (by omega)]; norm_num
    rw [this]; ring
  have hc' : construct (0 + 1 / 2) (-0) = .ok () := by rw [neg_zero]; exact hc
  obtain ⟨H', hH'⟩ := init_geometric trueLg hc' (r0 := H.pivot * Real.exp (-4)) (d := 1)
    (mul_pos R.ppos (Real.exp_pos _)) one_pos (N := 4) (by norm_num) (kr := H.pivot) R.ppos true 2
  exact ⟨H, H', hH, by rw [hpost]; exact hH', by rw [geometric_length]; norm_num⟩

/-- **C47 (violated).** For every even number of samples (at least four), order and bias, there is a
pivot for which, without the low-ringing condition, the transform of alternating samples vanishes:
they cannot be recovered. -/
theorem C47_even_violated (G : LnGamma) {mu q : ℝ} (hc : construct mu q = .ok ()) {r0 d : ℝ}
    (hr : 0 < r0) (hd : 0 < d) {N : ℕ} (hN : 4 ≤ N) (he : N % 2 = 0) (e : ℝ) :
    ∃ kr : ℝ, 0 < kr ∧ ∃ H, initialise G mu q (geometric r0 d N) kr false .none e = .ok H ∧
      biased H ((List.range N).map fun j : ℕ => (-1) ^ j) = .ok (List.replicate N 0) := by
  obtain ⟨S, hS⟩ : ∃ S, S = (G ((mu + 1 + q) / 2) (Real.pi / (2 * d))).2 +
    (G ((mu + 1 - q) / 2) (Real.pi / (2 * d))).2 := ⟨_, rfl⟩
  have hpi := Real.pi_ne_zero
  have hkr : 0 < 2 * Real.exp (d * (S - Real.pi / 2) / Real.pi) := by positivity
  refine ⟨_, hkr, ?_⟩
  obtain ⟨H, hH⟩ := init_geometric G hc hr hd (by omega : 2 ≤ N) hkr false e
  refine ⟨H, hH, ?_⟩
  have R := init_ready hH
  obtain ⟨t1, t2⟩ := C45_no_extrapolation hH
  have hlog : H.logres = d := by rw [R.hlog, geometric_logres hr d (by omega)]
  have hpiv : H.pivot = 2 * Real.exp (d * (S - Real.pi / 2) / Real.pi) := by
    rw [R.hpivot]; rfl
  rw [geometric_length] at t1
  have hns : H.nsamp = N := by rw [R.hns, geometric_length]
  unfold biased
  rw [if_neg (by rw [hns, t1]; omega)]
  unfold buffer
  rw [R.hext, hns, if_neg (by simp)]
  simp only
  congr 1
  rw [List.eq_replicate_iff]
  refine ⟨by simp, ?_⟩
  intro z hz
  obtain ⟨j, hj, rfl⟩ := List.mem_map.1 hz
  rw [t1, t2, add_zero]
  have hmode : ∀ i < N, (((List.range N).map fun j : ℕ => ((-1 : ℂ)) ^ j).take N).getD i 0 =
      ru N (((N / 2 : ℕ) : ℤ) * i) := by
    intro i hi
    rw [List.take_of_length_le (by simp), List.getD_eq_getElem?_getD, List.getElem?_map,
      List.getElem?_range hi]
    simp only [Option.map_some, Option.getD_some]
    rw [← ru_pow]
    congr 1
    unfold ru
    have h2 : (((N / 2 : ℕ) : ℤ) : ℂ) = N / 2 := by
      obtain ⟨k, hk⟩ : ∃ k, N = 2 * k := ⟨N / 2, by omega⟩
      rw [hk, Nat.mul_div_cancel_left _ (by norm_num)]
      push_cast; ring
    have hN0 : (N : ℂ) ≠ 0 := by exact_mod_cast (by omega : N ≠ 0)
    rw [h2, ← Complex.exp_pi_mul_I]
    congr 1
    field_simp
  unfold convolve
  rw [dft_congr (b := fun m => dft N (fun i => ru N (((N / 2 : ℕ) : ℤ) * i)) m * H.kernel m / N)
    (fun m _ => by rw [dft_congr hmode])]
  have hcm := convolve_mode (N := N) (by omega) H.kernel ((N / 2 : ℕ) : ℤ) (p := N / 2) (by omega) (by simp) j
  unfold convolve at hcm
  rw [hcm, R.hker]
  unfold kernelCoeff
  rw [t1, if_pos ⟨he, rfl⟩, kernelLow_eq, Complex.re_ofReal_mul, Complex.exp_ofReal_mul_I_re,
    hlog, lowPhase_mid G mu q hd.ne' (by omega) he, hpiv]
  have hph : -(Real.pi / d) * Real.log (2 * Real.exp (d * (S - Real.pi / 2) / Real.pi) / 2) +
      (G ((mu + 1 + q) / 2) (Real.pi / (2 * d))).2 + (G ((mu + 1 - q) / 2) (Real.pi / (2 * d))).2 =
      Real.pi / 2 := by
    rw [mul_div_cancel_left₀ _ (by norm_num : (2 : ℝ) ≠ 0), Real.log_exp, add_assoc, ← hS]
    field_simp
    ring
  rw [hph, Real.cos_pi_div_two]
  simp

/-! ### C75 -/

/-- **C75.** Each power law `r^{iη}` with a log-periodic exponent below the Nyquist one is
transformed exactly: the output at each output point is the analytic transform of the power law. -/
theorem C75_power_law {G : LnGamma} (hG : LgOk G) {mu q : ℝ} {r0 d : ℝ} (hr : 0 < r0) (hd : 0 < d)
    {N : ℕ} (hN : 3 ≤ N) {kr : ℝ} {lowring : Bool} {e : ℝ} {H : Hankel}
    (h : initialise G mu q (geometric r0 d N) kr lowring .none e = .ok H)
    (m : ℤ) (hm : 2 * |m| < N) :
    biased H ((geometric r0 d N).map fun r : ℝ =>
        ((r / r0 : ℝ) : ℂ) ^ (((2 * Real.pi * m / (N * d) : ℝ) : ℂ) * Complex.I)) =
      .ok (H.post.map fun k : ℝ =>
        powerLaw mu (q + ((2 * Real.pi * m / (N * d) : ℝ) : ℂ) * Complex.I) *
          ((k * r0 : ℝ) : ℂ) ^ (-(((2 * Real.pi * m / (N * d) : ℝ) : ℂ) * Complex.I))) := by
  have R := init_ready h
  obtain ⟨t1, t2⟩ := C45_no_extrapolation h
  have hlog : H.logres = d := by rw [R.hlog, geometric_logres hr d (by omega)]
  rw [geometric_length] at t1
  have hns : H.nsamp = N := by rw [R.hns, geometric_length]
  have hN0 : (N : ℂ) ≠ 0 := by exact_mod_cast (by omega : N ≠ 0)
  have hNr : (N : ℝ) ≠ 0 := by exact_mod_cast (by omega : N ≠ 0)
  unfold biased
  rw [if_neg (by rw [hns, t1]; omega)]
  unfold buffer
  rw [R.hext, hns, if_neg (by simp [geometric])]
  simp only
  congr 1
  rw [List.take_of_length_le (by simp [geometric]), R.hpost, geometric_length, List.map_map]
  apply List.map_congr_left
  intro j hj
  have hj' := List.mem_range.1 hj
  simp only [Function.comp_apply]
  rw [t1, t2, add_zero, hlog]
  have hin : ∀ i < N, ((geometric r0 d N).map fun r : ℝ =>
      ((r / r0 : ℝ) : ℂ) ^ (((2 * Real.pi * m / (N * d) : ℝ) : ℂ) * Complex.I)).getD i 0 =
      ru N (m * i) := by
    intro i hi
    unfold geometric
    rw [List.getD_eq_getElem?_getD, List.getElem?_map, List.getElem?_map, List.getElem?_range hi]
    simp only [Option.map_some, Option.getD_some]
    rw [mul_div_cancel_left₀ _ hr.ne', cpow_exp]
    unfold ru
    congr 1
    have hd' : (d : ℂ) ≠ 0 := by exact_mod_cast hd.ne'
    push_cast
    field_simp
  obtain ⟨p, hp, hpd, hpm⟩ : ∃ p : ℕ, p < N ∧ (N : ℤ) ∣ m - p ∧
      ((0 ≤ m ∧ (p : ℤ) = m) ∨ (m < 0 ∧ (p : ℤ) = N + m)) := by
    by_cases h0 : 0 ≤ m
    · rw [abs_of_nonneg h0] at hm
      exact ⟨m.toNat, by omega, by rw [Int.toNat_of_nonneg h0]; simp, Or.inl ⟨h0, by omega⟩⟩
    · rw [abs_of_neg (by omega)] at hm
      refine ⟨(N + m).toNat, by omega, ⟨-1, by rw [Int.toNat_of_nonneg (by omega)]; ring⟩,
        Or.inr ⟨by omega, by omega⟩⟩
  unfold convolve
  rw [dft_congr (b := fun k => dft N (fun i => ru N (m * i)) k * H.kernel k / N)
    (fun k _ => by rw [dft_congr hin])]
  have hcm := convolve_mode (N := N) (by omega) H.kernel m hp hpd j
  unfold convolve at hcm
  rw [hcm]
  have hker : H.kernel p = powerLaw mu (q + ((2 * Real.pi * m / (N * d) : ℝ) : ℂ) * Complex.I) *
      Complex.exp (-(((2 * Real.pi * m / (N * d) : ℝ) : ℂ) * Complex.I * (Real.log H.pivot : ℝ))) := by
    rw [R.hker, t1, hlog]
    unfold kernelCoeff
    rcases hpm with ⟨h0, hpm⟩ | ⟨h0, hpm⟩
    · rw [abs_of_nonneg h0] at hm
      rw [if_neg (by omega), if_pos (by omega), kernelLow_powerLaw hG R.con R.ppos]
      rw [← hpm]
      rfl
    · rw [abs_of_neg (by omega)] at hm
      rw [if_neg (by omega), if_neg (by omega), kernelLow_powerLaw hG R.con R.ppos, map_mul,
        powerLaw_conj, ← Complex.exp_conj]
      have e1 : ((N - p : ℕ) : ℝ) = -(m : ℝ) := by
        rw [Nat.cast_sub hp.le]
        have : ((p : ℤ) : ℝ) = ((N + m : ℤ) : ℝ) := by rw [hpm]
        push_cast at this
        rw [this]; ring
      rw [e1]
      simp only [map_add, map_mul, map_neg, Complex.conj_ofReal, Complex.conj_I]
      congr 2
      · push_cast; ring
      · push_cast; ring
  have hpost : H.pivot * Real.exp (-d) / (geometric r0 d N).getD (N - j - 1) 0 * r0 =
      Real.exp (Real.log H.pivot - (N - j) * d) := by
    rw [geometric_getD r0 d (by omega) 0, Real.exp_sub, Real.exp_log R.ppos]
    have e1 : ((N - j - 1 : ℕ) : ℝ) = N - j - 1 := by
      rw [Nat.cast_sub (by omega), Nat.cast_sub (by omega)]; norm_num
    rw [e1, show ((N : ℝ) - j) * d = (N - j - 1) * d + d by ring, Real.exp_add, Real.exp_neg]
    have := (Real.exp_pos d).ne'
    have := (Real.exp_pos (((N : ℝ) - j - 1) * d)).ne'
    have := hr.ne'
    field_simp
  rw [hpost, cpow_exp, hker, mul_assoc]
  congr 1
  have hru : ru N (-((p : ℤ) * j)) = ru N (-(m * j)) := by
    obtain ⟨c, hc⟩ := hpd
    have : -((p : ℤ) * j) = -(m * j) + N * (c * j) := by linear_combination j * hc
    rw [this, ru_add, ru_mul_self N (by omega), mul_one]
  rw [hru]
  have hone : ru N (N * m) = 1 := ru_mul_self N (by omega) m
  rw [← mul_one (ru N (-(m * j))), ← hone, ← ru_add]
  unfold ru
  rw [← Complex.exp_add]
  congr 1
  have hd' : (d : ℂ) ≠ 0 := by exact_mod_cast hd.ne'
  push_cast
  field_simp
  ring

/-- The hypotheses are met: the first mode of four points. -/
example : (2 * |(1 : ℤ)| < (4 : ℕ)) ∧ ∃ H : Hankel,
    initialise trueLg (0 + 1 / 2) 0 (geometric 1 1 4) 1 false .none 2 = .ok H :=
  ⟨by norm_num, init_geometric trueLg (by simpa using construct_half 0) one_pos one_pos (by norm_num)
    one_pos false 2⟩

/-! ### C76 -/

/-- **C76.** Orders and biases for which a gamma function has a pole are rejected, and accepted ones
have no pole for any frequency. -/
theorem C76_poles_rejected (mu q : ℝ) (h : construct mu q = .ok ()) (y : ℝ) (n : ℕ) :
    ((mu + 1 + q) / 2 : ℝ) + (y : ℂ) * Complex.I ≠ -n ∧
    ((mu + 1 - q) / 2 : ℝ) + (y : ℂ) * Complex.I ≠ -n := by
  obtain ⟨h1, h2⟩ := construct_ok h
  constructor
  · intro hn
    have := congrArg Complex.re hn
    apply h1 n
    simpa using this
  · intro hn
    have := congrArg Complex.re hn
    apply h2 n
    simpa using this

/-- **C76 (violated).** Some orders and biases without any pole are rejected: the poles are at the
non-positive *even* integers of `mu + 1 ± q` only. -/
theorem C76_odd_rejected_violated :
    construct (1 / 2) (-5 / 2) = .error .invalidParameter ∧
    ∀ n : ℕ, (((1 / 2 : ℝ) + 1 + (-5 / 2)) / 2 ≠ -(n : ℝ)) ∧ (((1 / 2 : ℝ) + 1 - (-5 / 2)) / 2 ≠ -(n : ℝ)) := by
  constructor
  · unfold construct
    rw [if_pos]
    left
    have e : (1 / 2 : ℝ) + 1 + (-5 / 2) = ((-1 : ℤ) : ℝ) := by norm_num
    rw [e, Int.floor_intCast]
    exact ⟨by norm_num, rfl⟩
  · intro n
    constructor
    · intro hn
      have h2 : (2 * (n : ℤ) : ℝ) = 1 := by push_cast; linarith
      have h3 : 2 * (n : ℤ) = 1 := by exact_mod_cast h2
      omega
    · intro hn
      have : (0 : ℝ) ≤ n := Nat.cast_nonneg n
      linarith

end Trv.Fft

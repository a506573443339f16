import Verif.Props.Fftlog
/-
C49, C77, C78: spherical Bessel transforms.
-/
namespace Trv.Fft

open Trv.Arr

/-! ### C49 -/

theorem work_other (S : Sbt) (h : Heap) (id i : ℕ) (hi : i ≠ id) : (S.work h id).1.arr i = h.arr i := by
  unfold Sbt.work
  split_ifs
  · rfl
  · simp [hi]

theorem work_congr (S : Sbt) (h g : Heap) (id id' : ℕ) (he : h.arr id = g.arr id') :
    (S.work h id).2 = (S.work g id').2 := by
  unfold Sbt.work
  rw [he]
  split_ifs <;> rfl

/-- **C49 (part).** With extrapolation in the 'outer' layer, transforming an array object changes no
existing array object, whether or not it succeeds. -/
theorem C49_unchanged_partial (S : Sbt) (h : Heap) (id : ℕ) (ho : S.outer = true) (hx : S.ext.isSome)
    (i : ℕ) (hi : i < h.next) : (S.transform h id).1.arr i = h.arr i := by
  obtain ⟨f, hf⟩ := Option.isSome_iff_exists.1 hx
  unfold Sbt.transform Sbt.source
  rw [if_pos ho, hf]
  simp only
  have hne : i ≠ h.next := by omega
  cases hl : f (h.arr id) with
  | error e => rfl
  | ok l =>
    simp only
    rw [work_other _ _ _ _ hne]
    simp [hne]

/-- **C49 (part).** In that case transforming the same array object again gives the same result. -/
theorem C49_repeatable_partial (S : Sbt) (h : Heap) (id : ℕ) (ho : S.outer = true) (hx : S.ext.isSome)
    (hid : id < h.next) : (S.transform (S.transform h id).1 id).2 = (S.transform h id).2 := by
  have hun := C49_unchanged_partial S h id ho hx id hid
  obtain ⟨f, hf⟩ := Option.isSome_iff_exists.1 hx
  have key : ∀ g : Heap, g.arr id = h.arr id → (S.transform g id).2 = (S.transform h id).2 := by
    intro g hg
    unfold Sbt.transform Sbt.source
    rw [if_pos ho, if_pos ho, hf]
    simp only [hg]
    cases hl : f (h.arr id) with
    | error e => rfl
    | ok l =>
      simp only
      apply work_congr
      simp
  exact key _ hun

/-- **C49 (violated).** Without extrapolation (the default) or in the 'native' layer, the array
object of the caller is multiplied by the power `3/2` of the sample points. -/
theorem C49_mutated_violated (S : Sbt) (h : Heap) (id : ℕ) (hs : S.outer = false ∨ S.ext = none)
    (hl : (h.arr id).length = S.fbht.pre.length) :
    (S.transform h id).1.arr id =
      List.zipWith (fun x r : ℝ => x * r ^ (3 / 2 : ℝ)) (h.arr id) S.fbht.pre := by
  have hsrc : S.source h id = .ok (h, id) := by
    unfold Sbt.source
    rcases hs with hs | hs
    · rw [hs]; rfl
    · rw [hs]; split_ifs <;> rfl
  unfold Sbt.transform
  rw [hsrc]
  simp only
  unfold Sbt.work
  rw [if_neg (by simpa using hl)]
  simp

/-- The hypotheses are met, and the change is a real one: samples `1` at the points `1, 4, 16`
become `1, 8, 64`. -/
example : List.zipWith (fun x r : ℝ => x * r ^ (3 / 2 : ℝ)) [1, 1, 1] [1, 4, 16] = [1, 8, 64] := by
  have h4 : (4 : ℝ) ^ (3 / 2 : ℝ) = 8 := by
    rw [show (4 : ℝ) = 2 ^ (2 : ℝ) by norm_num, ← Real.rpow_mul (by norm_num)]; norm_num
  have h16 : (16 : ℝ) ^ (3 / 2 : ℝ) = 64 := by
    rw [show (16 : ℝ) = 4 ^ (2 : ℝ) by norm_num, ← Real.rpow_mul (by norm_num)]; norm_num
  simp [h4, h16]

/-! ### C77 -/

theorem three_halves {x : ℝ} (hx : 0 < x) : (x ^ (3 / 2 : ℝ)) * (x ^ (3 / 2 : ℝ)) = x ^ 3 := by
  rw [← Real.rpow_add hx]
  norm_num

theorem zipWith_getElem? {α β γ : Type} (f : α → β → γ) (l : List α) (r : List β) (i : ℕ) :
    (List.zipWith f l r)[i]? = match l[i]?, r[i]? with
      | some a, some b => some (f a b)
      | _, _ => none := List.getElem?_zipWith ..

/-- **C77.** Transforming multipoles forwards and then backwards (with the opposite bias, at the
reciprocal sample points) is the identity, for every degree, bias, number of positive sample points
and samples, under the conditions of C47. -/
theorem C77_multipole_roundtrip {G : LnGamma} (hG : LgOk G) (ell : ℤ) {mu q : ℝ} {pts : List ℝ} {kr : ℝ}
    {lowring : Bool} {e e' : ℝ} {H H' : Hankel}
    (h : initialise G mu q pts kr lowring .none e = .ok H)
    (h' : initialise G mu (-q) H.post H.pivot lowring .none e' = .ok H')
    (hring : (lowring = false ∧ pts.length % 2 = 1) ∨
      (lowring = true ∧ (0 < kr ∨ Real.pi / H.logres < 100)))
    (hpos : ∀ r ∈ pts, 0 < r)
    {a : List ℂ} (ha : a.length = pts.length) (hN : 3 ≤ pts.length) :
    ∃ b, sphCosmo H ell 1 a pts.length = .ok b ∧ sphCosmo H' ell (-1) b pts.length = .ok a := by
  have R := init_ready h
  have R' := init_ready h'
  have hlen := (C48_reciprocal h).1
  obtain ⟨t1, t2⟩ := C45_no_extrapolation h
  have hpi := Real.pi_pos
  -- forwards
  obtain ⟨A, hA⟩ : ∃ A, A = List.zipWith (fun r x => ((r ^ (3 / 2 : ℝ) : ℝ) : ℂ) * x) pts a := ⟨_, rfl⟩
  have hAl : A.length = pts.length := by rw [hA, List.length_zipWith, ha, min_self]
  obtain ⟨B, hB, hB', hpp⟩ := C47_roundtrip hG h h' hring hAl hN
  have hBl : B.length = pts.length := by
    unfold biased at hB
    split_ifs at hB
    split at hB
    · cases hB
    · cases hB; simp [R.hns]
  have hkpos : ∀ k ∈ H.post, 0 < k := by
    intro k hk
    rw [R.hpost] at hk
    obtain ⟨j, hj, rfl⟩ := List.mem_map.1 hk
    have hj' := List.mem_range.1 hj
    exact div_pos (mul_pos R.ppos (Real.exp_pos _)) (hpos _ (getD_mem (by omega)))
  have hfwd : sphCosmo H ell 1 a pts.length = .ok ((List.zipWith
      (fun k x => (((2 * Real.pi / k) ^ (3 / 2 : ℝ) : ℝ) : ℂ) * x) H.post B).map
        (· * (1 * Complex.I ^ (-1 * ell)))) := by
    unfold sphCosmo sphBiased
    rw [if_neg (by norm_num), R.hns, if_neg (by simpa using ha), R.hpre, ← hA, hB]
    simp only
    rw [if_neg (by simp [ha])]
    simp
  refine ⟨_, hfwd, ?_⟩
  obtain ⟨bb, hbb⟩ : ∃ bb, bb = (List.zipWith
      (fun k x => (((2 * Real.pi / k) ^ (3 / 2 : ℝ) : ℝ) : ℂ) * x) H.post B).map
        (· * (1 * Complex.I ^ (-1 * ell))) := ⟨_, rfl⟩
  rw [← hbb]
  have hbl : bb.length = pts.length := by
    rw [hbb, List.length_map, List.length_zipWith, hlen, hBl, min_self]
  -- the samples passed to the second transform are a multiple of the output of the first
  have hin : List.zipWith (fun r x => ((r ^ (3 / 2 : ℝ) : ℝ) : ℂ) * x) H.post bb =
      B.map (fun z => ((((2 * Real.pi) ^ (3 / 2 : ℝ) : ℝ) : ℂ) * Complex.I ^ (-ell)) * z) := by
    apply List.ext_getElem?
    intro i
    by_cases hi : i < pts.length
    · have g1 : H.post[i]? = some (H.post[i]'(by omega)) := List.getElem?_eq_getElem (by omega)
      have g2 : B[i]? = some (B[i]'(by omega)) := List.getElem?_eq_getElem (by omega)
      rw [zipWith_getElem?, hbb, List.getElem?_map, zipWith_getElem?, List.getElem?_map, g1, g2]
      simp only [Option.map_some, Option.some.injEq]
      have hk := hkpos _ (List.getElem_mem (by omega : i < H.post.length))
      generalize H.post[i]'(by omega) = k at hk
      rw [Real.div_rpow (by positivity) hk.le]
      have hkn : ((k ^ (3 / 2 : ℝ) : ℝ) : ℂ) ≠ 0 := by
        exact_mod_cast (Real.rpow_pos_of_pos hk _).ne'
      push_cast
      field_simp
      rw [neg_one_mul]
    · rw [List.getElem?_eq_none (by rw [List.length_zipWith, hlen, hbl]; omega),
        List.getElem?_eq_none (by rw [List.length_map]; omega)]
  -- the transform is linear
  have hlin : ∀ c : ℂ, ∀ z w : List ℂ, z.length = pts.length → biased H' z = .ok w →
      biased H' (z.map (c * ·)) = .ok (w.map (c * ·)) := by
    intro c z w hz hw
    unfold biased at hw ⊢
    have hnot : ¬ (H'.nsamp ≤ 2 ∨ H'.nsampTrans ≤ 2) := by
      rw [R'.hns, (C45_no_extrapolation h').1, hlen]; omega
    rw [if_neg hnot] at hw ⊢
    have hbuf : ∀ y : List ℂ, y.length = pts.length → buffer H' y = .ok y := by
      intro y hy
      unfold buffer
      rw [R'.hns, hlen, R'.hext, if_neg (by omega)]
      simp only
      rw [List.take_of_length_le (by omega)]
    rw [hbuf z hz] at hw
    rw [hbuf _ (by rw [List.length_map, hz])]
    cases hw
    simp only [List.map_map]
    congr 1
    apply List.map_congr_left
    intro j _
    simp only [Function.comp_apply]
    unfold convolve
    have hg : ∀ i, (z.map (c * ·)).getD i 0 = c * z.getD i 0 := by
      intro i
      rw [List.getD_eq_getElem?_getD, List.getElem?_map, List.getD_eq_getElem?_getD]
      cases z[i]? <;> simp
    simp only [hg]
    rw [← dft_smul]
    apply dft_congr
    intro m _
    rw [dft_smul]
    ring
  unfold sphCosmo sphBiased
  rw [if_neg (by norm_num), R'.hns, hlen, if_neg (not_not.2 hbl), R'.hpre, hin,
    hlin _ _ _ hBl hB']
  simp only
  rw [if_neg (by simp [hbl])]
  simp only [if_true]
  congr 1
  apply List.ext_getElem?
  intro i
  by_cases hi : i < pts.length
  · have g1 : H'.post[i]? = some (pts[i]) := by rw [hpp]; exact List.getElem?_eq_getElem hi
    have g2 : a[i]? = some (a[i]'(by omega)) := List.getElem?_eq_getElem (by omega)
    have g3 : pts[i]? = some (pts[i]) := List.getElem?_eq_getElem hi
    rw [List.getElem?_map, zipWith_getElem?, g1, List.getElem?_map, hA, zipWith_getElem?, g3, g2]
    simp only [Option.map_some, Option.some.injEq]
    have hr := hpos _ (List.getElem_mem hi)
    generalize pts[i] = r at hr
    generalize a[i]'(by omega) = z
    rw [Real.div_rpow (by positivity) hr.le]
    have hrn : ((r ^ (3 / 2 : ℝ) : ℝ) : ℂ) ≠ 0 := by
      exact_mod_cast (Real.rpow_pos_of_pos hr _).ne'
    have h3 := three_halves (x := 2 * Real.pi) (by positivity)
    have h3' : (((2 * Real.pi) ^ (3 / 2 : ℝ) : ℝ) : ℂ) * (((2 * Real.pi) ^ (3 / 2 : ℝ) : ℝ) : ℂ) =
        (2 * Real.pi) ^ 3 := by exact_mod_cast h3
    have hI : Complex.I ^ (-ell) * Complex.I ^ (-(-1) * ell) = 1 := by
      rw [← zpow_add₀ Complex.I_ne_zero]
      simp
    have hp : (2 * (Real.pi : ℂ)) ^ (-3 : ℤ) * (2 * Real.pi) ^ 3 = 1 := by
      have : (2 * (Real.pi : ℂ)) ≠ 0 := by
        have : (Real.pi : ℂ) ≠ 0 := by exact_mod_cast hpi.ne'
        simpa using this
      rw [zpow_neg]
      exact inv_mul_cancel₀ (pow_ne_zero 3 this)
    rw [Complex.ofReal_div]
    generalize (((2 * Real.pi) ^ (3 / 2 : ℝ) : ℝ) : ℂ) = T at h3' ⊢
    generalize ((r ^ (3 / 2 : ℝ) : ℝ) : ℂ) = P at hrn ⊢
    generalize (2 * (Real.pi : ℂ)) ^ (-3 : ℤ) = U at hp ⊢
    generalize Complex.I ^ (-ell) = V at hI ⊢
    generalize Complex.I ^ (-(-1) * ell) = W at hI ⊢
    rw [← h3'] at hp
    have : T / P * (T * V * (P * z)) * (U * W) = (V * W) * (U * (T * T)) * (P / P) * z := by ring
    rw [this, hI, hp, div_self hrn]
    ring
  · rw [List.getElem?_eq_none (by
      rw [List.length_map, List.length_zipWith, List.length_map, hAl]; omega),
      List.getElem?_eq_none (by omega)]

/-! ### C78 -/

/-- **C78 (part).** With an output vector already of the sample size the spherical transform succeeds
exactly when the underlying transform does. -/
theorem C78_sized_output_partial (H : Hankel) (a : List ℂ) (ha : a.length = H.nsamp) (n : ℕ) (hn : H.nsamp ≤ n) :
    (∃ b, sphBiased H a n = .ok b) ↔
      ∃ B, biased H (List.zipWith (fun r x => ((r ^ (3 / 2 : ℝ) : ℝ) : ℂ) * x) H.pre a) = .ok B := by
  unfold sphBiased
  rw [if_neg (by simpa using ha)]
  simp only
  cases biased H (List.zipWith (fun r x => ((r ^ (3 / 2 : ℝ) : ℝ) : ℂ) * x) H.pre a) with
  | error e => simp
  | ok B => simp [ha, not_lt.2 hn]

/-- **C78 (violated).** An empty output vector is not resized: whenever the transform succeeds, the
results are written outside it. -/
theorem C78_not_resized_violated (H : Hankel) (a B : List ℂ) (hn : 0 < H.nsamp) (ha : a.length = H.nsamp)
    (h : biased H (List.zipWith (fun r x => ((r ^ (3 / 2 : ℝ) : ℝ) : ℂ) * x) H.pre a) = .ok B) :
    sphBiased H a 0 = .error .outOfBounds := by
  unfold sphBiased
  rw [if_neg (by simpa using ha), h]
  simp [ha, hn]

end Trv.Fft

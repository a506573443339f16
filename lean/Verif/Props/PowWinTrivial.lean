import Verif.Props.PowWin
import Verif.Lemmas.WinBuild
import Verif.Props.DoubleSbt
import Verif.Props.WinLinear
/-
Property theorem for the window convolution of power spectra (`winconv.py`): C134, trivial windows.
-/
namespace Trv.Wc

open Trv Trv.Fft

/-! ### Transforms without extrapolation -/

theorem plain_line {H : Hankel} {x : List ℝ} {b : List ℂ}
    (hb : ((⟨H, 0, none⟩ : Line).transform (x.map fun u : ℝ => (u : ℂ))).2 = .ok b) :
    sbtValue ⟨H, true, 0, none⟩ x = .ok (H.post, b) := by
  unfold sbtValue Sbt.transform Sbt.source
  simp only [if_true]
  unfold Sbt.work
  change ((⟨H, 0, none⟩ : Line).work (x.map fun u : ℝ => (u : ℂ))).2 = .ok b at hb
  unfold Line.work at hb
  simp only [List.length_map] at hb ⊢
  by_cases hl : x.length ≠ H.pre.length
  · rw [if_pos hl] at hb; cases hb
  rw [if_neg hl] at hb ⊢
  simp only at hb ⊢
  have e : (List.zipWith (fun x r : ℝ => x * r ^ (3 / 2 : ℝ)) x H.pre).map (fun u : ℝ => (u : ℂ)) =
      List.zipWith (fun (x : ℂ) (r : ℝ) => x * ((r ^ (3 / 2 : ℝ) : ℝ) : ℂ)) (x.map fun u : ℝ => (u : ℂ)) H.pre := by
    rw [List.map_zipWith, List.zipWith_map_left]
    congr 1
    funext u r
    push_cast
    rfl
  rw [e]
  cases hB : biased H (List.zipWith (fun (x : ℂ) (r : ℝ) => x * ((r ^ (3 / 2 : ℝ) : ℝ) : ℂ))
      (x.map fun u : ℝ => (u : ℂ)) H.pre) with
  | error err => rw [hB] at hb; cases hb
  | ok B =>
    rw [hB] at hb
    simp only [Except.ok.injEq] at hb ⊢
    rw [← hb]
    rfl

/-- The transform of real samples is real. -/
theorem line_real {G : LnGamma} (hG : LgOk G) {mu q : ℝ} {pts : List ℝ} {kr : ℝ} {lowring : Bool} {e : ℝ} {H : Hankel}
    (h : initialise G mu q pts kr lowring .none e = .ok H) {x : List ℝ} {b : List ℂ}
    (hb : ((⟨H, 0, none⟩ : Line).transform (x.map fun u : ℝ => (u : ℂ))).2 = .ok b) : ∀ z ∈ b, z.im = 0 := by
  change ((⟨H, 0, none⟩ : Line).work (x.map fun u : ℝ => (u : ℂ))).2 = .ok b at hb
  unfold Line.work at hb
  simp only [List.length_map] at hb
  by_cases hl : x.length ≠ H.pre.length
  · rw [if_pos hl] at hb; cases hb
  rw [if_neg hl] at hb
  simp only at hb
  cases hB : biased H (List.zipWith (fun (x : ℂ) (r : ℝ) => x * ((r ^ (3 / 2 : ℝ) : ℝ) : ℂ))
      (x.map fun u : ℝ => (u : ℂ)) H.pre) with
  | error err => rw [hB] at hb; cases hb
  | ok B =>
    rw [hB] at hb
    simp only [Except.ok.injEq, pySlice, if_true] at hb
    have hBr : ∀ z ∈ B, z.im = 0 := by
      refine C46_real hG h ?_ hB
      intro z hz
      rw [List.zipWith_map_left] at hz
      obtain ⟨i, hi, rfl⟩ := List.getElem_of_mem hz
      rw [List.getElem_zipWith, ← Complex.ofReal_mul]
      exact Complex.ofReal_im _
    intro z hz
    rw [← hb] at hz
    obtain ⟨i, hi, rfl⟩ := List.getElem_of_mem hz
    rw [List.getElem_zipWith, Complex.im_mul_ofReal]
    rw [hBr _ (List.getElem_mem _), zero_mul]

theorem init_congr (G : LnGamma) (mu q : ℝ) (pts : List ℝ) (kr kr' : ℝ) (lowring : Bool) (x : Extrap) (e : ℝ)
    (h1 : lowring = false → kr = kr')
    (h2 : lowring = true → lowringPivot G mu q (Real.log (pts.getLastD 0 / pts.headD 0) / ((pts.length : ℝ) - 1)) kr =
      lowringPivot G mu q (Real.log (pts.getLastD 0 / pts.headD 0) / ((pts.length : ℝ) - 1)) kr') :
    initialise G mu q pts kr lowring x e = initialise G mu q pts kr' lowring x e := by
  cases lowring with
  | false => rw [h1 rfl]
  | true =>
    unfold initialise
    simp only [if_true, h2 rfl, Bool.true_eq_false, false_and]

/-- Transforms made with the same pivot option at the points of another one have its pivot. -/
theorem init_again {G : LnGamma} {mu : ℝ} {pts : List ℝ} {kr : ℝ} {lowring : Bool} {e e' : ℝ} {H : Hankel}
    (h : initialise G mu 0 pts kr lowring .none e = .ok H) (hk : lowring = true → 0 < kr) :
    initialise G mu 0 H.post kr lowring .none e' = initialise G mu (-0) H.post H.pivot lowring .none e' := by
  have R := init_ready h
  rw [neg_zero]
  apply init_congr
  · intro hl
    rw [R.hpivot, if_neg (by simp [hl])]
  · intro hl
    have hlog := post_logres h
    rw [hlog]
    have e1 : H.pivot = lowringPivot G mu 0 H.logres kr := by rw [R.hpivot, if_pos hl]
    rw [← e1]
    symm
    have := lowring_fix (G := G) (mu := mu) (q := 0) (dL := H.logres) R.ppos
      (by rw [e1]; exact lowring_pos G mu 0 R.lpos.ne' (hk hl))
    rwa [neg_zero] at this

theorem I_even (m : ℤ) : (Complex.I ^ (2 * m)).im = 0 := by
  rw [zpow_mul, zpow_ofNat, Complex.I_sq]
  rcases Int.even_or_odd m with hm | hm
  · rw [hm.neg_one_zpow]; simp
  · rw [hm.neg_one_zpow]; simp

/-- Transforming real samples of even degree backwards gives real samples, and transforming these forwards
with the same options gives back the samples at the original points. -/
theorem back_forth {G : LnGamma} (hG : LgOk G) {mu : ℝ} {pts : List ℝ} {kr : ℝ} {lowring : Bool} {H H' : Hankel}
    (h : initialise G mu 0 pts kr lowring .none 2 = .ok H) (h' : initialise G mu 0 H.post kr lowring .none 2 = .ok H')
    (hring : (lowring = false ∧ pts.length % 2 = 1) ∨ (lowring = true ∧ 0 < kr))
    (hpos : ∀ r ∈ pts, 0 < r) (hN : 3 ≤ pts.length) (m : ℤ) {x : List ℝ} (hx : x.length = pts.length) :
    ∃ v, cosmoValue (2 * m) false ⟨H, true, 0, none⟩ x = .ok (H.post, v) ∧ v.length = pts.length ∧
      cosmoValue (2 * m) true ⟨H', true, 0, none⟩ (v.map Complex.re) = .ok (pts, x.map fun u : ℝ => (u : ℂ)) := by
  rw [init_again h (fun hl => by
    rcases hring with ⟨h1, -⟩ | ⟨-, h2⟩
    · rw [hl] at h1; cases h1
    · exact h2)] at h'
  have hlen := (C48_reciprocal h).1
  have hpi : (2 * (Real.pi : ℂ)) ≠ 0 := by
    have := Real.pi_pos.ne'
    simpa using this
  have hA := line_acts h hN
  have hA' := line_acts h' (by rw [hlen]; exact hN)
  rw [hlen] at hA'
  have hpost : H'.post = pts := (C47_roundtrip hG h h' (hring.imp (fun x => x) fun g => ⟨g.1, Or.inl g.2⟩)
    (a := x.map fun u : ℝ => (u : ℂ)) (by simpa using hx) hN).choose_spec.2.2
  obtain ⟨f, hf⟩ : ∃ f : ℕ → ℂ, f = fun i => ((x.getD i 0 : ℝ) : ℂ) := ⟨_, rfl⟩
  have hxf : (x.map fun u : ℝ => (u : ℂ)) = tabulate pts.length f := by
    conv_lhs => rw [← tabulate_real x]
    rw [hf, ← hx]
    unfold tabulate
    rw [List.map_map]
    rfl
  have hb := hA f
  simp only at hb
  have hb0 := hb
  rw [← hxf] at hb0
  have hre := line_real hG h hb0
  have hv1 := plain_line hb0
  obtain ⟨c, hc⟩ : ∃ c : ℂ, c = (2 * (Real.pi : ℂ)) ^ (-3 : ℤ) * Complex.I ^ (2 * m) := ⟨_, rfl⟩
  have hcim : c.im = 0 := by
    have e1 : ((2 * (Real.pi : ℂ)) ^ (-3 : ℤ)) = (((2 * Real.pi) ^ (-3 : ℤ) : ℝ) : ℂ) := by push_cast; rfl
    rw [hc, e1, Complex.im_ofReal_mul, I_even, mul_zero]
  obtain ⟨w, hw⟩ : ∃ w : ℕ → ℂ, w = fun j => ∑ p ∈ Finset.range pts.length, lineMatrix H pts.length j p * f p := ⟨_, rfl⟩
  have hwr : ∀ j < pts.length, (w j).im = 0 := by
    intro j hj
    apply hre
    rw [hw]
    exact List.mem_map.2 ⟨j, List.mem_range.2 hj, rfl⟩
  refine ⟨tabulate pts.length fun j => w j * c, ?_, tabulate_length _ _, ?_⟩
  · unfold cosmoValue
    rw [hv1]
    simp only [Bool.false_eq_true, if_false, ← hc]
    unfold tabulate
    rw [List.map_map, hw]
    rfl
  · have hvr : ((tabulate pts.length fun j => w j * c).map Complex.re).map (fun u : ℝ => (u : ℂ)) =
        tabulate pts.length fun j => w j * c := by
      unfold tabulate
      rw [List.map_map, List.map_map]
      apply List.map_congr_left
      intro j hj
      have h1 := hwr j (List.mem_range.1 hj)
      simp only [Function.comp_apply]
      apply Complex.ext
      · simp
      · simp [Complex.mul_im, h1, hcim]
    have hb' := hA' fun j => w j * c
    simp only at hb'
    rw [← hvr] at hb'
    have hv2 := plain_line hb'
    unfold cosmoValue
    rw [hv2]
    simp only [if_true, one_mul]
    rw [hpost, hxf]
    congr 2
    unfold tabulate
    rw [List.map_map]
    apply List.map_congr_left
    intro i hi
    simp only [Function.comp_apply]
    have hinv := line_inverse hG h h' hring hpos hN hA hA' f (List.mem_range.1 hi)
    have e2 : ∑ p ∈ Finset.range pts.length, lineMatrix H' pts.length i p * (w p * c) =
        c * ((2 * (Real.pi : ℂ)) ^ (3 : ℤ) * f i) := by
      rw [← hinv, Finset.mul_sum]
      apply Finset.sum_congr rfl
      intro p _
      rw [hw]
      ring
    rw [e2, hc]
    have e3 : Complex.I ^ (2 * m) * (-Complex.I) ^ (2 * m) = 1 := by
      rw [← mul_zpow]
      simp
    have e4 : (2 * (Real.pi : ℂ)) ^ (-3 : ℤ) * (2 * (Real.pi : ℂ)) ^ (3 : ℤ) = 1 := by
      rw [← zpow_add₀ hpi]; simp
    calc (2 * (Real.pi : ℂ)) ^ (-3 : ℤ) * Complex.I ^ (2 * m) * ((2 * (Real.pi : ℂ)) ^ (3 : ℤ) * f i) *
          (-Complex.I) ^ (2 * m) =
        ((2 * (Real.pi : ℂ)) ^ (-3 : ℤ) * (2 * (Real.pi : ℂ)) ^ (3 : ℤ)) *
          (Complex.I ^ (2 * m) * (-Complex.I) ^ (2 * m)) * f i := by ring
      _ = f i := by rw [e3, e4]; ring

/-! ### The built-in formula with different points for the multipoles -/

/-- The convolution object with input and output points `r` by degree. -/
noncomputable def basePow (x : List ℝ) (Q : ℕ → ℝ → ℝ) (r : ℕ → List ℝ) : Base ℝ (List ℝ) :=
  ⟨formulae16, [0, 2, 4, 6, 8].map fun l : ℕ => (⟨[l]⟩, x),
    [0, 2, 4, 6, 8].map fun l : ℕ => (⟨[l]⟩, x.map (Q l)),
    [0, 2, 4].map fun l : ℕ => (some ⟨[l]⟩, r l), [0, 2, 4].map fun l : ℕ => (⟨[l]⟩, r l)⟩

/-- Samples by degree. -/
def dictV (v : ℕ → List ℝ) : List (Key × List ℝ) := [0, 2, 4].map fun l : ℕ => (.mp ⟨[l]⟩, v l)

theorem conv2Term_pow (I : Interp ℝ) (x : List ℝ) (Q : ℕ → ℝ → ℝ) (r v : ℕ → List ℝ) (q z : ℕ) (c : ℚ)
    (hq : q ∈ [0, 2, 4, 6, 8]) (hz : z ∈ [0, 2, 4]) (hv : (v z).length = (r z).length) :
    conv2Term I (basePow x Q r) (dictV v) (term2 q z c) =
      .ok fun p => (c : ℝ) * I.spl true x (x.map (Q q)) p * I.spl false (r z) (v z) p := by
  have h1 : get (basePow x Q r).rQ (term2 q z c).q = .ok x := by
    fin_cases hq <;> rfl
  have h2 : get (basePow x Q r).Q (term2 q z c).q = .ok (x.map (Q q)) := by
    fin_cases hq <;> rfl
  have h3 : get (basePow x Q r).rIn (some ⟨[(z : ℤ)]⟩) = .ok (r z) := by
    fin_cases hz <;> rfl
  have h4 : get (dictV v) (.mp ⟨[(z : ℤ)]⟩) = .ok (v z) := by
    fin_cases hz <;> rfl
  unfold conv2Term
  rw [h1, h2]
  simp only [term2, List.length_map, ne_eq, not_true_eq_false, if_false]
  rw [h3, h4]
  simp [hv]

theorem conv2_pow (I : Interp ℝ) (x : List ℝ) (Q : ℕ → ℝ → ℝ) (r v : ℕ → List ℝ)
    (hv : ∀ l ∈ [0, 2, 4], (v l).length = (r l).length) :
    conv2 I (basePow x Q r) (dictV v) = .ok ([0, 2, 4].map fun l : ℕ => (⟨[l]⟩,
      (r l).map fun p => ((triplets16 l).map fun t => (t.2.2 : ℝ) * I.spl true x (x.map (Q t.1)) p *
        I.spl false (r t.2.1) (v t.2.1) p).sum)) := by
  unfold conv2
  rw [show (basePow x Q r).F.multipoles = [0, 2, 4].map fun l : ℕ => (⟨[l]⟩ : Multipole) from rfl]
  apply traverse_map_ok
  intro l hl
  have h1 : get (basePow x Q r).rOut ⟨[(l : ℤ)]⟩ = .ok (r l) := by
    fin_cases hl <;> rfl
  have h2 : (basePow x Q r).F.terms ⟨[(l : ℤ)]⟩ = (triplets16 l).map fun t => term2 t.1 t.2.1 t.2.2 := by
    fin_cases hl <;> rfl
  have h3 : ∀ t ∈ triplets16 l, t.1 ∈ [0, 2, 4, 6, 8] ∧ t.2.1 ∈ [0, 2, 4] := by
    fin_cases hl <;> decide
  rw [h1, h2, traverse_map_ok _ _ (fun (t : ℕ × ℕ × ℚ) (p : ℝ) => (t.2.2 : ℝ) *
    I.spl true x (x.map (Q t.1)) p * I.spl false (r t.2.1) (v t.2.1) p) _
    (fun t ht => conv2Term_pow I x Q r v t.1 t.2.1 t.2.2 (h3 t ht).1 (h3 t ht).2 (hv _ (h3 t ht).2))]
  simp only [List.map_map]
  rfl

theorem spl_at {I : Interp ℝ} (hI : I.Ok) (ext : Bool) {x y : List ℝ} (hx : x.Pairwise (· < ·))
    (hy : y.length = x.length) : x.map (I.spl ext x y) = y := by
  apply List.ext_getElem (by simp [hy])
  intro j h1 h2
  rw [List.getElem_map]
  have hj : j < x.length := by simpa using h1
  have e : x[j] = x.getD j 0 := by simp [List.getD_eq_getElem?_getD, List.getElem?_eq_getElem hj]
  unfold Interp.spl
  rw [e, Finset.sum_eq_single j]
  · rw [hI.knot ext x hx j j hj hj, if_pos rfl, one_mul, List.getD_eq_getElem?_getD, List.getElem?_eq_getElem h2]
    rfl
  · intro i hi hij
    rw [hI.knot ext x hx i j (Finset.mem_range.1 hi) hj, if_neg hij, zero_mul]
  · intro h
    exact absurd (Finset.mem_range.2 hj) h

/-- A trivial window leaves the correlation functions as they are. -/
theorem conv2_trivial {I : Interp ℝ} (hI : I.Ok) {x : List ℝ} (hx : x.Pairwise (· < ·)) (hx0 : x ≠ [])
    (Q : ℕ → ℝ → ℝ) (h0 : ∀ r, Q 0 r = 1) (hl : ∀ l, l ≠ 0 → ∀ r, Q l r = 0) (r v : ℕ → List ℝ)
    (hr : ∀ l ∈ [0, 2, 4], (r l).Pairwise (· < ·)) (hv : ∀ l ∈ [0, 2, 4], (v l).length = (r l).length) :
    conv2 I (basePow x Q r) (dictV v) = .ok ([0, 2, 4].map fun l : ℕ => (⟨[l]⟩, v l)) := by
  rw [conv2_pow I x Q r v hv]
  congr 1
  apply List.map_congr_left
  intro l hl'
  have c0 : ∀ p, I.spl true x (x.map (Q 0)) p = 1 := by
    intro p
    rw [show Q 0 = fun _ => 1 from funext h0]
    exact spl_const hI true hx hx0 1 p
  have c1 : ∀ q, q ≠ 0 → ∀ p, I.spl true x (x.map (Q q)) p = 0 := by
    intro q hq p
    rw [show Q q = fun _ => 0 from funext (hl q hq)]
    exact spl_const hI true hx hx0 0 p
  have e := spl_at hI false (hr l hl') (hv l hl')
  congr 1
  refine Eq.trans ?_ e
  apply List.map_congr_left
  intro p _
  fin_cases hl' <;> simp [triplets16, c0, c1]

theorem post_increasing {G : LnGamma} {mu q : ℝ} {pts : List ℝ} {kr : ℝ} {lowring : Bool} {x : Extrap} {e : ℝ} {H : Hankel}
    (h : initialise G mu q pts kr lowring x e = .ok H) (hk : pts.Pairwise (· < ·)) (hpos : ∀ r ∈ pts, 0 < r) :
    H.post.Pairwise (· < ·) := by
  have R := init_ready h
  rw [R.hpost, List.pairwise_map]
  refine List.Pairwise.imp_of_mem ?_ (List.pairwise_lt_range (n := pts.length))
  intro a b ha hb hab
  have hb' := List.mem_range.1 hb
  have p1 : pts.getD (pts.length - b - 1) 0 < pts.getD (pts.length - a - 1) 0 := by
    rw [List.getD_eq_getElem?_getD, List.getD_eq_getElem?_getD, List.getElem?_eq_getElem (by omega),
      List.getElem?_eq_getElem (by omega)]
    exact List.pairwise_iff_getElem.1 hk _ _ _ _ (by omega)
  have p2 := hpos _ (getD_mem (l := pts) (j := pts.length - b - 1) (by omega))
  exact div_lt_div_of_pos_left (mul_pos R.ppos (Real.exp_pos _)) p2 p1

theorem newAll_plain {G : LnGamma} {kr : ℝ} {lowring : Bool} {pts : Multipole → Except PyErr (List ℝ)} {p : ℕ → List ℝ}
    (hp : ∀ l ∈ ([0, 2, 4] : List ℕ), pts ⟨[(l : ℤ)]⟩ = .ok (p l)) {L : List (Multipole × Sbt)}
    (h : newAll (plainSbt G kr lowring) pts [⟨[0]⟩, ⟨[2]⟩, ⟨[4]⟩] = .ok L) :
    ∃ H : ℕ → Hankel, (∀ l ∈ ([0, 2, 4] : List ℕ), initialise G (((l : ℤ) : ℝ) + 1 / 2) 0 (p l) kr lowring .none 2 = .ok (H l)) ∧
      L = [0, 2, 4].map fun l : ℕ => ((⟨[l]⟩ : Multipole), (⟨H l, true, 0, none⟩ : Sbt)) := by
  have p0 := hp 0 (by simp)
  have p2 := hp 2 (by simp)
  have p4 := hp 4 (by simp)
  norm_num at p0 p2 p4
  unfold newAll at h
  simp only [traverse, degree0, p0, p2, p4, plainSbt] at h
  cases h0 : initialise G (((0 : ℤ) : ℝ) + 1 / 2) 0 (p 0) kr lowring .none 2 with
  | error e => rw [h0] at h; cases h
  | ok H0 =>
    cases h2 : initialise G (((2 : ℤ) : ℝ) + 1 / 2) 0 (p 2) kr lowring .none 2 with
    | error e => rw [h0, h2] at h; cases h
    | ok H2 =>
      cases h4 : initialise G (((4 : ℤ) : ℝ) + 1 / 2) 0 (p 4) kr lowring .none 2 with
      | error e => rw [h0, h2, h4] at h; cases h
      | ok H4 =>
        rw [h0, h2, h4] at h
        refine ⟨fun l => if l = 0 then H0 else if l = 2 then H2 else H4, ?_, ?_⟩
        · intro l hl
          fin_cases hl
          · exact h0
          · exact h2
          · exact h4
        · cases h
          rfl

theorem mkPow_trivial {G : LnGamma} {kr : ℝ} {lowring : Bool} {x k : List ℝ} {Q : ℕ → ℝ → ℝ} {S : Pow}
    (h : mkPow (plainSbt G kr lowring) formulae16 (.all x) (dict2 [0, 2, 4, 6, 8] x Q) (.all k) (some k) none = .ok S) :
    ∃ H H' : ℕ → Hankel,
      (∀ l ∈ ([0, 2, 4] : List ℕ), initialise G (((l : ℤ) : ℝ) + 1 / 2) 0 k kr lowring .none 2 = .ok (H l)) ∧
      (∀ l ∈ ([0, 2, 4] : List ℕ), initialise G (((l : ℤ) : ℝ) + 1 / 2) 0 (H l).post kr lowring .none 2 = .ok (H' l)) ∧
      S = ⟨basePow x Q fun l => (H l).post,
        [0, 2, 4].map fun l : ℕ => ((⟨[l]⟩ : Multipole), (⟨H l, true, 0, none⟩ : Sbt)),
        [0, 2, 4].map fun l : ℕ => ((⟨[l]⟩ : Multipole), (⟨H' l, true, 0, none⟩ : Sbt)), k⟩ := by
  unfold mkPow at h
  rw [show initWindow formulae16 (.all x) (dict2 [0, 2, 4, 6, 8] x Q) = .ok
    ([0, 2, 4, 6, 8].map fun l : ℕ => ((⟨[l]⟩ : Multipole), x),
      [0, 2, 4, 6, 8].map fun l : ℕ => ((⟨[l]⟩ : Multipole), x.map (Q l))) from rfl,
    show setRIn formulae16 (.all k) = .ok ([0, 2, 4].map fun l : ℕ => (some (⟨[l]⟩ : Multipole), k)) from rfl] at h
  simp only at h
  split at h
  · cases h
  rw [show formulae16.zTrue = [⟨[0]⟩, ⟨[2]⟩, ⟨[4]⟩] from rfl,
    show formulae16.multipoles = [⟨[0]⟩, ⟨[2]⟩, ⟨[4]⟩] from rfl] at h
  cases hb : newAll (plainSbt G kr lowring) (fun z => get ([0, 2, 4].map fun l : ℕ => (some (⟨[l]⟩ : Multipole), k)) (some z))
      [⟨[0]⟩, ⟨[2]⟩, ⟨[4]⟩] with
  | error e => rw [hb] at h; cases h
  | ok L =>
    rw [hb] at h
    obtain ⟨H, hH, rfl⟩ := newAll_plain (p := fun _ => k) (fun l hl => by fin_cases hl <;> rfl) hb
    simp only at h
    split at h
    · cases h
    rw [show mkBase formulae16 _ _ (.dict (asKeys (([0, 2, 4].map fun l : ℕ =>
        ((⟨[l]⟩ : Multipole), (⟨H l, true, 0, none⟩ : Sbt))).map fun p : Multipole × Sbt => (p.1, sbtPoints p.2)))) _ =
        .ok (basePow x Q fun l => (H l).post) from rfl] at h
    simp only at h
    cases hf : newAll (plainSbt G kr lowring) (fun m => get (basePow x Q fun l => (H l).post).rOut m)
        [⟨[0]⟩, ⟨[2]⟩, ⟨[4]⟩] with
    | error e => rw [hf] at h; cases h
    | ok L' =>
      rw [hf] at h
      obtain ⟨H', hH', rfl⟩ := newAll_plain (p := fun l => (H l).post) (fun l hl => by fin_cases hl <;> rfl) hf
      cases h
      exact ⟨H, H', hH, hH', rfl⟩

/-- The arrays of the three multipoles. -/
def pin (i : ℕ → ℕ) : List (Key × ℕ) := [0, 2, 4].map fun l : ℕ => (.mp ⟨[l]⟩, i l)

theorem get_pin (i : ℕ → ℕ) : ∀ l ∈ ([0, 2, 4] : List ℕ), get (pin i) (.mp ⟨[(l : ℤ)]⟩) = .ok (i l) := by
  intro l hm
  fin_cases hm <;> rfl

theorem apart_pin {i : ℕ → ℕ} (hd : i 0 ≠ i 2 ∧ i 0 ≠ i 4 ∧ i 2 ≠ i 4) : Apart (pin i) formulae16.zTrue := by
  have g0 := get_pin i 0 (by simp)
  have g2 := get_pin i 2 (by simp)
  have g4 := get_pin i 4 (by simp)
  norm_num at g0 g2 g4
  rw [show formulae16.zTrue = [⟨[0]⟩, ⟨[2]⟩, ⟨[4]⟩] from rfl]
  simp only [Apart, List.pairwise_cons, List.mem_cons, List.not_mem_nil, or_false, forall_eq_or_imp, forall_eq,
    List.Pairwise.nil, and_true, g0, g2, g4, ne_eq, Except.ok.injEq, IsEmpty.forall_iff, implies_true]
  refine ⟨⟨?_, ?_⟩, ?_⟩ <;> rintro j rfl he
  · exact hd.1 he.symm
  · exact hd.2.1 he.symm
  · exact hd.2.2 he.symm

/-- **C134 (part).** Convolution with a trivial window (monopole one, other multipoles zero) gives back the
power spectra at the input wavenumbers: transforming backwards and forwards without extrapolation
loses nothing. -/
theorem C134_trivial_window_partial {G : LnGamma} (hG : LgOk G) {I : Interp ℝ} (hI : I.Ok) {kr : ℝ} {lowring : Bool}
    {x k : List ℝ} (hx : x.Pairwise (· < ·)) (hx0 : x ≠ []) (hk : k.Pairwise (· < ·)) (hpos : ∀ r ∈ k, 0 < r)
    (hN : 3 ≤ k.length) (hring : (lowring = false ∧ k.length % 2 = 1) ∨ (lowring = true ∧ 0 < kr))
    {Q : ℕ → ℝ → ℝ} (h0 : ∀ r, Q 0 r = 1) (hl : ∀ l, l ≠ 0 → ∀ r, Q l r = 0) {S : Pow}
    (hS : mkPow (plainSbt G kr lowring) formulae16 (.all x) (dict2 [0, 2, 4, 6, 8] x Q) (.all k) (some k) none = .ok S)
    (h : Heap) (i : ℕ → ℕ) (hi : ∀ l ∈ ([0, 2, 4] : List ℕ), i l < h.next ∧ (h.arr (i l)).length = k.length)
    (hd : i 0 ≠ i 2 ∧ i 0 ≠ i 4 ∧ i 2 ≠ i 4) :
    (S.convolve I h (pin i)).2.map Prod.fst =
      .ok ([0, 2, 4].map fun l : ℕ => (⟨[l]⟩, (h.arr (i l)).map fun u : ℝ => (u : ℂ))) := by
  obtain ⟨H, H', hH, hH', rfl⟩ := mkPow_trivial hS
  have key : ∀ l : ℕ, ∃ v : List ℂ, l ∈ ([0, 2, 4] : List ℕ) →
      cosmoValue l false ⟨H l, true, 0, none⟩ (h.arr (i l)) = .ok ((H l).post, v) ∧ v.length = k.length ∧
      cosmoValue l true ⟨H' l, true, 0, none⟩ (v.map Complex.re) = .ok (k, (h.arr (i l)).map fun u : ℝ => (u : ℂ)) := by
    intro l
    by_cases hm : l ∈ ([0, 2, 4] : List ℕ)
    · obtain ⟨v, hv⟩ := back_forth hG (hH l hm) (hH' l hm) hring hpos hN ((l / 2 : ℕ) : ℤ) (hi l hm).2
      have e : (2 * ((l / 2 : ℕ) : ℤ)) = l := by
        fin_cases hm <;> rfl
      rw [e] at hv
      exact ⟨v, fun _ => hv⟩
    · exact ⟨[], fun h => absurd h hm⟩
  choose v hv using key
  have gi := get_pin i
  have hap := apart_pin hd
  have hnd : formulae16.multipoles.Nodup := by decide
  rw [C134_values I _ h (pin i) ?_ (Or.inr hap) (Or.inr hnd)]
  · unfold powSpec
    have hB : traverse (backSpec ([0, 2, 4].map fun l : ℕ => ((⟨[l]⟩ : Multipole), (⟨H l, true, 0, none⟩ : Sbt)))
        (contents h (pin i))) ([0, 2, 4].map fun l : ℕ => (⟨[l]⟩ : Multipole)) =
        .ok ([0, 2, 4].map fun l : ℕ => ((.mp ⟨[l]⟩ : Key), v l)) := by
      apply traverse_map_ok
      intro l hm
      have e1 : get ([0, 2, 4].map fun l : ℕ => ((⟨[l]⟩ : Multipole), (⟨H l, true, 0, none⟩ : Sbt))) ⟨[(l : ℤ)]⟩ =
          .ok ⟨H l, true, 0, none⟩ := by
        fin_cases hm <;> rfl
      have e2 : get (contents h (pin i)) (.mp ⟨[(l : ℤ)]⟩) = .ok (h.arr (i l)) := by
        rw [get_contents, gi l hm]
      unfold backSpec
      rw [e1, e2]
      simp only [degree0, (hv l hm).1]
    have hC : conv2 I (basePow x Q fun l => (H l).post)
        (([0, 2, 4].map fun l : ℕ => ((.mp ⟨[l]⟩ : Key), v l)).map fun p : Key × List ℂ => (p.1, p.2.map Complex.re)) =
        .ok ([0, 2, 4].map fun l : ℕ => (⟨[l]⟩, (v l).map Complex.re)) :=
      conv2_trivial hI hx hx0 Q h0 hl (fun l => (H l).post) (fun l => (v l).map Complex.re)
        (fun l hm => post_increasing (hH l hm) hk hpos)
        (fun l hm => by simp only [List.length_map, (hv l hm).2.1, (C48_reciprocal (hH l hm)).1])
    have hF : traverse (forthSpec I ([0, 2, 4].map fun l : ℕ => ((⟨[l]⟩ : Multipole), (⟨H' l, true, 0, none⟩ : Sbt))) k
        ([0, 2, 4].map fun l : ℕ => (⟨[l]⟩, (v l).map Complex.re))) ([0, 2, 4].map fun l : ℕ => (⟨[l]⟩ : Multipole)) =
        .ok ([0, 2, 4].map fun l : ℕ => (⟨[l]⟩, (h.arr (i l)).map fun u : ℝ => (u : ℂ))) := by
      apply traverse_map_ok
      intro l hm
      have e1 : get ([0, 2, 4].map fun l : ℕ => ((⟨[l]⟩ : Multipole), (⟨H' l, true, 0, none⟩ : Sbt))) ⟨[(l : ℤ)]⟩ =
          .ok ⟨H' l, true, 0, none⟩ := by
        fin_cases hm <;> rfl
      have e2 : get ([0, 2, 4].map fun l : ℕ => ((⟨[l]⟩ : Multipole), (v l).map Complex.re)) ⟨[(l : ℤ)]⟩ =
          .ok ((v l).map Complex.re) := by
        fin_cases hm <;> rfl
      have e3 : k.map (splC I k ((h.arr (i l)).map fun u : ℝ => (u : ℂ))) = (h.arr (i l)).map fun u : ℝ => (u : ℂ) := by
        have a1 := spl_at hI false hk (hi l hm).2
        have a2 : ∀ p, splC I k ((h.arr (i l)).map fun u : ℝ => (u : ℂ)) p = ((I.spl false k (h.arr (i l)) p : ℝ) : ℂ) := by
          intro p
          unfold splC
          apply Complex.ext
          · simp [List.map_map, Function.comp_def]
          · simp only [List.map_map, Function.comp_def, Complex.ofReal_im]
            unfold Interp.spl
            apply Finset.sum_eq_zero
            intro j _
            rw [show ((h.arr (i l)).map fun _ => (0 : ℝ)).getD j 0 = 0 by
              rw [List.getD_eq_getElem?_getD, List.getElem?_map]
              cases (h.arr (i l))[j]? <;> rfl, mul_zero]
        conv_rhs => rw [← a1]
        rw [List.map_map]
        exact List.map_congr_left fun p _ => a2 p
      unfold forthSpec
      rw [e1, e2]
      simp only [degree0, (hv l hm).2.2, e3]
    simp only [show (basePow x Q fun l => (H l).post).F.zTrue = [0, 2, 4].map fun l : ℕ => (⟨[l]⟩ : Multipole) from rfl,
      show (basePow x Q fun l => (H l).post).F.multipoles = [0, 2, 4].map fun l : ℕ => (⟨[l]⟩ : Multipole) from rfl]
    rw [hB]
    simp only
    rw [hC]
    simp only
    rw [hF]
    rfl
  · intro p hp
    simp only [pin, List.map_cons, List.map_nil, List.mem_cons, List.not_mem_nil, or_false] at hp
    rcases hp with rfl | rfl | rfl
    · exact (hi 0 (by simp)).1
    · exact (hi 2 (by simp)).1
    · exact (hi 4 (by simp)).1

theorem checkLoglin_geometric {r0 : ℝ} (hr : 0 < r0) (d : ℝ) {N : ℕ} (hN : 2 ≤ N) : checkLoglin (geometric r0 d N) = .ok := by
  have hl := geometric_length r0 d N
  have hpos : ∀ x ∈ geometric r0 d N, 0 < x := by
    intro x hx
    unfold geometric at hx
    obtain ⟨i, _, rfl⟩ := List.mem_map.1 hx
    exact mul_pos hr (Real.exp_pos _)
  unfold checkLoglin
  rw [if_neg (by omega), front2_some (by omega)]
  unfold Arr.back2
  rw [front2_some (by simp; omega)]
  simp only
  rw [if_neg (by
    rw [not_not]
    refine ⟨mul_pos (hpos _ (List.getElem_mem _)) (hpos _ (List.getElem_mem _)), mul_pos ?_ ?_⟩
    · exact hpos _ (List.mem_reverse.1 (List.getElem_mem _))
    · exact hpos _ (List.mem_reverse.1 (List.getElem_mem _)))]
  obtain ⟨M, rfl⟩ : ∃ M, N = M + 1 := ⟨N - 1, by omega⟩
  rw [logDiffs_geometric hr]
  simp only
  rw [if_pos]
  intro e he
  rw [mean_replicate _ _ (by omega), (List.mem_replicate.1 he).2]
  simp only [sub_self, abs_zero]
  positivity

theorem post_geometric {G : LnGamma} {mu q r0 d kr e : ℝ} {N : ℕ} {lowring : Bool} {x : Extrap} {H : Hankel} (hr : 0 < r0) (hN : 2 ≤ N)
    (h : initialise G mu q (geometric r0 d N) kr lowring x e = .ok H) :
    ∃ r1, 0 < r1 ∧ H.post = geometric r1 d N := by
  have R := init_ready h
  have hd : H.logres = d := by rw [R.hlog, geometric_logres hr d hN]
  refine ⟨H.pivot / (r0 * Real.exp (N * d)), div_pos R.ppos (mul_pos hr (Real.exp_pos _)), ?_⟩
  rw [R.hpost, geometric_length]
  conv_rhs => unfold geometric
  apply List.map_congr_left
  intro j hj
  have hj' := List.mem_range.1 hj
  rw [geometric_getD r0 d (by omega), hd, Nat.cast_sub (by omega), Nat.cast_sub (by omega)]
  have e1 : Real.exp (N * d) = Real.exp (((N : ℝ) - j - (1 : ℕ)) * d) * Real.exp (j * d) * Real.exp d := by
    rw [← Real.exp_add, ← Real.exp_add]
    congr 1
    push_cast
    ring
  rw [e1, Real.exp_neg]
  have a1 := (Real.exp_pos (j * d)).ne'
  have a2 := (Real.exp_pos d).ne'
  have a3 := (Real.exp_pos (((N : ℝ) - j - (1 : ℕ)) * d)).ne'
  field_simp

theorem newAll_ok {G : LnGamma} {kr : ℝ} {lowring : Bool} {pts : Multipole → Except PyErr (List ℝ)} {H : ℕ → Hankel} {p : ℕ → List ℝ}
    (hp : ∀ l ∈ ([0, 2, 4] : List ℕ), pts ⟨[(l : ℤ)]⟩ = .ok (p l))
    (hH : ∀ l ∈ ([0, 2, 4] : List ℕ), initialise G (((l : ℤ) : ℝ) + 1 / 2) 0 (p l) kr lowring .none 2 = .ok (H l)) :
    newAll (plainSbt G kr lowring) pts [⟨[0]⟩, ⟨[2]⟩, ⟨[4]⟩] =
      .ok ([0, 2, 4].map fun l : ℕ => ((⟨[l]⟩ : Multipole), (⟨H l, true, 0, none⟩ : Sbt))) := by
  rw [show ([⟨[0]⟩, ⟨[2]⟩, ⟨[4]⟩] : List Multipole) = [0, 2, 4].map fun l : ℕ => (⟨[l]⟩ : Multipole) from rfl]
  unfold newAll
  apply traverse_map_ok
  intro l hm
  simp only [degree0, hp l hm, plainSbt, hH l hm]

/-- For any window, transforms without extrapolation can be made at logarithmically spaced wavenumbers. -/
theorem C134_constructs_partial (G : LnGamma) {r0 d kr : ℝ} {N : ℕ} (hr : 0 < r0) (hd : 0 < d) (hN : 2 ≤ N) (hk : 0 < kr)
    (lowring : Bool) (x : List ℝ) (Q : ℕ → ℝ → ℝ) :
    ∃ S, mkPow (plainSbt G kr lowring) formulae16 (.all x) (dict2 [0, 2, 4, 6, 8] x Q) (.all (geometric r0 d N))
      (some (geometric r0 d N)) none = .ok S := by
  have hc : ∀ l : ℕ, construct (((l : ℤ) : ℝ) + 1 / 2) 0 = .ok () := by
    intro l
    rw [Int.cast_natCast]
    exact construct_half l
  choose H hH using fun l : ℕ => init_geometric G (hc l) hr hd hN hk lowring 2
  have key : ∀ l, ∃ H', initialise G (((l : ℕ) : ℤ) + 1 / 2) 0 (H l).post kr lowring .none 2 = .ok H' := by
    intro l
    obtain ⟨r1, h1, h2⟩ := post_geometric hr hN (hH l)
    rw [h2]
    exact init_geometric G (hc l) h1 hd hN hk lowring 2
  choose H' hH' using key
  refine ⟨⟨basePow x Q fun l => (H l).post,
        [0, 2, 4].map fun l : ℕ => ((⟨[l]⟩ : Multipole), (⟨H l, true, 0, none⟩ : Sbt)),
        [0, 2, 4].map fun l : ℕ => ((⟨[l]⟩ : Multipole), (⟨H' l, true, 0, none⟩ : Sbt)), geometric r0 d N⟩, ?_⟩
  unfold mkPow
  rw [show initWindow formulae16 (.all x) (dict2 [0, 2, 4, 6, 8] x Q) = .ok
    ([0, 2, 4, 6, 8].map fun l : ℕ => ((⟨[l]⟩ : Multipole), x),
      [0, 2, 4, 6, 8].map fun l : ℕ => ((⟨[l]⟩ : Multipole), x.map (Q l))) from rfl,
    show setRIn formulae16 (.all (geometric r0 d N)) =
      .ok ([0, 2, 4].map fun l : ℕ => (some (⟨[l]⟩ : Multipole), geometric r0 d N)) from rfl]
  simp only
  rw [if_neg (by
    rw [not_not]
    intro p hp
    obtain ⟨l, _, rfl⟩ := List.mem_map.1 hp
    exact checkLoglin_geometric hr d hN)]
  rw [show formulae16.zTrue = [⟨[0]⟩, ⟨[2]⟩, ⟨[4]⟩] from rfl,
    show formulae16.multipoles = [⟨[0]⟩, ⟨[2]⟩, ⟨[4]⟩] from rfl,
    newAll_ok (H := H) (p := fun _ => geometric r0 d N) (fun l hl => by fin_cases hl <;> rfl) (fun l _ => hH l)]
  simp only
  rw [if_neg (by simp)]
  rw [show mkBase formulae16 _ _ (.dict (asKeys (([0, 2, 4].map fun l : ℕ =>
      ((⟨[l]⟩ : Multipole), (⟨H l, true, 0, none⟩ : Sbt))).map fun p : Multipole × Sbt => (p.1, sbtPoints p.2)))) _ =
      .ok (basePow x Q fun l => (H l).post) from rfl]
  simp only
  rw [newAll_ok (H := H') (p := fun l => (H l).post) (fun l hl => by fin_cases hl <;> rfl) (fun l _ => hH' l)]

/-- The case of three separations and five wavenumbers. -/
theorem trivial_case : ∃ S, mkPow (plainSbt trueLg 1 true) formulae16 (.all [1, 2, 3])
      (dict2 [0, 2, 4, 6, 8] [1, 2, 3] fun l _ => if l = 0 then 1 else 0) (.all (geometric 1 1 5)) (some (geometric 1 1 5)) none = .ok S ∧
    (S.convolve (stepInterp ℝ) ⟨fun i => [i, 1, 2, 0, 7], 5⟩ (pin fun l => l)).2.map Prod.fst =
      .ok ([0, 2, 4].map fun l : ℕ => (⟨[l]⟩, [(l : ℝ), 1, 2, 0, 7].map fun u : ℝ => (u : ℂ))) := by
  obtain ⟨S, hS⟩ := C134_constructs_partial trueLg (r0 := 1) (d := 1) (N := 5) (kr := 1) one_pos one_pos (by norm_num) one_pos
    true [1, 2, 3] fun l _ => if l = 0 then 1 else 0
  refine ⟨S, hS, ?_⟩
  refine C134_trivial_window_partial trueLg_ok (stepInterp_ok ℝ) ?_ (by simp) ?_ ?_ (by simp [geometric_length])
    (Or.inr ⟨rfl, one_pos⟩) (fun _ => if_pos rfl) (fun l hl _ => if_neg hl) hS _ _ ?_ (by simp)
  · norm_num
  · unfold geometric
    rw [List.pairwise_map]
    refine List.Pairwise.imp ?_ (List.pairwise_lt_range (n := 5))
    intro a b hab
    have : (a : ℝ) < b := by exact_mod_cast hab
    simpa using this
  · unfold geometric
    intro r hr
    obtain ⟨i, _, rfl⟩ := List.mem_map.1 hr
    exact mul_pos one_pos (Real.exp_pos _)
  · intro l hl
    fin_cases hl <;> simp [geometric_length]

/-- The same object with transforms of copies: the arrays of the caller are kept. -/
example (S : Pow) (h : Heap) (Pin : List (Key × ℕ)) (hlt : ∀ p ∈ Pin, p.2 < h.next) (i : ℕ) (hi : i < h.next) :
    ((⟨S.base, S.bsjt.map fun p : Multipole × Sbt => (p.1, ⟨p.2.fbht, true, 0, some fun l => .ok l⟩),
      S.fsjt.map fun p : Multipole × Sbt => (p.1, ⟨p.2.fbht, true, 0, some fun l => .ok l⟩), S.kout⟩ : Pow).convolve
        (stepInterp ℝ) h Pin).1.arr i = h.arr i := by
  refine (C134_unchanged_partial _ _ h Pin hlt ?_ ?_).1 i hi
  · intro p hp
    obtain ⟨q, _, rfl⟩ := List.mem_map.1 hp
    exact ⟨rfl, rfl⟩
  · intro p hp
    obtain ⟨q, _, rfl⟩ := List.mem_map.1 hp
    exact ⟨rfl, rfl⟩

/-- The same call changes the arrays passed to it. -/
example : ∃ S, mkPow (plainSbt trueLg 1 true) formulae16 (.all [1, 2, 3])
      (dict2 [0, 2, 4, 6, 8] [1, 2, 3] fun l _ => if l = 0 then 1 else 0) (.all (geometric 1 1 5)) (some (geometric 1 1 5)) none = .ok S ∧
    ∃ a, (S.convolve (stepInterp ℝ) ⟨fun i => [i, 1, 2, 0, 7], 5⟩ (pin fun l => l)).1.arr 2 = a ∧
      a.getD 1 0 = Real.exp 1 ^ (3 / 2 : ℝ) ∧ a.getD 1 0 ≠ 1 := by
  obtain ⟨S, hS, hr⟩ := trivial_case
  refine ⟨S, hS, _, rfl, ?_⟩
  obtain ⟨H, H', hH, hH', e⟩ := mkPow_trivial hS
  cases hc : (S.convolve (stepInterp ℝ) ⟨fun i => [i, 1, 2, 0, 7], 5⟩ (pin fun l => l)).2 with
  | error e => rw [hc] at hr; cases hr
  | ok c =>
    have hF : S.base.F = formulae16 := by rw [e]; rfl
    obtain ⟨i, T, e1, e2, e3⟩ := (C134_mutated_violated (stepInterp ℝ) S ⟨fun i => [i, 1, 2, 0, 7], 5⟩ (pin fun l => l) (by
      intro p hp
      simp only [pin, List.map_cons, List.map_nil, List.mem_cons, List.not_mem_nil, or_false] at hp
      rcases hp with rfl | rfl | rfl <;> norm_num) (by
      intro p hp
      rw [e] at hp
      obtain ⟨q, _, rfl⟩ := List.mem_map.1 hp
      exact Or.inr rfl) (by
      intro p hp
      rw [e] at hp
      obtain ⟨q, _, rfl⟩ := List.mem_map.1 hp
      exact Or.inr rfl) (by rw [hF]; exact apart_pin (i := fun l => l) (by norm_num)) (by rw [hF]; decide) c.1 c.2
      (by rw [hc])).1 ⟨[2]⟩ (by rw [hF]; decide)
    cases e1
    rw [e3]
    rw [e] at e2
    cases e2
    have hp := (init_ready (hH 2 (by simp))).hpre
    have h3 : (scaled ⟨H 2, true, 0, none⟩ [((2 : ℕ) : ℝ), 1, 2, 0, 7]).getD 1 0 = Real.exp 1 ^ (3 / 2 : ℝ) := by
      unfold scaled
      simp only [hp]
      simp [geometric, List.range_succ]
    refine ⟨h3, ?_⟩
    rw [h3]
    exact (Real.one_lt_rpow (Real.one_lt_exp_iff.2 one_pos) (by norm_num)).ne'

end Trv.Wc

import Verif.Spec.ThreePcf
import Verif.Lemmas.Triangle
import Verif.Lemmas.BispecProps
/-
Lemmas on the three-point correlation function measurements.
-/
namespace Trv.Zeta
open Trv.Mesh Trv.Stats Trv.Win Trv.Two Trv.ThreePt Trv.Bis

/-! ### Triangles -/

theorem sjlField_eq (E : Env3) (hn : ∀ a, 0 < E.mesh.n a) (fk : ℤ → ℂ) (ell : ℕ) (m : ℤ) (r : ℝ)
    {c : ℤ × ℤ × ℤ} (hc : c ∈ box E.mesh.n) :
    sjlField E fk ell m r (gid E.mesh.n c) = ∑ x ∈ box E.mesh.n,
      (((E.sj ell (mag (kvec E.mesh x) * r) : ℝ) : ℂ) * (E.ylm ell m (kvec E.mesh x) * comp E fk x) /
        (vol E.mesh : ℂ)) * phase3 E.mesh.n 1 c x := by
  unfold sjlField
  rw [dft_eq, cellOf_gid hn hc]
  apply Finset.sum_congr rfl
  intro x hx
  simp only [cellOf_gid hn hx]
  unfold comp
  rw [window_gid E hn hx]

/-- The field in configuration space is the inverse transform of a compensated one. -/
def IsG (E : Env3) (h G : ℤ → ℂ) : Prop := ∀ c ∈ box E.mesh.n, G (gid E.mesh.n c) =
  ∑ x ∈ box E.mesh.n, (comp E h x / (vol E.mesh : ℂ)) * phase3 E.mesh.n 1 c x

theorem isG (E : Env3) (hn : ∀ a, 0 < E.mesh.n a) (h : ℤ → ℂ) :
    IsG E h (invFourier E.mesh fun g => h g / (window E g : ℂ)) := by
  intro c hc
  unfold invFourier
  rw [dft_eq, cellOf_gid hn hc]
  apply Finset.sum_congr rfl
  intro x hx
  unfold comp
  show h (gid E.mesh.n x) / (window E (gid E.mesh.n x) : ℂ) / (vol E.mesh : ℂ) * _ = _
  rw [window_gid E hn hx]

theorem volCell_mul (M : Mesh ℝ) (hM : M.Valid) :
    (M.volCell : ℂ) * ((M.n 0 * M.n 1 * M.n 2 : ℤ) : ℂ) = (vol M : ℂ) ∧ (vol M : ℂ) ≠ 0 ∧
      (M.volCell : ℂ) ≠ 0 := by
  have hV : vol M ≠ 0 := (mul_pos (mul_pos (hM 0).2 (hM 1).2) (hM 2).2).ne'
  have hN : ((M.n 0 * M.n 1 * M.n 2 : ℤ) : ℝ) ≠ 0 := by
    exact_mod_cast (mul_pos (mul_pos (hM 0).1 (hM 1).1) (hM 2).1).ne'
  have h : M.volCell * ((M.n 0 * M.n 1 * M.n 2 : ℤ) : ℝ) = vol M := by
    unfold Mesh.volCell Mesh.nmesh vol
    field_simp
  refine ⟨by exact_mod_cast h, by exact_mod_cast hV, ?_⟩
  intro h0
  have : M.volCell = 0 := by exact_mod_cast h0
  rw [this, zero_mul] at h
  exact hV h.symm

theorem zeta_value (E : Env3) (hM : E.mesh.Valid) (F : Fields) (h : ℤ → ℂ) (t : Triplet)
    (hG : IsG E h (F.G t.M)) (ra rb : ℝ) :
    (E.mesh.volCell : ℂ) * zetaComponent E F t ra rb =
      besselTriangles E (comp E F.f00) (comp E h) t ra rb := by
  have hn := fun a => (hM a).1
  obtain ⟨hv, hV, _⟩ := volCell_mul E.mesh hM
  unfold zetaComponent
  simp only
  rw [gids_sum E.mesh hn]
  rw [Finset.sum_congr rfl fun c hc => by
    rw [sjlField_eq E hn _ _ _ _ hc, sjlField_eq E hn _ _ _ _ hc, hG c hc], triple_sum hn, ← mul_assoc, hv]
  unfold besselTriangles
  simp only [filter_closed hn, Finset.sum_singleton]
  simp only [allModes_eq]
  rw [Finset.mul_sum, Finset.sum_div]
  apply Finset.sum_congr rfl
  intro a _
  rw [Finset.mul_sum, Finset.sum_div]
  apply Finset.sum_congr rfl
  intro b _
  field_simp

/-! ### Shells -/

theorem mag_nonneg (v : Fin 3 → ℝ) : 0 ≤ mag v := Real.sqrt_nonneg _

theorem sel_iff (E : Env3) (b : ℕ) (c : ℤ × ℤ × ℤ) (v : ℂ) :
    sel nSample3 drSample3 (E.edges.getD b 0) (E.edges.getD (b + 1) 0)
        (⟨mag (rvec E.mesh c), v⟩ : Mode ℝ ℂ) = true ↔
      mag (rvec E.mesh c) < 100000 ∧ E.edges.getD b 0 ≤ (⌊mag (rvec E.mesh c)⌋ : ℝ) ∧
        (⌊mag (rvec E.mesh c)⌋ : ℝ) < E.edges.getD (b + 1) 0 := by
  have h0 := mag_nonneg (rvec E.mesh c)
  have hf : 0 ≤ ⌊mag (rvec E.mesh c)⌋ := Int.floor_nonneg.2 h0
  unfold sel truncInt nSample3 drSample3 inBin
  simp only [div_one, if_pos h0, mul_one]
  rw [Bool.and_eq_true, decide_eq_true_iff, decide_eq_true_iff]
  have hlt : ⌊mag (rvec E.mesh c)⌋ < ((100000 : ℕ) : ℤ) ↔ mag (rvec E.mesh c) < 100000 := by
    rw [Int.floor_lt]; norm_num
  rw [hlt]
  constructor
  · rintro ⟨⟨_, h1⟩, h2, h3⟩
    exact ⟨h1, h2, h3⟩
  · rintro ⟨h1, h2, h3⟩
    exact ⟨⟨hf, h1⟩, h2, h3⟩

theorem twopt_corr (E : Two.Env) (hn : ∀ a, 0 < E.mesh.n a) (fa fb : ℤ → ℂ) (amp : ℂ)
    {c : ℤ × ℤ × ℤ} (hc : c ∈ box E.mesh.n) :
    dft E.mesh.n 1 (twopt3d E fa fb amp) (gid E.mesh.n c) = corr E fa fb amp c := by
  rw [dft_eq, cellOf_gid hn hc]
  unfold corr
  rw [allModes_eq, Finset.sum_div]
  apply Finset.sum_congr rfl
  intro x hx
  unfold twopt3d modePower modeShot
  simp only [cellOf_gid hn hx]
  ring

/-- The value of a bin of the uncoupled shot noise, as computed: harmonics of `r`. -/
noncomputable def shellMean (E : Env3) (fa fb : ℤ → ℂ) (amp : ℂ) (t : Triplet) (b : ℤ) : ℂ :=
  (∑ c ∈ shell E b, corr E.toEnv fa fb amp c *
    (E.ylm E.ell1 t.m1 (rvec E.mesh c) * E.ylm E.ell2 t.m2 (rvec E.mesh c))) /
    ((shell E b).card : ℂ) / ((shell E b).card * E.mesh.volCell : ℂ)

open Classical in
theorem pairs_filter (E : Env3) (hn : ∀ a, 0 < E.mesh.n a) (fa fb : ℤ → ℂ) (amp : ℂ) (t : Triplet)
    (b : ℤ) :
    ((pairs3 E fa fb amp t).filter (sel nSample3 drSample3 (E.edges.getD b.toNat 0)
        (E.edges.getD (b.toNat + 1) 0))).length = (shell E b).card ∧
    (((pairs3 E fa fb amp t).filter (sel nSample3 drSample3 (E.edges.getD b.toNat 0)
        (E.edges.getD (b.toNat + 1) 0))).map Mode.len).sum = ∑ c ∈ shell E b, mag (rvec E.mesh c) ∧
    (((pairs3 E fa fb amp t).filter (sel nSample3 drSample3 (E.edges.getD b.toNat 0)
        (E.edges.getD (b.toNat + 1) 0))).map Mode.val).sum = ∑ c ∈ shell E b, corr E.toEnv fa fb amp c *
      (E.ylm E.ell1 t.m1 (rvec E.mesh c) * E.ylm E.ell2 t.m2 (rvec E.mesh c)) := by
  have hfin : ∀ p : ℤ × ℤ × ℤ → Bool, (∀ c, p c = true ↔ (mag (rvec E.mesh c) < 100000 ∧
      E.edges.getD b.toNat 0 ≤ (⌊mag (rvec E.mesh c)⌋ : ℝ) ∧
      (⌊mag (rvec E.mesh c)⌋ : ℝ) < E.edges.getD (b.toNat + 1) 0)) →
      ((cells E.mesh.n).filter p).toFinset = shell E b := by
    intro p hp
    ext c
    unfold shell
    rw [List.mem_toFinset, List.mem_filter, Finset.mem_filter, allModes_eq, mem_cells, mem_box, hp]
  unfold pairs3
  simp only [List.filter_map, List.length_map, List.map_map]
  have hf := hfin _ (fun c => sel_iff E b.toNat c (dft E.mesh.n 1 (twopt3d E.toEnv fa fb amp)
    (gid E.mesh.n c) * (E.ylm E.ell1 t.m1 (rvec E.mesh c) * E.ylm E.ell2 t.m2 (rvec E.mesh c))))
  refine ⟨?_, ?_, ?_⟩
  · rw [← List.toFinset_card_of_nodup ((cells_nodup _).filter _)]
    exact congrArg Finset.card hf
  · rw [← List.sum_toFinset _ ((cells_nodup _).filter _)]
    exact Finset.sum_congr hf fun _ _ => rfl
  · rw [← List.sum_toFinset _ ((cells_nodup _).filter _)]
    refine Finset.sum_congr hf fun c hc => ?_
    have hcb : c ∈ box E.mesh.n := by
      unfold shell at hc
      exact (Finset.mem_filter.1 hc).1
    simp only [Function.comp]
    rw [twopt_corr E.toEnv hn fa fb amp hcb]

theorem uncoupled3_bin (E : Env3) (hn : ∀ a, 0 < E.mesh.n a) (fa fb : ℤ → ℂ) (amp : ℂ) (t : Triplet)
    {b : ℤ} (h0 : 0 ≤ b) (h1 : b < E.numBins) :
    (uncoupled3 E fa fb amp t).getD b.toNat ⟨0, 0, 0⟩ =
      ⟨(shell E b).card, meanSep E b, (-1) ^ (E.ell1 + E.ell2) * shellMean E fa fb amp t b⟩ := by
  obtain ⟨p1, p2, p3⟩ := pairs_filter E hn fa fb amp t b
  unfold uncoupled3
  rw [binStats_eq, List.map_map, List.getD_eq_getElem?_getD, List.getElem?_map,
    List.getElem?_range (by omega)]
  show normalise3 E (binOf _ _) = _
  unfold binOf meanSep shellMean
  rw [p1, p2, p3]
  by_cases hz : (shell E b).card = 0
  · rw [if_pos hz, if_pos hz, hz]
    unfold normalise3
    simp
  · rw [if_neg hz, if_neg hz]
    unfold normalise3
    simp only
    rw [if_pos hz]
    congr 1
    have hc : ((shell E b).card : ℂ) ≠ 0 := by exact_mod_cast hz
    rw [Complex.real_smul]
    push_cast
    ring

end Trv.Zeta

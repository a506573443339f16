import Verif.Spec.TwoPtSums
import Verif.Lemmas.ThreePcf
/-
Lemmas: the lines of the two-point measurements as means over modes and separations.
-/
namespace Trv.Two
open Trv.Mesh Trv.Stats Trv.Win Trv.Bis

section
variable {V : Type} [AddCommGroup V] [Module ℝ V]

theorem bin_cells (n : Fin 3 → ℤ) (len : ℤ × ℤ × ℤ → ℝ) (val : ℤ × ℤ × ℤ → V) (ns : ℕ)
    (d lo hi centre : ℝ) (S : Finset (ℤ × ℤ × ℤ))
    (hS : ∀ c, c ∈ S ↔ c ∈ allModes n ∧ sel ns d lo hi (⟨len c, val c⟩ : Mode ℝ V) = true) :
    binOf centre (((cells n).map fun c => (⟨len c, val c⟩ : Mode ℝ V)).filter (sel ns d lo hi)) =
      ⟨S.card, meanLen S len centre, ((S.card : ℝ)⁻¹) • ∑ c ∈ S, val c⟩ := by
  have hf : ((cells n).filter (sel ns d lo hi ∘ fun c => (⟨len c, val c⟩ : Mode ℝ V))).toFinset = S := by
    ext c
    rw [List.mem_toFinset, List.mem_filter, hS, allModes_eq, mem_cells, mem_box,
      Function.comp_apply]
  have hnd : ((cells n).filter (sel ns d lo hi ∘ fun c => (⟨len c, val c⟩ : Mode ℝ V))).Nodup :=
    (cells_nodup _).filter _
  rw [List.filter_map]
  unfold binOf meanLen
  simp only [List.length_map, List.map_map]
  rw [← List.toFinset_card_of_nodup hnd, hf]
  have e1 : (List.map (Mode.len ∘ fun c => (⟨len c, val c⟩ : Mode ℝ V))
      ((cells n).filter (sel ns d lo hi ∘ fun c => (⟨len c, val c⟩ : Mode ℝ V)))).sum =
      ∑ c ∈ S, len c := by
    rw [← List.sum_toFinset _ hnd, hf]
    rfl
  have e2 : (List.map (Mode.val ∘ fun c => (⟨len c, val c⟩ : Mode ℝ V))
      ((cells n).filter (sel ns d lo hi ∘ fun c => (⟨len c, val c⟩ : Mode ℝ V)))).sum =
      ∑ c ∈ S, val c := by
    rw [← List.sum_toFinset _ hnd, hf]
    rfl
  rw [e1, e2]
  by_cases h : S.card = 0
  · rw [if_pos h, if_pos h, h, Finset.card_eq_zero.1 h]
    simp
  · rw [if_neg h, if_neg h]

theorem irange_sum {W : Type} [AddCommMonoid W] (L : ℕ) (f : ℤ → W) :
    ((orders L).map f).sum = ∑ m ∈ Finset.Icc (-(L : ℤ)) L, f m := by
  have hnd : (orders L).Nodup := by
    unfold orders irange
    refine List.Nodup.map ?_ List.nodup_range
    intro a b h
    simp only at h
    omega
  rw [← List.sum_toFinset _ hnd]
  apply Finset.sum_congr _ fun _ _ => rfl
  ext m
  rw [List.mem_toFinset, Finset.mem_Icc]
  unfold orders irange
  rw [List.mem_map]
  constructor
  · rintro ⟨i, hi, rfl⟩
    rw [List.mem_range] at hi
    omega
  · intro h
    exact ⟨(m + L).toNat, by rw [List.mem_range]; omega, by omega⟩

theorem accumulate_val (cpl : ℝ) (M m1 : ℤ) (st : ℕ → Saved V) (bins : List (Bin ℝ V)) (i : ℕ) :
    (accumulate cpl M m1 st bins i).val =
      (st i).val + if |cpl| < epsCoupling then 0 else cpl • (bins.getD i ⟨0, 0, 0⟩).val := by
  unfold accumulate
  by_cases h : |cpl| < epsCoupling
  · rw [if_pos h, if_pos h, add_zero]
  · rw [if_neg h, if_neg h]
    simp only
    split_ifs <;> rfl

theorem foldl_val {β : Type} (step : (ℕ → Saved V) → β → ℕ → Saved V) (g : β → ℕ → V)
    (h : ∀ st b i, (step st b i).val = (st i).val + g b i) :
    ∀ (l : List β) (st : ℕ → Saved V) (i : ℕ),
      (l.foldl step st i).val = (st i).val + (l.map fun b => g b i).sum
  | [], st, i => by simp
  | b :: l, st, i => by
    rw [List.foldl_cons, foldl_val step g h l, h, List.map_cons, List.sum_cons, add_assoc]

theorem sumOrders_val (E : Env) (bins : ℤ → ℤ → List (Bin ℝ V)) (i : ℕ) :
    (sumOrders E bins i).val = ∑ M ∈ Finset.Icc (-(E.ELL : ℤ)) E.ELL, ∑ m ∈ Finset.Icc (-(E.ELL : ℤ)) E.ELL,
      if |coupling2 E E.ELL E.ELL m M| < epsCoupling then 0
      else coupling2 E E.ELL E.ELL m M • ((bins M m).getD i ⟨0, 0, 0⟩).val := by
  unfold sumOrders
  rw [foldl_val _ (fun M i => ∑ m ∈ Finset.Icc (-(E.ELL : ℤ)) E.ELL,
      if |coupling2 E E.ELL E.ELL m M| < epsCoupling then 0
      else coupling2 E E.ELL E.ELL m M • ((bins M m).getD i ⟨0, 0, 0⟩).val), zero_add, irange_sum]
  intro st M i
  rw [foldl_val _ (fun m i => if |coupling2 E E.ELL E.ELL m M| < epsCoupling then 0
      else coupling2 E E.ELL E.ELL m M • ((bins M m).getD i ⟨0, 0, 0⟩).val), irange_sum]
  intro st m i
  exact accumulate_val _ _ _ _ _ _

/-- The numbers saved are those at the orders zero. -/
theorem foldl_inv {β : Type} (step : (ℕ → Saved V) → β → ℕ → Saved V) (l : List β) (x : ℕ × ℝ)
    (i : ℕ) (keep : ∀ st b, ((st i).num, (st i).len) = x → ((step st b i).num, (step st b i).len) = x) :
    ∀ st : ℕ → Saved V, ((st i).num, (st i).len) = x →
      (((l.foldl step st) i).num, ((l.foldl step st) i).len) = x := by
  induction l with
  | nil => intro st h; exact h
  | cons b l ih => intro st h; rw [List.foldl_cons]; exact ih _ (keep _ _ h)

theorem foldl_hit {β : Type} (step : (ℕ → Saved V) → β → ℕ → Saved V) (l : List β) (x : ℕ × ℝ) (i : ℕ)
    (b0 : β) (hb : b0 ∈ l)
    (keep : ∀ st b, ((st i).num, (st i).len) = x → ((step st b i).num, (step st b i).len) = x)
    (hit : ∀ st, ((step st b0 i).num, (step st b0 i).len) = x) (st : ℕ → Saved V) :
      (((l.foldl step st) i).num, ((l.foldl step st) i).len) = x := by
  obtain ⟨s, t, rfl⟩ := List.append_of_mem hb
  rw [List.foldl_append, List.foldl_cons]
  exact foldl_inv step t x i keep _ (hit _)

theorem zero_order (L : ℕ) : (0 : ℤ) ∈ orders L := by
  unfold orders irange
  rw [List.mem_map]
  exact ⟨L, by rw [List.mem_range]; omega, by omega⟩

theorem sumOrders_num (E : Env) (bins : ℤ → ℤ → List (Bin ℝ V)) (i : ℕ)
    (hc : epsCoupling ≤ |coupling2 E E.ELL E.ELL 0 0|) :
    (sumOrders E bins i).num = ((bins 0 0).getD i ⟨0, 0, 0⟩).num ∧
    (sumOrders E bins i).len = ((bins 0 0).getD i ⟨0, 0, 0⟩).len := by
  set x : ℕ × ℝ := (((bins 0 0).getD i ⟨0, 0, 0⟩).num, ((bins 0 0).getD i ⟨0, 0, 0⟩).len) with hx
  have keep : ∀ M (st : ℕ → Saved V) m, ((st i).num, (st i).len) = x →
      ((accumulate (coupling2 E E.ELL E.ELL m M) M m st (bins M m) i).num,
        (accumulate (coupling2 E E.ELL E.ELL m M) M m st (bins M m) i).len) = x := by
    intro M st m h
    unfold accumulate
    by_cases hk : |coupling2 E E.ELL E.ELL m M| < epsCoupling
    · rw [if_pos hk]; exact h
    · rw [if_neg hk]
      simp only
      by_cases h0 : M = 0 ∧ m = 0
      · rw [if_pos h0, h0.1, h0.2]
      · rw [if_neg h0]; exact h
  have hit : ∀ st : ℕ → Saved V,
      ((accumulate (coupling2 E E.ELL E.ELL 0 0) 0 0 st (bins 0 0) i).num,
        (accumulate (coupling2 E E.ELL E.ELL 0 0) 0 0 st (bins 0 0) i).len) = x := by
    intro st
    unfold accumulate
    rw [if_neg (not_lt.2 hc)]
    simp only
    simp only [and_self, if_true]
    exact hx.symm
  have := foldl_hit (fun st M => (orders E.ELL).foldl (fun st m1 =>
    accumulate (coupling2 E E.ELL E.ELL m1 M) M m1 st (bins M m1)) st) (orders E.ELL) x i 0
    (zero_order _)
    (fun st M h => foldl_inv _ (orders E.ELL) x i (fun st m => keep M st m) st h)
    (fun st => foldl_hit _ (orders E.ELL) x i 0 (zero_order _) (fun st m => keep 0 st m) hit st)
    (fun _ => ⟨0, 0, 0⟩)
  unfold sumOrders
  exact ⟨congrArg Prod.fst this, congrArg Prod.snd this⟩

end

theorem sel_modes {V : Type} [AddCommGroup V] [Module ℝ V] (lo hi k : ℝ) (h0 : 0 ≤ k) (v : V) :
    sel nSample dkSample lo hi (⟨k, v⟩ : Mode ℝ V) = true ↔
      k < 10 ∧ lo ≤ (⌊k * 100000⌋ : ℝ) / 100000 ∧ (⌊k * 100000⌋ : ℝ) / 100000 < hi := by
  have h1 : 0 ≤ k * 100000 := by positivity
  have hf : 0 ≤ ⌊k * 100000⌋ := Int.floor_nonneg.2 h1
  unfold sel truncInt nSample dkSample inBin
  have e : k / (1 / 100000 : ℝ) = k * 100000 := by ring
  simp only [e, if_pos h1]
  rw [Bool.and_eq_true, decide_eq_true_iff, decide_eq_true_iff]
  have hlt : ⌊k * 100000⌋ < ((1000000 : ℕ) : ℤ) ↔ k < 10 := by
    rw [Int.floor_lt]
    push_cast
    constructor <;> intro h <;> linarith
  rw [hlt, mul_one_div]
  constructor
  · rintro ⟨⟨_, h1⟩, h2, h3⟩; exact ⟨h1, h2, h3⟩
  · rintro ⟨h1, h2, h3⟩; exact ⟨⟨hf, h1⟩, h2, h3⟩

theorem sel_seps {V : Type} [AddCommGroup V] [Module ℝ V] (lo hi r : ℝ) (h0 : 0 ≤ r) (v : V) :
    sel nSample drSample lo hi (⟨r, v⟩ : Mode ℝ V) = true ↔
      r < 100000 ∧ lo ≤ (⌊r * 10⌋ : ℝ) / 10 ∧ (⌊r * 10⌋ : ℝ) / 10 < hi := by
  have h1 : 0 ≤ r * 10 := by positivity
  have hf : 0 ≤ ⌊r * 10⌋ := Int.floor_nonneg.2 h1
  unfold sel truncInt nSample drSample inBin
  have e : r / (1 / 10 : ℝ) = r * 10 := by ring
  simp only [e, if_pos h1]
  rw [Bool.and_eq_true, decide_eq_true_iff, decide_eq_true_iff]
  have hlt : ⌊r * 10⌋ < ((1000000 : ℕ) : ℤ) ↔ r < 100000 := by
    rw [Int.floor_lt]
    push_cast
    constructor <;> intro h <;> linarith
  rw [hlt, mul_one_div]
  constructor
  · rintro ⟨⟨_, h1⟩, h2, h3⟩; exact ⟨h1, h2, h3⟩
  · rintro ⟨h1, h2, h3⟩; exact ⟨⟨hf, h1⟩, h2, h3⟩

theorem mag_nonneg (v : Fin 3 → ℝ) : 0 ≤ mag v := Real.sqrt_nonneg _

/-- A bin of the statistics in Fourier space. -/
theorem statsFourier_bin (E : Env) (fa fb : ℤ → ℂ) (amp : ℂ) (ell : ℕ) (m : ℤ) {i : ℕ}
    (hi : i < E.numBins) :
    (statsFourier E fa fb amp ell m).getD i ⟨0, 0, 0⟩ =
      ⟨(modesIn E i).card, meanLen (modesIn E i) (fun c => mag (kvec E.mesh c)) (E.centres.getD i 0),
        (meanOver (modesIn E i) fun c => power E fa fb c * E.ylm ell m (kvec E.mesh c),
          meanOver (modesIn E i) fun c => amp * (E.alias_ c : ℂ) / (E.win c : ℂ) *
            E.ylm ell m (kvec E.mesh c))⟩ := by
  unfold statsFourier modes2
  rw [binStats_eq, List.getD_eq_getElem?_getD, List.getElem?_map, List.getElem?_range hi]
  simp only [Option.map_some, Option.getD_some]
  rw [bin_cells E.mesh.n (fun c => mag (kvec E.mesh c)) _ nSample dkSample _ _ _ (modesIn E i)
    (fun c => by rw [sel_modes _ _ _ (mag_nonneg _)]; unfold modesIn; exact Finset.mem_filter)]
  congr 1
  unfold meanOver
  apply Prod.ext
  · rw [Prod.smul_fst, Prod.fst_sum, Complex.real_smul]
    push_cast
    rw [inv_mul_eq_div]
    rfl
  · rw [Prod.smul_snd, Prod.snd_sum, Complex.real_smul]
    push_cast
    rw [inv_mul_eq_div]
    rfl

/-- A bin of the statistics in configuration space. -/
theorem statsConfig_bin (E : Env) (hn : ∀ a, 0 < E.mesh.n a) (fa fb : ℤ → ℂ) (amp : ℂ) (ell : ℕ) (m : ℤ)
    {i : ℕ} (hi : i < E.numBins) :
    (statsConfig E fa fb amp ell m).getD i ⟨0, 0, 0⟩ =
      ⟨(sepsIn E i).card, meanLen (sepsIn E i) (fun c => mag (rvec E.mesh c)) (E.centres.getD i 0),
        meanOver (sepsIn E i) fun c => Zeta.corr E fa fb amp c * E.ylm ell m (rvec E.mesh c)⟩ := by
  unfold statsConfig
  simp only
  rw [binStats_eq, List.getD_eq_getElem?_getD, List.getElem?_map, List.getElem?_range hi]
  simp only [Option.map_some, Option.getD_some]
  rw [bin_cells E.mesh.n (fun c => mag (rvec E.mesh c)) _ nSample drSample _ _ _ (sepsIn E i)
    (fun c => by rw [sel_seps _ _ _ (mag_nonneg _)]; unfold sepsIn; exact Finset.mem_filter)]
  congr 1
  unfold meanOver
  rw [Complex.real_smul]
  push_cast
  rw [inv_mul_eq_div]
  congr 1
  apply Finset.sum_congr rfl
  intro c hc
  have hcb : c ∈ box E.mesh.n := by
    unfold sepsIn at hc
    exact (Finset.mem_filter.1 hc).1
  rw [Zeta.twopt_corr E hn fa fb amp hcb]

end Trv.Two

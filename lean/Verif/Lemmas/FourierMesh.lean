import Verif.Lemmas.TwoPtProps
import Verif.Spec.FourierMesh
import Verif.Props.Mesh
import Mathlib.Algebra.Field.GeomSum
import Mathlib.Analysis.SpecialFunctions.Complex.Circle
/-
Lemmas on the discrete Fourier transform of a mesh.
-/
namespace Trv.Two
open Trv.Mesh Trv.Stats Trv.Win

/-- The cells of the mesh as a finite set. -/
noncomputable def box (n : Fin 3 → ℤ) : Finset (ℤ × ℤ × ℤ) :=
  Finset.Ico 0 (n 0) ×ˢ (Finset.Ico 0 (n 1) ×ˢ Finset.Ico 0 (n 2))

theorem mem_box {n : Fin 3 → ℤ} {c : ℤ × ℤ × ℤ} : c ∈ box n ↔
    (0 ≤ c.1 ∧ c.1 < n 0) ∧ (0 ≤ c.2.1 ∧ c.2.1 < n 1) ∧ (0 ≤ c.2.2 ∧ c.2.2 < n 2) := by
  unfold box
  simp only [Finset.mem_product, Finset.mem_Ico]

theorem cells_nodup (n : Fin 3 → ℤ) : (cells n).Nodup := by
  unfold cells
  have hax : ∀ i, ((List.range (n i).toNat).map Int.ofNat).Nodup := fun i =>
    List.nodup_range.map (fun a b h => Int.ofNat.inj h)
  simp only
  rw [List.nodup_flatMap]
  constructor
  · intro i _
    rw [List.nodup_flatMap]
    constructor
    · intro j _
      exact (hax 2).map (fun a b h => by simpa using h)
    · refine (hax 1).imp ?_
      intro a b hab
      simp only [Function.onFun, List.disjoint_left]
      intro x hx hy
      obtain ⟨k, _, rfl⟩ := List.mem_map.1 hx
      obtain ⟨k', _, h⟩ := List.mem_map.1 hy
      simp only [Prod.mk.injEq] at h
      exact hab h.2.1.symm
  · refine (hax 0).imp ?_
    intro a b hab
    simp only [Function.onFun, List.disjoint_left]
    intro x hx hy
    obtain ⟨j, _, hj⟩ := List.mem_flatMap.1 hx
    obtain ⟨k, _, rfl⟩ := List.mem_map.1 hj
    obtain ⟨j', _, hj'⟩ := List.mem_flatMap.1 hy
    obtain ⟨k', _, h⟩ := List.mem_map.1 hj'
    simp only [Prod.mk.injEq] at h
    exact hab h.1.symm

theorem cells_sum {A : Type} [AddCommMonoid A] (n : Fin 3 → ℤ) (f : ℤ × ℤ × ℤ → A) :
    ((cells n).map f).sum = ∑ x ∈ box n, f x := by
  rw [← List.sum_toFinset f (cells_nodup n)]
  apply Finset.sum_congr _ fun _ _ => rfl
  ext c
  rw [List.mem_toFinset, mem_cells, mem_box]

/-- Roots of unity. -/
noncomputable def root (n a : ℤ) : ℂ := Complex.exp (2 * Real.pi * Complex.I * ((a : ℂ) / (n : ℂ)))

theorem root_add (n a b : ℤ) : root n (a + b) = root n a * root n b := by
  unfold root
  rw [← Complex.exp_add]
  congr 1
  push_cast
  ring

theorem root_zero (n : ℤ) : root n 0 = 1 := by unfold root; simp

theorem root_mul_nat (n a : ℤ) (k : ℕ) : root n (a * k) = root n a ^ k := by
  induction k with
  | zero => simp [root_zero]
  | succ k ih =>
    rw [pow_succ, ← ih, ← root_add]
    congr 1
    push_cast
    ring

theorem root_period {n : ℤ} (hn : 0 < n) (m : ℤ) : root n (n * m) = 1 := by
  unfold root
  rw [Complex.exp_eq_one_iff]
  refine ⟨m, ?_⟩
  have : (n : ℂ) ≠ 0 := by exact_mod_cast hn.ne'
  push_cast
  field_simp

theorem root_eq_one {n : ℤ} (hn : 0 < n) (a : ℤ) : root n a = 1 ↔ n ∣ a := by
  constructor
  · intro h
    unfold root at h
    rw [Complex.exp_eq_one_iff] at h
    obtain ⟨m, hm⟩ := h
    refine ⟨m, ?_⟩
    have h1 : (n : ℂ) ≠ 0 := by exact_mod_cast hn.ne'
    have h2 : (2 * Real.pi * Complex.I : ℂ) ≠ 0 := by
      simp [Real.pi_ne_zero]
    have h3 : (a : ℂ) / n = m := by
      have : (2 * Real.pi * Complex.I : ℂ) * ((a : ℂ) / n) = (2 * Real.pi * Complex.I) * m := by
        rw [hm]; ring
      exact mul_left_cancel₀ h2 this
    rw [div_eq_iff h1] at h3
    have : (a : ℂ) = ((n * m : ℤ) : ℂ) := by rw [h3]; push_cast; ring
    exact_mod_cast this
  · rintro ⟨m, rfl⟩
    exact root_period hn m

theorem root_conj (n a : ℤ) : (starRingEnd ℂ) (root n a) = root n (-a) := by
  unfold root
  rw [← Complex.exp_conj]
  congr 1
  simp only [map_mul, map_div₀, Complex.conj_I, Complex.conj_ofReal, map_ofNat, map_intCast]
  push_cast
  ring

theorem root_sum {n : ℤ} (hn : 0 < n) (a : ℤ) :
    ∑ x ∈ Finset.Ico 0 n, root n (a * x) = if n ∣ a then (n : ℂ) else 0 := by
  obtain ⟨N, rfl⟩ := Int.eq_ofNat_of_zero_le hn.le
  have h : ∑ x ∈ Finset.Ico (0 : ℤ) N, root N (a * x) = ∑ k ∈ Finset.range N, root N a ^ k := by
    refine Finset.sum_nbij' Int.toNat Int.ofNat ?_ ?_ ?_ ?_ ?_
    · intro x hx; simp only [Finset.mem_Ico] at hx; simp only [Finset.mem_range]; omega
    · intro x hx; simp only [Finset.mem_range] at hx; simp only [Finset.mem_Ico]
      constructor <;> simp <;> omega
    · intro x hx; simp only [Finset.mem_Ico] at hx; simp; omega
    · intro x _; rfl
    · intro x hx
      simp only [Finset.mem_Ico] at hx
      rw [← root_mul_nat]
      congr 2
      omega
  rw [h]
  by_cases hd : (N : ℤ) ∣ a
  · rw [if_pos hd, (root_eq_one hn a).2 hd]
    simp
  · rw [if_neg hd]
    have h1 : root N a ≠ 1 := fun h => hd ((root_eq_one hn a).1 h)
    rw [geom_sum_eq h1]
    have : root N a ^ N = 1 := by
      rw [← root_mul_nat, mul_comm]
      exact root_period hn a
    rw [this, sub_self, zero_div]

theorem phase3_eq (n : Fin 3 → ℤ) (s : ℤ) (c x : ℤ × ℤ × ℤ) :
    phase3 n s c x = root (n 0) (s * (c.1 * x.1)) * root (n 1) (s * (c.2.1 * x.2.1)) *
      root (n 2) (s * (c.2.2 * x.2.2)) := by
  unfold phase3 root
  rw [← Complex.exp_add, ← Complex.exp_add]
  congr 1
  push_cast
  ring

theorem phase3_comm (n : Fin 3 → ℤ) (s : ℤ) (c x : ℤ × ℤ × ℤ) : phase3 n s c x = phase3 n s x c := by
  rw [phase3_eq, phase3_eq, mul_comm c.1, mul_comm c.2.1, mul_comm c.2.2]

theorem phase3_conj (n : Fin 3 → ℤ) (s : ℤ) (c x : ℤ × ℤ × ℤ) :
    (starRingEnd ℂ) (phase3 n s c x) = phase3 n (-s) c x := by
  rw [phase3_eq, phase3_eq, map_mul, map_mul, root_conj, root_conj, root_conj, neg_mul, neg_mul,
    neg_mul]

/-- Orthogonality of the phases on the mesh. -/
theorem phase3_orth {n : Fin 3 → ℤ} (hn : ∀ a, 0 < n a) {s : ℤ} (hs : s = 1 ∨ s = -1)
    {y z : ℤ × ℤ × ℤ} (hy : y ∈ box n) (hz : z ∈ box n) :
    ∑ x ∈ box n, phase3 n s x y * phase3 n (-s) z x =
      if y = z then ((n 0 * n 1 * n 2 : ℤ) : ℂ) else 0 := by
  have e : ∀ x : ℤ × ℤ × ℤ, phase3 n s x y * phase3 n (-s) z x =
      root (n 0) (s * (y.1 - z.1) * x.1) * (root (n 1) (s * (y.2.1 - z.2.1) * x.2.1) *
        root (n 2) (s * (y.2.2 - z.2.2) * x.2.2)) := by
    intro x
    have r : ∀ (N a b : ℤ) (u : ℤ), root N (s * (u * a)) * root N (-s * (b * u)) =
        root N (s * (a - b) * u) := by
      intro N a b u
      rw [← root_add]; congr 1; ring
    rw [phase3_eq, phase3_eq, ← r, ← r, ← r]
    ring
  simp only [e]
  unfold box
  rw [Finset.sum_product]
  simp only [Finset.sum_product, ← Finset.mul_sum, ← Finset.sum_mul]
  rw [root_sum (hn 0), root_sum (hn 1), root_sum (hn 2)]
  have dv : ∀ {N a b : ℤ}, 0 ≤ a → a < N → 0 ≤ b → b < N → (N ∣ s * (a - b) ↔ a = b) := by
    intro N a b ha ha' hb hb'
    constructor
    · intro h
      have h' : N ∣ a - b := by
        rcases hs with rfl | rfl
        · simpa using h
        · have := (Int.dvd_neg).2 h
          simpa using this
      have := Int.eq_zero_of_abs_lt_dvd h' (by rw [abs_lt]; omega)
      omega
    · rintro rfl; simp
  rw [mem_box] at hy hz
  obtain ⟨⟨a1, a2⟩, ⟨b1, b2⟩, c1, c2⟩ := hy
  obtain ⟨⟨a3, a4⟩, ⟨b3, b4⟩, c3, c4⟩ := hz
  simp only [dv a1 a2 a3 a4, dv b1 b2 b3 b4, dv c1 c2 c3 c4]
  by_cases h : y = z
  · subst h
    simp
    ring
  · rw [if_neg h]
    by_cases h0 : y.1 = z.1
    · by_cases h1 : y.2.1 = z.2.1
      · by_cases h2 : y.2.2 = z.2.2
        · exact absurd (Prod.ext h0 (Prod.ext h1 h2)) h
        · rw [if_neg h2]; ring
      · rw [if_neg h1]; ring
    · rw [if_neg h0]; ring

/-! ### Flattened indices -/

theorem gid_range {n : Fin 3 → ℤ} {c : ℤ × ℤ × ℤ} (hc : c ∈ box n) :
    0 ≤ gid n c ∧ gid n c < n 0 * n 1 * n 2 := by
  obtain ⟨a, b, d⟩ := mem_box.1 hc
  exact gridIndex_range (⟨n, fun _ => (1 : ℚ)⟩ : Mesh ℚ) c.1 c.2.1 c.2.2 ⟨a, b, d⟩

theorem cellOf_mem {n : Fin 3 → ℤ} (hn : ∀ a, 0 < n a) {g : ℤ} (h0 : 0 ≤ g)
    (h1 : g < n 0 * n 1 * n 2) : cellOf n g ∈ box n := by
  rw [mem_box]
  unfold cellOf
  refine ⟨⟨?_, ?_⟩, ⟨?_, ?_⟩, ?_, ?_⟩
  · exact Int.ediv_nonneg h0 (mul_pos (hn 1) (hn 2)).le
  · apply Int.ediv_lt_of_lt_mul (mul_pos (hn 1) (hn 2))
    linarith
  · exact Int.emod_nonneg _ (hn 1).ne'
  · exact Int.emod_lt_of_pos _ (hn 1)
  · exact Int.emod_nonneg _ (hn 2).ne'
  · exact Int.emod_lt_of_pos _ (hn 2)

theorem gid_cellOf {n : Fin 3 → ℤ} (hn : ∀ a, 0 < n a) (g : ℤ) : gid n (cellOf n g) = g := by
  unfold gid cellOf gridIndex
  simp only
  rw [show n 1 * n 2 = n 2 * n 1 by ring, ← Int.ediv_ediv_of_nonneg (hn 2).le]
  have h1 := Int.mul_ediv_add_emod (g / n 2) (n 1)
  have h2 := Int.mul_ediv_add_emod g (n 2)
  have : g / n 2 / n 1 * n 1 + g / n 2 % n 1 = g / n 2 := by linarith [mul_comm (n 1) (g / n 2 / n 1)]
  rw [this]
  linarith [mul_comm (n 2) (g / n 2)]

theorem cellOf_gid {n : Fin 3 → ℤ} (hn : ∀ a, 0 < n a) {c : ℤ × ℤ × ℤ} (hc : c ∈ box n) :
    cellOf n (gid n c) = c := by
  have hr := gid_range hc
  have hm := cellOf_mem hn hr.1 hr.2
  have he := gid_cellOf hn (gid n c)
  unfold gid at he
  obtain ⟨a, b, d⟩ := mem_box.1 hm
  obtain ⟨a', b', d'⟩ := mem_box.1 hc
  obtain ⟨h0, h1, h2⟩ := gridIndex_inj n b d b' d' he
  exact Prod.ext h0 (Prod.ext h1 h2)

/-- Sums over flattened indices and over cells. -/
theorem gids_sum {A : Type} [AddCommMonoid A] (M : Mesh ℝ) (hn : ∀ a, 0 < M.n a) (f : ℤ → A) :
    ((gids M).map f).sum = ∑ x ∈ box M.n, f (gid M.n x) := by
  have hN : 0 ≤ M.nmesh := by
    unfold Mesh.nmesh
    exact (mul_pos (mul_pos (hn 0) (hn 1)) (hn 2)).le
  have hnd : (gids M).Nodup := by
    unfold gids
    exact List.nodup_range.map (fun a b h => Int.ofNat.inj h)
  rw [← List.sum_toFinset f hnd]
  symm
  refine Finset.sum_nbij' (gid M.n) (cellOf M.n) ?_ ?_ ?_ ?_ (fun _ _ => rfl)
  · intro c hc
    have := gid_range hc
    rw [List.mem_toFinset]
    unfold gids
    rw [List.mem_map]
    refine ⟨(gid M.n c).toNat, ?_, ?_⟩
    · rw [List.mem_range]
      unfold Mesh.nmesh
      omega
    · simp; omega
  · intro g hg
    rw [List.mem_toFinset] at hg
    unfold gids at hg
    obtain ⟨k, hk, rfl⟩ := List.mem_map.1 hg
    rw [List.mem_range] at hk
    apply cellOf_mem hn
    · simp
    · have : (k : ℤ) < M.nmesh := by omega
      exact this
  · intro c hc; exact cellOf_gid hn hc
  · intro g _; exact gid_cellOf hn g

/-! ### Transforms -/

theorem dft_eq (n : Fin 3 → ℤ) (s : ℤ) (f : ℤ → ℂ) (g : ℤ) :
    dft n s f g = ∑ x ∈ box n, f (gid n x) * phase3 n s (cellOf n g) x := by
  unfold dft
  rw [cells_sum]

/-- The transform of one sign inverts that of the other but for the number of cells. -/
theorem dft_dft {n : Fin 3 → ℤ} (hn : ∀ a, 0 < n a) {s : ℤ} (hs : s = 1 ∨ s = -1) (f : ℤ → ℂ)
    {g : ℤ} (h0 : 0 ≤ g) (h1 : g < n 0 * n 1 * n 2) :
    dft n (-s) (dft n s f) g = ((n 0 * n 1 * n 2 : ℤ) : ℂ) * f g := by
  rw [dft_eq]
  have hz := cellOf_mem hn h0 h1
  have : ∑ x ∈ box n, dft n s f (gid n x) * phase3 n (-s) (cellOf n g) x =
      ∑ y ∈ box n, f (gid n y) * ∑ x ∈ box n, phase3 n s x y * phase3 n (-s) (cellOf n g) x := by
    simp only [Finset.mul_sum]
    rw [Finset.sum_comm]
    apply Finset.sum_congr rfl
    intro x hx
    rw [dft_eq, cellOf_gid hn hx, Finset.sum_mul]
    apply Finset.sum_congr rfl
    intro y _
    ring
  rw [this, Finset.sum_congr rfl fun y hy => by rw [phase3_orth hn hs hy hz]]
  simp only [mul_ite, mul_zero]
  rw [Finset.sum_ite_eq' , if_pos hz, gid_cellOf hn, mul_comm]

/-- Parseval's identity. -/
theorem dft_parseval {n : Fin 3 → ℤ} (hn : ∀ a, 0 < n a) {s : ℤ} (hs : s = 1 ∨ s = -1)
    (f h : ℤ → ℂ) :
    ∑ c ∈ box n, dft n s f (gid n c) * (starRingEnd ℂ) (dft n s h (gid n c)) =
      ((n 0 * n 1 * n 2 : ℤ) : ℂ) * ∑ y ∈ box n, f (gid n y) * (starRingEnd ℂ) (h (gid n y)) := by
  have e : ∀ c ∈ box n, dft n s f (gid n c) * (starRingEnd ℂ) (dft n s h (gid n c)) =
      ∑ y ∈ box n, (starRingEnd ℂ) (h (gid n y)) * (dft n s f (gid n c) * phase3 n (-s) y c) := by
    intro c hc
    rw [dft_eq n s h, map_sum, Finset.mul_sum]
    apply Finset.sum_congr rfl
    intro y _
    rw [map_mul, phase3_conj, cellOf_gid hn hc, phase3_comm n (-s) c y]
    ring
  rw [Finset.sum_congr rfl e, Finset.sum_comm, Finset.mul_sum]
  apply Finset.sum_congr rfl
  intro y hy
  rw [← Finset.mul_sum]
  have := dft_dft hn hs f (gid_range hy).1 (gid_range hy).2
  rw [dft_eq, cellOf_gid hn hy] at this
  rw [this]
  ring

/-! ### Mirror images -/

theorem root_emod {n : ℤ} (hn : 0 < n) (s a x : ℤ) : root n (s * (a % n * x)) = root n (s * (a * x)) := by
  have h : s * (a * x) = s * (a % n * x) + n * (s * (a / n) * x) := by
    have := Int.mul_ediv_add_emod a n
    calc s * (a * x) = s * ((n * (a / n) + a % n) * x) := by rw [this]
      _ = _ := by ring
  rw [h, root_add, root_period hn, mul_one]

theorem phase3_mirror {n : Fin 3 → ℤ} (hn : ∀ a, 0 < n a) (s : ℤ) (c x : ℤ × ℤ × ℤ) :
    phase3 n s (mirrorCell n c) x = phase3 n (-s) c x := by
  rw [phase3_eq, phase3_eq]
  unfold mirrorCell
  simp only
  rw [root_emod (hn 0), root_emod (hn 1), root_emod (hn 2)]
  congr 1
  · congr 1 <;> (congr 1; ring)
  · congr 1; ring

theorem mirror_mem {n : Fin 3 → ℤ} (hn : ∀ a, 0 < n a) (c : ℤ × ℤ × ℤ) : mirrorCell n c ∈ box n := by
  rw [mem_box]
  unfold mirrorCell
  exact ⟨⟨Int.emod_nonneg _ (hn 0).ne', Int.emod_lt_of_pos _ (hn 0)⟩,
    ⟨Int.emod_nonneg _ (hn 1).ne', Int.emod_lt_of_pos _ (hn 1)⟩,
    ⟨Int.emod_nonneg _ (hn 2).ne', Int.emod_lt_of_pos _ (hn 2)⟩⟩

theorem dft_mirror {n : Fin 3 → ℤ} (hn : ∀ a, 0 < n a) (s : ℤ) (f : ℤ → ℂ)
    (hf : ∀ x ∈ box n, (f (gid n x)).im = 0) {c : ℤ × ℤ × ℤ} (hc : c ∈ box n) :
    dft n s f (gid n (mirrorCell n c)) = (starRingEnd ℂ) (dft n s f (gid n c)) := by
  rw [dft_eq, dft_eq, cellOf_gid hn (mirror_mem hn c), cellOf_gid hn hc, map_sum]
  apply Finset.sum_congr rfl
  intro x hx
  rw [map_mul, phase3_conj, phase3_mirror hn, Complex.conj_eq_iff_im.2 (hf x hx)]

/-! ### Translations -/

/-- A cell moved on the periodic mesh. -/
def moveCell (n d : Fin 3 → ℤ) (c : ℤ × ℤ × ℤ) : ℤ × ℤ × ℤ :=
  ((c.1 + d 0) % n 0, (c.2.1 + d 1) % n 1, (c.2.2 + d 2) % n 2)

theorem move_mem {n : Fin 3 → ℤ} (hn : ∀ a, 0 < n a) (d : Fin 3 → ℤ) (c : ℤ × ℤ × ℤ) :
    moveCell n d c ∈ box n := by
  rw [mem_box]
  unfold moveCell
  exact ⟨⟨Int.emod_nonneg _ (hn 0).ne', Int.emod_lt_of_pos _ (hn 0)⟩,
    ⟨Int.emod_nonneg _ (hn 1).ne', Int.emod_lt_of_pos _ (hn 1)⟩,
    ⟨Int.emod_nonneg _ (hn 2).ne', Int.emod_lt_of_pos _ (hn 2)⟩⟩

theorem move_back {n : Fin 3 → ℤ} (d e : Fin 3 → ℤ) (he : ∀ a, e a = -d a)
    {c : ℤ × ℤ × ℤ} (hc : c ∈ box n) : moveCell n e (moveCell n d c) = c := by
  obtain ⟨⟨a, a'⟩, ⟨b, b'⟩, k, k'⟩ := mem_box.1 hc
  have key : ∀ {N i D : ℤ}, 0 ≤ i → i < N → ((i + D) % N + -D) % N = i := by
    intro N i D h h'
    rw [Int.emod_add_emod, add_neg_cancel_right, Int.emod_eq_of_lt h h']
  unfold moveCell
  simp only [he]
  rw [key a a', key b b', key k k']

theorem phase3_move {n : Fin 3 → ℤ} (hn : ∀ a, 0 < n a) (d : Fin 3 → ℤ) (s : ℤ)
    (c x : ℤ × ℤ × ℤ) :
    phase3 n s c (moveCell n d x) = phase3 n s c (d 0, d 1, d 2) * phase3 n s c x := by
  have r : ∀ {N : ℤ}, 0 < N → ∀ u a b : ℤ, root N (s * (u * ((a + b) % N))) =
      root N (s * (u * b)) * root N (s * (u * a)) := by
    intro N hN u a b
    rw [mul_comm u, root_emod hN, ← root_add]
    congr 1; ring
  rw [phase3_eq, phase3_eq, phase3_eq]
  unfold moveCell
  simp only
  rw [r (hn 0), r (hn 1), r (hn 2)]
  ring

theorem dft_move {n : Fin 3 → ℤ} (hn : ∀ a, 0 < n a) (d : Fin 3 → ℤ) (s : ℤ) (f f' : ℤ → ℂ)
    (h : ∀ x ∈ box n, f' (gid n (moveCell n d x)) = f (gid n x)) (g : ℤ) :
    dft n s f' g = phase3 n s (cellOf n g) (d 0, d 1, d 2) * dft n s f g := by
  rw [dft_eq, dft_eq, Finset.mul_sum]
  refine Finset.sum_nbij' (moveCell n fun a => -d a) (moveCell n d) ?_ ?_ ?_ ?_ ?_
  · intro x _; exact move_mem hn _ x
  · intro x _; exact move_mem hn _ x
  · intro x hx; exact move_back _ _ (fun a => (neg_neg (d a)).symm) hx
  · intro x hx; exact move_back _ _ (fun a => rfl) hx
  · intro x hx
    have hb : moveCell n d (moveCell n (fun a => -d a) x) = x :=
      move_back _ _ (fun a => (neg_neg (d a)).symm) hx
    rw [← h _ (move_mem hn _ x), hb]
    have := phase3_move hn d s (cellOf n g) (moveCell n (fun a => -d a) x)
    rw [hb] at this
    rw [this]
    ring

theorem phase3_mul_conj (n : Fin 3 → ℤ) (s : ℤ) (c x : ℤ × ℤ × ℤ) :
    phase3 n s c x * (starRingEnd ℂ) (phase3 n s c x) = 1 := by
  rw [phase3_conj, phase3_eq, phase3_eq]
  have r : ∀ N a : ℤ, root N (s * a) * root N (-s * a) = 1 := by
    intro N a
    rw [← root_add, neg_mul, add_neg_cancel, root_zero]
  calc _ = root (n 0) (s * (c.1 * x.1)) * root (n 0) (-s * (c.1 * x.1)) *
        (root (n 1) (s * (c.2.1 * x.2.1)) * root (n 1) (-s * (c.2.1 * x.2.1))) *
        (root (n 2) (s * (c.2.2 * x.2.2)) * root (n 2) (-s * (c.2.2 * x.2.2))) := by ring
    _ = 1 := by rw [r, r, r]; ring

/-- The companion field is moved with the particles away from the faulty region (`C07`). -/
theorem assignShifted_move (sch : Scheme) (M : Mesh ℝ) (hM : M.Valid)
    (ps ps' : List (Particle ℝ)) (d : Fin 3 → ℤ)
    (hps : ∀ p ∈ ps, InBox M p) (hps' : ∀ p ∈ ps', InBox M p)
    (hg : ∀ p ∈ ps, ∀ ax, ¬ BadShift sch (M.n ax) (M.L ax) (p.pos ax))
    (hg' : ∀ p ∈ ps', ∀ ax, ¬ BadShift sch (M.n ax) (M.L ax) (p.pos ax))
    (hmove : List.Forall₂ (fun p p' => p'.w = p.w ∧ ∀ ax, ∃ m : ℤ,
      p'.pos ax = p.pos ax + d ax * (M.L ax / M.n ax) + m * M.L ax) ps ps')
    (i j k : ℤ) (h : InMesh M i j k) (c : Bool) :
    assignShifted sch M ps'
        (gridIndex M.n ((i + d 0) % M.n 0) ((j + d 1) % M.n 1) ((k + d 2) % M.n 2)) c
      = assignShifted sch M ps (gridIndex M.n i j k) c := by
  have hn := fun ax => (hM ax).1
  have hin : InMesh M ((i + d 0) % M.n 0) ((j + d 1) % M.n 1) ((k + d 2) % M.n 2) :=
    ⟨⟨Int.emod_nonneg _ (hn 0).ne', Int.emod_lt_of_pos _ (hn 0)⟩,
     ⟨Int.emod_nonneg _ (hn 1).ne', Int.emod_lt_of_pos _ (hn 1)⟩,
     ⟨Int.emod_nonneg _ (hn 2).ne', Int.emod_lt_of_pos _ (hn 2)⟩⟩
  rw [(C07_interlaced_conserves_partial sch M hM ps' hps' hg' c).2 _ _ _ hin,
    (C07_interlaced_conserves_partial sch M hM ps hps hg c).2 _ _ _ h]
  clear hps hps' hg hg'
  induction hmove with
  | nil => rfl
  | @cons p p' ps ps' hpp _ ih =>
    obtain ⟨hw, hpos⟩ := hpp
    rw [List.map_cons, List.map_cons, List.sum_cons, List.sum_cons, ih]
    congr 1
    have key : ∀ ax (i : ℤ),
        deposit sch (M.n ax) (M.n ax * p'.pos ax / M.L ax + 1 / 2) ((i + d ax) % M.n ax) =
        deposit sch (M.n ax) (M.n ax * p.pos ax / M.L ax + 1 / 2) i := by
      intro ax i
      obtain ⟨m, hm⟩ := hpos ax
      have hL := (hM ax).2.ne'
      have hnK : (M.n ax : ℝ) ≠ 0 := by exact_mod_cast (hn ax).ne'
      have e : (M.n ax : ℝ) * p'.pos ax / M.L ax + 1 / 2
          = M.n ax * p.pos ax / M.L ax + 1 / 2 + (d ax : ℝ) + ((m * M.n ax : ℤ) : ℝ) := by
        rw [hm]; push_cast; field_simp; ring
      rw [e, deposit_loc_period, deposit_emod, deposit_shift]
    rw [key 0 i, key 1 j, key 2 k, hw]

end Trv.Two

import Verif.Spec.Layout
import Mathlib.Data.List.Nodup
import Mathlib.Tactic.Linarith
import Mathlib.Tactic.Ring
import Mathlib.Tactic.Positivity
/-
Helper lemmas for the three-point layout.
-/
namespace Trv.ThreePt

theorem mem_upto {a b i : ℤ} : i ∈ upto a b ↔ a ≤ i ∧ i < b := by
  unfold upto
  simp only [List.mem_map, List.mem_range]
  constructor
  · rintro ⟨t, ht, rfl⟩; omega
  · intro h; exact ⟨(i - a).toNat, by omega, by omega⟩

theorem pairwise_upto (a b : ℤ) : (upto a b).Pairwise (· < ·) := by
  unfold upto
  rw [List.pairwise_map]
  exact List.pairwise_lt_range.imp (by intro x y h; omega)

theorem nodup_upto (a b : ℤ) : (upto a b).Nodup :=
  (pairwise_upto a b).imp (fun h => ne_of_lt h)

theorem length_upto (a b : ℤ) : (upto a b).length = (b - a).toNat := by simp [upto]

theorem upto_self (a : ℤ) : upto a a = [] := by simp [upto]

theorem upto_append {a b c : ℤ} (h1 : a ≤ b) (h2 : b ≤ c) : upto a b ++ upto b c = upto a c := by
  unfold upto
  obtain ⟨x, hx⟩ : ∃ x : ℕ, b = a + x := ⟨(b - a).toNat, by omega⟩
  obtain ⟨y, hy⟩ : ∃ y : ℕ, c = b + y := ⟨(c - b).toNat, by omega⟩
  subst hy; subst hx
  have e1 : (a + (x : ℤ) - a).toNat = x := by omega
  have e2 : (a + (x : ℤ) + y - (a + x)).toNat = y := by omega
  have e3 : (a + (x : ℤ) + y - a).toNat = x + y := by omega
  rw [e1, e2, e3, List.range_add, List.map_append, List.map_map]
  congr 1
  apply List.map_congr_left
  intro t _; simp only [Function.comp]; push_cast; ring

theorem upto_succ_right {a b : ℤ} (h : a ≤ b) : upto a (b + 1) = upto a b ++ [b] := by
  rw [← upto_append h (by omega : b ≤ b + 1)]
  congr 1
  unfold upto
  have : (b + 1 - b).toNat = 1 := by omega
  rw [this]; simp

theorem upto_shift (a b d : ℤ) : (upto a b).map (fun i => i + d) = upto (a + d) (b + d) := by
  unfold upto
  rw [List.map_map]
  have : (b + d - (a + d)).toNat = (b - a).toNat := by congr 1; ring
  rw [this]
  apply List.map_congr_left
  intro t _; simp only [Function.comp]; ring

/-- Consecutive blocks of positions make up one range. -/
theorem flatMap_upto_blocks (n : ℤ) (hn : 0 ≤ n) (f : ℤ → ℤ)
    (hf : ∀ r, 0 ≤ r → r < n → f r ≤ f (r + 1)) :
    (upto 0 n).flatMap (fun r => upto (f r) (f (r + 1))) = upto (f 0) (f n) := by
  obtain ⟨m, rfl⟩ : ∃ m : ℕ, n = m := ⟨n.toNat, by omega⟩
  have key : ∀ k : ℕ, k ≤ m → f 0 ≤ f k ∧
      (upto 0 (k : ℤ)).flatMap (fun r => upto (f r) (f (r + 1))) = upto (f 0) (f k) := by
    intro k
    induction k with
    | zero => intro _; simp [upto_self]
    | succ k ih =>
      intro hk
      obtain ⟨h1, h2⟩ := ih (by omega)
      have h3 := hf k (by omega) (by omega)
      refine ⟨by push_cast; omega, ?_⟩
      have : ((k + 1 : ℕ) : ℤ) = (k : ℤ) + 1 := by push_cast; ring
      rw [this, upto_succ_right (by omega), List.flatMap_append, h2]
      simp only [List.flatMap_cons, List.flatMap_nil, List.append_nil]
      exact upto_append h1 h3
  exact (key m le_rfl).2

/-- Offset of a row in the upper-triangular form, without division. -/
theorem two_dvd_tri (n r : ℤ) : (2 : ℤ) ∣ (2 * n - r + 1) * r := by
  have h : Even ((r - 1) * r) := by
    have := Int.even_mul_succ_self (r - 1)
    simpa using this
  obtain ⟨k, hk⟩ := h
  exact ⟨n * r - k, by linarith [hk, (by ring : (2 * n - r + 1) * r = 2 * (n * r) - (r - 1) * r)]⟩

theorem tdiv_two_tri (n r : ℤ) : 2 * Int.tdiv ((2 * n - r + 1) * r) 2 = (2 * n - r + 1) * r :=
  Int.mul_tdiv_cancel' (two_dvd_tri n r)

theorem triu_offset_succ (n r : ℤ) :
    Int.tdiv ((2 * n - (r + 1) + 1) * (r + 1)) 2 = Int.tdiv ((2 * n - r + 1) * r) 2 + (n - r) := by
  have h1 := tdiv_two_tri n r
  have h2 := tdiv_two_tri n (r + 1)
  have : 2 * Int.tdiv ((2 * n - (r + 1) + 1) * (r + 1)) 2
      = 2 * (Int.tdiv ((2 * n - r + 1) * r) 2 + (n - r)) := by
    rw [h2, mul_add 2 _ (n - r), h1]; ring
  omega

theorem two_dim_triu (n : ℤ) : 2 * dim n .triu = n * (n + 1) := by
  unfold dim
  apply Int.mul_tdiv_cancel'
  exact (Int.even_mul_succ_self n).two_dvd

theorem dim_triu_eq (n : ℤ) : Int.tdiv ((2 * n - n + 1) * n) 2 = dim n .triu := by
  unfold dim; congr 1; ring

theorem abs_nonneg' (k : ℤ) : 0 ≤ |k| := abs_nonneg k

/-- Positions are written in order, each once. -/
theorem measWrites_pos (n : ℤ) (hn : 0 ≤ n) (f : Form) :
    (measWrites n f).map Entry.pos = upto 0 (dim n f) := by
  cases f with
  | diag => simp [measWrites, Function.comp_def]
  | row b => simp [measWrites, Function.comp_def]
  | offDiag k =>
    unfold measWrites
    rw [List.map_map]
    conv_rhs => rw [← List.map_id (upto 0 (dim n (.offDiag k)))]
    apply List.map_congr_left
    intro i _
    simp only [Function.comp]
    split_ifs <;> rfl
  | full =>
    unfold measWrites
    rw [List.map_flatMap]
    have h1 : ∀ r : ℤ, ((upto 0 n).map fun c => (⟨r, c, r * n + c⟩ : Entry)).map Entry.pos
        = upto (r * n) ((r + 1) * n) := by
      intro r
      rw [List.map_map]
      have := upto_shift 0 n (r * n)
      have e : n + r * n = (r + 1) * n := by ring
      rw [zero_add, e] at this
      rw [← this]
      apply List.map_congr_left
      intro c _; simp only [Function.comp]; ring
    simp only [h1]
    have := flatMap_upto_blocks n hn (fun r => r * n) (by intro r _ _; nlinarith)
    simpa [dim] using this
  | triu =>
    unfold measWrites
    rw [List.map_flatMap]
    have h1 : ∀ r : ℤ, ((upto r n).map fun c => (⟨r, c, triuIdx n r c⟩ : Entry)).map Entry.pos
        = upto (Int.tdiv ((2 * n - r + 1) * r) 2) (Int.tdiv ((2 * n - (r + 1) + 1) * (r + 1)) 2) := by
      intro r
      rw [List.map_map]
      have := upto_shift r n (Int.tdiv ((2 * n - r + 1) * r) 2 - r)
      rw [triu_offset_succ]
      have e1 : r + (Int.tdiv ((2 * n - r + 1) * r) 2 - r) = Int.tdiv ((2 * n - r + 1) * r) 2 := by ring
      have e2 : n + (Int.tdiv ((2 * n - r + 1) * r) 2 - r)
          = Int.tdiv ((2 * n - r + 1) * r) 2 + (n - r) := by ring
      rw [e1, e2] at this
      rw [← this]
      apply List.map_congr_left
      intro c _; simp only [Function.comp, triuIdx]; ring
    simp only [h1]
    have := flatMap_upto_blocks n hn (fun r => Int.tdiv ((2 * n - r + 1) * r) 2)
      (by intro r h0 h; rw [triu_offset_succ]; omega)
    rw [this, dim_triu_eq]; simp

theorem mem_measWrites_pairs (n : ℤ) (f : Form) (r c : ℤ) :
    (∃ p, (⟨r, c, p⟩ : Entry) ∈ measWrites n f) ↔ InForm n f r c := by
  cases f with
  | diag =>
    simp only [measWrites, List.mem_map, mem_upto, InForm, dim, Entry.mk.injEq]
    constructor
    · rintro ⟨p, i, hi, rfl, h, _⟩; omega
    · intro h; exact ⟨r, r, by omega, rfl, by omega, rfl⟩
  | row b =>
    simp only [measWrites, List.mem_map, mem_upto, InForm, dim, Entry.mk.injEq]
    constructor
    · rintro ⟨p, i, hi, h1, h2, _⟩; omega
    · intro h; exact ⟨c, c, by omega, by omega, rfl, rfl⟩
  | offDiag k =>
    simp only [measWrites, List.mem_map, mem_upto, InForm, dim]
    constructor
    · rintro ⟨p, i, hi, h⟩
      by_cases hk : k ≥ 0
      · rw [if_pos hk] at h; rw [abs_of_nonneg hk] at h hi
        simp only [Entry.mk.injEq] at h; omega
      · rw [if_neg hk] at h; rw [abs_of_neg (by omega)] at h hi
        simp only [Entry.mk.injEq] at h; omega
    · intro h
      by_cases hk : k ≥ 0
      · refine ⟨r, r, ?_, ?_⟩
        · rw [abs_of_nonneg hk]; omega
        · rw [if_pos hk, abs_of_nonneg hk]; simp only [Entry.mk.injEq, true_and, and_true]; omega
      · refine ⟨c, c, ?_, ?_⟩
        · rw [abs_of_neg (by omega)]; omega
        · rw [if_neg hk, abs_of_neg (by omega)]; simp only [Entry.mk.injEq, and_true]; omega
  | full =>
    simp only [measWrites, List.mem_flatMap, List.mem_map, mem_upto, InForm, Entry.mk.injEq]
    constructor
    · rintro ⟨p, a, ha, b, hb, h1, h2, _⟩; omega
    · intro h; exact ⟨_, r, by omega, c, by omega, rfl, rfl, rfl⟩
  | triu =>
    simp only [measWrites, List.mem_flatMap, List.mem_map, mem_upto, InForm, Entry.mk.injEq]
    constructor
    · rintro ⟨p, a, ha, b, hb, h1, h2, _⟩; omega
    · intro h; exact ⟨_, r, by omega, c, by omega, rfl, rfl, rfl⟩

theorem pairwise_map_upto {β : Type} (R : β → β → Prop) (g : ℤ → β) (a b : ℤ)
    (h : ∀ i j, i < j → R (g i) (g j)) : ((upto a b).map g).Pairwise R := by
  rw [List.pairwise_map]
  exact (pairwise_upto a b).imp (fun {i j} hij => h i j hij)

theorem pairwise_flatMap_upto {β : Type} (R : β → β → Prop) (g : ℤ → List β) (a b : ℤ)
    (h1 : ∀ i, (g i).Pairwise R) (h2 : ∀ i j, i < j → ∀ x ∈ g i, ∀ y ∈ g j, R x y) :
    ((upto a b).flatMap g).Pairwise R := by
  rw [List.pairwise_flatMap]
  refine ⟨fun i _ => h1 i, ?_⟩
  exact (pairwise_upto a b).imp (fun {i j} hij => h2 i j hij)

theorem measWrites_rowMajor (n : ℤ) (f : Form) :
    (measWrites n f).Pairwise fun x y => RowMajor (x.row, x.col) (y.row, y.col) := by
  cases f with
  | diag => exact pairwise_map_upto _ _ _ _ (fun i j h => Or.inl h)
  | row b => exact pairwise_map_upto _ _ _ _ (fun i j h => Or.inr ⟨rfl, h⟩)
  | offDiag k =>
    apply pairwise_map_upto
    intro i j h
    by_cases hk : k ≥ 0
    · rw [if_pos hk, if_pos hk]; exact Or.inl h
    · rw [if_neg hk, if_neg hk]; left; show i + |k| < j + |k|; omega
  | full =>
    apply pairwise_flatMap_upto
    · intro i; exact pairwise_map_upto _ _ _ _ (fun i j h => Or.inr ⟨rfl, h⟩)
    · intro i j hij x hx y hy
      simp only [List.mem_map] at hx hy
      obtain ⟨_, _, rfl⟩ := hx; obtain ⟨_, _, rfl⟩ := hy
      exact Or.inl hij
  | triu =>
    apply pairwise_flatMap_upto
    · intro i; exact pairwise_map_upto _ _ _ _ (fun i j h => Or.inr ⟨rfl, h⟩)
    · intro i j hij x hx y hy
      simp only [List.mem_map] at hx hy
      obtain ⟨_, _, rfl⟩ := hx; obtain ⟨_, _, rfl⟩ := hy
      exact Or.inl hij

theorem measWrites_nodup (n : ℤ) (f : Form) : (measWrites n f).Nodup := by
  refine (measWrites_rowMajor n f).imp ?_
  rintro a b h rfl
  simp [RowMajor] at h

/-- The row-side loops read the row bin of each entry and write its position. -/
theorem noiseWritesRow_eq (n : ℤ) (f : Form) :
    noiseWritesRow n f = (measWrites n f).map fun e => (e.row, e.pos) := by
  cases f with
  | diag => simp [noiseWritesRow, measWrites, Function.comp_def]
  | row b => simp [noiseWritesRow, measWrites, Function.comp_def]
  | offDiag k =>
    simp only [noiseWritesRow, measWrites, List.map_map]
    apply List.map_congr_left
    intro i _
    simp only [Function.comp]
    split_ifs <;> rfl
  | full => simp [noiseWritesRow, measWrites, List.map_flatMap, Function.comp_def]
  | triu => simp [noiseWritesRow, measWrites, List.map_flatMap, Function.comp_def]

theorem noiseWritesCol_perm (n : ℤ) (f : Form) (hf : f ≠ .full) :
    (noiseWritesCol n f).Perm ((measWrites n f).map fun e => (e.col, e.pos)) := by
  cases f with
  | diag => simp [noiseWritesCol, measWrites, Function.comp_def]
  | row b => simp [noiseWritesCol, measWrites, Function.comp_def]
  | offDiag k =>
    simp only [noiseWritesCol, measWrites, List.map_map]
    apply List.Perm.of_eq
    apply List.map_congr_left
    intro i _
    simp only [Function.comp]
    split_ifs with hk
    · rw [abs_of_nonneg hk]
    · rfl
  | full => exact absurd rfl hf
  | triu =>
    have hswap : (((upto 0 n).flatMap fun c => (upto 0 (c + 1)).map fun r => (r, c))).Perm
        ((upto 0 n).flatMap fun r => (upto r n).map fun c => (r, c)) := by
      rw [List.perm_ext_iff_of_nodup]
      · rintro ⟨r, c⟩
        simp only [List.mem_flatMap, List.mem_map, mem_upto, Prod.mk.injEq]
        constructor
        · rintro ⟨c', h1, r', h2, rfl, rfl⟩; exact ⟨r', by omega, c', by omega, rfl, rfl⟩
        · rintro ⟨r', h1, c', h2, rfl, rfl⟩; exact ⟨c', by omega, r', by omega, rfl, rfl⟩
      · apply pairwise_flatMap_upto
        · intro i; apply pairwise_map_upto; intro a b h e; simp at e; omega
        · intro i j hij x hx y hy e
          simp only [List.mem_map] at hx hy
          obtain ⟨_, _, rfl⟩ := hx; obtain ⟨_, _, rfl⟩ := hy
          simp at e; omega
      · apply pairwise_flatMap_upto
        · intro i; apply pairwise_map_upto; intro a b h e; simp at e; omega
        · intro i j hij x hx y hy e
          simp only [List.mem_map] at hx hy
          obtain ⟨_, _, rfl⟩ := hx; obtain ⟨_, _, rfl⟩ := hy
          simp at e; omega
    have := hswap.map (fun rc : ℤ × ℤ => (rc.2, triuIdx n rc.1 rc.2))
    simpa [noiseWritesCol, measWrites, List.map_flatMap, Function.comp_def] using this

end Trv.ThreePt

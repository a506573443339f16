import Verif.Lemmas.Layout
import Mathlib.Data.List.Zip
import Mathlib.Tactic.FieldSimp
/-
Helper lemmas for `reshape_threept_datatab`.
-/
namespace Trv.ThreePt

theorem setAll_of_not_mem {α : Type} (M : ℕ → ℕ → α) (ws : List ((ℕ × ℕ) × α)) (r c : ℕ)
    (h : ∀ v, ((r, c), v) ∉ ws) : setAll M ws r c = M r c := by
  induction ws generalizing M with
  | nil => rfl
  | cons w ws ih =>
    obtain ⟨⟨a, b⟩, v⟩ := w
    have h0 : ¬ (r = a ∧ c = b) := by
      rintro ⟨rfl, rfl⟩; exact h v (by simp)
    show setAll _ ws r c = _
    rw [ih _ (fun v' hv' => h v' (List.mem_cons_of_mem _ hv'))]
    simp [h0]

theorem setAll_of_mem {α : Type} (M : ℕ → ℕ → α) (ws : List ((ℕ × ℕ) × α)) (r c : ℕ) (v : α)
    (hnd : (ws.map Prod.fst).Nodup) (h : ((r, c), v) ∈ ws) : setAll M ws r c = v := by
  induction ws generalizing M with
  | nil => simp at h
  | cons w ws ih =>
    rw [List.map_cons, List.nodup_cons] at hnd
    show setAll _ ws r c = _
    rcases List.mem_cons.1 h with h | h
    · subst h
      rw [setAll_of_not_mem]
      · simp
      · intro v' hv'; exact hnd.1 (List.mem_map.2 ⟨_, hv', rfl⟩)
    · exact ih _ hnd.2 h

theorem mem_triuIndices (n r c : ℕ) : (r, c) ∈ triuIndices n ↔ r ≤ c ∧ c < n := by
  simp only [triuIndices, List.mem_flatMap, List.mem_range, List.mem_map, List.mem_range'_1,
    Prod.mk.injEq]
  constructor
  · rintro ⟨a, ha, b, hb, rfl, rfl⟩; omega
  · intro h; exact ⟨r, by omega, c, by omega, rfl, rfl⟩

theorem upto_zero_cast (n : ℕ) : upto 0 (n : ℤ) = (List.range n).map fun t : ℕ => (t : ℤ) := by
  unfold upto
  have : ((n : ℤ) - 0).toNat = n := by omega
  rw [this]; simp

theorem upto_cast (r n : ℕ) :
    upto (r : ℤ) (n : ℤ) = (List.range' r (n - r)).map fun t : ℕ => (t : ℤ) := by
  unfold upto
  have : ((n : ℤ) - r).toNat = n - r := by omega
  rw [this, List.range'_eq_map_range, List.map_map]
  apply List.map_congr_left; intro t _; simp [Function.comp]

theorem measWrites_triu_eq (n : ℕ) : measWrites n .triu =
    (triuIndices n).map fun p => ⟨(p.1 : ℤ), (p.2 : ℤ), triuIdx n p.1 p.2⟩ := by
  simp only [measWrites, triuIndices, upto_zero_cast, List.map_flatMap, List.flatMap_map, List.map_map]
  congr 1; funext r
  rw [upto_cast, List.map_map]; rfl

theorem nodup_triuIndices (n : ℕ) : (triuIndices n).Nodup := by
  have h := measWrites_nodup n .triu
  rw [measWrites_triu_eq] at h
  exact List.Nodup.of_map _ h

theorem length_triuIndices (n : ℕ) : 2 * (triuIndices n).length = n * (n + 1) := by
  have h := congrArg List.length (measWrites_pos n (by omega) .triu)
  rw [measWrites_triu_eq, List.length_map, List.length_map, length_upto] at h
  have h2 := two_dim_triu n
  have h3 : 0 ≤ dim (n : ℤ) .triu := by nlinarith [h2]
  zify
  rw [h, Int.toNat_of_nonneg (by omega), sub_zero, h2]

theorem triuIdx_at (n i : ℕ) (r c : ℕ) (h : (triuIndices n)[i]? = some (r, c)) :
    triuIdx n r c = i := by
  have hp := measWrites_pos n (by omega) .triu
  rw [measWrites_triu_eq, List.map_map] at hp
  have := congrArg (fun l => l[i]?) hp
  simp only [List.getElem?_map, h, Option.map_some, Function.comp] at this
  unfold upto at this
  rw [List.getElem?_map] at this
  by_cases hi : i < (dim (n : ℤ) .triu - 0).toNat
  · rw [List.getElem?_range hi] at this
    simp at this; simpa using this
  · rw [List.getElem?_eq_none (by simpa using hi)] at this
    simp at this

theorem sqrt_triangular (n L : ℕ) (h : 2 * L = n * (n + 1)) :
    (Real.sqrt (8 * (L : ℝ) + 1) - 1) / 2 = n := by
  have hL : (2 : ℝ) * L = n * (n + 1) := by exact_mod_cast h
  have : (8 : ℝ) * L + 1 = (2 * n + 1) ^ 2 := by nlinarith [hL]
  rw [this, Real.sqrt_sq (by positivity)]; ring

theorem sqrt_square (n L : ℕ) (h : L = n * n) : Real.sqrt (L : ℝ) = n := by
  subst h; push_cast; exact Real.sqrt_mul_self (by positivity)

theorem isClose_self (x : ℝ) : IsClose x x := by
  unfold IsClose; rw [sub_self, abs_zero]; positivity

end Trv.ThreePt

import Verif.Model.WinBuild
import Verif.Lemmas.WinSelect
import Mathlib.Analysis.SpecialFunctions.Log.Basic
import Mathlib.Analysis.Complex.ExponentialBounds
import Mathlib.Tactic.FieldSimp
/-
Lemmas on the construction of a three-point window.
-/
namespace Trv.Wc

open Trv

theorem dictOf_nodup {κ α : Type} [DecidableEq κ] (d : List (κ × α)) (h : (d.map Prod.fst).Nodup) :
    dictOf d = d := by
  have key : ∀ (d D : List (κ × α)), ((D ++ d).map Prod.fst).Nodup →
      d.foldl (fun d p => dictSet d p.1 p.2) D = D ++ d := by
    intro d
    induction d with
    | nil => intro D _; simp
    | cons p d ih =>
      intro D hD
      rw [List.foldl_cons]
      have hp : dictSet D p.1 p.2 = D ++ [p] := by
        unfold dictSet
        rw [if_neg]
        intro he
        rw [List.any_eq_true] at he
        obtain ⟨q, hq, hqp⟩ := he
        rw [decide_eq_true_iff] at hqp
        rw [List.map_append, List.nodup_append] at hD
        exact hD.2.2 q.1 (List.mem_map_of_mem hq) p.1 (by simp) hqp
      rw [hp, ih (D ++ [p]) (by simpa using hD)]
      simp
  simpa [dictOf] using key d [] (by simpa using h)

theorem traverse_mem {ε α β : Type} {f : α → Except ε β} : ∀ {l : List α} {r : List β},
    traverse f l = .ok r → ∀ a ∈ l, ∃ b ∈ r, f a = .ok b
  | [], _, _ => by simp
  | a :: l, r, h => by
    unfold traverse at h
    cases hf : f a with
    | error e => simp [hf] at h
    | ok b =>
      rw [hf] at h
      simp only at h
      cases ht : traverse f l with
      | error e => simp [ht] at h
      | ok bs =>
        rw [ht] at h
        simp only [Except.ok.injEq] at h
        subst h
        intro c hc
        rcases List.mem_cons.1 hc with rfl | hc
        · exact ⟨b, by simp, hf⟩
        · obtain ⟨d, hd, he⟩ := traverse_mem ht c hc
          exact ⟨d, by simp [hd], he⟩

theorem traverse_fst {ε α β γ : Type} {f : α → Except ε β} (g : β → γ) (k : α → γ)
    (h : ∀ a b, f a = .ok b → g b = k a) : ∀ {l : List α} {r : List β},
    traverse f l = .ok r → r.map g = l.map k
  | [], r, ht => by
    simp [traverse] at ht
    simp [← ht]
  | a :: l, r, ht => by
    unfold traverse at ht
    cases hf : f a with
    | error e => simp [hf] at ht
    | ok b =>
      rw [hf] at ht
      simp only at ht
      cases hl : traverse f l with
      | error e => simp [hl] at ht
      | ok bs =>
        rw [hl] at ht
        simp only [Except.ok.injEq] at ht
        subst ht
        rw [List.map_cons, List.map_cons, h a b hf, traverse_fst g k h hl]

theorem traverse_total' {ε α β : Type} {f : α → Except ε β} : ∀ (l : List α), (∀ a ∈ l, ∃ b, f a = .ok b) →
    ∃ r, traverse f l = .ok r
  | [], _ => ⟨[], rfl⟩
  | a :: l, h => by
    obtain ⟨b, hb⟩ := h a (by simp)
    obtain ⟨r, hr⟩ := traverse_total' l fun c hc => h c (by simp [hc])
    exact ⟨b :: r, by simp [traverse, hb, hr]⟩

theorem allAdj_of_pairwise : ∀ {x : List ℝ}, x.Pairwise (· < ·) → Arr.allAdj (fun u v => u < v) x = true
  | [], _ => rfl
  | [_], _ => rfl
  | a :: b :: l, h => by
    have h' := List.pairwise_cons.1 h
    simp only [Arr.allAdj, Bool.and_eq_true, decide_eq_true_iff]
    exact ⟨h'.1 b (by simp), allAdj_of_pairwise h'.2⟩

theorem insertM_perm' (x : Multipole) : ∀ (l s : List Multipole), insertM x l = .ok s → s.Perm (x :: l)
  | [], s, h => by
    simp [insertM] at h
    simp [← h]
  | y :: l, s, h => by
    unfold insertM at h
    cases hy : y.lt x with
    | error e => simp [hy] at h
    | ok b =>
      rw [hy] at h
      cases b with
      | false =>
        simp only [Except.ok.injEq] at h
        simp [← h]
      | true =>
        simp only at h
        cases hi : insertM x l with
        | error e => simp [hi] at h
        | ok s' =>
          rw [hi] at h
          simp only [Except.ok.injEq] at h
          subst h
          exact ((insertM_perm' x l s' hi).cons y).trans (List.Perm.swap x y l)

theorem sortM_perm' : ∀ (l s : List Multipole), sortM l = .ok s → s.Perm l
  | [], s, h => by
    simp [sortM] at h
    simp [← h]
  | x :: l, s, h => by
    unfold sortM at h
    cases hs : sortM l with
    | error e => simp [hs] at h
    | ok s' =>
      rw [hs] at h
      exact (insertM_perm' x s' s h).trans ((sortM_perm' l s' hs).cons x)

/-! ### Logarithmic spacing -/

theorem length_logspace (a b : ℝ) (n : ℕ) : (logspace a b n).length = n := by simp [logspace]

theorem logspace_get {a b : ℝ} {n i : ℕ} (hn : 2 ≤ n) (hi : i < n) : (logspace a b n)[i]? =
    some (Real.exp (Real.log a + (Real.log b - Real.log a) * ((i : ℝ) / ((n : ℝ) - 1)))) := by
  unfold logspace
  rw [List.getElem?_map, List.getElem?_range hi]
  simp only [Option.map_some]
  rw [if_neg (by omega)]

theorem logspace_first {a b : ℝ} {n : ℕ} (ha : 0 < a) (hn : 2 ≤ n) : (logspace a b n)[0]? = some a := by
  rw [logspace_get hn (by omega)]
  simp [Real.exp_log ha]

theorem logspace_last {a b : ℝ} {n : ℕ} (hb : 0 < b) (hn : 2 ≤ n) : (logspace a b n)[n - 1]? = some b := by
  rw [logspace_get hn (by omega)]
  have h : ((n - 1 : ℕ) : ℝ) = (n : ℝ) - 1 := by rw [Nat.cast_sub (by omega)]; simp
  have h0 : (n : ℝ) - 1 ≠ 0 := by
    have : (2 : ℝ) ≤ n := by exact_mod_cast hn
    intro h
    linarith
  rw [h, div_self h0]
  simp [Real.exp_log hb]

theorem logspace_one (a b : ℝ) : logspace a b 1 = [a] := by simp [logspace]

theorem logDiffs_exp (c s : ℝ) : ∀ (m k : ℕ), Fft.logDiffs ((List.range' k (m + 1)).map fun i : ℕ =>
    Real.exp (c + s * i)) = some (List.replicate m s)
  | 0, k => by simp [Fft.logDiffs]
  | m + 1, k => by
    have ih := logDiffs_exp c s m (k + 1)
    rw [List.range'_succ] at ih ⊢
    rw [List.range'_succ]
    simp only [List.map_cons, Nat.mul_one] at ih ⊢
    unfold Fft.logDiffs
    have hr : Real.exp (c + s * ((k + 1 : ℕ) : ℝ)) / Real.exp (c + s * (k : ℝ)) = Real.exp s := by
      rw [← Real.exp_sub]
      congr 1
      push_cast
      ring
    rw [if_neg (by
      rw [hr]
      rintro (h | h)
      · exact (Real.exp_pos _).ne' h
      · exact absurd h (not_le.2 (Real.exp_pos _))), hr, Real.log_exp, ih]
    rfl

theorem logDiffs_logspace {a b : ℝ} {n : ℕ} (hn : 2 ≤ n) : Fft.logDiffs (logspace a b n) =
    some (List.replicate (n - 1) ((Real.log b - Real.log a) / ((n : ℝ) - 1))) := by
  obtain ⟨m, rfl⟩ : ∃ m, n = m + 1 := ⟨n - 1, by omega⟩
  have : logspace a b (m + 1) = (List.range' 0 (m + 1)).map fun i : ℕ =>
      Real.exp (Real.log a + (Real.log b - Real.log a) / (((m + 1 : ℕ) : ℝ) - 1) * i) := by
    unfold logspace
    rw [List.range_eq_range']
    refine List.map_congr_left fun i _ => ?_
    rw [if_neg (by omega)]
    congr 2
    ring
  rw [this, logDiffs_exp]
  simp

theorem mean_replicate (m : ℕ) (s : ℝ) (hm : m ≠ 0) : Arr.mean (List.replicate m s) = s := by
  unfold Arr.mean
  have : (m : ℝ) ≠ 0 := by exact_mod_cast hm
  simp only [List.sum_replicate, List.length_replicate, nsmul_eq_mul]
  field_simp

theorem front2_some {a : List ℝ} (h : 2 ≤ a.length) : Arr.front2 a = some (a[0]'(by omega), a[1]'(by omega)) := by
  match a, h with
  | x :: y :: l, _ => rfl

theorem checkLoglin_logspace {a b : ℝ} {n : ℕ} (hn : 2 ≤ n) : checkLoglin (logspace a b n) = .ok := by
  have hl := length_logspace a b n
  have hpos : ∀ x ∈ logspace a b n, 0 < x := by
    intro x hx
    unfold logspace at hx
    obtain ⟨i, _, rfl⟩ := List.mem_map.1 hx
    rw [if_neg (by omega)]
    exact Real.exp_pos _
  unfold checkLoglin
  rw [if_neg (by omega), front2_some (by omega)]
  unfold Arr.back2
  rw [front2_some (by simp; omega)]
  simp only
  rw [if_neg (by
    rw [not_not]
    refine ⟨mul_pos (hpos _ (List.getElem_mem _)) (hpos _ (List.getElem_mem _)), mul_pos ?_ ?_⟩
    · exact hpos _ (List.mem_reverse.1 (List.getElem_mem _))
    · exact hpos _ (List.mem_reverse.1 (List.getElem_mem _)))]
  rw [logDiffs_logspace hn]
  simp only
  rw [if_pos]
  intro e he
  rw [mean_replicate _ _ (by omega), (List.mem_replicate.1 he).2]
  simp only [sub_self, abs_zero]
  positivity

end Trv.Wc

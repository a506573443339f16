import Verif.Model.WinMat
import Verif.Lemmas.MpiTools
import Verif.Props.WinLinear
import Mathlib.Tactic.Ring
import Mathlib.Tactic.Linarith
/-
Helper lemmas for C03.
-/
namespace Trv.Wc

open Trv

/-! ### The allocation in closed form -/

theorem div_step (n p r : ℕ) (hr : r < p) : (n - n / (p + 1) + r) / p = (n + (r + 1)) / (p + 1) := by
  obtain ⟨q, s, hs, rfl⟩ : ∃ q s, s < p + 1 ∧ n = (p + 1) * q + s :=
    ⟨n / (p + 1), n % (p + 1), Nat.mod_lt _ (by omega), (Nat.div_add_mod _ _).symm⟩
  have hq : ((p + 1) * q + s) / (p + 1) = q := by
    rw [Nat.mul_add_div (by omega), Nat.div_eq_of_lt hs, Nat.add_zero]
  rw [hq]
  have e1 : (p + 1) * q + s - q + r = p * q + (s + r) := by
    have : (p + 1) * q = p * q + q := by ring
    omega
  have e2 : (p + 1) * q + s + (r + 1) = (p + 1) * q + (s + (r + 1)) := by ring
  rw [e1, e2, Nat.mul_add_div (by omega), Nat.mul_add_div (by omega)]
  congr 1
  by_cases h : s + r < p
  · rw [Nat.div_eq_of_lt h, Nat.div_eq_of_lt (by omega)]
  · have a1 : (s + r) / p = 1 := Nat.div_eq_of_lt_le (by omega) (by omega)
    have a2 : (s + (r + 1)) / (p + 1) = 1 := Nat.div_eq_of_lt_le (by omega) (by omega)
    rw [a1, a2]

theorem allocLoop_closed (p : ℕ) : ∀ n, 0 < n →
    Mpi.allocLoop n (p + 1) = .ok ((List.range (p + 1)).map fun r => (n + r) / (p + 1)) := by
  induction p with
  | zero =>
    intro n hn
    simp [Mpi.allocLoop, show n ≠ 0 by omega]
  | succ p ih =>
    intro n hn
    have hlt : n / (p + 1 + 1) < n := Nat.div_lt_self hn (by omega)
    rw [Mpi.allocLoop]
    simp only [show n ≠ 0 by omega, if_false]
    rw [ih _ (by omega)]
    simp only [Except.ok.injEq]
    rw [List.range_succ_eq_map (n := p + 1), List.map_cons, List.map_map]
    simp only [Nat.add_zero, List.cons.injEq, true_and]
    refine List.map_congr_left fun r hr => ?_
    exact div_step n (p + 1) r (by simpa using hr)

theorem allocate_closed (n P : ℕ) (hn : 0 < n) (hP : 0 < P) :
    Mpi.allocateTasks (.npint n) (.int P) = .ok ((List.range P).map fun r => (n + r) / P) := by
  obtain ⟨p, rfl⟩ : ∃ p, P = p + 1 := ⟨P - 1, by omega⟩
  have := allocLoop_closed p n hn
  simp only [Mpi.allocateTasks]
  rw [if_neg (by omega)]
  simpa using this

/-! ### Lists -/

theorem flatten_get {L : Type} : ∀ (ls : List (List L)) (r i : ℕ), r < ls.length →
    ((ls.take r).map List.length).sum ≤ i → i < ((ls.take (r + 1)).map List.length).sum →
    ls.flatten[i]? = (ls[r]?.getD [])[i - ((ls.take r).map List.length).sum]?
  | [], r, i, h, _, _ => by simp at h
  | l :: ls, 0, i, _, _, h2 => by
    simp at h2
    simp [List.getElem?_append, h2]
  | l :: ls, r + 1, i, h, h1, h2 => by
    simp only [List.take_succ_cons, List.map_cons, List.sum_cons] at h1 h2
    simp only [List.flatten_cons, List.take_succ_cons, List.map_cons, List.sum_cons, List.getElem?_cons_succ]
    rw [List.getElem?_append_right (by omega), flatten_get ls r (i - l.length) (by simpa using h) (by omega)
      (by omega)]
    congr 1
    omega

theorem flatten_const {L : Type} (N : ℕ) (f : ℕ → List L) (hf : ∀ j, (f j).length = N) (n j i : ℕ) (hj : j < n)
    (hi : i < N) : ((List.range n).map f).flatten[j * N + i]? = (f j)[i]? := by
  have hsum : ∀ k, k ≤ n → ((((List.range n).map f).take k).map List.length).sum = k * N := by
    intro k hk
    rw [← List.map_take, List.take_range, List.map_map, Nat.min_eq_left hk]
    have : (List.range k).map (List.length ∘ f) = List.replicate k N := by
      rw [List.eq_replicate_iff]
      simp [hf]
    rw [this]; simp
  have e := flatten_get ((List.range n).map f) j (j * N + i) (by simpa using hj)
    (by rw [hsum j (by omega)]; omega) (by rw [hsum (j + 1) (by omega), Nat.add_mul]; omega)
  rw [e, hsum j (by omega)]
  simp [hj]

theorem flatten_len {L : Type} (N : ℕ) (f : ℕ → List L) (hf : ∀ j, (f j).length = N) (l : List ℕ) :
    (l.map f).flatten.length = l.length * N := by
  rw [List.length_flatten, List.map_map]
  have : l.map (List.length ∘ f) = List.replicate l.length N := by
    rw [List.eq_replicate_iff]
    simp [hf]
  rw [this]; simp

theorem flatten_flatMap {α β L : Type} (f : α → List β) (g : β → List L) : ∀ l : List α,
    (l.map fun r => ((f r).map g).flatten).flatten = ((l.flatMap f).map g).flatten
  | [] => rfl
  | a :: l => by simp [flatten_flatMap f g l]

theorem data_lengths {L : Type} (bs : List (Buf L)) :
    (bs.map fun b => b.data.length) = (bs.map Buf.data).map List.length := by
  rw [List.map_map]; rfl

/-! ### Gathering -/

theorem foldl_deliver {L : Type} (bufs : List (Buf L)) (i r0 : ℕ) (x : Option L)
    (h0 : ∀ buf, deliver bufs buf r0 i = x) (h1 : ∀ r, r ≠ r0 → ∀ buf, deliver bufs buf r i = buf i) :
    ∀ (order : List ℕ) (buf : ℕ → Option L), r0 ∈ order ∨ buf i = x → order.foldl (deliver bufs) buf i = x
  | [], buf, h => by simpa using h
  | r :: order, buf, h => by
    rw [List.foldl_cons]
    apply foldl_deliver bufs i r0 x h0 h1 order
    by_cases hr : r = r0
    · right; rw [hr]; exact h0 buf
    · rcases h with h | h
      · left
        rcases List.mem_cons.mp h with h | h
        · exact absurd h.symm hr
        · exact h
      · right; rw [h1 r hr]; exact h

/-- Whatever the order of arrival, the receive buffer holds the messages one after another. -/
theorem gathered {L : Type} (bufs : List (Buf L)) (order : List ℕ) (ho : ∀ r, r < bufs.length → r ∈ order)
    (i : ℕ) (hi : i < (bufs.map fun b => b.data.length).sum) :
    order.foldl (deliver bufs) (fun _ => none) i = (bufs.map Buf.data).flatten[i]? := by
  obtain ⟨r, hr, h1, h2⟩ := Mpi.prefix_locate (bufs.map fun b => b.data.length) i hi
  have hr' : r < bufs.length := by simpa using hr
  have ht : ∀ k, ((bufs.take k).map fun b => b.data.length).sum =
      ((bufs.map fun b => b.data.length).take k).sum := by intro k; rw [List.map_take]
  have ht' : ∀ k, (((bufs.map Buf.data).take k).map List.length).sum =
      ((bufs.map fun b => b.data.length).take k).sum := by
    intro k; rw [List.map_take, List.map_map]; rfl
  have hs : ∀ k, ((bufs.map fun b => b.data.length).take k).sum + ((bufs[k]?.map Buf.data).getD []).length =
      ((bufs.map fun b => b.data.length).take (k + 1)).sum := by
    intro k
    by_cases hk : k < bufs.length
    · rw [Mpi.take_succ_sum _ k (by simpa using hk)]
      simp [hk]
    · rw [List.take_of_length_le (by simpa using Nat.le_of_not_lt hk),
        List.take_of_length_le (by simp; omega), List.getElem?_eq_none (by omega)]
      rfl
  apply foldl_deliver bufs i r
  · intro buf
    unfold deliver
    simp only [ht, hs]
    rw [if_pos ⟨h1, h2⟩, flatten_get _ r i (by simpa using hr') (by rw [ht']; exact h1) (by rw [ht']; exact h2),
      ht', List.getElem?_map]
  · intro k hk buf
    unfold deliver
    simp only [ht, hs]
    rw [if_neg]
    rintro ⟨a, b⟩
    rcases Nat.lt_or_gt_of_ne hk with h | h
    · have := Mpi.take_sum_mono (bufs.map fun b => b.data.length) (show k + 1 ≤ r from h)
      omega
    · have := Mpi.take_sum_mono (bufs.map fun b => b.data.length) (show r + 1 ≤ k from h)
      omega
  · left; exact ho r hr'

/-! ### Traversals which succeed -/

theorem traverse_pure {ε α β : Type} {f : α → Except ε β} {g : α → β} : ∀ {l : List α},
    (∀ a ∈ l, f a = .ok (g a)) → traverse f l = .ok (l.map g)
  | [], _ => rfl
  | a :: l, h => by
    rw [traverse, h a (by simp), traverse_pure fun b hb => h b (by simp [hb])]
    rfl

theorem get_map_self {α : Type} (ms : List Multipole) (g : Multipole → α) (m : Multipole) (h : m ∈ ms) :
    get (ms.map fun m => (m, g m)) m = .ok (g m) := by
  have : get? (ms.map fun m => (m, g m)) m = some (g m) := by
    induction ms with
    | nil => simp at h
    | cons x ms ih =>
      by_cases hx : x = m
      · subst hx; simp [get?]
      · have := ih (by rcases List.mem_cons.mp h with h | h; exact absurd h.symm hx; exact h)
        simpa [get?, List.find?_cons, hx] using this
  simp [get, this]

theorem returnWcmat_dict {L : Type} (ms : List Multipole) (nk : ℕ) (w : List (Multipole × Mat L)) :
    returnWcmat ms nk false false w = .ok (.dict w) := by
  unfold returnWcmat
  simp only [Bool.false_eq_true, if_false]
  rw [traverse_pure (g := fun p : Multipole × Mat L => (p.1, p.2)) fun p _ => rfl]
  simp

theorem returnWcmat_diag {L : Type} (ms : List Multipole) (nk : ℕ) (g : Multipole → Mat L)
    (h : ∀ m ∈ ms, ∀ i < nk, i * (nk + 1) < (g m).rows) :
    returnWcmat ms nk false true (ms.map fun m => (m, g m)) =
      .ok (.dict (ms.map fun m => (m, ⟨nk, (g m).cols, fun i j => (g m).e (i * (nk + 1)) j⟩))) := by
  unfold returnWcmat
  simp only [if_true]
  rw [traverse_pure (g := fun p : Multipole × Mat L =>
    (p.1, (⟨nk, p.2.cols, fun i j => p.2.e (i * (nk + 1)) j⟩ : Mat L)))]
  · simp [Function.comp_def]
  · intro p hp
    obtain ⟨m, hm, rfl⟩ := List.mem_map.mp hp
    simp only [diagRows]
    rw [if_pos (h m hm)]

theorem returnWcmat_concat {L : Type} (ms : List Multipole) (nk : ℕ) (g : Multipole → Mat L) :
    returnWcmat ms nk true false (ms.map fun m => (m, g m)) =
      match rowStack (ms.map g) with
      | .error e => .error e
      | .ok M => .ok (.one M) := by
  unfold returnWcmat
  simp only [Bool.false_eq_true, if_false, if_true]
  rw [traverse_pure (g := fun p : Multipole × Mat L => (p.1, p.2)) fun p _ => rfl]
  simp only [Prod.mk.eta, List.map_id']
  rw [traverse_pure (g := g) fun m hm => get_map_self ms g m hm]
  rfl

theorem diag_lt {nk i : ℕ} (hi : i < nk) : i * (nk + 1) < nk * nk := by
  obtain ⟨d, rfl⟩ : ∃ d, nk = i + 1 + d := ⟨nk - (i + 1), by omega⟩
  nlinarith [Nat.zero_le d, Nat.zero_le i]

theorem flat_get {L : Type} (M : Mat L) (i j : ℕ) (hi : i < M.rows) (hj : j < M.cols) :
    M.flat[i * M.cols + j]? = some (M.e i j) := by
  unfold Mat.flat
  rw [List.flatMap_def, flatten_const M.cols (fun i => (List.range M.cols).map (M.e i)) (by simp) _ _ _ hi hj]
  simp [hj]

theorem flat_length {L : Type} (M : Mat L) : M.flat.length = M.rows * M.cols := by
  unfold Mat.flat
  rw [List.flatMap_def, flatten_len M.cols (fun i => (List.range M.cols).map (M.e i)) (by simp)]
  simp

theorem rowStack_spec {L : Type} (n : ℕ) : ∀ (As : List (Mat L)), As ≠ [] → (∀ A ∈ As, A.cols = n) →
    ∃ M, rowStack As = .ok M ∧ M.rows = (As.map Mat.rows).sum ∧ M.cols = n ∧
      ∀ (k : ℕ) (A : Mat L), As[k]? = some A → ∀ i < A.rows, ∀ j,
        M.e (((As.take k).map Mat.rows).sum + i) j = A.e i j
  | [], h, _ => absurd rfl h
  | [A], _, hc => by
    refine ⟨A, rfl, by simp, hc A (by simp), ?_⟩
    intro k B hk i _ j
    cases k with
    | zero => simp at hk; subst hk; simp
    | succ k => simp at hk
  | A :: B :: As, _, hc => by
    obtain ⟨M, h1, h2, h3, h4⟩ := rowStack_spec n (B :: As) (by simp) fun X hX => hc X (by simp [hX])
    refine ⟨⟨A.rows + M.rows, A.cols, fun i j => if i < A.rows then A.e i j else M.e (i - A.rows) j⟩, ?_, ?_, ?_, ?_⟩
    · rw [rowStack, h1]
      · simp only [vcat]
        rw [if_neg (by rw [h3, hc A (by simp)]; simp)]
      · simp
    · simp [h2]
    · exact hc A (by simp)
    · intro k X hk i hi j
      cases k with
      | zero =>
        simp at hk; subst hk
        simp [hi]
      | succ k =>
        simp only [List.getElem?_cons_succ] at hk
        simp only [List.take_succ_cons, List.map_cons, List.sum_cons]
        rw [if_neg (by omega), ← h4 k X hk i hi j]
        congr 1
        omega

end Trv.Wc

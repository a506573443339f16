import Verif.Lemmas.WinConv
import Mathlib.Tactic.Ring
import Mathlib.Data.Option.NAry
/-
Linearity of the window convolution.
-/
namespace Trv.Wc

open Trv

/-- Entry-wise combination of two dictionaries with the same keys. -/
def combine {κ α : Type} (g : α → α → α) (d1 d2 : List (κ × α)) : List (κ × α) :=
  List.zipWith (fun p q => (p.1, g p.2 q.2)) d1 d2

theorem get?_combine {κ α : Type} [DecidableEq κ] (g : α → α → α) : ∀ (d1 d2 : List (κ × α)),
    d1.map Prod.fst = d2.map Prod.fst → ∀ k,
    (get? d1 k = none ∧ get? d2 k = none ∧ get? (combine g d1 d2) k = none) ∨
    ∃ u v, get? d1 k = some u ∧ get? d2 k = some v ∧ get? (combine g d1 d2) k = some (g u v)
  | [], [], _, k => by simp [get?, combine]
  | p :: d1, q :: d2, h, k => by
    simp only [List.map_cons, List.cons.injEq] at h
    have ih := get?_combine g d1 d2 h.2 k
    by_cases hk : p.1 = k
    · right
      refine ⟨p.2, q.2, ?_, ?_, ?_⟩
      · simp [get?, hk]
      · simp [get?, ← h.1, hk]
      · simp [get?, combine, hk]
    · have e1 : get? (p :: d1) k = get? d1 k := by simp [get?, hk]
      have e2 : get? (q :: d2) k = get? d2 k := by simp [get?, ← h.1, hk]
      have e3 : get? (combine g (p :: d1) (q :: d2)) k = get? (combine g d1 d2) k := by
        simp [get?, combine, hk]
      rw [e1, e2, e3]
      exact ih
  | [], _ :: _, h, _ => by simp at h
  | _ :: _, [], h, _ => by simp at h

theorem traverse_length {ε α β : Type} {f : α → Except ε β} : ∀ {l : List α} {r : List β},
    traverse f l = .ok r → r.length = l.length
  | [], r, h => by
    simp [traverse] at h
    simp [h]
  | a :: l, r, h => by
    unfold traverse at h
    cases hf : f a with
    | error e => simp [hf] at h
    | ok b =>
      cases ht : traverse f l with
      | error e => simp [hf, ht] at h
      | ok bs =>
        simp [hf, ht] at h
        rw [← h]
        simp [traverse_length ht]

theorem traverse_zip {ε α β : Type} {f1 f2 f3 : α → Except ε β} (h : β → β → β) : ∀ {l : List α} {r1 r2},
    traverse f1 l = .ok r1 → traverse f2 l = .ok r2 →
    (∀ a ∈ l, ∀ b1 b2, f1 a = .ok b1 → f2 a = .ok b2 → f3 a = .ok (h b1 b2)) →
    traverse f3 l = .ok (List.zipWith h r1 r2)
  | [], r1, r2, h1, h2, _ => by
    simp [traverse] at h1 h2
    simp [h1, h2, traverse]
  | a :: l, r1, r2, h1, h2, hh => by
    unfold traverse at h1 h2
    cases e1 : f1 a with
    | error e => simp [e1] at h1
    | ok b1 =>
      cases e2 : f2 a with
      | error e => simp [e2] at h2
      | ok b2 =>
        cases t1 : traverse f1 l with
        | error e => simp [e1, t1] at h1
        | ok bs1 =>
          cases t2 : traverse f2 l with
          | error e => simp [e2, t2] at h2
          | ok bs2 =>
            simp [e1, t1] at h1
            simp [e2, t2] at h2
            have ih := traverse_zip h t1 t2 (fun a ha => hh a (by simp [ha]))
            unfold traverse
            rw [hh a (by simp) b1 b2 e1 e2, ih, ← h1, ← h2]
            simp

section

variable {K : Type} [Field K]

/-- Linear combination of samples. -/
def lin (a b : K) (u v : List K) : List K := List.zipWith (fun x y => a * x + b * y) u v

theorem lin_getD (a b : K) (u v : List K) (h : u.length = v.length) (i : ℕ) :
    (lin a b u v).getD i 0 = a * u.getD i 0 + b * v.getD i 0 := by
  unfold lin
  simp only [List.getD_eq_getElem?_getD, List.getElem?_zipWith]
  by_cases hi : i < u.length
  · rw [List.getElem?_eq_getElem hi, List.getElem?_eq_getElem (by omega)]
    rfl
  · rw [List.getElem?_eq_none (by omega), List.getElem?_eq_none (by omega)]
    simp

theorem spl_lin (I : Interp K) (ext : Bool) (x u v : List K) (a b : K) (h : u.length = v.length) (p : K) :
    I.spl ext x (lin a b u v) p = a * I.spl ext x u p + b * I.spl ext x v p := by
  unfold Interp.spl
  rw [Finset.mul_sum, Finset.mul_sum, ← Finset.sum_add_distrib]
  refine Finset.sum_congr rfl fun i _ => ?_
  rw [lin_getD a b u v h]
  ring

theorem spl2_lin (I : Interp K) (x : List K) (u v : ℕ → ℕ → K) (a b : K) (p q : K) :
    I.spl2 x (fun i j => a * u i j + b * v i j) p q = a * I.spl2 x u p q + b * I.spl2 x v p q := by
  unfold Interp.spl2
  rw [Finset.mul_sum, Finset.mul_sum, ← Finset.sum_add_distrib]
  refine Finset.sum_congr rfl fun i _ => ?_
  rw [Finset.mul_sum, Finset.mul_sum, ← Finset.sum_add_distrib]
  refine Finset.sum_congr rfl fun j _ => ?_
  ring

theorem integ_lin (I : Interp K) (x : List K) (u v : ℕ → ℕ → K) (a b : K) :
    I.integ x (fun i j => a * u i j + b * v i j) = a * I.integ x u + b * I.integ x v := by
  unfold Interp.integ
  rw [Finset.mul_sum, Finset.mul_sum, ← Finset.sum_add_distrib]
  refine Finset.sum_congr rfl fun i _ => ?_
  have : ∑ j ∈ Finset.range x.length, I.simp x j * ((a * u i j + b * v i j) * x.getD j 0 * x.getD j 0) =
      a * (∑ j ∈ Finset.range x.length, I.simp x j * (u i j * x.getD j 0 * x.getD j 0)) +
      b * (∑ j ∈ Finset.range x.length, I.simp x j * (v i j * x.getD j 0 * x.getD j 0)) := by
    rw [Finset.mul_sum, Finset.mul_sum, ← Finset.sum_add_distrib]
    refine Finset.sum_congr rfl fun j _ => ?_
    ring
  rw [this]
  ring

theorem zip_sum {F : Type} (ev : F → K) (h : F → F → F) (a b : K)
    (hh : ∀ f g, ev (h f g) = a * ev f + b * ev g) : ∀ (fs gs : List F), fs.length = gs.length →
    ((List.zipWith h fs gs).map ev).sum = a * (fs.map ev).sum + b * (gs.map ev).sum
  | [], [], _ => by simp
  | f :: fs, g :: gs, e => by
    have ih := zip_sum ev h a b hh fs gs (by simpa using e)
    simp only [List.zipWith_cons_cons, List.map_cons, List.sum_cons, ih, hh]
    ring

theorem lin_map (a b : K) (x : List K) (f g : K → K) :
    lin a b (x.map f) (x.map g) = x.map fun p => a * f p + b * g p := by
  unfold lin
  induction x with
  | nil => rfl
  | cons p x ih => simp [ih]

theorem conv2Term_lin (I : Interp K) (B : Base K (List K)) (d1 d2 : List (Key × List K)) (a b : K)
    (hk : d1.map Prod.fst = d2.map Prod.fst) (t : Term) (f1 f2 : K → K)
    (h1 : conv2Term I B d1 t = .ok f1) (h2 : conv2Term I B d2 t = .ok f2) :
    conv2Term I B (combine (lin a b) d1 d2) t = .ok fun p => a * f1 p + b * f2 p := by
  unfold conv2Term at *
  cases hx : get B.rQ t.q with
  | error e => simp [hx] at h1
  | ok x =>
    cases hy : get B.Q t.q with
    | error e => simp [hx, hy] at h1
    | ok y =>
      simp only [hx, hy] at h1 h2 ⊢
      by_cases hl : x.length ≠ y.length
      · simp [hl] at h1
      · rw [if_neg hl] at h1 h2 ⊢
        cases hz : t.z with
        | none => simp [hz] at h1
        | some z =>
          simp only [hz] at h1 h2 ⊢
          cases hx' : get B.rIn (some z) with
          | error e => simp [hx'] at h1
          | ok x' =>
            simp only [hx'] at h1 h2 ⊢
            rcases get?_combine (lin a b) d1 d2 hk (.mp z) with ⟨g1, g2, g3⟩ | ⟨u, v, g1, g2, g3⟩
            · simp [get, g1] at h1
            · simp only [get, g1, g2, g3] at h1 h2 ⊢
              by_cases l1 : x'.length ≠ u.length
              · simp [l1] at h1
              · by_cases l2 : x'.length ≠ v.length
                · simp [l2] at h2
                · rw [if_neg l1, Except.ok.injEq] at h1
                  rw [if_neg l2, Except.ok.injEq] at h2
                  have e : u.length = v.length := by omega
                  rw [if_neg (by simp [lin]; omega), ← h1, ← h2]
                  congr 1
                  funext p
                  rw [spl_lin I false x' u v a b e]
                  ring

/-- Linear combination of 2-d complex samples. -/
def linMat (a b : K) (U V : Mat (K × K)) : Mat (K × K) :=
  ⟨U.rows, U.cols, fun i j => (a * (U.e i j).1 + b * (V.e i j).1, a * (U.e i j).2 + b * (V.e i j).2)⟩

theorem conv3Term_lin (I : Interp K) (B : Base K (Mat K)) (d1 d2 : List (Key × Mat (K × K))) (a b : K)
    (hk : d1.map Prod.fst = d2.map Prod.fst) (c1 c2 : Option K) (t : Term) (f1 f2 : K → K → K)
    (h1 : conv3Term I B d1 c1 t = .ok f1) (h2 : conv3Term I B d2 c2 t = .ok f2) :
    conv3Term I B (combine (linMat a b) d1 d2) (Option.map₂ (fun x y => a * x + b * y) c1 c2) t =
      .ok fun p q => a * f1 p q + b * f2 p q := by
  unfold conv3Term at *
  cases hx : get B.rQ t.q with
  | error e => simp [hx] at h1
  | ok x =>
    cases hy : get B.Q t.q with
    | error e => simp [hx, hy] at h1
    | ok M =>
      simp only [hx, hy] at h1 h2 ⊢
      by_cases hl : M.rows ≠ x.length ∨ M.cols ≠ x.length
      · rw [if_pos hl] at h1
        simp at h1
      · rw [if_neg hl] at h1 h2 ⊢
        cases hz : t.z with
        | none =>
          cases c1 with
          | none => simp [hz] at h1
          | some c1 =>
            cases c2 with
            | none => simp [hz] at h2
            | some c2 =>
              simp only [hz, Except.ok.injEq, Option.map₂_some_some] at h1 h2 ⊢
              rw [← h1, ← h2]
              funext p q
              ring
        | some z =>
          simp only [hz] at h1 h2 ⊢
          cases hx' : get B.rIn (some z) with
          | error e => simp [hx'] at h1
          | ok x' =>
            simp only [hx'] at h1 h2 ⊢
            rcases get?_combine (linMat a b) d1 d2 hk (.mp z) with ⟨g1, g2, g3⟩ | ⟨u, v, g1, g2, g3⟩
            · simp [get, g1] at h1
            · simp only [get, g1, g2, g3] at h1 h2 ⊢
              by_cases l1 : u.rows ≠ x'.length ∨ u.cols ≠ x'.length
              · rw [if_pos l1] at h1
                simp at h1
              · by_cases l2 : v.rows ≠ x'.length ∨ v.cols ≠ x'.length
                · rw [if_pos l2] at h2
                  simp at h2
                · rw [if_neg l1, Except.ok.injEq] at h1
                  rw [if_neg l2, Except.ok.injEq] at h2
                  rw [if_neg (by simpa [linMat] using l1), ← h1, ← h2]
                  congr 1
                  funext p q
                  simp only [linMat]
                  rw [spl2_lin I x' (fun i j => (u.e i j).1) (fun i j => (v.e i j).1) a b]
                  ring

end

theorem dictSet_combine {κ α : Type} [DecidableEq κ] (g : α → α → α) (D1 D2 : List (κ × α))
    (h : D1.map Prod.fst = D2.map Prod.fst) (k : κ) (u v : α) :
    dictSet (combine g D1 D2) k (g u v) = combine g (dictSet D1 k u) (dictSet D2 k v) ∧
    (dictSet D1 k u).map Prod.fst = (dictSet D2 k v).map Prod.fst := by
  have hany : ∀ D : List (κ × α), D.any (fun p => p.1 = k) = (D.map Prod.fst).any (fun j => j = k) := by
    intro D
    rw [List.any_map]
    rfl
  have hlen : D1.length = D2.length := by simpa using congrArg List.length h
  have hkeys : (combine g D1 D2).map Prod.fst = D1.map Prod.fst := by
    unfold combine
    clear hany h
    induction D1 generalizing D2 with
    | nil => simp
    | cons p D1 ih =>
      cases D2 with
      | nil => simp at hlen
      | cons q D2 => simp [ih D2 (by simpa using hlen)]
  unfold dictSet
  rw [hany, hany, hany, hkeys, ← h]
  by_cases hc : (D1.map Prod.fst).any (fun j => decide (j = k)) = true
  · rw [if_pos hc, if_pos hc, if_pos hc]
    clear hc hany hkeys
    unfold combine
    induction D1 generalizing D2 with
    | nil =>
      cases D2 with
      | nil => simp
      | cons q D2 => simp at hlen
    | cons p D1 ih =>
      cases D2 with
      | nil => simp at hlen
      | cons q D2 =>
        simp only [List.map_cons, List.cons.injEq] at h
        obtain ⟨i1, i2⟩ := ih D2 h.2 (by simpa using hlen)
        constructor
        · simp only [List.zipWith_cons_cons, List.map_cons, i1, ← h.1]
          by_cases e : p.1 = k <;> simp [e]
        · simp only [List.map_cons, i2, ← h.1]
          by_cases e : p.1 = k <;> simp [e, ← h.1]
  · rw [if_neg hc, if_neg hc, if_neg hc]
    constructor
    · unfold combine
      rw [List.zipWith_append hlen]
      simp
    · simp [h]

theorem dictOf_combine {κ α : Type} [DecidableEq κ] (g : α → α → α) (d1 d2 : List (κ × α))
    (h : d1.map Prod.fst = d2.map Prod.fst) :
    dictOf (combine g d1 d2) = combine g (dictOf d1) (dictOf d2) ∧
    (dictOf d1).map Prod.fst = (dictOf d2).map Prod.fst := by
  have key : ∀ (d1 d2 D1 D2 : List (κ × α)), d1.map Prod.fst = d2.map Prod.fst →
      D1.map Prod.fst = D2.map Prod.fst →
      (combine g d1 d2).foldl (fun d p => dictSet d p.1 p.2) (combine g D1 D2) =
        combine g (d1.foldl (fun d p => dictSet d p.1 p.2) D1) (d2.foldl (fun d p => dictSet d p.1 p.2) D2) ∧
      (d1.foldl (fun d p => dictSet d p.1 p.2) D1).map Prod.fst =
        (d2.foldl (fun d p => dictSet d p.1 p.2) D2).map Prod.fst := by
    intro d1
    induction d1 with
    | nil =>
      intro d2 D1 D2 h hD
      cases d2 with
      | nil => exact ⟨rfl, hD⟩
      | cons q d2 => simp at h
    | cons p d1 ih =>
      intro d2 D1 D2 h hD
      cases d2 with
      | nil => simp at h
      | cons q d2 =>
        simp only [List.map_cons, List.cons.injEq] at h
        obtain ⟨s1, s2⟩ := dictSet_combine g D1 D2 hD p.1 p.2 q.2
        have := ih d2 (dictSet D1 p.1 p.2) (dictSet D2 p.1 q.2) h.2 s2
        rw [← s1] at this
        simp only [List.foldl_cons, ← h.1]
        exact this
  exact key d1 d2 [] [] h rfl

theorem coerceDict_combine {α : Type} (g : α → α → α) (d1 d2 : List (Key × α))
    (h : d1.map Prod.fst = d2.map Prod.fst) {c1 c2 : List (Multipole × α)}
    (h1 : coerceDict d1 = .ok c1) (h2 : coerceDict d2 = .ok c2) :
    coerceDict (combine g d1 d2) = .ok (combine g c1 c2) ∧ c1.map Prod.fst = c2.map Prod.fst := by
  let F : Key × α → Except PyErr (Multipole × α) := fun p =>
    match Multipole.ofKey p.1 with
    | .error e => Except.error e
    | .ok m => Except.ok (m, p.2)
  have key : ∀ (d1 d2 : List (Key × α)) (l1 l2 : List (Multipole × α)),
      d1.map Prod.fst = d2.map Prod.fst → traverse F d1 = .ok l1 → traverse F d2 = .ok l2 →
      traverse F (combine g d1 d2) = .ok (combine g l1 l2) ∧ l1.map Prod.fst = l2.map Prod.fst := by
    intro d1
    induction d1 with
    | nil =>
      intro d2 l1 l2 h h1 h2
      cases d2 with
      | nil =>
        simp [traverse] at h1 h2
        simp [h1, h2, combine, traverse]
      | cons q d2 => simp at h
    | cons p d1 ih =>
      intro d2 l1 l2 h h1 h2
      cases d2 with
      | nil => simp at h
      | cons q d2 =>
        simp only [List.map_cons, List.cons.injEq] at h
        unfold traverse at h1 h2
        cases ho : Multipole.ofKey p.1 with
        | error e => simp [F, ho] at h1
        | ok m =>
          have ho2 : Multipole.ofKey q.1 = .ok m := by rw [← h.1]; exact ho
          have f1 : F p = .ok (m, p.2) := by simp [F, ho]
          have f2 : F q = .ok (m, q.2) := by simp [F, ho2]
          cases t1 : traverse F d1 with
          | error e => simp [f1, t1] at h1
          | ok b1 =>
            cases t2 : traverse F d2 with
            | error e => simp [f2, t2] at h2
            | ok b2 =>
              obtain ⟨i1, i2⟩ := ih d2 b1 b2 h.2 t1 t2
              simp [f1, t1] at h1
              simp [f2, t2] at h2
              rw [← h1, ← h2]
              refine ⟨?_, by simp [i2]⟩
              have f3 : F (p.1, g p.2 q.2) = .ok (m, g p.2 q.2) := by simp [F, ho]
              change traverse F ((p.1, g p.2 q.2) :: combine g d1 d2) = _
              unfold traverse
              rw [f3, i1]
              rfl
  unfold coerceDict at h1 h2 ⊢
  change (match traverse F d1 with
    | .error e => Except.error e
    | .ok l => .ok (dictOf l)) = _ at h1
  change (match traverse F d2 with
    | .error e => Except.error e
    | .ok l => .ok (dictOf l)) = _ at h2
  change (match traverse F (combine g d1 d2) with
    | .error e => Except.error e
    | .ok l => .ok (dictOf l)) = _ ∧ _
  cases t1 : traverse F d1 with
  | error e => simp [t1] at h1
  | ok l1 =>
    cases t2 : traverse F d2 with
    | error e => simp [t2] at h2
    | ok l2 =>
      simp [t1] at h1
      simp [t2] at h2
      obtain ⟨k1, k2⟩ := key d1 d2 l1 l2 h t1 t2
      obtain ⟨m1, m2⟩ := dictOf_combine g l1 l2 k2
      rw [k1, ← h1, ← h2]
      exact ⟨by simp only [m1], m2⟩

section

variable {K : Type} [Field K]

theorem icTerm_lin (I : Interp K) (rQ : List (Multipole × List K)) (Q : List (Multipole × Mat K))
    (r : List (Multipole × List K)) (z1 z2 : List (Multipole × Mat (K × K))) (a b : K)
    (hk : z1.map Prod.fst = z2.map Prod.fst) (m : Multipole) :
    icTerm I rQ Q r (combine (linMat a b) z1 z2) m =
      a * icTerm I rQ Q r z1 m + b * icTerm I rQ Q r z2 m := by
  unfold icTerm
  simp only
  have hz : ∀ i j, (((get? (combine (linMat a b) z1 z2) m).map Mat.e).getD fun _ _ => (0, 0)) i j =
      (a * ((((get? z1 m).map Mat.e).getD fun _ _ => (0, 0)) i j).1 +
        b * ((((get? z2 m).map Mat.e).getD fun _ _ => (0, 0)) i j).1,
       a * ((((get? z1 m).map Mat.e).getD fun _ _ => (0, 0)) i j).2 +
        b * ((((get? z2 m).map Mat.e).getD fun _ _ => (0, 0)) i j).2) := by
    intro i j
    rcases get?_combine (linMat a b) z1 z2 hk m with ⟨g1, g2, g3⟩ | ⟨u, v, g1, g2, g3⟩
    · rw [g1, g2, g3]
      simp
    · rw [g1, g2, g3]
      rfl
  simp only [hz]
  simp only [spl2_lin]
  have : ∀ (q z z' : ℕ → ℕ → K) (x : List K), I.integ x (fun i j => q i j * (a * z i j + b * z' i j)) =
      a * I.integ x (fun i j => q i j * z i j) + b * I.integ x (fun i j => q i j * z' i j) := by
    intro q z z' x
    rw [← integ_lin]
    congr 1
    funext i j
    ring
  rw [this]
  ring

theorem calcIc_lin [DecidableEq K] (I : Interp K) (rQ : List (Multipole × List K))
    (Q : List (Multipole × Mat K)) (rIn : List (Option Multipole × List K))
    (d1 d2 : List (Key × Mat (K × K))) (a b : K) (hk : d1.map Prod.fst = d2.map Prod.fst) (c1 c2 : K)
    (h1 : calcIc I rQ Q rIn d1 = .ok c1) (h2 : calcIc I rQ Q rIn d2 = .ok c2) :
    calcIc I rQ Q rIn (combine (linMat a b) d1 d2) = .ok (a * c1 + b * c2) := by
  unfold calcIc at h1 h2 ⊢
  cases e1 : coerceDict d1 with
  | error e => simp [e1] at h1
  | ok z1 =>
    cases e2 : coerceDict d2 with
    | error e => simp [e2] at h2
    | ok z2 =>
      obtain ⟨e3, hz⟩ := coerceDict_combine (linMat a b) d1 d2 hk e1 e2
      have hz3 : (combine (linMat a b) z1 z2).map Prod.fst = z1.map Prod.fst := by
        have hlen : z1.length = z2.length := by simpa using congrArg List.length hz
        unfold combine
        clear e1 e2 e3 hz h1 h2
        induction z1 generalizing z2 with
        | nil => simp
        | cons p z1 ih =>
          cases z2 with
          | nil => simp at hlen
          | cons q z2 => simp [ih z2 (by simpa using hlen)]
      simp only [e1] at h1
      simp only [e2] at h2
      simp only [e3]
      split at h1
      · simp at h1
      · rename_i r hr
        rw [hr] at h2
        simp only at h1 h2 ⊢
        rw [hz3]
        rw [← hz] at h2
        split_ifs at h1 h2 ⊢ with c1 c2 c3 c4
        rw [Except.ok.injEq] at h1 h2 ⊢
        rw [← h1, ← h2]
        have : ∀ l : List Multipole, (l.map (icTerm I rQ Q r (combine (linMat a b) z1 z2))).sum =
            a * (l.map (icTerm I rQ Q r z1)).sum + b * (l.map (icTerm I rQ Q r z2)).sum := by
          intro l
          induction l with
          | nil => simp
          | cons m l ih =>
            simp only [List.map_cons, List.sum_cons, ih, icTerm_lin I rQ Q r z1 z2 a b hz]
            ring
        rw [this]
        ring

end

end Trv.Wc

import Verif.Lemmas.WinMat
import Verif.Lemmas.WinBuild
import Verif.Props.WinConvChecks
import Mathlib.Algebra.BigOperators.Ring.Finset
import Mathlib.Algebra.BigOperators.Module
import Mathlib.Algebra.Module.Prod
/-
Linearity of the vectorised convolution (C03).
-/
namespace Trv.Wc

open Trv

variable {K L : Type} [Field K]

/-- `a U + b V`, with the shape of `U`. -/
def linK (a b : K) (U V : Mat K) : Mat K := ⟨U.rows, U.cols, fun i j => a * U.e i j + b * V.e i j⟩

section
variable [AddCommGroup L] [Module K L]

/-- `a u + b v` entry by entry. -/
def linL (a b : K) (u v : List L) : List L := List.zipWith (fun x y => a • x + b • y) u v

/-- `a U + b V`, with the shape of `U`. -/
def linO (a b : K) (U V : Mat L) : Mat L := ⟨U.rows, U.cols, fun i j => a • U.e i j + b • V.e i j⟩

/-- A convolution which is linear, with outputs for the multipoles `ms` of shape `nk × nk`. -/
structure LinearConv (ms : List Multipole) (nk : ℕ) (conv : Conv K L) : Prop where
  keys : ∀ d o, conv d = .ok o → o.map Prod.fst = ms
  shape : ∀ d o, conv d = .ok o → ∀ p ∈ o, p.2.rows = nk ∧ p.2.cols = nk
  comb : ∀ (a b : K) d1 d2 o1 o2, d1.map Prod.fst = d2.map Prod.fst → conv d1 = .ok o1 → conv d2 = .ok o2 →
    conv (combine (linK a b) d1 d2) = .ok (combine (linO a b) o1 o2)

theorem cumsum_split (ds : List ℕ) : ∀ (s : ℕ) (zs : List Multipole) (v : List K), ds.length = zs.length →
    s + dim2 ds ≤ v.length →
    ∃ l, toModel zs (npSplit s (cumsum s (ds.map fun d => d * d)) v) ds = .ok l := by
  induction ds with
  | nil =>
    intro s zs v h _
    cases zs with
    | nil => exact ⟨_, rfl⟩
    | cons z zs => simp at h
  | cons d ds ih =>
    intro s zs v h hv
    cases zs with
    | nil => simp at h
    | cons z zs =>
      simp only [dim2, List.map_cons, List.sum_cons] at hv
      obtain ⟨l, hl⟩ := ih (s + d * d) zs v (by simpa using h) (by unfold dim2; omega)
      simp only [List.map_cons, cumsum, npSplit, toModel]
      rw [if_neg (by simp; omega), hl]
      exact ⟨_, rfl⟩

theorem toModel_keys (zs : List Multipole) : ∀ (ps : List (List K)) (ds : List ℕ) l, ds.length = zs.length →
    zs.length ≤ ps.length → toModel zs ps ds = .ok l → l.map Prod.fst = zs := by
  induction zs with
  | nil => intro ps ds l _ _ h; simp [toModel] at h; subst h; rfl
  | cons z zs ih =>
    intro ps ds l h1 h2 h
    cases ps with
    | nil => simp at h2
    | cons p ps =>
      cases ds with
      | nil => simp at h1
      | cons d ds =>
        rw [toModel] at h
        by_cases hp : p.length ≠ d * d
        · rw [if_pos hp] at h; simp at h
        · rw [if_neg hp] at h
          cases ht : toModel zs ps ds with
          | error e => simp [ht] at h
          | ok l' =>
            simp only [ht, Except.ok.injEq] at h
            subst h
            simp [ih ps ds l' (by simpa using h1) (by simpa using h2) ht]

theorem npSplit_length (ns : List ℕ) : ∀ p (v : List K), (npSplit p ns v).length = ns.length + 1 := by
  induction ns with
  | nil => intro p v; rfl
  | cons n ns ih => intro p v; simp [npSplit, ih]

theorem cumsum_length (ns : List ℕ) : ∀ s, (cumsum s ns).length = ns.length := by
  induction ns with
  | nil => intro s; rfl
  | cons n ns ih => intro s; simp [cumsum, ih]

theorem npSplit_lin (a b : K) (ns : List ℕ) : ∀ p (u v : List K),
    npSplit p ns (lin a b u v) = List.zipWith (lin a b) (npSplit p ns u) (npSplit p ns v) := by
  induction ns with
  | nil => intro p u v; simp [npSplit, lin, List.drop_zipWith]
  | cons n ns ih =>
    intro p u v
    simp only [npSplit, List.zipWith_cons_cons, ← ih]
    simp [lin, List.drop_zipWith, List.take_zipWith]

theorem toModel_lin (a b : K) (zs : List Multipole) : ∀ (ps qs : List (List K)) (ds : List ℕ) l1 l2,
    toModel zs ps ds = .ok l1 → toModel zs qs ds = .ok l2 → ps.length = qs.length →
    toModel zs (List.zipWith (lin a b) ps qs) ds = .ok (combine (linK a b) l1 l2) := by
  induction zs with
  | nil =>
    intro ps qs ds l1 l2 h1 h2 _
    simp [toModel] at h1 h2
    subst h1; subst h2
    simp [toModel, combine]
  | cons z zs ih =>
    intro ps qs ds l1 l2 h1 h2 hl
    cases ps with
    | nil =>
      cases qs with
      | nil => simp [toModel] at h1 h2; subst h1; subst h2; simp [toModel, combine]
      | cons q qs => simp at hl
    | cons p ps =>
      cases qs with
      | nil => simp at hl
      | cons q qs =>
        cases ds with
        | nil => simp [toModel] at h1 h2; subst h1; subst h2; simp [toModel, combine]
        | cons d ds =>
          rw [toModel] at h1 h2
          by_cases hp : p.length ≠ d * d
          · rw [if_pos hp] at h1; simp at h1
          by_cases hq : q.length ≠ d * d
          · rw [if_pos hq] at h2; simp at h2
          rw [if_neg hp] at h1
          rw [if_neg hq] at h2
          push Not at hp hq
          cases t1 : toModel zs ps ds with
          | error e => simp [t1] at h1
          | ok m1 =>
            cases t2 : toModel zs qs ds with
            | error e => simp [t2] at h2
            | ok m2 =>
              simp only [t1, Except.ok.injEq] at h1
              simp only [t2, Except.ok.injEq] at h2
              subst h1; subst h2
              rw [List.zipWith_cons_cons, toModel, ih ps qs ds m1 m2 t1 t2 (by simpa using hl)]
              rw [if_neg (by simp [lin, hp, hq])]
              simp only [combine, List.zipWith_cons_cons, linK, Except.ok.injEq, List.cons.injEq, Prod.mk.injEq,
                Mat.mk.injEq, true_and, and_true]
              funext i j
              exact lin_getD a b p q (hp.trans hq.symm) _

theorem flat_lin (a b : K) (U V : Mat L) (h1 : V.rows = U.rows) (h2 : V.cols = U.cols) :
    (linO a b U V).flat = linL a b U.flat V.flat := by
  have key : ∀ rs : List ℕ, (rs.flatMap fun i => (List.range U.cols).map ((linO a b U V).e i)) =
      linL a b (rs.flatMap fun i => (List.range U.cols).map (U.e i)) (rs.flatMap fun i => (List.range U.cols).map (V.e i)) := by
    intro rs
    induction rs with
    | nil => rfl
    | cons r rs ih =>
      simp only [List.flatMap_cons, ih, linL]
      rw [List.zipWith_append (by simp)]
      congr 1
      simp [List.zipWith_map, linO]
  unfold Mat.flat
  rw [h1, h2]
  exact key _

theorem combine_flat (a b : K) {nk : ℕ} : ∀ (o1 o2 : List (Multipole × Mat L)),
    (∀ p ∈ o1, p.2.rows = nk ∧ p.2.cols = nk) → (∀ p ∈ o2, p.2.rows = nk ∧ p.2.cols = nk) →
    (combine (linO a b) o1 o2).map (fun p => (p.1, p.2.flat)) =
      combine (linL a b) (o1.map fun p => (p.1, p.2.flat)) (o2.map fun p => (p.1, p.2.flat))
  | [], _, _, _ => by simp [combine]
  | _ :: _, [], _, _ => by simp [combine]
  | p :: o1, q :: o2, h1, h2 => by
    have := combine_flat a b o1 o2 (fun x hx => h1 x (by simp [hx])) fun x hx => h2 x (by simp [hx])
    simp only [combine, List.zipWith_cons_cons, List.map_cons] at this ⊢
    rw [this, flat_lin]
    · rw [(h1 p (by simp)).1, (h2 q (by simp)).1]
    · rw [(h1 p (by simp)).2, (h2 q (by simp)).2]

theorem winVec_lin {ms zs : List Multipole} {nk : ℕ} {ds : List ℕ} {conv : Conv K L} (hc : LinearConv ms nk conv)
    (hz : ds.length = zs.length) (a b : K) (u v : List K) (o1 o2 : List (Multipole × List L))
    (h1 : winVec zs ds conv u = .ok o1) (h2 : winVec zs ds conv v = .ok o2) :
    winVec zs ds conv (lin a b u v) = .ok (combine (linL a b) o1 o2) := by
  unfold winVec at *
  cases t1 : toModel zs (npSplit 0 (cumsum 0 (ds.map fun d => d * d)) u) ds with
  | error e => simp [t1] at h1
  | ok m1 =>
    cases t2 : toModel zs (npSplit 0 (cumsum 0 (ds.map fun d => d * d)) v) ds with
    | error e => simp [t2] at h2
    | ok m2 =>
      simp only [t1] at h1
      simp only [t2] at h2
      rw [npSplit_lin, toModel_lin a b zs _ _ ds m1 m2 t1 t2 (by rw [npSplit_length, npSplit_length])]
      have k1 := toModel_keys zs _ ds m1 hz (by rw [npSplit_length, cumsum_length]; simp; omega) t1
      have k2 := toModel_keys zs _ ds m2 hz (by rw [npSplit_length, cumsum_length]; simp; omega) t2
      cases c1 : conv m1 with
      | error e => simp [c1] at h1
      | ok x1 =>
        cases c2 : conv m2 with
        | error e => simp [c2] at h2
        | ok x2 =>
          simp only [c1, Except.ok.injEq] at h1
          simp only [c2, Except.ok.injEq] at h2
          simp only
          rw [hc.comb a b m1 m2 x1 x2 (k1.trans k2.symm) c1 c2]
          subst h1; subst h2
          simp only [Except.ok.injEq]
          exact combine_flat a b x1 x2 (hc.shape m1 x1 c1) (hc.shape m2 x2 c2)

theorem linL_getD (a b : K) (u v : List L) (h : u.length = v.length) (i : ℕ) :
    (linL a b u v).getD i 0 = a • u.getD i 0 + b • v.getD i 0 := by
  unfold linL
  simp only [List.getD_eq_getElem?_getD, List.getElem?_zipWith]
  by_cases hi : i < u.length
  · rw [List.getElem?_eq_getElem hi, List.getElem?_eq_getElem (by omega)]
    rfl
  · rw [List.getElem?_eq_none (by omega), List.getElem?_eq_none (by omega)]
    simp

theorem combine_map {κ α : Type} (g : α → α → α) (ms : List κ) (f h : κ → α) :
    combine g (ms.map fun m => (m, f m)) (ms.map fun m => (m, h m)) = ms.map fun m => (m, g (f m) (h m)) := by
  unfold combine
  simp [List.zipWith_map]

/-- The first `k` entries of `v`, the others being zero. -/
def upTo (v : List K) (n k : ℕ) : List K := (List.range n).map fun i => if i < k then v.getD i 0 else 0

theorem upTo_succ (v : List K) (n k : ℕ) : upTo v n (k + 1) = lin 1 (v.getD k 0) (upTo v n k) (unitVec n k) := by
  unfold upTo unitVec
  rw [lin_map_nat]
  refine List.map_congr_left fun i _ => ?_
  rcases Nat.lt_trichotomy i k with h | h | h
  · simp [h, show i < k + 1 by omega, show i ≠ k by omega]
  · subst h; simp
  · simp [show ¬ i < k by omega, show ¬ i < k + 1 by omega, show i ≠ k by omega]
where
  lin_map_nat {a b : K} {x : List ℕ} {f g : ℕ → K} :
      lin a b (x.map f) (x.map g) = x.map fun i => a * f i + b * g i := by
    unfold lin
    simp [List.zipWith_map]

theorem upTo_zero (v : List K) (n : ℕ) : upTo v n 0 = lin 0 0 (unitVec n 0) (unitVec n 0) := by
  unfold upTo unitVec
  rw [upTo_succ.lin_map_nat]
  simp

theorem upTo_all (v : List K) : upTo v v.length v.length = v := by
  unfold upTo
  apply List.ext_getElem
  · simp
  · intro i h1 h2
    simp at h1
    simp [h1]

end

/-! ### The convolution of bispectra is linear -/

theorem traverse_of_mem {ε α β : Type} {f : α → Except ε β} : ∀ {l : List α} {r : List β},
    traverse f l = .ok r → ∀ b ∈ r, ∃ a ∈ l, f a = .ok b
  | [], r, h, b, hb => by
    simp [traverse] at h
    subst h; simp at hb
  | a :: l, r, h, b, hb => by
    unfold traverse at h
    cases hf : f a with
    | error e => simp [hf] at h
    | ok x =>
      cases ht : traverse f l with
      | error e => simp [hf, ht] at h
      | ok bs =>
        simp [hf, ht] at h
        subst h
        rcases List.mem_cons.mp hb with rfl | hb
        · exact ⟨a, by simp, hf⟩
        · obtain ⟨y, hy, e⟩ := traverse_of_mem ht b hb
          exact ⟨y, by simp [hy], e⟩

theorem apply_lin (T : Dsbt K) (a b : K) (x y : ℕ → ℕ → K) :
    T.apply (fun i j => a * x i j + b * y i j) = linMat a b (T.apply x) (T.apply y) := by
  have key : ∀ w : ℕ → ℕ → K, (∑ i ∈ Finset.range T.n, ∑ j ∈ Finset.range T.n, w i j * (a * x i j + b * y i j)) =
      a * (∑ i ∈ Finset.range T.n, ∑ j ∈ Finset.range T.n, w i j * x i j) +
      b * (∑ i ∈ Finset.range T.n, ∑ j ∈ Finset.range T.n, w i j * y i j) := by
    intro w
    simp only [Finset.mul_sum, ← Finset.sum_add_distrib]
    refine Finset.sum_congr rfl fun i _ => Finset.sum_congr rfl fun j _ => ?_
    ring
  unfold Dsbt.apply linMat
  simp only [Mat.mk.injEq, true_and]
  funext i j
  rw [key, key]

theorem backOne_lin (bwd : Multipole → Dsbt K) (a b : K) (d1 d2 : List (Multipole × Mat K))
    (hk : d1.map Prod.fst = d2.map Prod.fst) (z : Multipole) (p q : Key × Mat (K × K))
    (h1 : backOne bwd d1 z = .ok p) (h2 : backOne bwd d2 z = .ok q) :
    backOne bwd (combine (linK a b) d1 d2) z = .ok (p.1, linMat a b p.2 q.2) := by
  unfold backOne get at *
  rcases get?_combine (linK a b) d1 d2 hk z with ⟨e1, e2, e3⟩ | ⟨u, v, e1, e2, e3⟩
  · simp [e1] at h1
  · simp only [e1, Except.ok.injEq] at h1
    simp only [e2, Except.ok.injEq] at h2
    simp only [e3]
    subst h1; subst h2
    simp only [linK, apply_lin]

theorem conv3_shape [DecidableEq K] {I : Interp K} {B : Base K (Mat K)} {z : List (Key × Mat (K × K))}
    {ic : Option K} {o : List (Multipole × List (List K))} (h : conv3 I B z ic = .ok o) :
    o.map Prod.fst = B.F.multipoles ∧ ∀ p ∈ o, p.2.length = ((get? B.rOut p.1).getD []).length ∧
      ∀ row ∈ p.2, row.length = ((get? B.rOut p.1).getD []).length := by
  have key : ∀ ic, conv3Sum I B z ic = .ok o → o.map Prod.fst = B.F.multipoles ∧
      ∀ p ∈ o, p.2.length = ((get? B.rOut p.1).getD []).length ∧
      ∀ row ∈ p.2, row.length = ((get? B.rOut p.1).getD []).length := by
    intro ic h
    unfold conv3Sum at h
    constructor
    · have := traverse_fst Prod.fst id (by
        intro m b hb
        cases ho : get B.rOut m with
        | error e => simp [ho] at hb
        | ok out =>
          cases t1 : traverse (conv3Term I B z ic) (B.F.terms m) with
          | error e => simp [ho, t1] at hb
          | ok fs =>
            simp only [ho, t1, Except.ok.injEq] at hb
            subst hb; rfl) h
      simpa using this
    · intro p hp
      obtain ⟨m, _, hb⟩ := traverse_of_mem h p hp
      cases ho : get B.rOut m with
      | error e => simp [ho] at hb
      | ok out =>
        cases t1 : traverse (conv3Term I B z ic) (B.F.terms m) with
        | error e => simp [ho, t1] at hb
        | ok fs =>
          simp only [ho, t1, Except.ok.injEq] at hb
          subst hb
          have : get? B.rOut m = some out := by
            unfold get at ho
            cases hg : get? B.rOut m with
            | none => simp [hg] at ho
            | some x => simpa [hg] using ho
          simp [this]
  unfold conv3 at h
  by_cases hn : B.F.needsIc ∧ ic = none
  · rw [if_pos hn] at h
    cases hc : calcIc I B.rQ B.Q B.rIn z with
    | error e => simp [hc] at h
    | ok c => simp only [hc] at h; exact key _ h
  · rw [if_neg hn] at h
    exact key _ h

theorem lin2_getD (a b : K) (U V : List (List K)) (n : ℕ) (hU : U.length = n) (hV : V.length = n)
    (h1 : ∀ r ∈ U, r.length = n) (h2 : ∀ r ∈ V, r.length = n) (i j : ℕ) :
    ((lin2 a b U V).getD i []).getD j 0 = a * (U.getD i []).getD j 0 + b * (V.getD i []).getD j 0 := by
  unfold lin2
  by_cases hi : i < n
  · have e : (List.zipWith (lin a b) U V).getD i [] = lin a b (U.getD i []) (V.getD i []) := by
      simp [List.getElem?_zipWith, show i < U.length by omega, show i < V.length by omega]
    rw [e, lin_getD]
    have a1 : U.getD i [] ∈ U := by
      simp only [List.getD_eq_getElem?_getD, List.getElem?_eq_getElem (show i < U.length by omega), Option.getD_some]
      exact List.getElem_mem _
    have a2 : V.getD i [] ∈ V := by
      simp only [List.getD_eq_getElem?_getD, List.getElem?_eq_getElem (show i < V.length by omega), Option.getD_some]
      exact List.getElem_mem _
    rw [h1 _ a1, h2 _ a2]
  · have e1 : U.getD i [] = [] := by simp [show U.length ≤ i by omega]
    have e2 : V.getD i [] = [] := by simp [show V.length ≤ i by omega]
    have e3 : (List.zipWith (lin a b) U V).getD i [] = [] := by
      simp [List.getElem?_zipWith, show U.length ≤ i by omega]
    rw [e1, e2, e3]
    simp

theorem forthOne_lin (I : Interp K) (fwd : Multipole → Dsbt K) (kc : Multipole → List K) (kout : List K) (a b : K)
    (d1 d2 : List (Multipole × List (List K))) (N : Multipole → ℕ) (hk : d1.map Prod.fst = d2.map Prod.fst)
    (s1 : ∀ p ∈ d1, p.2.length = N p.1 ∧ ∀ row ∈ p.2, row.length = N p.1)
    (s2 : ∀ p ∈ d2, p.2.length = N p.1 ∧ ∀ row ∈ p.2, row.length = N p.1) (m : Multipole)
    (p q : Multipole × Mat (K × K))
    (h1 : forthOne I fwd kc kout d1 m = .ok p) (h2 : forthOne I fwd kc kout d2 m = .ok q) :
    forthOne I fwd kc kout (combine (lin2 a b) d1 d2) m = .ok (p.1, linO a b p.2 q.2) := by
  unfold forthOne get at *
  rcases get?_combine (lin2 a b) d1 d2 hk m with ⟨e1, e2, e3⟩ | ⟨u, v, e1, e2, e3⟩
  · simp [e1] at h1
  · simp only [e1, Except.ok.injEq] at h1
    simp only [e2, Except.ok.injEq] at h2
    simp only [e3]
    subst h1; subst h2
    have hu := s1 _ (get?_mem e1)
    have hv := s2 _ (get?_mem e2)
    have hl : ∀ i j, ((lin2 a b u v).getD i []).getD j 0 = a * (u.getD i []).getD j 0 + b * (v.getD i []).getD j 0 :=
      lin2_getD a b u v (N m) hu.1 hv.1 hu.2 hv.2
    simp only [hl, apply_lin]
    simp only [linO, linMat, spl2_lin, Except.ok.injEq, Prod.mk.injEq, Mat.mk.injEq, true_and]
    funext i j
    rfl

/-- `BispecWinConv.convolve`, with the integral constraint computed from the input or zero, is linear. -/
theorem bispecConv_linear [DecidableEq K] (I : Interp K) (B : Base K (Mat K)) (bwd fwd : Multipole → Dsbt K)
    (kc : Multipole → List K) (kout : List K) (ic : Option K) (hic : ic = none ∨ ic = some 0) :
    LinearConv B.F.multipoles kout.length (bispecConv I B bwd fwd kc kout ic) := by
  have hform : ∀ d o, bispecConv I B bwd fwd kc kout ic d = .ok o →
      ∃ zeta zc, traverse (backOne bwd d) B.F.zTrue = .ok zeta ∧ conv3 I B zeta ic = .ok zc ∧
        traverse (forthOne I fwd kc kout zc) B.F.multipoles = .ok o := by
    intro d o h
    unfold bispecConv at h
    cases hz : traverse (backOne bwd d) B.F.zTrue with
    | error e => simp [hz] at h
    | ok zeta =>
      cases hc : conv3 I B zeta ic with
      | error e => simp [hz, hc] at h
      | ok zc =>
        simp only [hz, hc] at h
        exact ⟨zeta, zc, rfl, hc, h⟩
  refine ⟨?_, ?_, ?_⟩
  · intro d o h
    obtain ⟨zeta, zc, _, _, h3⟩ := hform d o h
    have := traverse_fst Prod.fst id (by
      intro m b hb
      unfold forthOne at hb
      cases hg : get zc m with
      | error e => simp [hg] at hb
      | ok Z =>
        simp only [hg, Except.ok.injEq] at hb
        subst hb; rfl) h3
    simpa using this
  · intro d o h p hp
    obtain ⟨zeta, zc, _, _, h3⟩ := hform d o h
    obtain ⟨m, _, hb⟩ := traverse_of_mem h3 p hp
    unfold forthOne at hb
    cases hg : get zc m with
    | error e => simp [hg] at hb
    | ok Z =>
      simp only [hg, Except.ok.injEq] at hb
      subst hb
      exact ⟨rfl, rfl⟩
  · intro a b d1 d2 o1 o2 hk h1 h2
    obtain ⟨z1, c1, x1, y1, w1⟩ := hform d1 o1 h1
    obtain ⟨z2, c2, x2, y2, w2⟩ := hform d2 o2 h2
    have x3 := traverse_zip (f3 := backOne bwd (combine (linK a b) d1 d2)) (fun p q => (p.1, linMat a b p.2 q.2)) x1 x2
      fun z _ p q => backOne_lin bwd a b d1 d2 hk z p q
    have kz : ∀ d z, traverse (backOne bwd d) B.F.zTrue = .ok z → z.map Prod.fst = B.F.zTrue.map Key.mp := by
      intro d z hz
      refine traverse_fst Prod.fst Key.mp ?_ hz
      intro m b hb
      unfold backOne at hb
      cases hg : get d m with
      | error e => simp [hg] at hb
      | ok M =>
        simp only [hg, Except.ok.injEq] at hb
        subst hb; rfl
    have y3 := C52_linear3 I B z1 z2 a b ((kz d1 z1 x1).trans (kz d2 z2 x2).symm) ic ic rfl c1 c2 y1 y2
    have hmap : Option.map₂ (fun x y => a * x + b * y) ic ic = ic := by
      rcases hic with rfl | rfl
      · rfl
      · simp [Option.map₂]
    rw [hmap] at y3
    have sh1 := conv3_shape y1
    have sh2 := conv3_shape y2
    have w3 := traverse_zip (f3 := forthOne I fwd kc kout (combine (lin2 a b) c1 c2)) (fun p q => (p.1, linO a b p.2 q.2))
      w1 w2 fun m _ p q => forthOne_lin I fwd kc kout a b c1 c2
        (fun m => ((get? B.rOut m).getD []).length) (sh1.1.trans sh2.1.symm) sh1.2 sh2.2 m p q
    unfold bispecConv
    rw [x3]
    simp only [combine] at y3 w3 ⊢
    rw [y3]
    simp only [w3]

end Trv.Wc

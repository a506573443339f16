import Verif.Spec.Memory
import Mathlib.Tactic.Ring
import Mathlib.Tactic.Linarith
import Mathlib.Tactic.FieldSimp
import Mathlib.Tactic.SplitIfs
import Mathlib.Tactic.Positivity
/-
Lemmas on the accounting of memory and mesh grids.
-/
namespace Trv.Mem

open Spec

theorem ite_max {α : Type} [LinearOrder α] (a b : α) : (if a > b then a else b) = max b a := by
  rcases lt_or_ge b a with h | h
  · rw [if_pos h, max_eq_right h.le]
  · rw [if_neg (not_lt.2 h), max_eq_left h]

/-- The objects alive keep in their flags what they own. -/
def Good : Obj → Prop
  | .mesh nmesh _ order window => window = if order = -1 then none else some nmesh
  | .stats nmesh _ aliased aliasSn => aliasSn = if aliased then some nmesh else none
  | .cat ntotal pdata => ∀ n, pdata = some n → ntotal = n
  | _ => True

theorem total_append (f : Obj → ℕ) (h : List (Option Obj)) (o : Option Obj) :
    total f (h ++ [o]) = total f h + o.elim 0 f := by
  simp [total]

theorem total_set (f : Obj → ℕ) : ∀ (h : List (Option Obj)) (i : ℕ) (o : Obj) (x : Option Obj),
    (h[i]?).join = some o → total f (h.set i x) + f o = total f h + x.elim 0 f
  | [], i, o, x, hi => by simp at hi
  | a :: h, 0, o, x, hi => by
    have ha : a = some o := by simpa using hi
    subst ha
    simp [total]; omega
  | a :: h, i + 1, o, x, hi => by
    have := total_set f h i o x (by simpa using hi)
    simp only [total, List.set_cons_succ, List.map_cons, List.sum_cons] at this ⊢
    omega

/-- How a step changes the counters, and that objects stay good. -/
structure Moved (w w' : World) (sh : ℤ) : Prop where
  cg : w'.c.cgrid - w.c.cgrid = (total cgrids w'.heap : ℤ) - total cgrids w.heap
  rg : w'.c.rgrid - w.c.rgrid = (total rgrids w'.heap : ℤ) - total rgrids w.heap
  gr : w'.c.grid - w.c.grid =
    ((w'.c.cgrid - w.c.cgrid : ℤ) : ℚ) + ((w'.c.rgrid - w.c.rgrid : ℤ) : ℚ) / 2
  me : (w'.c.mem - w.c.mem) * 1073741824 =
    (((total bytes w'.heap : ℤ) - total bytes w.heap + 56 * sh : ℤ) : ℚ)
  xC : w.c.cgrid ≤ w.c.maxC → w'.c.maxC = max w.c.maxC w'.c.cgrid
  xR : w.c.rgrid ≤ w.c.maxR → w'.c.maxR = max w.c.maxR w'.c.rgrid
  xG : w.c.grid ≤ w.c.maxGrid → w'.c.maxGrid = max w.c.maxGrid w'.c.grid
  xM : w.c.mem ≤ w.c.maxMem → w'.c.maxMem = max w.c.maxMem w'.c.mem

theorem Moved.refl (w : World) : Moved w w 0 := by
  constructor <;> simp

/-- What counting does. -/
structure Up (c c' : Counters) (dc dr : ℤ) (db : ℤ) : Prop where
  cg : c'.cgrid = c.cgrid + dc
  rg : c'.rgrid = c.rgrid + dr
  gr : c'.grid = c.grid + dc + dr / 2
  me : c'.mem = c.mem + db / 1073741824
  xC : c.cgrid ≤ c.maxC → c'.maxC = max c.maxC c'.cgrid
  xR : c.rgrid ≤ c.maxR → c'.maxR = max c.maxR c'.rgrid
  xG : c.grid ≤ c.maxGrid → c'.maxGrid = max c.maxGrid c'.grid
  xM : c.mem ≤ c.maxMem → c'.maxMem = max c.maxMem c'.mem

theorem Up.refl (c : Counters) : Up c c 0 0 0 := by constructor <;> simp

theorem Up.congr {c c' : Counters} {a b d a' b' d' : ℤ} (h : Up c c' a b d) (h1 : a' = a) (h2 : b' = b)
    (h3 : d' = d) : Up c c' a' b' d' := by subst h1 h2 h3; exact h

/-- Two changes of the same direction. -/
theorem Up.trans_up {a b c : Counters} {d1 d2 d3 e1 e2 e3 : ℤ} (h : Up a b d1 d2 d3) (k : Up b c e1 e2 e3)
    (p1 : 0 ≤ e1) (p2 : 0 ≤ e2) (p3 : 0 ≤ e3) : Up a c (d1 + e1) (d2 + e2) (d3 + e3) := by
  have hg : b.grid ≤ c.grid := by
    rw [k.gr]
    have : (0 : ℚ) ≤ e1 := by exact_mod_cast p1
    have : (0 : ℚ) ≤ e2 := by exact_mod_cast p2
    linarith
  have hm : b.mem ≤ c.mem := by
    rw [k.me]
    have : (0 : ℚ) ≤ e3 := by exact_mod_cast p3
    have : (0 : ℚ) ≤ (e3 : ℚ) / 1073741824 := by positivity
    linarith
  have hc : b.cgrid ≤ c.cgrid := by rw [k.cg]; omega
  have hr : b.rgrid ≤ c.rgrid := by rw [k.rg]; omega
  refine ⟨by rw [k.cg, h.cg]; ring, by rw [k.rg, h.rg]; ring, by rw [k.gr, h.gr]; push_cast; ring,
    by rw [k.me, h.me]; push_cast; ring, fun x => ?_, fun x => ?_, fun x => ?_, fun x => ?_⟩
  · rw [k.xC (by rw [h.xC x]; exact le_max_right _ _), h.xC x, max_assoc, max_eq_right hc]
  · rw [k.xR (by rw [h.xR x]; exact le_max_right _ _), h.xR x, max_assoc, max_eq_right hr]
  · rw [k.xG (by rw [h.xG x]; exact le_max_right _ _), h.xG x, max_assoc, max_eq_right hg]
  · rw [k.xM (by rw [h.xM x]; exact le_max_right _ _), h.xM x, max_assoc, max_eq_right hm]

/-- Two changes, the first of which releases. -/
theorem Up.trans_down {a b c : Counters} {d1 d2 d3 e1 e2 e3 : ℤ} (h : Up a b d1 d2 d3)
    (k : Up b c e1 e2 e3) (p1 : d1 ≤ 0) (p2 : d2 ≤ 0) (p3 : d3 ≤ 0) :
    Up a c (d1 + e1) (d2 + e2) (d3 + e3) := by
  have hg : b.grid ≤ a.grid := by
    rw [h.gr]
    have : (d1 : ℚ) ≤ 0 := by exact_mod_cast p1
    have : (d2 : ℚ) ≤ 0 := by exact_mod_cast p2
    linarith
  have hm : b.mem ≤ a.mem := by
    rw [h.me]
    have : (d3 : ℚ) ≤ 0 := by exact_mod_cast p3
    linarith
  have hc : b.cgrid ≤ a.cgrid := by rw [h.cg]; omega
  have hr : b.rgrid ≤ a.rgrid := by rw [h.rg]; omega
  refine ⟨by rw [k.cg, h.cg]; ring, by rw [k.rg, h.rg]; ring, by rw [k.gr, h.gr]; push_cast; ring,
    by rw [k.me, h.me]; push_cast; ring, fun x => ?_, fun x => ?_, fun x => ?_, fun x => ?_⟩
  · rw [k.xC (by rw [h.xC x]; exact le_max_right _ _), h.xC x, max_eq_left (hc.trans x)]
  · rw [k.xR (by rw [h.xR x]; exact le_max_right _ _), h.xR x, max_eq_left (hr.trans x)]
  · rw [k.xG (by rw [h.xG x]; exact le_max_right _ _), h.xG x, max_eq_left (hg.trans x)]
  · rw [k.xM (by rw [h.xM x]; exact le_max_right _ _), h.xM x, max_eq_left (hm.trans x)]

theorem addMem_up (size : ℕ) (num : ℤ) (c : Counters) : Up c (addMem size num c) 0 0 (num * size) := by
  constructor <;> intros <;> simp [addMem, updMem, sizeInGb, ite_max, *]

theorem subMem_up (size : ℕ) (num : ℤ) (hn : 0 ≤ num) (c : Counters) :
    Up c (subMem size num c) 0 0 (-(num * size)) := by
  have : (0 : ℚ) ≤ sizeInGb size num := by
    have : (0 : ℚ) ≤ num := by exact_mod_cast hn
    unfold sizeInGb; positivity
  constructor <;> intros <;> simp [subMem, *]
  · simp [sizeInGb]; ring
  · linarith

theorem addC_up (n : ℤ) (c : Counters) : Up c (addC n c) n 0 0 := by
  constructor <;> intros <;> simp [addC, updGrid, ite_max, *]

theorem subC_up (n : ℤ) (hn : 0 ≤ n) (c : Counters) : Up c (subC n c) (-n) 0 0 := by
  have : (0 : ℚ) ≤ n := by exact_mod_cast hn
  constructor <;> intros <;> simp [subC, *]
  · ring
  · ring
  · omega
  · linarith

theorem addR_up (c : Counters) : Up c (addR c) 0 1 0 := by
  constructor <;> intros <;> simp [addR, updGrid, ite_max, *]

theorem subR_up (c : Counters) : Up c (subR c) 0 (-1) 0 := by
  constructor <;> intros <;> simp [subR, *]
  · ring
  · ring
  · omega
  · linarith

/-- From the change of the counters and of what is owned to the step. -/
theorem Moved.of {w : World} {c : Counters} {h : List (Option Obj)} {dc dr db sh : ℤ} (u : Up w.c c dc dr db)
    (hc : (total cgrids h : ℤ) = total cgrids w.heap + dc) (hr : (total rgrids h : ℤ) = total rgrids w.heap + dr)
    (hb : (total bytes h : ℤ) + 56 * sh = total bytes w.heap + db) : Moved w ⟨c, h⟩ sh := by
  refine ⟨?_, ?_, ?_, ?_, u.xC, u.xR, u.xG, u.xM⟩
  · show c.cgrid - _ = _; rw [u.cg, hc]; ring
  · show c.rgrid - _ = _; rw [u.rg, hr]; ring
  · show c.grid - _ = ((c.cgrid - _ : ℤ) : ℚ) + ((c.rgrid - _ : ℤ) : ℚ) / 2
    rw [u.gr, u.cg, u.rg]; push_cast; ring
  · show (c.mem - _) * _ = _
    rw [u.me]
    have : ((total bytes h : ℤ) - total bytes w.heap + 56 * sh : ℤ) = db := by linarith
    rw [this]; ring

theorem meshNew_up (n : ℕ) (b : Bool) (c : Counters) :
    Up c (meshNew n b c) (1 + if b then 1 else 0) 0 (16 * n * (1 + if b then 1 else 0)) := by
  have h1 := (addC_up 1 c).trans_up (addMem_up szComplex n (addC 1 c)) (by omega) (by omega) (by positivity)
  cases b
  · simpa [meshNew, szComplex, mul_comm] using h1
  · have h2 := (h1.trans_up (addC_up 1 _) (by omega) (by omega) (by omega)).trans_up
      (addMem_up szComplex n _) (by omega) (by omega) (by positivity)
    have e : (0 + (n : ℤ) * (szComplex : ℤ) + 0 + (n : ℤ) * (szComplex : ℤ)) =
      16 * n * (1 + if true then 1 else 0) := by simp [szComplex]; ring
    rw [e] at h2
    simpa [meshNew] using h2

theorem down2 (n : ℕ) (c : Counters) : Up c (subMem szComplex n (subC 1 c)) (-1) 0 (-(16 * n)) := by
  have := (subC_up 1 (by omega) c).trans_down (subMem_up szComplex n (by positivity) _) (by omega) (by omega)
    (by omega)
  simpa [szComplex, mul_comm] using this

theorem downR (n : ℕ) (c : Counters) : Up c (subMem szDouble n (subR c)) 0 (-1) (-(8 * n)) := by
  have := (subR_up c).trans_down (subMem_up szDouble n (by positivity) _) (by omega) (by omega) (by omega)
  simpa [szDouble, mul_comm] using this

theorem upR (n : ℕ) (c : Counters) : Up c (addMem szDouble n (addR c)) 0 1 (8 * n) := by
  have := (addR_up c).trans_up (addMem_up szDouble n _) (by omega) (by omega) (by positivity)
  simpa [szDouble, mul_comm] using this

/-- Releasing a good object takes away what it owns. -/
theorem drop_up (o : Obj) (ho : Good o) (c : Counters) :
    Up c (o.drop c) (-(cgrids o : ℤ)) (-(rgrids o : ℤ)) (-(bytes o : ℤ)) := by
  cases o with
  | mesh n sh ord win =>
    change win = _ at ho
    subst ho
    have ha : Up c (if ord ≠ -1 then subMem szDouble n (subR c) else c)
        (-0) (-(if ord = -1 then 0 else 1 : ℤ)) (-(8 * if ord = -1 then 0 else n : ℤ)) := by
      by_cases h : ord = -1
      · simpa [h] using Up.refl c
      · simpa [h] using downR n c
    have hb := ha.trans_down (down2 n _) (by omega) (by split_ifs <;> omega) (by split_ifs <;> omega)
    have hr : ((rgrids (.mesh n sh ord (if ord = -1 then none else some n)) : ℕ) : ℤ) =
        if ord = -1 then 0 else 1 := by
      simp only [rgrids, some1]; split_ifs <;> simp_all
    have hz : (((if ord = -1 then none else some n : Option ℕ).getD 0 : ℕ) : ℤ) =
        if ord = -1 then 0 else n := by split_ifs <;> simp
    cases sh
    · refine Up.congr (c' := _) hb (by simp [cgrids]) (by rw [hr]; ring) ?_
      simp only [bytes]; push_cast; rw [hz]; simp
    · have hc := hb.trans_down (down2 n _) (by omega) (by split_ifs <;> omega) (by split_ifs <;> omega)
      refine Up.congr (c' := _) hc (by simp [cgrids]) (by rw [hr]; ring) ?_
      simp only [bytes]; push_cast; rw [hz]; simp; ring
  | stats n plan al win =>
    change win = _ at ho
    subst ho
    have ha : Up c (if al then subMem szDouble n (subR c) else c)
        (-0) (-(if al then 1 else 0 : ℤ)) (-(8 * if al then n else 0 : ℤ)) := by
      cases al
      · simpa using Up.refl c
      · simpa using downR n c
    have hb := ha.trans_down (down2 n _) (by omega) (by split_ifs <;> omega) (by split_ifs <;> omega)
    cases plan <;> cases al <;>
      first
        | (simpa [Obj.drop, statsDrop, cgrids, rgrids, bytes, some1] using ha)
        | (simp only [Obj.drop, statsDrop]
           convert hb using 1 <;> simp [cgrids, rgrids, bytes, some1] <;> ring)
  | cat t p =>
    cases p with
    | none => simpa [Obj.drop, resetCat, cgrids, rgrids, bytes] using Up.refl c
    | some n =>
      have hn : t = n := ho n rfl
      subst hn
      have := subMem_up szParticle (n : ℤ) (by positivity) c
      simpa [Obj.drop, resetCat, cgrids, rgrids, bytes, szParticle, mul_comm] using this
  | buf s n =>
    have := subMem_up s (n : ℤ) (by positivity) c
    simpa [Obj.drop, cgrids, rgrids, bytes, mul_comm] using this
  | work n =>
    have := (subC_up 4 (by omega) c).trans_down (subMem_up szComplex (4 * n : ℤ) (by positivity) _) (by omega)
      (by omega) (by omega)
    refine Up.congr (c' := _) this (by simp [cgrids]) (by simp [rgrids]) ?_
    simp [bytes, szComplex]; ring

/-- All objects alive are good. -/
def GoodW (w : World) : Prop := ∀ i o, w.obj i = some o → Good o

theorem obj_append {w : World} {c : Counters} {x : Obj} {i : ℕ} {o : Obj}
    (h : World.obj ⟨c, w.heap ++ [some x]⟩ i = some o) : w.obj i = some o ∨ o = x := by
  simp only [World.obj, List.getElem?_append] at h ⊢
  split_ifs at h with hi
  · exact Or.inl h
  · rcases hk : i - w.heap.length with _ | k
    · rw [hk] at h; simp at h; exact Or.inr h.symm
    · rw [hk] at h; simp at h

theorem obj_set {w : World} {c : Counters} {x : Option Obj} {j i : ℕ} {o : Obj}
    (h : World.obj ⟨c, w.heap.set j x⟩ i = some o) : w.obj i = some o ∨ x = some o := by
  simp only [World.obj, List.getElem?_set] at h ⊢
  split_ifs at h with h1 h2
  · exact Or.inr (by simpa using h)
  · simp at h
  · exact Or.inl h

theorem step_moved (w : World) (hw : GoodW w) (op : Op) :
    Moved w (step w op) (shrink w op) ∧ GoodW (step w op) := by
  cases op with
  | newMesh n b =>
    refine ⟨Moved.of (meshNew_up n b w.c) ?_ ?_ ?_, fun i o h => ?_⟩
    · rw [total_append]; simp [cgrids]
    · rw [total_append]; simp [rgrids, some1]
    · rw [total_append]; simp [bytes, shrink]
    · rcases obj_append h with h | rfl
      · exact hw i o h
      · simp [Good]
  | window i ord =>
    rcases ho : w.obj i with _ | o
    · simp only [step, ho, shrink]; exact ⟨Moved.refl w, hw⟩
    · cases o with
      | mesh n sh old win =>
        have hg : win = _ := hw i _ ho
        simp only [step, ho, shrink]
        split_ifs with h1 h2 h3
        · exact ⟨Moved.refl w, hw⟩
        · exact ⟨Moved.refl w, hw⟩
        · rw [if_pos h3] at hg
          subst hg
          have hs := fun f => total_set f w.heap i _ (some (.mesh n sh ord (some n))) ho
          refine ⟨Moved.of (upR n w.c) ?_ ?_ ?_, fun j o h => ?_⟩
          · have := hs cgrids; simp [cgrids] at this; omega
          · have := hs rgrids; simp [rgrids, some1] at this; omega
          · have := hs bytes; simp [bytes] at this; push_cast; omega
          · rcases obj_set h with h | h
            · exact hw j o h
            · cases h; simp [Good]; omega
        · rw [if_neg h3] at hg
          subst hg
          have hs := fun f => total_set f w.heap i _ (some (.mesh n sh ord (some n))) ho
          refine ⟨Moved.of (Up.refl w.c) ?_ ?_ ?_, fun j o h => ?_⟩
          · have := hs cgrids; simp [cgrids] at this; omega
          · have := hs rgrids; simp [rgrids, some1] at this; omega
          · have := hs bytes; simp [bytes] at this; omega
          · rcases obj_set h with h | h
            · exact hw j o h
            · cases h; simp [Good]; omega
      | _ => simp only [step, ho, shrink]; exact ⟨Moved.refl w, hw⟩
  | newStats n b =>
    have hu : Up w.c (statsNew n b w.c) (if b then 1 else 0) 0 (16 * n * if b then 1 else 0) := by
      cases b
      · simpa [statsNew] using Up.refl w.c
      · have := (addC_up 1 w.c).trans_up (addMem_up szComplex n _) (by omega) (by omega) (by positivity)
        simpa [statsNew, szComplex, mul_comm] using this
    refine ⟨Moved.of hu ?_ ?_ ?_, fun i o h => ?_⟩
    · rw [total_append]; simp [cgrids]
    · rw [total_append]; simp [rgrids, some1]
    · rw [total_append]; simp [bytes, shrink]
    · rcases obj_append h with h | rfl
      · exact hw i o h
      · simp [Good]
  | aliasing i =>
    rcases ho : w.obj i with _ | o
    · simp only [step, ho, shrink]; exact ⟨Moved.refl w, hw⟩
    · cases o with
      | stats n plan al win =>
        have hg : win = _ := hw i _ ho
        simp only [step, ho, shrink]
        split_ifs with h1
        · exact ⟨Moved.refl w, hw⟩
        · rw [if_neg h1] at hg
          subst hg
          have hs := fun f => total_set f w.heap i _ (some (.stats n plan true (some n))) ho
          refine ⟨Moved.of (upR n w.c) ?_ ?_ ?_, fun j o h => ?_⟩
          · have := hs cgrids; simp [cgrids] at this; omega
          · have := hs rgrids; simp [rgrids, some1] at this; omega
          · have := hs bytes; simp [bytes] at this; push_cast; omega
          · rcases obj_set h with h | h
            · exact hw j o h
            · cases h; simp [Good]
      | _ => simp only [step, ho, shrink]; exact ⟨Moved.refl w, hw⟩
  | newCat =>
    refine ⟨Moved.of (Up.refl w.c) ?_ ?_ ?_, fun i o h => ?_⟩
    · rw [total_append]; simp [cgrids]
    · rw [total_append]; simp [rgrids]
    · rw [total_append]; simp [bytes, shrink]
    · rcases obj_append h with h | rfl
      · exact hw i o h
      · simp [Good]
  | initCat i num =>
    rcases ho : w.obj i with _ | o
    · simp only [step, ho, shrink]; exact ⟨Moved.refl w, hw⟩
    · cases o with
      | cat t p =>
        have hg : ∀ n, p = some n → t = n := hw i _ ho
        simp only [step, ho]
        split_ifs with h1
        · have : shrink w (.initCat i num) = 0 := by
            simp only [shrink, ho]
            cases p <;> simp <;> omega
          rw [this]
          exact ⟨Moved.refl w, hw⟩
        · have hs := fun f => total_set f w.heap i _ (some (.cat num (some num.toNat))) ho
          have hu : Up w.c (catInit num p w.c) 0 0 (if p.isSome then 0 else num * 56) := by
            have := addMem_up szParticle num (resetCat num p w.c)
            cases p with
            | none => simpa [catInit, resetCat, szParticle] using this
            | some n =>
              have h2 := (subMem_up szParticle num (by omega) w.c).trans_down this (by omega) (by omega)
                (by simp only [szParticle]; push_cast; omega)
              simpa [catInit, resetCat, szParticle] using h2
          refine ⟨Moved.of hu ?_ ?_ ?_, fun j o h => ?_⟩
          · have := hs cgrids; simp [cgrids] at this; omega
          · have := hs rgrids; simp [rgrids] at this; omega
          · have := hs bytes
            simp only [shrink, ho]
            have hn : (num.toNat : ℤ) = num := Int.toNat_of_nonneg (by omega)
            cases p with
            | none => simp [bytes] at this ⊢; omega
            | some n => simp [bytes, not_le.1 h1] at this ⊢; omega
          · rcases obj_set h with h | h
            · exact hw j o h
            · cases h
              intro n hn
              cases hn
              exact (Int.toNat_of_nonneg (by omega)).symm
      | _ => simp only [step, ho, shrink]; exact ⟨Moved.refl w, hw⟩
  | finalCat i =>
    rcases ho : w.obj i with _ | o
    · simp only [step, ho, shrink]; exact ⟨Moved.refl w, hw⟩
    · cases o with
      | cat t p =>
        simp only [step, ho, shrink]
        have hs := fun f => total_set f w.heap i _ (some (.cat t none)) ho
        refine ⟨Moved.of (drop_up (.cat t p) (hw i _ ho) w.c) ?_ ?_ ?_, fun j o h => ?_⟩
        · have := hs cgrids; simp [cgrids] at this ⊢; omega
        · have := hs rgrids; simp [rgrids] at this ⊢; omega
        · have := hs bytes; simp [bytes] at this ⊢; omega
        · rcases obj_set h with h | h
          · exact hw j o h
          · cases h; intro n hn; cases hn
      | _ => simp only [step, ho, shrink]; exact ⟨Moved.refl w, hw⟩
  | newBuf s n =>
    refine ⟨Moved.of (addMem_up s n w.c) ?_ ?_ ?_, fun i o h => ?_⟩
    · rw [total_append]; simp [cgrids]
    · rw [total_append]; simp [rgrids]
    · rw [total_append]; simp [bytes, shrink, mul_comm]
    · rcases obj_append h with h | rfl
      · exact hw i o h
      · simp [Good]
  | newWork n =>
    have hu := (addC_up 4 w.c).trans_up (addMem_up szComplex (4 * n) _) (by omega) (by omega)
      (by simp only [szComplex]; positivity)
    refine ⟨Moved.of hu ?_ ?_ ?_, fun i o h => ?_⟩
    · rw [total_append]; simp [cgrids]
    · rw [total_append]; simp [rgrids]
    · rw [total_append]; simp [bytes, shrink, szComplex]; ring
    · rcases obj_append h with h | rfl
      · exact hw i o h
      · simp [Good]
  | drop i =>
    rcases ho : w.obj i with _ | o
    · simp only [step, ho, shrink]; exact ⟨Moved.refl w, hw⟩
    · simp only [step, ho, shrink]
      have hs := fun f => total_set f w.heap i o none ho
      refine ⟨Moved.of (drop_up o (hw i _ ho) w.c) ?_ ?_ ?_, fun j o h => ?_⟩
      · have := hs cgrids; simp only [Option.elim] at this; omega
      · have := hs rgrids; simp only [Option.elim] at this; omega
      · have := hs bytes; simp only [Option.elim] at this; omega
      · rcases obj_set h with h | h
        · exact hw j o h
        · cases h

theorem run_append (ops : List Op) (op : Op) : run (ops ++ [op]) = step (run ops) op := by
  simp [run]

theorem shrunk_append (ops : List Op) (op : Op) :
    shrunk (ops ++ [op]) = shrunk ops + shrink (run ops) op := by
  have h : ∀ k ∈ List.range ops.length,
      ((ops ++ [op])[k]?).elim 0 (shrink (run ((ops ++ [op]).take k))) =
        (ops[k]?).elim 0 (shrink (run (ops.take k))) := by
    intro k hk
    have hk := List.mem_range.1 hk
    rw [List.getElem?_append_left hk, List.take_append_of_le_length hk.le]
  simp only [shrunk, List.length_append, List.length_cons, List.length_nil, Nat.zero_add,
    List.range_succ, List.map_append, List.sum_append, List.map_cons, List.map_nil, List.sum_cons,
    List.sum_nil, List.map_congr_left h]
  simp

theorem peak_append {α : Type} [LinearOrder α] {f : List Op → α} {ops : List Op} {x : α} (h : IsPeak f ops x)
    (op : Op) : IsPeak f (ops ++ [op]) (max x (f (ops ++ [op]))) := by
  have ht : ∀ k ≤ ops.length, (ops ++ [op]).take k = ops.take k := fun k hk =>
    List.take_append_of_le_length hk
  have he : (ops ++ [op]).take (ops.length + 1) = ops ++ [op] := by
    rw [List.take_of_length_le (by simp)]
  refine ⟨fun k hk => ?_, ?_⟩
  · rcases Nat.lt_or_ge ops.length k with hl | hl
    · have : k = ops.length + 1 := by simp at hk; omega
      rw [this, he]; exact le_max_right _ _
    · rw [ht k hl]; exact (h.1 k hl).trans (le_max_left _ _)
  · rcases le_total x (f (ops ++ [op])) with hl | hl
    · exact ⟨ops.length + 1, by simp, by rw [he, max_eq_right hl]⟩
    · obtain ⟨k, hk, e⟩ := h.2
      exact ⟨k, by simp; omega, by rw [ht k hk, e, max_eq_left hl]⟩

theorem peak_congr {α : Type} [LE α] {f g : List Op → α} {ops : List Op} {x : α} (h : IsPeak f ops x)
    (e : ∀ k ≤ ops.length, f (ops.take k) = g (ops.take k)) : IsPeak g ops x := by
  refine ⟨fun k hk => e k hk ▸ h.1 k hk, ?_⟩
  obtain ⟨k, hk, he⟩ := h.2
  exact ⟨k, hk, e k hk ▸ he⟩

/-- What holds after every history. -/
structure Inv (ops : List Op) : Prop where
  good : GoodW (run ops)
  cg : (run ops).c.cgrid = (total cgrids (run ops).heap : ℤ)
  rg : (run ops).c.rgrid = (total rgrids (run ops).heap : ℤ)
  gr : (run ops).c.grid = total cgrids (run ops).heap + (total rgrids (run ops).heap : ℚ) / 2
  me : (run ops).c.mem * 1073741824 = (((total bytes (run ops).heap : ℤ) + 56 * shrunk ops : ℤ) : ℚ)
  pC : IsPeak (fun o => (run o).c.cgrid) ops (run ops).c.maxC
  pR : IsPeak (fun o => (run o).c.rgrid) ops (run ops).c.maxR
  pG : IsPeak (fun o => (run o).c.grid) ops (run ops).c.maxGrid
  pM : IsPeak (fun o => (run o).c.mem) ops (run ops).c.maxMem

theorem inv (ops : List Op) : Inv ops := by
  induction ops using List.reverseRecOn with
  | nil =>
    have hp : ∀ {α : Type} [Preorder α] (f : List Op → α), IsPeak f [] (f []) := fun f =>
      ⟨fun k hk => by simp, 0, by simp, rfl⟩
    refine ⟨?_, rfl, rfl, ?_, ?_, hp _, hp _, hp _, hp _⟩
    · intro i o h; simp [run, World.init, World.obj] at h
    · simp [run, World.init, total]
    · simp [run, World.init, total, shrunk]
  | append_singleton ops op ih =>
    obtain ⟨hm, hg⟩ := step_moved (run ops) ih.good op
    have htop : ∀ {α : Type} [LE α] {f : List Op → α} {x : α}, IsPeak f ops x → f ops ≤ x := by
      intro α _ f x h
      have := h.1 ops.length le_rfl
      rwa [List.take_length] at this
    rw [← run_append] at hm hg
    have hc : (run (ops ++ [op])).c.cgrid = (total cgrids (run (ops ++ [op])).heap : ℤ) := by
      have := hm.cg; rw [ih.cg] at this; linarith
    have hr : (run (ops ++ [op])).c.rgrid = (total rgrids (run (ops ++ [op])).heap : ℤ) := by
      have := hm.rg; rw [ih.rg] at this; linarith
    refine ⟨hg, hc, hr, ?_, ?_, ?_, ?_, ?_, ?_⟩
    · have := hm.gr
      rw [ih.gr, ih.cg, ih.rg, hc, hr] at this
      push_cast at this
      linarith
    · have := hm.me
      have h2 := ih.me
      rw [shrunk_append]
      push_cast at this h2 ⊢
      linarith
    · rw [hm.xC (htop ih.pC)]; exact peak_append ih.pC op
    · rw [hm.xR (htop ih.pR)]; exact peak_append ih.pR op
    · rw [hm.xG (htop ih.pG)]; exact peak_append ih.pG op
    · rw [hm.xM (htop ih.pM)]; exact peak_append ih.pM op

theorem shrunk_zero (ops : List Op) (h : NoResize ops) : shrunk ops = 0 := by
  apply List.sum_eq_zero
  intro x hx
  obtain ⟨k, hk, rfl⟩ := List.mem_map.1 hx
  have hk := List.mem_range.1 hk
  rw [List.getElem?_eq_getElem hk]
  exact h k _ (List.getElem?_eq_getElem hk)

theorem noResize_take {ops : List Op} (h : NoResize ops) (k : ℕ) : NoResize (ops.take k) := by
  intro j op hj
  have hl : j < (ops.take k).length := (List.getElem?_eq_some_iff.1 hj).1
  have hjk : j < k := by simp at hl; omega
  rw [List.take_take, min_eq_left hjk.le]
  rw [List.getElem?_take_of_lt hjk] at hj
  exact h j op hj

end Trv.Mem

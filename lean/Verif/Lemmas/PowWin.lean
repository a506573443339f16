import Verif.Spec.PowWin
import Verif.Props.FftlogPy
/-
Lemmas on the window convolution of power spectra.
-/
namespace Trv.Wc

open Trv Trv.Fft

/-- The transform works on a new array. -/
def Fresh (S : Sbt) : Prop := S.outer = true ∧ S.ext.isSome

theorem transform_value (S : Sbt) (h : Heap) (id : ℕ) : (S.transform h id).2 = sbtValue S (h.arr id) := by
  unfold sbtValue Sbt.transform Sbt.source
  cases ho : S.outer with
  | false => exact work_congr S h _ id 0 rfl
  | true =>
    cases hx : S.ext with
    | none => exact work_congr S h _ id 0 rfl
    | some f =>
      simp only [if_true]
      cases hf : f (h.arr id) with
      | error e => rfl
      | ok l => exact work_congr S _ _ _ _ (by simp)

theorem work_next (S : Sbt) (h : Heap) (id : ℕ) : (S.work h id).1.next = h.next := by
  unfold Sbt.work
  split_ifs <;> rfl

theorem transform_next (S : Sbt) (h : Heap) (id : ℕ) : h.next ≤ (S.transform h id).1.next := by
  unfold Sbt.transform Sbt.source
  cases ho : S.outer with
  | false => exact (work_next S h id).ge
  | true =>
    cases hx : S.ext with
    | none => exact (work_next S h id).ge
    | some f =>
      simp only [if_true]
      cases hf : f (h.arr id) with
      | error e => exact le_refl _
      | ok l =>
        simp only
        rw [work_next]
        exact Nat.le_succ _

theorem transform_other (S : Sbt) (h : Heap) (id i : ℕ) (hi : i < h.next) (hn : Fresh S ∨ i ≠ id) :
    (S.transform h id).1.arr i = h.arr i := by
  unfold Sbt.transform Sbt.source
  cases ho : S.outer with
  | false =>
    have : i ≠ id := by
      rcases hn with hf | hn
      · rw [hf.1] at ho; cases ho
      · exact hn
    exact work_other S h id i this
  | true =>
    cases hx : S.ext with
    | none =>
      have : i ≠ id := by
        rcases hn with hf | hn
        · have := hf.2; rw [hx] at this; cases this
        · exact hn
      exact work_other S h id i this
    | some f =>
      simp only [if_true]
      cases hf : f (h.arr id) with
      | error e => rfl
      | ok l =>
        simp only
        rw [work_other _ _ _ _ (by omega)]
        simp only
        rw [if_neg (by omega)]

theorem cosmo_fst (d : ℤ) (f : Bool) (S : Sbt) (h : Heap) (id : ℕ) :
    (sbtCosmo d f S h id).1 = (S.transform h id).1 := by
  unfold sbtCosmo
  rcases S.transform h id with ⟨h', _ | ⟨k, v⟩⟩ <;> rfl

theorem cosmo_snd (d : ℤ) (f : Bool) (S : Sbt) (h : Heap) (id : ℕ) :
    (sbtCosmo d f S h id).2 = cosmoValue d f S (h.arr id) := by
  unfold sbtCosmo cosmoValue
  rw [← transform_value S h id]
  rcases S.transform h id with ⟨h', _ | ⟨k, v⟩⟩ <;> rfl

theorem get_contents {κ : Type} [DecidableEq κ] (h : Heap) (d : List (κ × ℕ)) (k : κ) :
    get (contents h d) k = match get d k with
      | .error e => .error e
      | .ok i => .ok (h.arr i) := by
  unfold get get? contents
  induction d with
  | nil => rfl
  | cons p d ih =>
    simp only [List.map_cons, List.find?_cons]
    by_cases hp : p.1 = k
    · simp [hp]
    · simpa [hp] using ih

theorem get_mem' {κ α : Type} [DecidableEq κ] {d : List (κ × α)} {k : κ} {a : α} (h : get d k = .ok a) :
    (k, a) ∈ d := by
  unfold get get? at h
  cases hf : d.find? fun p => p.1 = k with
  | none => rw [hf] at h; cases h
  | some p =>
    rw [hf] at h
    cases h
    have h1 := List.find?_some hf
    have h2 := List.mem_of_find?_eq_some hf
    simp only [decide_eq_true_eq] at h1
    rw [← h1]
    exact h2

/-- No two of the multipoles have the same array object. -/
def Apart (Pin : List (Key × ℕ)) (zs : List Multipole) : Prop :=
  zs.Pairwise fun z z' => ∀ i, get Pin (.mp z) = .ok i → get Pin (.mp z') ≠ .ok i

/-- The loop of backward transforms computes the specified values; array objects which are not
transformed in place are left as they were. -/
theorem backAll_spec (bsjt : List (Multipole × Sbt)) (Pin : List (Key × ℕ)) (P : List (Key × List ℝ))
    : ∀ (zs : List Multipole) (h : Heap),
    (∀ z ∈ zs, ∀ i, get Pin (.mp z) = .ok i → i < h.next ∧ get P (.mp z) = .ok (h.arr i)) →
    (∀ z ∈ zs, ∀ e, get Pin (.mp z) = .error e → get P (.mp z) = .error e) →
    ((∀ p ∈ bsjt, Fresh p.2) ∨ Apart Pin zs) →
    (backAll bsjt Pin zs h).2 = traverse (backSpec bsjt P) zs ∧
    h.next ≤ (backAll bsjt Pin zs h).1.next ∧
    (∀ i < h.next, ((∀ p ∈ bsjt, Fresh p.2) ∨ ∀ z ∈ zs, get Pin (.mp z) ≠ .ok i) →
      (backAll bsjt Pin zs h).1.arr i = h.arr i)
  | [], h, _, _, _ => ⟨rfl, le_refl _, fun _ _ _ => rfl⟩
  | z :: zs, h, hP, hE, hA => by
    unfold backAll traverse
    generalize hT : traverse (backSpec bsjt P) zs = T
    unfold backSpec
    cases hd : degree0 z with
    | error e => exact ⟨rfl, le_refl _, fun _ _ _ => rfl⟩
    | ok d =>
      cases hS : get bsjt z with
      | error e => exact ⟨rfl, le_refl _, fun _ _ _ => rfl⟩
      | ok S =>
        cases hi : get Pin (.mp z) with
        | error e =>
          rw [hE z (by simp) e hi]
          exact ⟨rfl, le_refl _, fun _ _ _ => rfl⟩
        | ok id =>
          obtain ⟨hlt, hx⟩ := hP z (by simp) id hi
          rw [hx]
          simp only
          have e1 := cosmo_fst d false S h id
          have e2 := cosmo_snd d false S h id
          rw [← e2]
          have hother : ∀ i < h.next, ((∀ p ∈ bsjt, Fresh p.2) ∨ i ≠ id) →
              (sbtCosmo d false S h id).1.arr i = h.arr i := by
            intro i hi' hc
            rw [e1]
            exact transform_other S h id i hi' (hc.imp (fun f => f _ (get_mem' hS)) fun x => x)
          have hnext : h.next ≤ (sbtCosmo d false S h id).1.next := by
            rw [e1]; exact transform_next S h id
          generalize sbtCosmo d false S h id = r at hother hnext
          obtain ⟨h', _ | ⟨k, v⟩⟩ := r
          · refine ⟨rfl, hnext, fun i hi' hc => hother i hi' (hc.imp (fun x => x) fun g => ?_)⟩
            intro hii
            exact g z (by simp) (by rw [hi, hii])
          · simp only at hother hnext ⊢
            have IH := backAll_spec bsjt Pin P zs h' (by
              intro z' hz' i hi'
              obtain ⟨g1, g2⟩ := hP z' (by simp [hz']) i hi'
              refine ⟨lt_of_lt_of_le g1 hnext, ?_⟩
              rw [g2, hother i g1]
              rcases hA with hA | hA
              · exact Or.inl hA
              · right
                intro hii
                exact (List.pairwise_cons.1 hA).1 z' hz' id hi (by rw [hi', hii]))
              (fun z' hz' => hE z' (by simp [hz']))
              (hA.imp (fun x => x) fun g => (List.pairwise_cons.1 g).2)
            obtain ⟨i1, i2, i3⟩ := IH
            have harr : ∀ i < h.next, ((∀ p ∈ bsjt, Fresh p.2) ∨ ∀ z' ∈ z :: zs, get Pin (.mp z') ≠ .ok i) →
                (backAll bsjt Pin zs h').1.arr i = h.arr i := by
              intro i hi' hc
              rw [i3 i (lt_of_lt_of_le hi' hnext) (hc.imp (fun x => x) fun g z' hz' => g z' (by simp [hz'])),
                hother i hi' (hc.imp (fun x => x) fun g hii => g z (by simp) (by rw [hi, hii]))]
            rw [← hT, ← i1]
            generalize backAll bsjt Pin zs h' = s at i2 harr
            obtain ⟨h'', _ | l⟩ := s
            · exact ⟨rfl, hnext.trans i2, harr⟩
            · exact ⟨rfl, hnext.trans i2, harr⟩

/-- The array objects made for the convolved correlation functions hold them, and the others are as they
were. -/
theorem allocAll_spec : ∀ (l : List (Multipole × List ℝ)) (h : Heap),
    contents (allocAll l h).1 (allocAll l h).2 = l ∧
    (allocAll l h).2.map Prod.fst = l.map Prod.fst ∧
    h.next ≤ (allocAll l h).1.next ∧
    (∀ p ∈ (allocAll l h).2, h.next ≤ p.2 ∧ p.2 < (allocAll l h).1.next) ∧
    ((allocAll l h).2.map Prod.snd).Nodup ∧
    ∀ i < h.next, (allocAll l h).1.arr i = h.arr i
  | [], h => ⟨rfl, rfl, le_refl _, by simp [allocAll], by simp [allocAll], fun _ _ => rfl⟩
  | (m, x) :: l, h => by
    obtain ⟨i1, i2, i3, i4, i5, i6⟩ := allocAll_spec l ⟨fun i => if i = h.next then x else h.arr i, h.next + 1⟩
    unfold allocAll
    simp only at i3 i4 i6 ⊢
    refine ⟨?_, by simp [i2], by omega, ?_, ?_, ?_⟩
    · unfold contents at i1 ⊢
      simp only [List.map_cons, List.cons.injEq, Prod.mk.injEq, true_and]
      refine ⟨?_, i1⟩
      rw [i6 _ (by omega)]
      simp
    · intro p hp
      rcases List.mem_cons.1 hp with rfl | hp
      · exact ⟨le_refl _, by simpa using i3⟩
      · have := i4 p hp
        exact ⟨by omega, this.2⟩
    · simp only [List.map_cons, List.nodup_cons]
      refine ⟨?_, i5⟩
      intro hm
      obtain ⟨p, hp, he⟩ := List.mem_map.1 hm
      have := (i4 p hp).1
      omega
    · intro i hi
      rw [i6 i (by omega)]
      rw [if_neg (by omega)]

/-- The loop of forward transforms. -/
theorem forthAll_spec (I : Interp ℝ) (fsjt : List (Multipole × Sbt)) (kout : List ℝ) (xi : List (Multipole × ℕ))
    (conv : List (Multipole × List ℝ)) : ∀ (ms : List Multipole) (h : Heap),
    (∀ m ∈ ms, ∀ i, get xi m = .ok i → i < h.next ∧ get conv m = .ok (h.arr i)) →
    (∀ m ∈ ms, ∀ e, get xi m = .error e → get conv m = .error e) →
    ((∀ p ∈ fsjt, Fresh p.2) ∨ ms.Pairwise fun m m' => ∀ i, get xi m = .ok i → get xi m' ≠ .ok i) →
    (forthAll I fsjt kout xi ms h).2 = traverse (forthSpec I fsjt kout conv) ms ∧
    h.next ≤ (forthAll I fsjt kout xi ms h).1.next ∧
    (∀ i < h.next, ((∀ p ∈ fsjt, Fresh p.2) ∨ ∀ m ∈ ms, get xi m ≠ .ok i) →
      (forthAll I fsjt kout xi ms h).1.arr i = h.arr i)
  | [], h, _, _, _ => ⟨rfl, le_refl _, fun _ _ _ => rfl⟩
  | m :: ms, h, hP, hE, hA => by
    unfold forthAll traverse
    generalize hT : traverse (forthSpec I fsjt kout conv) ms = T
    unfold forthSpec
    cases hd : degree0 m with
    | error e => exact ⟨rfl, le_refl _, fun _ _ _ => rfl⟩
    | ok d =>
      cases hS : get fsjt m with
      | error e => exact ⟨rfl, le_refl _, fun _ _ _ => rfl⟩
      | ok S =>
        cases hi : get xi m with
        | error e =>
          rw [hE m (by simp) e hi]
          exact ⟨rfl, le_refl _, fun _ _ _ => rfl⟩
        | ok id =>
          obtain ⟨hlt, hx⟩ := hP m (by simp) id hi
          rw [hx]
          simp only
          have e1 := cosmo_fst d true S h id
          have e2 := cosmo_snd d true S h id
          rw [← e2]
          have hother : ∀ i < h.next, ((∀ p ∈ fsjt, Fresh p.2) ∨ i ≠ id) →
              (sbtCosmo d true S h id).1.arr i = h.arr i := by
            intro i hi' hc
            rw [e1]
            exact transform_other S h id i hi' (hc.imp (fun f => f _ (get_mem' hS)) fun x => x)
          have hnext : h.next ≤ (sbtCosmo d true S h id).1.next := by
            rw [e1]; exact transform_next S h id
          generalize sbtCosmo d true S h id = r at hother hnext
          obtain ⟨h', _ | ⟨k, v⟩⟩ := r
          · refine ⟨rfl, hnext, fun i hi' hc => hother i hi' (hc.imp (fun x => x) fun g => ?_)⟩
            intro hii
            exact g m (by simp) (by rw [hi, hii])
          · simp only at hother hnext ⊢
            have IH := forthAll_spec I fsjt kout xi conv ms h' (by
              intro m' hm' i hi'
              obtain ⟨g1, g2⟩ := hP m' (by simp [hm']) i hi'
              refine ⟨lt_of_lt_of_le g1 hnext, ?_⟩
              rw [g2, hother i g1]
              rcases hA with hA | hA
              · exact Or.inl hA
              · right
                intro hii
                exact (List.pairwise_cons.1 hA).1 m' hm' id hi (by rw [hi', hii]))
              (fun m' hm' => hE m' (by simp [hm']))
              (hA.imp (fun x => x) fun g => (List.pairwise_cons.1 g).2)
            obtain ⟨i1, i2, i3⟩ := IH
            have harr : ∀ i < h.next, ((∀ p ∈ fsjt, Fresh p.2) ∨ ∀ m' ∈ m :: ms, get xi m' ≠ .ok i) →
                (forthAll I fsjt kout xi ms h').1.arr i = h.arr i := by
              intro i hi' hc
              rw [i3 i (lt_of_lt_of_le hi' hnext) (hc.imp (fun x => x) fun g m' hm' => g m' (by simp [hm'])),
                hother i hi' (hc.imp (fun x => x) fun g hii => g m (by simp) (by rw [hi, hii]))]
            rw [← hT, ← i1]
            generalize forthAll I fsjt kout xi ms h' = s at i2 harr
            obtain ⟨h'', _ | l⟩ := s
            · exact ⟨rfl, hnext.trans i2, harr⟩
            · exact ⟨rfl, hnext.trans i2, harr⟩

/-- The transform works on the array passed. -/
def InPlace (S : Sbt) : Prop := S.outer = false ∨ S.ext = none

/-- What an array passed to a transform in place is afterwards. -/
noncomputable def scaled (S : Sbt) (x : List ℝ) : List ℝ :=
  List.zipWith (fun x r : ℝ => x * r ^ (3 / 2 : ℝ)) x S.fbht.pre

theorem transform_inplace {S : Sbt} (hS : InPlace S) {h : Heap} {id : ℕ} {r : List ℝ × List ℂ}
    (hr : (S.transform h id).2 = .ok r) : (S.transform h id).1.arr id = scaled S (h.arr id) := by
  refine C49_mutated_violated S h id hS ?_
  have hsrc : S.source h id = .ok (h, id) := by
    unfold Sbt.source
    rcases hS with hs | hs
    · rw [hs]; rfl
    · rw [hs]; split_ifs <;> rfl
  unfold Sbt.transform at hr
  rw [hsrc] at hr
  simp only at hr
  unfold Sbt.work at hr
  by_contra hl
  rw [if_pos hl] at hr
  cases hr

theorem cosmo_ok {d : ℤ} {f : Bool} {S : Sbt} {h h' : Heap} {id : ℕ} {r : List ℝ × List ℂ}
    (hr : sbtCosmo d f S h id = (h', .ok r)) : ∃ r', S.transform h id = (h', .ok r') := by
  unfold sbtCosmo at hr
  rcases hs : S.transform h id with ⟨h1, _ | r'⟩
  · rw [hs] at hr; cases hr
  · rw [hs] at hr
    obtain ⟨k, v⟩ := r'
    cases hr
    exact ⟨_, rfl⟩

theorem backAll_inplace (bsjt : List (Multipole × Sbt)) (hb : ∀ p ∈ bsjt, InPlace p.2) (Pin : List (Key × ℕ)) :
    ∀ (zs : List Multipole) (h h' : Heap) (l : List (Key × List ℂ)), Apart Pin zs →
    (∀ z ∈ zs, ∀ i, get Pin (.mp z) = .ok i → i < h.next) →
    backAll bsjt Pin zs h = (h', .ok l) →
    ∀ z ∈ zs, ∃ i S, get Pin (.mp z) = .ok i ∧ get bsjt z = .ok S ∧ h'.arr i = scaled S (h.arr i)
  | [], _, _, _, _, _, _ => by simp
  | z :: zs, h, h', l, hA, hlt, hr => by
    unfold backAll at hr
    cases hd : degree0 z with
    | error e => simp only [hd] at hr; cases hr
    | ok d =>
      cases hS : get bsjt z with
      | error e => simp only [hd, hS] at hr; cases hr
      | ok S =>
        cases hi : get Pin (.mp z) with
        | error e => simp only [hd, hS, hi] at hr; cases hr
        | ok id =>
          simp only [hd, hS, hi] at hr
          have hidlt := hlt z (by simp) id hi
          rcases hc : sbtCosmo d false S h id with ⟨h1, _ | ⟨k, v⟩⟩
          · rw [hc] at hr; cases hr
          rw [hc] at hr
          simp only at hr
          rcases hb1 : backAll bsjt Pin zs h1 with ⟨h2, _ | l'⟩
          · rw [hb1] at hr; cases hr
          rw [hb1] at hr
          cases hr
          obtain ⟨r', ht⟩ := cosmo_ok hc
          have hnext : h.next ≤ h1.next := by
            have := transform_next S h id
            rw [ht] at this
            exact this
          have hSi := hb _ (get_mem' hS)
          have h1id : h1.arr id = scaled S (h.arr id) := by
            have := transform_inplace hSi (h := h) (id := id) (r := r') (by rw [ht])
            rw [ht] at this
            exact this
          have h1o : ∀ i < h.next, i ≠ id → h1.arr i = h.arr i := by
            intro i hi' hne
            have := transform_other S h id i hi' (Or.inr hne)
            rw [ht] at this
            exact this
          have hlt1 : ∀ z' ∈ zs, ∀ i, get Pin (.mp z') = .ok i → i < h1.next := fun z' hz' i hi' =>
            lt_of_lt_of_le (hlt z' (by simp [hz']) i hi') hnext
          have hA' := (List.pairwise_cons.1 hA)
          have IH := backAll_inplace bsjt hb Pin zs h1 _ l' hA'.2 hlt1 hb1
          intro z' hz'
          rcases List.mem_cons.1 hz' with rfl | hz'
          · refine ⟨id, S, hi, hS, ?_⟩
            have := (backAll_spec bsjt Pin (contents h1 Pin) zs h1 (by
              intro z'' hz'' i hi'
              refine ⟨hlt1 z'' hz'' i hi', ?_⟩
              rw [get_contents, hi']) (by
              intro z'' _ e he
              rw [get_contents, he]) (Or.inr hA'.2)).2.2 id (lt_of_lt_of_le hidlt hnext)
              (Or.inr fun z'' hz'' => hA'.1 z'' hz'' id hi)
            rw [hb1] at this
            rw [← h1id, ← this]
          · obtain ⟨i, S', g1, g2, g3⟩ := IH z' hz'
            refine ⟨i, S', g1, g2, ?_⟩
            rw [g3, h1o i (hlt z' (by simp [hz']) i g1)]
            intro hii
            exact hA'.1 z' hz' id hi (by rw [g1, hii])

theorem forthAll_inplace (I : Interp ℝ) (fsjt : List (Multipole × Sbt)) (hb : ∀ p ∈ fsjt, InPlace p.2) (kout : List ℝ)
    (xi : List (Multipole × ℕ)) : ∀ (ms : List Multipole) (h h' : Heap) (l : List (Multipole × List ℂ)),
    (ms.Pairwise fun m m' => ∀ i, get xi m = .ok i → get xi m' ≠ .ok i) →
    (∀ m ∈ ms, ∀ i, get xi m = .ok i → i < h.next) →
    forthAll I fsjt kout xi ms h = (h', .ok l) →
    ∀ m ∈ ms, ∃ i S, get xi m = .ok i ∧ get fsjt m = .ok S ∧ h'.arr i = scaled S (h.arr i)
  | [], _, _, _, _, _, _ => by simp
  | z :: zs, h, h', l, hA, hlt, hr => by
    unfold forthAll at hr
    cases hd : degree0 z with
    | error e => simp only [hd] at hr; cases hr
    | ok d =>
      cases hS : get fsjt z with
      | error e => simp only [hd, hS] at hr; cases hr
      | ok S =>
        cases hi : get xi z with
        | error e => simp only [hd, hS, hi] at hr; cases hr
        | ok id =>
          simp only [hd, hS, hi] at hr
          have hidlt := hlt z (by simp) id hi
          rcases hc : sbtCosmo d true S h id with ⟨h1, _ | ⟨k, v⟩⟩
          · rw [hc] at hr; cases hr
          rw [hc] at hr
          simp only at hr
          rcases hb1 : forthAll I fsjt kout xi zs h1 with ⟨h2, _ | l'⟩
          · rw [hb1] at hr; cases hr
          rw [hb1] at hr
          cases hr
          obtain ⟨r', ht⟩ := cosmo_ok hc
          have hnext : h.next ≤ h1.next := by
            have := transform_next S h id
            rw [ht] at this
            exact this
          have hSi := hb _ (get_mem' hS)
          have h1id : h1.arr id = scaled S (h.arr id) := by
            have := transform_inplace hSi (h := h) (id := id) (r := r') (by rw [ht])
            rw [ht] at this
            exact this
          have h1o : ∀ i < h.next, i ≠ id → h1.arr i = h.arr i := by
            intro i hi' hne
            have := transform_other S h id i hi' (Or.inr hne)
            rw [ht] at this
            exact this
          have hlt1 : ∀ z' ∈ zs, ∀ i, get xi z' = .ok i → i < h1.next := fun z' hz' i hi' =>
            lt_of_lt_of_le (hlt z' (by simp [hz']) i hi') hnext
          have hA' := (List.pairwise_cons.1 hA)
          have IH := forthAll_inplace I fsjt hb kout xi zs h1 _ l' hA'.2 hlt1 hb1
          intro z' hz'
          rcases List.mem_cons.1 hz' with rfl | hz'
          · refine ⟨id, S, hi, hS, ?_⟩
            have := (forthAll_spec I fsjt kout xi (contents h1 xi) zs h1 (by
              intro z'' hz'' i hi'
              refine ⟨hlt1 z'' hz'' i hi', ?_⟩
              rw [get_contents, hi']) (by
              intro z'' _ e he
              rw [get_contents, he]) (Or.inr hA'.2)).2.2 id (lt_of_lt_of_le hidlt hnext)
              (Or.inr fun z'' hz'' => hA'.1 z'' hz'' id hi)
            rw [hb1] at this
            rw [← h1id, ← this]
          · obtain ⟨i, S', g1, g2, g3⟩ := IH z' hz'
            refine ⟨i, S', g1, g2, ?_⟩
            rw [g3, h1o i (hlt z' (by simp [hz']) i g1)]
            intro hii
            exact hA'.1 z' hz' id hi (by rw [g1, hii])

/-- Distinct multipoles have distinct new array objects. -/
theorem alloc_apart (conv : List (Multipole × List ℝ)) (h : Heap) {ms : List Multipole} (hn : ms.Nodup) :
    ms.Pairwise fun m m' => ∀ i, get (allocAll conv h).2 m = .ok i → get (allocAll conv h).2 m' ≠ .ok i := by
  have hnd := (allocAll_spec conv h).2.2.2.2.1
  refine hn.imp fun {m m'} hne i h1 h2 => hne ?_
  have e1 := get_mem' h1
  have e2 := get_mem' h2
  have := List.inj_on_of_nodup_map hnd e1 e2 rfl
  exact congrArg Prod.fst this

end Trv.Wc

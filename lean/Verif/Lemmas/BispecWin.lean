import Verif.Spec.BispecWin
import Verif.Lemmas.PowWin
/-
Lemmas on the window convolution of bispectra.
-/
namespace Trv.Wc

open Trv Trv.Fft

/-- The transform leaves the array passed to it as it is. -/
def Keeps (D : Dsbt) : Prop := ∀ m, (D.transform m).1 = m

theorem cosmo_keeps {D : Dsbt} (h : Keeps D) (fwd : Bool) (m : List (List ℂ)) : (D.cosmo fwd m).1 = m := h m

theorem get_contents2 {κ : Type} [DecidableEq κ] (h : MHeap) (d : List (κ × ℕ)) (k : κ) :
    get (contents2 h d) k = match get d k with
      | .error e => .error e
      | .ok i => .ok (h.arr i) := by
  unfold get get? contents2
  induction d with
  | nil => rfl
  | cons p d ih =>
    simp only [List.map_cons, List.find?_cons]
    by_cases hp : p.1 = k
    · simp [hp]
    · simpa [hp] using ih

/-- No two of the multipoles have the same array object. -/
def Apart2 {κ : Type} [DecidableEq κ] (key : Multipole → κ) (A : List (κ × ℕ)) (zs : List Multipole) : Prop :=
  zs.Pairwise fun z z' => ∀ i, get A (key z) = .ok i → get A (key z') ≠ .ok i

/-- The loop of transforms computes the specified values; array objects which are not transformed in place
are left as they were, and no array object is made. -/
theorem runAll_spec {κ β : Type} [DecidableEq κ] (T : List (Multipole × Dsbt)) (fwd : Bool) (key : Multipole → κ)
    (post : Dsbt → List (List ℂ) → Except Err β) (A : List (κ × ℕ)) (P : List (κ × List (List ℂ))) :
    ∀ (zs : List Multipole) (h : MHeap),
    (∀ z ∈ zs, get P (key z) = match get A (key z) with
      | .error e => .error e
      | .ok i => .ok (h.arr i)) →
    ((∀ p ∈ T, Keeps p.2) ∨ Apart2 key A zs) →
    (runAll T fwd key post A zs h).2 = traverse (runSpec T fwd key post P) zs ∧
    (runAll T fwd key post A zs h).1.next = h.next ∧
    (∀ i, ((∀ p ∈ T, Keeps p.2) ∨ ∀ z ∈ zs, get A (key z) ≠ .ok i) → (runAll T fwd key post A zs h).1.arr i = h.arr i)
  | [], h, _, _ => ⟨rfl, rfl, fun _ _ => rfl⟩
  | z :: zs, h, hP, hA => by
    unfold runAll traverse
    generalize hT : traverse (runSpec T fwd key post P) zs = U
    unfold runSpec
    have hz := hP z (by simp)
    cases hS : get T z with
    | error e => exact ⟨rfl, rfl, fun _ _ => rfl⟩
    | ok D =>
      cases hi : get A (key z) with
      | error e =>
        rw [hi] at hz
        rw [hz]
        exact ⟨rfl, rfl, fun _ _ => rfl⟩
      | ok id =>
        rw [hi] at hz
        rw [hz]
        simp only
        have hother : ∀ i, ((∀ p ∈ T, Keeps p.2) ∨ i ≠ id) → (h.set id (D.cosmo fwd (h.arr id)).1).arr i = h.arr i := by
          intro i hc
          unfold MHeap.set
          simp only
          split_ifs with hii
          · rcases hc with hc | hc
            · rw [cosmo_keeps (hc _ (get_mem' hS)), hii]
            · exact absurd hii hc
          · rfl
        generalize D.cosmo fwd (h.arr id) = r at hother
        have hfst : ∀ i, ((∀ p ∈ T, Keeps p.2) ∨ ∀ z' ∈ z :: zs, get A (key z') ≠ .ok i) →
            (h.set id r.1).arr i = h.arr i := by
          intro i hc
          refine hother i (hc.imp (fun x => x) fun g hii => ?_)
          exact g z (by simp) (by rw [hi, hii])
        obtain ⟨x, _ | ⟨k, s⟩⟩ := r
        · exact ⟨rfl, rfl, hfst⟩
        · simp only at hother hfst ⊢
          cases hpost : post D s with
          | error e => exact ⟨rfl, rfl, hfst⟩
          | ok b =>
            simp only
            have IH := runAll_spec T fwd key post A P zs (h.set id x) (by
              intro z' hz'
              have g2 := hP z' (by simp [hz'])
              rw [g2]
              cases hi' : get A (key z') with
              | error e => rfl
              | ok i =>
                simp only
                rw [hother i]
                rcases hA with hA | hA
                · exact Or.inl hA
                · right
                  intro hii
                  exact (List.pairwise_cons.1 hA).1 z' hz' id hi (by rw [hi', hii]))
              (hA.imp (fun x => x) fun g => (List.pairwise_cons.1 g).2)
            obtain ⟨i1, i2, i3⟩ := IH
            have harr : ∀ i, ((∀ p ∈ T, Keeps p.2) ∨ ∀ z' ∈ z :: zs, get A (key z') ≠ .ok i) →
                (runAll T fwd key post A zs (h.set id x)).1.arr i = h.arr i := by
              intro i hc
              rw [i3 i (hc.imp (fun x => x) fun g z' hz' => g z' (by simp [hz'])), hfst i hc]
            rw [← hT, ← i1]
            generalize runAll T fwd key post A zs (h.set id x) = w at i2 harr
            obtain ⟨h'', _ | l⟩ := w
            · exact ⟨rfl, i2, harr⟩
            · exact ⟨rfl, i2, harr⟩

/-- A loop of transforms leaves the arrays which are not transformed in place as they were. -/
theorem runAll_other {κ β : Type} [DecidableEq κ] (T : List (Multipole × Dsbt)) (fwd : Bool) (key : Multipole → κ)
    (post : Dsbt → List (List ℂ) → Except Err β) (A : List (κ × ℕ)) (i : ℕ) : ∀ (zs : List Multipole) (h : MHeap),
    ((∀ p ∈ T, Keeps p.2) ∨ ∀ z ∈ zs, get A (key z) ≠ .ok i) →
    (runAll T fwd key post A zs h).1.arr i = h.arr i ∧ (runAll T fwd key post A zs h).1.next = h.next
  | [], h, _ => ⟨rfl, rfl⟩
  | z :: zs, h, hA => by
    unfold runAll
    cases hS : get T z with
    | error e => exact ⟨rfl, rfl⟩
    | ok D =>
      cases hi : get A (key z) with
      | error e => exact ⟨rfl, rfl⟩
      | ok id =>
        simp only
        have hother : (h.set id (D.cosmo fwd (h.arr id)).1).arr i = h.arr i := by
          unfold MHeap.set
          simp only
          split_ifs with hii
          · rcases hA with hc | hc
            · rw [cosmo_keeps (hc _ (get_mem' hS)), hii]
            · exact absurd (by rw [hi, hii]) (hc z (by simp))
          · rfl
        generalize D.cosmo fwd (h.arr id) = r at hother
        obtain ⟨x, _ | ⟨k, s⟩⟩ := r
        · exact ⟨hother, rfl⟩
        · simp only at hother ⊢
          cases hpost : post D s with
          | error e => exact ⟨hother, rfl⟩
          | ok b =>
            have IH := runAll_other T fwd key post A i zs (h.set id x) (hA.imp (fun x => x) fun g z' hz' => g z' (by simp [hz']))
            simp only
            rcases hw : runAll T fwd key post A zs (h.set id x) with ⟨h'', _ | l⟩ <;> rw [hw] at IH
            · exact ⟨IH.1.trans hother, IH.2⟩
            · exact ⟨IH.1.trans hother, IH.2⟩

/-- What the transformed array objects hold after a loop of transforms. -/
theorem runAll_inplace {κ β : Type} [DecidableEq κ] (T : List (Multipole × Dsbt)) (fwd : Bool) (key : Multipole → κ)
    (post : Dsbt → List (List ℂ) → Except Err β) (A : List (κ × ℕ)) :
    ∀ (zs : List Multipole) (h h' : MHeap) (l : List (Multipole × β)), Apart2 key A zs →
    runAll T fwd key post A zs h = (h', .ok l) →
    ∀ z ∈ zs, ∃ i D, get A (key z) = .ok i ∧ get T z = .ok D ∧ h'.arr i = (D.transform (h.arr i)).1
  | [], _, _, _, _, _ => by simp
  | z :: zs, h, h', l, hA, hr => by
    unfold runAll at hr
    cases hS : get T z with
    | error e => rw [hS] at hr; cases hr
    | ok D =>
      cases hi : get A (key z) with
      | error e => rw [hS, hi] at hr; cases hr
      | ok id =>
        rw [hS, hi] at hr
        simp only at hr
        have hc : (D.cosmo fwd (h.arr id)).1 = (D.transform (h.arr id)).1 := rfl
        generalize D.cosmo fwd (h.arr id) = r at hr hc
        obtain ⟨x, _ | ⟨k, s⟩⟩ := r
        · cases hr
        simp only at hr hc
        cases hpost : post D s with
        | error e => rw [hpost] at hr; cases hr
        | ok b =>
          rw [hpost] at hr
          simp only at hr
          cases hrr : runAll T fwd key post A zs (h.set id x) with
          | mk h1 r1 =>
            rw [hrr] at hr
            cases r1 with
            | error e => cases hr
            | ok l1 =>
              simp only [Prod.mk.injEq, Except.ok.injEq] at hr
              obtain ⟨rfl, rfl⟩ := hr
              have hA' := List.pairwise_cons.1 hA
              intro z' hz'
              rcases List.mem_cons.1 hz' with rfl | hz'
              · refine ⟨id, D, hi, hS, ?_⟩
                have := (runAll_spec T fwd key post A (contents2 (h.set id x) A) zs (h.set id x)
                  (fun z _ => get_contents2 _ _ _) (Or.inr hA'.2)).2.2 id
                  (Or.inr fun z'' hz'' => hA'.1 z'' hz'' id hi)
                rw [hrr] at this
                rw [this]
                simp only [MHeap.set, if_true]
                exact hc
              · obtain ⟨i, D', e1, e2, e3⟩ := runAll_inplace T fwd key post A zs _ _ _ hA'.2 hrr z' hz'
                refine ⟨i, D', e1, e2, ?_⟩
                rw [e3]
                have hne : i ≠ id := by
                  rintro rfl
                  exact hA'.1 z' hz' _ hi e1
                simp only [MHeap.set, if_neg hne]

/-- The array objects made hold the values they are made for, and the others are as they were. -/
theorem allocAll2_spec {κ : Type} : ∀ (l : List (κ × List (List ℂ))) (h : MHeap),
    contents2 (allocAll2 l h).1 (allocAll2 l h).2 = l ∧
    (allocAll2 l h).2.map Prod.fst = l.map Prod.fst ∧
    h.next ≤ (allocAll2 l h).1.next ∧
    (∀ p ∈ (allocAll2 l h).2, h.next ≤ p.2 ∧ p.2 < (allocAll2 l h).1.next) ∧
    ((allocAll2 l h).2.map Prod.snd).Nodup ∧
    ∀ i < h.next, (allocAll2 l h).1.arr i = h.arr i
  | [], h => ⟨rfl, rfl, le_refl _, by simp [allocAll2], by simp [allocAll2], fun _ _ => rfl⟩
  | (m, x) :: l, h => by
    obtain ⟨i1, i2, i3, i4, i5, i6⟩ := allocAll2_spec l (h.add x)
    unfold allocAll2
    simp only [MHeap.add] at i1 i2 i3 i4 i5 i6 ⊢
    refine ⟨?_, by simp [i2], by omega, ?_, ?_, ?_⟩
    · unfold contents2 at i1 ⊢
      simp only [List.map_cons, List.cons.injEq, Prod.mk.injEq, true_and]
      refine ⟨?_, i1⟩
      rw [i6 _ (by omega)]
      simp
    · intro p hp
      rcases List.mem_cons.1 hp with rfl | hp
      · exact ⟨le_refl _, by simpa using i3⟩
      · have := i4 p hp
        exact ⟨by omega, this.2⟩
    · simp only [List.map_cons, List.nodup_cons]
      refine ⟨?_, i5⟩
      intro hm
      obtain ⟨p, hp, he⟩ := List.mem_map.1 hm
      have := (i4 p hp).1
      omega
    · intro i hi
      rw [i6 i (by omega)]
      rw [if_neg (by omega)]

theorem mem_of_get {κ : Type} [DecidableEq κ] {d : List (κ × ℕ)} (hd : (d.map Prod.snd).Nodup) {k k' : κ} {i : ℕ}
    (h : get d k = .ok i) (h' : get d k' = .ok i) : k = k' := by
  have a := get_mem' h
  have b := get_mem' h'
  have := List.inj_on_of_nodup_map hd a b rfl
  exact congrArg Prod.fst this

/-- Array objects made for different keys are different. -/
theorem alloc2_apart {κ : Type} [DecidableEq κ] {key : Multipole → κ} (hk : Function.Injective key)
    (l : List (κ × List (List ℂ))) (h : MHeap) {zs : List Multipole} (hz : zs.Nodup) :
    Apart2 key (allocAll2 l h).2 zs := by
  obtain ⟨-, -, -, -, a5, -⟩ := allocAll2_spec l h
  unfold Apart2
  refine hz.imp ?_
  intro z z' hne i hi hi'
  exact hne (hk (mem_of_get a5 hi hi'))

end Trv.Wc

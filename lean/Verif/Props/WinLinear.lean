import Verif.Props.WinConv
import Verif.Lemmas.WinLinear
/-
Property theorems for the window convolution of correlation functions (`winconv.py`): C52.
-/
namespace Trv.Wc

open Trv

/-! ### C52 -/

section

variable {K : Type} [Field K]

/-- Linear combination of 2-d real samples. -/
def lin2 (a b : K) (u v : List (List K)) : List (List K) := List.zipWith (lin a b) u v

theorem lin2_map (a b : K) (x : List K) (f g : K → List K) :
    lin2 a b (x.map f) (x.map g) = x.map fun p => lin a b (f p) (g p) := by
  unfold lin2
  induction x with
  | nil => rfl
  | cons p x ih => simp [ih]

/-- **C52.** The two-point convolution is linear in the model multipoles, for every formula, window and
set of sample points. -/
theorem C52_linear2 (I : Interp K) (B : Base K (List K)) (d1 d2 : List (Key × List K)) (a b : K)
    (hk : d1.map Prod.fst = d2.map Prod.fst) (o1 o2 : List (Multipole × List K))
    (h1 : conv2 I B d1 = .ok o1) (h2 : conv2 I B d2 = .ok o2) :
    conv2 I B (combine (lin a b) d1 d2) = .ok (combine (lin a b) o1 o2) := by
  unfold conv2 at *
  refine traverse_zip (fun p q => (p.1, lin a b p.2 q.2)) h1 h2 ?_
  intro m _ b1 b2 e1 e2
  cases ho : get B.rOut m with
  | error e => simp [ho] at e1
  | ok out =>
    cases t1 : traverse (conv2Term I B d1) (B.F.terms m) with
    | error e => simp [ho, t1] at e1
    | ok fs =>
      cases t2 : traverse (conv2Term I B d2) (B.F.terms m) with
      | error e => simp [ho, t2] at e2
      | ok gs =>
        simp only [ho, t1, Except.ok.injEq] at e1
        simp only [ho, t2, Except.ok.injEq] at e2
        have t3 := traverse_zip (f3 := conv2Term I B (combine (lin a b) d1 d2))
          (fun (f g : K → K) p => a * f p + b * g p) t1 t2
          (fun t _ f1 f2 => conv2Term_lin I B d1 d2 a b hk t f1 f2)
        rw [t3]
        simp only [← e1, ← e2, lin_map]
        congr 2
        apply List.map_congr_left
        intro p _
        exact zip_sum (fun f : K → K => f p) _ a b (fun f g => rfl) fs gs
          ((traverse_length t1).trans (traverse_length t2).symm)

theorem conv3Sum_lin (I : Interp K) (B : Base K (Mat K)) (d1 d2 : List (Key × Mat (K × K))) (a b : K)
    (hk : d1.map Prod.fst = d2.map Prod.fst) (c1 c2 : Option K) (o1 o2 : List (Multipole × List (List K)))
    (h1 : conv3Sum I B d1 c1 = .ok o1) (h2 : conv3Sum I B d2 c2 = .ok o2) :
    conv3Sum I B (combine (linMat a b) d1 d2) (Option.map₂ (fun x y => a * x + b * y) c1 c2) =
      .ok (combine (lin2 a b) o1 o2) := by
  unfold conv3Sum at *
  refine traverse_zip (fun p q => (p.1, lin2 a b p.2 q.2)) h1 h2 ?_
  intro m _ b1 b2 e1 e2
  cases ho : get B.rOut m with
  | error e => simp [ho] at e1
  | ok out =>
    cases t1 : traverse (conv3Term I B d1 c1) (B.F.terms m) with
    | error e => simp [ho, t1] at e1
    | ok fs =>
      cases t2 : traverse (conv3Term I B d2 c2) (B.F.terms m) with
      | error e => simp [ho, t2] at e2
      | ok gs =>
        simp only [ho, t1, Except.ok.injEq] at e1
        simp only [ho, t2, Except.ok.injEq] at e2
        have t3 := traverse_zip
          (f3 := conv3Term I B (combine (linMat a b) d1 d2) (Option.map₂ (fun x y => a * x + b * y) c1 c2))
          (fun (f g : K → K → K) p q => a * f p q + b * g p q) t1 t2
          (fun t _ f1 f2 => conv3Term_lin I B d1 d2 a b hk c1 c2 t f1 f2)
        rw [t3]
        simp only [← e1, ← e2, lin2_map, lin_map]
        congr 2
        apply List.map_congr_left
        intro p _
        apply List.map_congr_left
        intro q _
        exact zip_sum (fun f : K → K → K => f p q) _ a b (fun f g => rfl) fs gs
          ((traverse_length t1).trans (traverse_length t2).symm)

/-- **C52.** The three-point convolution is linear in the model multipoles, the integral constraint
included: whether it is given (then combined alike), or computed from the samples. -/
theorem C52_linear3 [DecidableEq K] (I : Interp K) (B : Base K (Mat K)) (d1 d2 : List (Key × Mat (K × K)))
    (a b : K) (hk : d1.map Prod.fst = d2.map Prod.fst) (c1 c2 : Option K) (hc : c1.isSome = c2.isSome)
    (o1 o2 : List (Multipole × List (List K)))
    (h1 : conv3 I B d1 c1 = .ok o1) (h2 : conv3 I B d2 c2 = .ok o2) :
    conv3 I B (combine (linMat a b) d1 d2) (Option.map₂ (fun x y => a * x + b * y) c1 c2) =
      .ok (combine (lin2 a b) o1 o2) := by
  unfold conv3 at *
  by_cases hn : B.F.needsIc ∧ c1 = none
  · have hn2 : c2 = none := by
      rw [hn.2] at hc
      cases c2 with
      | none => rfl
      | some c => simp at hc
    rw [if_pos hn] at h1
    rw [if_pos ⟨hn.1, hn2⟩] at h2
    rw [if_pos ⟨hn.1, by rw [hn.2]; rfl⟩]
    cases e1 : calcIc I B.rQ B.Q B.rIn d1 with
    | error e => simp [e1] at h1
    | ok i1 =>
      cases e2 : calcIc I B.rQ B.Q B.rIn d2 with
      | error e => simp [e2] at h2
      | ok i2 =>
        simp only [e1] at h1
        simp only [e2] at h2
        rw [calcIc_lin I B.rQ B.Q B.rIn d1 d2 a b hk i1 i2 e1 e2]
        exact conv3Sum_lin I B d1 d2 a b hk (some i1) (some i2) o1 o2 h1 h2
  · have hn2 : ¬ (B.F.needsIc ∧ c2 = none) := by
      intro h
      apply hn
      refine ⟨h.1, ?_⟩
      rw [h.2] at hc
      cases c1 with
      | none => rfl
      | some c => simp at hc
    have hn3 : ¬ (B.F.needsIc ∧ Option.map₂ (fun x y => a * x + b * y) c1 c2 = none) := by
      intro h
      cases c1 with
      | none => exact hn ⟨h.1, rfl⟩
      | some x =>
        cases c2 with
        | none => simp at hc
        | some y => simp at h
    rw [if_neg hn] at h1
    rw [if_neg hn2] at h2
    rw [if_neg hn3]
    exact conv3Sum_lin I B d1 d2 a b hk c1 c2 o1 o2 h1 h2

end

/-- **C52.** With a window of unit monopole and vanishing higher multipoles the two-point convolution
returns the input multipoles unchanged. -/
theorem C52_trivial2 {K : Type} [Field K] [LinearOrder K] {I : Interp K} (hI : I.Ok) {x : List K}
    (hx : x.Pairwise (· < ·)) (Q f : ℕ → K → K) (h0 : ∀ r, Q 0 r = 1) (hl : ∀ l, l ≠ 0 → ∀ r, Q l r = 0) :
    ∃ F B, Formulae.ofItems wilson16 = .ok F ∧
      mkBase F (.all x) (dict2 [0, 2, 4, 6, 8] x Q) (.all x) none = .ok B ∧
      conv2 I B (dictM2 [0, 2, 4] x f) = .ok ([0, 2, 4].map fun l : ℕ => (⟨[l]⟩, x.map (f l))) := by
  refine ⟨formulae16, base16 x Q, ofItems_wilson16, mkBase_wilson16 x Q, ?_⟩
  rw [conv2_16 hI hx]
  simp [triplets16, h0, hl]

/-! The hypotheses of linearity are met: two sets of samples with the built-in formula. -/
example : ∃ o1 o2, conv2 (stepInterp ℚ) (base16 [1, 2] fun _ r => r) (dictM2 [0, 2, 4] [1, 2] fun l r => l + r) = .ok o1 ∧
    conv2 (stepInterp ℚ) (base16 [1, 2] fun _ r => r) (dictM2 [0, 2, 4] [1, 2] fun l r => r * r) = .ok o2 :=
  ⟨_, _, conv2_16 (stepInterp_ok ℚ) (by norm_num) _ _, conv2_16 (stepInterp_ok ℚ) (by norm_num) _ _⟩

end Trv.Wc

import Verif.Spec.WideAngle
import Verif.Lemmas.ThreePcfProps
import Verif.Lemmas.TwoPtProps
/-
Lemmas on the wide-angle corrections.
-/
namespace Trv.Zeta
open Trv.Mesh Trv.Stats Trv.Win Trv.Two Trv.ThreePt Trv.Bis

theorem window_ne (E : Env3) (hn : ∀ a, 2 ≤ E.mesh.n a) {k : ℤ × ℤ × ℤ} (hk : k ∈ box E.mesh.n) :
    (windowFresh E.mesh.n k.1 k.2.1 k.2.2 (orderOf E.sch) : ℂ) ≠ 0 := by
  have := (C11_window_range_partial E.mesh.n hn k (mem_cells.2 (mem_box.1 hk)) (orderOf E.sch)).1
  exact_mod_cast this.ne'

/-- A field whose compensated modes are given. -/
noncomputable def uncomp (E : Env3) (h : ℤ × ℤ × ℤ → ℂ) (g : ℤ) : ℂ := h (cellOf E.mesh.n g) * (window E g : ℂ)

theorem comp_uncomp (E : Env3) (hn : ∀ a, 2 ≤ E.mesh.n a) (h : ℤ × ℤ × ℤ → ℂ) {k : ℤ × ℤ × ℤ}
    (hk : k ∈ box E.mesh.n) : comp E (uncomp E h) k = h k := by
  have hp : ∀ a, 0 < E.mesh.n a := fun a => by have := hn a; omega
  unfold comp uncomp
  rw [window_gid E hp hk, cellOf_gid hp hk, mul_div_assoc, div_self (window_ne E hn hk), mul_one]

theorem wideAngle_value (E : Env3) (hp : ∀ a, 0 < E.mesh.n a) (i j : ℕ) (f : ℤ → ℂ) {c : ℤ × ℤ × ℤ}
    (hc : c ∈ box E.mesh.n) :
    wideAngle E (some (i, j)) (invFourier E.mesh fun g => f g / (window E g : ℂ)) (gid E.mesh.n c) =
      (powerLaw i j (mag (rvec E.mesh c)) : ℂ) * restored E f c := by
  have hr : invFourier E.mesh (fun g => f g / (window E g : ℂ)) (gid E.mesh.n c) = restored E f c := by
    rw [isG E hp f c hc]
    unfold restored
    rw [Finset.sum_div, allModes_eq]
    apply Finset.sum_congr rfl
    intro x _
    ring
  unfold wideAngle powerLaw
  simp only
  rw [cellOf_gid hp hc, hr]
  by_cases h : mag (rvec E.mesh c) < epsR
  · have h' : mag (rvec E.mesh c) < 1 / 1000000 := h
    rw [if_pos h, if_pos h', Complex.ofReal_one, one_mul]
  · have h' : ¬ mag (rvec E.mesh c) < 1 / 1000000 := h
    rw [if_neg h, if_neg h', mul_comm]
    congr 2
    rw [show -(i : ℤ) - (j : ℤ) = -((i + j : ℕ) : ℤ) by push_cast; ring, zpow_neg, zpow_natCast, one_div]

theorem isG_wide (E : Env3) (hM : E.mesh.Valid) (hn : ∀ a, 2 ≤ E.mesh.n a) (i j : ℕ) (f : ℤ → ℂ) :
    IsG E (uncomp E (weighted E i j f))
      (wideAngle E (some (i, j)) (invFourier E.mesh fun g => f g / (window E g : ℂ))) := by
  have hp : ∀ a, 0 < E.mesh.n a := fun a => (hM a).1
  intro c hc
  rw [wideAngle_value E hp i j f hc]
  obtain ⟨hv, hV, _⟩ := volCell_mul E.mesh hM
  have e : ∀ k ∈ box E.mesh.n, comp E (uncomp E (weighted E i j f)) k / (vol E.mesh : ℂ) *
      phase3 E.mesh.n 1 c k = ∑ x ∈ box E.mesh.n, (E.mesh.volCell : ℂ) / (vol E.mesh : ℂ) *
        ((powerLaw i j (mag (rvec E.mesh x)) : ℂ) * restored E f x) *
        (phase3 E.mesh.n 1 k c * phase3 E.mesh.n (-1) x k) := by
    intro k hk
    rw [comp_uncomp E hn _ hk]
    unfold weighted
    rw [Finset.mul_sum, Finset.sum_div, Finset.sum_mul, allModes_eq]
    apply Finset.sum_congr rfl
    intro x _
    rw [phase3_comm _ 1 c k, phase3_comm _ (-1) k x]
    ring
  rw [Finset.sum_congr rfl e, Finset.sum_comm]
  have e2 : ∀ x ∈ box E.mesh.n, ∑ k ∈ box E.mesh.n, (E.mesh.volCell : ℂ) / (vol E.mesh : ℂ) *
        ((powerLaw i j (mag (rvec E.mesh x)) : ℂ) * restored E f x) *
        (phase3 E.mesh.n 1 k c * phase3 E.mesh.n (-1) x k) =
      if c = x then (powerLaw i j (mag (rvec E.mesh x)) : ℂ) * restored E f x else 0 := by
    intro x hx
    rw [← Finset.mul_sum, phase3_orth hp (Or.inl rfl) hc hx]
    by_cases h : c = x
    · rw [if_pos h, if_pos h]
      have : (E.mesh.volCell : ℂ) / (vol E.mesh : ℂ) * ((E.mesh.n 0 * E.mesh.n 1 * E.mesh.n 2 : ℤ) : ℂ) = 1 := by
        rw [div_mul_eq_mul_div, hv, div_self hV]
      linear_combination ((powerLaw i j (mag (rvec E.mesh x)) : ℂ) * restored E f x) * this
    · rw [if_neg h, if_neg h, mul_zero]
  rw [Finset.sum_congr rfl e2, Finset.sum_ite_eq, if_pos hc]

end Trv.Zeta

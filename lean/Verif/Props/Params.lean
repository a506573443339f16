import Verif.Lemmas.Params
import Mathlib.Tactic.FinCases
import Mathlib.Tactic.Linarith
import Mathlib.Tactic.Positivity
import Mathlib.Tactic.FieldSimp
/-
C31-C34, C69: the C++ parameter set.
-/
set_option linter.unusedSectionVars false
namespace Trv.Par
open Trv.Mon

section
variable {K : Type} [Field K] [LinearOrder K] [IsStrictOrderedRing K] [FloorRing K]

/-! ### C31 -/

theorem even_least (n : ℤ) (hn : 0 ≤ n) : 2 ∣ n + n.tmod 2 ∧ n ≤ n + n.tmod 2 ∧
    ∀ m, 2 ∣ m → n ≤ m → n + n.tmod 2 ≤ m := by
  rw [Int.tmod_eq_emod_of_nonneg hn]
  refine ⟨by omega, by omega, fun m h1 h2 => by omega⟩

/-- **C31.** The C++ number of grid cells is even, resolves the cutoff, and is the least
positive such number. -/
theorem C31_ngrid (pi L c : K) (hpi : 0 < pi) (hL : 0 < L) (hc : 0 < c) (space : String)
    (hs : space = "fourier" ∨ space = "config") :
    ∃ n, ngridCpp pi space L c = .ok n ∧ 0 < n ∧ 2 ∣ n ∧ Resolves pi space L c n ∧
      ∀ m : ℤ, 0 < m → 2 ∣ m → Resolves pi space L c m → n ≤ m := by
  rcases hs with rfl | rfl
  · have hpos : 0 < L * c / pi := by positivity
    have hn := Int.ceil_pos.2 hpos
    obtain ⟨h1, h2, h3⟩ := even_least ⌈L * c / pi⌉ hn.le
    refine ⟨_, by simp [ngridCpp], by omega, h1, ?_, ?_⟩
    · simp only [Resolves, if_true]
      rw [le_div_iff₀ hL]
      have hle : L * c / pi ≤ ((⌈L * c / pi⌉ + ⌈L * c / pi⌉.tmod 2 : ℤ) : K) :=
        (Int.le_ceil _).trans (by exact_mod_cast h2)
      rw [div_le_iff₀ hpi] at hle
      linarith
    · intro m hm0 hm2 hm
      simp only [Resolves, if_true] at hm
      rw [le_div_iff₀ hL] at hm
      apply h3 m hm2
      rw [Int.ceil_le, div_le_iff₀ hpi]
      linarith
  · have hpos : 0 < 2 * L / c := by positivity
    have hn := Int.ceil_pos.2 hpos
    obtain ⟨h1, h2, h3⟩ := even_least ⌈2 * L / c⌉ hn.le
    have hr : ∀ m : ℤ, 0 < m → (Resolves pi "config" L c m ↔ 2 * L / c ≤ (m : K)) := by
      intro m hm
      have hm' : (0 : K) < m := by exact_mod_cast hm
      simp only [Resolves, String.reduceEq, if_false]
      rw [div_le_iff₀ hm', div_le_iff₀ hc, mul_comm c]
    refine ⟨_, by simp [ngridCpp, hc.ne'], by omega, h1, ?_, ?_⟩
    · rw [hr _ (by omega)]
      exact (Int.le_ceil _).trans (by exact_mod_cast h2)
    · intro m hm0 hm2 hm
      apply h3 m hm2
      rw [Int.ceil_le]
      exact (hr m hm0).1 hm

/-- **C31.** The Python derivation agrees. -/
theorem C31_python_agrees (pi L c : K) (hpi : 0 < pi) (hL : 0 < L) (hc : 0 < c) (space : String)
    (hs : space = "fourier" ∨ space = "config") (n : ℤ) :
    ngridPy pi space L c = .ok n ↔ ngridCpp pi space L c = .ok n := by
  rcases hs with rfl | rfl
  · have hn := Int.ceil_pos.2 (show 0 < L * c / pi by positivity)
    simp only [ngridPy, ngridCpp, if_true, Int.tmod_eq_emod_of_nonneg hn.le, Except.ok.injEq]
  · have hn := Int.ceil_pos.2 (show 0 < 2 * L / c by positivity)
    simp only [ngridPy, ngridCpp, String.reduceEq, if_false, if_true, hc.ne',
      Int.tmod_eq_emod_of_nonneg hn.le, Except.ok.injEq]
    have h1 : ⌈2 * L / c⌉ ≤ 2 * ⌈L / c⌉ := by
      rw [Int.ceil_le]
      have := Int.le_ceil (L / c)
      push_cast
      have e : 2 * L / c = 2 * (L / c) := by ring
      rw [e]; linarith
    have h2 : 2 * ⌈L / c⌉ < ⌈2 * L / c⌉ + 2 := by
      have h3 := Int.ceil_lt_add_one (L / c)
      have h4 := Int.le_ceil (2 * L / c)
      have e : 2 * L / c = 2 * (L / c) := by ring
      have : ((2 * ⌈L / c⌉ : ℤ) : K) < ((⌈2 * L / c⌉ + 2 : ℤ) : K) := by
        have h5 : 2 * (L / c) ≤ (⌈2 * L / c⌉ : K) := e ▸ h4
        push_cast; linarith
      exact_mod_cast this
    have : 2 * ⌈L / c⌉ + 2 * ⌈L / c⌉ % 2 = ⌈2 * L / c⌉ + ⌈2 * L / c⌉ % 2 := by omega
    rw [this]

example : ngridCpp (22 / 7 : ℚ) "fourier" 1000 (1 / 5) = .ok 64 := by decide +kernel
example : ngridCpp (22 / 7 : ℚ) "config" 1000 30 = .ok 68 ∧
    ngridPy (22 / 7 : ℚ) "config" 1000 30 = .ok 68 := by decide +kernel

/-! ### C33 -/

theorem padOk_iff {p : Params K} (h : padOk p) (ha : p.alignment = "pad") :
    0 ≤ p.padfactor ∧ (p.padscale = "box" → p.padfactor < 1) ∧
    (p.padscale = "grid" → ∀ i, p.padfactor < (p.ngrid i : K)) := by
  obtain ⟨h1, h2, h3⟩ := h ha
  refine ⟨not_lt.1 h1, fun hb => ?_, fun hg i => ?_⟩
  · by_contra hc; exact h2 ⟨hb, not_lt.1 hc⟩
  · by_contra hc
    apply h3
    refine ⟨hg, ?_⟩
    fin_cases i
    · exact Or.inl (not_lt.1 hc)
    · exact Or.inr (Or.inl (not_lt.1 hc))
    · exact Or.inr (Or.inr (not_lt.1 hc))

theorem bvecDefault_ne (p : Params K) : 14 ≤ (bvecDefault p).length := by
  unfold bvecDefault
  rw [List.length_take, List.length_append, List.length_append]
  have : ("binned_vectors".toList).length = 14 := rfl
  omega

theorem post_wellFormed {q q' p' : Params K} (h : post (bvecDefault q') q = .ok p') (hd : Derived q)
    (hm : 0 < q.nmesh ∨ (q.volume ≤ 0 ∧ 1 ≤ q.expand ∧ 0 ≤ q.cutoff))
    (hx : q.volume ≤ 0 → 1 ≤ q.expand) : WellFormed p' := by
  obtain ⟨a1, a2, a3, a4, a5, a6, a7, a8, a9⟩ := post_spec h hd
  refine ⟨a1, ?_, ?_, a2, a3, a4, a5, a6, padOk_iff a7, ?_⟩
  · rw [post_frame h]; exact hm
  · rw [post_frame h]; exact hx
  · intro hs
    rw [a9]
    have hst : p'.statType = q.statType := by rw [post_frame h]
    rw [hst] at hs
    simp only [List.mem_cons, List.not_mem_nil, or_false] at hs
    split_ifs with hc
    · intro h0
      have := bvecDefault_ne q'
      rw [h0] at this
      simp at this
    · intro h0
      exact hc ⟨hs, h0⟩

/-- The cases of an accepted validation. -/
theorem validate_cases {e : Env K} {fuel : ℕ} {init : Bool} {p p' : Params K}
    (h : validate e (fuel + 1) init p = some (.ok p')) :
    ∃ q, pre e init p = .ok q ∧
      ((post (bvecDefault q) q = .ok p' ∧
          (0 < q.nmesh ∨ (q.volume ≤ 0 ∧ 1 ≤ q.expand ∧ 0 ≤ q.cutoff))) ∨
       (q.nmesh ≤ 0 ∧ 0 ≤ q.cutoff ∧ 0 < q.volume ∧ ∃ r s, setNgrid e q = .ok r ∧
          validate e fuel false r = some (.ok s) ∧ post (bvecDefault q) s = .ok p')) := by
  unfold validate at h
  cases hp : pre e init p with
  | error x => rw [hp] at h; cases h
  | ok q =>
    rw [hp] at h
    simp only at h
    refine ⟨q, rfl, ?_⟩
    by_cases hm : q.nmesh ≤ 0
    · rw [if_pos hm] at h
      by_cases hc : q.cutoff < 0
      · rw [if_pos hc] at h; cases h
      rw [if_neg hc] at h
      by_cases hv : 0 < q.volume
      · rw [if_pos hv] at h
        right
        refine ⟨hm, not_lt.1 hc, hv, ?_⟩
        cases hr : setNgrid e q with
        | error x => rw [hr] at h; cases h
        | ok r =>
          rw [hr] at h
          simp only at h
          cases hn : validate e fuel false r with
          | none => rw [hn] at h; cases h
          | some s =>
            rw [hn] at h
            cases s with
            | error x => cases h
            | ok s => exact ⟨r, s, rfl, hn, by simpa using h⟩
      · rw [if_neg hv] at h
        left
        exact ⟨by simpa using h, Or.inr ⟨not_lt.1 hv, not_lt.1 ((pre_frame hp).2.2.2.2.2.2 (not_lt.1 hv)),
          not_lt.1 hc⟩⟩
    · rw [if_neg hm] at h
      left
      exact ⟨by simpa using h, Or.inl (not_le.1 hm)⟩

/-- **C33.** Accepted parameter sets are well-formed (for the program; the library built
for external calls also accepts unrecognised types, see below). -/
theorem C33_well_formed (e : Env K) (he : e.extcall = false) (fuel : ℕ) (init : Bool)
    (p p' : Params K) (h : validate e fuel init p = some (.ok p')) : WellFormed p' := by
  induction fuel generalizing init p p' with
  | zero => cases h
  | succ fuel ih =>
    obtain ⟨q, hq, ⟨h1, h2⟩ | ⟨-, -, -, r, s, -, h4, h5⟩⟩ := validate_cases h
    · exact post_wellFormed h1 (pre_derived he hq) h2 (fun hv => not_lt.1 ((pre_frame hq).2.2.2.2.2.2 hv))
    · have hs := ih _ _ _ h4
      exact post_wellFormed h5 hs.toDerived hs.meshed hs.expanded

theorem setNgrid_inputs {e : Env K} {q r : Params K} (h : setNgrid e q = .ok r) :
    r = { q with ngrid := r.ngrid } := by
  unfold setNgrid at h
  simp only [bind, Except.bind] at h
  split at h
  · cases h
  split at h
  · cases h
  split at h
  · cases h
  cases h; rfl

/-- **C33.** Validation never changes the parameters set by the user, and changes the grid
numbers only if they do not define a mesh. -/
theorem C33_inputs_kept (e : Env K) (fuel : ℕ) (init : Bool) (p p' : Params K)
    (h : validate e fuel init p = some (.ok p')) :
    inputs p' = inputs p ∧ (0 < p.ngrid 0 * p.ngrid 1 * p.ngrid 2 → p'.ngrid = p.ngrid) := by
  induction fuel generalizing init p p' with
  | zero => cases h
  | succ fuel ih =>
    obtain ⟨q, hq, ⟨h1, -⟩ | ⟨h1, -, -, r, s, h3, h4, h5⟩⟩ := validate_cases h
    · refine ⟨by rw [post_inputs h1, pre_inputs hq], fun _ => ?_⟩
      rw [post_frame h1, ← (pre_frame hq).2.1]
    · refine ⟨?_, fun hpos => ?_⟩
      · rw [post_inputs h5, (ih _ _ _ h4).1, setNgrid_inputs h3, ← pre_inputs hq]
        rfl
      · exfalso
        obtain ⟨a, b, c, d, f, -, -, -, -, -, h6⟩ := pre_steps hq
        have hn : q.nmesh = q.ngrid 0 * q.ngrid 1 * q.ngrid 2 := by rw [(vDerive_frame h6).1]
        rw [hn, (pre_frame hq).2.1] at h1
        omega

/-! ### C32 -/

theorem ngridCpp_pos {pi L c : K} {space : String} {n : ℤ} (hpi : 0 < pi) (hL : 0 < L) (hc : 0 < c)
    (h : ngridCpp pi space L c = .ok n) : 0 < n := by
  unfold ngridCpp at h
  split_ifs at h with h1 h2 h3
  · have hp := Int.ceil_pos.2 (show 0 < L * c / pi by positivity)
    simp only [Except.ok.injEq] at h
    rw [Int.tmod_eq_emod_of_nonneg hp.le] at h
    omega
  · have hp := Int.ceil_pos.2 (show 0 < 2 * L / c by positivity)
    simp only [Except.ok.injEq] at h
    rw [Int.tmod_eq_emod_of_nonneg hp.le] at h
    omega

theorem setNgrid_ok {e : Env K} {q r : Params K} (h : setNgrid e q = .ok r) :
    ∀ i, ngridCpp e.pi q.space (q.box i) q.cutoff = .ok (r.ngrid i) := by
  unfold setNgrid at h
  simp only [bind, Except.bind] at h
  split at h
  · cases h
  rename_i n0 h0
  split at h
  · cases h
  rename_i n1 h1
  split at h
  · cases h
  rename_i n2 h2
  cases h
  intro i
  fin_cases i
  · exact h0
  · exact h1
  · exact h2

theorem pre_nmesh {e : Env K} {init : Bool} {p q : Params K} (h : pre e init p = .ok q) :
    q.nmesh = p.ngrid 0 * p.ngrid 1 * p.ngrid 2 ∧ q.volume = p.box 0 * p.box 1 * p.box 2 := by
  obtain ⟨a, b, c, d, f, -, -, -, -, -, h6⟩ := pre_steps h
  have h1 : q.nmesh = q.ngrid 0 * q.ngrid 1 * q.ngrid 2 := by rw [(vDerive_frame h6).1]
  have h2 : q.volume = q.box 0 * q.box 1 * q.box 2 := by rw [(vDerive_frame h6).1]
  rw [h1, h2, (pre_frame h).1, (pre_frame h).2.1]
  exact ⟨rfl, rfl⟩

/-- Validation stops at once when the mesh is given, the box is not, or the cutoff is
negative. -/
theorem validate_one {e : Env K} (fuel : ℕ) (init : Bool) (p : Params K)
    (h : 0 < p.ngrid 0 * p.ngrid 1 * p.ngrid 2 ∨ p.box 0 * p.box 1 * p.box 2 ≤ 0 ∨ p.cutoff < 0) :
    ∃ x, validate e (fuel + 1) init p = some x := by
  unfold validate
  cases hp : pre e init p with
  | error x => exact ⟨_, rfl⟩
  | ok q =>
    simp only
    obtain ⟨h1, h2⟩ := pre_nmesh hp
    have h3 := (pre_frame hp).2.2.1
    by_cases hm : q.nmesh ≤ 0
    · rw [if_pos hm]
      by_cases hc : q.cutoff < 0
      · rw [if_pos hc]; exact ⟨_, rfl⟩
      · rw [if_neg hc]
        by_cases hv : 0 < q.volume
        · exfalso
          rcases h with h | h | h
          · rw [h1] at hm; omega
          · rw [h2] at hv; exact absurd hv (not_lt.2 h)
          · rw [h3] at hc; exact hc h
        · rw [if_neg hv]; exact ⟨_, rfl⟩
    · rw [if_neg hm]; exact ⟨_, rfl⟩

/-- **C32 (partial).** Validation finishes if the mesh is given, the box is not, the cutoff
is negative, or the box sides and the cutoff are positive. -/
theorem C32_validation_finishes_partial (e : Env K) (hpi : 0 < e.pi) (init : Bool) (p : Params K)
    (h : 0 < p.ngrid 0 * p.ngrid 1 * p.ngrid 2 ∨ p.box 0 * p.box 1 * p.box 2 ≤ 0 ∨ p.cutoff < 0 ∨
      ((∀ i, 0 < p.box i) ∧ 0 < p.cutoff)) :
    ∃ x, validate e 2 init p = some x := by
  by_cases h' : 0 < p.ngrid 0 * p.ngrid 1 * p.ngrid 2 ∨ p.box 0 * p.box 1 * p.box 2 ≤ 0 ∨ p.cutoff < 0
  · exact validate_one 1 init p h'
  obtain ⟨hb, hc⟩ : (∀ i, 0 < p.box i) ∧ 0 < p.cutoff := by tauto
  unfold validate
  cases hp : pre e init p with
  | error x => exact ⟨_, rfl⟩
  | ok q =>
    simp only
    by_cases hm : q.nmesh ≤ 0
    · rw [if_pos hm]
      by_cases hcn : q.cutoff < 0
      · rw [if_pos hcn]; exact ⟨_, rfl⟩
      · rw [if_neg hcn]
        by_cases hv : 0 < q.volume
        · rw [if_pos hv]
          cases hr : setNgrid e q with
          | error x => exact ⟨_, rfl⟩
          | ok r =>
            simp only
            have hpos : ∀ i, 0 < r.ngrid i := by
              intro i
              have := setNgrid_ok hr i
              rw [(pre_frame hp).1, (pre_frame hp).2.2.1] at this
              exact ngridCpp_pos hpi (hb i) hc this
            obtain ⟨x, hx⟩ := validate_one (e := e) 0 false r
              (Or.inl (Int.mul_pos (Int.mul_pos (hpos 0) (hpos 1)) (hpos 2)))
            rw [hx]
            cases x <;> exact ⟨_, rfl⟩
        · rw [if_neg hv]; exact ⟨_, rfl⟩
    · rw [if_neg hm]; exact ⟨_, rfl⟩

end
end Trv.Par

import Verif.Lemmas.Progress
import Verif.Props.ParamsArgs
/-
C164: the progress bar of three-point measurements.
-/
set_option linter.unusedSectionVars false
namespace Trv.Prg
open Trv Trv.ThreePt Trv.Mon

section
variable {K : Type} [Field K] [LinearOrder K] [IsStrictOrderedRing K] [FloorRing K]

/-- **C164 (without interlacing; no bispectrum in the row form).** With the bar on, or shown at an
interval in (0, 100), each three-point measurement of any number of terms, from any count of
transforms made before, runs to its end without a failure of the bar, the count grows by the
transforms of the terms, and on the root task the bar of each term ends at exactly one. -/
theorem C164_complete_partial (r : Routine) (n : ℤ) (hn : 1 ≤ n) (f : Form) (hf : ValidForm n f)
    (hr : ¬ RowBispec f r) (sw : Switch K) (hsw : Shows sw) (t : ℕ) (c : ℤ) :
    ∃ fuel bars, measure fuel r n f false sw true t c
        = some (.ok (c + t * termTransforms (dim n f) f r, bars)) ∧ bars.length = t ∧
      ∀ b ∈ bars, b.progress = 1 := by
  obtain ⟨fuel, l, e, hl⟩ := nodesFor_shows hsw
  have hlv : live sw true = true := by cases sw <;> first | rfl | exact absurd hsw id
  obtain ⟨bars, g, g1, g2⟩ := runTerms_ok r n f false true (.ok l) (termTransforms (dim n f) f r)
    (fun b => b.progress = 1) (fun c => by
      obtain ⟨b, h1, h2⟩ := runTerm_ok r hn hf l hl c
      refine ⟨b, h1, ?_⟩
      rw [h2, transforms_eq n hr, div_self]
      have := taskCount_pos (by omega) hf r
      exact_mod_cast (by omega : taskCount n f r ≠ 0)) t c
  exact ⟨fuel, bars, by simp [measure, e, hlv, g], g1, g2⟩

/-- **C164 (never fails without interlacing).** For every form, including rows, the bar makes no
measurement fail, and its progress at the end of a term is the share of the transforms announced;
on the other tasks, or with the bar off, the bar is never touched and the count is the same. -/
theorem C164_never_fails (r : Routine) (n : ℤ) (hn : 1 ≤ n) (f : Form) (hf : ValidForm n f)
    (sw : Switch K) (hsw : Shows sw ∨ sw = .off) (root : Bool) (t : ℕ) (c : ℤ) :
    ∃ fuel bars, measure fuel r n f false sw root t c
        = some (.ok (c + t * termTransforms (dim n f) f r, bars)) ∧ bars.length = t ∧
      (Shows sw → root = true →
        ∀ b ∈ bars, b.progress = (termTransforms (dim n f) f r : K) / (taskCount n f r : K)) := by
  obtain ⟨fuel, l, e, hl⟩ : ∃ fuel l, nodesFor fuel sw = some (.ok l) ∧ (l = [] ∨ l.getLast? = some 1) := by
    rcases hsw with h | h
    · exact nodesFor_shows h
    · subst h; exact ⟨0, [], rfl, .inl rfl⟩
  cases hlv : live sw root with
  | true =>
    obtain ⟨bars, g, g1, g2⟩ := runTerms_ok r n f false true (.ok l) (termTransforms (dim n f) f r)
      (fun b => b.progress = (termTransforms (dim n f) f r : K) / (taskCount n f r : K))
      (fun c => runTerm_ok r hn hf l hl c) t c
    exact ⟨fuel, bars, by simp [measure, e, hlv, g], g1, fun _ _ => g2⟩
  | false =>
    have ht := term_total false (by omega) hf r
    simp only [Bool.false_eq_true, if_false, add_zero] at ht
    obtain ⟨bars, g, g1, _⟩ := runTerms_ok r n f false false (.ok l) (termTransforms (dim n f) f r)
      (fun _ => True) (fun c => by
        obtain ⟨b, h⟩ := runTerm_off r (by omega) hf false l hl c
        exact ⟨b, by rw [h, ht], trivial⟩) t c
    refine ⟨fuel, bars, by simp [measure, e, hlv, g], g1, fun h hroot => ?_⟩
    subst hroot
    cases sw <;> first | exact absurd h id | cases hlv

/-- **C164 is violated by bispectra in the row form**: the count announced is that of the other
forms, so that with two bins or more the bar of every term ends short of completion, and with many
bins near two thirds. -/
theorem C164_row_violated (r : Routine) (hr : r = .bispec ∨ r = .bispecBox) (n b : ℤ) (hn : 2 ≤ n)
    (hb : 0 ≤ b ∧ b < n) (sw : Switch K) (hsw : Shows sw) (t : ℕ) (c : ℤ) :
    ∃ fuel bars, measure fuel r n (.row b) false sw true t c
        = some (.ok (c + t * termTransforms n (.row b) r, bars)) ∧ bars.length = t ∧
      ∀ x ∈ bars, x.progress < 1 ∧ 2 / 3 < x.progress ∧ x.progress ≤ 2 / 3 + 1 / (n : K) := by
  obtain ⟨fuel, bars, e, e1, e2⟩ := C164_never_fails r n (by omega) (.row b) hb sw (.inl hsw) true t c
  refine ⟨fuel, bars, e, e1, fun x hx => ?_⟩
  rw [e2 hsw rfl x hx]
  have hn' : (2 : K) ≤ (n : K) := by exact_mod_cast hn
  have hp : (0 : K) < (n : K) := by linarith
  rcases hr with rfl | rfl
  · have h1 : ((termTransforms (dim n (.row b)) (.row b) .bispec : ℤ) : K) = 5 + 2 * (n : K) := by
      simp only [termTransforms, dim]; push_cast; ring
    have h2 : ((taskCount n (.row b) .bispec : ℤ) : K) = 4 + 3 * (n : K) := by
      simp only [taskCount, dim]; push_cast; ring
    rw [h1, h2]
    refine ⟨?_, ?_, ?_⟩
    · rw [div_lt_one (by linarith)]; linarith
    · rw [div_lt_div_iff₀ (by norm_num) (by linarith)]; linarith
    · rw [div_le_iff₀ (by linarith)]
      have : (2 / 3 + 1 / (n : K)) * (4 + 3 * (n : K)) = 17 / 3 + 2 * (n : K) + 4 / (n : K) := by
        field_simp; ring
      rw [this]
      have : 0 < 4 / (n : K) := by positivity
      linarith
  · have h1 : ((termTransforms (dim n (.row b)) (.row b) .bispecBox : ℤ) : K) = 3 + 2 * (n : K) := by
      simp only [termTransforms, dim]; push_cast; ring
    have h2 : ((taskCount n (.row b) .bispecBox : ℤ) : K) = 2 + 3 * (n : K) := by
      simp only [taskCount, dim]; push_cast; ring
    rw [h1, h2]
    refine ⟨?_, ?_, ?_⟩
    · rw [div_lt_one (by linarith)]; linarith
    · rw [div_lt_div_iff₀ (by norm_num) (by linarith)]; linarith
    · rw [div_le_iff₀ (by linarith)]
      have : (2 / 3 + 1 / (n : K)) * (2 + 3 * (n : K)) = 13 / 3 + 2 * (n : K) + 2 / (n : K) := by
        field_simp; ring
      rw [this]
      have : 0 < 2 / (n : K) := by positivity
      linarith

/-- **C164 (why interlacing must be off).** If interlacing reached a three-point measurement, the
second transform of each forward one would be counted but not announced: with the bar on, the first
term would end in an error, except for a bispectrum in the row form. -/
theorem C164_interlaced (r : Routine) (n : ℤ) (hn : 1 ≤ n) (f : Form) (hf : ValidForm n f)
    (hr : ¬ RowBispec f r) (sw : Switch K) (hsw : Shows sw) (t : ℕ) (c : ℤ) :
    ∃ fuel, measure fuel r n f true sw true (t + 1) c = some (.error .invalidData) := by
  obtain ⟨fuel, l, e, hl⟩ := nodesFor_shows hsw
  have hlv : live sw true = true := by cases sw <;> first | rfl | exact absurd hsw id
  refine ⟨fuel, ?_⟩
  have h := runTerm_exceeds r hn hf l hl c (by
    rw [transforms_eq n hr]
    cases r <;> simp [forwards])
  simp [measure, e, hlv, runTerms, bind, Except.bind, h]

/-- **C164 (validated parameters).** A parameter set that passed validation for a three-point
statistic has interlacing off, so that the measurement runs to its end whatever was asked for. -/
theorem C164_validated (e : Par.Env K) (pf : ℕ) (init : Bool) (p p' : Par.Params K)
    (hv : Par.validate e pf init p = some (.ok p')) (h3 : p'.npoint = "3pt") (r : Routine) (n : ℤ)
    (hn : 1 ≤ n) (f : Form) (hf : ValidForm n f) (sw : Switch K) (hsw : Shows sw) (t : ℕ) (c : ℤ) :
    ∃ fuel bars, measure fuel r n f (decide (p'.interlace = "true")) sw true t c
        = some (.ok (c + t * termTransforms (dim n f) f r, bars)) ∧ bars.length = t ∧
      ∀ b ∈ bars, b.progress ≤ 1 := by
  have hi := (Par.C33_interlace e pf init p p' hv).2
  rw [if_neg (by simp [h3])] at hi
  have hd : decide (p'.interlace = "true") = false := by rw [hi]; decide
  rw [hd]
  obtain ⟨fuel, bars, g, g1, g2⟩ := C164_never_fails r n hn f hf sw (.inl hsw) true t c
  refine ⟨fuel, bars, g, g1, fun b hb => ?_⟩
  rw [g2 hsw rfl b hb]
  exact (frac_le (taskCount_pos (by omega) hf r)).2 (transforms_le hn f r)

/-- **C164 (unreadable settings).** A setting that is neither a plain switch nor an interval in
(0, 100) is not refused with the parameters but by the first term of the measurement, on every
task; without terms it goes unnoticed. -/
theorem C164_unreadable (fuel : ℕ) (r : Routine) (n : ℤ) (hn : 0 ≤ n) (f : Form)
    (hf : ValidForm n f) (il root : Bool) (sw : Switch K) (h : Unreadable sw) (t : ℕ) (c : ℤ) :
    measure fuel r n f il sw root t c
      = if t = 0 then some (.ok (c, [])) else some (.error .invalidParameter) := by
  have e : nodesFor fuel sw = some (.error .invalidParameter) := by
    cases sw with
    | off => exact absurd h id
    | on => exact absurd h id
    | other => rfl
    | every x =>
      have : nodesByInterval fuel x = .error .invalidParameter := by
        unfold nodesByInterval; exact if_pos h
      simp [nodesFor, this]
  have hN := taskCount_pos hn hf r
  cases t with
  | zero => simp [measure, e, runTerms]
  | succ t =>
    have : runTerm r n f il (live sw root) (.error .invalidParameter : Except CppErr (List K)) c
        = .error .invalidParameter := by
      unfold runTerm Bar.new
      rw [if_neg (by omega)]
      rfl
    simp [measure, e, runTerms, bind, Except.bind, this]

end

/-- The progress at the end of each term, for the examples. -/
def exEnds (x : Option (Except CppErr (ℤ × List (Bar ℚ)))) : Option (ℤ × List ℚ) :=
  match x with
  | some (.ok y) => some (y.1, y.2.map Bar.progress)
  | _ => none

/-- Two terms of a bispectrum and of a correlation function with the bar every 40 %, a row, and an
interlaced measurement. -/
example : exEnds (measure 10 .bispec 3 .triu false (.every 40) true 2 7) = some (7 + 2 * 22, [1, 1]) ∧
    exEnds (measure 10 .zetaBox 3 (.offDiag (-1)) false .on true 2 0) = some (14, [1, 1]) ∧
    exEnds (measure 10 .bispec 3 (.row 1) false .on true 1 0) = some (11, [11 / 13]) ∧
    (match measure (K := ℚ) 10 .window 3 .diag true .on true 1 0 with
      | some (.error .invalidData) => true | _ => false) = true ∧
    (match measure (K := ℚ) 10 .window 3 .diag false (.every 100) false 1 0 with
      | some (.error .invalidParameter) => true | _ => false) = true := by decide +kernel

end Trv.Prg

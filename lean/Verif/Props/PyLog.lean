import Verif.Spec.PyLog
/-
C161: logging in the Python functions.
-/
namespace Trv.Plog

open Trv

variable {S : Type}

/-! ### The outcome -/

theorem run_outcome (hasStat : Bool) (l : Option Lg) (s : List (Step S)) (x : S)
    (h : ∀ l' ∈ l, ∀ t ∈ s, ∀ y, ∃ a, t.log hasStat l' y = .ok a) : (run hasStat l s x).2 = outcome s x := by
  induction s generalizing x with
  | nil => rfl
  | cons t s ih =>
    have ih := fun y => ih y fun l' hl u hu => h l' hl u (List.mem_cons_of_mem _ hu)
    obtain ⟨a, ha⟩ : ∃ a, logOf hasStat l t x = .ok a := by
      cases l with
      | none => exact ⟨[], rfl⟩
      | some l => exact h l rfl t (List.mem_cons_self ..) x
    unfold run
    rw [ha]
    cases t with
    | act b f =>
      simp only [Step.exec, outcome]
      cases f x with
      | error e => rfl
      | ok y => exact ih y
    | status msg c => exact ih x
    | guarded msg c => exact ih x
    | info msg => exact ih x

theorem emit_cpp {l : Lg} (h : l.kind = .cpp) (n : ℕ) (msg : Str) (c : CppState) : ∃ a, emit l n msg c = .ok a := by
  unfold emit
  rw [h]
  by_cases hn : l.enabled n = true
  · exact ⟨[(n, process msg c)], by simp [hn]⟩
  · exact ⟨[], by simp [hn]⟩

theorem log_cpp {l : Lg} (h : l.kind = .cpp) (t : Step S) (y : S) : ∃ a, t.log true l y = .ok a := by
  cases t with
  | act b f => exact ⟨_, rfl⟩
  | status msg c =>
    obtain ⟨a, ha⟩ := emit_cpp h 15 (msg y) c
    refine ⟨a, ?_⟩
    simp only [Step.log, status, stat, h, if_true, ha]
  | guarded msg c =>
    obtain ⟨a, ha⟩ := emit_cpp h 15 (msg y) c
    refine ⟨a, ?_⟩
    simp only [Step.log, guarded, stat, h, if_true, ha]
  | info msg =>
    simp only [Step.log]
    split
    · exact emit_cpp h 20 _ _
    · exact ⟨_, rfl⟩

/-- **C161.**  Without a logger, and with the one returned by `setup_logger`, at any level and in any function, the
outcome is the one without logging. -/
theorem C161_outcome (l : Option Lg) (h : ∀ l' ∈ l, l'.kind = .cpp) (s : List (Step S)) (x : S) :
    (run true l s x).2 = outcome s x :=
  run_outcome true l s x fun l' hl t _ y => log_cpp (h l' hl) t y

/-! ### Other loggers -/

theorem status_off {l : Lg} (hi : l.enabled 20 = false) (hs : l.enabled 15 = false) (hasStat : Bool) (msg : Str)
    (c : CppState) : status hasStat l msg c = .ok [] := by
  cases hk : l.kind <;> cases hasStat <;> simp [status, stat, emit, hk, hi, hs]

/-- **C161, partial.**  With any other logger the outcome is the one without logging if it is enabled neither for
information nor for status messages, or if no message is about C++. -/
theorem C161_other_partial (hasStat : Bool) (l : Lg) (s : List (Step S)) (x : S)
    (h : (l.enabled 20 = false ∧ l.enabled 15 = false) ∨ ∀ msg c, Step.status msg c ∈ s → c = .absent) :
    (run hasStat (some l) s x).2 = outcome s x := by
  refine run_outcome hasStat _ s x fun l' hl t ht y => ?_
  cases hl
  cases t with
  | act b f => exact ⟨_, rfl⟩
  | status msg c =>
    rcases h with h | h
    · exact ⟨_, status_off h.1 h.2 hasStat (msg y) c⟩
    · have := h msg c ht
      subst this
      simp only [Step.log]
      cases hk : l.kind <;> cases hasStat <;> cases hi : l.enabled 20 <;> cases hs : l.enabled 15 <;>
        simp [status, stat, emit, hk, hi, hs]
  | guarded msg c =>
    simp only [Step.log]
    cases hk : l.kind <;> cases hasStat <;> cases hs : l.enabled 15 <;> by_cases hc : c = .absent <;>
      simp [guarded, stat, emit, hk, hs, hc]
  | info msg =>
    simp only [Step.log]
    split
    · cases hk : l.kind <;> cases hi : l.enabled 20 <;> simp [emit, hk, hi]
    · exact ⟨_, rfl⟩

/-- The message which fails with a plain logger. -/
theorem status_plain {l : Lg} (hk : l.kind = .plain) (hi : l.enabled 20 = true) (hasStat : Bool) (msg : Str)
    {c : CppState} (hc : c ≠ .absent) : status hasStat l msg c = .error .typeError := by
  simp [status, stat, emit, hk, hi, hc]

theorem run_typeError {l : Lg} (hk : l.kind = .plain) (hi : l.enabled 20 = true) (hasStat : Bool) (s : List (Step S))
    (x : S) (hc : ∃ msg c, Step.status msg c ∈ s ∧ c ≠ .absent) :
    (run hasStat (some l) s x).2 = .error .typeError ∨ ∃ e, outcome s x = .error e ∧
      (run hasStat (some l) s x).2 = .error e := by
  induction s generalizing x with
  | nil => obtain ⟨_, _, h, _⟩ := hc; cases h
  | cons t s ih =>
    unfold run
    cases t with
    | act b f =>
      have hc' : ∃ msg c, Step.status msg c ∈ s ∧ c ≠ .absent := by
        obtain ⟨msg, c, h, h'⟩ := hc
        refine ⟨msg, c, ?_, h'⟩
        simpa using h
      simp only [logOf, Step.log, Step.exec, outcome]
      cases f x with
      | error e => exact .inr ⟨e, rfl, rfl⟩
      | ok y => exact ih y hc'
    | status msg c =>
      by_cases hcc : c = .absent
      · subst hcc
        have hc' : ∃ msg c, Step.status msg c ∈ s ∧ c ≠ .absent := by
          obtain ⟨msg', c, h, h'⟩ := hc
          refine ⟨msg', c, ?_, h'⟩
          simp only [List.mem_cons, Step.status.injEq] at h
          rcases h with h | h
          · exact absurd h.2 h'
          · exact h
        simp only [logOf, Step.log, status, stat, hk, emit, hi, if_true, Step.exec, outcome]
        exact ih x hc'
      · left
        simp only [logOf, Step.log, status_plain hk hi hasStat _ hcc]
    | guarded msg c =>
      have hc' : ∃ msg c, Step.status msg c ∈ s ∧ c ≠ .absent := by
        obtain ⟨msg, c, h, h'⟩ := hc
        refine ⟨msg, c, ?_, h'⟩
        simpa using h
      simp only [logOf, Step.log, guarded, stat, hk, Step.exec, outcome]
      exact ih x hc'
    | info msg =>
      have hc' : ∃ msg c, Step.status msg c ∈ s ∧ c ≠ .absent := by
        obtain ⟨msg, c, h, h'⟩ := hc
        refine ⟨msg, c, ?_, h'⟩
        simpa using h
      simp only [logOf, Step.log, outcome, Step.exec]
      cases msg x with
      | none => exact ih x hc'
      | some m =>
        simp only [emit, hi, hk, if_true]
        exact ih x hc'

/-- **C161 (violated).**  With a `logging.Logger`, which is the documented type, enabled for information messages,
no measurement function ever returns results: it raises `TypeError` at the first message about C++, unless it has
failed before. -/
theorem C161_plain_logger_violated {l : Lg} (hk : l.kind = .plain) (hi : l.enabled 20 = true) (hasStat : Bool)
    (A : Acts S) (x y : S) :
    (run hasStat (some l) (survey A) x).2 ≠ .ok y ∧ (run hasStat (some l) (sim A) x).2 ≠ .ok y ∧
      (run hasStat (some l) (window A) x).2 ≠ .ok y := by
  have h : ∀ s : List (Step S), Step.status A.before (.text "start") ∈ s → (run hasStat (some l) s x).2 ≠ .ok y := by
    intro s hs hr
    rcases run_typeError hk hi hasStat s x ⟨_, _, hs, by simp⟩ with h | ⟨e, -, h⟩ <;> rw [hr] at h <;> cases h
  refine ⟨h _ ?_, h _ ?_, h _ ?_⟩
  · simp [survey]
  · simp [sim]
  · simp [window]

/-- **C161, parameters.**  The validation of parameters succeeds or fails as without logging, whichever logger is
passed. -/
theorem C161_validation (hasStat : Bool) (l : Option Lg) (f : S → Except PyErr S) (x : S) :
    (run hasStat l [.guarded (text "Validating parameters...") (.text "start"), .act true f,
      .guarded (text "... validated parameters.") (.text "end")] x).2 = f x := by
  rw [run_outcome]
  · simp only [outcome]
    cases f x <;> rfl
  · intro l' _ t ht y
    simp only [List.mem_cons, List.not_mem_nil, or_false] at ht
    rcases ht with rfl | rfl | rfl
    · cases hk : l'.kind <;> cases hasStat <;> cases hs : l'.enabled 15 <;>
        simp [Step.log, guarded, stat, emit, hk, hs]
    · exact ⟨_, rfl⟩
    · cases hk : l'.kind <;> cases hasStat <;> cases hs : l'.enabled 15 <;>
        simp [Step.log, guarded, stat, emit, hk, hs]

/-! ### Where a measurement failed -/

/-- Texts which do not look like messages about C++. -/
def Quiet (msg : S → Str) : Prop :=
  ∀ x, " (entering C++)".toList.isSuffixOf (msg x) = false ∧ " (exited C++)".toList.isSuffixOf (msg x) = false

/-- Statements in which C++ calls are announced. -/
inductive Bracketed : List (Step S) → Prop
  | nil : Bracketed []
  | status {msg t} (h : Quiet msg) : Bracketed t → Bracketed (.status msg .absent :: t)
  | info {msg t} : Bracketed t → Bracketed (.info msg :: t)
  | act {f t} : Bracketed t → Bracketed (.act false f :: t)
  | call {msg f msg' t} : Bracketed t →
      Bracketed (.status msg (.text "start") :: .act true f :: .status msg' (.text "end") :: t)

theorem enter_self (m : Str) : " (entering C++)".toList.isSuffixOf (m ++ " (entering C++)".toList) = true :=
  List.isSuffixOf_iff_suffix.2 (List.suffix_append _ _)

theorem exit_self (m : Str) : " (exited C++)".toList.isSuffixOf (m ++ " (exited C++)".toList) = true :=
  List.isSuffixOf_iff_suffix.2 (List.suffix_append _ _)

theorem not_exit (m : Str) : " (exited C++)".toList.isSuffixOf (m ++ " (entering C++)".toList) = false := by
  rw [Bool.eq_false_iff]
  intro h
  have := List.suffix_of_suffix_length_le (List.isSuffixOf_iff_suffix.1 h)
    (List.suffix_append m " (entering C++)".toList) (by decide)
  revert this
  decide

theorem not_enter (m : Str) : " (entering C++)".toList.isSuffixOf (m ++ " (exited C++)".toList) = false := by
  rw [Bool.eq_false_iff]
  intro h
  have := List.suffix_of_suffix_length_le (List.suffix_append m " (exited C++)".toList)
    (List.isSuffixOf_iff_suffix.1 h) (by decide)
  revert this
  decide

theorem status_cpp {l : Lg} (hk : l.kind = .cpp) (hs : l.enabled 15 = true) (msg : Str) (c : CppState) :
    status true l msg c = .ok [(15, process msg c)] := by
  simp [status, stat, emit, hk, hs]

theorem bracketed_marks {l : Lg} (hk : l.kind = .cpp) (hs : l.enabled 15 = true) {s : List (Step S)} (h : Bracketed s)
    (x : S) :
    entries (run true (some l) s x).1 = returns (run true (some l) s x).1 + missing (failing s x) := by
  have p1 : ∀ m, process m (.text "start") = m ++ " (entering C++)".toList := by
    intro m
    have : Par.lower "start" = "start" := by decide +kernel
    simp only [process, this, if_true]
  have p2 : ∀ m, process m (.text "end") = m ++ " (exited C++)".toList := by
    intro m
    have h1 : Par.lower "end" = "end" := by decide +kernel
    have h2 : ("end" : String) ≠ "start" := by decide
    simp only [process, h1, if_true, if_neg h2]
  induction h generalizing x with
  | nil => rfl
  | status hq _ ih =>
    have ih := ih x
    obtain ⟨q1, q2⟩ := hq x
    simp only [run, logOf, Step.log, status_cpp hk hs, Step.exec, failing]
    simp only [entries, returns, List.singleton_append, List.countP_cons, ends, process, q1, q2] at ih ⊢
    simpa using ih
  | info _ ih =>
    rename_i msg t _
    have ih := ih x
    simp only [run, logOf, Step.log, Step.exec, failing]
    cases msg x with
    | none => exact ih
    | some m =>
      simp only [emit, hk]
      cases l.enabled 20
      · exact ih
      · simp only [entries, returns, if_true, List.singleton_append, List.countP_cons, ends] at ih ⊢
        simpa using ih
  | act _ ih =>
    rename_i f t _
    simp only [run, logOf, Step.log, Step.exec, failing]
    obtain ⟨r, hr⟩ : ∃ r, r = f x := ⟨_, rfl⟩
    rw [← hr]
    cases r with
    | error e => rfl
    | ok y => exact ih y
  | call _ ih =>
    rename_i msg f msg' t _
    simp only [run, logOf, Step.log, status_cpp hk hs, Step.exec, failing]
    obtain ⟨r, hr⟩ : ∃ r, r = f x := ⟨_, rfl⟩
    rw [← hr]
    cases r with
    | error e =>
      simp only [entries, returns, List.append_nil, List.countP_cons, List.countP_nil, ends, p1, enter_self, not_exit]
      simp [missing]
    | ok y =>
      have ih := ih y
      simp only [entries, returns, List.singleton_append, List.nil_append, List.countP_cons, ends, p1, p2, enter_self,
        not_exit, exit_self, not_enter] at ih ⊢
      simp only [decide_true, Bool.and_true, Bool.and_false, if_true] at ih ⊢
      simp only [Bool.false_eq_true, if_false, add_zero] at ih ⊢
      omega

theorem survey_bracketed (A : Acts S) : Bracketed (survey A) := by
  unfold survey
  repeat first
    | exact .nil
    | refine .act ?_
    | refine .info ?_
    | refine .call ?_
    | refine .status (fun _ => by unfold text; decide +kernel) ?_

theorem sim_bracketed (A : Acts S) : Bracketed (sim A) := by
  unfold sim
  repeat first
    | exact .nil
    | refine .act ?_
    | refine .info ?_
    | refine .call ?_
    | refine .status (fun _ => by unfold text; decide +kernel) ?_

theorem window_bracketed (A : Acts S) : Bracketed (window A) := by
  unfold window
  repeat first
    | exact .nil
    | refine .act ?_
    | refine .info ?_
    | refine .call ?_
    | refine .status (fun _ => by unfold text; decide +kernel) ?_

/-- **C161, marks.**  In the log of a measurement with the logger of `setup_logger`, enabled for status messages,
each entry into C++ is followed by a return, unless the measurement failed in an announced C++ call; then one
return is missing. -/
theorem C161_marks {l : Lg} (hk : l.kind = .cpp) (hs : l.enabled 15 = true) (A : Acts S) (x : S) :
    ∀ s ∈ [survey A, sim A, window A],
      entries (run true (some l) s x).1 =
        returns (run true (some l) s x).1 + missing (failing s x) := by
  intro s h
  simp only [List.mem_cons, List.not_mem_nil, or_false] at h
  rcases h with rfl | rfl | rfl
  · exact bracketed_marks hk hs (survey_bracketed A) x
  · exact bracketed_marks hk hs (sim_bracketed A) x
  · exact bracketed_marks hk hs (window_bracketed A) x

/-- **C161, state.**  The state is read in either letter case; any text but the two known ones and the empty text is
taken as a true value. -/
theorem C161_state (msg : Str) (s : String) :
    (Par.lower s = "start" → process msg (.text s) = msg ++ " (entering C++)".toList) ∧
    (Par.lower s = "end" → process msg (.text s) = msg ++ " (exited C++)".toList) ∧
    (Par.lower s ≠ "start" → Par.lower s ≠ "end" → process msg (.text s) = process msg (.flag (decide (s ≠ "")))) ∧
    process msg .absent = process msg (.flag false) := by
  refine ⟨fun h => ?_, fun h => ?_, fun h h' => ?_, rfl⟩
  · simp only [process, if_pos h]
  · have : Par.lower s ≠ "start" := by rw [h]; decide
    simp only [process, if_neg this, if_pos h]
  · simp only [process, if_neg h, if_neg h']
    by_cases hs : s = "" <;> simp [hs]

/-! ### Cases -/

/-- Functions which count, the measurement failing from three on. -/
def exActs : Acts ℕ :=
  { params := .ok, binning := .ok, los := .ok, box := .ok, boxMsg := fun _ => none, mesh := .ok,
    meshMsg := fun _ => none, align := .ok, density := .ok, densityMsg := fun _ => some "nz".toList,
    convert := fun n => .ok (n + 1), alpha := .ok, alphaMsg := fun _ => some "alpha".toList, norms := .ok,
    normMsg := fun _ => some "norm".toList, before := text "Measuring",
    compute := fun n => if n < 3 then .ok (n + 10) else .error .valueError, after := text "... measured",
    save := .ok, saveMsg := fun _ => none }

def exLg (k : Kind) : Lg := ⟨k, fun n => decide (15 ≤ n)⟩

example : ((run true (some (exLg .cpp)) (sim exActs) 0).2.toOption, (run true (some (exLg .cpp)) (sim exActs) 0).1.length,
    entries (run true (some (exLg .cpp)) (sim exActs) 0).1, returns (run true (some (exLg .cpp)) (sim exActs) 0).1) =
    (some 11, 9, 2, 2) := by decide +kernel

example : ((run true (some (exLg .cpp)) (sim exActs) 5).2.toOption,
    entries (run true (some (exLg .cpp)) (sim exActs) 5).1, returns (run true (some (exLg .cpp)) (sim exActs) 5).1,
    failing (sim exActs) 5) = (none, 2, 1, some true) := by decide +kernel

example : (run true (some (exLg .plain)) (sim exActs) 0).2 = .error .typeError := by
  rcases run_typeError (l := exLg .plain) rfl rfl true (sim exActs) 0 ⟨_, _, List.mem_of_getElem? (i := 17) rfl, CppState.noConfusion⟩
    with h | ⟨e, h, -⟩
  · exact h
  · cases h

end Trv.Plog

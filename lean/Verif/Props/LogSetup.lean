import Mathlib.Tactic.SplitIfs
import Mathlib.Data.List.Basic
import Verif.Spec.LogSetup
/-
C163: `setup_logger` may be called at any time and any number of times.
-/
namespace Trv.Lset

theorem setup_root (n : ℕ) (s : State) : (setup n s).root = [ownHandler] := by
  unfold setup capture
  cases h : s.root <;> cases h' : s.saved <;> simp

theorem setup_level (n : ℕ) (s : State) :
    (setup n s).level = n ∧ (setup n s).disabled = s.disabled ∧ (setup n s).style = .trv ∧
      (setup n s).pyWarn = s.pyWarn := by
  unfold setup capture
  cases h' : s.saved <;> simp

theorem run_append (s : State) (a b : List Op) : run s (a ++ b) = run (run s a) b := by
  unfold run
  rw [List.foldl_append]

/-- Either warnings are not captured and shown as at first, or they are and the first function is kept. -/
def Kept (x : Show) (s : State) : Prop :=
  (s.saved = none ∧ s.shown = x) ∨ (s.saved = some x ∧ s.shown = .logging)

theorem capture_kept {x : Show} {s : State} (h : Kept x s) (b : Bool) : Kept x (capture b s) := by
  unfold Kept capture at *
  rcases h with ⟨h, h'⟩ | ⟨h, h'⟩ <;> cases b <;> simp [h, h']

theorem warn_state (s : State) (m : String) :
    (warn s m).2.saved = s.saved ∧ (warn s m).2.shown = s.shown ∧ (warn s m).2.style = s.style ∧
      (warn s m).2.root = s.root ∧ (warn s m).2.level = s.level ∧ (warn s m).2.disabled = s.disabled := by
  unfold warn
  cases h : s.shown <;> simp only [h, and_self]
  split_ifs <;> simp [h]

theorem step_kept {x : Show} {s : State} (h : Kept x s) {o : Op} (ho : o.leavesShow = true) : Kept x (step s o) := by
  cases o with
  | setup n => exact capture_kept (s := { s with root := _, level := n, style := .trv }) h true
  | addRoot q => exact h
  | setLevel n => exact h
  | disable n => exact h
  | capture b => exact capture_kept h b
  | setShow k => cases ho
  | warn m =>
    unfold Kept step
    rw [(warn_state s m).1, (warn_state s m).2.1]
    exact h
  | log l m => exact h

theorem run_kept {x : Show} {ops : List Op} : ∀ {s : State}, Kept x s → (∀ o ∈ ops, o.leavesShow = true) →
    Kept x (run s ops) := by
  induction ops with
  | nil => intro s h _; exact h
  | cons o t ih =>
    intro s h ho
    exact ih (step_kept h (ho o (by simp))) fun q hq => ho q (by simp [hq])

/-- Handlers of `py.warnings` which the facility itself adds have no effect. -/
def Quiet (s : State) : Prop := s.pyWarn = [] ∨ s.pyWarn = [⟨.null, 0⟩]

theorem step_quiet {s : State} (h : Quiet s) (o : Op) : Quiet (step s o) := by
  cases o with
  | setup n =>
    unfold Quiet step
    rw [(setup_level n s).2.2.2]
    exact h
  | capture b =>
    unfold Quiet step capture
    unfold Quiet at h
    cases b <;> cases h' : s.saved <;> exact h
  | warn m =>
    unfold Quiet step warn
    cases h' : s.shown
    · exact h
    · rcases h with h | h <;> simp [h]
    · exact h
  | addRoot q => exact h
  | setLevel n => exact h
  | disable n => exact h
  | setShow k => exact h
  | log l m => exact h

theorem run_quiet {ops : List Op} : ∀ {s : State}, Quiet s → Quiet (run s ops) := by
  induction ops with
  | nil => intro s h; exact h
  | cons o t ih => intro s h; exact ih (step_quiet h o)

/-! ### C163 -/

/-- **C163 (messages).**  Whatever was done before, however often the logger was set up and whatever handlers were
attached: after `setup_logger(n)` a message is written exactly once, to the standard output, if its level is at least `n`
and above that of `logging.disable`; otherwise not at all. -/
theorem C163_messages (s : State) (ops : List Op) (n l : ℕ) (m : String) :
    log (run s (ops ++ [.setup n])) l m =
      if (run s ops).disabled < l ∧ n ≤ l then [(.stdout, .message m)] else [] := by
  rw [run_append]
  show log (setup n (run s ops)) l m = _
  unfold log State.enabled
  rw [(setup_level n _).1, (setup_level n _).2.1, setup_root]
  simp only [Bool.and_eq_true, decide_eq_true_eq]
  split_ifs with h
  · simp [callHandlers, ownHandler]
  · rfl

/-- **C163 (handlers).**  Handlers attached to the root logger before `setup_logger` receive no further message until one
is attached again: everything goes to the standard output. -/
theorem C163_detached (s : State) (before after : List Op) (n : ℕ) (ha : ∀ o ∈ after, o.attachesNone = true) (l : ℕ)
    (m : String) : ∀ x ∈ log (run s (before ++ .setup n :: after)) l m, x.1 = .stdout := by
  have key : ∀ (ops : List Op) (t : State), t.root = [ownHandler] → (∀ o ∈ ops, o.attachesNone = true) →
      (run t ops).root = [ownHandler] := by
    intro ops
    induction ops with
    | nil => intro t ht _; exact ht
    | cons o r ih =>
      intro t ht ho
      refine ih _ ?_ fun q hq => ho q (by simp [hq])
      have ho' := ho o (by simp)
      cases o with
      | setup k => exact setup_root k t
      | addRoot h => cases ho'
      | warn m' => exact ((warn_state t m').2.2.2.1).trans ht
      | capture b =>
        unfold step capture
        cases b <;> cases t.saved <;> exact ht
      | setLevel k => exact ht
      | disable k => exact ht
      | setShow k => exact ht
      | log _ _ => exact ht
  have hr : (run s (before ++ .setup n :: after)).root = [ownHandler] := by
    rw [run_append]
    exact key after (setup n (run s before)) (setup_root _ _) ha
  intro x hx
  unfold log at hx
  split_ifs at hx
  · rw [hr] at hx
    simp [callHandlers, ownHandler] at hx
    rw [hx]
  · simp at hx

/-- **C163 (warnings, partial).**  In a program which started with `warnings.showwarning` of the library and does not
assign it, a warning after `setup_logger(n)` is seen exactly once, in the log and in the style of the package, if `n` is
at most 30 and logging of warnings is not disabled; otherwise it is not seen anywhere.  (Partial: see
`C163_warnings_violated`.) -/
theorem C163_warnings_partial (ops : List Op) (ho : ∀ o ∈ ops, o.leavesShow = true) (n : ℕ) (m : String) :
    visible (warn (run fresh (ops ++ [.setup n])) m).1 =
      if (run fresh ops).disabled < 30 ∧ n ≤ 30 then [(.stdout, .warning .trv m)] else [] := by
  have hk : Kept .default (run fresh ops) := run_kept (Or.inl ⟨rfl, rfl⟩) ho
  have hq : Quiet (run fresh ops) := run_quiet (Or.inl rfl)
  rw [run_append]
  show visible (warn (setup n (run fresh ops)) m).1 = _
  generalize run fresh ops = s at hk hq
  have hs : (setup n s).shown = .logging := by
    unfold setup capture
    rcases hk with ⟨h, h'⟩ | ⟨h, h'⟩ <;> simp [h, h']
  obtain ⟨h1, h2, h3, h4⟩ := setup_level n s
  have h5 := setup_root n s
  generalize setup n s = u at hs h1 h2 h3 h4 h5
  unfold warn
  rw [hs]
  have e : u.pyWarn.isEmpty = true ∨ (u.pyWarn.isEmpty = false ∧ u.pyWarn = [⟨.null, 0⟩]) := by
    rcases hq with h | h <;> rw [h4, h] <;> simp
  rcases e with e | ⟨e, e'⟩
  · simp only [e, if_true, State.enabled, h1, h2, h3, h5, Bool.and_eq_true, decide_eq_true_eq]
    split_ifs
    · simp [callHandlers, ownHandler, visible]
    · rfl
  · simp only [e, Bool.false_eq_true, if_false]
    simp only [State.enabled, e', h1, h2, h3, h5, Bool.and_eq_true, decide_eq_true_eq]
    split_ifs
    · simp [callHandlers, ownHandler, visible]
    · rfl

/-- **C163 (restoring).**  In such a program `logging.captureWarnings(False)` brings back `warnings.showwarning` of the
library, however often the logger was set up. -/
theorem C163_restored (x : Show) (s : State) (h0 : s.saved = none) (hx : s.shown = x) (ops : List Op)
    (ho : ∀ o ∈ ops, o.leavesShow = true) : (run s (ops ++ [.capture false])).shown = x := by
  rw [run_append]
  show (capture false (run s ops)).shown = x
  rcases run_kept (ops := ops) (Or.inl ⟨h0, hx⟩) ho with ⟨h, h'⟩ | ⟨h, h'⟩ <;> simp [capture, h, h']

/-- **C163 (warnings, violated).**  If `warnings.showwarning` is put back by other means after `setup_logger` (as
`warnings.catch_warnings` does on exit), no number of further calls of `setup_logger` captures warnings again: each goes
to the standard error and none into the log. -/
theorem C163_warnings_violated (ops : List Op) (ho : ∀ o ∈ ops, ∃ n, o = .setup n) (n : ℕ) (m : String) :
    (warn (run fresh (.setup n :: .setShow .default :: ops)) m).1 = [(.stderr, .warning .trv m)] := by
  have key : ∀ (ops : List Op) (t : State), t.saved = some .default → t.shown = .default → t.style = .trv →
      (∀ o ∈ ops, ∃ n, o = .setup n) → (run t ops).shown = .default ∧ (run t ops).style = .trv := by
    intro ops
    induction ops with
    | nil => intro t _ h h' _; exact ⟨h, h'⟩
    | cons o r ih =>
      intro t h1 h2 h3 hq
      obtain ⟨k, rfl⟩ := hq o (by simp)
      refine ih (setup k t) ?_ ?_ (setup_level k t).2.2.1 fun q hq' => hq q (by simp [hq'])
      · unfold setup capture; simp [h1]
      · unfold setup capture; simp [h1, h2]
  obtain ⟨h, h'⟩ := key ops { setup n fresh with shown := .default } rfl rfl rfl ho
  show (warn (run { setup n fresh with shown := .default } ops) m).1 = _
  unfold warn
  rw [h]
  simp [h']

/-- A handler for a file, two set-ups: the message is written once and not to the file. -/
example : log (run fresh [.addRoot ⟨.other 1, 0⟩]) 30 "m" = [(.other 1, .message "m")] ∧
    log (run fresh [.addRoot ⟨.other 1, 0⟩, .setup 20, .setup 15]) 15 "m" = [(.stdout, .message "m")] ∧
    log (run fresh [.setup 20]) 15 "m" = [] ∧
    log (run fresh [.setup 20, .addRoot ⟨.other 1, 0⟩]) 20 "m" = [(.stdout, .message "m"), (.other 1, .message "m")] ∧
    visible (warn (run fresh [.setup 20, .warn "a", .setup 15]) "m").1 = [(.stdout, .warning .trv "m")] ∧
    visible (warn (run fresh [.setup 40]) "m").1 = [] ∧
    (run fresh [.setup 20, .setup 15, .capture false]).shown = .default := by
  decide

end Trv.Lset

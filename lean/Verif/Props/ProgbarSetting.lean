import Verif.Spec.ProgbarSetting
import Verif.Props.Progress
import Verif.Lemmas.Multipole
import Verif.Lemmas.Output
/-
C165: the progress-bar setting.
-/
set_option linter.unusedSectionVars false
namespace Trv.Pbs
open Trv Trv.Mon Trv.Prg Trv.ThreePt

theorem lower_digit {c : Char} (h : c = '-' ∨ c.isDigit = true) : c.toLower = c := by
  rcases h with rfl | h
  · decide
  · have h' : 48 ≤ c.val ∧ c.val ≤ 57 := by simpa [Char.isDigit] using h
    unfold Char.toLower
    have : ¬ (c.val ≥ 'A'.val ∧ c.val ≤ 'Z'.val) := by
      rintro ⟨h1, _⟩
      have h2 : (65 : UInt32) ≤ c.val := h1
      have h3 : c.val ≤ 57 := h'.2
      exact absurd (UInt32.le_trans h2 h3) (by decide)
    first
      | rw [dif_neg this]
      | (split_ifs with hh; first | exact absurd hh this | rfl)

theorem lower_toStr (i : ℤ) : Par.lowerS (toStr i) = toStr i := by
  unfold Par.lowerS
  conv_rhs => rw [← List.map_id (toStr i)]
  exact List.map_congr_left fun c hc => lower_digit (Out.toStr_chars i c hc)

theorem pyInt_chars {t : List Char} {i : ℤ} (h : Wc.pyInt t = .ok i) :
    ∀ c ∈ t, c = '-' ∨ c = '+' ∨ c.isDigit = true := by
  have hd : ∀ ds : List Char, Wc.isDigits ds = true → ∀ c ∈ ds, c.isDigit = true := by
    intro ds hds
    unfold Wc.isDigits at hds
    rw [Bool.and_eq_true, List.all_eq_true] at hds
    exact hds.2
  unfold Wc.pyInt at h
  split at h
  · split_ifs at h with hh
    intro c hc
    rcases List.mem_cons.1 hc with rfl | hc
    · exact .inl rfl
    · exact .inr (.inr (hd _ hh c hc))
  · split_ifs at h with hh
    intro c hc
    rcases List.mem_cons.1 hc with rfl | hc
    · exact .inr (.inl rfl)
    · exact .inr (.inr (hd _ hh c hc))
  · split_ifs at h with hh
    intro c hc
    exact .inr (.inr (hd _ hh c hc))

theorem fetch_float {t : List Char} (h : FloatText t) : fetch t = Option.none := by
  unfold fetch
  cases hp : Wc.pyInt t with
  | ok i =>
    have hc := pyInt_chars hp
    rcases h.2.1 with h | h | h <;> exact absurd (hc _ h) (by decide)
  | error e => simp only [if_neg h.2.2.1, if_neg h.2.2.2]

section
variable {K : Type} [Field K] [LinearOrder K] [IsStrictOrderedRing K] [FloorRing K]

/-- **C165 (switches and whole percentages).** From any earlier state, a Boolean or an integer is
accepted and fetched back unchanged, and a measurement does what it asks for: no bar, the bar, or
the bar at that interval. -/
theorem C165_accepted_partial (num : List Char → Option K) (hnum : ReadsInts num) (s : State)
    (v : Val) (hv : (∃ b, v = .bool b) ∨ ∃ i, v = .int i) :
    (assign (some v) s).2 = false ∧ (assign (some v) s).1.entry = v ∧
      switchOf num (assign (some v) s).1.cpp = asks num v := by
  rcases hv with ⟨b, rfl⟩ | ⟨i, rfl⟩
  · cases b
    · have e : assign (some (.bool false)) s = (⟨.bool false, "false".toList⟩, false) := by
        simp only [assign, parse, send, Val.text]
        have : Par.lowerS "False".toList = "false".toList := by decide
        simp only [this]
        have : fetch "false".toList = some (.bool false) := by decide
        simp only [this]
      rw [e]
      exact ⟨rfl, rfl, by simp [switchOf, asks]⟩
    · have e : assign (some (.bool true)) s = (⟨.bool true, "true".toList⟩, false) := by
        simp only [assign, parse, send, Val.text]
        have : Par.lowerS "True".toList = "true".toList := by decide
        simp only [this]
        have : fetch "true".toList = some (.bool true) := by decide
        simp only [this]
      rw [e]
      exact ⟨rfl, rfl, by simp [switchOf, asks]⟩
  · have hp := Wc.pyInt_toStr i
    have e : assign (some (.int i)) s = (⟨.int i, toStr i⟩, false) := by
      simp only [assign, parse, send, Val.text, lower_toStr]
      have : fetch (toStr i) = some (.int i) := by unfold fetch; rw [hp]
      simp only [this]
    have hne : ∀ w : List Char, Wc.pyInt w = .error .valueError → toStr i ≠ w := by
      intro w hw h
      rw [h, hw] at hp
      cases hp
    rw [e]
    refine ⟨rfl, rfl, ?_⟩
    show switchOf num (toStr i) = .every (i : K)
    unfold switchOf
    rw [if_neg (hne _ (by decide)), if_neg (hne _ (by decide)), hnum _ _ hp]

/-- **C165 (accepted settings agree).** After any history of assignments, if the last one is
accepted then the entry of the dictionary is a Boolean or an integer and asks for what a
measurement will do with the C++ member. -/
theorem C165_agree (num : List Char → Option K) (hnum : ReadsInts num) (l : List (Option Val))
    (o : Option Val) (s : State) (h : (assign o (history l s).1).2 = false) :
    let r := (assign o (history l s).1).1
    ((∃ b, r.entry = .bool b) ∨ ∃ i, r.entry = .int i) ∧ switchOf num r.cpp = asks num r.entry := by
  generalize (history l s).1 = s0 at h ⊢
  have key : ∀ s1 : State, (parse s1).2 = false →
      ((∃ b, (parse s1).1.entry = .bool b) ∨ ∃ i, (parse s1).1.entry = .int i) ∧
        switchOf num (parse s1).1.cpp = asks num (parse s1).1.entry := by
    intro s1 h1
    unfold parse at h1 ⊢
    generalize send s1 = s2 at h1 ⊢
    cases hf : fetch s2.cpp with
    | none => simp [hf] at h1
    | some v =>
      simp only [hf]
      unfold fetch at hf
      cases hp : Wc.pyInt s2.cpp with
      | ok i =>
        rw [hp] at hf
        cases hf
        have hne : ∀ w : List Char, Wc.pyInt w = .error .valueError → s2.cpp ≠ w := by
          intro w hw h
          rw [h, hw] at hp
          cases hp
        refine ⟨.inr ⟨i, rfl⟩, ?_⟩
        unfold switchOf
        rw [if_neg (hne _ (by decide)), if_neg (hne _ (by decide)), hnum _ _ hp]
        rfl
      | error e =>
        rw [hp] at hf
        simp only at hf
        split_ifs at hf with h2 h3
        · cases hf
          exact ⟨.inl ⟨true, rfl⟩, by rw [h2]; simp [switchOf, asks]⟩
        · cases hf
          exact ⟨.inl ⟨false, rfl⟩, by rw [h3]; simp [switchOf, asks]⟩
  exact key _ h

/-- **C165 is violated for intervals given as floats**, which the template documents ("e.g. 10. for
every 10%"): in Python every float is refused with a `RuntimeError`, both at construction and in an
assignment, while the program takes the same text and measures with the bar at that interval. -/
theorem C165_float_violated (num : List Char → Option K) (t : List Char) (ht : FloatText t) (x : K)
    (hx : num t = some x) (h0 : 0 < x) (h1 : x < 100) (r : Routine) (n : ℤ) (hn : 1 ≤ n) (f : Form)
    (hf : ValidForm n f) (k : ℕ) (c : ℤ) :
    (construct (.float t)).2 = true ∧ (∀ s, (assign (some (.float t)) s).2 = true) ∧
    ∃ fuel bars, measure fuel r n f false (switchOf num (programText (some t) Option.none)) true k c
        = some (.ok (c + k * termTransforms (dim n f) f r, bars)) ∧ bars.length = k := by
  have hl := ht.1
  have key : ∀ s : State, (assign (some (.float t)) s).2 = true := by
    intro s
    simp only [assign, parse, send, Val.text, hl, fetch_float ht]
  refine ⟨key ⟨.none, "false".toList⟩, key, ?_⟩
  have hne : t ≠ [] := by
    rintro rfl
    rcases ht.2.1 with h | h | h <;> simp at h
  have e : switchOf num (programText (some t) Option.none) = .every x := by
    simp only [programText, if_neg hne]
    unfold switchOf
    rw [if_neg ht.2.2.2, if_neg ht.2.2.1, hx]
  rw [e]
  obtain ⟨fuel, bars, g, g1, _⟩ :=
    C164_never_fails r n hn f hf (.every x) (.inl ⟨h0, h1⟩) true k c
  exact ⟨fuel, bars, g, g1⟩

/-- **C165 (a refused setting stays).** After an assignment of a float has been refused, the
dictionary and the C++ member hold it, and every later assignment to another entry is refused too,
whatever it is, until the entry itself is assigned. -/
theorem C165_refused_stays_violated (t : List Char) (ht : FloatText t) (s : State) (k : ℕ) :
    history (List.replicate k Option.none) (assign (some (.float t)) s).1
      = (⟨.float t, t⟩, List.replicate k true) := by
  have hl := ht.1
  have e : (assign (some (.float t)) s).1 = ⟨.float t, t⟩ := by
    simp only [assign, parse, send, Val.text, hl, fetch_float ht]
  rw [e]
  induction k with
  | zero => rfl
  | succ k ih =>
    rw [List.replicate_succ, history]
    have e2 : assign Option.none ⟨.float t, t⟩ = (⟨.float t, t⟩, true) := by
      simp only [assign, parse, send, Val.text, hl, fetch_float ht]
    simp only [e2, ih]
    rfl

/-- **C165 is violated for words in the program**: a word that is neither `true`, `false` nor a
number, such as `off`, passes validation there (from the parameter file or from the environment)
and makes every three-point measurement with at least one term fail on every task, while Python
refuses it at once. -/
theorem C165_words_violated (num : List Char → Option K) (w : List Char) (hl : Par.lowerS w = w)
    (hw : w ≠ [] ∧ w ≠ "true".toList ∧ w ≠ "false".toList) (hn : num w = Option.none)
    (hi : ∀ i, Wc.pyInt w ≠ .ok i) (fuel : ℕ) (r : Routine) (n : ℤ) (hn' : 0 ≤ n) (f : Form)
    (hf : ValidForm n f) (root : Bool) (k : ℕ) (c : ℤ) :
    (∀ s, (assign (some (.str w)) s).2 = true) ∧
    ∀ text, text = programText (some w) Option.none ∨ (∃ u, text = programText u (some w)) →
      measure fuel r n f false (switchOf num text) root (k + 1) c
        = some (.error .invalidParameter) := by
  constructor
  · intro s
    have : fetch w = Option.none := by
      unfold fetch
      cases hp : Wc.pyInt w with
      | ok i => exact absurd hp (hi i)
      | error e => simp only [if_neg hw.2.1, if_neg hw.2.2]
    simp only [assign, parse, send, Val.text, hl, this]
  · intro text ht
    have e : text = w := by
      rcases ht with rfl | ⟨u, rfl⟩
      · simp only [programText, if_neg hw.1]
      · rfl
    have e2 : switchOf num text = Switch.other := by
      unfold switchOf
      rw [e, if_neg hw.2.2, if_neg hw.2.1, hn]
    rw [e2, C164_unreadable fuel r n hn' f hf false root .other trivial (k + 1) c]
    simp

end

/-- A reader of whole numbers and of one float, for the examples. -/
def exNum (t : List Char) : Option ℚ :=
  if t = "12.5".toList then some (25 / 2)
  else match Wc.pyInt t with | .ok i => some i | .error _ => Option.none

example : ReadsInts exNum := by
  intro t i h
  unfold exNum
  rw [h]
  split_ifs with h1
  · rw [h1] at h
    rw [show Wc.pyInt "12.5".toList = .error .valueError by decide] at h
    cases h
  · rfl

/-- The hypotheses are met: a float with its value, and the word `off`. -/
example : FloatText "12.5".toList ∧ exNum "12.5".toList = some (25 / 2) ∧
    exNum "off".toList = Option.none ∧ Par.lowerS "off".toList = "off".toList := by
  refine ⟨⟨by decide, .inl (by decide), by decide, by decide⟩, by decide +kernel, by decide +kernel,
    by decide⟩

/-- Assignments in turn: a switch, a float, another entry, an integer as text. -/
example : history [some (.bool true), some (.float "12.5".toList), Option.none, some (.str "010".toList)]
      ⟨.none, "false".toList⟩ = (⟨.int 10, "010".toList⟩, [false, true, true, false]) := by
  decide +kernel

end Trv.Pbs

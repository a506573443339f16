import Verif.Spec.Program
import Verif.Props.Overrides
import Verif.Props.ParamFileRound
/-
C129: how the program ends and what it writes.
-/
namespace Trv.Prog
open Trv Trv.Par Trv.Mon Trv.Cat

section
variable {K : Type} [Field K] [LinearOrder K] [IsStrictOrderedRing K] [FloorRing K] {α : Type}

/-! ### The stages -/

theorem readParams_ok {e : Env K} {ps : Parse K} {toInt : Str → Option ℤ} {o : Overrides} {fuel : ℕ}
    {D : Disk K} {argv : List Str} {p : Params K} (h : readParams e ps toInt o fuel D argv = .ok p) :
    ∃ q : Params K, validate e fuel false q = some (.ok p) := by
  unfold readParams at h
  cases argv with
  | nil => cases h
  | cons a as =>
    simp only at h
    cases h1 : D.params a with
    | none => rw [h1] at h; cases h
    | some l =>
      rw [h1] at h
      simp only at h
      cases h2 : readFile e ps fuel l with
      | none => rw [h2] at h; cases h
      | some x =>
        rw [h2] at h
        cases x with
        | error x => cases x <;> cases h
        | ok p0 =>
          simp only at h
          cases h3 : override e toInt fuel o p0 with
          | none => rw [h3] at h; cases h
          | some y =>
            rw [h3] at h
            cases y with
            | error y => cases h
            | ok p1 =>
              simp only at h
              cases h
              unfold override at h3
              cases h4 : overridden e toInt o p0 with
              | error x => rw [h4] at h3; cases h3
              | ok q => rw [h4] at h3; exact ⟨q, h3⟩

theorem readParams_error {e : Env K} {ps : Parse K} {toInt : Str → Option ℤ} {o : Overrides} {fuel : ℕ}
    {D : Disk K} {argv : List Str} {x : Outcome} (h : readParams e ps toInt o fuel D argv = .error x) :
    ∀ c, x = .exit c → c = 1 := by
  rintro c rfl
  unfold readParams at h
  cases argv with
  | nil => cases h; rfl
  | cons a as =>
    simp only at h
    cases h1 : D.params a with
    | none => rw [h1] at h; cases h
    | some l =>
      rw [h1] at h
      simp only at h
      cases h2 : readFile e ps fuel l with
      | none => rw [h2] at h; cases h
      | some x =>
        rw [h2] at h
        cases x with
        | error x => cases x <;> cases h; rfl
        | ok p0 =>
          simp only at h
          cases h3 : override e toInt fuel o p0 with
          | none => rw [h3] at h; cases h
          | some y =>
            rw [h3] at h
            cases y with
            | error y => cases y <;> cases h
            | ok p1 => cases h

theorem uncaught_ne (x : CppErr) (c : ℕ) : uncaught x ≠ .exit c := by
  cases x <;> simp [uncaught]

theorem loadOne_error {D : Disk K} {p : Params K} {i : Which} {path : Str} {w : World Which K}
    {x : Outcome} (h : loadOne D p i path w = .error x) : ∀ c, x = .exit c → c = 1 := by
  rintro c rfl
  unfold loadOne at h
  split_ifs at h
  · cases h; rfl
  · cases h
  · split at h
    · cases h
    · cases h; rfl
    · exact absurd (Except.error.inj h) (uncaught_ne _ _)

theorem loadCats_error {D : Disk K} {p : Params K} {x : Outcome} (h : loadCats D p = .error x) :
    ∀ c, x = .exit c → c = 1 := by
  unfold loadCats at h
  simp only [bind, Except.bind] at h
  by_cases c1 : p.catType = "survey" ∨ p.catType = "sim"
  · rw [if_pos c1] at h
    cases h1 : loadOne D p .data p.dataFile { cats := fun _ => noCat, mem := 0, maxmem := 0 } with
    | error y => rw [h1] at h; cases h; exact loadOne_error h1
    | ok v =>
      rw [h1] at h
      simp only at h
      split_ifs at h
      cases h2 : loadOne D p .rand p.randFile v with
      | error y => rw [h2] at h; cases h; exact loadOne_error h2
      | ok v => rw [h2] at h; cases h
  · rw [if_neg c1] at h
    split_ifs at h
    cases h2 : loadOne D p .rand p.randFile { cats := fun _ => noCat, mem := 0, maxmem := 0 } with
    | error y => rw [h2] at h; cases h; exact loadOne_error h2
    | ok v => rw [h2] at h; cases h

theorem deriveBox_ok {e : Env K} {fuel : ℕ} {span : V3 K} {p q : Params K}
    (h : deriveBox e fuel span p = some (.ok q)) :
    (p.volume ≠ 0 ∧ q = p) ∨ (p.volume = 0 ∧ ∃ r : Params K, validate e fuel false r = some (.ok q)) := by
  unfold deriveBox at h
  by_cases hv : p.volume = 0
  · rw [if_pos hv] at h
    refine Or.inr ⟨hv, ?_⟩
    split at h
    · rename_i p1 h1
      split_ifs at h
      · split at h
        · cases h
        · exact ⟨_, h⟩
      · cases h
        exact ⟨_, h1⟩
    · exact ⟨_, h⟩
  · rw [if_neg hv] at h
    cases h
    exact Or.inl ⟨hv, rfl⟩

theorem alignStage_ok {e : Env K} {fuel : ℕ} {σ τ : CStore Which K} {p q : Params K}
    (h : alignStage e fuel σ p = .ok (q, τ)) :
    ((p.catType = "none" ∨ p.volume ≠ 0) ∧ q = p ∨
      p.volume = 0 ∧ ∃ r : Params K, validate e fuel false r = some (.ok q)) ∧ alignCats σ q = .ok τ := by
  unfold alignStage at h
  simp only at h
  by_cases hc : p.catType = "none"
  · simp only [hc, if_true] at h
    cases h1 : alignCats σ p with
    | error x => rw [h1] at h; cases h
    | ok σ' => rw [h1] at h; cases h; exact ⟨Or.inl ⟨Or.inl hc, rfl⟩, h1⟩
  · simp only [hc, if_false] at h
    split at h
    · cases h
    · cases h
    · rename_i p1 h1
      cases h2 : alignCats σ p1 with
      | error x => rw [h2] at h; cases h
      | ok σ' =>
        rw [h2] at h; cases h
        refine ⟨?_, h2⟩
        rcases deriveBox_ok h1 with ⟨a, b⟩ | ⟨a, b⟩
        · exact Or.inl ⟨Or.inr a, b⟩
        · exact Or.inr ⟨a, b⟩

theorem alignStage_error {e : Env K} {fuel : ℕ} {σ : CStore Which K} {p : Params K} {x : Outcome}
    (h : alignStage e fuel σ p = .error x) (c : ℕ) : x ≠ .exit c := by
  unfold alignStage at h
  simp only at h
  split at h
  · cases h; simp
  · cases h; exact uncaught_ne _ _
  · split at h
    · cases h; exact uncaught_ne _ _
    · cases h

theorem prepare_ok {losf : V3 K → V3 K} {e : Env K} {m : Binning.MathLib K} {fuel : ℕ} {D : Disk K}
    {p : Params K} {σ : CStore Which K} {I : Input K} (h : prepare losf e m fuel D p σ = .ok I) :
    binningOf m p = .ok I.bins ∧
    ∃ τ, alignStage e fuel σ p = .ok (I.p, τ) ∧ I.data = τ .data ∧ I.rand = τ .rand ∧
      I.losData = losOf losf (σ .data) ∧ I.losRand = losOf losf (σ .rand) := by
  unfold prepare at h
  split_ifs at h
  split at h
  · cases h
  · rename_i b hb
    split at h
    · cases h
    · rename_i q τ hq
      cases h
      exact ⟨hb, τ, hq, rfl, rfl, rfl, rfl⟩

theorem prepare_error {losf : V3 K → V3 K} {e : Env K} {m : Binning.MathLib K} {fuel : ℕ} {D : Disk K}
    {p : Params K} {σ : CStore Which K} {x : Outcome} (h : prepare losf e m fuel D p σ = .error x)
    (c : ℕ) : x ≠ .exit c := by
  unfold prepare at h
  split_ifs at h
  · cases h; simp
  · split at h
    · cases h; exact uncaught_ne _ _
    · split at h
      · rename_i o ho
        cases h
        exact alignStage_error ho c
      · cases h

theorem cppPath_isSome {p : Params K} (h : WellFormed p) :
    (Out.cppPath (outP p)).isSome ↔ p.statType ∈ measuredStats := by
  obtain ⟨cats, hc1, hc2⟩ := h.stat
  have hform := h.form
  have h3 : ∀ s, (Out.cppForm { outP p with stat := s }).isSome := by
    intro s
    unfold Out.cppForm
    simp only [outP]
    simp only [List.mem_cons, List.not_mem_nil, or_false] at hform
    rcases hform with h | h | h | h <;> simp [h]
  unfold Out.cppPath Out.cppFull measuredStats
  simp only [outP] at h3 ⊢
  simp only [statTable, List.mem_cons, Prod.mk.injEq, List.not_mem_nil, or_false] at hc1
  rcases hc1 with h | h | h | h | h | h | h | h | h <;> simp [h.1, h3]

/-! ### The run -/

/-- The cases of a run which is not ended by an option. -/
theorem run_cases (losf : V3 K → V3 K) (e : Env K) (ps : Parse K) (toInt : Str → Option ℤ)
    (m : Binning.MathLib K) (alg : Input K → Except CppErr α) (o : Overrides) (fuel : ℕ) (D : Disk K)
    (argv : List Str) (ho : options argv argv = none) :
    (∃ x, (run losf e ps toInt m alg o fuel D argv) = ([], x) ∧ ∀ c, x = .exit c → c = 1) ∨
    ∃ p, readParams e ps toInt o fuel D argv = .ok p ∧
      ((∃ x, run losf e ps toInt m alg o fuel D argv = ([.used (usedPath p) p], x) ∧
          ∀ c, x = .exit c → c = 1) ∨
        ∃ σ I r, loadCats D p = .ok σ ∧ prepare losf e m fuel D p σ = .ok I ∧ alg I = .ok r ∧
          run losf e ps toInt m alg o fuel D argv =
            (.used (usedPath p) p :: (save D I.p r).1, (save D I.p r).2)) := by
  unfold run
  rw [ho]
  simp only
  cases h1 : readParams e ps toInt o fuel D argv with
  | error x => exact Or.inl ⟨x, rfl, readParams_error h1⟩
  | ok p =>
    simp only
    split_ifs with c1 c2
    · exact Or.inl ⟨_, rfl, fun c h => by cases h⟩
    · exact Or.inl ⟨_, rfl, fun c h => by cases h⟩
    · refine Or.inr ⟨p, rfl, ?_⟩
      cases h2 : loadCats D p with
      | error x => exact Or.inl ⟨x, rfl, loadCats_error h2⟩
      | ok σ =>
        simp only
        cases h3 : prepare losf e m fuel D p σ with
        | error x => exact Or.inl ⟨x, rfl, fun c h => absurd h (prepare_error h3 c)⟩
        | ok I =>
          simp only
          cases h4 : alg I with
          | error x => exact Or.inl ⟨_, rfl, fun c h => absurd h (uncaught_ne x c)⟩
          | ok r => exact Or.inr ⟨σ, I, r, rfl, h3, h4, rfl⟩

theorem save_zero {D : Disk K} {q : Params K} {r : α} (h : (save D q r).2 = .exit 0) :
    (save D q r).1 = ((Out.cppPath (outP q)).toList.map fun path => File.measured path q r) ++
      (if q.saveBvec = [] then [] else [.vectors q.saveBvec q]) := by
  unfold save at h ⊢
  cases h1 : Out.cppPath (outP q) with
  | none =>
    rw [h1] at h
    simp only at h ⊢
    split_ifs at h ⊢ <;> first | rfl | cases h
  | some path =>
    rw [h1] at h
    simp only at h ⊢
    split_ifs at h ⊢ <;> first | rfl | cases h

theorem save_other {D : Disk K} {q : Params K} {r : α} (h : (save D q r).2 ≠ .exit 0) :
    (save D q r).2 = .undefined ∧ ((save D q r).1 = [] ∨
      ∃ path, (save D q r).1 = [.measured path q r] ∧ q.saveBvec ≠ []) := by
  unfold save at h ⊢
  cases h1 : Out.cppPath (outP q) with
  | none =>
    rw [h1] at h
    simp only at h ⊢
    split_ifs at h ⊢ <;> first | exact ⟨rfl, Or.inl rfl⟩ | exact absurd rfl h
  | some path =>
    rw [h1] at h
    simp only at h ⊢
    split_ifs at h ⊢ with a b c
    · exact absurd rfl h
    · exact absurd rfl h
    · exact ⟨rfl, Or.inr ⟨path, rfl, b⟩⟩
    · exact ⟨rfl, Or.inl rfl⟩

/-- **C129.** A run of the program, not ended by an option, which exits with status 0 has read
its parameters, has completed the measurement, and has written exactly what was asked for: the
used parameters, the measurement if the statistic is one, and the binned vectors if asked for.
With a box given, the parameters are the ones used. -/
theorem C129_success (losf : V3 K → V3 K) (e : Env K) (he : e.extcall = false) (ps : Parse K)
    (toInt : Str → Option ℤ) (m : Binning.MathLib K) (alg : Input K → Except CppErr α) (o : Overrides)
    (fuel : ℕ) (D : Disk K) (argv : List Str) (ho : options argv argv = none)
    (h : (run losf e ps toInt m alg o fuel D argv).2 = .exit 0) :
    ∃ p I r, readParams e ps toInt o fuel D argv = .ok p ∧ WellFormed p ∧ WellFormed I.p ∧
      alg I = .ok r ∧ (p.volume ≠ 0 → I.p = p) ∧
      Complete p I.p r (run losf e ps toInt m alg o fuel D argv).1 := by
  rcases run_cases losf e ps toInt m alg o fuel D argv ho with ⟨x, hx, hc⟩ | ⟨p, hp, ⟨x, hx, hc⟩ |
    ⟨σ, I, r, h1, h2, h3, h4⟩⟩
  · rw [hx] at h
    exact absurd (hc 0 h) (by simp)
  · rw [hx] at h
    exact absurd (hc 0 h) (by simp)
  · rw [h4] at h ⊢
    simp only at h ⊢
    obtain ⟨q, hq⟩ := readParams_ok hp
    have w1 := C33_well_formed e he fuel false q p hq
    obtain ⟨-, τ, h5, -⟩ := prepare_ok h2
    obtain ⟨h6, -⟩ := alignStage_ok h5
    have w2 : WellFormed I.p := by
      rcases h6 with ⟨-, h6⟩ | ⟨-, r, hr⟩
      · rw [h6]; exact w1
      · exact C33_well_formed e he fuel false r I.p hr
    refine ⟨p, I, r, hp, w1, w2, h3, ?_, ?_⟩
    · intro hv
      rcases h6 with ⟨-, h6⟩ | ⟨h6, -⟩
      · exact h6
      · exact absurd h6 hv
    · have hs := save_zero h
      have hc := cppPath_isSome w2
      unfold Complete
      rw [hs]
      cases hpath : Out.cppPath (outP I.p) with
      | none =>
        have : I.p.statType ∉ measuredStats := by rw [← hc, hpath]; simp
        refine ⟨[], ?_, fun h => absurd h this⟩
        rw [if_neg this]
        rfl
      | some path =>
        have : I.p.statType ∈ measuredStats := by rw [← hc, hpath]; rfl
        refine ⟨path, ?_, fun _ => rfl⟩
        rw [if_pos this]
        rfl

/-- **C129.** A run which does not exit with status 0 writes no more than the used parameters,
but that it leaves the measurement when it is the binned vectors which cannot be written; and
if it exits at all, it does so with status 1. -/
theorem C129_failure (losf : V3 K → V3 K) (e : Env K) (ps : Parse K)
    (toInt : Str → Option ℤ) (m : Binning.MathLib K) (alg : Input K → Except CppErr α) (o : Overrides)
    (fuel : ℕ) (D : Disk K) (argv : List Str)
    (h : (run losf e ps toInt m alg o fuel D argv).2 ≠ .exit 0) :
    (∃ p, Incomplete p (run losf e ps toInt m alg o fuel D argv).1) ∧
    ∀ c, (run losf e ps toInt m alg o fuel D argv).2 = .exit c → c = 1 := by
  cases ho : options argv argv with
  | some c0 =>
    have hc : ∀ l, options argv l = some c0 → c0 = 0 ∨ c0 = 1 := by
      intro l
      induction l with
      | nil => intro h; cases h
      | cons a as ih =>
        intro h
        unfold options at h
        split_ifs at h
        · cases h; exact Or.inl rfl
        · cases h; exact Or.inl rfl
        · cases h; exact Or.inr rfl
        · exact ih h
    have hr : run losf e ps toInt m alg o fuel D argv = ([], .exit c0) := by
      unfold run
      rw [ho]
    rw [hr] at h ⊢
    refine ⟨⟨Params.default, Or.inl rfl⟩, fun c hcc => ?_⟩
    cases hcc
    rcases hc argv ho with rfl | rfl
    · exact absurd rfl h
    · rfl
  | none =>
    rcases run_cases losf e ps toInt m alg o fuel D argv ho with ⟨x, hx, hc⟩ | ⟨p, hp, ⟨x, hx, hc⟩ |
      ⟨σ, I, r, h1, h2, h3, h4⟩⟩
    · rw [hx]
      exact ⟨⟨Params.default, Or.inl rfl⟩, hc⟩
    · rw [hx]
      exact ⟨⟨p, Or.inr (Or.inl rfl)⟩, hc⟩
    · rw [h4] at h ⊢
      simp only at h ⊢
      obtain ⟨k1, k2⟩ := save_other h
      rw [k1]
      refine ⟨⟨p, ?_⟩, fun c hc => by cases hc⟩
      rcases k2 with k2 | ⟨path, k2, k3⟩
      · rw [k2]; exact Or.inr (Or.inl rfl)
      · rw [k2]; exact Or.inr (Or.inr ⟨path, I.p, r, rfl, k3⟩)

/-- **C129 (violated).** `custom` binning, which validation accepts in both spaces, never leads
to a measurement in Fourier space: the program ends by an exception, and this only after the
catalogues have been read. -/
theorem C129_custom_violated (losf : V3 K → V3 K) (e : Env K) (ps : Parse K)
    (toInt : Str → Option ℤ) (m : Binning.MathLib K) (alg : Input K → Except CppErr α) (o : Overrides)
    (fuel : ℕ) (D : Disk K) (argv : List Str) (p : Params K) (ho : options argv argv = none)
    (hp : readParams e ps toInt o fuel D argv = .ok p) (hb : p.binning = "custom")
    (hs : p.space ≠ "config") :
    (run losf e ps toInt m alg o fuel D argv).2 ≠ .exit 0 ∧
      ∀ path q r, File.measured path q r ∉ (run losf e ps toInt m alg o fuel D argv).1 := by
  have hbad : ∀ b, binningOf m p ≠ .ok b := by
    intro b hc
    unfold binningOf at hc
    simp only [hb, hs, if_false, if_true] at hc
    rw [if_neg (fun h => absurd h.1 (by decide))] at hc
    simp [Binning.mainCustomBins, Binning.Cpp.new] at hc
  rcases run_cases losf e ps toInt m alg o fuel D argv ho with ⟨x, hx, hc⟩ | ⟨p', hp', ⟨x, hx, hc⟩ |
    ⟨σ, I, r, h1, h2, h3, h4⟩⟩
  · rw [hx]
    exact ⟨fun h => absurd (hc 0 h) (by simp), by simp⟩
  · rw [hx]
    exact ⟨fun h => absurd (hc 0 h) (by simp), by simp⟩
  · rw [hp] at hp'
    cases hp'
    exact absurd (prepare_ok h2).1 (hbad _)

/-- **C129 (violated).** A parameter file which cannot be opened does not make the program exit
with status 1: the exception is not caught. -/
theorem C129_no_parameters_violated (losf : V3 K → V3 K) (e : Env K) (ps : Parse K)
    (toInt : Str → Option ℤ) (m : Binning.MathLib K) (alg : Input K → Except CppErr α) (o : Overrides)
    (fuel : ℕ) (D : Disk K) (a : Str) (as : List Str) (ho : options (a :: as) (a :: as) = none)
    (h : D.params a = none) :
    run losf e ps toInt m alg o fuel D (a :: as) = ([], .aborted .ioError) := by
  unfold run
  rw [ho]
  simp only [readParams, h]

end

/-! ### Instances -/

/-- The lines of a parameter file, for examples. -/
def exLines (extra : List String) : List Str :=
  (["catalogue_type = sim", "statistic_type = powspec", "data_catalogue_file = /d",
    "measurement_dir = out", "output_tag = _t", "catalogue_columns = x,y,z", "ngrid_x = 64",
    "ngrid_y = 64", "ngrid_z = 64", "bin_min = 0.0100", "bin_max = 0.1000", "num_bins = 9",
    "ell1 = 0", "ell2 = 0", "ELL = 0"] ++ extra).map String.toList

/-- A box given in the file, and one to be found from the catalogue. -/
def exBox : List String := ["boxsize_x = 1000.000", "boxsize_y = 1000.000", "boxsize_z = 1000.000"]
def exNoBox : List String := ["boxsize_x = 0.0000", "boxsize_y = 0.0000", "boxsize_z = 0.0000"]

/-- A disk with a parameter file and a catalogue of two particles, on which `bad` cannot be opened. -/
def exDisk (bad : Str) (extra : List String) : Disk ℚ :=
  { params := fun s => if s = "p.ini".toList then some (exLines extra) else none
    cat := fun s => if s = "/d".toList then some [.row [1, 2, 3], .row [5, 6, 7]] else none
    canMake := fun _ => true
    canOpen := fun s => s ≠ bad }

/-- The run on such a disk of a program which tells whether the bins are finite. -/
def exRun (bad : Str) (extra : List String) : List (File ℚ Bool) × Outcome :=
  run id (exEnv false) exParse exParse.int ⟨id, id, 22 / 7⟩ (fun I => .ok I.bins.isSome) {} 3
    (exDisk bad extra) ["p.ini".toList]

/-- A used-parameters file and a measurement, with the box of the parameters, after a run with
status 0. -/
def exFiles : List (File ℚ Bool) × Outcome → Option (Str × ℚ × Str × ℚ × Bool)
  | ([.used a p, .measured b q r], .exit 0) => some (a, p.box 0, b, q.box 0, r)
  | _ => none

theorem exFiles_spec {fs : List (File ℚ Bool) × Outcome} {a b : Str} {x y : ℚ} {r : Bool}
    (h : exFiles fs = some (a, x, b, y, r)) :
    ∃ p q, fs = ([.used a p, .measured b q r], .exit 0) ∧ p.box 0 = x ∧ q.box 0 = y := by
  unfold exFiles at h
  split at h
  · cases h
    exact ⟨_, _, rfl, rfl, rfl⟩
  · cases h

example : options ["p.ini".toList] ["p.ini".toList] = none ∧
    exFiles (exRun [] exBox) =
      some ("out/parameters_used_t".toList, 1000, "out//pk0_t".toList, 1000, true) := by
  decide +kernel

/-- A run with `custom` binning. -/
example : (exRun [] ("binning = custom" :: exBox)).2 = .aborted .invalidParameter := by
  decide +kernel

/-- **C129 (violated).** When the file of the measurement cannot be opened, the completed
measurement is written through a null pointer. -/
theorem C129_open_violated : ∃ bad extra, (exRun bad extra).2 = .undefined :=
  ⟨"out//pk0_t".toList, exBox, by decide +kernel⟩

/-- **C129 (violated).** When the box is to be found from the catalogue, the file of used
parameters, which is written before, does not hold the box used. -/
theorem C129_used_box_violated :
    ∃ bad extra a b p q r, exRun bad extra = ([.used a p, .measured b q r], .exit 0) ∧
      p.box 0 = 0 ∧ q.box 0 = 4 := by
  have h : exFiles (exRun [] exNoBox) =
      some ("out/parameters_used_t".toList, 0, "out//pk0_t".toList, 4, true) := by decide +kernel
  obtain ⟨p, q, h1, h2, h3⟩ := exFiles_spec h
  exact ⟨[], exNoBox, _, _, p, q, true, h1, h2, h3⟩

/-- **C129 (violated).** Padded bins are set before the box is found from the catalogue: the
measurement is made with edges which are not numbers, and the program exits with status 0. -/
theorem C129_padded_violated :
    ∃ bad extra a b p q, exRun bad extra = ([.used a p, .measured b q false], .exit 0) ∧
      q.box 0 = 4 := by
  have h : exFiles (exRun [] ("binning = linpad" :: exNoBox)) =
      some ("out/parameters_used_t".toList, 0, "out//pk0_t".toList, 4, false) := by decide +kernel
  obtain ⟨p, q, h1, h2, h3⟩ := exFiles_spec h
  exact ⟨[], _, _, _, p, q, h1, h3⟩

end Trv.Prog

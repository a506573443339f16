import Verif.Spec.OptionCase
import Verif.Props.ParamsPy
import Verif.Props.Handover
import Verif.Props.Header
/-
Property theorems on the letter case of textual options: C149.
-/
namespace Trv.Par

open Trv Trv.Cat Trv.Out Trv.Prog

section
variable {K : Type} [Field K] [LinearOrder K] [IsStrictOrderedRing K] [FloorRing K]

theorem pre_options {e : Env K} {init : Bool} {p q : Params K} (h : pre e init p = .ok q) :
    p.alignment ∈ ["centre", "pad"] ∧ p.padscale ∈ ["box", "grid"] ∧
    p.norm ∈ ["none", "particle", "mesh", "mesh-mixed"] ∧ p.form ∈ ["full", "diag", "off-diag", "row"] := by
  obtain ⟨a, b, c, d, f, h1, h2, h3, h4, h5, h6⟩ := pre_steps h
  have ia : a.alignment = p.alignment ∧ a.padscale = p.padscale ∧ a.norm = p.norm ∧ a.form = p.form := by
    rw [(vFiles_frame h1).1]; exact ⟨rfl, rfl, rfl, rfl⟩
  have ic : c.norm = a.norm ∧ c.form = a.form := by
    rw [(vStat_frame h3).1]
    show b.norm = _ ∧ b.form = _
    rw [(vMesh_frame h2).1]
    exact ⟨rfl, rfl⟩
  rw [← ia.1, ← ia.2.1, ← ia.2.2.1, ← ia.2.2.2, ← ic.1, ← ic.2]
  unfold vMesh at h2
  split_ifs at h2 with a1 a2
  unfold vForm at h4
  simp only at h4
  split_ifs at h4 with a3 a4
  all_goals
    simp only [List.mem_cons, List.not_mem_nil, or_false]
    exact ⟨a1, a2, a4, a3⟩

/-- The options of the C++ parameters of an accepted set are among those admitted. -/
theorem accepted_options {e : Env K} {fuel : ℕ} {f : Dict K → Dict K} {s s' : PySet K}
    (h : assign e fuel f s = some (s', none)) :
    s'.c.alignment ∈ ["centre", "pad"] ∧ s'.c.padscale ∈ ["box", "grid"] ∧
    s'.c.norm ∈ ["none", "particle", "mesh", "mesh-mixed"] ∧
    s'.c.form ∈ ["full", "diag", "off-diag", "row"] := by
  obtain ⟨s1, s2, s3, s4, -, -, -, -, h5⟩ := pParse_steps h
  unfold pValidate at h5
  split at h5
  · cases h5
  · simp at h5
  · rename_i c hc
    simp only [Option.some.injEq, Prod.mk.injEq, and_true] at h5
    subst h5
    show c.alignment ∈ _ ∧ c.padscale ∈ _ ∧ c.norm ∈ _ ∧ c.form ∈ _
    have hi := (C33_inputs_kept e fuel true _ _ hc).1
    simp only [inputs, Prod.mk.injEq] at hi
    cases fuel with
    | zero => cases hc
    | succ fuel =>
      obtain ⟨q, hq, -⟩ := validate_cases hc
      have := pre_options hq
      obtain ⟨-, -, -, -, -, -, -, -, -, -, -, -, -, i1, i2, -, -, -, i3, i4, -⟩ := hi
      rw [i1, i2, i3, i4]
      exact this

theorem lower_same {o : Option String} {x : String} (ho : LowerEntry o) (h : Same lower o x) : o = some x := by
  obtain ⟨s, rfl, hs⟩ := ho
  rw [h s rfl, hs]

/-- **C149, normalisation.**  When the convention is given in lower-case letters, the factor used by the Python
functions is the one selected by the convention in the C++ parameters.  (Partial: the parameters accept any
letter case.) -/
theorem C149_norm_partial (e : Env K) (fuel : ℕ) (f : Dict K → Dict K) (s s' : PySet K)
    (h : assign e fuel f s = some (s', none)) (hn : LowerEntry s'.d.norm) (k : Out.Kind) (n : Norms)
    (hm : s'.c.norm = "mesh-mixed" → k.Paired) :
    ∃ x, factorOf k s'.d n = .ok x ∧ Selects n s'.c.norm x := by
  have hs := lower_same hn (C35_accepted_agree_partial e fuel f s s' h).norm
  have ho := (accepted_options h).2.2.1
  unfold factorOf
  rw [hs]
  simp only
  simp only [List.mem_cons, List.not_mem_nil, or_false] at ho
  generalize s'.c.norm = c at ho hm
  rcases ho with rfl | rfl | rfl | rfl
  · exact ⟨1, by simp [pyUsed], by simp [Selects]⟩
  · exact ⟨n.part, by simp [pyUsed], by simp [Selects]⟩
  · exact ⟨n.mesh, by simp [pyUsed], by simp [Selects]⟩
  · refine ⟨n.meshes, ?_, by simp [Selects]⟩
    have := hm rfl
    cases k <;> simp_all [pyUsed, Out.Kind.Paired]

/-- **C149, normalisation (violated).**  Whenever an accepted set has a convention with capital letters, every
measurement ends in a `NameError`. -/
theorem C149_norm_violated (e : Env K) (fuel : ℕ) (f : Dict K → Dict K) (s s' : PySet K)
    (_h : assign e fuel f s = some (s', none)) (c : String) (hc : s'.d.norm = some c) (hp : ¬ LowerCase c)
    (k : Out.Kind) (n : Norms) : factorOf k s'.d n = .error .nameError := by
  have h1 : c ≠ "none" := by rintro rfl; exact hp (by decide +kernel)
  have h2 : c ≠ "particle" := by rintro rfl; exact hp (by decide +kernel)
  have h3 : c ≠ "mesh" := by rintro rfl; exact hp (by decide +kernel)
  have h4 : c ≠ "mesh-mixed" := by rintro rfl; exact hp (by decide +kernel)
  unfold factorOf
  rw [hc]
  cases k <;> simp [pyUsed, h1, h2, h3, h4]

/-- **C149, alignment (violated).**  Whenever an accepted set has an alignment with capital letters, the
catalogues are not aligned, although the C++ parameters say that they are. -/
theorem C149_alignment_violated (e : Env K) (fuel : ℕ) (f : Dict K → Dict K) (s s' : PySet K)
    (h : assign e fuel f s = some (s', none)) (a : String) (ha : s'.d.alignment = some a) (hp : ¬ LowerCase a) :
    alignCall s'.d = .ok .leave ∧ s'.c.alignment ∈ ["centre", "pad"] := by
  refine ⟨?_, (accepted_options h).1⟩
  have h1 : a ≠ "centre" := by rintro rfl; exact hp (by decide +kernel)
  have h2 : a ≠ "pad" := by rintro rfl; exact hp (by decide +kernel)
  simp [alignCall, ha, h1, h2]

/-- **C149, padding (violated).**  Whenever an accepted set is for padding with a scale in capital letters,
every survey measurement ends in a `NameError`. -/
theorem C149_padscale_violated (e : Env K) (fuel : ℕ) (f : Dict K → Dict K) (s s' : PySet K)
    (_h : assign e fuel f s = some (s', none)) (ha : s'.d.alignment = some "pad") (a : String)
    (hs : s'.d.padscale = some a) (hp : ¬ LowerCase a) : alignCall s'.d = .error .nameError := by
  have h1 : a ≠ "box" := by rintro rfl; exact hp (by decide +kernel)
  have h2 : a ≠ "grid" := by rintro rfl; exact hp (by decide +kernel)
  simp [alignCall, ha, hs, h1, h2]

/-- **C149, file names.**  When the form is given in lower-case letters, the name of the file of a three-point
measurement is formed, provided that the index is set where the form needs it.  (Partial: the parameters accept
any letter case.) -/
theorem C149_name_partial (e : Env K) (fuel : ℕ) (f : Dict K → Dict K) (s s' : PySet K)
    (h : assign e fuel f s = some (s', none)) (hf : LowerEntry s'.d.form)
    (hi : s'.c.form ∈ ["off-diag", "row"] → s'.d.idxBin.isSome)
    (hst : s'.d.statType ∈ [some "bispec", some "3pcf", some "3pcf-win", some "3pcf-win-wa"]) :
    ∃ x, pyName (nameEntries s'.d) = .ok x := by
  have hs := lower_same hf (C35_accepted_agree_partial e fuel f s s' h).form
  have ho := (accepted_options h).2.2.2
  have hb : ∃ b, binform (nameEntries s'.d) = .ok b := by
    unfold binform nameEntries
    rw [hs]
    simp only [Option.getD_some]
    simp only [List.mem_cons, List.not_mem_nil, or_false] at ho
    generalize s'.c.form = c at ho hi
    rcases ho with rfl | rfl | rfl | rfl
    · exact ⟨_, by simp; rfl⟩
    · exact ⟨_, by simp; rfl⟩
    · obtain ⟨i, hi⟩ := Option.isSome_iff_exists.1 (hi (by simp))
      rw [hi]
      exact ⟨_, by simp; rfl⟩
    · obtain ⟨i, hi⟩ := Option.isSome_iff_exists.1 (hi (by simp))
      rw [hi]
      exact ⟨_, by simp; rfl⟩
  obtain ⟨b, hb⟩ := hb
  simp only [List.mem_cons, List.not_mem_nil, or_false] at hst
  unfold pyName pyName3
  rw [hb]
  have e1 : (nameEntries s'.d).stat = s'.d.statType.getD "" := rfl
  rw [e1]
  rcases hst with h | h | h | h <;> rw [h] <;> exact ⟨_, by simp; rfl⟩

/-- **C149, file names (violated).**  Whenever an accepted set has a form with capital letters, saving a
three-point measurement ends in a `NameError`. -/
theorem C149_name_violated (e : Env K) (fuel : ℕ) (f : Dict K → Dict K) (s s' : PySet K)
    (_h : assign e fuel f s = some (s', none)) (a : String) (ha : s'.d.form = some a) (hp : ¬ LowerCase a)
    (hst : s'.d.statType ∈ [some "bispec", some "3pcf", some "3pcf-win", some "3pcf-win-wa"]) :
    pyName (nameEntries s'.d) = .error .nameError := by
  have h1 : a ≠ "diag" := by rintro rfl; exact hp (by decide +kernel)
  have h2 : a ≠ "off-diag" := by rintro rfl; exact hp (by decide +kernel)
  have h3 : a ≠ "row" := by rintro rfl; exact hp (by decide +kernel)
  have h4 : a ≠ "full" := by rintro rfl; exact hp (by decide +kernel)
  have hb : binform (nameEntries s'.d) = .error .nameError := by
    simp [binform, nameEntries, ha, h1, h2, h3, h4]
  unfold pyName pyName3
  rw [hb]
  have e1 : (nameEntries s'.d).stat = s'.d.statType.getD "" := rfl
  rw [e1]
  simp only [List.mem_cons, List.not_mem_nil, or_false] at hst
  rcases hst with h | h | h | h <;> rw [h] <;> simp

end

section
variable {ι : Type} [DecidableEq ι]

/-- **C149, alignment.**  When the options are given in lower-case letters (and the padding factor is set), a
survey measurement hands over to the C++ algorithm the catalogues which the program with the C++ parameters
hands over.  (Partial: the parameters accept any letter case.) -/
theorem C149_alignment_partial (e : Env ℝ) (fuel : ℕ) (f : Dict ℝ → Dict ℝ) (s s' : PySet ℝ)
    (h : assign e fuel f s = some (s', none)) (ha : LowerEntry s'.d.alignment) (hs : LowerEntry s'.d.padscale)
    (hf : s'.d.padfactor.isSome) (hc : s'.c.catType = "survey")
    (σ : CStore Which ℝ) (τ : Cat.Store ι ℝ) (data rand : ι) (hne : data ≠ rand)
    (hd : Holding (σ .data) (τ data).sent) (hr : Holding (σ .rand) (τ rand).sent)
    (td : (σ .data).TrueExtents) (tb : (τ rand).TrueBounds) :
    ∃ σ' τ' sd sr, alignCats σ s'.c = .ok σ' ∧
      surveyRun τ data rand none none s'.c.box (fun i => (s'.c.ngrid i).toNat) s'.d
        = .ok (τ', ⟨[sd, sr], [losOf los (σ .data), losOf los (σ .rand)]⟩) ∧
      Holding (σ' .data) sd ∧ Holding (σ' .rand) sr := by
  have hA := C35_accepted_agree_partial e fuel f s s' h
  have h1 := lower_same ha hA.alignment
  have h2 := lower_same hs hA.padscale
  obtain ⟨x, hx⟩ := Option.isSome_iff_exists.1 hf
  have h3 : s'.d.padfactor = some s'.c.padfactor := by rw [hA.padfactor x hx, hx]; rfl
  have ho := accepted_options h
  obtain ⟨σ', τ', sd, sr, g1, g2, g3⟩ := C130_survey σ τ data rand hne hd hr td tb s'.c hc ho.1 ho.2.1
  refine ⟨σ', τ', sd, sr, g1, ?_, g3⟩
  rw [← g2]
  have o1 := ho.1
  have o2 := ho.2.1
  simp only [List.mem_cons, List.not_mem_nil, or_false] at o1 o2
  unfold surveyRun Meas.run alignCall pyAlign
  rw [h1, h2, h3]
  rcases o1 with o1 | o1 <;> rcases o2 with o2 | o2 <;> rw [o1, o2] <;> rfl

/-- **C149, alignment (violated).**  Whenever an accepted set has an alignment with capital letters, a survey
measurement hands over the catalogues as they are. -/
theorem C149_survey_violated (e : Env ℝ) (fuel : ℕ) (f : Dict ℝ → Dict ℝ) (s s' : PySet ℝ)
    (h : assign e fuel f s = some (s', none)) (a : String) (ha : s'.d.alignment = some a) (hp : ¬ LowerCase a)
    (τ : Cat.Store ι ℝ) (data rand : ι) (L : V3 ℝ) (n : Fin 3 → ℕ) :
    surveyRun τ data rand none none L n s'.d = .ok (τ, ⟨[(τ data).sent, (τ rand).sent],
      [computeLos (τ data), computeLos (τ rand)]⟩) := by
  unfold surveyRun
  rw [(C149_alignment_violated e fuel f s s' h a ha hp).1]
  rfl

end

theorem construct_some {d : Dict ℚ} {P : PySet ℚ → Prop} [DecidablePred P]
    (h : (match construct (exEnv true) 1 d with | some (s, none) => decide (P s) | _ => false) = true) :
    ∃ s : PySet ℚ, construct (exEnv true) 1 d = some (s, none) ∧ P s := by
  cases h1 : construct (exEnv true) 1 d with
  | none => rw [h1] at h; cases h
  | some y =>
    obtain ⟨s, x⟩ := y
    rw [h1] at h
    cases x with
    | some x => cases h
    | none => exact ⟨s, rfl, of_decide_eq_true h⟩

/-- **C149 (violated).**  Sets with options in capital letters are accepted: the alignment `Centre` is sent to
the C++ parameters as `centre`, and the catalogues are not centred. -/
theorem C149_centre_violated : ∃ s : PySet ℚ, construct (exEnv true) 1 exDict = some (s, none) ∧
    s.d.alignment = some "Centre" ∧ s.c.alignment = "centre" ∧ alignCall s.d = .ok .leave ∧
    alignCall { s.d with alignment := some "centre" } = .ok .centre := by
  obtain ⟨s, h1, h2, h3⟩ := construct_some (d := exDict)
    (P := fun s => s.d.alignment = some "Centre" ∧ s.c.alignment = "centre") (by decide +kernel)
  exact ⟨s, h1, h2, h3, by simp [alignCall, h2], by simp [alignCall]⟩

/-- **C149 (violated).**  Likewise a padding scale, a normalisation convention and a form. -/
theorem C149_others_violated : ∃ s : PySet ℚ,
    construct (exEnv true) 1 { exDict with
        alignment := some "pad", padscale := some "Box", padfactor := some (1 / 10 : ℚ), norm := some "Mesh",
        form := some "Full", statType := some "bispec" }
      = some (s, none) ∧
    s.c.padscale = "box" ∧ s.c.norm = "mesh" ∧ s.c.form = "full" ∧ alignCall s.d = .error .nameError ∧
    (∀ k n, factorOf k s.d n = .error .nameError) ∧ pyName (nameEntries s.d) = .error .nameError := by
  obtain ⟨s, h1, ⟨h2, h3, h4⟩, h5, h6, h7, h8, h9⟩ := construct_some (d := { exDict with
        alignment := some "pad", padscale := some "Box", padfactor := some (1 / 10 : ℚ), norm := some "Mesh",
        form := some "Full", statType := some "bispec" })
    (P := fun s => (s.c.padscale = "box" ∧ s.c.norm = "mesh" ∧ s.c.form = "full") ∧
      s.d.alignment = some "pad" ∧ s.d.padscale = some "Box" ∧ s.d.norm = some "Mesh" ∧
      s.d.form = some "Full" ∧ s.d.statType = some "bispec") (by decide +kernel)
  refine ⟨s, h1, h2, h3, h4, ?_, fun k n => ?_, ?_⟩
  · exact C149_padscale_violated (exEnv true) 1 (fun d => d) ⟨_, _⟩ s h1 h5 _ h6 (by unfold LowerCase; decide +kernel)
  · exact C149_norm_violated (exEnv true) 1 (fun d => d) ⟨_, _⟩ s h1 _ h7 (by unfold LowerCase; decide +kernel) k n
  · exact C149_name_violated (exEnv true) 1 (fun d => d) ⟨_, _⟩ s h1 _ h8 (by unfold LowerCase; decide +kernel)
      (by rw [h9]; simp)

/-- **C149, normalisation (violated).**  A set without a normalisation convention is accepted, with the
convention `particle` in the C++ parameters; every measurement ends in a `NameError`. -/
theorem C149_unset_violated : ∃ s : PySet ℚ,
    construct (exEnv true) 1 { exDict with norm := none } = some (s, none) ∧ s.c.norm = "particle" ∧
    ∀ k n, factorOf k s.d n = .error .nameError := by
  obtain ⟨s, h1, h2, h3⟩ := construct_some (d := { exDict with norm := none })
    (P := fun s => s.c.norm = "particle" ∧ s.d.norm = none) (by decide +kernel)
  exact ⟨s, h1, h2, fun k n => by rw [factorOf, h3]⟩

/-- The positive theorems apply to the same dictionary in lower-case letters. -/
example : ∃ s : PySet ℚ,
    construct (exEnv true) 1 { exDict with
        alignment := some "pad", padscale := some "grid", padfactor := some 4, form := some "full", statType := some "bispec" }
      = some (s, none) ∧ LowerEntry s.d.alignment ∧ LowerEntry s.d.padscale ∧ LowerEntry s.d.norm ∧
      LowerEntry s.d.form ∧ alignCall s.d = .ok (.padGrid (some 4)) := by
  obtain ⟨s, h1, h5, h6, h7, h8, h9⟩ := construct_some (d := { exDict with
        alignment := some "pad", padscale := some "grid", padfactor := some 4, form := some "full", statType := some "bispec" })
    (P := fun s =>
      s.d.alignment = some "pad" ∧ s.d.padscale = some "grid" ∧ s.d.norm = some "particle" ∧
      s.d.form = some "full" ∧ s.d.padfactor = some 4) (by decide +kernel)
  exact ⟨s, h1, ⟨_, h5, by unfold LowerCase; decide +kernel⟩, ⟨_, h6, by unfold LowerCase; decide +kernel⟩,
    ⟨_, h7, by unfold LowerCase; decide +kernel⟩, ⟨_, h8, by unfold LowerCase; decide +kernel⟩,
    by simp [alignCall, h5, h6, h9]⟩

end Trv.Par

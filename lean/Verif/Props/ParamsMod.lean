import Verif.Lemmas.ParamsMod
/-
C95-C98: parameters with overrides, and parameter sets which share a dictionary.
-/
set_option linter.unusedSectionVars false
namespace Trv.Par
open Trv.Mon

section
variable {K : Type} [Field K] [LinearOrder K] [IsStrictOrderedRing K] [FloorRing K]

/-! ### C95 -/

/-- **C95 (partial).** Overrides of a parameter set which are accepted are all in effect, with all
other entries kept, in the dictionary and in the C++ parameters which the measurement uses. -/
theorem C95_accepted_partial (e : Env K) (fuel : ℕ) (m : Option (Sampling K)) (q : Measure K)
    (cat stat : Option String) (s s' : PySet K)
    (h : amalgamate (setTarget e fuel) m q cat stat s = some (s', none)) :
    kept s'.d = override (m.getD {}) q cat stat (kept s.d) ∧ Agree s'.d s'.c := by
  refine ⟨amalgamate_kept (tame_set e fuel) m q cat stat s s' h, ?_⟩
  unfold amalgamate at h
  generalize optSampling (setTarget e fuel) m s = r at h
  rcases r with _ | ⟨s1, _ | x⟩
  · cases h
  · simp only at h
    generalize modifyMeasure (setTarget e fuel) q s1 = r at h
    rcases r with _ | ⟨s2, _ | x⟩
    · cases h
    · exact C35_accepted_agree_partial e fuel _ s2 s' h
    · cases h
  · cases h

/-- **C95 (partial).** Without a parameter set the overrides are made in the template: they are
rejected exactly when they set both paddings of a padded box, and otherwise all in effect. -/
theorem C95_template_partial (m : Sampling K) (q : Measure K) (cat stat : Option String)
    (d : Dict K) :
    (BothPads m d.alignment →
      ∃ d', amalgamate dictTarget (some m) q cat stat d = some (d', some .valueError)) ∧
    (¬ BothPads m d.alignment →
      ∃ d', amalgamate dictTarget (some m) q cat stat d = some (d', none) ∧
        kept d' = override m q cat stat (kept d)) := by
  obtain ⟨d1, h1⟩ : ∃ d1, (dictTarget : Target K (Dict K)).sets (sampling1 m) d = some (d1, none) :=
    ⟨_, dict_sets _ _⟩
  have ha : d1.alignment = m.alignment.or d.alignment :=
    congrArg Kept.alignment (sampling1_kept tame_dict m d d1 h1)
  constructor
  · rintro ⟨b1, b2, b3⟩
    refine ⟨d1, ?_⟩
    have : optSampling dictTarget (some m) d = some (d1, some .valueError) := by
      simp only [optSampling, modifySampling, h1]
      rw [if_pos ⟨by rw [← b1, ← ha]; rfl, b2, b3⟩]
    simp only [amalgamate, this]
  · intro hb
    have hs : optSampling dictTarget (some m) d
        = some ((sampling2 m).foldl (fun d f => f d) d1, none) := by
      simp only [optSampling, modifySampling, h1]
      rw [if_neg (fun ⟨c1, c2, c3⟩ => hb ⟨by rw [← ha]; exact c1, c2, c3⟩), dict_sets]
    have hd : ∃ d', amalgamate dictTarget (some m) q cat stat d = some (d', none) := by
      simp only [amalgamate, hs, modifyMeasure, dict_sets]
      exact ⟨_, rfl⟩
    obtain ⟨d', hd⟩ := hd
    exact ⟨d', hd, amalgamate_kept tame_dict (some m) q cat stat d d' hd⟩

end

/-- A parameter set for examples: a survey bispectrum, one row, with padding in grid cells. -/
def exDict3 : Dict ℚ :=
  { exDict with alignment := some "pad", padscale := some "grid", padfactor := some 4,
                form := some "row", idxBin := some 3, catType := some "survey",
                statType := some "bispec" }

/-- The outcome of overriding a freshly constructed set, and the outcome of constructing a set from
the dictionary with the overrides in it. -/
def viaSet (m : Option (Sampling ℚ)) (q : Measure ℚ) (d : Dict ℚ) : Option (Option PyErr) :=
  match construct (exEnv true) 1 d with
  | some (s, none) =>
    (amalgamate (setTarget (exEnv true) 1) m q (some "survey") (some "bispec") s).map (·.2)
  | _ => none

def viaDict (m : Option (Sampling ℚ)) (q : Measure ℚ) (d : Dict ℚ) : Option (Option PyErr) :=
  match amalgamate dictTarget m q (some "survey") (some "bispec") d with
  | some (d', none) => (construct (exEnv true) 1 d').map (·.2)
  | _ => none

/-- **C95 (violated).** Valid overrides are rejected because they are validated one by one.
A padding of a twentieth of the box in place of one of four cells is rejected once the padding
scale is changed and the padding factor is not; row 12 of 20 bins is rejected when the set had
9 bins, because the row index is assigned first.  Each of these overrides is accepted when made in
the dictionary beforehand. -/
theorem C95_order_violated :
    (viaSet (some { boxpad := some (1 / 20) }) {} exDict3 = some (some .valueError) ∧
      viaDict (some { boxpad := some (1 / 20) }) {} exDict3 = some none) ∧
    (viaSet none (measure3 none none (some (1 / 100, 1 / 5, 20)) none (some 12)) exDict3
        = some (some .valueError) ∧
      viaDict none (measure3 none none (some (1 / 100, 1 / 5, 20)) none (some 12)) exDict3
        = some none) := by
  decide +kernel

/-- Accepted overrides of the same set: other degrees and another row. -/
example : viaSet (some { assignment := some "PCS", ngrid := some fun _ => 128 })
    (measure3 (some (2, 0, 2)) none none none (some 4)) exDict3 = some none := by decide +kernel

/-- The template with overrides. -/
example : (match amalgamate3None (K := ℚ) (some { boxsize := some fun _ => 1000, ngrid := some fun _ => 64 })
      (some (0, 0, 0)) none (some (1 / 100, 1 / 10, 9)) (some "full") none (some "sim") (some "bispec") with
    | some (d, none) => (match construct (exEnv true) 1 d with
      | some (s, none) => decide (s.c.numBins = 9 ∧ s.c.form = "full" ∧ s.c.box 2 = 1000)
      | _ => false)
    | _ => false) = true := by decide +kernel

/-! ### C96 -/

/-- The set of a survey power spectrum with interlacing. -/
def exDict2 : Dict ℚ := { exDict with interlace := some "True", catType := some "survey" }

/-- **C96 (violated).** A bispectrum measurement between two power-spectrum measurements with the
same parameter set and arguments turns the interlacing of the second off: the parameter set of the
caller is changed by each measurement. -/
theorem C96_caller_changed_violated : ∃ s s2 s3 s2' : PySet ℚ,
    construct (exEnv true) 1 exDict2 = some (s, none) ∧
    amalgamate (setTarget (exEnv true) 1) none (measure2 none none) (some "survey") (some "powspec") s
      = some (s2, none) ∧
    amalgamate (setTarget (exEnv true) 1) none (measure3 none none none none none) (some "survey")
      (some "bispec") s2 = some (s3, none) ∧
    amalgamate (setTarget (exEnv true) 1) none (measure2 none none) (some "survey") (some "powspec") s3
      = some (s2', none) ∧
    s2.c.interlace = "true" ∧ s2'.c.interlace = "false" := by
  have hk : (match construct (exEnv true) 1 exDict2 with
    | some (s, none) => (match amalgamate (setTarget (exEnv true) 1) none (measure2 none none)
          (some "survey") (some "powspec") s with
      | some (s2, none) => (match amalgamate (setTarget (exEnv true) 1) none
            (measure3 none none none none none) (some "survey") (some "bispec") s2 with
        | some (s3, none) => (match amalgamate (setTarget (exEnv true) 1) none (measure2 none none)
              (some "survey") (some "powspec") s3 with
          | some (s2', none) => decide (s2.c.interlace = "true" ∧ s2'.c.interlace = "false")
          | _ => false)
        | _ => false)
      | _ => false)
    | _ => false) = true := by decide +kernel
  revert hk
  generalize construct (exEnv true) 1 exDict2 = r
  rcases r with _ | ⟨s, _ | x⟩ <;> intro hk
  · cases hk
  · simp only at hk
    revert hk
    generalize h2 : amalgamate (setTarget (exEnv true) 1) none (measure2 none none) (some "survey")
      (some "powspec") s = r
    rcases r with _ | ⟨s2, _ | x⟩ <;> intro hk
    · cases hk
    · simp only at hk
      revert hk
      generalize h3 : amalgamate (setTarget (exEnv true) 1) none (measure3 none none none none none)
        (some "survey") (some "bispec") s2 = r
      rcases r with _ | ⟨s3, _ | x⟩ <;> intro hk
      · cases hk
      · simp only at hk
        revert hk
        generalize h4 : amalgamate (setTarget (exEnv true) 1) none (measure2 none none)
          (some "survey") (some "powspec") s3 = r
        rcases r with _ | ⟨s4, _ | x⟩ <;> intro hk
        · cases hk
        · exact ⟨s, s2, s3, s4, rfl, h2, h3, h4, of_decide_eq_true hk⟩
        · cases hk
      · cases hk
    · cases hk
  · cases hk

section
variable {K : Type} [Field K] [LinearOrder K] [IsStrictOrderedRing K] [FloorRing K]

/-- **C96 (partial).** What a measurement without overrides keeps of the caller's parameter set:
all entries which parsing does not rewrite, but for the two types. -/
theorem C96_entries_kept_partial (e : Env K) (fuel : ℕ) (cat stat : Option String) (s s' : PySet K)
    (h : amalgamate (setTarget e fuel) none {} cat stat s = some (s', none)) :
    kept s'.d = { kept s.d with catType := cat.or s.d.catType, statType := stat.or s.d.statType } := by
  have := amalgamate_kept (tame_set e fuel) none {} cat stat s s' h
  rw [show (setTarget e fuel).dict s' = s'.d from rfl] at this
  rw [this]
  rfl

/-! ### C97 -/

/-- **C97 (partial).** Binned vectors are recorded without a parameter set, for every box and every
mesh, when the binning has at least two bins over a valid range. -/
theorem C97_accepted_partial (e : Env K) (he : e.extcall = true) (fuel : ℕ) (lo hi : K) (n : ℤ)
    (box : Fin 3 → K) (ng : Fin 3 → ℤ) (hng : ∀ i, 0 < ng i) (h0 : 0 ≤ lo) (h1 : lo < hi)
    (hn : 2 ≤ n) : ∃ s, recordParams e (fuel + 1) (lo, hi, n) (some box) (some ng) = some (s, none) := by
  obtain ⟨s, x, h, hx, -⟩ := record_iff e he fuel (lo, hi, n) box ng
    (mul_pos (mul_pos (hng 0) (hng 1)) (hng 2))
  rw [hx.2 ⟨h0, h1, hn⟩] at h
  exact ⟨s, h⟩

/-- **C97 (violated).** A binning with one bin is valid, but its vectors cannot be recorded: the
placeholder parameter set is rejected. -/
theorem C97_one_bin_violated (e : Env K) (he : e.extcall = true) (fuel : ℕ) (lo hi : K)
    (box : Fin 3 → K) (ng : Fin 3 → ℤ) (hng : ∀ i, 0 < ng i) :
    ∃ s, recordParams e (fuel + 1) (lo, hi, 1) (some box) (some ng) = some (s, some .valueError) := by
  obtain ⟨s, x, h, hx, h2⟩ := record_iff e he fuel (lo, hi, 1) box ng
    (mul_pos (mul_pos (hng 0) (hng 1)) (hng 2))
  rcases h2 with rfl | rfl
  · exact absurd (hx.1 rfl).2.2 (show ¬ (2 : ℤ) ≤ 1 by decide)
  · exact ⟨s, h⟩

/-- The box or the mesh missing is an error. -/
theorem C97_missing (e : Env K) (fuel : ℕ) (bins : K × K × ℤ) (box : Option (Fin 3 → K))
    (ng : Option (Fin 3 → ℤ)) (h : box = none ∨ ng = none) :
    ∃ s, recordParams e fuel bins box ng = some (s, some .valueError) := by
  refine ⟨_, if_pos ?_⟩
  rcases h with rfl | rfl <;> simp

/-! ### C98 -/

/-- **C98 (partial).** Parameter sets with different dictionaries do not affect each other. -/
theorem C98_separate_partial (e : Env K) (fuel : ℕ) (i j : ℕ) (f : Dict K → Dict K)
    (st st' : Shared K) (x : Option PyErr) (h : st.assign e fuel i f = some (st', x))
    (hij : i ≠ j) (hr : st.ref i ≠ st.ref j) : st'.get j = st.get j := by
  unfold Shared.assign at h
  cases ha : assign e fuel f (st.get i) with
  | none => rw [ha] at h; cases h
  | some r =>
    rw [ha] at h
    simp only [Option.map_some, Option.some.injEq, Prod.mk.injEq] at h
    obtain ⟨rfl, -⟩ := h
    simp only [Shared.get, Shared.put]
    rw [Function.update_of_ne hr.symm, Function.update_of_ne hij.symm]

/-- **C98 (violated).** Whenever an assignment of the number of bins in one parameter set is
accepted, every other set which was constructed from the same dictionary shows the new number but
measures with its old one. -/
theorem C98_shared_violated (e : Env K) (fuel : ℕ) (i j : ℕ) (n : ℤ) (st st' : Shared K)
    (h : st.assign e fuel i (fun d => { d with numBins := some n }) = some (st', none))
    (hij : i ≠ j) (hr : st.ref i = st.ref j) (hn : (st.get j).c.numBins ≠ n) :
    (st'.get j).d.numBins = some n ∧ (st'.get j).c = (st.get j).c ∧
    ¬ Agree (st'.get j).d (st'.get j).c := by
  unfold Shared.assign at h
  cases ha : assign e fuel (fun d => { d with numBins := some n }) (st.get i) with
  | none => rw [ha] at h; cases h
  | some r =>
    rw [ha] at h
    simp only [Option.map_some, Option.some.injEq, Prod.mk.injEq] at h
    obtain ⟨rfl, -⟩ := h
    have hk := congrArg Kept.numBins (pParse_kept ha)
    have h1 : ((st.put i r.1).get j).d.numBins = some n := by
      simp only [Shared.get, Shared.put]
      rw [← hr, Function.update_self]
      exact hk
    have h2 : ((st.put i r.1).get j).c = (st.get j).c := by
      simp only [Shared.get, Shared.put]
      rw [Function.update_of_ne hij.symm]
    refine ⟨h1, h2, ?_⟩
    intro ha
    have := ha.numBins
    rw [h1, h2] at this
    exact hn (Option.some.inj this).symm

/-- **C98 (violated).** The dictionary of the caller is changed by the construction: it gains the
derived entries. -/
theorem C98_caller_dict_violated (e : Env K) (fuel : ℕ) (i r : ℕ) (st st' : Shared K)
    (h : st.construct e fuel i r = some (st', none)) (hd : (st.dicts r).assignOrder = none) :
    st'.dicts r ≠ st.dicts r := by
  unfold Shared.construct at h
  simp only at h
  generalize hp : pParse e fuel _ = y at h
  cases y with
  | none => cases h
  | some y =>
    obtain ⟨s, x⟩ := y
    simp only [Option.map_some, Option.some.injEq, Prod.mk.injEq] at h
    obtain ⟨rfl, rfl⟩ := h
    have hS : ∀ S : PySet K, pParse e fuel S = some (s, none) → Agree s.d s.c := fun S h =>
      C35_accepted_agree_partial e fuel id S s h
    have hA := hS _ hp
    simp only [Shared.put, Function.update_self]
    intro he
    have := hA.assignOrder
    rw [he, hd] at this
    cases this

end

/-- Two sets from one dictionary; the number of bins is changed in the first. -/
def exShared : Option (Shared ℚ × Option PyErr) :=
  match Shared.construct (exEnv true) 1 0 0 ⟨fun _ => exDict, fun _ => 7, fun _ => Params.default⟩ with
  | some (st, none) => (match st.construct (exEnv true) 1 1 0 with
    | some (st, none) => st.assign (exEnv true) 1 0 (fun d => { d with numBins := some 20 })
    | r => r)
  | r => r

example : (match exShared with
    | some (st, none) => decide ((st.get 1).d.numBins = some 20 ∧ (st.get 1).c.numBins = 9 ∧
        (st.get 0).c.numBins = 20)
    | _ => false) = true := by decide +kernel

/-- Two bins are recorded, one is not. -/
example : (match recordParams (K := ℚ) (exEnv true) 1 (0, 1, 2) (some fun _ => 100) (some fun _ => 8),
      recordParams (K := ℚ) (exEnv true) 1 (0, 1, 1) (some fun _ => 100) (some fun _ => 8) with
    | some (_, none), some (_, some .valueError) => true
    | _, _ => false) = true := by decide +kernel

end Trv.Par

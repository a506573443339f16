import Verif.Model.WinFile
import Verif.Props.WinBuild
import Verif.Props.WinSelect
/-
C131: windows saved to file are loaded back.
-/
namespace Trv.Wc

open Trv

section general
variable {K : Type}

theorem npzPath_eq {p : FPath} (h : ".npz".toList <:+ p) : npzPath p = p := if_pos h

/-- The path written always has the suffix, and starts with the path given. -/
theorem npzPath_suffix (p : FPath) : ".npz".toList <:+ npzPath p ∧ p <+: npzPath p := by
  unfold npzPath
  split
  · exact ⟨by assumption, List.prefix_rfl⟩
  · exact ⟨List.suffix_append _ _, List.prefix_append _ _⟩

/-- A window whose sample points are a dictionary is loaded back as it was, from the path given if that
has the suffix `.npz` and from the path with the suffix otherwise; other files are left as
they were. -/
theorem C131_round_trip_partial (w : Win K) (d : List (Multipole × List K)) (hd : w.r = .dict d)
    (D : WinDisk K) (p : FPath) :
    (".npz".toList <:+ p → loadFromFile (w.save D p) p = .ok (.win w)) ∧
    (¬ ".npz".toList <:+ p → loadFromFile (w.save D p) (p ++ ".npz".toList) = .ok (.win w)) ∧
    ∀ q, q ≠ p → q ≠ p ++ ".npz".toList → loadFromFile (w.save D p) q = loadFromFile D q := by
  have key : loadFromFile (w.save D p) (npzPath p) = .ok (.win w) := by
    unfold loadFromFile Win.save
    rw [Function.update_self]
    obtain ⟨ms, r, Q, g, s⟩ := w
    simp only at hd
    subst hd
    rfl
  refine ⟨fun h => ?_, fun h => ?_, fun q h1 h2 => ?_⟩
  · rwa [npzPath_eq h] at key
  · have e : npzPath p = p ++ ".npz".toList := if_neg h
    rwa [e] at key
  · have hq : q ≠ npzPath p := by
      unfold npzPath
      split
      · exact h1
      · exact h2
    unfold loadFromFile Win.save
    rw [Function.update_of_ne hq]
example : ∃ d, exWin.r = .dict d := ⟨_, rfl⟩
example : ".npz".toList <:+ "window.npz".toList ∧ ¬ ".npz".toList <:+ "window.dat".toList := by decide

/-- A window whose sample points are an array, as documented for `load_from_dict`, is never loaded
back: unless there is exactly one sample point loading raises `ValueError`, and then the
sample points are a number. -/
theorem C131_array_violated (w : Win K) (x : List K) (hx : w.r = .arr x) (D : WinDisk K) (p : FPath) :
    (x.length ≠ 1 → loadFromFile (w.save D p) (npzPath p) = .error (.py .valueError)) ∧
    (∀ v, x = [v] → loadFromFile (w.save D p) (npzPath p) = .ok (.number v w)) ∧
    ∀ w', loadFromFile (w.save D p) (npzPath p) ≠ .ok (.win w') := by
  obtain ⟨ms, r, Q, g, s⟩ := w
  simp only at hx
  subst hx
  have e : loadFromFile ((⟨ms, .arr x, Q, g, s⟩ : Win K).save D p) (npzPath p) =
      match WinFile.read (⟨.arr x, Q, g, ms, s⟩ : WinFile K) with
      | .error e => .error (.py e)
      | .ok l => .ok l := by
    unfold loadFromFile Win.save
    rw [Function.update_self]
    rfl
  rw [e]
  match x with
  | [] => exact ⟨fun _ => rfl, fun v h => by simp at h, fun w' h => by simp [WinFile.read] at h⟩
  | [v] =>
    refine ⟨fun h => absurd rfl h, fun u h => ?_, fun w' h => by simp [WinFile.read] at h⟩
    obtain rfl : v = u := by simpa using h
    rfl
  | a :: b :: l => exact ⟨fun _ => rfl, fun v h => by simp at h, fun w' h => by simp [WinFile.read] at h⟩

/-- A path without the suffix is not the path written: loading from the path given finds what was
there before, which is nothing for a new file. -/
theorem C131_suffix_violated (w : Win K) (D : WinDisk K) (p : FPath) (h : ¬ ".npz".toList <:+ p) :
    loadFromFile (w.save D p) p = loadFromFile D p ∧
      (D p = none → loadFromFile (w.save D p) p = .error .missing) := by
  have hq : p ≠ npzPath p := by
    unfold npzPath
    rw [if_neg h]
    intro e
    have := congrArg List.length e
    simp at this
  have e : loadFromFile (w.save D p) p = loadFromFile D p := by
    unfold loadFromFile Win.save
    rw [Function.update_of_ne hq]
  refine ⟨e, fun hn => ?_⟩
  rw [e]
  unfold loadFromFile
  rw [hn]
example : ¬ ".npz".toList <:+ "window".toList := by decide

variable [Field K] [LinearOrder K]

/-- No window returned by `subselect` without `inplace=True` can be saved and loaded back. -/
theorem C131_subselected_violated (hb : Bool) (w w' : Win K) (rr : RRange K) (ir : IRange)
    (h : (subselect hb w rr ir false).2 = .ok (some w')) (D : WinDisk K) (p : FPath) (w'' : Win K) :
    loadFromFile (w'.save D p) (npzPath p) ≠ .ok (.win w'') := by
  have hm := (C53_new_object_points_violated hb w w' rr ir h ⟨[]⟩).1
  cases hr : w'.r with
  | arr x => exact (C131_array_violated w' x hr D p).2.2 w''
  | dict d =>
    rw [hr] at hm
    simp only [RAttr.at, get] at hm
    split at hm <;> simp at hm
example : ((subselect false exWin .none (.tuple [none, some (-1)]) false).2.toOption.bind id).isSome = true := by
  rfl

end general

/-! ### Sessions -/

/-- The sample points of a window are a dictionary. -/
def Win.Keyed (w : Win ℝ) : Prop := ∃ d, w.r = .dict d

theorem keyed_subselect (hb : Bool) (w : Win ℝ) (rr : RRange ℝ) (ir : IRange) (h : w.Keyed) :
    (subselect hb w rr ir true).1.Keyed := by
  unfold subselect
  split
  · exact h
  · simp only [Bool.not_true, Bool.false_eq_true, if_false]
    split
    · exact h
    · split
      · exact ⟨_, rfl⟩
      · exact ⟨_, rfl⟩

theorem keyed_resample {I : Interp ℝ} {w w' : Win ℝ} {size : Option ℤ} (h : w.resample I size = .ok w') :
    w'.Keyed := by
  unfold Win.resample at h
  split at h
  · simp at h
  · simp only [Except.ok.injEq] at h
    subst h
    exact ⟨_, rfl⟩

/-- Every window which was constructed has a dictionary of sample points. -/
theorem keyed_build {I : Interp ℝ} {paired : Paired} {flat : List (Key × List ℝ)} {alpha : ℝ} {mk : MakeLog}
    {w : Win ℝ} (h : buildWin I paired flat alpha mk = .ok w) : w.Keyed := by
  unfold buildWin at h
  split at h
  · simp at h
  · rename_i w0 h0
    unfold buildRaw at h0
    split at h0
    · simp at h0
    · split at h0
      · simp at h0
      · simp only [Except.ok.injEq] at h0
        subst h0
        unfold finish at h
        simp only at h
        split at h
        · simp only [Except.ok.injEq] at h
          subst h
          exact ⟨_, rfl⟩
        · simp at h
        · split at h
          · exact keyed_resample h
          · simp only [Except.ok.injEq] at h
            subst h
            exact ⟨_, rfl⟩

theorem keyed_loaded {D : WinDisk ℝ} {p : FPath} {w : Win ℝ} (h : loadFromFile D p = .ok (.win w)) : w.Keyed := by
  unfold loadFromFile at h
  split at h
  · simp at h
  · rename_i f _
    unfold WinFile.read at h
    split at h
    · simp at h
    · rename_i l hl
      split at hl
      · simp only [Except.ok.injEq] at hl h
        rw [← hl] at h
        simp only [Loaded.win.injEq] at h
        subst h
        exact ⟨_, rfl⟩
      · simp only [Except.ok.injEq] at hl h
        rw [← hl] at h
        simp at h
      · simp at hl

theorem keyed_step (I : Interp ℝ) (hb : Bool) (s : Win ℝ × WinDisk ℝ) (h : s.1.Keyed) (o : WinOp) :
    (o.step I hb s).1.Keyed := by
  cases o with
  | select rr ir => exact keyed_subselect hb s.1 rr ir h
  | resample size =>
    simp only [WinOp.step]
    split
    · exact h
    · exact keyed_resample (by assumption)
  | save p => exact h
  | load p =>
    simp only [WinOp.step]
    split
    · exact keyed_loaded (by assumption)
    · exact h

theorem keyed_run (I : Interp ℝ) (hb : Bool) (ops : List WinOp) (s : Win ℝ × WinDisk ℝ) (h : s.1.Keyed) :
    (winRun I hb s ops).1.Keyed := by
  induction ops generalizing s with
  | nil => exact h
  | cons o ops ih => exact ih _ (keyed_step I hb s h o)

theorem disk_run (I : Interp ℝ) (hb : Bool) (f : FPath) (ops : List WinOp)
    (hops : ∀ q, WinOp.save q ∈ ops → npzPath q ≠ f) (s : Win ℝ × WinDisk ℝ) :
    (winRun I hb s ops).2 f = s.2 f := by
  induction ops generalizing s with
  | nil => rfl
  | cons o ops ih =>
    have e : winRun I hb s (o :: ops) = winRun I hb (o.step I hb s) ops := rfl
    rw [e, ih (fun q hq => hops q (List.mem_cons_of_mem _ hq))]
    cases o with
    | select rr ir => rfl
    | resample size =>
      simp only [WinOp.step]
      split <;> rfl
    | save p =>
      simp only [WinOp.step, Win.save]
      exact Function.update_of_ne (fun h => hops p List.mem_cons_self h.symm) _ _
    | load p =>
      simp only [WinOp.step]
      split <;> rfl

/-- In any session which starts with a constructed window, in which the window is subselected in place,
resampled, saved and loaded in any order, with calls which fail in between, loading from a path
with the suffix gives the window as it was when it was last saved there. -/
theorem C131_sessions (I : Interp ℝ) (hb : Bool) (paired : Paired) (flat : List (Key × List ℝ)) (alpha : ℝ)
    (mk : MakeLog) (w : Win ℝ) (hw : buildWin I paired flat alpha mk = .ok w) (D : WinDisk ℝ)
    (before after : List WinOp) (p : FPath) (hp : ".npz".toList <:+ p)
    (hafter : ∀ q, WinOp.save q ∈ after → q ≠ p ∧ q ++ ".npz".toList ≠ p) :
    loadFromFile (winRun I hb (w, D) (before ++ .save p :: after)).2 p =
      .ok (.win (winRun I hb (w, D) before).1) := by
  have e : winRun I hb (w, D) (before ++ .save p :: after) =
      winRun I hb ((winRun I hb (w, D) before).1, (winRun I hb (w, D) before).1.save
        (winRun I hb (w, D) before).2 p) after := by
    unfold winRun
    rw [List.foldl_append]
    rfl
  have hk : (winRun I hb (w, D) before).1.Keyed := keyed_run I hb before (w, D) (keyed_build hw)
  obtain ⟨d, hd⟩ := hk
  rw [e]
  have h1 := (C131_round_trip_partial _ d hd (winRun I hb (w, D) before).2 p).1 hp
  rw [← h1]
  unfold loadFromFile
  rw [disk_run I hb p after]
  intro q hq
  unfold npzPath
  split
  · exact (hafter q hq).1
  · exact (hafter q hq).2

/-- A window with the separations 1 and 2 is constructed. -/
theorem twoPoints_built (I : Interp ℝ) : ∃ w, buildWin I (.all (some [(1, 1), (1, 2), (2, 2)]))
    [(.ints [0, 0, 0], [5, 6, 7])] 1 (.bool false) = .ok w ∧ w.multipoles = [m000] := by
  have e : ∃ Q g, buildRaw (.all (some [(1, 1), (1, 2), (2, 2)])) [(.ints [0, 0, 0], [5, 6, 7])] 1 =
      .ok ⟨[m000], .dict [(m000, [1, 2])], Q, g, ["array"]⟩ := by
    obtain ⟨M, hr⟩ : ∃ M, ThreePt.reshape (some [((1 : ℝ), (1 : ℝ)), (1, 2), (2, 2)]) [5, 6, 7] "triu" =
        .ok ⟨2, [1, 2], M⟩ := by
      obtain ⟨R, hR, hn, _, _, _, hc⟩ := ThreePt.C39_reshape_upper 2 [((1 : ℝ), (1 : ℝ)), (1, 2), (2, 2)]
        [5, 6, 7] (by simp) (by simp)
      have hx := hc (fun i : ℕ => if i = 0 then 1 else 2) (by
        rw [show ThreePt.measWrites ((2 : ℕ) : ℤ) .triu = [⟨0, 0, 0⟩, ⟨0, 1, 1⟩, ⟨1, 1, 2⟩] by rfl]
        simp)
      obtain ⟨n, c, M⟩ := R
      simp only at hn hx
      subst hn
      refine ⟨M, ?_⟩
      rw [hR, hx]
      simp [List.range_succ]
    have hb : buildOne (.all (some [(1, 1), (1, 2), (2, 2)])) 1 (.ints [0, 0, 0], [5, 6, 7]) =
        .ok (m000, [1, 2], (List.range 2).map fun i => (List.range 2).map fun j => 1 ^ 2 * M i j) := by
      unfold buildOne
      have h1 : Multipole.ofKey (.ints [0, 0, 0]) = .ok m000 := rfl
      have h2 : m000.issym = .ok true := rfl
      simp only [h1, h2, Paired.at, if_true, hr]
    unfold buildRaw
    simp only [traverse, hb]
    exact ⟨_, _, rfl⟩
  obtain ⟨Q, g, e⟩ := e
  refine ⟨⟨[m000], .dict [(m000, [1, 2])], Q, g, ["array"]⟩, ?_, rfl⟩
  unfold buildWin
  rw [e]
  simp only
  refine C85_not_resampled I ⟨[m000], .dict [(m000, [1, 2])], Q, g, ["array"]⟩ [(m000, [1, 2])] rfl _ (Or.inr ⟨?_, rfl⟩)
  have h : checkLoglin [1, 2] ≠ .shapeError := by
    have hl : ¬ [(1 : ℝ), 2].length < 2 := by simp
    unfold checkLoglin
    rw [if_neg hl]
    have e1 : Arr.front2 [(1 : ℝ), 2] = some (1, 2) := rfl
    have e2 : Arr.back2 [(1 : ℝ), 2] = some (2, 1) := rfl
    simp only [e1, e2]
    split_ifs
    · cases Fft.logDiffs [(1 : ℝ), 2] with
      | none => simp
      | some d => by_cases hd : Fft.isclose d (Arr.mean d) <;> simp [hd]
    · simp
  unfold firstFail
  by_cases hc : checkLoglin [1, 2] = .ok
  · rw [if_pos hc]; simp [firstFail]
  · rw [if_neg hc]; exact h

-- a session which selects, saves, selects again and saves to another file
example (I : Interp ℝ) : ∃ w, ∀ D : WinDisk ℝ,
    loadFromFile (winRun I false (w, D) ([.select .none (.tuple [some 1])] ++ .save "a.npz".toList ::
      [.select .none (.tuple [some 0]), .save "b".toList])).2 "a.npz".toList =
    .ok (.win (subselect false w .none (.tuple [some 1]) true).1) := by
  obtain ⟨w, hw, _⟩ := twoPoints_built I
  refine ⟨w, fun D => ?_⟩
  refine C131_sessions I false _ _ _ _ w hw D _ _ "a.npz".toList (by decide) ?_
  intro q hq
  simp only [List.mem_cons, List.not_mem_nil, or_false, reduceCtorEq, false_or, WinOp.save.injEq] at hq
  subst hq
  decide

end Trv.Wc

import Verif.Lemmas.MpiTools
/-
Property theorems for `_mpitools.py`: C01, C02, C54.
-/
namespace Trv.Mpi

open Trv

/-! ### C01 -/

/-- **C01.** For every positive number of tasks and of processes the allocation
succeeds (the loop terminates without dividing by zero), with one count per
process, summing to the number of tasks, and each count is the quotient rounded
down or up; in particular any two counts differ by at most one. -/
theorem C01_allocate_complete_balanced (t p : Int) (ht : 0 < t) (hp : 0 < p) :
    ∃ l, allocateTasks (.int t) (.int p) = .ok l ∧ allocateTasks (.npint t) (.int p) = .ok l ∧
      l.length = p.toNat ∧ (l.sum : Int) = t ∧
      (∀ a ∈ l, ∀ b ∈ l, a ≤ b + 1) := by
  obtain ⟨q, hq⟩ : ∃ q, p.toNat = q + 1 := ⟨p.toNat - 1, by omega⟩
  obtain ⟨l, h1, h2, h3, h4⟩ := allocLoop_spec q t.toNat (by omega)
  have hcond : ¬ (t ≤ 0 ∨ p ≤ 0) := by omega
  refine ⟨l, ?_, ?_, by omega, by omega, ?_⟩
  · simp [allocateTasks, hcond, hq, h1]
  · simp [allocateTasks, hcond, hq, h1]
  · intro a ha b hb
    have := (h4 a ha).2
    have := (h4 b hb).1
    have : (t.toNat + q) / (q + 1) ≤ t.toNat / (q + 1) + 1 := by
      have : t.toNat + q ≤ t.toNat + (q + 1) := by omega
      calc (t.toNat + q) / (q + 1) ≤ (t.toNat + (q + 1)) / (q + 1) := Nat.div_le_div_right this
        _ = _ := Nat.add_div_right _ (by omega)
    omega

/-- **C01.** The only rejected inputs are: a non-integer argument (`TypeError`)
and non-positive integers (`ValueError`).  A `numpy` integer is accepted as the
task total but not as the process total. -/
theorem C01_allocate_rejections (t p : Arg) :
    (allocateTasks t p = .error .typeError ↔
      ¬ (((∃ z, t = .int z) ∨ (∃ z, t = .npint z)) ∧ ∃ z, p = .int z)) ∧
    (allocateTasks t p = .error .valueError ↔
      ∃ a b, (t = .int a ∨ t = .npint a) ∧ p = .int b ∧ (a ≤ 0 ∨ b ≤ 0)) ∧
    allocateTasks t p ≠ .error .zeroDivisionError := by
  have key : ∀ a b : Int, ¬ (a ≤ 0 ∨ b ≤ 0) → ∃ l, allocLoop a.toNat b.toNat = .ok l := by
    intro a b h
    obtain ⟨q, hq⟩ : ∃ q, b.toNat = q + 1 := ⟨b.toNat - 1, by omega⟩
    obtain ⟨l, h1, _⟩ := allocLoop_spec q a.toNat (by omega)
    exact ⟨l, by rw [hq, h1]⟩
  cases t <;> cases p <;> simp [allocateTasks] <;>
  · rename_i a b
    by_cases h : a ≤ 0 ∨ b ≤ 0
    · simp only [h, if_true]; simp; omega
    · obtain ⟨l, hl⟩ := key a b h
      simp only [h, if_false, hl]; simp; omega

example : allocateTasks (.int 11) (.int 4) = .ok [2, 3, 3, 3] := by decide
example : allocateTasks (.npint 2) (.int 4) = .ok [0, 0, 1, 1] := by decide
example : allocateTasks (.int 0) (.int 4) = .error .valueError := by decide
example : allocateTasks (.int 3) (.npint 4) = .error .typeError := by decide

/-! ### C02 -/

/-- **C02.** From totals: for every positive number of tasks and processes there
is one segment per process and the segments tile the tasks; executing them in
rank order runs tasks `0, 1, ..., t-1`. -/
theorem C02_distribute_from_totals (t p : Int) (ht : 0 < t) (hp : 0 < p) :
    ∃ segs, distributeTasks none (.int t) (.int p) = .ok segs ∧ segs.length = p.toNat ∧
      Tiles segs t.toNat ∧ executed segs = List.range t.toNat := by
  obtain ⟨l, h1, _, h2, h3, _⟩ := C01_allocate_complete_balanced t p ht hp
  have hsum : l.sum = t.toNat := by omega
  refine ⟨_, ?_, ?_, hsum ▸ prefix_tiles l, hsum ▸ executed_prefix l⟩
  · simp only [distributeTasks, h1, show p ≠ 0 by omega, if_false]
    rw [segmentsOf_ok l _ (by intro r hr; simp at hr; omega), h2]
  · simp [h2]

/-- **C02 (partial).** From explicit counts, *without* a process total: one segment per
count, tiling the tasks.  Missing from the full property: the documented
indifference to `proc_total`, which is false, see the next theorem. -/
theorem C02_distribute_from_counts_partial (l : List Nat) (hl : l ≠ []) (t : Arg) :
    ∃ segs, distributeTasks (some l) t .none = .ok segs ∧ segs.length = l.length ∧
      Tiles segs l.sum ∧ executed segs = List.range l.sum ∧
      (∀ r (h : r < l.length), ∃ s, segs[r]? = some s ∧ s.2 - s.1 = l[r]) := by
  obtain ⟨a, l', rfl⟩ := List.exists_cons_of_ne_nil hl
  refine ⟨_, ?_, ?_, prefix_tiles _, executed_prefix _, ?_⟩
  · simp only [distributeTasks]
    rw [segmentsOf_ok _ _ (by intro r hr; simpa using hr)]
  · simp
  · intro r h
    refine ⟨_, by rw [List.getElem?_map, List.getElem?_range h]; rfl, ?_⟩
    show (List.take (r + 1) (a :: l')).sum - (List.take r (a :: l')).sum = _
    rw [take_succ_sum _ r h]; simp

/-- **C02 is violated** by `proc_total` given together with explicit counts,
although it is documented to be ignored: for every non-empty list of counts and
every larger process total the call raises `IndexError`. -/
theorem C02_proc_total_not_ignored_violated (l : List Nat) (hl : l ≠ []) (t : Arg) (p : Int)
    (hp : (l.length : Int) < p) :
    distributeTasks (some l) t (.int p) = .error .indexError := by
  obtain ⟨a, l', rfl⟩ := List.exists_cons_of_ne_nil hl
  set l := a :: l' with hldef
  have hp0 : p ≠ 0 := by omega
  have key : ∀ rs k, (∀ r ∈ rs, r < l.length) → l.length ≤ k →
      ∀ tl, segmentsOf (breakpointsFrom 0 l) (rs ++ k :: tl) = .error .indexError := by
    intro rs
    induction rs with
    | nil =>
      intro k _ hk tl
      have : (breakpointsFrom 0 l)[k + 1]? = none :=
        List.getElem?_eq_none (by rw [breakpointsFrom_length]; omega)
      simp only [List.nil_append, segmentsOf, this]
      split <;> simp_all
    | cons r rs ih =>
      intro k h hk tl
      have hr := h r (by simp)
      rw [List.cons_append, segmentsOf, breakpointsFrom_get l 0 r (by omega),
        breakpointsFrom_get l 0 (r + 1) (by omega), ih k (fun x hx => h x (by simp [hx])) hk tl]
  have hsplit : List.range p.toNat = List.range l.length ++
      l.length :: (List.range' (l.length + 1) (p.toNat - l.length - 1)) := by
    have : l.length :: List.range' (l.length + 1) (p.toNat - l.length - 1)
        = List.range' l.length (p.toNat - l.length) := by
      obtain ⟨k, hk⟩ : ∃ k, p.toNat - l.length = k + 1 := ⟨p.toNat - l.length - 1, by omega⟩
      rw [hk]; simp [List.range'_succ]
    rw [this, List.range_eq_range', List.range_eq_range']
    have := List.range'_append (s := 0) (m := l.length) (n := p.toNat - l.length) (step := 1)
    simp at this
    rw [this]; congr 1; omega
  have hd : distributeTasks (some l) t (.int p) =
      segmentsOf (breakpointsFrom 0 l) (List.range p.toNat) := by
    simp [distributeTasks, hldef, hp0]
  rw [hd, hsplit]
  exact key _ _ (by intro r hr; simpa using hr) le_rfl _

/-- **C02 is violated**: a smaller positive process total silently drops every
task of the processes beyond it. -/
theorem C02_proc_total_drops_tasks_violated (l : List Nat) (t : Arg) (p : Int)
    (hp : 0 < p) (hlt : p < l.length) :
    ∃ segs, distributeTasks (some l) t (.int p) = .ok segs ∧
      executed segs = List.range (l.take p.toNat).sum := by
  have hl : l ≠ [] := by rintro rfl; simp at hlt; omega
  obtain ⟨a, l', rfl⟩ := List.exists_cons_of_ne_nil hl
  set l := a :: l' with hldef
  refine ⟨(List.range p.toNat).map fun r => ((l.take r).sum, (l.take (r + 1)).sum), ?_, ?_⟩
  · have hd : distributeTasks (some l) t (.int p) =
        segmentsOf (breakpointsFrom 0 l) (List.range p.toNat) := by
      simp [distributeTasks, hldef, show p ≠ 0 by omega]
    rw [hd, segmentsOf_ok]
    intro r hr; simp at hr; omega
  · have := executed_prefix (l.take p.toNat)
    have hlen : (l.take p.toNat).length = p.toNat := by simp; omega
    rw [hlen] at this
    rw [← this]
    congr 1
    apply List.map_congr_left
    intro r hr
    simp at hr
    simp only [List.take_take]
    rw [Nat.min_eq_left (by omega), Nat.min_eq_left (by omega)]

example : distributeTasks none (.int 7) (.int 3) = .ok [(0, 2), (2, 4), (4, 7)] := by decide
example : distributeTasks (some [1, 0, 4]) .none .none = .ok [(0, 1), (1, 1), (1, 5)] := by decide
example : distributeTasks (some [1, 4]) .none (.int 3) = .error .indexError := by decide
example : distributeTasks (some [1, 4]) .none (.int 1) = .ok [(0, 1)] := by decide

/-! ### C54 -/

/-- **C54.** For every list of captured warnings the restored ones are each
distinct record exactly once in order of first occurrence; they are all emitted
exactly when display is requested on the root process. -/
theorem C54_restore_unique_ordered (captured : List Record) (show_ atRoot : Bool) :
    FirstOccurrences captured (restoreWarnings captured true show_ atRoot).1 ∧
    (restoreWarnings captured true show_ atRoot).2 =
      (if show_ = true ∧ atRoot = true then (restoreWarnings captured true show_ atRoot).1 else []) ∧
    (restoreWarnings captured false show_ atRoot).1 = captured := by
  obtain ⟨h1, h2, h3⟩ := restoreLoop_spec captured []
  refine ⟨⟨h1, fun r => by simpa [restoreWarnings] using h2 r, h3, ?_⟩, ?_, rfl⟩
  · rintro pre suf rfl
    obtain ⟨s', h⟩ := restoreLoop_append pre suf []
    refine ⟨_, _, h, fun r => ?_⟩
    simpa using (restoreLoop_spec pre []).2.1 r
  · simp [restoreWarnings]

example : (restoreWarnings [⟨0, "U", "f", 1⟩, ⟨1, "U", "f", 1⟩, ⟨0, "U", "f", 1⟩] true true true).2
    = [⟨0, "U", "f", 1⟩, ⟨1, "U", "f", 1⟩] := by decide

/-- **C54, limitation witnessed**: uniqueness is by message *object*: two
warnings with the same category and location but distinct message objects (ids
0 and 1; e.g. the same text issued twice) are both emitted.  Hence "distinct"
in C54 cannot be strengthened to "distinct text". -/
theorem C54_distinct_objects_both_kept (m m' : Nat) (h : m ≠ m') (c f : String) (n : Nat) :
    (restoreWarnings [⟨m, c, f, n⟩, ⟨m', c, f, n⟩] true true true).2.length = 2 := by
  have : m' ≠ m := fun e => h e.symm
  simp [restoreWarnings, restoreLoop, this]

end Trv.Mpi

import Verif.Lemmas.Memory
import Mathlib.Tactic.NormNum
import Mathlib.Tactic.IntervalCases
/-
C145: the counts of grids and of memory, and their peaks, are those of the objects alive.
-/
namespace Trv.Mem

open Spec

/-- **C145.**  Over any history of constructing, using and destroying mesh fields, field statistics,
catalogues and temporary arrays, the three counts of grids are the numbers of complex grids, of real grids
and of complex grids with real ones counted as halves that objects alive own, and the three maxima are the
peaks of these numbers over the history. -/
theorem C145_grids (ops : List Op) :
    (run ops).c.cgrid = (total cgrids (run ops).heap : ℤ) ∧
    (run ops).c.rgrid = (total rgrids (run ops).heap : ℤ) ∧
    (run ops).c.grid = total cgrids (run ops).heap + (total rgrids (run ops).heap : ℚ) / 2 ∧
    IsPeak (fun o => (total cgrids (run o).heap : ℤ)) ops (run ops).c.maxC ∧
    IsPeak (fun o => (total rgrids (run o).heap : ℤ)) ops (run ops).c.maxR ∧
    IsPeak (fun o => (total cgrids (run o).heap : ℚ) + (total rgrids (run o).heap : ℚ) / 2) ops
      (run ops).c.maxGrid :=
  ⟨(inv ops).cg, (inv ops).rg, (inv ops).gr, peak_congr (inv ops).pC fun _ _ => (inv _).cg,
    peak_congr (inv ops).pR fun _ _ => (inv _).rg, peak_congr (inv ops).pG fun _ _ => (inv _).gr⟩

/-- A history: an interlaced mesh field with a window computed twice, statistics without a plan, the arrays
of a three-point measurement, and everything destroyed. -/
def exGrids : List Op :=
  [.newMesh 8 true, .window 0 2, .window 0 4, .newStats 8 false, .aliasing 1, .newWork 8, .drop 2, .drop 0,
    .drop 1]

example : (run exGrids).c = ⟨0, 0, 0, 0, 2, 6, 7, 896 / 1073741824⟩ := by
  norm_num [run, exGrids, step, World.init, World.obj, meshNew, addMem, addC, updMem, updGrid, addR, subMem,
    subC, subR, Obj.drop, meshDrop, statsDrop, statsNew, sizeInGb, szComplex, szDouble]

/-- **C145.**  Over any history the count of memory is what the arrays of the objects alive occupy, plus 56
bytes for every particle by which the array of a catalogue that already owned one shrank when it was loaded
again (less, where it grew); and the reported maximum is the peak of this count. -/
theorem C145_memory (ops : List Op) :
    (run ops).c.mem = ((total bytes (run ops).heap : ℚ) + 56 * shrunk ops) / 2 ^ 30 ∧
    IsPeak (fun o => ((total bytes (run o).heap : ℚ) + 56 * shrunk o) / 2 ^ 30) ops (run ops).c.maxMem := by
  have h : ∀ o, (run o).c.mem = ((total bytes (run o).heap : ℚ) + 56 * shrunk o) / 2 ^ 30 := by
    intro o
    have := (inv o).me
    push_cast at this
    rw [← this]; norm_num
  exact ⟨h ops, peak_congr (inv ops).pM fun _ _ => h _⟩

/-- **C145** (partial: for catalogues which are not loaded again with another number of particles).  The
count of memory is what objects alive occupy and the maximum is its peak. -/
theorem C145_memory_partial (ops : List Op) (h : NoResize ops) :
    (run ops).c.mem = (total bytes (run ops).heap : ℚ) / 2 ^ 30 ∧
    IsPeak (fun o => (total bytes (run o).heap : ℚ) / 2 ^ 30) ops (run ops).c.maxMem := by
  obtain ⟨h1, h2⟩ := C145_memory ops
  rw [shrunk_zero ops h] at h1
  refine ⟨by rw [h1]; simp, peak_congr h2 fun k _ => ?_⟩
  show (_ + 56 * ((shrunk _ : ℤ) : ℚ)) / _ = _
  rw [shrunk_zero _ (noResize_take h k)]; simp

theorem noResize_exGrids : NoResize exGrids := by
  intro k op hk
  have hl : k < 9 := (List.getElem?_eq_some_iff.1 hk).1
  interval_cases k <;> simp [exGrids] at hk <;> subst hk <;> rfl

example : NoResize exGrids ∧ total bytes (run (exGrids.take 6)).heap = 896 :=
  ⟨noResize_exGrids, by decide +kernel⟩

/-- **C145** (violated).  A catalogue loaded with `m` particles and then with `n` leaves the count wrong:
once everything is destroyed the count is that of `m - n` particles.  When the second load is smaller the
program warns of memory not released though there is none; when it is larger the count is negative and the
reported peak falls short of what was held. -/
theorem C145_reload_violated (m n : ℕ) (hm : 0 < m) (hn : 0 < n) :
    let load : List Op := [.newCat, .initCat 0 m, .initCat 0 n]
    total bytes (run (load ++ [.drop 0])).heap = 0 ∧
    (run (load ++ [.drop 0])).c.mem = 56 * ((m : ℚ) - n) / 2 ^ 30 ∧
    (n < m → uncleared (run (load ++ [.drop 0])).c = true) ∧
    (m < n → (run load).c.maxMem < (total bytes (run load).heap : ℚ) / 2 ^ 30) := by
  have hmq : (0 : ℚ) < m := by exact_mod_cast hm
  have hmem : (run ([.newCat, .initCat 0 m, .initCat 0 n] ++ [Op.drop 0])).c.mem =
      56 * ((m : ℚ) - n) / 2 ^ 30 := by
    simp [run, step, World.init, World.obj, hm.ne', hn.ne', catInit, resetCat, addMem, subMem, updMem,
      sizeInGb, szParticle, Obj.drop]
    ring
  refine ⟨?_, hmem, fun h => ?_, fun h => ?_⟩
  · simp [run, step, World.init, World.obj, hm.ne', hn.ne', total]
  · rw [uncleared, hmem, decide_eq_true_eq]
    have : (n : ℚ) < m := by exact_mod_cast h
    have : (0 : ℚ) < (m : ℚ) - n := by linarith
    show (0 : ℚ) < _
    positivity
  · have hb : total bytes (run [.newCat, .initCat 0 m, .initCat 0 n]).heap = 56 * n := by
      simp [run, step, World.init, World.obj, hm.ne', hn.ne', total, bytes]
    have hx : (run [.newCat, .initCat 0 m, .initCat 0 n]).c.maxMem = 56 * (m : ℚ) / 2 ^ 30 := by
      simp [run, step, World.init, World.obj, hm.ne', hn.ne', catInit, resetCat, addMem, subMem, updMem,
        sizeInGb, szParticle, hmq]
      ring
    rw [hb, hx]
    have : (m : ℚ) < n := by exact_mod_cast h
    push_cast
    rw [div_lt_div_iff_of_pos_right (by norm_num)]
    linarith

/-- **C145.**  A completed run of the program never warns of memory which is not released: whatever is
measured, if the measurement destroys what it constructs, leaves the catalogues and lines of sight as they
were and does not load catalogues again, the count is zero at the end. -/
theorem C145_program (flagData flagRand : Bool) (nd nr : ℕ) (hd : flagData = true → 0 < nd)
    (hr : flagRand = true → 0 < nr) (body : List Op)
    (hres : NoResize (mainStart flagData flagRand nd nr ++ body))
    (hbody : ∃ k, (run (mainStart flagData flagRand nd nr ++ body)).heap =
      (run (mainStart flagData flagRand nd nr)).heap ++ List.replicate k none) :
    (mainEnd (run (mainStart flagData flagRand nd nr ++ body))).mem = 0 ∧
    uncleared (mainEnd (run (mainStart flagData flagRand nd nr ++ body))) = false := by
  suffices h : (mainEnd (run (mainStart flagData flagRand nd nr ++ body))).mem = 0 from
    ⟨h, by rw [uncleared, h]; simp⟩
  obtain ⟨k, hk⟩ := hbody
  have hmem := (C145_memory_partial _ hres).1
  generalize run (mainStart flagData flagRand nd nr ++ body) = w at hk hmem
  obtain ⟨c, heap⟩ := w
  have hz : ∀ k, ((List.replicate k (none : Option Obj)).map fun o => o.elim 0 bytes).sum = 0 := by
    intro k; simp
  cases flagData <;> cases flagRand <;>
    simp [mainStart, run, step, World.init, World.obj, (hd · |>.ne'), (hr · |>.ne')] at hk hd hr <;>
    subst hk <;>
    simp [total, bytes, szLos] at hmem <;>
    simp [mainEnd, step, World.obj, World.total, resetCat, subMem, sizeInGb, szLos, szParticle, hmem] <;>
    ring

/-- The measurement of one fluctuation field (`field.cpp` lines 1246-1325) of catalogues with three and five
particles: weights of the data, weights and the field of the randoms. -/
def exBody : List Op :=
  [.newMesh 8 true, .newBuf szComplex 3, .drop 5, .newBuf szComplex 5, .newMesh 8 true, .drop 6, .drop 7,
    .drop 4]

example : NoResize (mainStart true true 3 5 ++ exBody) ∧
    (run (mainStart true true 3 5 ++ exBody)).heap =
      (run (mainStart true true 3 5)).heap ++ List.replicate 4 none := by
  refine ⟨fun k op hk => ?_, by decide +kernel⟩
  have hl : k < 14 := (List.getElem?_eq_some_iff.1 hk).1
  interval_cases k <;> simp [mainStart, exBody] at hk <;> subst hk <;> rfl

end Trv.Mem

import Verif.Spec.Progress
import Verif.Lemmas.Layout
import Verif.Props.Monitor
/-
Lemmas on the progress bar of three-point measurements.
-/
set_option linter.unusedSectionVars false
namespace Trv.Prg
open Trv Trv.ThreePt Trv.Mon

/-- No update follows another without a transform between; `fr` tells whether there has been a
transform since the last update. -/
def spaced : Bool → List Step → Bool
  | _, [] => true
  | fr, s :: S => if s = .update then fr && spaced false S else spaced true S

/-- Whether a transform follows the last update. -/
def fin : Bool → List Step → Bool
  | fr, [] => fr
  | _, s :: S => if s = .update then fin false S else fin true S

/-- The transforms counted by a list of statements. -/
def total (il : Bool) : List Step → ℤ
  | [] => 0
  | s :: S => s.count il + total il S

theorem spaced_mono {S : List Step} (h : spaced false S = true) (fr : Bool) : spaced fr S = true := by
  cases S with
  | nil => rfl
  | cons s S =>
    unfold spaced at h ⊢
    split_ifs at h ⊢ with hs
    · simp at h
    · exact h

theorem spaced_append {S T : List Step} (hT : spaced false T = true) {fr : Bool}
    (hS : spaced fr S = true) : spaced fr (S ++ T) = true := by
  induction S generalizing fr with
  | nil => exact spaced_mono hT fr
  | cons s S ih =>
    rw [List.cons_append]
    unfold spaced at hS ⊢
    split_ifs at hS ⊢ with hs
    · rw [Bool.and_eq_true] at hS ⊢
      exact ⟨hS.1, ih hS.2⟩
    · exact ih hS

theorem fin_append (S T : List Step) (fr : Bool) : fin fr (S ++ T) = fin (fin fr S) T := by
  induction S generalizing fr with
  | nil => rfl
  | cons s S ih =>
    rw [List.cons_append, fin, fin]
    split_ifs
    · exact ih false
    · exact ih true

theorem total_append (il : Bool) (S T : List Step) : total il (S ++ T) = total il S + total il T := by
  induction S with
  | nil => simp [total]
  | cons s S ih => rw [List.cons_append, total, total, ih]; ring

theorem total_nonneg (il : Bool) (S : List Step) : 0 ≤ total il S := by
  induction S with
  | nil => simp [total]
  | cons s S ih =>
    rw [total]
    cases s <;> cases il <;> simp [Step.count] <;> omega

theorem total_flatMap {α : Type} (il : Bool) (l : List α) (B : List Step) :
    total il (l.flatMap fun _ => B) = (l.length : ℤ) * total il B := by
  induction l with
  | nil => simp [total]
  | cons a l ih => rw [List.flatMap_cons, total_append, ih, List.length_cons]; push_cast; ring

theorem spaced_flatMap {α : Type} (l : List α) {B : List Step} (h : spaced false B = true) :
    spaced false (l.flatMap fun _ => B) = true := by
  induction l with
  | nil => rfl
  | cons a l ih => rw [List.flatMap_cons]; exact spaced_append ih h

theorem fin_flatMap {α : Type} (l : List α) {B : List Step} (h : fin false B = false) :
    fin false (l.flatMap fun _ => B) = false := by
  induction l with
  | nil => rfl
  | cons a l ih => rw [List.flatMap_cons, fin_append, h]; exact ih

theorem dim_nonneg' {n : ℤ} (hn : 0 ≤ n) {f : Form} (hf : ValidForm n f) : 0 ≤ dim n f := by
  cases f with
  | diag => exact hn
  | row b => exact hn
  | offDiag k => show 0 ≤ n - |k|; have : |k| ≤ n := hf; omega
  | full => exact mul_nonneg hn hn
  | triu => exact Int.tdiv_nonneg (mul_nonneg hn (by omega)) (by omega)

theorem length_dim {n : ℤ} (hn : 0 ≤ n) {f : Form} (hf : ValidForm n f) :
    ((upto 0 (dim n f)).length : ℤ) = dim n f := by
  rw [length_upto, sub_zero, Int.toNat_of_nonneg (dim_nonneg' hn hf)]

theorem length_meas {n : ℤ} (hn : 0 ≤ n) {f : Form} (hf : ValidForm n f) :
    ((measWrites n f).length : ℤ) = dim n f := by
  rw [← length_dim hn hf, ← measWrites_pos n hn f, List.length_map]

/-! ### The statements of a term -/

theorem band_spaced (n : ℤ) (f : Form) : spaced false (bandSteps n f) = true := by
  cases f with
  | row b => exact spaced_append (S := [.inverse]) (spaced_flatMap _ (by decide)) (by decide)
  | _ => exact spaced_flatMap _ (by decide)

theorem noise_spaced (n : ℤ) (f : Form) : spaced false (noiseSteps n f) = true :=
  spaced_flatMap _ (by decide)

theorem bessel_spaced (n : ℤ) (f : Form) : spaced false (besselSteps n f) = true :=
  spaced_flatMap _ (by decide)

theorem term_spaced (n : ℤ) (f : Form) (r : Routine) : spaced false (termSteps n f r) = true := by
  cases r with
  | bispec =>
    exact spaced_append (spaced_append (spaced_append (noise_spaced n f) (by decide))
      (band_spaced n f)) (by decide)
  | bispecBox => exact spaced_append (spaced_append (noise_spaced n f) (band_spaced n f)) (by decide)
  | zeta => exact spaced_append (bessel_spaced n f) (by decide)
  | zetaBox => exact spaced_append (bessel_spaced n f) (by decide)
  | window => exact spaced_append (bessel_spaced n f) (by decide)

theorem noise_fin (n : ℤ) (f : Form) : fin false (noiseSteps n f) = false :=
  fin_flatMap _ (by decide)

theorem bessel_fin (n : ℤ) (f : Form) : fin false (besselSteps n f) = false :=
  fin_flatMap _ (by decide)

theorem band_fin {n : ℤ} (hn : 1 ≤ n) (f : Form) : fin false (bandSteps n f) = false := by
  cases f with
  | row b =>
    show fin true ((upto 0 n).flatMap fun _ => [Step.inverse, Step.update]) = false
    cases h : upto 0 n with
    | nil =>
      have : (0 : ℤ) ∈ upto 0 n := mem_upto.2 ⟨le_refl _, by omega⟩
      rw [h] at this; simp at this
    | cons a l =>
      rw [List.flatMap_cons, fin_append]
      exact fin_flatMap l (by decide)
  | _ => exact fin_flatMap _ (by decide)

theorem term_fin {n : ℤ} (hn : 1 ≤ n) (f : Form) (r : Routine) : fin false (termSteps n f r) = false := by
  cases r with
  | bispec =>
    show fin false (_ ++ (_ ++ (_ ++ _))) = false
    rw [fin_append, fin_append, fin_append]
    rw [show fin false [Step.forward, .inverse, .update] = false by decide, band_fin hn f]
    rw [show fin false [Step.forward, .forward, .update] = false by decide]
    exact noise_fin n f
  | bispecBox =>
    show fin false (_ ++ (_ ++ _)) = false
    rw [fin_append, fin_append]
    rw [show fin false [Step.forward, .inverse, .update] = false by decide, band_fin hn f]
    exact noise_fin n f
  | zeta => show fin false (_ ++ _) = false; rw [fin_append]; exact bessel_fin n f
  | zetaBox => show fin false (_ ++ _) = false; rw [fin_append]; exact bessel_fin n f
  | window => show fin false (_ ++ _) = false; rw [fin_append]; exact bessel_fin n f

/-- The forward transforms of a term. -/
def forwards : Routine → ℤ
  | .bispec => 3
  | .zeta => 2
  | .window => 2
  | .bispecBox => 1
  | .zetaBox => 1

theorem band_total (il : Bool) {n : ℤ} (hn : 0 ≤ n) {f : Form} (hf : ValidForm n f) :
    total il (bandSteps n f) = match f with | .row _ => 1 + dim n f | _ => 2 * dim n f := by
  have e2 : total il [Step.inverse, Step.update] = 1 := by cases il <;> rfl
  have e3 : total il [Step.inverse, Step.inverse, Step.update] = 2 := by cases il <;> rfl
  cases f with
  | row b =>
    show total il (Step.inverse :: _) = _
    rw [total, total_flatMap, e2, length_dim hn hf]
    show (1 : ℤ) + _ = _
    ring
  | diag => show total il (List.flatMap _ _) = _; rw [total_flatMap, e3, length_meas hn hf]; ring
  | offDiag k => show total il (List.flatMap _ _) = _; rw [total_flatMap, e3, length_meas hn hf]; ring
  | full => show total il (List.flatMap _ _) = _; rw [total_flatMap, e3, length_meas hn hf]; ring
  | triu => show total il (List.flatMap _ _) = _; rw [total_flatMap, e3, length_meas hn hf]; ring

theorem noise_total (il : Bool) {n : ℤ} (hn : 0 ≤ n) {f : Form} (hf : ValidForm n f) :
    total il (noiseSteps n f) = dim n f := by
  have e2 : total il [Step.inverse, Step.update] = 1 := by cases il <;> rfl
  show total il (List.flatMap _ _) = _
  rw [total_flatMap, e2, length_dim hn hf]; ring

theorem bessel_total (il : Bool) {n : ℤ} (hn : 0 ≤ n) {f : Form} (hf : ValidForm n f) :
    total il (besselSteps n f) = 2 * dim n f := by
  have e3 : total il [Step.inverse, Step.inverse, Step.update] = 2 := by cases il <;> rfl
  show total il (List.flatMap _ _) = _
  rw [total_flatMap, e3, length_dim hn hf]; ring

theorem term_total (il : Bool) {n : ℤ} (hn : 0 ≤ n) {f : Form} (hf : ValidForm n f) (r : Routine) :
    total il (termSteps n f r) = termTransforms (dim n f) f r + if il then forwards r else 0 := by
  have hb := band_total il hn hf
  have hs := noise_total il hn hf
  have hz := bessel_total il hn hf
  cases r with
  | bispec =>
    show total il (_ ++ (_ ++ (_ ++ _))) = _
    rw [total_append, total_append, total_append, hb, hs]
    cases f <;> cases il <;> simp [total, Step.count, termTransforms, forwards] <;> ring
  | bispecBox =>
    show total il (_ ++ (_ ++ _)) = _
    rw [total_append, total_append, hb, hs]
    cases f <;> cases il <;> simp [total, Step.count, termTransforms, forwards] <;> ring
  | zeta =>
    show total il (_ ++ _) = _
    rw [total_append, hz]
    cases il <;> simp [total, Step.count, termTransforms, forwards] <;> ring
  | zetaBox =>
    show total il (_ ++ _) = _
    rw [total_append, hz]
    cases il <;> simp [total, Step.count, termTransforms, forwards] <;> ring
  | window =>
    show total il (_ ++ _) = _
    rw [total_append, hz]
    cases il <;> simp [total, Step.count, termTransforms, forwards] <;> ring

theorem transforms_le {n : ℤ} (hn : 1 ≤ n) (f : Form) (r : Routine) :
    termTransforms (dim n f) f r ≤ taskCount n f r := by
  cases f <;> cases r <;> simp only [termTransforms, taskCount] <;>
    first | omega | (simp only [dim]; omega)

theorem transforms_eq (n : ℤ) {f : Form} {r : Routine} (h : ¬ RowBispec f r) :
    termTransforms (dim n f) f r = taskCount n f r := by
  cases f <;> cases r <;> simp only [termTransforms, taskCount] <;>
    first | exact absurd ⟨⟨_, rfl⟩, .inl rfl⟩ h | exact absurd ⟨⟨_, rfl⟩, .inr rfl⟩ h | ring

theorem taskCount_pos {n : ℤ} (hn : 0 ≤ n) {f : Form} (hf : ValidForm n f) (r : Routine) :
    1 ≤ taskCount n f r := by
  have := dim_nonneg' hn hf
  cases r <;> simp only [taskCount] <;> omega

/-! ### The bar -/
section
variable {K : Type} [Field K] [LinearOrder K] [IsStrictOrderedRing K] [FloorRing K]

theorem frac_le {a N : ℤ} (hN : 1 ≤ N) : ((a : ℤ) : K) / (N : K) ≤ 1 ↔ a ≤ N := by
  have : (0 : K) < (N : K) := by exact_mod_cast (by omega : 0 < N)
  rw [div_le_one this]; exact_mod_cast Iff.rfl

theorem runSteps_off (il : Bool) (init : ℤ) (S : List Step) (c : ℤ) (b : Bar K) :
    runSteps il false init S c b = .ok (c + total il S, b) := by
  induction S generalizing c with
  | nil => simp [runSteps, total]
  | cons s S ih =>
    rw [runSteps, total]
    by_cases hs : s = .update
    · rw [if_pos hs, if_neg (by simp), ih, hs]; simp [Step.count]
    · rw [if_neg hs, ih, add_assoc]

theorem count_pos (il : Bool) {s : Step} (hs : s ≠ .update) : 1 ≤ s.count il := by
  cases s <;> cases il <;> simp_all [Step.count]

/-- One update of the bar within the task count. -/
theorem update_step (b : Bar K) (m : ℤ) (hN : 1 ≤ b.taskCount) (hlast : b.nodes.getLast? = some 1)
    (hnext : b.next < b.nodes.length) (hm : m ≤ b.taskCount) :
    ∃ b' p, Bar.update { b with taskIdx := m } ((m : K) / (b.taskCount : K)) = .ok (b', p) ∧
      b'.taskCount = b.taskCount ∧ b'.nodes = b.nodes ∧ b'.progress = (m : K) / (b.taskCount : K) ∧
      (b'.next < b'.nodes.length ∨ m = b.taskCount) := by
  have hle : (m : K) / (b.taskCount : K) ≤ 1 := (frac_le hN).2 hm
  have hx : b.nodes[b.next]? = some (b.nodes[b.next]) := List.getElem?_eq_getElem hnext
  unfold Bar.update
  simp only [hle, if_true, hx]
  by_cases hc : b.nodes[b.next] ≤ (m : K) / (b.taskCount : K)
  · rw [if_pos hc]
    refine ⟨_, _, rfl, rfl, rfl, rfl, ?_⟩
    by_cases hl : b.next + 1 < b.nodes.length
    · exact .inl hl
    · right
      have e : b.next = b.nodes.length - 1 := by omega
      rw [List.getLast?_eq_getElem?, ← e, hx] at hlast
      have h1 := Option.some.inj hlast
      rw [h1] at hc
      have hpos : (0 : K) < (b.taskCount : K) := by exact_mod_cast (by omega : 0 < b.taskCount)
      rw [le_div_iff₀ hpos, one_mul] at hc
      have : b.taskCount ≤ m := by exact_mod_cast hc
      omega
  · rw [if_neg hc]
    exact ⟨_, _, rfl, rfl, rfl, rfl, .inl hnext⟩

theorem runSteps_ok (il : Bool) (init : ℤ) (S : List Step) (fr : Bool) (c : ℤ) (b : Bar K)
    (hs : spaced fr S = true) (hN : 1 ≤ b.taskCount) (hlast : b.nodes.getLast? = some 1)
    (hinv : b.next < b.nodes.length ∨ (fr = false ∧ c - init = b.taskCount))
    (hpr : fr = false → b.progress = ((c - init : ℤ) : K) / (b.taskCount : K))
    (htot : c - init + total il S ≤ b.taskCount) :
    ∃ b', runSteps il true init S c b = .ok (c + total il S, b') ∧
      (fin fr S = false → b'.progress = ((c + total il S - init : ℤ) : K) / (b.taskCount : K)) := by
  induction S generalizing fr c b with
  | nil =>
    refine ⟨b, by simp [runSteps, total], fun h => ?_⟩
    rw [hpr h]; simp [total]
  | cons s S ih =>
    rw [total] at htot ⊢
    have hnn := total_nonneg il S
    by_cases hu : s = .update
    · subst hu
      have h0 : Step.count il .update = 0 := rfl
      rw [h0] at htot ⊢
      rw [spaced, if_pos rfl, Bool.and_eq_true] at hs
      have hnext : b.next < b.nodes.length := by
        rcases hinv with h | ⟨h, _⟩
        · exact h
        · rw [h] at hs; simp at hs
      obtain ⟨b1, p, e, e1, e2, e3, e4⟩ := update_step b (c - init) hN hlast hnext (by omega)
      obtain ⟨b', g1, g2⟩ := ih false c b1 hs.2 (by rw [e1]; exact hN) (by rw [e2]; exact hlast)
        (by rw [e1]; exact e4.imp id fun h => ⟨rfl, h⟩) (fun _ => by rw [e3, e1]) (by rw [e1]; omega)
      refine ⟨b', ?_, fun h => ?_⟩
      · rw [runSteps, if_pos rfl, if_pos rfl]
        simp only [bind, Except.bind, e, g1]
        simp
      · rw [fin, if_pos rfl] at h
        have := g2 h
        rw [e1] at this
        rw [this]
        simp
    · have hc := count_pos il hu
      rw [spaced, if_neg hu] at hs
      have hnext : b.next < b.nodes.length := by
        rcases hinv with h | ⟨_, h⟩
        · exact h
        · omega
      obtain ⟨b', g1, g2⟩ := ih true (c + s.count il) b hs hN hlast (.inl hnext) (by simp) (by omega)
      refine ⟨b', ?_, fun h => ?_⟩
      · rw [runSteps, if_neg hu, g1, add_assoc]
      · rw [fin, if_neg hu] at h
        rw [g2 h, add_assoc]

theorem runSteps_exceeds (il : Bool) (init : ℤ) (S : List Step) (fr : Bool) (c : ℤ) (b : Bar K)
    (hs : spaced fr S = true) (hN : 1 ≤ b.taskCount) (hlast : b.nodes.getLast? = some 1)
    (hinv : b.next < b.nodes.length ∨ (fr = false ∧ c - init = b.taskCount) ∨ b.taskCount < c - init)
    (hlow : fr = false → c - init ≤ b.taskCount) (hfin : fin fr S = false)
    (htot : b.taskCount < c - init + total il S) :
    runSteps il true init S c b = .error .invalidData := by
  induction S generalizing fr c b with
  | nil =>
    simp only [total, add_zero] at htot
    have := hlow hfin
    omega
  | cons s S ih =>
    rw [total] at htot
    by_cases hu : s = .update
    · subst hu
      have h0 : Step.count il .update = 0 := rfl
      rw [h0] at htot
      rw [spaced, if_pos rfl, Bool.and_eq_true] at hs
      rw [fin, if_pos rfl] at hfin
      rw [runSteps, if_pos rfl, if_pos rfl]
      by_cases hm : c - init ≤ b.taskCount
      · have hnext : b.next < b.nodes.length := by
          rcases hinv with h | ⟨h, _⟩ | h
          · exact h
          · rw [h] at hs; simp at hs
          · omega
        obtain ⟨b1, p, e, e1, e2, e3, e4⟩ := update_step b (c - init) hN hlast hnext hm
        simp only [bind, Except.bind, e]
        exact ih false c b1 hs.2 (by rw [e1]; exact hN) (by rw [e2]; exact hlast)
          (by rw [e1]; exact e4.imp id fun h => .inl ⟨rfl, h⟩) (fun _ => by rw [e1]; exact hm) hfin
          (by rw [e1]; omega)
      · have : ¬ (((c - init : ℤ) : K) / (b.taskCount : K) ≤ 1) := fun h => hm ((frac_le hN).1 h)
        simp only [bind, Except.bind, Bar.update, this, if_false]
    · have hc := count_pos il hu
      rw [spaced, if_neg hu] at hs
      rw [fin, if_neg hu] at hfin
      rw [runSteps, if_neg hu]
      refine ih true (c + s.count il) b hs hN hlast ?_ (by simp) hfin (by omega)
      rcases hinv with h | ⟨_, h⟩ | h
      · exact .inl h
      · exact .inr (.inr (by omega))
      · exact .inr (.inr (by omega))

theorem default_last : (defaultNodes : List K).getLast? = some 1 := by
  unfold defaultNodes
  rw [List.range_succ, List.map_append, ← List.append_assoc, List.map_singleton,
    List.getLast?_concat]
  simp

/-- The bar at the start of a term. -/
theorem start_bar (N : ℤ) (hN : 1 ≤ N) (l : List K) (hl : l = [] ∨ l.getLast? = some 1) :
    ∃ b : Bar K, (∀ (g : Bar K → Except CppErr (ℤ × Bar K)),
        ((do let b ← Bar.new N
             let l ← (.ok l : Except CppErr (List K))
             let b ← if 0 < l.length then b.setNodes l else .ok b
             g b) = g b)) ∧ b.taskCount = N ∧ b.nodes.getLast? = some 1 ∧ b.next < b.nodes.length ∧
      b.progress = 0 := by
  have hnew : (Bar.new N : Except CppErr (Bar K))
      = .ok { taskCount := N, taskIdx := 0, progress := 0, nodes := defaultNodes, next := 0 } := by
    unfold Bar.new; rw [if_neg (by omega)]
  cases l with
  | nil =>
    refine ⟨{ taskCount := N, taskIdx := 0, progress := 0, nodes := defaultNodes, next := 0 },
      fun g => ?_, rfl, default_last, ?_, rfl⟩
    · simp only [bind, Except.bind, hnew, List.length_nil, lt_irrefl, if_false]
    · simp [defaultNodes]
  | cons x l =>
    have hlast : (x :: l).getLast? = some 1 := by simpa using hl
    refine ⟨{ taskCount := N, taskIdx := 0, progress := 0, nodes := x :: l, next := 0 }, fun g => ?_,
      rfl, hlast, by simp, rfl⟩
    simp [bind, Except.bind, hnew, Bar.setNodes]

theorem runTerm_ok (r : Routine) {n : ℤ} (hn : 1 ≤ n) {f : Form} (hf : ValidForm n f) (l : List K)
    (hl : l = [] ∨ l.getLast? = some 1) (c : ℤ) :
    ∃ b, runTerm r n f false true (.ok l) c = .ok (c + termTransforms (dim n f) f r, b) ∧
      b.progress = (termTransforms (dim n f) f r : K) / (taskCount n f r : K) := by
  have hN := taskCount_pos (by omega) hf r
  obtain ⟨b, hb, h1, h2, h3, h4⟩ := start_bar (taskCount n f r) hN l hl
  have ht := term_total false (by omega) hf r
  simp only [Bool.false_eq_true, if_false, add_zero] at ht
  have hle := transforms_le hn f r
  obtain ⟨b', g1, g2⟩ := runSteps_ok false c (termSteps n f r) false c b (term_spaced n f r)
    (by rw [h1]; exact hN) h2 (.inl h3) (fun _ => by rw [h4]; simp) (by rw [h1, ht]; omega)
  refine ⟨b', ?_, ?_⟩
  · unfold runTerm
    rw [hb, g1, ht]
  · rw [g2 (term_fin hn f r), h1, ht]
    congr 2
    ring

theorem runTerm_exceeds (r : Routine) {n : ℤ} (hn : 1 ≤ n) {f : Form} (hf : ValidForm n f)
    (l : List K) (hl : l = [] ∨ l.getLast? = some 1) (c : ℤ)
    (h : taskCount n f r < termTransforms (dim n f) f r + forwards r) :
    runTerm r n f true true (.ok l) c = .error .invalidData := by
  have hN := taskCount_pos (by omega) hf r
  obtain ⟨b, hb, h1, h2, h3, h4⟩ := start_bar (taskCount n f r) hN l hl
  have ht := term_total true (by omega) hf r
  simp only [if_true] at ht
  unfold runTerm
  rw [hb]
  exact runSteps_exceeds true c (termSteps n f r) false c b (term_spaced n f r)
    (by rw [h1]; exact hN) h2 (.inl h3) (fun _ => by omega) (term_fin hn f r) (by rw [h1, ht]; omega)

theorem runTerm_off (r : Routine) {n : ℤ} (hn : 0 ≤ n) {f : Form} (hf : ValidForm n f) (il : Bool)
    (l : List K) (hl : l = [] ∨ l.getLast? = some 1) (c : ℤ) :
    ∃ b, runTerm r n f il false (.ok l) c = .ok (c + total il (termSteps n f r), b) := by
  obtain ⟨b, hb, _⟩ := start_bar (taskCount n f r) (taskCount_pos hn hf r) l hl
  refine ⟨b, ?_⟩
  unfold runTerm
  rw [hb, runSteps_off]

theorem runTerms_ok (r : Routine) (n : ℤ) (f : Form) (il lv : Bool) (nodes : Except CppErr (List K))
    (d : ℤ) (P : Bar K → Prop) (h : ∀ c, ∃ b, runTerm r n f il lv nodes c = .ok (c + d, b) ∧ P b)
    (t : ℕ) (c : ℤ) :
    ∃ bars, runTerms r n f il lv nodes t c = .ok (c + t * d, bars) ∧ bars.length = t ∧
      ∀ b ∈ bars, P b := by
  induction t generalizing c with
  | zero => exact ⟨[], by simp [runTerms], rfl, by simp⟩
  | succ t ih =>
    obtain ⟨b, hb, hp⟩ := h c
    obtain ⟨bars, e, e1, e2⟩ := ih (c + d)
    refine ⟨b :: bars, ?_, by simp [e1], ?_⟩
    · simp only [runTerms, bind, Except.bind, hb, e]
      congr 2
      push_cast
      ring
    · intro x hx
      rcases List.mem_cons.1 hx with rfl | hx
      · exact hp
      · exact e2 x hx

theorem nodesFor_shows {sw : Switch K} (h : Shows sw) :
    ∃ fuel l, nodesFor fuel sw = some (.ok l) ∧ (l = [] ∨ l.getLast? = some 1) := by
  cases sw with
  | off => exact absurd h id
  | other => exact absurd h id
  | on => exact ⟨0, [], rfl, .inl rfl⟩
  | every x =>
    obtain ⟨fuel, l, e, _, e2, _⟩ := C60_nodes_by_interval x h.1 h.2
    exact ⟨fuel, l, by simp [nodesFor, e], .inr e2⟩

end
end Trv.Prg

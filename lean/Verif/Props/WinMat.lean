import Verif.Lemmas.WinBuild
import Verif.Lemmas.WinMatLinear
import Verif.Lemmas.ArrayOps
import Verif.Props.MpiTools
import Mathlib.Data.List.Forall2
/-
Property theorems for the window convolution matrix: C03.
-/
namespace Trv.Wc

open Trv

variable {K L : Type}

/-- What the specification asks of the matrix `M` of a multipole: its column `j` is `c j`, for each of the `n`
basis vectors; columns have `N` entries. -/
structure IsMatrix (n N : ℕ) (c : ℕ → List L) (M : Mat (Option L)) : Prop where
  rows : M.rows = N
  cols : M.cols = n
  entry : ∀ i < N, ∀ j < n, M.e i j = (c j)[i]?

/-- The convolution succeeds on the basis vectors: `c j m` is the flattened multipole `m` of the convolved
basis vector `j`, of length `N m`. -/
def OnBasis [Zero K] [One K] (ms zs : List Multipole) (ds : List ℕ) (conv : Conv K L)
    (c : ℕ → Multipole → List L) (N : Multipole → ℕ) : Prop :=
  (∀ j < dim2 ds, winVec zs ds conv (unitVec (dim2 ds) j) = .ok (ms.map fun m => (m, c j m))) ∧
  ∀ j m, (c j m).length = N m

section
variable [Zero K] [One K] {ms zs : List Multipole} {ds : List ℕ} {conv : Conv K L}
  {c : ℕ → Multipole → List L} {N : Multipole → ℕ}

/-- The vectors of the ranks, for a multipole. -/
theorem rank_vectors (h : OnBasis ms zs ds conv c N) {P : ℕ} (hP : 0 < P) (hd : 0 < dim2 ds) :
    ∃ sizes segs, Mpi.allocateTasks (.npint (dim2 ds)) (.int P) = .ok sizes ∧
      Mpi.distributeTasks (some sizes) .none .none = .ok segs ∧
      sizes = (List.range P).map (fun r => (dim2 ds + r) / P) ∧
      traverse (fun r => rankVecs zs ds conv (segs.getD r (0, 0)) (sizes.getD r 0)) (List.range P) =
        .ok ((List.range P).map fun r => (List.range' (sizes.take r).sum (sizes.getD r 0)).map fun j =>
          ms.map fun m => (m, c j m)) ∧
      (List.range P).flatMap (fun r => List.range' (sizes.take r).sum (sizes.getD r 0)) =
        List.range (dim2 ds) := by
  have hsz := allocate_closed (dim2 ds) P hd hP
  set sizes := (List.range P).map fun r => (dim2 ds + r) / P with hs
  have hlen : sizes.length = P := by simp [hs]
  obtain ⟨l, hl1, hl2, hl3, hl4, _⟩ := Mpi.C01_allocate_complete_balanced (dim2 ds) P (by omega) (by omega)
  have hsum : sizes.sum = dim2 ds := by
    rw [hsz] at hl2
    simp only [Except.ok.injEq] at hl2
    rw [← hl2] at hl4
    exact_mod_cast hl4
  have hne : sizes ≠ [] := by rintro e; rw [e] at hlen; simp at hlen; omega
  have hex := Mpi.executed_prefix sizes
  have hseg : Mpi.distributeTasks (some sizes) .none .none =
      .ok ((List.range sizes.length).map fun r => ((sizes.take r).sum, (sizes.take (r + 1)).sum)) := by
    obtain ⟨a, l', e⟩ := List.exists_cons_of_ne_nil hne
    have : Mpi.distributeTasks (some sizes) .none .none =
        Mpi.segmentsOf (Mpi.breakpointsFrom 0 sizes) (List.range sizes.length) := by
      rw [e]; rfl
    rw [this, Mpi.segmentsOf_ok]
    intro r hr; simpa using hr
  have hget : ∀ r, r < P → (sizes.take (r + 1)).sum = (sizes.take r).sum + sizes.getD r 0 := by
    intro r hr
    rw [Mpi.take_succ_sum sizes r (by omega)]
    simp [show r < sizes.length by omega]
  refine ⟨sizes, _, hsz, hseg, rfl, ?_, ?_⟩
  · refine traverse_pure fun r hr => ?_
    have hr : r < P := by simpa using hr
    have e1 : ((List.range sizes.length).map fun r => ((sizes.take r).sum, (sizes.take (r + 1)).sum)).getD r (0, 0)
        = ((sizes.take r).sum, (sizes.take (r + 1)).sum) := by
      simp [hlen, hr]
    rw [e1]
    unfold rankVecs
    have hle : (sizes.take (r + 1)).sum ≤ dim2 ds := by
      have := Mpi.take_sum_mono sizes (show r + 1 ≤ sizes.length by omega)
      rwa [List.take_length, hsum] at this
    rw [traverse_pure (g := fun t => ms.map fun m => (m, c ((sizes.take r).sum + t) m))]
    · rw [List.range'_eq_map_range, List.map_map]
      rfl
    · intro t ht
      refine h.1 _ ?_
      have ht : t < sizes.getD r 0 := by simpa using ht
      have := hget r hr
      simp only
      omega
  · rw [hsum, hlen] at hex
    rw [← hex]
    unfold Mpi.executed
    rw [List.flatMap_map]
    refine List.flatMap_congr fun r hr => ?_
    have hr : r < P := by simpa using hr
    simp only [hget r hr, Nat.add_sub_cancel_left]

theorem gatherOne_all {vs : List (List (List (Multipole × List L)))} {m : Multipole} (js : List (List ℕ))
    (hm : m ∈ ms) (hv : vs = js.map fun l => l.map fun j => ms.map fun m => (m, c j m)) :
    traverse (fun vs => traverse (fun o => get o m) vs) vs = .ok (js.map fun l => l.map fun j => c j m) := by
  subst hv
  have : traverse (fun vs => traverse (fun o => get o m) vs)
      (js.map fun l => l.map fun j => ms.map fun m => (m, c j m)) =
      .ok ((js.map fun l => l.map fun j => ms.map fun m => (m, c j m)).map fun vs =>
        vs.map fun o => (get? o m).getD []) := by
    refine traverse_pure fun vs hvs => ?_
    obtain ⟨l, _, rfl⟩ := List.mem_map.mp hvs
    refine traverse_pure fun o ho => ?_
    obtain ⟨j, _, rfl⟩ := List.mem_map.mp ho
    have := get_map_self ms (fun m => c j m) m hm
    rw [this]
    unfold get at this
    cases hg : get? (ms.map fun m => (m, c j m)) m with
    | none => rw [hg] at this; simp at this
    | some a => rw [hg] at this; simpa using this.symm
  rw [this]
  simp only [List.map_map, Except.ok.injEq]
  refine List.map_congr_left fun l _ => ?_
  simp only [Function.comp_apply, List.map_map]
  refine List.map_congr_left fun j _ => ?_
  have := get_map_self ms (fun m => c j m) m hm
  unfold get at this
  simp only [Function.comp_apply]
  cases hg : get? (ms.map fun m => (m, c j m)) m with
  | none => rw [hg] at this; simp at this
  | some a => rw [hg] at this; simpa using this

/-- The gathered matrix of one multipole. -/
theorem gatherOne_ok (h : OnBasis ms zs ds conv c N) {P root : ℕ} (hP : 0 < P) (hd : 0 < dim2 ds) (hr : root < P)
    (hroot : P ≤ dim2 ds + root) (order : List ℕ) (ho : ∀ r, r < P → r ∈ order) (m : Multipole) (hm : m ∈ ms)
    (sizes : List ℕ) (hs : sizes = (List.range P).map fun r => (dim2 ds + r) / P)
    (hex : (List.range P).flatMap (fun r => List.range' (sizes.take r).sum (sizes.getD r 0)) =
        List.range (dim2 ds)) :
    ∃ M, gatherOne (dim2 ds) root order ((List.range P).map fun r =>
        (List.range' (sizes.take r).sum (sizes.getD r 0)).map fun j => ms.map fun m => (m, c j m)) m = .ok (m, M) ∧
      IsMatrix (dim2 ds) (N m) (fun j => c j m) M := by
  have hcat : ((List.range P).map fun r =>
        ((List.range' (sizes.take r).sum (sizes.getD r 0)).map fun j => c j m).flatten).flatten =
      ((List.range (dim2 ds)).map fun j => c j m).flatten := by
    rw [← hex]
    exact flatten_flatMap _ _ _
  unfold gatherOne
  rw [gatherOne_all (js := (List.range P).map fun r => List.range' (sizes.take r).sum (sizes.getD r 0)) hm
    (by rw [List.map_map]; rfl)]
  simp only [List.map_map]
  set bufs := (List.range P).map (asarray ∘ (fun l : List ℕ => l.map fun j => c j m) ∘
    fun r => List.range' (sizes.take r).sum (sizes.getD r 0)) with hb
  have hdata : bufs.map Buf.data = (List.range P).map fun r =>
        ((List.range' (sizes.take r).sum (sizes.getD r 0)).map fun j => c j m).flatten := by
    rw [hb, List.map_map]; rfl
  have hsize : (bufs.map fun b => b.data.length).sum = dim2 ds * N m := by
    rw [data_lengths, ← List.length_flatten, hdata, hcat, flatten_len (N m) _ (fun j => h.2 j m)]
    simp
  have hbr : bufs[root]? = some (asarray ((List.range' (sizes.take root).sum (sizes.getD root 0)).map fun j => c j m)) := by
    simp [hb, hr]
  have hpos : 0 < sizes.getD root 0 := by
    subst hs
    simp only [List.getD_eq_getElem?_getD, List.getElem?_map, List.getElem?_range hr, Option.map_some, Option.getD_some]
    exact Nat.div_pos hroot hP
  have hrc : (asarray ((List.range' (sizes.take root).sum (sizes.getD root 0)).map fun j => c j m)).cplx = true := by
    obtain ⟨k, hk⟩ : ∃ k, sizes.getD root 0 = k + 1 := ⟨sizes.getD root 0 - 1, by omega⟩
    rw [hk]
    simp [asarray, List.range'_succ]
  have hany : (bufs.any fun b => !b.data.isEmpty && b.cplx != true) = false := by
    rw [List.any_eq_false]
    intro b hb'
    rw [hb, List.mem_map] at hb'
    obtain ⟨r, _, rfl⟩ := hb'
    simp only [Function.comp_apply, asarray]
    cases hx : (List.range' (sizes.take r).sum (sizes.getD r 0)).map (fun j => c j m) with
    | nil => simp
    | cons a l => simp
  unfold gatherv
  rw [hbr]
  simp only [hrc, hany]
  simp only [hsize, Bool.false_eq_true, if_false]
  have hdiv : dim2 ds * N m / dim2 ds = N m := Nat.mul_div_cancel_left _ hd
  unfold unravel
  rw [hdiv]
  simp only [ne_eq, not_true_eq_false, if_false]
  refine ⟨_, rfl, rfl, rfl, ?_⟩
  intro i hi j hj
  simp only
  have hlt : j * N m + i < dim2 ds * N m := by nlinarith
  rw [gathered bufs order (by simpa [hb] using ho) _ (by rw [hsize]; exact hlt), hdata, hcat,
    flatten_const (N m) _ (fun j => h.2 j m) _ _ _ hj hi]

/-- The run in terms of the gathered matrices. -/
theorem genMpi_gathered (h : OnBasis ms zs ds conv c N) {P root : ℕ} (hd : 0 < dim2 ds)
    (hr : root < P) (hroot : P ≤ dim2 ds + root) (nk : ℕ) (order : Multipole → List ℕ)
    (ho : ∀ m, (order m).Perm (List.range P)) :
    ∃ g : Multipole → Mat (Option L), (∀ m ∈ ms, IsMatrix (dim2 ds) (N m) (fun j => c j m) (g m)) ∧
      ∀ concat diag, genMpi ms zs ds nk conv concat diag P root order =
        match returnWcmat ms nk concat diag (ms.map fun m => (m, g m)) with
          | .error e => .error (.py e)
          | .ok res => .ok ((List.range P).map fun r => if r = root then some res else none) := by
  have hP : 0 < P := by omega
  obtain ⟨sizes, segs, h1, h2, h3, h4, h5⟩ := rank_vectors h hP hd
  have key : ∀ m ∈ ms, ∃ M, gatherOne (dim2 ds) root (order m) ((List.range P).map fun r =>
        (List.range' (sizes.take r).sum (sizes.getD r 0)).map fun j => ms.map fun m => (m, c j m)) m = .ok (m, M) ∧
      IsMatrix (dim2 ds) (N m) (fun j => c j m) M := fun m hm =>
    gatherOne_ok h hP hd hr hroot (order m) (fun r hr => (ho m).mem_iff.mpr (by simpa using hr)) m hm sizes h3 h5
  haveI : Inhabited (Mat (Option L)) := ⟨⟨0, 0, fun _ _ => none⟩⟩
  choose! g hg using key
  refine ⟨g, fun m hm => (hg m hm).2, fun concat diag => ?_⟩
  unfold genMpi
  rw [h1]
  simp only [h2, h4]
  rw [traverse_pure (g := fun m => (m, g m)) fun m hm => (hg m hm).1]
  rfl

/-- **C03 (partial: the root has a task).** For every number of processes, every root with at least one
task, and every order in which messages arrive, the matrices returned at the root have the convolved basis
vectors as columns – which makes them independent of the number of processes; all other ranks return
`None`.  Missing: more processes than basis vectors with a root without task, and no communicator
at all, see below. -/
theorem C03_parallel_matrix_partial (h : OnBasis ms zs ds conv c N) {P root : ℕ} (hd : 0 < dim2 ds)
    (hr : root < P) (hroot : P ≤ dim2 ds + root) (nk : ℕ) (order : Multipole → List ℕ)
    (ho : ∀ m, (order m).Perm (List.range P)) :
    ∃ w, genMpi ms zs ds nk conv false false P root order =
        .ok ((List.range P).map fun r => if r = root then some (.dict w) else none) ∧
      w.map Prod.fst = ms ∧ ∀ p ∈ w, IsMatrix (dim2 ds) (N p.1) (fun j => c j p.1) p.2 := by
  obtain ⟨g, hg, he⟩ := genMpi_gathered h hd hr hroot nk order ho
  refine ⟨ms.map fun m => (m, g m), ?_, by simp [Function.comp_def], ?_⟩
  · rw [he, returnWcmat_dict]
  · intro p hp
    obtain ⟨m, hm, rfl⟩ := List.mem_map.mp hp
    exact hg m hm

/-- **C03 (partial: the root has a task).** With `diag`, the matrices consist of the rows for the diagonal
of the convolved multipoles: `O j m` is the multipole `m` of the convolved basis vector `j`. -/
theorem C03_parallel_diag_partial {O : ℕ → Multipole → Mat L} {nk : ℕ}
    (h : OnBasis ms zs ds conv (fun j m => (O j m).flat) fun _ => nk * nk)
    (hO : ∀ j m, (O j m).rows = nk ∧ (O j m).cols = nk) {P root : ℕ} (hd : 0 < dim2 ds)
    (hr : root < P) (hroot : P ≤ dim2 ds + root) (order : Multipole → List ℕ)
    (ho : ∀ m, (order m).Perm (List.range P)) :
    ∃ w, genMpi ms zs ds nk conv false true P root order =
        .ok ((List.range P).map fun r => if r = root then some (.dict w) else none) ∧
      w.map Prod.fst = ms ∧ ∀ p ∈ w, p.2.rows = nk ∧ p.2.cols = dim2 ds ∧
        ∀ i < nk, ∀ j < dim2 ds, p.2.e i j = some ((O j p.1).e i i) := by
  obtain ⟨g, hg, he⟩ := genMpi_gathered h hd hr hroot nk order ho
  refine ⟨ms.map fun m => (m, ⟨nk, (g m).cols, fun i j => (g m).e (i * (nk + 1)) j⟩), ?_,
    by simp [Function.comp_def], ?_⟩
  · rw [he, returnWcmat_diag]
    intro m hm i hi
    rw [(hg m hm).rows]
    exact diag_lt hi
  · intro p hp
    obtain ⟨m, hm, rfl⟩ := List.mem_map.mp hp
    refine ⟨rfl, (hg m hm).cols, fun i hi j hj => ?_⟩
    simp only
    rw [(hg m hm).entry _ (diag_lt hi) j hj]
    have := flat_get (O j m) i i (by rw [(hO j m).1]; exact hi) (by rw [(hO j m).2]; exact hi)
    rw [(hO j m).2] at this
    rw [← this]
    congr 1

/-- **C03 (partial: the root has a task).** With `concat`, the single matrix returned stacks the matrices of
the multipoles, in the order of the formulae. -/
theorem C03_parallel_concat_partial (h : OnBasis ms zs ds conv c N) (hms : ms ≠ []) {P root : ℕ} (hd : 0 < dim2 ds)
    (hr : root < P) (hroot : P ≤ dim2 ds + root) (nk : ℕ) (order : Multipole → List ℕ)
    (ho : ∀ m, (order m).Perm (List.range P)) :
    ∃ M, genMpi ms zs ds nk conv true false P root order =
        .ok ((List.range P).map fun r => if r = root then some (.one M) else none) ∧
      M.rows = (ms.map N).sum ∧ M.cols = dim2 ds ∧
      ∀ k m, ms[k]? = some m → ∀ i < N m, ∀ j < dim2 ds, M.e (((ms.take k).map N).sum + i) j = (c j m)[i]? := by
  obtain ⟨g, hg, he⟩ := genMpi_gathered h hd hr hroot nk order ho
  obtain ⟨M, hM, h1, h2, h3⟩ := rowStack_spec (dim2 ds) (ms.map g) (by simpa using hms) (by
    intro A hA
    obtain ⟨m, hm, rfl⟩ := List.mem_map.mp hA
    exact (hg m hm).cols)
  have hrows : ∀ l : List Multipole, (∀ m ∈ l, m ∈ ms) → (l.map g).map Mat.rows = l.map N := by
    intro l hl
    rw [List.map_map]
    exact List.map_congr_left fun m hm => (hg m (hl m hm)).rows
  refine ⟨M, ?_, ?_, h2, ?_⟩
  · rw [he, returnWcmat_concat, hM]
  · rw [h1, hrows ms fun m hm => hm]
  · intro k m hk i hi j hj
    have hm : m ∈ ms := List.mem_of_getElem? hk
    have := h3 k (g m) (by rw [List.getElem?_map, hk]; rfl) i (by rw [(hg m hm).rows]; exact hi) j
    rw [← List.map_take, hrows _ fun x hx => List.mem_of_mem_take hx] at this
    rw [this, (hg m hm).entry i hi j hj]

/-- **C03.** The matrices are the same for any two numbers of processes, roots and orders of arrival
(the root having a task). -/
theorem C03_process_count_irrelevant_partial (h : OnBasis ms zs ds conv c N) {P root P' root' : ℕ}
    (hd : 0 < dim2 ds) (hr : root < P) (hroot : P ≤ dim2 ds + root) (hr' : root' < P')
    (hroot' : P' ≤ dim2 ds + root') (nk : ℕ) (order order' : Multipole → List ℕ)
    (ho : ∀ m, (order m).Perm (List.range P)) (ho' : ∀ m, (order' m).Perm (List.range P')) :
    ∃ w w', genMpi ms zs ds nk conv false false P root order =
        .ok ((List.range P).map fun r => if r = root then some (.dict w) else none) ∧
      genMpi ms zs ds nk conv false false P' root' order' =
        .ok ((List.range P').map fun r => if r = root' then some (.dict w') else none) ∧
      List.Forall₂ (fun p q => p.1 = q.1 ∧ p.2.rows = q.2.rows ∧ p.2.cols = q.2.cols ∧
        ∀ i < p.2.rows, ∀ j < p.2.cols, p.2.e i j = q.2.e i j) w w' := by
  obtain ⟨w, e1, k1, m1⟩ := C03_parallel_matrix_partial h hd hr hroot nk order ho
  obtain ⟨w', e2, k2, m2⟩ := C03_parallel_matrix_partial h hd hr' hroot' nk order' ho'
  refine ⟨w, w', e1, e2, ?_⟩
  have hf : List.Forall₂ (fun p q : Multipole × Mat (Option L) => p.1 = q.1) w w' := by
    have : List.Forall₂ (· = ·) (w.map Prod.fst) (w'.map Prod.fst) := by rw [k1, k2, List.forall₂_eq_eq_eq]
    simpa using this
  have : ∀ {u v : List (Multipole × Mat (Option L))}, List.Forall₂ (fun p q => p.1 = q.1) u v →
      (∀ p ∈ u, p ∈ w) → (∀ q ∈ v, q ∈ w') → List.Forall₂ (fun p q => p.1 = q.1 ∧ p.2.rows = q.2.rows ∧
        p.2.cols = q.2.cols ∧ ∀ i < p.2.rows, ∀ j < p.2.cols, p.2.e i j = q.2.e i j) u v := by
    intro u v huv
    induction huv with
    | nil => intro _ _; exact .nil
    | @cons p q u v hpq _ ih =>
      intro hu hv
      refine .cons ?_ (ih (fun x hx => hu x (by simp [hx])) fun x hx => hv x (by simp [hx]))
      have a := m1 p (hu p (by simp))
      have b := m2 q (hv q (by simp))
      rw [← hpq] at b
      refine ⟨hpq, a.rows.trans b.rows.symm, a.cols.trans b.cols.symm, fun i hi j hj => ?_⟩
      rw [a.entry i (a.rows ▸ hi) j (a.cols ▸ hj), b.entry i (a.rows ▸ hi) j (a.cols ▸ hj)]
  exact this hf (fun p hp => hp) fun q hq => hq

/-- **C03 is violated** without a communicator: whatever the convolution does, `gen_winconv_mat` raises;
if the convolution succeeds on all basis vectors, a `TypeError` after all of them are computed. -/
theorem C03_serial_violated (ms zs : List Multipole) (ds : List ℕ) (conv : Conv K L) :
    (∃ e, genSerial ms zs ds conv = .error e) ∧
    (0 < dim2 ds → ∀ c N, OnBasis ms zs ds conv c N → genSerial ms zs ds conv = .error (.py .typeError)) := by
  constructor
  · unfold genSerial
    cases traverse (fun j => winVec zs ds conv (unitVec (dim2 ds) j)) (List.range (dim2 ds)) with
    | error e => exact ⟨_, rfl⟩
    | ok cols =>
      simp only
      cases traverse (fun o => traverse (fun m => get o m) ms) cols with
      | error e => exact ⟨_, rfl⟩
      | ok a =>
        simp only
        by_cases hc : dim2 ds = 0 ∧ ms ≠ []
        · rw [if_pos hc]; exact ⟨_, rfl⟩
        · rw [if_neg hc]; exact ⟨_, rfl⟩
  · intro hd c N h
    unfold genSerial
    rw [traverse_pure (g := fun j => ms.map fun m => (m, c j m)) fun j hj => h.1 j (by simpa using hj)]
    simp only
    rw [traverse_pure (g := fun o : List (Multipole × List L) => ms.map fun m => (get? o m).getD [])]
    · simp only
      rw [if_neg (by omega)]
    · intro o ho
      obtain ⟨j, _, rfl⟩ := List.mem_map.mp ho
      refine traverse_pure fun m hm => ?_
      have := get_map_self ms (fun m => c j m) m hm
      unfold get at this ⊢
      cases hg : get? (ms.map fun m => (m, c j m)) m with
      | none => rw [hg] at this; simp at this
      | some a => simp

/-- **C03 is violated** when the root gets no task, which is the case for the default root as soon as there
are more processes than basis vectors: the MPI library rejects the messages. -/
theorem C03_idle_root_violated (h : OnBasis ms zs ds conv c N) {P root : ℕ} (hd : 0 < dim2 ds)
    (hr : root < P) (hroot : dim2 ds + root < P) (hms : ms ≠ []) (hN : ∀ m ∈ ms, 0 < N m) (nk : ℕ)
    (concat diag : Bool) (order : Multipole → List ℕ) :
    genMpi ms zs ds nk conv concat diag P root order = .error .mpi := by
  have hP : 0 < P := by omega
  obtain ⟨sizes, segs, h1, h2, h3, h4, h5⟩ := rank_vectors h hP hd
  have key : ∀ m ∈ ms, gatherOne (dim2 ds) root (order m) ((List.range P).map fun r =>
        (List.range' (sizes.take r).sum (sizes.getD r 0)).map fun j => ms.map fun m => (m, c j m)) m =
      .error .mpi := by
    intro m hm
    unfold gatherOne
    rw [gatherOne_all (js := (List.range P).map fun r => List.range' (sizes.take r).sum (sizes.getD r 0)) hm
      (by rw [List.map_map]; rfl)]
    have hz : sizes.getD root 0 = 0 := by
      subst h3
      simp only [List.getD_eq_getElem?_getD, List.getElem?_map, List.getElem?_range hr, Option.map_some,
        Option.getD_some]
      exact Nat.div_eq_of_lt hroot
    have hbr : (((List.range P).map fun r => List.range' (sizes.take r).sum (sizes.getD r 0)).map
        (fun l => l.map fun j => c j m)).map asarray = ((List.range P).map fun r =>
          asarray ((List.range' (sizes.take r).sum (sizes.getD r 0)).map fun j => c j m)) := by
      simp only [List.map_map]; rfl
    simp only [hbr]
    unfold gatherv
    have hroot' : ((List.range P).map fun r => asarray ((List.range' (sizes.take r).sum (sizes.getD r 0)).map
        fun j => c j m))[root]? = some (⟨false, []⟩ : Buf L) := by
      rw [List.getElem?_map, List.getElem?_range hr, Option.map_some, hz]
      rfl
    rw [hroot']
    obtain ⟨r, hrP, hrm⟩ : ∃ r, r < P ∧ 0 ∈ List.range' (sizes.take r).sum (sizes.getD r 0) := by
      have : 0 ∈ List.range (dim2 ds) := by simpa using hd
      rw [← h5, List.mem_flatMap] at this
      obtain ⟨r, hr1, hr2⟩ := this
      exact ⟨r, by simpa using hr1, hr2⟩
    have hany : (((List.range P).map fun r => asarray ((List.range' (sizes.take r).sum (sizes.getD r 0)).map
        fun j => c j m)).any fun b => !b.data.isEmpty && b.cplx != false) = true := by
      rw [List.any_eq_true]
      refine ⟨_, List.mem_map.mpr ⟨r, by simpa using hrP, rfl⟩, ?_⟩
      cases hx : List.range' (sizes.take r).sum (sizes.getD r 0) with
      | nil => rw [hx] at hrm; simp at hrm
      | cons a l =>
        have hl : 0 < (c a m).length := by rw [h.2]; exact hN m hm
        cases hca : c a m with
        | nil => rw [hca] at hl; simp at hl
        | cons _ _ => simp [asarray, hca]
    simp only [hany, if_true]
  obtain ⟨m, ms', rfl⟩ := List.exists_cons_of_ne_nil hms
  unfold genMpi
  rw [h1]
  simp only [h2, h4]
  rw [traverse, key m (by simp)]

end

/-! ### Multiplying with the matrix -/

section
variable [Field K] [AddCommGroup L] [Module K L]

/-- **C03.** For a linear convolution, convolving a vector gives the sum of the convolved basis vectors,
weighted with its entries. -/
theorem C03_convolved_vector {ms zs : List Multipole} {ds : List ℕ} {nk : ℕ} {conv : Conv K L}
    (hc : LinearConv ms nk conv) (hz : ds.length = zs.length) {c : ℕ → Multipole → List L} {N : Multipole → ℕ}
    (h : OnBasis ms zs ds conv c N) (hd : 0 < dim2 ds) (v : List K) (hv : v.length = dim2 ds) :
    ∃ g : Multipole → List L, winVec zs ds conv v = .ok (ms.map fun m => (m, g m)) ∧
      ∀ m, (g m).length = N m ∧
        ∀ i, (g m).getD i 0 = ∑ j ∈ Finset.range (dim2 ds), v.getD j 0 • (c j m).getD i 0 := by
  suffices hs : ∀ k, k ≤ dim2 ds → ∃ g : Multipole → List L,
      winVec zs ds conv (upTo v (dim2 ds) k) = .ok (ms.map fun m => (m, g m)) ∧
      ∀ m, (g m).length = N m ∧
        ∀ i, (g m).getD i 0 = ∑ j ∈ Finset.range k, v.getD j 0 • (c j m).getD i 0 by
    have := hs (dim2 ds) le_rfl
    rwa [← hv, upTo_all, hv] at this
  intro k
  induction k with
  | zero =>
    intro _
    refine ⟨fun m => linL (0 : K) 0 (c 0 m) (c 0 m), ?_, fun m => ⟨by simp [linL, h.2], fun i => ?_⟩⟩
    · rw [upTo_zero, winVec_lin hc hz 0 0 _ _ _ _ (h.1 0 hd) (h.1 0 hd), combine_map]
    · rw [linL_getD _ _ _ _ rfl]; simp
  | succ k ih =>
    intro hk
    obtain ⟨g, h1, h2⟩ := ih (by omega)
    refine ⟨fun m => linL (1 : K) (v.getD k 0) (g m) (c k m), ?_, fun m => ⟨by simp [linL, h.2, (h2 m).1], fun i => ?_⟩⟩
    · rw [upTo_succ, winVec_lin hc hz _ _ _ _ _ _ h1 (h.1 k (by omega)), combine_map]
    · rw [linL_getD _ _ _ _ (by rw [(h2 m).1, h.2]), (h2 m).2 i, Finset.sum_range_succ, one_smul]

/-- **C03 (partial: a linear convolution and a root with a task).** Multiplying the matrix generated in
parallel with a vector of samples is the same as convolving the vector.  Missing: as for the matrix
itself; and the convolution is not linear with the default treatment of the ends of the sample
range, see below. -/
theorem C03_matrix_times_vector_partial {ms zs : List Multipole} {ds : List ℕ} {nk : ℕ} {conv : Conv K L}
    (hc : LinearConv ms nk conv) (hz : ds.length = zs.length) {c : ℕ → Multipole → List L} {N : Multipole → ℕ}
    (h : OnBasis ms zs ds conv c N) (hd : 0 < dim2 ds) {P root : ℕ}
    (hr : root < P) (hroot : P ≤ dim2 ds + root) (order : Multipole → List ℕ)
    (ho : ∀ m, (order m).Perm (List.range P)) :
    ∃ w, genMpi ms zs ds nk conv false false P root order =
        .ok ((List.range P).map fun r => if r = root then some (.dict w) else none) ∧
      w.map Prod.fst = ms ∧
      ∀ v : List K, v.length = dim2 ds → ∃ g : Multipole → List L,
        winVec zs ds conv v = .ok (ms.map fun m => (m, g m)) ∧
        ∀ p ∈ w, (g p.1).length = p.2.rows ∧ ∀ i < p.2.rows,
          (g p.1).getD i 0 = ∑ j ∈ Finset.range p.2.cols, v.getD j 0 • (p.2.e i j).getD 0 := by
  obtain ⟨w, h1, h2, h3⟩ := C03_parallel_matrix_partial h hd hr hroot nk order ho
  refine ⟨w, h1, h2, fun v hv => ?_⟩
  obtain ⟨g, e1, e2⟩ := C03_convolved_vector hc hz h hd v hv
  refine ⟨g, e1, fun p hp => ?_⟩
  have hM := h3 p hp
  refine ⟨by rw [(e2 p.1).1, hM.rows], fun i hi => ?_⟩
  rw [hM.rows] at hi
  rw [(e2 p.1).2 i, hM.cols]
  refine Finset.sum_congr rfl fun j hj => ?_
  rw [hM.entry i hi j (by simpa using hj)]
  simp

end

/-- **C03 (partial: transforms without log-linear extrapolation).** The same for the convolution of
bispectra: double spherical Bessel transforms with fixed weights, window convolution of the
three-point function, and interpolation at the output points.  `ic` is what `gen_winconv_mat`
passes: `0`, or `None` for the computed integral constraint. -/
theorem C03_bispectrum_matrix_partial [Field K] [DecidableEq K] (I : Interp K) (B : Base K (Mat K))
    (bwd fwd : Multipole → Dsbt K) (kc : Multipole → List K) (kout : List K) (ic : Option K)
    (hic : ic = none ∨ ic = some 0) (nkin : Multipole → ℕ) {c : ℕ → Multipole → List (K × K)} {N : Multipole → ℕ}
    (h : OnBasis B.F.multipoles B.F.zTrue (B.F.zTrue.map nkin) (bispecConv I B bwd fwd kc kout ic) c N)
    (hd : 0 < dim2 (B.F.zTrue.map nkin)) {P root : ℕ} (hr : root < P)
    (hroot : P ≤ dim2 (B.F.zTrue.map nkin) + root) (order : Multipole → List ℕ)
    (ho : ∀ m, (order m).Perm (List.range P)) :
    ∃ w, genMpi B.F.multipoles B.F.zTrue (B.F.zTrue.map nkin) kout.length (bispecConv I B bwd fwd kc kout ic)
        false false P root order = .ok ((List.range P).map fun r => if r = root then some (.dict w) else none) ∧
      w.map Prod.fst = B.F.multipoles ∧
      ∀ v : List K, v.length = dim2 (B.F.zTrue.map nkin) → ∃ g : Multipole → List (K × K),
        winVec B.F.zTrue (B.F.zTrue.map nkin) (bispecConv I B bwd fwd kc kout ic) v =
          .ok (B.F.multipoles.map fun m => (m, g m)) ∧
        ∀ p ∈ w, (g p.1).length = p.2.rows ∧ ∀ i < p.2.rows,
          (g p.1).getD i 0 = ∑ j ∈ Finset.range p.2.cols, v.getD j 0 • (p.2.e i j).getD 0 :=
  C03_matrix_times_vector_partial (bispecConv_linear I B bwd fwd kc kout ic hic) (by simp) h hd hr hroot order ho


/-! ### C104: convolved bispectra -/

/-- **C104.** A convolved bispectrum multipole is the double spherical Bessel transform of the
convolved three-point function multipole, sampled at the output wavenumbers: at those which are
sample points of the transform, real and imaginary parts are those of the transform, the first axis
of the output being the first of the transform.  The three-point function convolved is the backward
transform of the input. -/
theorem C104_convolved_bispectrum [Field K] [LinearOrder K] (I : Interp K) (hI : I.Ok)
    (B : Base K (Mat K)) (bwd fwd : Multipole → Dsbt K) (kc : Multipole → List K) (kout : List K)
    (ic : Option K) (Bin : List (Multipole × Mat K)) (out : List (Multipole × Mat (K × K)))
    (h : bispecConv I B bwd fwd kc kout ic Bin = .ok out) :
    out.map Prod.fst = B.F.multipoles ∧
    ∃ zeta zc, conv3 I B zeta ic = .ok zc ∧
      (∀ z ∈ B.F.zTrue, ∃ M, get Bin z = .ok M ∧ (Key.mp z, (bwd z).apply M.e) ∈ zeta) ∧
      ∀ p ∈ out, p.2.rows = kout.length ∧ p.2.cols = kout.length ∧
        ∃ Z, get zc p.1 = .ok Z ∧
        ((kc p.1).Pairwise (· < ·) → ∀ i j a b, i < kout.length → j < kout.length →
          a < (kc p.1).length → b < (kc p.1).length →
          kout.getD i 0 = (kc p.1).getD a 0 → kout.getD j 0 = (kc p.1).getD b 0 →
          p.2.e i j = (∑ u ∈ Finset.range (fwd p.1).n, ∑ v ∈ Finset.range (fwd p.1).n,
              ((fwd p.1).w a b u v).1 * (Z.getD u []).getD v 0,
            ∑ u ∈ Finset.range (fwd p.1).n, ∑ v ∈ Finset.range (fwd p.1).n,
              ((fwd p.1).w a b u v).2 * (Z.getD u []).getD v 0)) := by
  unfold bispecConv at h
  cases h1 : traverse (backOne bwd Bin) B.F.zTrue with
  | error e => rw [h1] at h; cases h
  | ok zeta =>
    rw [h1] at h
    simp only at h
    cases h2 : conv3 I B zeta ic with
    | error e => rw [h2] at h; cases h
    | ok zc =>
      rw [h2] at h
      simp only at h
      have hone : ∀ m b, forthOne I fwd kc kout zc m = .ok b → b.1 = m := by
        intro m b hb
        unfold forthOne at hb
        split at hb
        · cases hb
        · cases hb; rfl
      refine ⟨?_, zeta, zc, h2, ?_, ?_⟩
      · have := traverse_fst Prod.fst id hone h
        simpa using this
      · intro z hz
        obtain ⟨b, hb, he⟩ := traverse_mem h1 z hz
        unfold backOne at he
        split at he
        · cases he
        · rename_i M hM
          cases he
          exact ⟨M, hM, hb⟩
      · intro p hp
        obtain ⟨m, -, hm⟩ := traverse_of_mem h p hp
        unfold forthOne at hm
        split at hm
        · cases hm
        · rename_i Z hZ
          cases hm
          refine ⟨rfl, rfl, Z, hZ, ?_⟩
          intro hx i j a b _ _ ha hb h3 h4
          simp only [h3, h4]
          rw [spl2_knot hI hx _ ha hb, spl2_knot hI hx _ ha hb]
          rfl

/-! ### Extrapolation (`transforms.py:248-272`) -/

open Arr in
/-- The left end of an extrapolated array of four samples which increases geometrically. -/
theorem oscil_geometric (q : ℝ) (hq : 1 ≤ q) (n : ℕ) :
    ∃ out, pyOscil [1, q, q ^ 2, q ^ 3] n = .ok out ∧
      ∀ i < n, out.getD i 0 = Real.exp (-Real.log q * ((n : ℝ) - i)) := by
  set a : List ℝ := [1, q, q ^ 2, q ^ 3] with ha
  have hlen : a.length = 4 := rfl
  have hl : 2 ≤ a.length := by omega
  obtain ⟨out, ho⟩ := pyOscil_total a n (by omega)
  refine ⟨out, ho, ?_⟩
  have q0 : q ≠ 0 := by linarith
  have hlog : 0 ≤ Real.log q := Real.log_nonneg hq
  have hb1 : (banks a).1 = 3 := by
    unfold banks
    cases h1 : (signChanges a).head? with
    | none => simp [hlen]
    | some i =>
      have hi : i ∈ signChanges a := List.mem_of_head? h1
      have hi : i < 3 := by
        unfold signChanges at hi
        have := (List.mem_filter.mp hi).1
        rw [hlen] at this
        simpa using this
      cases h2 : (signChanges a).getLast? with
      | none => simp [hlen]
      | some j => simp only; omega
  have hlq : 3 ≤ (quarters a).1 := by
    unfold quarters
    exact le_max_right _ _
  unfold pyOscil at ho
  simp only [check1d_ok hl, bind, Except.bind] at ho
  cases h1 : lngrad (sliceTo a (banks a).1) with
  | error e => rw [h1] at ho; simp at ho
  | ok gl =>
    rw [h1] at ho; simp only at ho
    cases h2 : lngrad (sliceFrom a (banks a).2) with
    | error e => rw [h2] at ho; simp at ho
    | ok gr =>
      rw [h2] at ho; simp only at ho
      have hld : 3 ≤ ldBank a gl := by
        unfold ldBank; split <;> omega
      have hlt : min (min (banks a).1 (ldBank a gl)) (quarters a).1 = 3 := by omega
      have l1 : Real.log |q| = Real.log q := by rw [abs_of_pos (by linarith)]
      have l2 : Real.log |q ^ 2| = 2 * Real.log q := by
        rw [abs_of_pos (by positivity), Real.log_pow]; norm_num
      have e3 : lngrad (sliceTo a 3) = .ok [Real.log q, Real.log q, Real.log q] := by
        have hs : sliceTo a 3 = [1, q, q ^ 2] := rfl
        rw [hs]
        unfold lngrad
        simp only [List.map_cons, List.map_nil, logAbs, one_ne_zero, if_false, q0, pow_eq_zero_iff, ne_eq,
          OfNat.ofNat_ne_zero, not_false_eq_true, abs_one, Real.log_one, l1, l2, gradient, List.reverse_cons,
          List.reverse_nil, List.nil_append, List.cons_append, gradInner, Flt.sub, Flt.divPos, Flt.toNum]
        congr 2
        · ring
        · congr 1
          · ring
          · congr 1; ring
      rw [hlt, e3, front2_eq hl, back2_eq hl] at ho
      simp only at ho
      have hsc : signChanges [Real.log q, Real.log q, Real.log q] = [] := by
        unfold signChanges
        rw [List.filter_eq_nil_iff]
        intro i hi
        have hi : i < 2 := by simpa using hi
        interval_cases i <;> simp
      have hp : powLeft [Real.log q, Real.log q, Real.log q] (a.getD 0 0) (a.getD 1 0) (sliceTo a (quarters a).1) =
          .ok (-Real.log q) := by
        unfold powLeft
        rw [if_neg (by rw [hsc]; simp)]
        have : ((logAbs (a.getD 1 0)).sub (logAbs (a.getD 0 0))).toNum = Real.log q := by
          simp [ha, logAbs, q0, l1, Flt.sub, Flt.toNum]
        rw [this, if_pos hlog]
      rw [hp] at ho
      simp only at ho
      cases h5 : lngrad (sliceFrom a (max (max (banks a).2 (rdBank a (banks a).2 gr)) (quarters a).2)) with
      | error e => rw [h5] at ho; simp at ho
      | ok grt =>
        rw [h5] at ho; simp only at ho
        cases h6 : powRight grt (a.getD (a.length - 1) 0) (a.getD (a.length - 2) 0) (sliceFrom a (quarters a).2) with
        | error e => rw [h6] at ho; simp at ho
        | ok pr =>
          rw [h6] at ho
          simp only [Except.ok.injEq] at ho
          subst ho
          intro i hi
          simp [List.getElem?_append, hi, ha]

open Arr in
/-- **C03 is violated** by the default `extrap=5` of `BispecWinConv`: the samples which enter the transforms
are extrapolated log-linearly, which is not linear.  For any number of extrapolated points there are
samples whose extrapolation differs from the sum of the extrapolated basis vectors weighted with
the samples – which is what the matrix implies. -/
theorem C03_default_extrapolation_violated (n : ℕ) (hn : 0 < n) :
    ∃ (v out : List ℝ) (b : ℕ → List ℝ) (i : ℕ), v.length = 4 ∧ pyOscil v n = .ok out ∧
      (∀ j < 4, pyOscil (unitVec 4 j) n = .ok (b j)) ∧
      out.getD i 0 ≠ ∑ j ∈ Finset.range 4, v.getD j 0 * (b j).getD i 0 := by
  have hb : ∀ j, ∃ o, pyOscil (unitVec 4 j : List ℝ) n = .ok o := fun j => pyOscil_total _ n (by simp [unitVec])
  choose b hb using hb
  have hz : ∀ j, 0 < j → (b j).getD (n - 1) 0 = 0 := by
    intro j hj
    obtain ⟨_, pl, pr, _, _, e⟩ := pyOscil_ok (hb j)
    rw [e]
    have : (unitVec 4 j : List ℝ).getD 0 0 = 0 := by
      simp [unitVec]; omega
    rw [this]
    simp [List.getElem?_append, show n - 1 < n by omega]
  obtain ⟨o1, h1, f1⟩ := oscil_geometric 1 le_rfl n
  obtain ⟨o2, h2, f2⟩ := oscil_geometric 2 (by norm_num) n
  have hs : ∀ v : List ℝ, ∑ j ∈ Finset.range 4, v.getD j 0 * (b j).getD (n - 1) 0 = v.getD 0 0 * (b 0).getD (n - 1) 0 := by
    intro v
    simp only [Finset.sum_range_succ, Finset.sum_range_zero, hz 1 (by omega), hz 2 (by omega), hz 3 (by omega)]
    ring
  have hcast : ((n - 1 : ℕ) : ℝ) = (n : ℝ) - 1 := by push_cast [Nat.cast_sub (show 1 ≤ n from hn)]; ring
  have g1 := f1 (n - 1) (by omega)
  have g2 := f2 (n - 1) (by omega)
  rw [hcast] at g1 g2
  simp only [Real.log_one] at g1
  have e1 : o1.getD (n - 1) 0 = 1 := by rw [g1]; simp
  have e2 : o2.getD (n - 1) 0 = 1 / 2 := by
    rw [g2]
    have : -Real.log 2 * ((n : ℝ) - (n - 1)) = -Real.log 2 := by ring
    rw [this, Real.exp_neg, Real.exp_log (by norm_num)]
    norm_num
  by_cases hc : (b 0).getD (n - 1) 0 = 1
  · refine ⟨_, o2, b, n - 1, rfl, h2, fun j _ => hb j, ?_⟩
    rw [hs, e2]
    simp only [List.getD_cons_zero, one_mul]
    rw [hc]; norm_num
  · refine ⟨_, o1, b, n - 1, rfl, h1, fun j _ => hb j, ?_⟩
    rw [hs, e1]
    simp only [List.getD_cons_zero, one_mul]
    exact fun h => hc h.symm

/-! ### A concrete case

One multipole, two sample points, a convolution which doubles the samples and transposes them; two processes
of which the root is the second. -/

/-- The convolution of the example. -/
def exConv : Conv ℚ ℚ := fun d => .ok [(m000, ⟨2, 2, fun i j =>
  2 * (((get? d m000).map Mat.e).getD fun _ _ => 0) j i⟩)]

def exMat : Except GenErr (List (Option (List (List (Option ℚ))))) :=
  match genMpi [m000] [m000] [2] 2 exConv false false 3 1 (fun _ => [2, 0, 1]) with
  | .error e => .error e
  | .ok l => .ok (l.map fun r => match r with
    | some (.dict [(_, M)]) => some ((List.range M.rows).map fun i => (List.range M.cols).map (M.e i))
    | _ => none)

example : exMat = .ok [none, some [[some 2, some 0, some 0, some 0], [some 0, some 0, some 2, some 0],
    [some 0, some 2, some 0, some 0], [some 0, some 0, some 0, some 2]], none] := by
  decide +kernel

/-- The hypothesis on basis vectors is met. -/
example : ∃ c N, OnBasis [m000] [m000] [2] exConv c N := by
  refine ⟨fun j _ => (List.range 4).map fun i => if i = (j % 2) * 2 + j / 2 then 2 else 0, fun _ => 4, ?_, by simp⟩
  intro j hj
  have hj : j < 4 := hj
  interval_cases j <;> decide +kernel

/-- A window function with a single multipole and a single sample point. -/
def exBase : Base ℚ (Mat ℚ) where
  F := ⟨[(m000, [⟨m000, some m000, 1⟩])], [m000], [m000], [m000], false⟩
  rQ := [(m000, [1])]
  Q := [(m000, ⟨1, 1, fun _ _ => 3⟩)]
  rIn := [(some m000, [1])]
  rOut := [(m000, [1])]

/-- The hypotheses for bispectra are met. -/
example : ∃ c N, OnBasis exBase.F.multipoles exBase.F.zTrue (exBase.F.zTrue.map fun _ => 1)
    (bispecConv (stepInterp ℚ) exBase (fun _ => ⟨1, fun _ _ _ _ => (1, 0)⟩) (fun _ => ⟨1, fun _ _ _ _ => (2, 1)⟩)
      (fun _ => [1]) [1] none) c N ∧ c 0 m000 = [(6, 3)] := by
  refine ⟨fun _ _ => [(6, 3)], fun _ => 1, ⟨?_, by simp⟩, rfl⟩
  intro j hj
  have hj : j < 1 := hj
  interval_cases j
  decide +kernel

/-- The hypotheses of C104 are met, with two output points of which one lies off the sample points. -/
example : (match bispecConv (stepInterp ℚ) exBase (fun _ => ⟨1, fun _ _ _ _ => (1, 0)⟩)
    (fun _ => ⟨2, fun a b _ _ => (2 * a + b, 1)⟩) (fun _ => [1, 2]) [2, 3 / 2, 1] none
    [(m000, ⟨1, 1, fun _ _ => 1⟩)] with
    | .ok out => decide (out.map (fun p => (p.2.e 0 2, p.2.e 2 0)) = [((6, 3), (3, 3))])
    | .error _ => false) = true := by
  decide +kernel

end Trv.Wc

import Verif.Lemmas.Mirror
import Verif.Props.Layout
/-
Lemmas for the property theorems on the bispectrum measurement.
-/
namespace Trv.Bis
open Trv.Mesh Trv.Stats Trv.Win Trv.Two Trv.ThreePt

theorem multipole_eq (E : Env3) (data rand : List Part) (row col : ℤ) : multipole E data rand row col =
    ∑ m1 ∈ Finset.Icc (-(E.ell1 : ℤ)) E.ell1, ∑ m2 ∈ Finset.Icc (-(E.ell2 : ℤ)) E.ell2,
      ∑ M ∈ Finset.Icc (-(E.ELL : ℤ)) E.ELL,
        if epsCoupling < |coupling3 E ⟨m1, m2, M⟩| then
          (coupling3 E ⟨m1, m2, M⟩ : ℂ) * triangles E data rand ⟨m1, m2, M⟩ row col else 0 := rfl

theorem runAdds_sum (l : List Add) (i : ℤ) :
    runAdds l i = (l.map fun u => if i = u.idx then u.val else 0).sum := by
  have h : ∀ (l : List Add) (a : ℤ → ℂ),
      l.foldl (fun (a : ℤ → ℂ) u i => if i = u.idx then a i + u.val else a i) a i =
        a i + (l.map fun u => if i = u.idx then u.val else 0).sum := by
    intro l
    induction l with
    | nil => intro a; simp
    | cons u l ih =>
      intro a
      rw [List.foldl_cons, ih, List.map_cons, List.sum_cons]
      by_cases hi : i = u.idx
      · simp only [if_pos hi]; ring
      · simp only [if_neg hi]; ring
  have := h l fun _ => 0
  rw [zero_add] at this
  exact this

theorem sum_flatMap' {α : Type} (l : List α) (f : α → List ℂ) :
    (l.flatMap f).sum = (l.map fun a => (f a).sum).sum := by
  induction l with
  | nil => rfl
  | cons a l ih => rw [List.flatMap_cons, List.sum_append, ih, List.map_cons, List.sum_cons]

theorem runAdds_flatMap (ts : List Triplet) (f : Triplet → List Add) (i : ℤ) :
    runAdds (ts.flatMap f) i = (ts.map fun t => runAdds (f t) i).sum := by
  rw [runAdds_sum, List.map_flatMap, sum_flatMap']
  congr 1
  apply List.map_congr_left
  intro t _
  rw [runAdds_sum]

theorem entry_unique (n : ℕ) (f : Form) {e e' : Entry} (h : e ∈ measWrites n f) (h' : e' ∈ measWrites n f)
    (hp : e.pos = e'.pos) : e = e' := by
  have hnd : ((measWrites n f).map Entry.pos).Nodup := by
    rw [measWrites_pos n (by omega) f]; exact nodup_upto _ _
  exact List.inj_on_of_nodup_map hnd h h' hp

theorem entry_range (n : ℕ) (f : Form) {e : Entry} (h : e ∈ measWrites n f) :
    0 ≤ e.pos ∧ e.pos < dim n f := by
  have : e.pos ∈ (measWrites n f).map Entry.pos := List.mem_map_of_mem h
  rw [measWrites_pos n (by omega) f] at this
  exact mem_upto.1 this

/-- Additions at the entries of a data vector, one for each. -/
theorem runAdds_entries (n : ℕ) (f : Form) (v : Entry → ℂ) {e : Entry} (h : e ∈ measWrites n f) :
    runAdds ((measWrites n f).map fun e => ⟨e.pos, v e⟩) e.pos = v e := by
  rw [runAdds_sum, List.map_map]
  have hc : (measWrites n f).map ((fun u : Add => if e.pos = u.idx then u.val else 0) ∘
      fun e => (⟨e.pos, v e⟩ : Add)) = (measWrites n f).map fun x => if x = e then v e else 0 := by
    apply List.map_congr_left
    intro x hx
    simp only [Function.comp]
    by_cases hp : e.pos = x.pos
    · rw [if_pos hp, if_pos (entry_unique n f hx h hp.symm), entry_unique n f hx h hp.symm]
    · rw [if_neg hp, if_neg (by rintro rfl; exact hp rfl)]
  rw [hc]
  have := measWrites_nodup n f
  revert this h
  generalize measWrites n f = l
  intro h hnd
  induction l with
  | nil => simp at h
  | cons x l ih =>
    rw [List.map_cons, List.sum_cons]
    rw [List.nodup_cons] at hnd
    rcases List.mem_cons.1 h with rfl | h'
    · rw [if_pos rfl]
      have : (l.map fun x => if x = e then v e else 0).sum = 0 := by
        apply List.sum_eq_zero
        intro y hy
        obtain ⟨x, hx, rfl⟩ := List.mem_map.1 hy
        rw [if_neg (by rintro rfl; exact hnd.1 hx)]
      rw [this, add_zero]
    · rw [if_neg (by rintro rfl; exact hnd.1 h'), zero_add]
      exact ih h' hnd.2

theorem getElem_upto {α : Type} (d : ℤ) (F : ℤ → α) {i : ℤ} (h0 : 0 ≤ i) (h1 : i < d) :
    ((upto 0 d).map F)[i.toNat]? = some (F i) := by
  unfold upto
  rw [List.getElem?_map, List.getElem?_map, List.getElem?_range (by omega)]
  simp only [Option.map]
  congr 2
  omega

theorem entryAt_pos (E : Env3) (hne : triplets E ≠ []) {e : Entry} (h : e ∈ measWrites E.numBins E.form) :
    entryAt E e.pos = some e := by
  unfold entryAt
  have : (triplets E).isEmpty = false := by
    cases hh : triplets E with
    | nil => exact absurd hh hne
    | cons => rfl
  rw [this]
  simp only [Bool.false_eq_true, if_false]
  cases hf : (measWrites E.numBins E.form).find? fun x => x.pos = e.pos with
  | none =>
    have := List.find?_eq_none.1 hf e h
    simp at this
  | some x =>
    have h1 := List.mem_of_find?_eq_some hf
    have h2 := List.find?_some hf
    rw [entry_unique E.numBins E.form h1 h (by simpa using h2)]

theorem mirrored_real (f c : ℝ) (x : ℂ) : ((c : ℝ) : ℂ) * mirrored f x = mirrored f ((c : ℂ) * x) := by
  unfold mirrored
  rw [map_mul, Complex.conj_ofReal]
  ring

/-- The volume of a cell cancels. -/
theorem bk_value (E : Env3) (hM : E.mesh.Valid) (data rand : List Part) (t : Triplet) (row col : ℤ) :
    ((coupling3 E t * E.mesh.volCell : ℝ) : ℂ) * mirrored (fMirror E t)
        (bkComponent E (fourier E.mesh (dnField E.toEnv data rand (alphaOf data rand) 0 0))
          (gField E data rand (alphaOf data rand) t.M) t row col) =
      (coupling3 E t : ℂ) * mirrored (fMirror E t) (triangles E data rand t row col) := by
  have hn := fun a => (hM a).1
  have hV : vol E.mesh ≠ 0 := (mul_pos (mul_pos (hM 0).2 (hM 1).2) (hM 2).2).ne'
  have hN : ((E.mesh.n 0 * E.mesh.n 1 * E.mesh.n 2 : ℤ) : ℝ) ≠ 0 := by
    have := mul_pos (mul_pos (hn 0) (hn 1)) (hn 2)
    exact_mod_cast this.ne'
  rw [bkComponent_eq E hn]
  have e : ((E.mesh.n 0 * E.mesh.n 1 * E.mesh.n 2 : ℤ) : ℂ) / (vol E.mesh : ℂ) =
      (((E.mesh.n 0 * E.mesh.n 1 * E.mesh.n 2 : ℤ) : ℝ) / vol E.mesh : ℝ) := by push_cast; rfl
  rw [e, ← mirrored_real, Complex.ofReal_mul, mul_assoc, ← mul_assoc (E.mesh.volCell : ℂ), ← Complex.ofReal_mul]
  have e2 : E.mesh.volCell * (((E.mesh.n 0 * E.mesh.n 1 * E.mesh.n 2 : ℤ) : ℝ) / vol E.mesh) = 1 := by
    unfold Mesh.volCell Mesh.nmesh
    unfold vol at hV ⊢
    rw [div_mul_div_comm, mul_comm, div_self (mul_ne_zero hN hV)]
  rw [e2, Complex.ofReal_one, one_mul]

/-- What the computation returns. -/
theorem computeBispec_ok {E : Env3} {data rand : List Part} {norm : ℝ} {rows : List Row3}
    (h : computeBispec E data rand norm = .ok rows) :
    ¬ |E.w3j E.ell1 E.ell2 E.ELL 0 0 0| < epsCoupling ∧
    rows = (upto 0 (dim E.numBins E.form)).map fun i =>
      { k1eff := k1eff E i
        k2eff := k2eff E i
        nmodes1 := match entryAt E i with
          | some e => nmodesBand E (lowerEdge E e.row) (upperEdge E e.row) | none => 0
        nmodes2 := match entryAt E i with
          | some e => nmodesBand E (lowerEdge E e.col) (upperEdge E e.col) | none => 0
        raw := (norm : ℂ) * runAdds ((triplets E).flatMap (bkAdds E data rand (alphaOf data rand)
          (fourier E.mesh (dnField E.toEnv data rand (alphaOf data rand) 0 0)))) i
        shot := (norm : ℂ) * runAdds ((triplets E).flatMap (snAdds E data rand (alphaOf data rand)
          (fourier E.mesh (dnField E.toEnv data rand (alphaOf data rand) 0 0)))) i } := by
  unfold computeBispec at h
  by_cases h1 : |E.w3j E.ell1 E.ell2 E.ELL 0 0 0| < epsCoupling
  · rw [if_pos h1] at h; cases h
  rw [if_neg h1] at h
  simp only at h
  split_ifs at h
  injection h with h
  exact ⟨h1, h.symm⟩

theorem raw_eq (E : Env3) (hM : E.mesh.Valid) (data rand : List Part) {e : Entry}
    (he : e ∈ measWrites E.numBins E.form) :
    runAdds ((triplets E).flatMap (bkAdds E data rand (alphaOf data rand)
          (fourier E.mesh (dnField E.toEnv data rand (alphaOf data rand) 0 0)))) e.pos =
      ((triplets E).map fun t => (coupling3 E t : ℂ) *
        mirrored (fMirror E t) (triangles E data rand t e.row e.col)).sum := by
  rw [runAdds_flatMap]
  congr 1
  apply List.map_congr_left
  intro t _
  unfold bkAdds
  simp only
  rw [runAdds_entries E.numBins E.form _ he, bk_value E hM]

/-- The sum over computed orders is the sum over all orders. -/
theorem raw_all (E : Env3) (hP : LegendreLike E.P) (hw : WignerLike E.w3j) (hM : GoodMesh E.mesh)
    (h000 : E.w3j E.ell1 E.ell2 E.ELL 0 0 0 ≠ 0)
    (hgap : ∀ t : Triplet, t.Allowed E.ell1 E.ell2 E.ELL → |coupling3 E t| ≠ epsCoupling)
    (data rand : List Part) (row col : ℤ) (hB : Below E row col) :
    Even (E.ell1 + E.ell2 + E.ELL) ∧
    ((triplets E).map fun t => (coupling3 E t : ℂ) *
        mirrored (fMirror E t) (triangles E data rand t row col)).sum = multipole E data rand row col := by
  have hev : Even (E.ell1 + E.ell2 + E.ELL) := by
    by_contra ho
    have := hw.reflect E.ell1 E.ell2 E.ELL 0 0 0
    rw [Odd.neg_one_pow (Nat.not_even_iff_odd.1 ho)] at this
    simp only [neg_zero] at this
    apply h000
    linarith
  refine ⟨hev, ?_⟩
  have hneg : ∀ t : Triplet, coupling3 E t.neg = coupling3 E t := by
    intro t
    unfold coupling3
    have := hw.reflect E.ell1 E.ell2 E.ELL t.m1 t.m2 t.M
    rw [hev.neg_one_pow, one_mul] at this
    show _ * E.w3j E.ell1 E.ell2 E.ELL (-t.m1) (-t.m2) (-t.M) = _
    rw [this]
  have hs : ∀ t : Triplet, t.Allowed E.ell1 E.ell2 E.ELL → |coupling3 E t.neg| = |coupling3 E t| :=
    fun t _ => by rw [hneg]
  have heps : (0 : ℝ) ≤ epsCoupling := by unfold epsCoupling; norm_num
  rw [multipole_eq]
  unfold triplets
  rw [← sum_computed (coupling3 E) epsCoupling E.ell1 E.ell2 E.ELL hs hgap
    (fun t => (coupling3 E t : ℂ) * triangles E data rand t row col)]
  congr 1
  apply List.map_congr_left
  intro t ht
  obtain ⟨ha, hc⟩ := (computed_iff (coupling3 E) epsCoupling E.ell1 E.ell2 E.ELL hs hgap t).1 (Or.inl ht)
  have h0 : t.m1 + t.m2 + t.M = 0 := by
    by_contra hne
    have : coupling3 E t = 0 := by
      unfold coupling3
      rw [hw.select E.ell1 E.ell2 E.ELL t.m1 t.m2 t.M hne, mul_zero]
    rw [this, abs_zero] at hc
    exact absurd hc (not_lt.2 heps)
  unfold mirrored fMirror factorMirror
  by_cases hz : t.isZeros = true
  · simp [hz]
  · simp only [hz, if_false]
    rw [hneg, triangles_neg E hP hM data rand t ha.1 ha.2.1 h0 row col hB]
    have hp : ((-1 : ℂ) ^ (E.ell1 + E.ell2)) = (-1) ^ E.ELL := by
      have : ((-1 : ℂ) ^ (E.ell1 + E.ell2)) * (-1) ^ E.ELL = 1 := by rw [← pow_add, hev.neg_one_pow]
      calc ((-1 : ℂ) ^ (E.ell1 + E.ell2)) = ((-1 : ℂ) ^ (E.ell1 + E.ell2)) * ((-1) ^ E.ELL * (-1) ^ E.ELL) := by
            rw [neg_one_pow_cancel, mul_one]
        _ = _ := by rw [← mul_assoc, this, one_mul]
    rw [hp]
    simp
    ring

end Trv.Bis

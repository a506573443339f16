import Verif.Spec.WeightDist
import Verif.Props.SameParticles
import Verif.Props.Units
/-
C160: raw measurements and normalisations depend on the total sample weight of coincident particles only.
-/
namespace Trv.Two
open Trv.Mesh Trv.Stats

/-! ### Sums over a catalogue -/

theorem weightOf_cons (p : Part) (c : List Part) (q : Part) [Decidable (p.kind = q)] :
    weightOf (p :: c) q = (if p.kind = q then p.ws else 0) + weightOf c q := by
  unfold weightOf
  by_cases h : p.kind = q
  · rw [List.filter_cons_of_pos (by simpa using h), List.map_cons, List.sum_cons, if_pos h]
  · rw [List.filter_cons_of_neg (by simpa using h), if_neg h, zero_add]

theorem sum_kinds {α : Type} [AddCommGroup α] [Module ℝ α] (f : Part → α) (K : Finset Part) (c : List Part)
    (h : ∀ p ∈ c, p.kind ∈ K) :
    (c.map fun p => p.ws • f p.kind).sum = ∑ q ∈ K, weightOf c q • f q := by
  classical
  induction c with
  | nil => simp [weightOf]
  | cons p c ih =>
    rw [List.map_cons, List.sum_cons, ih fun q hq => h q (List.mem_cons_of_mem _ hq)]
    simp only [weightOf_cons, add_smul, Finset.sum_add_distrib, ite_smul, zero_smul]
    rw [Finset.sum_ite_eq, if_pos (h p List.mem_cons_self)]

theorem sum_dist {c c' : List Part} (h : SameDist c c') {α : Type} [AddCommGroup α] [Module ℝ α] (f : Part → α)
    (hf : ∀ p, f p = p.ws • f p.kind) : (c.map f).sum = (c'.map f).sum := by
  classical
  have e : f = fun p => p.ws • f p.kind := funext hf
  rw [e]
  rw [sum_kinds f ((c ++ c').map Part.kind).toFinset c, sum_kinds f ((c ++ c').map Part.kind).toFinset c']
  · exact Finset.sum_congr rfl fun q _ => by rw [h q]
  · intro p hp
    rw [List.mem_toFinset]
    exact List.mem_map_of_mem (List.mem_append_right _ hp)
  · intro p hp
    rw [List.mem_toFinset]
    exact List.mem_map_of_mem (List.mem_append_left _ hp)

theorem field_dist {c c' : List Part} (h : SameDist c c') (sch : Scheme) (M : Mesh ℝ) (f : Part → Mesh.Particle ℝ)
    (hf : ∀ p, f p = scaleP p.ws (f p.kind)) :
    assign sch M (c.map f) = assign sch M (c'.map f) ∧ ∀ il, assignField sch M il (c.map f) = assignField sch M il (c'.map f) := by
  have e : ∀ p, [f p] = [f p.kind].map (scaleP p.ws) := fun p => by rw [List.map_singleton, ← hf]
  have h1 : assign sch M (c.map f) = assign sch M (c'.map f) := by
    funext g b
    rw [(assign_sum sch M f g b c).1, (assign_sum sch M f g b c').1]
    refine sum_dist h _ fun p => ?_
    rw [e, assign_scale]
    rfl
  have h2 : assignShifted sch M (c.map f) = assignShifted sch M (c'.map f) := by
    funext g b
    rw [(assign_sum sch M f g b c).2, (assign_sum sch M f g b c').2]
    refine sum_dist h _ fun p => ?_
    rw [e, assignShifted_scale]
    rfl
  refine ⟨h1, fun il => ?_⟩
  unfold assignField
  rw [h1, h2]

/-! ### Statistics without shot noise -/

/-- The first of two values. -/
noncomputable def Row.raw (r : Row (ℂ × ℂ)) : Row ℂ := ⟨r.bin, r.eff, r.num, r.val.1⟩
noncomputable def Saved.raw (r : Saved (ℂ × ℂ)) : Saved ℂ := ⟨r.num, r.len, r.val.1⟩
noncomputable def binRaw (r : Bin ℝ (ℂ × ℂ)) : Bin ℝ ℂ := ⟨r.num, r.len, r.val.1⟩

theorem accumulate_raw (cpl : ℝ) (M m1 : ℤ) (st : ℕ → Saved (ℂ × ℂ)) (bins : List (Bin ℝ (ℂ × ℂ))) :
    (fun i => (accumulate cpl M m1 st bins i).raw) = accumulate cpl M m1 (fun i => (st i).raw) (bins.map binRaw) := by
  funext i
  have hg : (bins.map binRaw).getD i ⟨0, 0, 0⟩ = binRaw (bins.getD i ⟨0, 0, 0⟩) := by
    rw [List.getD_eq_getElem?_getD, List.getD_eq_getElem?_getD, List.getElem?_map]
    cases bins[i]? <;> rfl
  unfold accumulate
  by_cases h : |cpl| < epsCoupling
  · rw [if_pos h, if_pos h]
  · rw [if_neg h, if_neg h]
    simp only [hg]
    split_ifs <;> rfl

theorem sumOrders_raw (E : Env) (bins : ℤ → ℤ → List (Bin ℝ (ℂ × ℂ))) :
    (fun i => (sumOrders E bins i).raw) = sumOrders E fun M m1 => (bins M m1).map binRaw := by
  unfold sumOrders
  have inner : ∀ (M : ℤ) (l : List ℤ) (st : ℕ → Saved (ℂ × ℂ)),
      (fun i => (l.foldl (fun st m1 => accumulate (coupling2 E E.ELL E.ELL m1 M) M m1 st (bins M m1)) st i).raw) =
      l.foldl (fun st m1 => accumulate (coupling2 E E.ELL E.ELL m1 M) M m1 st ((bins M m1).map binRaw)) (fun i => (st i).raw) := by
    intro M l
    induction l with
    | nil => intro st; rfl
    | cons m l ih =>
      intro st
      rw [List.foldl_cons, List.foldl_cons, ih, accumulate_raw]
  have outer : ∀ (l : List ℤ) (st : ℕ → Saved (ℂ × ℂ)),
      (fun i => (l.foldl (fun st M => (orders E.ELL).foldl (fun st m1 =>
        accumulate (coupling2 E E.ELL E.ELL m1 M) M m1 st (bins M m1)) st) st i).raw) =
      l.foldl (fun st M => (orders E.ELL).foldl (fun st m1 =>
        accumulate (coupling2 E E.ELL E.ELL m1 M) M m1 st ((bins M m1).map binRaw)) st) (fun i => (st i).raw) := by
    intro l
    induction l with
    | nil => intro st; rfl
    | cons m l ih =>
      intro st
      rw [List.foldl_cons, List.foldl_cons, ih, inner]
  exact outer _ _

theorem binOf_raw (centre : ℝ) (l : List (Mode ℝ (ℂ × ℂ))) :
    binRaw (binOf centre l) = binOf centre (l.map fun m => ⟨m.len, m.val.1⟩) := by
  have hs : ∀ l : List (ℂ × ℂ), l.sum.1 = (l.map Prod.fst).sum := by
    intro l
    induction l with
    | nil => rfl
    | cons a l ih => simp [ih]
  unfold binOf
  rw [List.length_map]
  split_ifs
  · rfl
  · simp only [binRaw, List.map_map, Prod.smul_fst, hs]
    rfl

theorem statsFourier_raw (E : Env) (fa fb : ℤ → ℂ) (amp amp' : ℂ) (ell : ℕ) (m : ℤ) :
    (statsFourier E fa fb amp ell m).map binRaw = (statsFourier E fa fb amp' ell m).map binRaw := by
  unfold statsFourier
  simp only [binStats_eq, List.map_map]
  apply List.map_congr_left
  intro b _
  simp only [Function.comp, binOf_raw]
  congr 1
  have hf : ∀ (f : Mode ℝ (ℂ × ℂ) → Bool) (g : Mode ℝ ℂ → Bool) (l : List (Mode ℝ (ℂ × ℂ)))
      (_ : ∀ x, f x = g ⟨x.len, x.val.1⟩), (l.filter f).map (fun m => (⟨m.len, m.val.1⟩ : Mode ℝ ℂ)) =
        (l.map fun m => (⟨m.len, m.val.1⟩ : Mode ℝ ℂ)).filter g := by
    intro f g l hfg
    rw [List.filter_map]
    congr 2
    funext x
    exact hfg x
  have hf' := hf (sel nSample dkSample (E.edges.getD b 0) (E.edges.getD (b + 1) 0))
    (sel nSample dkSample (E.edges.getD b 0) (E.edges.getD (b + 1) 0))
  rw [hf' _ fun _ => rfl, hf' _ fun _ => rfl]
  unfold modes2
  rw [List.map_map, List.map_map]
  rfl

theorem output_raw (E : Env) (norm : ℝ) (st : ℕ → Saved (ℂ × ℂ)) :
    (output E norm st).map Row.raw = output E norm fun i => (st i).raw := by
  unfold output
  rw [List.map_map]
  rfl

end Trv.Two

namespace Trv.Zeta
open Trv.Mesh Trv.Stats Trv.Two Trv.Bis Trv.ThreePt

/-- A line without its shot noise. -/
def noShotZ (r : RowZ) : RowZ := { r with shot := 0 }

theorem stats3_shape (E : Env3) (F F' : Fields) (t : Triplet) (i : ℕ) :
    ((stats3 E F t).getD i ⟨0, 0, 0⟩).num = ((stats3 E F' t).getD i ⟨0, 0, 0⟩).num ∧
    ((stats3 E F t).getD i ⟨0, 0, 0⟩).len = ((stats3 E F' t).getD i ⟨0, 0, 0⟩).len := by
  have h : (stats3 E F t).map (fun b => (b.num, b.len)) = (stats3 E F' t).map fun b => (b.num, b.len) := by
    have hn : ∀ b : Bin ℝ ℂ, ((normalise3 E b).num, (normalise3 E b).len) = (b.num, b.len) := by
      intro b
      unfold normalise3
      simp only
      split_ifs <;> rfl
    unfold stats3 uncoupled3
    simp only [List.map_map, Function.comp_def, hn]
    simp only [binStats_eq, List.map_map]
    apply List.map_congr_left
    intro b _
    have hl : ∀ l l' : List (Mode ℝ ℂ), l.map Mode.len = l'.map Mode.len →
        (l.filter (sel nSample3 drSample3 (E.edges.getD b 0) (E.edges.getD (b + 1) 0))).map Mode.len =
        (l'.filter (sel nSample3 drSample3 (E.edges.getD b 0) (E.edges.getD (b + 1) 0))).map Mode.len := by
      intro l
      induction l with
      | nil =>
        intro l' h
        cases l' with
        | nil => rfl
        | cons _ _ => cases h
      | cons x l ih =>
        intro l' h
        cases l' with
        | nil => cases h
        | cons y l' =>
          rw [List.map_cons, List.map_cons] at h
          injection h with h1 h2
          have hs : sel nSample3 drSample3 (E.edges.getD b 0) (E.edges.getD (b + 1) 0) x =
              sel nSample3 drSample3 (E.edges.getD b 0) (E.edges.getD (b + 1) 0) y := by
            unfold sel
            rw [h1]
          simp only [List.filter_cons, hs]
          split_ifs
          · rw [List.map_cons, List.map_cons, h1, ih _ h2]
          · exact ih _ h2
    have := hl (pairs3 E (F.fLM t.M) F.n00 (F.sbar t.M) t) (pairs3 E (F'.fLM t.M) F'.n00 (F'.sbar t.M) t) (by
      unfold pairs3
      simp only [List.map_map]
      rfl)
    simp only [Function.comp]
    generalize List.filter _ (pairs3 E (F.fLM t.M) _ _ t) = l at *
    generalize List.filter _ (pairs3 E (F'.fLM t.M) _ _ t) = l' at *
    have hlen : l.length = l'.length := by
      have := congrArg List.length this
      simpa using this
    unfold binOf
    rw [hlen]
    split_ifs
    · rfl
    · simp only [this]
  have hi : ∀ l l' : List (Bin ℝ ℂ), l.map (fun b => (b.num, b.len)) = l'.map (fun b => (b.num, b.len)) →
      (l.getD i ⟨0, 0, 0⟩).num = (l'.getD i ⟨0, 0, 0⟩).num ∧ (l.getD i ⟨0, 0, 0⟩).len = (l'.getD i ⟨0, 0, 0⟩).len := by
    intro l l' h
    have := congrArg (fun l => l[i]?) h
    simp only [List.getElem?_map] at this
    rw [List.getD_eq_getElem?_getD, List.getD_eq_getElem?_getD]
    cases h1 : l[i]? with
    | none =>
      cases h2 : l'[i]? with
      | none => exact ⟨rfl, rfl⟩
      | some y => rw [h1, h2] at this; cases this
    | some x =>
      cases h2 : l'[i]? with
      | none => rw [h1, h2] at this; cases this
      | some y =>
        rw [h1, h2] at this
        simp only [Option.map_some, Option.some.injEq, Prod.mk.injEq] at this
        exact this
  exact hi _ _ h

theorem recBin_shape (E : Env3) (F F' : Fields) (ts : List Triplet) (side : Entry → ℤ) (i : ℤ) :
    (recBin E F ts side i).num = (recBin E F' ts side i).num ∧ (recBin E F ts side i).len = (recBin E F' ts side i).len := by
  unfold recBin
  cases ts with
  | nil => exact ⟨rfl, rfl⟩
  | cons t ts =>
    cases recorded E i with
    | none => exact ⟨rfl, rfl⟩
    | some e => exact stats3_shape E F F' t _

theorem measure_raw (E : Env3) (F F' : Fields) (h0 : F.f00 = F'.f00) (hG : F.G = F'.G) (ts : List Triplet) (norm : ℝ) :
    (measure E F ts norm).map (List.map noShotZ) = (measure E F' ts norm).map (List.map noShotZ) := by
  have hz : zetaAdds E F ts = zetaAdds E F' ts := by
    funext t
    unfold zetaAdds zetaComponent
    simp only [(recBin_shape E F F' ts _ _).2, h0, hG]
  unfold measure
  by_cases hc : |E.w3j E.ell1 E.ell2 E.ELL 0 0 0| < epsCoupling
  · rw [if_pos hc, if_pos hc]
  · rw [if_neg hc, if_neg hc]
    by_cases ha : accessOk E ts
    · rw [if_pos ha, if_pos ha]
      simp only [Except.map, List.map_map]
      refine congrArg Except.ok (List.map_congr_left fun i _ => ?_)
      simp only [Function.comp, noShotZ, hz, (recBin_shape E F F' ts _ _).2, (recBin_shape E F F' ts _ _).1]
    · rw [if_neg ha, if_neg ha]

end Trv.Zeta

namespace Trv.Two
open Trv.Mesh Trv.Stats

section
variable {data data' rand rand' : List Part} (hd : SameDist data data') (hr : SameDist rand rand')
include hd hr

theorem alpha_dist : alphaOf data rand = alphaOf data' rand' := by
  unfold alphaOf wsTotal
  rw [sum_dist hd _ fun p => by simp [Part.kind], sum_dist hr _ fun p => by simp [Part.kind]]

omit hd in
theorem ylm_dist (E : Env) (ell : ℕ) (m : ℤ) (il : Bool) : assignField E.sch E.mesh il (ylmWeights E ell m rand) =
    assignField E.sch E.mesh il (ylmWeights E ell m rand') := by
  unfold ylmWeights
  refine (field_dist hr E.sch E.mesh _ fun p => ?_).2 il
  simp only [scaleP, Part.w, Part.kind, Particle.mk.injEq, true_and]
  funext b
  cases b <;> simp <;> ring

theorem dn_dist (E : Env) : dnField E data rand = dnField E data' rand' := by
  funext alpha ell m
  unfold dnField ylmFieldTwo
  rw [ylm_dist hd, ylm_dist hr]

omit hd in
theorem norm_dist : normParticles rand = normParticles rand' ∧ Bis.normParticles3 rand = Bis.normParticles3 rand' := by
  constructor
  · funext alpha
    unfold normParticles
    rw [sum_dist hr _ fun p => by simp [Part.kind, mul_assoc]]
  · funext alpha
    unfold Bis.normParticles3
    rw [sum_dist hr _ fun p => by simp [Part.kind, mul_assoc]]

omit hd in
theorem real_dist (E : Env) (off : Fin 3 → ℝ) : assign E.sch E.mesh (realWeights off rand) =
    assign E.sch E.mesh (realWeights off rand') := by
  unfold realWeights
  refine (field_dist hr E.sch E.mesh _ fun p => ?_).1
  simp only [scaleP, Part.w, Part.kind, Particle.mk.injEq, true_and]
  funext b
  cases b <;> simp

omit hd in
theorem mesh_dist (E : Env) : powlawNorm E rand = powlawNorm E rand' := by
  funext n
  unfold powlawNorm
  rw [real_dist hr]

theorem meshes_dist (E : Env) (offD offR : Fin 3 → ℝ) : normMeshes E offD offR data rand = normMeshes E offD offR data' rand' := by
  funext alpha
  unfold normMeshes
  rw [real_dist hd, real_dist hr]

/-- **C160 (normalisation).** However the sample weight is divided among coincident particles, the normalisation factors are the
same. -/
theorem C160_normalisation (E En : Env) (offD offR : Fin 3 → ℝ) (t : CatType) (conv : Convention) :
    driverNorm E En offD offR t conv data rand = driverNorm E En offD offR t conv data' rand' ∧
    Bis.driverNorm3 E conv data rand = Bis.driverNorm3 E conv data' rand' := by
  have a := alpha_dist hd hr
  have m1 := mesh_dist hr
  have m2 := mesh_dist hd
  constructor
  · unfold driverNorm normMesh
    cases t <;> simp only [a, (norm_dist hr).1, (norm_dist hd).1, m1, m2, meshes_dist hd hr]
  · unfold Bis.driverNorm3 Bis.normMesh3
    simp only [a, (norm_dist hr).2, m1]

/-- **C160 (power spectrum).** Likewise the raw power spectrum, with its wavenumbers and counts of modes. -/
theorem C160_powspec (E : Env) (norm : ℝ) :
    (computePowspec E data rand norm).map Row.raw = (computePowspec E data' rand' norm).map Row.raw := by
  unfold computePowspec
  simp only [output_raw, sumOrders_raw]
  rw [alpha_dist hd hr, dn_dist hd hr]
  exact congrArg (fun b => output E norm (sumOrders E b))
    (funext fun M => funext fun m1 => statsFourier_raw _ _ _ _ _ _ _)

theorem g_dist (E : Bis.Env3) : Bis.gField E data rand = Bis.gField E data' rand' := by
  funext alpha M
  unfold Bis.gField
  rw [dn_dist hd hr]

/-- **C160 (bispectrum).** Likewise the raw bispectrum, or its failure. -/
theorem C160_bispec (E : Bis.Env3) (norm : ℝ) :
    (Bis.computeBispec E data rand norm).map (List.map Unit.noShot) =
      (Bis.computeBispec E data' rand' norm).map (List.map Unit.noShot) := by
  have hi : ∀ (alpha : ℝ) (dn : ℤ → ℂ) (t : ThreePt.Triplet),
      (Bis.snAdds E data rand alpha dn t).map Bis.Add.idx = (Bis.snAdds E data' rand' alpha dn t).map Bis.Add.idx := by
    intro alpha dn t
    unfold Bis.snAdds
    simp only [List.map_append]
    simp only [List.map_map, Function.comp_def, apply_ite (List.map Bis.Add.idx), List.map_nil]
  have b1 : Bis.bkAdds E data rand = Bis.bkAdds E data' rand' := by
    funext alpha dn t
    unfold Bis.bkAdds
    rw [g_dist hd hr]
  unfold Bis.computeBispec
  by_cases hc : |E.w3j E.ell1 E.ell2 E.ELL 0 0 0| < epsCoupling
  · rw [if_pos hc, if_pos hc]
  · rw [if_neg hc, if_neg hc]
    simp only
    rw [alpha_dist hd hr, dn_dist hd hr, b1]
    have hidx := Unit.flatMap_idx (l := Bis.triplets E) fun t => hi (alphaOf data' rand')
      (fourier E.mesh (dnField E.toEnv data' rand' (alphaOf data' rand') 0 0)) t
    generalize List.flatMap (Bis.snAdds E data rand _ _) _ = sn at *
    generalize List.flatMap (Bis.snAdds E data' rand' _ _) _ = sn' at *
    generalize List.flatMap (Bis.bkAdds E data' rand' _ _) _ = bk at *
    simp only [Unit.all_idx (show (bk ++ sn).map Bis.Add.idx = (bk ++ sn').map Bis.Add.idx by
      rw [List.map_append, List.map_append, hidx])]
    split_ifs
    · simp only [Except.map, List.map_map]
      refine congrArg Except.ok (List.map_congr_left fun i _ => ?_)
      simp only [Function.comp, Unit.noShot]
    · rfl

/-- **C160 (three-point correlation function).** Likewise the raw three-point correlation function, or its failure. -/
theorem C160_3pcf (E : Bis.Env3) (norm : ℝ) :
    (Zeta.compute3pcf E data rand norm).map (List.map Zeta.noShotZ) =
      (Zeta.compute3pcf E data' rand' norm).map (List.map Zeta.noShotZ) := by
  unfold Zeta.compute3pcf
  apply Zeta.measure_raw
  · unfold Zeta.surveyFields
    simp only [alpha_dist hd hr, dn_dist hd hr]
  · unfold Zeta.surveyFields
    simp only [alpha_dist hd hr, g_dist hd hr]

omit hd in
/-- **C160 (window).** Likewise the raw three-point window function, of any wide-angle order. -/
theorem C160_window (E : Bis.Env3) (alpha norm : ℝ) (wa : Option (ℕ × ℕ)) :
    (Zeta.compute3pcfWindow E rand alpha wa norm).map (List.map Zeta.noShotZ) =
      (Zeta.compute3pcfWindow E rand' alpha wa norm).map (List.map Zeta.noShotZ) := by
  have hn : Zeta.nField E.toEnv rand = Zeta.nField E.toEnv rand' := by
    funext alpha ell m
    unfold Zeta.nField ylmFieldOne
    rw [ylm_dist hr]
  unfold Zeta.compute3pcfWindow
  apply Zeta.measure_raw
  · unfold Zeta.windowFields
    simp only [hn]
  · unfold Zeta.windowFields
    simp only [hn]

end

/-- The particle divided into `n` equal ones. -/
noncomputable def split (n : ℕ) (p : Part) : List Part := List.replicate n { p with ws := p.ws / n }

theorem split_same (n : ℕ) (hn : n ≠ 0) (p : Part) (c : List Part) : SameDist (p :: c) (split n p ++ c) := by
  classical
  have hr : ∀ (k : ℕ) (q : Part) (w : ℝ), weightOf (List.replicate k { p with ws := w } ++ c) q =
      (if p.kind = q then k * w else 0) + weightOf c q := by
    intro k q w
    induction k with
    | zero => simp
    | succ k ih =>
      rw [List.replicate_succ, List.cons_append, weightOf_cons, ih]
      have : Part.kind { p with ws := w } = p.kind := rfl
      rw [this]
      split_ifs
      · push_cast; ring
      · ring
  intro q
  rw [weightOf_cons, split, hr]
  have : (n : ℝ) ≠ 0 := by exact_mod_cast hn
  split_ifs
  · field_simp
  · rfl

/-- **C160 (shot noise).** The shot noise is not the same: a particle divided into `n` equal ones has an `n`-th part of its
contribution to the two-point amplitude, and an `n²`-th to the three-point one. -/
theorem C160_shot (E : Env) (n : ℕ) (hn : n ≠ 0) (p : Part) (ell : ℕ) (m : ℤ) :
    ylmSum E 2 ell m (split n p) = ylmSum E 2 ell m [p] / n ∧ ylmSum E 3 ell m (split n p) = ylmSum E 3 ell m [p] / n ^ 2 := by
  have : (n : ℂ) ≠ 0 := by exact_mod_cast hn
  constructor
  · unfold ylmSum split
    simp only [List.map_replicate, List.sum_replicate, nsmul_eq_mul, List.map_singleton, List.sum_singleton, Part.w]
    push_cast
    field_simp
  · unfold ylmSum split
    simp only [List.map_replicate, List.sum_replicate, nsmul_eq_mul, List.map_singleton, List.sum_singleton, Part.w]
    push_cast
    field_simp

/-- A case: a particle of sample weight two and two particles of weight one. -/
example : SameDist [plainPart 2 3, plainPart 1 1] [plainPart 1 3, plainPart 1 3, plainPart 1 1] := by
  have := split_same 2 (by norm_num) (plainPart 2 3) [plainPart 1 1]
  have e : ({ plainPart 2 3 with ws := (plainPart 2 3).ws / (2 : ℕ) } : Part) = plainPart 1 3 := by
    simp [plainPart]
  unfold split at this
  rw [e] at this
  exact this

end Trv.Two

import Verif.Spec.SameParticles
import Verif.Model.TwoPtWindow
import Verif.Model.Bispec
import Verif.Model.ThreePcf
import Verif.Lemmas.TwoPt
import Verif.Props.Mesh
/-
C159: a measurement depends on the particles with a sample weight only, in whatever order they come.
-/
namespace Trv.Two
open Trv.Mesh

theorem sum_same {c c' : List Part} (h : Same c c') {α : Type} [AddCommMonoid α] (f : Part → α) (hf : ∀ p, p.ws = 0 → f p = 0) :
    (c.map f).sum = (c'.map f).sum := by
  classical
  have key : ∀ l : List Part, (l.map f).sum = ((l.filter fun p => p.ws ≠ 0).map f).sum := by
    intro l
    induction l with
    | nil => rfl
    | cons p l ih =>
      by_cases hp : p.ws = 0
      · rw [List.filter_cons_of_neg (by simpa using hp), List.map_cons, List.sum_cons, hf p hp, zero_add, ih]
      · rw [List.filter_cons_of_pos (by simpa using hp), List.map_cons, List.map_cons, List.sum_cons, List.sum_cons, ih]
  rw [key c, key c']
  unfold Same at h
  have := (h.map f).sum_eq
  convert this

theorem assign_sum (sch : Scheme) (M : Mesh ℝ) (f : Part → Particle ℝ) (g : ℤ) (b : Bool) (c : List Part) :
    assign sch M (c.map f) g b = (c.map fun p => assign sch M [f p] g b).sum ∧
    assignShifted sch M (c.map f) g b = (c.map fun p => assignShifted sch M [f p] g b).sum := by
  induction c with
  | nil =>
    constructor
    · show runUpdates _ g b = _
      rw [runUpdates_apply]
      rfl
    · show runUpdates _ g b = _
      rw [runUpdates_apply]
      rfl
  | cons p c ih =>
    constructor
    · rw [List.map_cons, List.map_cons, List.sum_cons, ← ih.1]
      simp only [assign, allUpdates, runUpdates_apply, List.flatMap_cons, List.flatMap_nil, List.append_nil, List.map_append,
        List.sum_append]
    · rw [List.map_cons, List.map_cons, List.sum_cons, ← ih.2]
      simp only [assignShifted, allUpdatesShifted, runUpdates_apply, List.flatMap_cons, List.flatMap_nil, List.append_nil,
        List.map_append, List.sum_append]

theorem assign_zero (sch : Scheme) (M : Mesh ℝ) {q : Particle ℝ} (h : ∀ b, q.w b = 0) (g : ℤ) (b : Bool) :
    assign sch M [q] g b = 0 ∧ assignShifted sch M [q] g b = 0 := by
  have e : [q] = [q].map (scaleP 0) := by
    simp only [List.map_cons, List.map_nil, scaleP]
    congr 1
    obtain ⟨pos, w⟩ := q
    congr 1
    funext b
    rw [zero_mul]
    exact h b
  rw [e, assign_scale, assignShifted_scale]
  exact ⟨zero_mul _, zero_mul _⟩

theorem field_same {c c' : List Part} (h : Same c c') (sch : Scheme) (M : Mesh ℝ) (f : Part → Particle ℝ)
    (hf : ∀ p, p.ws = 0 → ∀ b, (f p).w b = 0) :
    assign sch M (c.map f) = assign sch M (c'.map f) ∧ ∀ il, assignField sch M il (c.map f) = assignField sch M il (c'.map f) := by
  have h1 : assign sch M (c.map f) = assign sch M (c'.map f) := by
    funext g b
    rw [(assign_sum sch M f g b c).1, (assign_sum sch M f g b c').1]
    exact sum_same h _ fun p hp => (assign_zero sch M (hf p hp) g b).1
  have h2 : assignShifted sch M (c.map f) = assignShifted sch M (c'.map f) := by
    funext g b
    rw [(assign_sum sch M f g b c).2, (assign_sum sch M f g b c').2]
    exact sum_same h _ fun p hp => (assign_zero sch M (hf p hp) g b).2
  refine ⟨h1, fun il => ?_⟩
  unfold assignField
  rw [h1, h2]

section
variable {data data' rand rand' : List Part} (hd : Same data data') (hr : Same rand rand')
include hd hr

theorem alpha_same : alphaOf data rand = alphaOf data' rand' := by
  unfold alphaOf wsTotal
  rw [sum_same hd _ fun _ h => h, sum_same hr _ fun _ h => h]

theorem dn_same (E : Env) : dnField E data rand = dnField E data' rand' ∧ quadField E data rand = quadField E data' rand' := by
  constructor
  · funext alpha ell m
    unfold dnField ylmFieldTwo ylmWeights
    rw [(field_same hd E.sch E.mesh _ (by intro p hp b; cases b <;> simp [Part.w, hp])).2,
      (field_same hr E.sch E.mesh _ (by intro p hp b; cases b <;> simp [Part.w, hp])).2]
  · funext alpha ell m
    unfold quadField quadFieldTwo ylmWeightsQuad
    rw [(field_same hd E.sch E.mesh _ (by intro p hp b; cases b <;> simp [Part.w, hp])).2,
      (field_same hr E.sch E.mesh _ (by intro p hp b; cases b <;> simp [Part.w, hp])).2]

omit hd in
theorem ylmSum_same (E : Env) (n : ℕ) (hn : n ≠ 0) : (fun ell m => ylmSum E n ell m rand) = fun ell m => ylmSum E n ell m rand' := by
  funext ell m
  unfold ylmSum
  exact sum_same hr _ fun p hp => by simp [Part.w, hp, hn]

theorem shot_same (E : Env) : shotAmp2 E data rand = shotAmp2 E data' rand' ∧ shotAmp3 E data rand = shotAmp3 E data' rand' := by
  constructor
  · funext alpha ell m
    unfold shotAmp2
    rw [congrFun (congrFun (ylmSum_same hd E 2 (by norm_num)) ell) m, congrFun (congrFun (ylmSum_same hr E 2 (by norm_num)) ell) m]
  · funext alpha ell m
    unfold shotAmp3
    rw [congrFun (congrFun (ylmSum_same hd E 3 (by norm_num)) ell) m, congrFun (congrFun (ylmSum_same hr E 3 (by norm_num)) ell) m]

omit hd in
theorem norm_same : normParticles rand = normParticles rand' ∧ Bis.normParticles3 rand = Bis.normParticles3 rand' := by
  constructor
  · funext alpha
    unfold normParticles
    rw [sum_same hr _ fun p hp => by simp [hp]]
  · funext alpha
    unfold Bis.normParticles3
    rw [sum_same hr _ fun p hp => by simp [hp]]

omit hd in
theorem mesh_same (E : Env) : powlawNorm E rand = powlawNorm E rand' := by
  funext n
  unfold powlawNorm realWeights
  rw [(field_same hr E.sch E.mesh _ (by intro p hp b; cases b <;> simp [Part.w, hp])).1]

theorem meshes_same (E : Env) (offD offR : Fin 3 → ℝ) : normMeshes E offD offR data rand = normMeshes E offD offR data' rand' := by
  funext alpha
  unfold normMeshes realWeights
  rw [(field_same hd E.sch E.mesh _ (by intro p hp b; cases b <;> simp [Part.w, hp])).1,
    (field_same hr E.sch E.mesh _ (by intro p hp b; cases b <;> simp [Part.w, hp])).1]

/-- **C159 (normalisation).** The normalisation factors are the same for catalogues with the same particles. -/
theorem C159_normalisation (E En : Env) (offD offR : Fin 3 → ℝ) (t : CatType) (conv : Convention) :
    driverNorm E En offD offR t conv data rand = driverNorm E En offD offR t conv data' rand' ∧
    Bis.driverNorm3 E conv data rand = Bis.driverNorm3 E conv data' rand' := by
  have a := alpha_same hd hr
  have m1 := mesh_same hr
  have m2 := mesh_same hd
  constructor
  · unfold driverNorm normMesh
    cases t <;> simp only [a, (norm_same hr).1, (norm_same hd).1, m1, m2, meshes_same hd hr]
  · unfold Bis.driverNorm3 Bis.normMesh3
    simp only [a, (norm_same hr).2, m1]

/-- **C159 (surveys).** Every measurement of a survey is the same for catalogues with the same particles. -/
theorem C159_survey (E : Env) (E3 : Bis.Env3) (norm : ℝ) :
    computePowspec E data rand norm = computePowspec E data' rand' norm ∧
    computeCorrfunc E data rand norm = computeCorrfunc E data' rand' norm ∧
    Bis.computeBispec E3 data rand norm = Bis.computeBispec E3 data' rand' norm ∧
    Zeta.compute3pcf E3 data rand norm = Zeta.compute3pcf E3 data' rand' norm := by
  have a := alpha_same hd hr
  obtain ⟨f1, f2⟩ := dn_same hd hr E
  obtain ⟨s1, s2⟩ := shot_same hd hr E
  obtain ⟨g1, g2⟩ := dn_same hd hr E3.toEnv
  obtain ⟨t1, t2⟩ := shot_same hd hr E3.toEnv
  have gf : Bis.gField E3 data rand = Bis.gField E3 data' rand' := by
    funext alpha M
    unfold Bis.gField
    rw [g1]
  refine ⟨?_, ?_, ?_, ?_⟩
  · unfold computePowspec
    rw [a, f1, s1]
  · unfold computeCorrfunc
    rw [a, f1, s1]
  · have b1 : Bis.bkAdds E3 data rand = Bis.bkAdds E3 data' rand' := by
      funext alpha dn t
      unfold Bis.bkAdds
      rw [gf]
    have b2 : Bis.snAdds E3 data rand = Bis.snAdds E3 data' rand' := by
      funext alpha dn t
      unfold Bis.snAdds
      rw [g1, g2, t2]
    unfold Bis.computeBispec
    rw [a, g1, b1, b2]
  · unfold Zeta.compute3pcf Zeta.surveyFields
    rw [a, g1, g2, gf, t2]

omit hd in
/-- **C159 (windows).** The window functions are the same for catalogues with the same particles. -/
theorem C159_window (E : Env) (E3 : Bis.Env3) (alpha norm : ℝ) (wa : Option (ℕ × ℕ)) :
    computeCorrfuncWindow E rand alpha norm = computeCorrfuncWindow E rand' alpha norm ∧
    Zeta.compute3pcfWindow E3 rand alpha wa norm = Zeta.compute3pcfWindow E3 rand' alpha wa norm := by
  have nf : ∀ E : Env, Zeta.nField E rand = Zeta.nField E rand' := by
    intro E
    funext alpha ell m
    unfold Zeta.nField ylmFieldOne ylmWeights
    rw [(field_same hr E.sch E.mesh _ (by intro p hp b; cases b <;> simp [Part.w, hp])).2]
  have qf : ∀ E : Env, Zeta.quadField1 E rand = Zeta.quadField1 E rand' := by
    intro E
    funext alpha ell m
    unfold Zeta.quadField1 quadFieldOne ylmWeightsQuad
    rw [(field_same hr E.sch E.mesh _ (by intro p hp b; cases b <;> simp [Part.w, hp])).2]
  constructor
  · have s : shotAmp2One E rand = shotAmp2One E rand' := by
      funext alpha ell m
      unfold shotAmp2One
      rw [congrFun (congrFun (ylmSum_same hr E 2 (by norm_num)) ell) m]
    unfold computeCorrfuncWindow
    rw [nf, s]
  · have s : shotAmp3One E3.toEnv rand = shotAmp3One E3.toEnv rand' := by
      funext alpha ell m
      unfold shotAmp3One
      rw [congrFun (congrFun (ylmSum_same hr E3.toEnv 3 (by norm_num)) ell) m]
    unfold Zeta.compute3pcfWindow Zeta.windowFields
    rw [nf, qf, s]

end

/-- **C159 (boxes).** In a periodic box the order of the particles does not matter. -/
theorem C159_box (E : Env) (E3 : Bis.Env3) {pos pos' : List (Fin 3 → ℝ)} (h : pos.Perm pos') (norm : ℝ) :
    computePowspecBox E pos norm = computePowspecBox E pos' norm ∧
    computeCorrfuncBox E pos norm = computeCorrfuncBox E pos' norm ∧
    Zeta.computeBispecBox E3 pos norm = Zeta.computeBispecBox E3 pos' norm ∧
    Zeta.compute3pcfBox E3 pos norm = Zeta.compute3pcfBox E3 pos' norm := by
  have hl := h.length_eq
  have ha : ∀ sch (M : Mesh ℝ) il, assignField sch M il (unweighted pos) = assignField sch M il (unweighted pos') := by
    intro sch M il
    obtain ⟨h1, h2⟩ := C06_particle_order_independent sch M (unweighted pos) (unweighted pos') (h.map _)
    unfold assignField
    rw [h1, h2]
  have hf : ∀ sch (M : Mesh ℝ) il, fluctuations sch M il pos = fluctuations sch M il pos' := by
    intro sch M il
    unfold fluctuations
    rw [ha, hl]
  have hD : Zeta.boxDn E3 pos = Zeta.boxDn E3 pos' := by
    unfold Zeta.boxDn
    rw [hf]
  have hN : Zeta.boxN E3 pos = Zeta.boxN E3 pos' := by
    unfold Zeta.boxN
    rw [ha]
  have hG : Zeta.boxG E3 pos = Zeta.boxG E3 pos' := by
    unfold Zeta.boxG
    rw [hD]
  refine ⟨?_, ?_, ?_, ?_⟩
  · unfold computePowspecBox
    rw [hf, hl]
  · unfold computeCorrfuncBox
    rw [hf, hl]
  · have b1 : Zeta.bkAddsBox E3 pos = Zeta.bkAddsBox E3 pos' := by
      funext t
      unfold Zeta.bkAddsBox
      rw [hD, hG]
    have b2 : Zeta.snAddsBox E3 pos = Zeta.snAddsBox E3 pos' := by
      funext t
      unfold Zeta.snAddsBox
      rw [hD, hN, hl]
    unfold Zeta.computeBispecBox
    rw [b1, b2]
  · unfold Zeta.compute3pcfBox Zeta.boxFields
    rw [hD, hN, hG, hl]

/-- A particle of the examples. -/
def plainPart (ws wc : ℝ) : Part := ⟨fun _ => 1, fun _ => 1, 2, ws, wc⟩

/-- **C159 (violated).** A particle without clustering weight, which is not seen on the mesh, changes the ratio of the
catalogues and with it the normalisation. -/
theorem C159_weightless_violated (E En : Env) (offD offR : Fin 3 → ℝ) :
    (∀ (alpha : ℝ) (ell : ℕ) (m : ℤ), dnField E [plainPart 1 1, plainPart 1 0] [plainPart 1 1] alpha ell m =
      dnField E [plainPart 1 1] [plainPart 1 1] alpha ell m) ∧
    driverNorm E En offD offR .survey .particle [plainPart 1 1] [plainPart 1 1] = .ok (1 / 2) ∧
    driverNorm E En offD offR .survey .particle [plainPart 1 1, plainPart 1 0] [plainPart 1 1] = .ok (1 / 4) := by
  refine ⟨?_, ?_, ?_⟩
  · intro alpha ell m
    have h : ∀ il, assignField E.sch E.mesh il (ylmWeights E ell m [plainPart 1 1, plainPart 1 0]) =
        assignField E.sch E.mesh il (ylmWeights E ell m [plainPart 1 1]) := by
      intro il
      have h1 : assign E.sch E.mesh (ylmWeights E ell m [plainPart 1 1, plainPart 1 0]) =
          assign E.sch E.mesh (ylmWeights E ell m [plainPart 1 1]) := by
        funext g b
        unfold ylmWeights
        rw [(assign_sum _ _ _ g b _).1, (assign_sum _ _ _ g b _).1]
        simp only [List.map_cons, List.map_nil, List.sum_cons, List.sum_nil]
        rw [(assign_zero E.sch E.mesh (q := ⟨(plainPart 1 0).pos, _⟩) (by intro b; cases b <;> simp [Part.w, plainPart]) g b).1]
        simp
      have h2 : assignShifted E.sch E.mesh (ylmWeights E ell m [plainPart 1 1, plainPart 1 0]) =
          assignShifted E.sch E.mesh (ylmWeights E ell m [plainPart 1 1]) := by
        funext g b
        unfold ylmWeights
        rw [(assign_sum _ _ _ g b _).2, (assign_sum _ _ _ g b _).2]
        simp only [List.map_cons, List.map_nil, List.sum_cons, List.sum_nil]
        rw [(assign_zero E.sch E.mesh (q := ⟨(plainPart 1 0).pos, _⟩) (by intro b; cases b <;> simp [Part.w, plainPart]) g b).2]
        simp
      unfold assignField
      rw [h1, h2]
    unfold dnField ylmFieldTwo
    rw [h]
  · simp [driverNorm, normParticles, alphaOf, wsTotal, plainPart]
  · simp [driverNorm, normParticles, alphaOf, wsTotal, plainPart]
    norm_num

/-- Two orders of a catalogue, one with a particle without sample weight. -/
theorem exSame : Same [plainPart 1 1, plainPart 0 3, plainPart 2 1] [plainPart 2 1, plainPart 1 1] := by
  simp [Same, plainPart]
  exact List.Perm.swap _ _ _

example (E : Env) (norm : ℝ) :
    computePowspec E [plainPart 1 1, plainPart 0 3, plainPart 2 1] [plainPart 1 1, plainPart 0 3, plainPart 2 1] norm =
      computePowspec E [plainPart 2 1, plainPart 1 1] [plainPart 2 1, plainPart 1 1] norm :=
  (C159_survey exSame exSame E ⟨E, 0, 0, .full, fun _ _ => 0⟩ norm).1

end Trv.Two

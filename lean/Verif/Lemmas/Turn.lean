import Verif.Spec.Turn
import Verif.Props.Legendre
import Verif.Props.BispecLegendre
/-
Lemmas on the exchange of axes.
-/
namespace Trv.Zeta
open Trv.Mesh Trv.Stats Trv.Win Trv.Two Trv.ThreePt Trv.Bis

/-- The indices of a cell. -/
def idx (c : ℤ × ℤ × ℤ) : Fin 3 → ℤ := ![c.1, c.2.1, c.2.2]

/-- A cell with the axes exchanged. -/
def turnCell (s : Equiv.Perm (Fin 3)) (c : ℤ × ℤ × ℤ) : ℤ × ℤ × ℤ := (idx c (s 0), idx c (s 1), idx c (s 2))

theorem idx_turn (s : Equiv.Perm (Fin 3)) (c : ℤ × ℤ × ℤ) (a : Fin 3) : idx (turnCell s c) a = idx c (s a) := by
  fin_cases a <;> rfl

theorem idx_ext {c d : ℤ × ℤ × ℤ} (h : ∀ a, idx c a = idx d a) : c = d :=
  Prod.ext (h 0) (Prod.ext (h 1) (h 2))

theorem turn_back (s : Equiv.Perm (Fin 3)) (c : ℤ × ℤ × ℤ) : turnCell s⁻¹ (turnCell s c) = c := by
  apply idx_ext
  intro a
  rw [idx_turn, idx_turn]
  simp

theorem turn_forth (s : Equiv.Perm (Fin 3)) (c : ℤ × ℤ × ℤ) : turnCell s (turnCell s⁻¹ c) = c := by
  apply idx_ext
  intro a
  rw [idx_turn, idx_turn]
  simp

theorem sum3 {A : Type} [AddCommMonoid A] (s : Equiv.Perm (Fin 3)) (g : Fin 3 → A) :
    g (s 0) + g (s 1) + g (s 2) = g 0 + g 1 + g 2 := by
  rw [← Fin.sum_univ_three, ← Fin.sum_univ_three fun a => g (s a)]
  exact Equiv.sum_comp s g

theorem prod3 {A : Type} [CommMonoid A] (s : Equiv.Perm (Fin 3)) (g : Fin 3 → A) :
    g (s 0) * g (s 1) * g (s 2) = g 0 * g 1 * g 2 := by
  rw [← Fin.prod_univ_three, ← Fin.prod_univ_three fun a => g (s a)]
  exact Equiv.prod_comp s g

theorem forall3 (s : Equiv.Perm (Fin 3)) (P : Fin 3 → Prop) : (∀ a, P (s a)) ↔ ∀ a, P a :=
  s.forall_congr_left (p := fun a => P (s a)) |>.trans (by simp)

theorem mem_box_idx {n : Fin 3 → ℤ} {c : ℤ × ℤ × ℤ} : c ∈ box n ↔ ∀ a, 0 ≤ idx c a ∧ idx c a < n a := by
  rw [mem_box]
  constructor
  · rintro ⟨h0, h1, h2⟩ a
    fin_cases a
    · exact h0
    · exact h1
    · exact h2
  · intro h
    exact ⟨h 0, h 1, h 2⟩

theorem turn_mem {s : Equiv.Perm (Fin 3)} {n : Fin 3 → ℤ} {c : ℤ × ℤ × ℤ} :
    turnCell s c ∈ box (fun a => n (s a)) ↔ c ∈ box n := by
  rw [mem_box_idx, mem_box_idx]
  simp only [idx_turn]
  exact forall3 s fun a => 0 ≤ idx c a ∧ idx c a < n a

theorem sum_turn {A : Type} [AddCommMonoid A] (s : Equiv.Perm (Fin 3)) (n : Fin 3 → ℤ) (f : ℤ × ℤ × ℤ → A) :
    ∑ x ∈ box (fun a => n (s a)), f x = ∑ x ∈ box n, f (turnCell s x) := by
  refine Finset.sum_nbij' (turnCell s⁻¹) (turnCell s) ?_ ?_ ?_ ?_ ?_
  · intro x hx
    rw [← turn_forth s x] at hx
    exact turn_mem.1 hx
  · intro x hx
    exact turn_mem.2 hx
  · intro x _; exact turn_forth s x
  · intro x _; exact turn_back s x
  · intro x _; rw [turn_forth]

theorem gridVec_idx (n : Fin 3 → ℤ) (d : Fin 3 → ℝ) (c : ℤ × ℤ × ℤ) (a : Fin 3) :
    gridVec n d c a = if idx c a < n a / 2 then idx c a * d a else (idx c a - n a : ℤ) * d a := by
  fin_cases a <;> rfl

theorem gridVec_turn (s : Equiv.Perm (Fin 3)) (n : Fin 3 → ℤ) (d : Fin 3 → ℝ) (c : ℤ × ℤ × ℤ) :
    gridVec (fun a => n (s a)) (fun a => d (s a)) (turnCell s c) = turnVec s (gridVec n d c) := by
  funext a
  unfold turnVec
  rw [gridVec_idx, gridVec_idx, idx_turn]

theorem kvec_turn (s : Equiv.Perm (Fin 3)) (M : Mesh ℝ) (c : ℤ × ℤ × ℤ) :
    kvec (turnMesh s M) (turnCell s c) = turnVec s (kvec M c) := gridVec_turn s M.n (fun a => 2 * Real.pi / M.L a) c

theorem rvec_turn (s : Equiv.Perm (Fin 3)) (M : Mesh ℝ) (c : ℤ × ℤ × ℤ) :
    rvec (turnMesh s M) (turnCell s c) = turnVec s (rvec M c) := gridVec_turn s M.n (fun a => M.L a / M.n a) c

theorem mag_turn (s : Equiv.Perm (Fin 3)) (v : Fin 3 → ℝ) : mag (turnVec s v) = mag v :=
  congrArg Real.sqrt (sum3 s fun a => v a ^ 2)

theorem dot_turn (s : Equiv.Perm (Fin 3)) (u v : Fin 3 → ℝ) : dot (turnVec s u) (turnVec s v) = dot u v :=
  sum3 s fun a => u a * v a

theorem turn_zero (s : Equiv.Perm (Fin 3)) (v : Fin 3 → ℝ) : turnVec s v = 0 ↔ v = 0 := by
  rw [funext_iff, funext_iff]
  exact forall3 s fun a => v a = 0

theorem legAngle_turn (s : Equiv.Perm (Fin 3)) (l : ℕ) (u v : Fin 3 → ℝ) :
    legAngle l (turnVec s u) (turnVec s v) = legAngle l u v := by
  unfold legAngle
  simp only [dot_turn, mag_turn, turn_zero]

theorem volCell_turn (s : Equiv.Perm (Fin 3)) (M : Mesh ℝ) : (turnMesh s M).volCell = M.volCell := by
  unfold Mesh.volCell Mesh.nmesh
  have h1 : (turnMesh s M).L 0 * (turnMesh s M).L 1 * (turnMesh s M).L 2 = M.L 0 * M.L 1 * M.L 2 := prod3 s M.L
  have h2 : (turnMesh s M).n 0 * (turnMesh s M).n 1 * (turnMesh s M).n 2 = M.n 0 * M.n 1 * M.n 2 := prod3 s M.n
  rw [h1, h2]

theorem nmesh_turn (s : Equiv.Perm (Fin 3)) (M : Mesh ℝ) : (turnMesh s M).nmesh = M.nmesh := prod3 s M.n

theorem vol_turn (s : Equiv.Perm (Fin 3)) (M : Mesh ℝ) : vol (turnMesh s M) = vol M := prod3 s M.L

theorem valid_turn {s : Equiv.Perm (Fin 3)} {M : Mesh ℝ} (h : M.Valid) : (turnMesh s M).Valid := fun a => h (s a)

/-! ### Transforms -/

theorem phase3_turn (s : Equiv.Perm (Fin 3)) (n : Fin 3 → ℤ) (t : ℤ) (c x : ℤ × ℤ × ℤ) :
    phase3 (fun a => n (s a)) t (turnCell s c) (turnCell s x) = phase3 n t c x :=
  congrArg (fun z : ℂ => Complex.exp (2 * Real.pi * Complex.I * t * z))
    (sum3 s fun a => ((idx c a * idx x a : ℤ) : ℂ) / (n a : ℂ))

theorem halfShift_turn (s : Equiv.Perm (Fin 3)) (n : Fin 3 → ℤ) (c : ℤ × ℤ × ℤ) :
    halfShift (fun a => n (s a)) (turnCell s c) = halfShift n c :=
  sum3 s fun a => if idx c a < n a / 2 then (idx c a : ℝ) / n a else (idx c a : ℝ) / n a - 1

theorem dft_turn {s : Equiv.Perm (Fin 3)} {n : Fin 3 → ℤ} (hn : ∀ a, 0 < n a) (t : ℤ) {f f' : ℤ → ℂ}
    (h : ∀ x ∈ box n, f' (gid (fun a => n (s a)) (turnCell s x)) = f (gid n x)) {c : ℤ × ℤ × ℤ} (hc : c ∈ box n) :
    dft (fun a => n (s a)) t f' (gid (fun a => n (s a)) (turnCell s c)) = dft n t f (gid n c) := by
  rw [dft_eq, dft_eq, cellOf_gid hn hc, cellOf_gid (fun a => hn (s a)) (turn_mem.2 hc), sum_turn]
  apply Finset.sum_congr rfl
  intro x hx
  rw [h x hx, phase3_turn]

/-- A grid with the axes exchanged. -/
def TurnedGrid (s : Equiv.Perm (Fin 3)) (n : Fin 3 → ℤ) (f f' : Grid ℝ) : Prop :=
  ∀ x ∈ box n, ∀ b, f' (gid (fun a => n (s a)) (turnCell s x)) b = f (gid n x) b

/-- A field and its companion with the axes exchanged. -/
def TurnedField (s : Equiv.Perm (Fin 3)) (n : Fin 3 → ℤ) (F F' : MeshField ℝ) : Prop :=
  TurnedGrid s n F.field F'.field ∧
    ((F.fieldS = none ∧ F'.fieldS = none) ∨
      ∃ g g', F.fieldS = some g ∧ F'.fieldS = some g' ∧ TurnedGrid s n g g')

theorem fourier_turn (s : Equiv.Perm (Fin 3)) {M : Mesh ℝ} (hn : ∀ a, 0 < M.n a) {F F' : MeshField ℝ}
    (h : TurnedField s M.n F F') {c : ℤ × ℤ × ℤ} (hc : c ∈ box M.n) :
    fourier (turnMesh s M) F' (gid (turnMesh s M).n (turnCell s c)) = fourier M F (gid M.n c) := by
  have key : ∀ f f' : Grid ℝ, TurnedGrid s M.n f f' →
      dft (turnMesh s M).n (-1) (fun g => cplx f' g * ((turnMesh s M).volCell : ℂ))
          (gid (turnMesh s M).n (turnCell s c)) =
        dft M.n (-1) (fun g => cplx f g * (M.volCell : ℂ)) (gid M.n c) := by
    intro f f' hf
    refine dft_turn hn (-1) ?_ hc
    intro x hx
    unfold cplx
    rw [volCell_turn, hf x hx, hf x hx]
  have hce : cellOf (turnMesh s M).n (gid (turnMesh s M).n (turnCell s c)) = turnCell s c :=
    cellOf_gid (fun a => hn (s a)) (turn_mem.2 hc)
  have hh : halfShift (turnMesh s M).n (turnCell s c) = halfShift M.n c := halfShift_turn s M.n c
  obtain ⟨f, S⟩ := F
  obtain ⟨f', S'⟩ := F'
  obtain ⟨hm, ⟨h1, h2⟩ | ⟨g, g', h1, h2, h3⟩⟩ := h
  · simp only at hm h1 h2
    subst h1; subst h2
    exact key f f' hm
  · simp only at hm h1 h2
    subst h1; subst h2
    unfold fourier
    simp only
    rw [key f f' hm, key g g' h3, hce, hh, cellOf_gid hn hc]

theorem badShift_turn {s : Equiv.Perm (Fin 3)} {E : Two.Env} {x : Fin 3 → ℝ}
    (h : ∀ ax, ¬ BadShift E.sch (E.mesh.n ax) (E.mesh.L ax) (x ax)) (ax : Fin 3) :
    ¬ BadShift E.sch ((turnMesh s E.mesh).n ax) ((turnMesh s E.mesh).L ax) (turnVec s x ax) := h (s ax)

/-- Particles with the axes exchanged. -/
def turnParticle (s : Equiv.Perm (Fin 3)) (p : Particle ℝ) : Particle ℝ := ⟨turnVec s p.pos, p.w⟩

theorem assign_turn (s : Equiv.Perm (Fin 3)) (sch : Scheme) {M : Mesh ℝ} (hM : M.Valid) (il : Bool)
    (ps : List (Particle ℝ)) (hp : ∀ p ∈ ps, InBox M p)
    (hg : il = true → ∀ p ∈ ps, ∀ ax, ¬ BadShift sch (M.n ax) (M.L ax) (p.pos ax)) :
    TurnedField s M.n (assignField sch M il ps) (assignField sch (turnMesh s M) il (ps.map (turnParticle s))) := by
  have hp' : ∀ p ∈ ps.map (turnParticle s), InBox (turnMesh s M) p := by
    intro q hq
    obtain ⟨p, hp1, rfl⟩ := List.mem_map.1 hq
    exact fun ax => hp p hp1 (s ax)
  refine ⟨?_, ?_⟩
  · intro x hx b
    have hx' : turnCell s x ∈ box (turnMesh s M).n := turn_mem.2 hx
    refine (C05_assignment_is_kernel_sum sch (turnMesh s M) (valid_turn hM) _ hp' _ _ _ (mem_box.1 hx') b).trans ?_
    refine Eq.trans ?_ (C05_assignment_is_kernel_sum sch M hM ps hp _ _ _ (mem_box.1 hx) b).symm
    rw [List.map_map]
    congr 1
    apply List.map_congr_left
    intro p _
    have := prod3 s fun a => deposit sch (M.n a) (M.n a * p.pos a / M.L a) (idx x a)
    simp only [Function.comp]
    rw [volCell_turn, mul_assoc, mul_assoc, ← mul_assoc (deposit _ _ _ _)]
    conv_rhs => rw [mul_assoc, mul_assoc, ← mul_assoc (deposit _ _ _ _)]
    exact congrArg (fun z => p.w b / M.volCell * z) this
  · cases il with
    | false => exact Or.inl ⟨rfl, rfl⟩
    | true =>
      refine Or.inr ⟨_, _, rfl, rfl, ?_⟩
      intro x hx b
      have hx' : turnCell s x ∈ box (turnMesh s M).n := turn_mem.2 hx
      have hg' : ∀ p ∈ ps.map (turnParticle s), ∀ ax,
          ¬ BadShift sch ((turnMesh s M).n ax) ((turnMesh s M).L ax) (p.pos ax) := by
        intro q hq
        obtain ⟨p, hp1, rfl⟩ := List.mem_map.1 hq
        exact fun ax => hg rfl p hp1 (s ax)
      refine ((C07_interlaced_conserves_partial sch (turnMesh s M) (valid_turn hM) _ hp' hg' b).2 _ _ _
        (mem_box.1 hx')).trans ?_
      refine Eq.trans ?_ ((C07_interlaced_conserves_partial sch M hM ps hp (hg rfl) b).2 _ _ _ (mem_box.1 hx)).symm
      rw [List.map_map]
      congr 1
      apply List.map_congr_left
      intro p _
      have := prod3 s fun a => deposit sch (M.n a) (M.n a * p.pos a / M.L a + 1 / 2) (idx x a)
      simp only [Function.comp]
      rw [volCell_turn, mul_assoc, mul_assoc, ← mul_assoc (deposit _ _ _ _)]
      conv_rhs => rw [mul_assoc, mul_assoc, ← mul_assoc (deposit _ _ _ _)]
      exact congrArg (fun z => p.w b / M.volCell * z) this

theorem unitMode_turn (s : Equiv.Perm (Fin 3)) {E : Two.Env} (hM : E.mesh.Valid) {x : Fin 3 → ℝ}
    (hx : PosInBox E.mesh x)
    (hg : E.interlace = true → ∀ ax, ¬ BadShift E.sch (E.mesh.n ax) (E.mesh.L ax) (x ax)) {c : ℤ × ℤ × ℤ}
    (hc : c ∈ box E.mesh.n) :
    unitMode (turnEnv s E) (turnVec s x) (turnCell s c) = unitMode E x c := by
  have h := assign_turn s E.sch hM E.interlace [⟨x, fun b => if b then 0 else 1⟩]
    (by intro p hp; rw [List.mem_singleton.1 hp]; exact hx)
    (by intro hi p hp; rw [List.mem_singleton.1 hp]; exact hg hi)
  exact fourier_turn s (fun a => (hM a).1) h hc

theorem fluctuations_turn (s : Equiv.Perm (Fin 3)) {E : Two.Env} (hM : E.mesh.Valid) {pos : List (Fin 3 → ℝ)}
    (hp : Placed E pos) {c : ℤ × ℤ × ℤ} (hc : c ∈ box E.mesh.n) :
    fourier (turnMesh s E.mesh) (fluctuations E.sch (turnMesh s E.mesh) E.interlace (pos.map (turnVec s)))
        (gid (turnMesh s E.mesh).n (turnCell s c)) =
      fourier E.mesh (fluctuations E.sch E.mesh E.interlace pos) (gid E.mesh.n c) := by
  apply fourier_turn s (fun a => (hM a).1) _ hc
  have h := assign_turn s E.sch hM E.interlace (unweighted pos)
    (by
      intro p hq
      obtain ⟨x, hx, rfl⟩ := List.mem_map.1 hq
      exact hp.inBox x hx)
    (by
      intro hi p hq
      obtain ⟨x, hx, rfl⟩ := List.mem_map.1 hq
      exact hp.good hi x hx)
  have hu : (unweighted pos).map (turnParticle s) = unweighted (pos.map (turnVec s)) := by
    unfold unweighted
    rw [List.map_map, List.map_map]
    rfl
  rw [hu] at h
  refine ⟨?_, h.2⟩
  intro x hx b
  have hr := gid_range hx
  have hr' : 0 ≤ gid (turnMesh s E.mesh).n (turnCell s x) ∧
      gid (turnMesh s E.mesh).n (turnCell s x) < (turnMesh s E.mesh).nmesh :=
    gid_range (turn_mem.2 hx : turnCell s x ∈ box (turnMesh s E.mesh).n)
  have e := h.1 x hx b
  have hv : (turnMesh s E.mesh).L 0 * (turnMesh s E.mesh).L 1 * (turnMesh s E.mesh).L 2 =
      E.mesh.L 0 * E.mesh.L 1 * E.mesh.L 2 := prod3 s E.mesh.L
  unfold fluctuations
  simp only
  rw [if_pos (show 0 ≤ gid (fun a => E.mesh.n (s a)) (turnCell s x) ∧
    gid (fun a => E.mesh.n (s a)) (turnCell s x) < (turnMesh s E.mesh).nmesh from hr'), if_pos (show 0 ≤ gid E.mesh.n x ∧ gid E.mesh.n x < E.mesh.nmesh from hr), hv, List.length_map]
  cases b
  · simp only [Bool.false_eq_true, if_false]
    exact congrArg (fun z => z - _) e
  · exact e

/-! ### Windows -/

theorem windowFresh_turn (s : Equiv.Perm (Fin 3)) (n : Fin 3 → ℤ) (c : ℤ × ℤ × ℤ) (o : ℕ) :
    windowFresh (fun a => n (s a)) (turnCell s c).1 (turnCell s c).2.1 (turnCell s c).2.2 o =
      windowFresh n c.1 c.2.1 c.2.2 o :=
  congrArg (fun z : ℝ => z ^ o) (prod3 s fun a => sincAxis (n a) (shiftIndex (n a) (idx c a)))

theorem alias_turn (s : Equiv.Perm (Fin 3)) (E : Two.Env) (c : ℤ × ℤ × ℤ) :
    (turnEnv s E).alias_ (turnCell s c) = E.alias_ c := by
  have h1 : aliasing E.sch (fun a => E.mesh.n (s a)) (turnCell s c).1 (turnCell s c).2.1 (turnCell s c).2.2 =
      aliasing E.sch E.mesh.n c.1 c.2.1 c.2.2 :=
    prod3 s fun a => aliasAxis E.sch (sin2Axis (E.mesh.n a) (idx c a))
  have h2 : uHalf (fun a => E.mesh.n (s a)) (turnCell s c).1 (turnCell s c).2.1 (turnCell s c).2.2 =
      uHalf E.mesh.n c.1 c.2.1 c.2.2 :=
    congrArg (fun z : ℝ => Real.sqrt z / 2) (sum3 s fun a =>
      (Real.pi * shiftIndex (E.mesh.n a) (idx c a) / E.mesh.n a) *
        (Real.pi * shiftIndex (E.mesh.n a) (idx c a) / E.mesh.n a))
  have h3 : aliasingInterlaced E.sch (fun a => E.mesh.n (s a)) (turnCell s c).1 (turnCell s c).2.1 (turnCell s c).2.2 =
      aliasingInterlaced E.sch E.mesh.n c.1 c.2.1 c.2.2 := by
    unfold aliasingInterlaced
    rw [h2]
  unfold Env.alias_
  show (if E.interlace then aliasingInterlaced E.sch (fun a => E.mesh.n (s a)) _ _ _
    else aliasing E.sch (fun a => E.mesh.n (s a)) _ _ _) = _
  rw [h1, h3]

theorem win_turn (s : Equiv.Perm (Fin 3)) (E : Two.Env) (c : ℤ × ℤ × ℤ) :
    (turnEnv s E).win (turnCell s c) = E.win c := by
  unfold Env.win
  rw [alias_turn]
  have := windowFresh_turn s E.mesh.n c (orderOf E.sch)
  have e : windowFresh (turnEnv s E).mesh.n (turnCell s c).1 (turnCell s c).2.1 (turnCell s c).2.2
      (orderOf (turnEnv s E).sch) = windowFresh E.mesh.n c.1 c.2.1 c.2.2 (orderOf E.sch) := this
  rw [e]
  rfl

/-! ### Sums over particles -/

theorem alphaOf_turn (s : Equiv.Perm (Fin 3)) (data rand : List Part) :
    alphaOf (data.map (turnPart s)) (rand.map (turnPart s)) = alphaOf data rand := by
  unfold alphaOf wsTotal
  rw [List.map_map, List.map_map]
  rfl

theorem fluctuation_turn (s : Equiv.Perm (Fin 3)) {E : Two.Env} (hM : E.mesh.Valid) {data rand : List Part}
    (hd : Placed E (data.map Part.pos)) (hr : Placed E (rand.map Part.pos)) {f f' : (Fin 3 → ℝ) → ℝ}
    (hf : ∀ v, f' (turnVec s v) = f v) (alpha : ℝ) {c : ℤ × ℤ × ℤ} (hc : c ∈ box E.mesh.n) :
    fluctuation (turnEnv s E) f' (data.map (turnPart s)) (rand.map (turnPart s)) alpha (turnCell s c) =
      fluctuation E f data rand alpha c := by
  have key : ∀ ps : List Part, Placed E (ps.map Part.pos) →
      ((ps.map (turnPart s)).map fun p => ((f' p.los * p.w : ℝ) : ℂ) * unitMode (turnEnv s E) p.pos (turnCell s c)) =
        ps.map fun p => ((f p.los * p.w : ℝ) : ℂ) * unitMode E p.pos c := by
    intro ps h
    rw [List.map_map]
    apply List.map_congr_left
    intro p hp
    have e1 : unitMode (turnEnv s E) (turnPart s p).pos (turnCell s c) = unitMode E p.pos c :=
      unitMode_turn s hM (h.inBox _ (List.mem_map_of_mem hp)) (fun hi => h.good hi _ (List.mem_map_of_mem hp)) hc
    have e2 : f' (turnPart s p).los = f p.los := hf p.los
    simp only [Function.comp]
    rw [e1, e2]
    rfl
  unfold fluctuation
  rw [key data hd, key rand hr]

theorem selfNoise_turn (s : Equiv.Perm (Fin 3)) (data rand : List Part) {f f' : (Fin 3 → ℝ) → ℝ}
    (hf : ∀ v, f' (turnVec s v) = f v) (alpha : ℝ) :
    selfNoise f' (data.map (turnPart s)) (rand.map (turnPart s)) alpha = selfNoise f data rand alpha := by
  unfold selfNoise
  rw [List.map_map, List.map_map]
  have : ∀ ps : List Part, ps.map ((fun p : Part => f' p.los * p.w ^ 2) ∘ turnPart s) =
      ps.map fun p => f p.los * p.w ^ 2 := by
    intro ps
    apply List.map_congr_left
    intro p _
    exact congrArg (fun z => z * p.w ^ 2) (hf p.los)
  rw [this, this]

/-! ### Bins -/

theorem sum_filter_turn {A : Type} [AddCommMonoid A] (s : Equiv.Perm (Fin 3)) (n : Fin 3 → ℤ)
    (P P' : ℤ × ℤ × ℤ → Prop) [DecidablePred P] [DecidablePred P'] (hP : ∀ c, P' (turnCell s c) ↔ P c) (f : ℤ × ℤ × ℤ → A) :
    ∑ x ∈ (allModes fun a => n (s a)).filter P', f x = ∑ x ∈ (allModes n).filter P, f (turnCell s x) := by
  rw [Finset.sum_filter, Finset.sum_filter, allModes_eq, allModes_eq, sum_turn]
  apply Finset.sum_congr rfl
  intro x _
  simp only [hP]

theorem card_filter_turn (s : Equiv.Perm (Fin 3)) {S S' : Finset (ℤ × ℤ × ℤ)}
    (h : ∀ f : ℤ × ℤ × ℤ → ℕ, ∑ x ∈ S', f x = ∑ x ∈ S, f (turnCell s x)) : S'.card = S.card := by
  simpa using h fun _ => 1

theorem modesIn_turn {A : Type} [AddCommMonoid A] (s : Equiv.Perm (Fin 3)) (E : Two.Env) (i : ℕ)
    (f : ℤ × ℤ × ℤ → A) :
    ∑ x ∈ modesIn (turnEnv s E) i, f x = ∑ x ∈ modesIn E i, f (turnCell s x) := by
  unfold modesIn
  refine sum_filter_turn s E.mesh.n _ _ ?_ f
  intro c
  have : mag (kvec (turnEnv s E).mesh (turnCell s c)) = mag (kvec E.mesh c) := by
    show mag (kvec (turnMesh s E.mesh) (turnCell s c)) = _
    rw [kvec_turn, mag_turn]
  rw [this]
  rfl

theorem sepsIn_turn {A : Type} [AddCommMonoid A] (s : Equiv.Perm (Fin 3)) (E : Two.Env) (i : ℕ)
    (f : ℤ × ℤ × ℤ → A) :
    ∑ x ∈ sepsIn (turnEnv s E) i, f x = ∑ x ∈ sepsIn E i, f (turnCell s x) := by
  unfold sepsIn
  refine sum_filter_turn s E.mesh.n _ _ ?_ f
  intro c
  have : mag (rvec (turnEnv s E).mesh (turnCell s c)) = mag (rvec E.mesh c) := by
    show mag (rvec (turnMesh s E.mesh) (turnCell s c)) = _
    rw [rvec_turn, mag_turn]
  rw [this]
  rfl

theorem binModes_turn {A : Type} [AddCommMonoid A] (s : Equiv.Perm (Fin 3)) (E : Env3) (b : ℤ)
    (f : ℤ × ℤ × ℤ → A) :
    ∑ x ∈ binModes (turnEnv3 s E) b, f x = ∑ x ∈ binModes E b, f (turnCell s x) := by
  unfold binModes
  refine sum_filter_turn s E.mesh.n _ _ ?_ f
  intro c
  have : mag (kvec (turnEnv3 s E).mesh (turnCell s c)) = mag (kvec E.mesh c) := by
    show mag (kvec (turnMesh s E.mesh) (turnCell s c)) = _
    rw [kvec_turn, mag_turn]
  rw [this]
  rfl

theorem meanOver_turn (s : Equiv.Perm (Fin 3)) {S S' : Finset (ℤ × ℤ × ℤ)}
    (hN : ∀ f : ℤ × ℤ × ℤ → ℕ, ∑ x ∈ S', f x = ∑ x ∈ S, f (turnCell s x))
    (hC : ∀ f : ℤ × ℤ × ℤ → ℂ, ∑ x ∈ S', f x = ∑ x ∈ S, f (turnCell s x)) {f f' : ℤ × ℤ × ℤ → ℂ}
    (hf : ∀ c ∈ S, f' (turnCell s c) = f c) : meanOver S' f' = meanOver S f := by
  unfold meanOver
  rw [hC, card_filter_turn s hN, Finset.sum_congr rfl hf]

theorem meanLen_turn (s : Equiv.Perm (Fin 3)) {S S' : Finset (ℤ × ℤ × ℤ)}
    (hN : ∀ f : ℤ × ℤ × ℤ → ℕ, ∑ x ∈ S', f x = ∑ x ∈ S, f (turnCell s x))
    (hC : ∀ f : ℤ × ℤ × ℤ → ℝ, ∑ x ∈ S', f x = ∑ x ∈ S, f (turnCell s x)) {f f' : ℤ × ℤ × ℤ → ℝ}
    (hf : ∀ c ∈ S, f' (turnCell s c) = f c) (z : ℝ) : meanLen S' f' z = meanLen S f z := by
  unfold meanLen
  rw [hC, card_filter_turn s hN, Finset.sum_congr rfl hf]

theorem closed_turn (s : Equiv.Perm (Fin 3)) (n : Fin 3 → ℤ) (a b c : ℤ × ℤ × ℤ) :
    Closed (fun a => n (s a)) (turnCell s a) (turnCell s b) (turnCell s c) ↔ Closed n a b c := by
  have key : ∀ (n : Fin 3 → ℤ) (a b c : ℤ × ℤ × ℤ),
      Closed n a b c ↔ ∀ i, n i ∣ idx a i + idx b i + idx c i := by
    intro n a b c
    constructor
    · rintro ⟨h0, h1, h2⟩ i
      fin_cases i
      · exact h0
      · exact h1
      · exact h2
    · intro h
      exact ⟨h 0, h 1, h 2⟩
  rw [key, key]
  simp only [idx_turn]
  exact forall3 s fun i => n i ∣ idx a i + idx b i + idx c i

theorem meanTriangles_turn (s : Equiv.Perm (Fin 3)) (E : Env3) (row col : ℤ)
    {g g' : ℤ × ℤ × ℤ → ℤ × ℤ × ℤ → ℤ × ℤ × ℤ → ℂ}
    (h : ∀ a ∈ box E.mesh.n, ∀ b ∈ box E.mesh.n, ∀ c ∈ box E.mesh.n,
      g' (turnCell s a) (turnCell s b) (turnCell s c) = g a b c) :
    meanTriangles (turnEnv3 s E) row col g' = meanTriangles E row col g := by
  classical
  have hmem : ∀ (b : ℤ) (c : ℤ × ℤ × ℤ), c ∈ binModes E b → c ∈ box E.mesh.n := by
    intro b c hc
    exact (Finset.mem_filter.1 hc).1
  unfold meanTriangles
  rw [binModes_turn, card_filter_turn s fun f => binModes_turn s E row f,
    card_filter_turn s fun f => binModes_turn s E col f]
  congr 1
  apply Finset.sum_congr rfl
  intro a ha
  rw [binModes_turn]
  apply Finset.sum_congr rfl
  intro b hb
  refine (sum_filter_turn s E.mesh.n (Closed E.mesh.n a b)
    (Closed (fun i => E.mesh.n (s i)) (turnCell s a) (turnCell s b)) (fun c => closed_turn s E.mesh.n a b c) _).trans ?_
  apply Finset.sum_congr rfl
  intro c hc
  exact h a (hmem _ _ ha) b (hmem _ _ hb) c (Finset.mem_filter.1 hc).1

theorem special_turn {s : Equiv.Perm (Fin 3)} {E : Two.Env} (h : Special E) : Special (turnEnv s E) := ⟨h.1, h.2⟩

theorem special3_turn {s : Equiv.Perm (Fin 3)} {E : Env3} (h : Special3 E) : Special3 (turnEnv3 s E) :=
  ⟨h.1, h.2, h.3, h.4⟩

theorem goodMesh_turn {s : Equiv.Perm (Fin 3)} {M : Mesh ℝ} (h : GoodMesh M) : GoodMesh (turnMesh s M) :=
  ⟨valid_turn h.valid, fun a => h.even (s a), fun a => h.resolved (s a)⟩

end Trv.Zeta

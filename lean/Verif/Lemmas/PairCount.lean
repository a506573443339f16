import Verif.Lemmas.ThreePcfProps
import Verif.Lemmas.Mesh
/-
Lemmas: on a mesh with nearest-grid-point assignment the correlation of two fields counts pairs of
points.
-/
namespace Trv.Zeta
open Trv.Mesh Trv.Stats Trv.Win Trv.Two Trv.ThreePt Trv.Bis

theorem nearest_mem (M : Mesh ℝ) (hM : M.Valid) (x : Fin 3 → ℝ) : nearest M x ∈ box M.n := by
  rw [mem_box]
  unfold nearest
  exact ⟨⟨Int.emod_nonneg _ (hM 0).1.ne', Int.emod_lt_of_pos _ (hM 0).1⟩,
    ⟨Int.emod_nonneg _ (hM 1).1.ne', Int.emod_lt_of_pos _ (hM 1).1⟩,
    Int.emod_nonneg _ (hM 2).1.ne', Int.emod_lt_of_pos _ (hM 2).1⟩

theorem ngp_stencil {n : ℤ} {loc : ℝ} (h0 : 0 ≤ loc) (h1 : loc < n) :
    ngpAxis n loc = [(⌊loc + 1 / 2⌋ % n, 1)] := by
  obtain ⟨f0, f1⟩ := floor_range h0 h1
  obtain ⟨s0, s1⟩ := fract_bounds loc
  unfold ngpAxis
  simp only [truncInt_of_nonneg h0]
  congr 2
  by_cases h : loc - (⌊loc⌋ : ℝ) ≥ 1 / 2
  · rw [if_pos h, wrapUp f0 f1]
    congr 1
    symm
    rw [Int.floor_eq_iff]
    push_cast
    constructor <;> linarith
  · rw [if_neg h]
    have : ⌊loc + 1 / 2⌋ = ⌊loc⌋ := by
      rw [Int.floor_eq_iff]
      have := not_le.1 h
      constructor <;> linarith
    rw [this, Int.emod_eq_of_lt f0 f1]

theorem loc_range (M : Mesh ℝ) (hM : M.Valid) {p : Particle ℝ} (hp : InBox M p) (a : Fin 3) :
    0 ≤ locMain (M.n a) (M.L a) (p.pos a) ∧ locMain (M.n a) (M.L a) (p.pos a) < M.n a := by
  obtain ⟨h0, h1⟩ := hp a
  obtain ⟨hn, hL⟩ := hM a
  have hn' : (0 : ℝ) < M.n a := by exact_mod_cast hn
  unfold locMain
  refine ⟨div_nonneg (mul_nonneg hn'.le h0) hL.le, ?_⟩
  rw [div_lt_iff₀ hL]
  exact mul_lt_mul_of_pos_left h1 hn'

theorem assign_one (M : Mesh ℝ) (hM : M.Valid) {p : Particle ℝ} (hp : InBox M p)
    {x : ℤ × ℤ × ℤ} (hx : x ∈ box M.n) (b : Bool) :
    runUpdates (particleUpdates .ngp M p) (gid M.n x) b =
      if nearest M p.pos = x then 1 / M.volCell * p.w b else 0 := by
  unfold particleUpdates
  simp only [axisStencil]
  have st : ∀ a, ngpAxis (M.n a) (locMain (M.n a) (M.L a) (p.pos a)) =
      [(⌊M.n a * p.pos a / M.L a + 1 / 2⌋ % M.n a, (1 : ℝ))] := fun a =>
    ngp_stencil (loc_range M hM hp a).1 (loc_range M hM hp a).2
  rw [st 0, st 1, st 2]
  have hm := mem_box.1 (nearest_mem M hM p.pos)
  unfold nearest at hm
  simp only at hm
  obtain ⟨a, c, d⟩ := mem_box.1 hx
  unfold gid
  rw [run_stencils M _ _ _ p.w (by intro y hy; rw [List.mem_singleton] at hy; subst hy; exact hm.1)
    (by intro y hy; rw [List.mem_singleton] at hy; subst hy; exact hm.2.1)
    (by intro y hy; rw [List.mem_singleton] at hy; subst hy; exact hm.2.2) x.1 x.2.1 x.2.2 ⟨a, c, d⟩]
  unfold received nearest
  simp only [List.map_cons, List.map_nil, List.sum_cons, List.sum_nil, add_zero]
  obtain ⟨x1, x2, x3⟩ := x
  simp only [Prod.mk.injEq]
  generalize ⌊M.n 0 * p.pos 0 / M.L 0 + 1 / 2⌋ % M.n 0 = y1
  generalize ⌊M.n 1 * p.pos 1 / M.L 1 + 1 / 2⌋ % M.n 1 = y2
  generalize ⌊M.n 2 * p.pos 2 / M.L 2 + 1 / 2⌋ % M.n 2 = y3
  by_cases h0 : y1 = x1
  · by_cases h1 : y2 = x2
    · by_cases h2 : y3 = x3
      · simp only [h0, h1, h2, and_self, if_true]; ring
      · simp only [h2, and_false, if_false]; ring
    · simp only [h1, and_false, false_and, if_false]; ring
  · simp only [h0, false_and, if_false]; ring

/-- The complex weight of a particle. -/
def cw (p : Particle ℝ) : ℂ := ⟨p.w false, p.w true⟩

theorem assign_ngp (M : Mesh ℝ) (hM : M.Valid) (ps : List (Particle ℝ)) (hp : ∀ p ∈ ps, InBox M p)
    {x : ℤ × ℤ × ℤ} (hx : x ∈ box M.n) :
    cplx (assign .ngp M ps) (gid M.n x) * (M.volCell : ℂ) =
      (ps.map fun p => if nearest M p.pos = x then cw p else 0).sum := by
  have hv := (volCell_mul M hM).2.2
  have hb : ∀ b, assign .ngp M ps (gid M.n x) b =
      (ps.map fun p => if nearest M p.pos = x then 1 / M.volCell * p.w b else 0).sum := by
    intro b
    unfold assign allUpdates
    rw [runUpdates_flatMap]
    congr 1
    apply List.map_congr_left
    intro p h
    exact assign_one M hM (hp p h) hx b
  unfold cplx
  rw [hb, hb]
  clear hb hp
  induction ps with
  | nil =>
    show (⟨0, 0⟩ : ℂ) * _ = 0
    rw [show (⟨0, 0⟩ : ℂ) = 0 from rfl, zero_mul]
  | cons p ps ih =>
    simp only [List.map_cons, List.sum_cons]
    rw [← ih]
    have : ∀ (a b c d : ℝ), (⟨a + c, b + d⟩ : ℂ) = ⟨a, b⟩ + ⟨c, d⟩ := fun _ _ _ _ => rfl
    rw [this, add_mul]
    congr 1
    by_cases h : nearest M p.pos = x
    · simp only [if_pos h]
      have : (⟨1 / M.volCell * p.w false, 1 / M.volCell * p.w true⟩ : ℂ) =
          (1 / M.volCell : ℝ) * cw p := by
        apply Complex.ext
        · rw [Complex.re_ofReal_mul]; rfl
        · rw [Complex.im_ofReal_mul]; rfl
      rw [this]
      push_cast
      field_simp
    · simp only [if_neg h]
      rw [show (⟨0, 0⟩ : ℂ) = 0 from rfl, zero_mul]

theorem sum_box_list {n : Fin 3 → ℤ} (f : ℤ × ℤ × ℤ → ℂ) {α : Type} (l : List α) (c : α → ℤ × ℤ × ℤ)
    (w : α → ℂ) (h : ∀ a ∈ l, c a ∈ box n) :
    ∑ x ∈ box n, (l.map fun a => if c a = x then w a else 0).sum * f x =
      (l.map fun a => w a * f (c a)).sum := by
  induction l with
  | nil => simp
  | cons a l ih =>
    simp only [List.map_cons, List.sum_cons, add_mul]
    rw [Finset.sum_add_distrib, ih fun b hb => h b (List.mem_cons_of_mem _ hb)]
    congr 1
    simp only [ite_mul, zero_mul]
    rw [Finset.sum_ite_eq, if_pos (h a List.mem_cons_self)]

/-- The transform of a catalogue assigned to nearest grid points. -/
theorem dft_assign (M : Mesh ℝ) (hM : M.Valid) (ps : List (Particle ℝ)) (hp : ∀ p ∈ ps, InBox M p)
    {k : ℤ × ℤ × ℤ} (hk : k ∈ box M.n) :
    dft M.n (-1) (fun g => cplx (assign .ngp M ps) g * (M.volCell : ℂ)) (gid M.n k) =
      (ps.map fun p => cw p * phase3 M.n (-1) k (nearest M p.pos)).sum := by
  rw [dft_eq, cellOf_gid (fun a => (hM a).1) hk, Finset.sum_congr rfl fun x hx => by
    rw [assign_ngp M hM ps hp hx]]
  exact sum_box_list (fun x => phase3 M.n (-1) k x) ps (fun p => nearest M p.pos) cw
    fun p _ => nearest_mem M hM _

/-! ### Pairs -/

theorem phase3_pairs {n : Fin 3 → ℤ} (hn : ∀ a, 0 < n a) (a b c : ℤ × ℤ × ℤ) [Decidable (Apart n c a b)] :
    ∑ x ∈ box n, phase3 n (-1) x a * phase3 n 1 x b * phase3 n 1 c x =
      if Apart n c a b then ((n 0 * n 1 * n 2 : ℤ) : ℂ) else 0 := by
  have e : ∀ x : ℤ × ℤ × ℤ, phase3 n (-1) x a * phase3 n 1 x b * phase3 n 1 c x =
      root (n 0) (-(a.1 - b.1 - c.1) * x.1) * (root (n 1) (-(a.2.1 - b.2.1 - c.2.1) * x.2.1) *
        root (n 2) (-(a.2.2 - b.2.2 - c.2.2) * x.2.2)) := by
    intro x
    rw [phase3_eq, phase3_eq, phase3_eq]
    have key : ∀ N s t u v : ℤ, root N (-(s - t - u) * v) =
        root N (-1 * (v * s)) * root N (1 * (v * t)) * root N (1 * (u * v)) := by
      intro N s t u v
      rw [← root_add, ← root_add]
      congr 1
      ring
    rw [key, key, key]
    ring
  simp only [e]
  unfold box
  rw [Finset.sum_product]
  simp only [Finset.sum_product, ← Finset.mul_sum, ← Finset.sum_mul]
  rw [root_sum (hn 0), root_sum (hn 1), root_sum (hn 2)]
  simp only [Int.dvd_neg]
  by_cases h0 : n 0 ∣ a.1 - b.1 - c.1
  · by_cases h1 : n 1 ∣ a.2.1 - b.2.1 - c.2.1
    · by_cases h2 : n 2 ∣ a.2.2 - b.2.2 - c.2.2
      · rw [if_pos h0, if_pos h1, if_pos h2, if_pos (show Apart n c a b from ⟨h0, h1, h2⟩)]; push_cast; ring
      · rw [if_neg h2, if_neg (fun h : Apart n c a b => h2 h.2.2), if_pos h0, if_pos h1]; ring
    · rw [if_neg h1, if_neg (fun h : Apart n c a b => h1 h.2.1), if_pos h0]; ring
  · rw [if_neg h0, if_neg (fun h : Apart n c a b => h0 h.1)]; ring

/-- The weights at a mode. -/
noncomputable def wSum (n : Fin 3 → ℤ) (ps : List Point) (k : ℤ × ℤ × ℤ) : ℂ :=
  ∑ i : Fin ps.length, (ps.get i).w * phase3 n (-1) k (ps.get i).cell
noncomputable def wwSum (n : Fin 3 → ℤ) (ps : List Point) (k : ℤ × ℤ × ℤ) : ℂ :=
  ∑ i : Fin ps.length, ((ps.get i).ww : ℂ) * phase3 n (-1) k (ps.get i).cell

open Classical in
/-- The correlation of the fields of a list of points counts the pairs, and each point with itself at
zero separation, less the amplitude. -/
theorem corr_points (E : Two.Env) (hn : ∀ a, 0 < E.mesh.n a) (hs : E.sch = .ngp) (hi : E.interlace = false)
    (ps : List Point) (fa fb : ℤ → ℂ) (amp : ℂ)
    (hfa : ∀ k ∈ box E.mesh.n, fa (gid E.mesh.n k) = wSum E.mesh.n ps k)
    (hfb : ∀ k ∈ box E.mesh.n, fb (gid E.mesh.n k) = wwSum E.mesh.n ps k)
    {c : ℤ × ℤ × ℤ} (hc : c ∈ box E.mesh.n) :
    corr E fa fb amp c = ((E.mesh.n 0 * E.mesh.n 1 * E.mesh.n 2 : ℤ) : ℂ) / (vol E.mesh : ℂ) *
      (pairCount E.mesh.n ps c + if c = (0, 0, 0) then
        (∑ i : Fin ps.length, (ps.get i).w * ((ps.get i).ww : ℂ)) - amp else 0) := by
  have hw : ∀ x, E.win x = 1 ∧ E.alias_ x = 1 := by
    intro x
    unfold Env.win Env.alias_
    rw [if_neg (by rw [hi]; decide), if_neg (by rw [hi]; decide), hs]
    unfold aliasing aliasAxis
    norm_num
  have apart0 : ∀ a : ℤ × ℤ × ℤ, Apart E.mesh.n c a a ↔ c = (0, 0, 0) := by
    intro a
    obtain ⟨h0, h1, h2⟩ := mem_box.1 hc
    unfold Apart
    have dv : ∀ {N s i : ℤ}, 0 ≤ i → i < N → (N ∣ s - s - i ↔ i = 0) := by
      intro N s i hi hi'
      rw [sub_self, zero_sub, Int.dvd_neg]
      constructor
      · intro h; exact Int.eq_zero_of_abs_lt_dvd h (by rw [abs_lt]; omega)
      · rintro rfl; exact dvd_zero _
    rw [dv h0.1 h0.2, dv h1.1 h1.2, dv h2.1 h2.2]
    constructor
    · rintro ⟨a, b, d⟩; exact Prod.ext a (Prod.ext b d)
    · rintro rfl; exact ⟨rfl, rfl, rfl⟩
  have hamp : ∑ x ∈ box E.mesh.n, phase3 E.mesh.n 1 c x =
      if c = (0, 0, 0) then ((E.mesh.n 0 * E.mesh.n 1 * E.mesh.n 2 : ℤ) : ℂ) else 0 := by
    have := phase3_pairs hn (0, 0, 0) (0, 0, 0) c
    have h1 : ∀ s x, phase3 E.mesh.n s x (0, 0, 0) = 1 := by
      intro s x; rw [phase3_eq]; simp [root_zero]
    simp only [h1, one_mul] at this
    rw [this]
    by_cases h : c = (0, 0, 0)
    · rw [if_pos h, if_pos ((apart0 _).2 h)]
    · rw [if_neg h, if_neg fun h' => h ((apart0 _).1 h')]
  have hpair : ∑ x ∈ box E.mesh.n, wSum E.mesh.n ps x * (starRingEnd ℂ) (wwSum E.mesh.n ps x) *
      phase3 E.mesh.n 1 c x = ((E.mesh.n 0 * E.mesh.n 1 * E.mesh.n 2 : ℤ) : ℂ) *
        ∑ i : Fin ps.length, ∑ j : Fin ps.length, if Apart E.mesh.n c (ps.get i).cell (ps.get j).cell then
          (ps.get i).w * ((ps.get j).ww : ℂ) else 0 := by
    have e : ∀ x ∈ box E.mesh.n, wSum E.mesh.n ps x * (starRingEnd ℂ) (wwSum E.mesh.n ps x) *
        phase3 E.mesh.n 1 c x = ∑ i : Fin ps.length, ∑ j : Fin ps.length,
          (ps.get i).w * ((ps.get j).ww : ℂ) * (phase3 E.mesh.n (-1) x (ps.get i).cell *
            phase3 E.mesh.n 1 x (ps.get j).cell * phase3 E.mesh.n 1 c x) := by
      intro x _
      unfold wSum wwSum
      rw [map_sum, Finset.sum_mul_sum, Finset.sum_mul]
      apply Finset.sum_congr rfl
      intro i _
      rw [Finset.sum_mul]
      apply Finset.sum_congr rfl
      intro j _
      rw [map_mul, Complex.conj_ofReal, phase3_conj]
      rw [show (- -1 : ℤ) = 1 from rfl]
      ring
    rw [Finset.sum_congr rfl e, Finset.sum_comm, Finset.mul_sum]
    apply Finset.sum_congr rfl
    intro i _
    rw [Finset.sum_comm, Finset.mul_sum]
    apply Finset.sum_congr rfl
    intro j _
    rw [← Finset.mul_sum, phase3_pairs hn]
    split_ifs
    · ring
    · ring
  unfold corr
  rw [allModes_eq]
  have e : ∀ x ∈ box E.mesh.n, (fa (gid E.mesh.n x) * (starRingEnd ℂ) (fb (gid E.mesh.n x)) -
      amp * (E.alias_ x : ℂ)) / (E.win x : ℂ) * phase3 E.mesh.n 1 c x =
      wSum E.mesh.n ps x * (starRingEnd ℂ) (wwSum E.mesh.n ps x) * phase3 E.mesh.n 1 c x -
        amp * phase3 E.mesh.n 1 c x := by
    intro x hx
    rw [(hw x).1, (hw x).2, hfa x hx, hfb x hx]
    push_cast
    ring
  rw [Finset.sum_congr rfl e, Finset.sum_sub_distrib, ← Finset.mul_sum, hamp, hpair]
  have hsplit : (∑ i : Fin ps.length, ∑ j : Fin ps.length,
      if Apart E.mesh.n c (ps.get i).cell (ps.get j).cell then (ps.get i).w * ((ps.get j).ww : ℂ) else 0) =
      pairCount E.mesh.n ps c + if c = (0, 0, 0) then
        (∑ i : Fin ps.length, (ps.get i).w * ((ps.get i).ww : ℂ)) else 0 := by
    have h0 : (if c = (0, 0, 0) then (∑ i : Fin ps.length, (ps.get i).w * ((ps.get i).ww : ℂ)) else 0) =
        ∑ i : Fin ps.length, ∑ j : Fin ps.length,
          if i = j then (if c = (0, 0, 0) then (ps.get i).w * ((ps.get j).ww : ℂ) else 0) else 0 := by
      simp only [Finset.sum_ite_eq, Finset.mem_univ, if_true]
      split_ifs
      · rfl
      · simp
    rw [h0]
    unfold pairCount
    rw [← Finset.sum_add_distrib]
    apply Finset.sum_congr rfl
    intro i _
    rw [← Finset.sum_add_distrib]
    apply Finset.sum_congr rfl
    intro j _
    by_cases hij : i = j
    · subst hij
      simp only [ne_eq, not_true_eq_false, false_and, if_false, zero_add, if_true]
      by_cases h : c = (0, 0, 0)
      · rw [if_pos h, if_pos ((apart0 _).2 h)]
      · rw [if_neg h, if_neg fun h' => h ((apart0 _).1 h')]
    · simp only [hij, ne_eq, not_false_eq_true, true_and, if_false, add_zero]
  rw [hsplit]
  split_ifs <;> ring

/-! ### Catalogues -/

theorem list_fin {α : Type} (l : List α) (f : α → ℂ) :
    ∑ i : Fin l.length, f (l.get i) = (l.map f).sum := Fin.sum_univ_fun_getElem l f

theorem wSum_eq (n : Fin 3 → ℤ) (ps : List Point) (k : ℤ × ℤ × ℤ) :
    wSum n ps k = (ps.map fun p => p.w * phase3 n (-1) k p.cell).sum :=
  list_fin ps fun p => p.w * phase3 n (-1) k p.cell

theorem wwSum_eq (n : Fin 3 → ℤ) (ps : List Point) (k : ℤ × ℤ × ℤ) :
    wwSum n ps k = (ps.map fun p => (p.ww : ℂ) * phase3 n (-1) k p.cell).sum :=
  list_fin ps fun p => (p.ww : ℂ) * phase3 n (-1) k p.cell

theorem wSum_append (n : Fin 3 → ℤ) (ps qs : List Point) (k : ℤ × ℤ × ℤ) :
    wSum n (ps ++ qs) k = wSum n ps k + wSum n qs k := by
  rw [wSum_eq, wSum_eq, wSum_eq, List.map_append, List.sum_append]

theorem wwSum_append (n : Fin 3 → ℤ) (ps qs : List Point) (k : ℤ × ℤ × ℤ) :
    wwSum n (ps ++ qs) k = wwSum n ps k + wwSum n qs k := by
  rw [wwSum_eq, wwSum_eq, wwSum_eq, List.map_append, List.sum_append]

/-- All particles are in the box of the mesh. -/
def AllInside (M : Mesh ℝ) (ps : List Part) : Prop := ∀ p ∈ ps, ∀ a, 0 ≤ p.pos a ∧ p.pos a < M.L a

theorem cw_ylm (E : Two.Env) (ell : ℕ) (m : ℤ) (p : Part) :
    cw (⟨p.pos, fun b => if b then (E.ylm ell m p.los).im * p.w else (E.ylm ell m p.los).re * p.w⟩ :
      Particle ℝ) = E.ylm ell m p.los * (p.w : ℂ) := by
  apply Complex.ext
  · rw [Complex.re_mul_ofReal]; rfl
  · rw [Complex.im_mul_ofReal]; rfl

theorem dft_ylm (E : Two.Env) (q : ℕ) (hM : E.mesh.Valid) (ps : List Part) (hp : AllInside E.mesh ps) (a : ℝ) (m : ℤ)
    {k : ℤ × ℤ × ℤ} (hk : k ∈ box E.mesh.n) :
    (a : ℂ) * dft E.mesh.n (-1) (fun g => cplx (assign .ngp E.mesh (ylmWeights E E.ELL m ps)) g *
      (E.mesh.volCell : ℂ)) (gid E.mesh.n k) = wSum E.mesh.n (pointsOf E q a m ps) k := by
  rw [dft_assign E.mesh hM _ _ hk, wSum_eq, ← List.sum_map_mul_left]
  · unfold ylmWeights pointsOf
    rw [List.map_map, List.map_map]
    congr 1
    apply List.map_congr_left
    intro p _
    simp only [Function.comp_apply]
    rw [cw_ylm, ← mul_assoc]
  · intro q hq
    unfold ylmWeights at hq
    obtain ⟨p, h, rfl⟩ := List.mem_map.1 hq
    exact hp p h

theorem ylm00 (E : Two.Env) (x : Fin 3 → ℝ) : E.ylm 0 0 x = 1 := ylm_zero E x

theorem dft_quad (E : Two.Env) (hM : E.mesh.Valid) (ps : List Part) (hp : AllInside E.mesh ps) (a : ℝ) (m : ℤ)
    {k : ℤ × ℤ × ℤ} (hk : k ∈ box E.mesh.n) :
    ((a ^ 2 : ℝ) : ℂ) * dft E.mesh.n (-1) (fun g => cplx (assign .ngp E.mesh (ylmWeightsQuad E 0 0 ps)) g *
      (E.mesh.volCell : ℂ)) (gid E.mesh.n k) = wwSum E.mesh.n (pointsOf E 2 a m ps) k := by
  rw [dft_assign E.mesh hM _ _ hk, wwSum_eq, ← List.sum_map_mul_left]
  · unfold ylmWeightsQuad pointsOf
    rw [List.map_map, List.map_map]
    congr 1
    apply List.map_congr_left
    intro p _
    simp only [Function.comp_apply]
    have : cw (⟨p.pos, fun b => if b then ((starRingEnd ℂ) (E.ylm 0 0 p.los)).im * p.w ^ 2
        else ((starRingEnd ℂ) (E.ylm 0 0 p.los)).re * p.w ^ 2⟩ : Particle ℝ) = ((p.w ^ 2 : ℝ) : ℂ) := by
      unfold cw
      rw [ylm00]
      apply Complex.ext
      · rw [Complex.ofReal_re]; simp
      · rw [Complex.ofReal_im]; simp
    rw [this, ← mul_assoc]
    congr 1
    push_cast
    ring
  · intro q hq
    unfold ylmWeightsQuad at hq
    obtain ⟨p, h, rfl⟩ := List.mem_map.1 hq
    exact hp p h

theorem dft_lin (E : Two.Env) (hM : E.mesh.Valid) (ps : List Part) (hp : AllInside E.mesh ps) (a : ℝ) (m : ℤ)
    {k : ℤ × ℤ × ℤ} (hk : k ∈ box E.mesh.n) :
    (a : ℂ) * dft E.mesh.n (-1) (fun g => cplx (assign .ngp E.mesh (ylmWeights E 0 0 ps)) g *
      (E.mesh.volCell : ℂ)) (gid E.mesh.n k) = wwSum E.mesh.n (pointsOf E 1 a m ps) k := by
  rw [dft_assign E.mesh hM _ _ hk, wwSum_eq, ← List.sum_map_mul_left]
  · unfold ylmWeights pointsOf
    rw [List.map_map, List.map_map]
    congr 1
    apply List.map_congr_left
    intro p _
    simp only [Function.comp_apply]
    rw [cw_ylm, ylm00, ← mul_assoc]
    congr 1
    push_cast
    ring
  · intro q hq
    unfold ylmWeights at hq
    obtain ⟨p, h, rfl⟩ := List.mem_map.1 hq
    exact hp p h

theorem cplx_mul (f : Grid ℝ) (a : ℝ) (g : ℤ) : cplx (fun g c => f g c * a) g = (a : ℂ) * cplx f g := by
  apply Complex.ext <;> simp [cplx, mul_comm]

theorem cplx_comb (f h : Grid ℝ) (a : ℝ) (g : ℤ) :
    cplx (fun g c => f g c + a * h g c) g = cplx f g + (a : ℂ) * cplx h g := by
  apply Complex.ext <;> simp [cplx]

theorem dft_sum (n : Fin 3 → ℤ) (s : ℤ) (f h : ℤ → ℂ) (g : ℤ) :
    dft n s (fun g => f g + h g) g = dft n s f g + dft n s h g := by
  rw [dft_eq, dft_eq, dft_eq, ← Finset.sum_add_distrib]
  exact Finset.sum_congr rfl fun _ _ => by ring

/-- The transforms of the fields of one catalogue. -/
theorem fourier_n (E : Two.Env) (hM : E.mesh.Valid) (hs : E.sch = .ngp) (hi : E.interlace = false)
    (ps : List Part) (hp : AllInside E.mesh ps) (q : ℕ) (a : ℝ) (m : ℤ) {k : ℤ × ℤ × ℤ}
    (hk : k ∈ box E.mesh.n) :
    fourier E.mesh (nField E ps a E.ELL m) (gid E.mesh.n k) =
      wSum E.mesh.n (pointsOf E q a m ps) k := by
  rw [← dft_ylm E q hM ps hp a m hk]
  unfold nField ylmFieldOne assignField fourier
  simp only [hs, hi, Bool.false_eq_true, if_false]
  simp only [cplx_mul, mul_assoc]
  rw [Two.dft_smul]

theorem fourier_quad1 (E : Two.Env) (hM : E.mesh.Valid) (hs : E.sch = .ngp) (hi : E.interlace = false)
    (ps : List Part) (hp : AllInside E.mesh ps) (a : ℝ) (m : ℤ) {k : ℤ × ℤ × ℤ} (hk : k ∈ box E.mesh.n) :
    fourier E.mesh (quadField1 E ps a 0 0) (gid E.mesh.n k) =
      wwSum E.mesh.n (pointsOf E 2 a m ps) k := by
  rw [← dft_quad E hM ps hp a m hk]
  unfold quadField1 quadFieldOne assignField fourier
  simp only [hs, hi, Bool.false_eq_true, if_false]
  simp only [cplx_mul, mul_assoc]
  rw [Two.dft_smul]

/-- The transforms of the fields of two catalogues. -/
theorem fourier_dn (E : Two.Env) (hM : E.mesh.Valid) (hs : E.sch = .ngp) (hi : E.interlace = false)
    (data rand : List Part) (hd : AllInside E.mesh data) (hr : AllInside E.mesh rand) (q : ℕ) (a : ℝ)
    (m : ℤ) {k : ℤ × ℤ × ℤ} (hk : k ∈ box E.mesh.n) :
    fourier E.mesh (dnField E data rand a E.ELL m) (gid E.mesh.n k) =
      wSum E.mesh.n (pointsOf E q 1 m data ++ pointsOf E q (-a) m rand) k := by
  rw [wSum_append, ← dft_ylm E q hM data hd 1 m hk, ← dft_ylm E q hM rand hr (-a) m hk]
  unfold dnField ylmFieldTwo assignField fourier
  simp only [hs, hi, Bool.false_eq_true, if_false]
  simp only [sub_eq_add_neg, ← neg_mul]
  simp only [cplx_comb, add_mul, mul_assoc]
  rw [dft_sum, Two.dft_smul]
  push_cast
  ring

theorem fourier_dn0 (E : Two.Env) (hM : E.mesh.Valid) (hs : E.sch = .ngp) (hi : E.interlace = false)
    (data rand : List Part) (hd : AllInside E.mesh data) (hr : AllInside E.mesh rand) (a : ℝ)
    (m : ℤ) {k : ℤ × ℤ × ℤ} (hk : k ∈ box E.mesh.n) :
    fourier E.mesh (dnField E data rand a 0 0) (gid E.mesh.n k) =
      wwSum E.mesh.n (pointsOf E 1 1 m data ++ pointsOf E 1 (-a) m rand) k := by
  rw [wwSum_append, ← dft_lin E hM data hd 1 m hk, ← dft_lin E hM rand hr (-a) m hk]
  unfold dnField ylmFieldTwo assignField fourier
  simp only [hs, hi, Bool.false_eq_true, if_false]
  simp only [sub_eq_add_neg, ← neg_mul]
  simp only [cplx_comb, add_mul, mul_assoc]
  rw [dft_sum, Two.dft_smul]
  push_cast
  ring

theorem fourier_quad2 (E : Two.Env) (hM : E.mesh.Valid) (hs : E.sch = .ngp) (hi : E.interlace = false)
    (data rand : List Part) (hd : AllInside E.mesh data) (hr : AllInside E.mesh rand) (a : ℝ) (m : ℤ)
    {k : ℤ × ℤ × ℤ} (hk : k ∈ box E.mesh.n) :
    fourier E.mesh (quadField E data rand a 0 0) (gid E.mesh.n k) =
      wwSum E.mesh.n (pointsOf E 2 1 m data ++ pointsOf E 2 (-a) m rand) k := by
  rw [wwSum_append, ← dft_quad E hM data hd 1 m hk, ← dft_quad E hM rand hr (-a) m hk]
  unfold quadField quadFieldTwo assignField fourier
  simp only [hs, hi, Bool.false_eq_true, if_false]
  simp only [cplx_comb, add_mul, mul_assoc]
  rw [dft_sum, Two.dft_smul]
  push_cast
  ring

theorem self_points (E : Two.Env) (q : ℕ) (a : ℝ) (m : ℤ) (ps : List Part) :
    ((pointsOf E q a m ps).map fun p => p.w * (p.ww : ℂ)).sum =
      ((a ^ (q + 1) : ℝ) : ℂ) * ylmSum E (q + 1) E.ELL m ps := by
  unfold pointsOf ylmSum
  rw [List.map_map, ← List.sum_map_mul_left]
  congr 1
  apply List.map_congr_left
  intro p _
  simp only [Function.comp_apply]
  push_cast
  ring

theorem cells_over_vol (M : Mesh ℝ) (hM : M.Valid) :
    ((M.n 0 * M.n 1 * M.n 2 : ℤ) : ℂ) / (vol M : ℂ) = 1 / (M.volCell : ℂ) := by
  have h0 := (hM 0).1.ne'
  have h1 := (hM 1).1.ne'
  have h2 := (hM 2).1.ne'
  have l0 := (hM 0).2.ne'
  have l1 := (hM 1).2.ne'
  have l2 := (hM 2).2.ne'
  have e : ((M.n 0 * M.n 1 * M.n 2 : ℤ) : ℝ) / vol M = 1 / M.volCell := by
    unfold vol Mesh.volCell Mesh.nmesh
    have : ((M.n 0 * M.n 1 * M.n 2 : ℤ) : ℝ) ≠ 0 := by
      exact_mod_cast mul_ne_zero (mul_ne_zero h0 h1) h2
    field_simp
  have := congrArg (fun x : ℝ => (x : ℂ)) e
  push_cast at this ⊢
  exact this

/-- **Window**: the correlation counts pairs of different points. -/
theorem corr_window (E : Two.Env) (hM : E.mesh.Valid) (hs : E.sch = .ngp) (hi : E.interlace = false)
    (ps : List Part) (hp : AllInside E.mesh ps) (a : ℝ) (m : ℤ) {c : ℤ × ℤ × ℤ} (hc : c ∈ box E.mesh.n) :
    corr E (fourier E.mesh (nField E ps a E.ELL m)) (fourier E.mesh (quadField1 E ps a 0 0))
      (shotAmp3One E ps a E.ELL m) c =
    pairCount E.mesh.n (pointsOf E 2 a m ps) c / (E.mesh.volCell : ℂ) := by
  rw [corr_points E (fun a => (hM a).1) hs hi (pointsOf E 2 a m ps) _ _ _
    (fun k hk => fourier_n E hM hs hi ps hp 2 a m hk)
    (fun k hk => fourier_quad1 E hM hs hi ps hp a m hk) hc, list_fin _ fun p : Point => p.w * (p.ww : ℂ),
    self_points, cells_over_vol E.mesh hM]
  unfold shotAmp3One
  rw [sub_self, ite_self, add_zero]
  ring

open Classical in
/-- **Survey**: the correlation counts pairs of different points of the combined catalogue, but the
self-pairs of the random catalogue are subtracted with the wrong sign. -/
theorem corr_survey (E : Two.Env) (hM : E.mesh.Valid) (hs : E.sch = .ngp) (hi : E.interlace = false)
    (data rand : List Part) (hd : AllInside E.mesh data) (hr : AllInside E.mesh rand) (a : ℝ) (m : ℤ)
    {c : ℤ × ℤ × ℤ} (hc : c ∈ box E.mesh.n) :
    corr E (fourier E.mesh (dnField E data rand a E.ELL m))
      (fourier E.mesh (quadField E data rand a 0 0)) (shotAmp3 E data rand a E.ELL m) c =
    (pairCount E.mesh.n (pointsOf E 2 1 m data ++ pointsOf E 2 (-a) m rand) c -
        if c = (0, 0, 0) then 2 * ((a ^ 3 : ℝ) : ℂ) * ylmSum E 3 E.ELL m rand else 0) /
      (E.mesh.volCell : ℂ) := by
  rw [corr_points E (fun a => (hM a).1) hs hi (pointsOf E 2 1 m data ++ pointsOf E 2 (-a) m rand) _ _ _
    (fun k hk => fourier_dn E hM hs hi data rand hd hr 2 a m hk)
    (fun k hk => fourier_quad2 E hM hs hi data rand hd hr a m hk) hc,
    list_fin _ fun p : Point => p.w * (p.ww : ℂ), List.map_append, List.sum_append, self_points, self_points,
    cells_over_vol E.mesh hM]
  unfold shotAmp3
  by_cases h : c = (0, 0, 0)
  · rw [if_pos h, if_pos h]; push_cast; ring
  · rw [if_neg h, if_neg h]; ring

/-- **Survey, two-point**: the correlation counts pairs of different points of the combined
catalogue. -/
theorem corr_two (E : Two.Env) (hM : E.mesh.Valid) (hs : E.sch = .ngp) (hi : E.interlace = false)
    (data rand : List Part) (hd : AllInside E.mesh data) (hr : AllInside E.mesh rand) (a : ℝ) (m : ℤ)
    {c : ℤ × ℤ × ℤ} (hc : c ∈ box E.mesh.n) :
    corr E (fourier E.mesh (dnField E data rand a E.ELL m))
      (fourier E.mesh (dnField E data rand a 0 0)) (shotAmp2 E data rand a E.ELL m) c =
    pairCount E.mesh.n (pointsOf E 1 1 m data ++ pointsOf E 1 (-a) m rand) c / (E.mesh.volCell : ℂ) := by
  rw [corr_points E (fun a => (hM a).1) hs hi (pointsOf E 1 1 m data ++ pointsOf E 1 (-a) m rand) _ _ _
    (fun k hk => fourier_dn E hM hs hi data rand hd hr 1 a m hk)
    (fun k hk => fourier_dn0 E hM hs hi data rand hd hr a m hk) hc,
    list_fin _ fun p : Point => p.w * (p.ww : ℂ), List.map_append, List.sum_append, self_points, self_points,
    cells_over_vol E.mesh hM]
  unfold shotAmp2
  by_cases h : c = (0, 0, 0)
  · rw [if_pos h]; push_cast; ring
  · rw [if_neg h]; ring

/-! ### Periodic box -/

theorem cw_unit (x : Fin 3 → ℝ) : cw (⟨x, fun c => if c then 0 else 1⟩ : Particle ℝ) = 1 := by
  apply Complex.ext <;> rfl

/-- The transform of the counts. -/
theorem dft_box (M : Mesh ℝ) (hM : M.Valid) (pos : List (Fin 3 → ℝ))
    (hp : ∀ x ∈ pos, ∀ a, 0 ≤ x a ∧ x a < M.L a) {k : ℤ × ℤ × ℤ} (hk : k ∈ box M.n) :
    dft M.n (-1) (fun g => cplx (assign .ngp M (unweighted pos)) g * (M.volCell : ℂ)) (gid M.n k) =
      wSum M.n (pointsBox M pos) k ∧
    wwSum M.n (pointsBox M pos) k = wSum M.n (pointsBox M pos) k := by
  rw [wSum_eq, wwSum_eq]
  constructor
  · rw [dft_assign M hM _ _ hk]
    · unfold unweighted pointsBox
      rw [List.map_map, List.map_map]
      rfl
    · intro q hq
      unfold unweighted at hq
      obtain ⟨x, h, rfl⟩ := List.mem_map.1 hq
      exact hp x h
  · unfold pointsBox
    rw [List.map_map, List.map_map]
    rfl

theorem fourier_boxN (M : Mesh ℝ) (hM : M.Valid) (pos : List (Fin 3 → ℝ))
    (hp : ∀ x ∈ pos, ∀ a, 0 ≤ x a ∧ x a < M.L a) {k : ℤ × ℤ × ℤ} (hk : k ∈ box M.n) :
    fourier M (assignField .ngp M false (unweighted pos)) (gid M.n k) = wSum M.n (pointsBox M pos) k := by
  rw [← (dft_box M hM pos hp hk).1]
  unfold assignField fourier
  simp only [Bool.false_eq_true, if_false]

theorem phase3_zero (n : Fin 3 → ℤ) (s : ℤ) (x : ℤ × ℤ × ℤ) :
    phase3 n s (0, 0, 0) x = 1 ∧ phase3 n s x (0, 0, 0) = 1 := by
  constructor <;> rw [phase3_eq] <;> simp [root_zero]

theorem zero_mem {n : Fin 3 → ℤ} (hn : ∀ a, 0 < n a) : ((0, 0, 0) : ℤ × ℤ × ℤ) ∈ box n :=
  mem_box.2 ⟨⟨le_rfl, hn 0⟩, ⟨le_rfl, hn 1⟩, le_rfl, hn 2⟩

theorem sum_phase {n : Fin 3 → ℤ} (hn : ∀ a, 0 < n a) {k : ℤ × ℤ × ℤ} (hk : k ∈ box n) :
    ∑ x ∈ box n, phase3 n (-1) k x = if k = (0, 0, 0) then ((n 0 * n 1 * n 2 : ℤ) : ℂ) else 0 := by
  rw [← phase3_orth hn (Or.inr rfl) hk (zero_mem hn)]
  apply Finset.sum_congr rfl
  intro x _
  rw [(phase3_zero n _ x).1, mul_one, phase3_comm]

theorem wSum_box_zero (M : Mesh ℝ) (pos : List (Fin 3 → ℝ)) :
    wSum M.n (pointsBox M pos) (0, 0, 0) = (pos.length : ℂ) := by
  rw [wSum_eq]
  unfold pointsBox
  rw [List.map_map]
  have : ((fun p : Point => p.w * phase3 M.n (-1) (0, 0, 0) p.cell) ∘ fun x => ⟨nearest M x, 1, 1⟩) =
      fun _ : Fin 3 → ℝ => (1 : ℂ) := by
    funext x
    simp only [Function.comp_apply]
    rw [(phase3_zero M.n _ _).1, mul_one]
  rw [this]
  simp

theorem fourier_boxDn (M : Mesh ℝ) (hM : M.Valid) (pos : List (Fin 3 → ℝ))
    (hp : ∀ x ∈ pos, ∀ a, 0 ≤ x a ∧ x a < M.L a) {k : ℤ × ℤ × ℤ} (hk : k ∈ box M.n) :
    fourier M (fluctuations .ngp M false pos) (gid M.n k) =
      wSum M.n (pointsBox M pos) k - if k = (0, 0, 0) then (pos.length : ℂ) else 0 := by
  have hn : ∀ a, 0 < M.n a := fun a => (hM a).1
  rw [← (dft_box M hM pos hp hk).1]
  unfold fluctuations assignField fourier
  simp only [Bool.false_eq_true, if_false]
  rw [dft_eq, dft_eq, cellOf_gid hn hk]
  have e : ∀ x ∈ box M.n, cplx (fun g (c : Bool) => if 0 ≤ g ∧ g < M.nmesh then
      (if c = true then assign .ngp M (unweighted pos) g c
        else assign .ngp M (unweighted pos) g c - (pos.length : ℝ) / (M.L 0 * M.L 1 * M.L 2))
      else assign .ngp M (unweighted pos) g c) (gid M.n x) * (M.volCell : ℂ) * phase3 M.n (-1) k x =
      cplx (assign .ngp M (unweighted pos)) (gid M.n x) * (M.volCell : ℂ) * phase3 M.n (-1) k x -
        (((pos.length : ℝ) / (M.L 0 * M.L 1 * M.L 2) : ℝ) : ℂ) * (M.volCell : ℂ) * phase3 M.n (-1) k x := by
    intro x hx
    have hg : 0 ≤ gid M.n x ∧ gid M.n x < M.nmesh := gid_range hx
    have : cplx (fun g (c : Bool) => if 0 ≤ g ∧ g < M.nmesh then
      (if c = true then assign .ngp M (unweighted pos) g c
        else assign .ngp M (unweighted pos) g c - (pos.length : ℝ) / (M.L 0 * M.L 1 * M.L 2))
      else assign .ngp M (unweighted pos) g c) (gid M.n x) =
        cplx (assign .ngp M (unweighted pos)) (gid M.n x) -
          (((pos.length : ℝ) / (M.L 0 * M.L 1 * M.L 2) : ℝ) : ℂ) := by
      unfold cplx
      simp only [if_pos hg]
      apply Complex.ext
      · rw [Complex.sub_re, Complex.ofReal_re]; rfl
      · rw [Complex.sub_im, Complex.ofReal_im, sub_zero]; rfl
    rw [this]
    ring
  rw [Finset.sum_congr rfl e, Finset.sum_sub_distrib, ← Finset.mul_sum, sum_phase hn hk]
  congr 1
  by_cases h : k = (0, 0, 0)
  · rw [if_pos h, if_pos h]
    have hv := volCell_mul M hM
    rw [mul_assoc, hv.1]
    have hV : (vol M : ℂ) = ((M.L 0 * M.L 1 * M.L 2 : ℝ) : ℂ) := rfl
    have h0 := hv.2.1
    rw [hV] at h0 ⊢
    rw [← Complex.ofReal_mul, div_mul_cancel₀ _ (by exact_mod_cast h0)]
    push_cast
    rfl
  · rw [if_neg h, if_neg h, mul_zero]

open Classical in
/-- **Box**: the correlation of the fluctuations with the counts, or with themselves, is the number of
pairs of different points less the number expected of the mean density. -/
theorem corr_box (E : Two.Env) (hM : E.mesh.Valid) (hs : E.sch = .ngp) (hi : E.interlace = false)
    (pos : List (Fin 3 → ℝ)) (hp : ∀ x ∈ pos, ∀ a, 0 ≤ x a ∧ x a < E.mesh.L a)
    (fb : ℤ → ℂ) (hfb : fb = fourier E.mesh (assignField E.sch E.mesh E.interlace (unweighted pos)) ∨
      fb = fourier E.mesh (fluctuations E.sch E.mesh E.interlace pos)) {c : ℤ × ℤ × ℤ}
    (hc : c ∈ box E.mesh.n) :
    corr E (fourier E.mesh (fluctuations E.sch E.mesh E.interlace pos)) fb (pos.length : ℂ) c =
      pairCount E.mesh.n (pointsBox E.mesh pos) c / (E.mesh.volCell : ℂ) -
        (pos.length : ℂ) ^ 2 / (vol E.mesh : ℂ) := by
  have hn : ∀ a, 0 < E.mesh.n a := fun a => (hM a).1
  rw [hs, hi] at hfb ⊢
  set F := fourier E.mesh (assignField .ngp E.mesh false (unweighted pos)) with hF
  have key := corr_points E hn hs hi (pointsBox E.mesh pos) F F (pos.length : ℂ)
    (fun k hk => fourier_boxN E.mesh hM pos hp hk)
    (fun k hk => (fourier_boxN E.mesh hM pos hp hk).trans (dft_box E.mesh hM pos hp hk).2.symm) hc
  have hself : (∑ i : Fin (pointsBox E.mesh pos).length, ((pointsBox E.mesh pos).get i).w *
      (((pointsBox E.mesh pos).get i).ww : ℂ)) = (pos.length : ℂ) := by
    rw [list_fin _ fun p : Point => p.w * (p.ww : ℂ)]
    unfold pointsBox
    rw [List.map_map]
    have : ((fun p : Point => p.w * (p.ww : ℂ)) ∘ fun x => ⟨nearest E.mesh x, 1, 1⟩) =
      fun _ : Fin 3 → ℝ => (1 : ℂ) := by
      funext x
      simp
    rw [this]
    simp
  rw [hself, sub_self, ite_self, add_zero, cells_over_vol E.mesh hM, one_div, inv_mul_eq_div] at key
  rw [← key]
  unfold corr
  rw [← sub_div]
  congr 1
  rw [allModes_eq]
  have hw : ∀ x, E.win x = 1 := by
    intro x
    unfold Env.win Env.alias_
    rw [if_neg (by rw [hi]; decide), if_neg (by rw [hi]; decide), hs]
    unfold aliasing aliasAxis
    norm_num
  have hsum : (pos.length : ℂ) ^ 2 = ∑ x ∈ box E.mesh.n, if x = (0, 0, 0) then
      (pos.length : ℂ) ^ 2 * phase3 E.mesh.n 1 c x else 0 := by
    rw [Finset.sum_ite_eq', if_pos (zero_mem hn), (phase3_zero _ _ _).2, mul_one]
  rw [hsum, ← Finset.sum_sub_distrib]
  apply Finset.sum_congr rfl
  intro x hx
  rw [hw]
  have hD := fourier_boxDn E.mesh hM pos hp hx
  have hN : F (gid E.mesh.n x) = _ := fourier_boxN E.mesh hM pos hp hx
  by_cases h : x = (0, 0, 0)
  · subst h
    rw [if_pos rfl]
    rw [if_pos rfl, wSum_box_zero, sub_self] at hD
    rw [wSum_box_zero] at hN
    rw [hD, hN, map_natCast]
    push_cast
    ring
  · rw [if_neg h, sub_zero]
    rw [if_neg h, sub_zero, ← hN] at hD
    rcases hfb with rfl | rfl
    · rw [hD]
    · rw [hD]

end Trv.Zeta

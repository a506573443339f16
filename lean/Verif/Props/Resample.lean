import Verif.Lemmas.Resample
import Verif.Props.WinBuild
/-
Property theorems for resampling at evenly spaced points (`transforms.py`, `winconv.py`): C136.
-/
namespace Trv.Wc

open Trv

theorem squeeze_one {x : List ℝ} (h : 2 ≤ x.length) : squeeze (.one x) = .ok (.one x) := by
  match x, h with
  | _ :: _ :: _, _ => rfl

theorem squeeze_two {s : List (List ℝ)} {m : ℕ} (h : 2 ≤ s.length) (hm : 2 ≤ m) (hr : ∀ row ∈ s, row.length = m) :
    squeeze (.two s) = .ok (.two s) := by
  match s, h with
  | r :: r' :: l, _ =>
    have h0 : r.length = m := hr r (by simp)
    rw [squeeze, if_neg, if_neg (by simp), if_neg (by omega)]
    simp only [List.any_eq_true, decide_eq_true_eq, not_exists, not_and, ne_eq, not_not]
    intro t ht
    rw [h0]
    exact hr t (by simp at ht ⊢; tauto)

/-- One dimension, in full. -/
theorem resample1_ok {sp : Spacing} (I : Interp ℝ) {k : ℕ} (h1 : 1 ≤ k) (h5 : k ≤ 5) {x s : List ℝ} (hx : Rising sp x)
    (hk : k < x.length) (hs : s.length = x.length) {size : ReSize} {n : ℕ} (hsize : size.line x.length = .ok n) (hn : 2 ≤ n) :
    ∃ a b, x.head? = some a ∧ x.getLast? = some b ∧ Ends sp a b ∧
      resample sp I k (.one x) (.one s) size = .ok (.one (spaced sp a b n) ((spaced sp a b n).map (I.spl false x s))) := by
  obtain ⟨a, b, ha, hb, hab⟩ := rising_ends hx (by omega)
  refine ⟨a, b, ha, hb, hab, ?_⟩
  unfold resample
  rw [squeeze_one (by omega), squeeze_one (by omega)]
  simp only
  unfold resample1
  rw [ha, hb]
  simp only [hsize]
  rw [if_neg (by simp [fits_of hx h1 h5 hk, hs]), if_neg]
  rintro ⟨p, hp, h⟩
  obtain ⟨h3, h4⟩ := spaced_bounds hab hn hp
  rcases h with h | h <;> linarith

/-- **C136.** In one dimension: the new points are the number of points asked for, evenly spaced from the first
point to the last; at points which are kept the samples are kept, and elsewhere they are those of the
spline. -/
theorem C136_line (sp : Spacing) (I : Interp ℝ) (hI : I.Ok) (k : ℕ) (h1 : 1 ≤ k) (h5 : k ≤ 5) (x s : List ℝ) (hx : Rising sp x)
    (hk : k < x.length) (hs : s.length = x.length) (size : ReSize) (n : ℕ) (hsize : size.line x.length = .ok n) (hn : 2 ≤ n) :
    ∃ y t, resample sp I k (.one x) (.one s) size = .ok (.one y t) ∧ Respaced sp x y n ∧ t.length = n ∧
      (∀ i j, i < n → j < x.length → y.getD i 0 = x.getD j 0 → t.getD i 0 = s.getD j 0) ∧
      ∀ i, i < n → t.getD i 0 = I.spl false x s (y.getD i 0) := by
  obtain ⟨a, b, ha, hb, hab, h⟩ := resample1_ok I h1 h5 hx hk hs hsize hn
  have hv : ∀ i, i < n → ((spaced sp a b n).map (I.spl false x s)).getD i 0 = I.spl false x s ((spaced sp a b n).getD i 0) :=
    fun i hi => map_getD (by rw [length_spaced]; exact hi)
  refine ⟨_, _, h, spaced_respaced ha hb hab hn, by simp [length_spaced], fun i j hi hj he => ?_, hv⟩
  rw [hv i hi, he, spl_sample hI false hx.1 hj]

/-- **C136 (number of points).** Resampling in one dimension gives as many points as asked for; without a size, or
with the size zero or an empty sequence, as many as there were. -/
theorem C136_points (sp : Spacing) (I : Interp ℝ) (hI : I.Ok) (k : ℕ) (h1 : 1 ≤ k) (h5 : k ≤ 5) (x s : List ℝ)
    (hx : Rising sp x) (hk : k < x.length) (hs : s.length = x.length) :
    (∀ m : ℕ, 2 ≤ m → ∃ y t, resample sp I k (.one x) (.one s) (.int m) = .ok (.one y t) ∧ y.length = m ∧ t.length = m) ∧
    (∀ size, size = .none ∨ size = .int 0 ∨ size = .seq [] → ∃ y t,
      resample sp I k (.one x) (.one s) size = .ok (.one y t) ∧ y.length = x.length ∧ t.length = x.length) := by
  constructor
  · intro m hm
    have hl : (ReSize.int m).line x.length = .ok m := by
      unfold ReSize.line sizeOr
      simp only
      rw [if_neg (by omega), if_neg (by omega)]
      simp
    obtain ⟨y, t, h, hr, ht, _⟩ := C136_line sp I hI k h1 h5 x s hx hk hs (.int m) m hl hm
    exact ⟨y, t, h, hr.1, ht⟩
  · intro size hsize
    have hl : size.line x.length = .ok x.length := by
      rcases hsize with rfl | rfl | rfl <;> simp [ReSize.line, sizeOr]
    obtain ⟨y, t, h, hr, ht, _⟩ := C136_line sp I hI k h1 h5 x s hx hk hs size x.length hl (by omega)
    exact ⟨y, t, h, hr.1, ht⟩

/-- Two dimensions, in full. -/
theorem resample2_ok {sp : Spacing} (I : Interp ℝ) {k : ℕ} (h1 : 1 ≤ k) (h5 : k ≤ 5) {x x' : List ℝ} {s : List (List ℝ)}
    (hx : Rising sp x) (hx' : Rising sp x') (hk : k < x.length) (hk' : k < x'.length) (hs : s.length = x.length)
    (hr : ∀ row ∈ s, row.length = x'.length) {size : ReSize} {z z' : Option ℤ} {n n' : ℕ} (hsize : size.plane = .ok (z, z'))
    (hz : sizeOr z x.length = .ok n) (hz' : sizeOr z' x'.length = .ok n') :
    ∃ a b a' b', x.head? = some a ∧ x.getLast? = some b ∧ Ends sp a b ∧ x'.head? = some a' ∧ x'.getLast? = some b' ∧
      Ends sp a' b' ∧ resample2 sp I k x x' s size = .ok (.two (spaced sp a b n) (spaced sp a' b' n')
        ((spaced sp a b n).map fun p => (spaced sp a' b' n').map fun q =>
          I.spl22 x x' (fun i j => (s.getD i []).getD j 0) p q)) := by
  obtain ⟨a, b, ha, hb, hab⟩ := rising_ends hx (by omega)
  obtain ⟨a', b', ha', hb', hab'⟩ := rising_ends hx' (by omega)
  refine ⟨a, b, a', b', ha, hb, hab, ha', hb', hab', ?_⟩
  unfold resample2
  rw [hsize, ha, hb, ha', hb']
  simp only [hz, hz']
  rw [if_neg]
  simp only [not_not]
  exact ⟨fits_of hx h1 h5 hk, fits_of hx' h1 h5 hk', hs, hr⟩

/-- The sample points of the two dimensions as they are passed: one array for both, or two. -/
def PassedAs (pts : ArrIn) (x x' : List ℝ) : Prop := (pts = .one x ∧ x' = x) ∨ pts = .two [x, x']

theorem passed_resample {sp : Spacing} (I : Interp ℝ) {k : ℕ} {pts : ArrIn} {x x' : List ℝ} (hp : PassedAs pts x x')
    (hl : x.length = x'.length) (h2 : 2 ≤ x.length) {s : List (List ℝ)} (hs : s.length = x.length)
    (hr : ∀ row ∈ s, row.length = x'.length) (size : ReSize) :
    resample sp I k pts (.two s) size = resample2 sp I k x x' s size := by
  unfold resample
  rw [squeeze_two (m := x'.length) (by omega) (by omega) hr]
  rcases hp with ⟨rfl, rfl⟩ | rfl
  · rw [squeeze_one h2]
  · rw [squeeze_two (m := x'.length) (by simp) (by omega) (by
      intro row hrow
      simp at hrow
      rcases hrow with rfl | rfl
      · exact hl
      · rfl)]

/-- **C136 (part).** In two dimensions, with one array of sample points for both or two arrays of the same
length: the new points of each dimension are the number asked for, evenly spaced in the range, the new
samples are as many, and are kept where points are kept.  Missing: two arrays of different lengths, see
`C136_lengths_violated`. -/
theorem C136_plane_partial (sp : Spacing) (I : Interp ℝ) (hI : I.Ok) (k : ℕ) (h1 : 1 ≤ k) (h5 : k ≤ 5) (pts : ArrIn)
    (x x' : List ℝ) (hp : PassedAs pts x x') (hl : x.length = x'.length) (s : List (List ℝ)) (hx : Rising sp x)
    (hx' : Rising sp x') (hk : k < x.length) (hs : s.length = x.length) (hr : ∀ row ∈ s, row.length = x'.length)
    (size : ReSize) (z z' : Option ℤ) (n n' : ℕ) (hsize : size.plane = .ok (z, z')) (hz : sizeOr z x.length = .ok n)
    (hz' : sizeOr z' x'.length = .ok n') (hn : 2 ≤ n) (hn' : 2 ≤ n') :
    ∃ y y' t, resample sp I k pts (.two s) size = .ok (.two y y' t) ∧ Respaced sp x y n ∧ Respaced sp x' y' n' ∧
      t.length = n ∧ (∀ row ∈ t, row.length = n') ∧
      (∀ i i' j j', i < n → i' < n' → j < x.length → j' < x'.length → y.getD i 0 = x.getD j 0 → y'.getD i' 0 = x'.getD j' 0 →
        (t.getD i []).getD i' 0 = (s.getD j []).getD j' 0) ∧
      ∀ i i', i < n → i' < n' → (t.getD i []).getD i' 0 =
        I.spl22 x x' (fun j j' => (s.getD j []).getD j' 0) (y.getD i 0) (y'.getD i' 0) := by
  obtain ⟨a, b, a', b', ha, hb, hab, ha', hb', hab', h⟩ :=
    resample2_ok I h1 h5 hx hx' hk (by omega) hs hr hsize hz hz'
  have hv : ∀ i i', i < n → i' < n' → (((spaced sp a b n).map fun p => (spaced sp a' b' n').map fun q =>
      I.spl22 x x' (fun i j => (s.getD i []).getD j 0) p q).getD i []).getD i' 0 =
        I.spl22 x x' (fun j j' => (s.getD j []).getD j' 0) ((spaced sp a b n).getD i 0) ((spaced sp a' b' n').getD i' 0) := by
    intro i i' hi hi'
    have e : (((spaced sp a b n).map fun p => (spaced sp a' b' n').map fun q =>
        I.spl22 x x' (fun i j => (s.getD i []).getD j 0) p q).getD i []) = (spaced sp a' b' n').map fun q =>
          I.spl22 x x' (fun i j => (s.getD i []).getD j 0) ((spaced sp a b n).getD i 0) q := by
      have hi2 : i < (spaced sp a b n).length := by rw [length_spaced]; exact hi
      rw [List.getD_eq_getElem?_getD, List.getElem?_map, List.getElem?_eq_getElem hi2, List.getD_eq_getElem?_getD,
        List.getElem?_eq_getElem hi2]
      rfl
    rw [e, map_getD (by rw [length_spaced]; exact hi')]
  refine ⟨_, _, _, (passed_resample I hp hl (by omega) hs hr size).trans h, spaced_respaced ha hb hab hn,
    spaced_respaced ha' hb' hab' hn', by simp [length_spaced], ?_, fun i i' j j' hi hi' hj hj' he he' => ?_, hv⟩
  · intro row hrow
    obtain ⟨p, _, rfl⟩ := List.mem_map.1 hrow
    simp [length_spaced]
  · rw [hv i i' hi hi', he, he', spl22_sample hI hx.1 hx'.1 _ hj hj']

/-- **C136, violated.** Sample points of different lengths in the two dimensions are rejected, although the
documentation asks for one array in each dimension, whatever the samples. -/
theorem C136_lengths_violated (sp : Spacing) (I : Interp ℝ) (k : ℕ) (x x' : List ℝ) (hl : x.length ≠ x'.length)
    (s : List (List ℝ)) (size : ReSize) : resample sp I k (.two [x, x']) (.two s) size = .error .valueError := by
  unfold resample
  have : squeeze (.two [x, x']) = .error .valueError := by
    rw [squeeze, if_pos]
    simpa using fun h => hl h.symm
  rw [this]

/-- **C136.** Samples at points which are evenly spaced already are returned as they are. -/
theorem C136_same_line (sp : Spacing) (I : Interp ℝ) (hI : I.Ok) (k : ℕ) (h1 : 1 ≤ k) (h5 : k ≤ 5) (x s : List ℝ) (hx : Rising sp x)
    (he : Even sp x) (hk : k < x.length) (hs : s.length = x.length) :
    resample sp I k (.one x) (.one s) .none = .ok (.one x s) := by
  obtain ⟨a, b, ha, hb, hab, h⟩ := resample1_ok I h1 h5 hx hk hs (size := .none) (n := x.length) rfl (by omega)
  rw [h, spaced_self hx he (by omega) ha hb, map_samples hs _ fun j hj => spl_sample hI false hx.1 hj]

/-- **C136.** The same in two dimensions. -/
theorem C136_same_plane (sp : Spacing) (I : Interp ℝ) (hI : I.Ok) (k : ℕ) (h1 : 1 ≤ k) (h5 : k ≤ 5) (pts : ArrIn) (x x' : List ℝ)
    (hp : PassedAs pts x x') (hl : x.length = x'.length) (s : List (List ℝ)) (hx : Rising sp x) (hx' : Rising sp x')
    (he : Even sp x) (he' : Even sp x') (hk : k < x.length) (hs : s.length = x.length) (hr : ∀ row ∈ s, row.length = x'.length) :
    resample sp I k pts (.two s) .none = .ok (.two x x' s) := by
  obtain ⟨a, b, a', b', ha, hb, hab, ha', hb', hab', h⟩ := resample2_ok I h1 h5 hx hx' hk (by omega) hs hr
    (size := .none) (z := none) (z' := none) (n := x.length) (n' := x'.length) rfl rfl rfl
  rw [passed_resample I hp hl (by omega) hs hr, h, spaced_self hx he (by omega) ha hb, spaced_self hx' he' (by omega) ha' hb']
  congr 2
  refine List.ext_getElem (by simp [hs]) fun i h3 h4 => ?_
  have hi : i < x.length := by omega
  rw [List.getElem_map]
  refine map_samples (hr _ (List.getElem_mem h4)) _ fun j hj => ?_
  have e : x[i] = x.getD i 0 := by rw [List.getD_eq_getElem?_getD, List.getElem?_eq_getElem hi]; rfl
  rw [e, spl22_sample hI hx.1 hx'.1 _ hi hj, List.getD_eq_getElem?_getD (l := s), List.getElem?_eq_getElem h4]
  rfl

/-- **C136.** Resampling what has been resampled changes nothing. -/
theorem C136_again (sp : Spacing) (I : Interp ℝ) (hI : I.Ok) (k : ℕ) (h1 : 1 ≤ k) (h5 : k ≤ 5) (x s : List ℝ) (hx : Rising sp x)
    (hk : k < x.length) (hs : s.length = x.length) (size : ReSize) (n : ℕ) (hsize : size.line x.length = .ok n) (hn : k < n) (y t : List ℝ)
    (h : resample sp I k (.one x) (.one s) size = .ok (.one y t)) : resample sp I k (.one y) (.one t) .none = .ok (.one y t) := by
  obtain ⟨y', t', h', ⟨h2, h3, h4, _⟩, h6, _⟩ := C136_line sp I hI k h1 h5 x s hx hk hs size n hsize (by omega)
  rw [h'] at h
  cases h
  exact C136_same_line sp I hI k h1 h5 y t h3 h4 (by omega) (by omega)

/-- **C136.** Samples of a function which the spline reproduces become the samples of that function at the new
points. -/
theorem C136_function (sp : Spacing) (I : Interp ℝ) (hI : I.Ok) (k : ℕ) (h1 : 1 ≤ k) (h5 : k ≤ 5) (x : List ℝ) (hx : Rising sp x)
    (hk : k < x.length) (size : ReSize) (n : ℕ) (hsize : size.line x.length = .ok n) (hn : 2 ≤ n) (f : ℝ → ℝ)
    (hf : ∀ p a b, x.head? = some a → x.getLast? = some b → a ≤ p → p ≤ b → I.spl false x (x.map f) p = f p) :
    ∃ y, resample sp I k (.one x) (.one (x.map f)) size = .ok (.one y (y.map f)) ∧ Respaced sp x y n := by
  obtain ⟨a, b, ha, hb, hab, h⟩ := resample1_ok I h1 h5 hx hk (s := x.map f) (by simp) hsize hn
  refine ⟨_, h.trans ?_, spaced_respaced ha hb hab hn⟩
  congr 2
  refine List.map_congr_left fun p hp => ?_
  obtain ⟨h3, h4⟩ := spaced_bounds hab hn hp
  exact hf p a b ha hb h3 h4

/-- **C136.** Constant samples stay constant. -/
theorem C136_constant (sp : Spacing) (I : Interp ℝ) (hI : I.Ok) (k : ℕ) (h1 : 1 ≤ k) (h5 : k ≤ 5) (x : List ℝ) (hx : Rising sp x)
    (hk : k < x.length) (size : ReSize) (n : ℕ) (hsize : size.line x.length = .ok n) (hn : 2 ≤ n) (c : ℝ) :
    ∃ y, resample sp I k (.one x) (.one (x.map fun _ => c)) size = .ok (.one y (y.map fun _ => c)) ∧ Respaced sp x y n :=
  C136_function sp I hI k h1 h5 x hx hk size n hsize hn (fun _ => c) fun p _ _ _ _ _ _ =>
    spl_const hI false hx.1 (by intro h; simp [h] at hk) c p

/-! ### Windows -/

/-- A size which is not a sequence. -/
def ReSize.ofOption : Option ℤ → ReSize
  | Option.none => .none
  | Option.some z => .int z

/-- The earlier model of resampling of windows agrees with that of the function called. -/
theorem resample_window (I : Interp ℝ) {x : List ℝ} {q : List (List ℝ)} (hq : q.length = x.length)
    (hr : ∀ row ∈ q, row.length = x.length) (h2 : 2 ≤ x.length) (size : Option ℤ) :
    resample .lglin I 3 (.one x) (.two q) (.ofOption size) =
      (resampleLglin I x q size).map fun p => .two p.1 p.1 p.2 := by
  rw [passed_resample I (x' := x) (Or.inl ⟨rfl, rfl⟩) rfl h2 hq hr]
  have hp : (ReSize.ofOption size).plane = .ok (size, size) := by cases size <;> rfl
  unfold resample2 resampleLglin
  rw [hp, if_neg (by omega)]
  simp only
  cases hh : x.head? with
  | none => cases x.getLast? <;> rfl
  | some a =>
    cases hb : x.getLast? with
    | none => rfl
    | some b =>
      simp only
      cases hz : sizeOr size x.length with
      | error e => rfl
      | ok n =>
        simp only
        by_cases hx : x.length < 4 ∨ ¬ Arr.allAdj (fun u v => u < v) x = true
        · rw [if_pos hx, if_pos]
          · rfl
          · rintro ⟨hf, _⟩
            unfold fits at hf
            simp only [Bool.and_eq_true, decide_eq_true_eq] at hf
            rcases hx with h | h
            · omega
            · exact h hf.2
        · rw [if_neg hx, if_neg]
          · rfl
          · push Not at hx ⊢
            have hf : fits 3 x = true := by
              unfold fits
              rw [hx.2]
              simp
              omega
            exact ⟨hf, hf, hq, hr⟩

/-- A window with logarithmic spacing and a number is resampled as in the earlier model. -/
theorem C136_window (I : Interp ℝ) (w : Win ℝ) (hw : w.Ok) (h2 : ∀ m ∈ w.multipoles, ∀ x, w.r.at (.mp m) = .ok x → 2 ≤ x.length)
    (size : Option ℤ) :
    w.resampleAs .lglin I 3 (.ofOption size) = w.resample I size := by
  unfold Win.resampleAs Win.resample
  have : ∀ p ∈ w.Q, resampleOneAs .lglin I 3 w (.ofOption size) p = resampleOne I w size p := by
    intro p hp
    obtain ⟨d, hd, hd1, hd2⟩ := hw.dict
    obtain ⟨hm, hq⟩ := hd2 p hp
    obtain ⟨x, hx⟩ := hd1 _ hm
    have hat : w.r.at (.mp p.1) = .ok x := by rw [hd]; simp only [RAttr.at, get, hx]
    obtain ⟨hq1, hq2⟩ := hq x hx
    unfold resampleOneAs resampleOne
    rw [hat]
    simp only
    rw [resample_window I hq1 hq2 (h2 _ hm x hat)]
    cases resampleLglin I x p.2 size <;> rfl
  have : traverse (resampleOneAs .lglin I 3 w (.ofOption size)) w.Q =
      traverse (resampleOne I w size) w.Q := by
    revert this
    generalize w.Q = l
    intro h
    induction l with
    | nil => rfl
    | cons p l ih =>
      unfold traverse
      rw [h p (by simp), ih fun q hq => h q (by simp [hq])]
  rw [this]
  rfl

/-- **C136, violated.** `size` may be documented to be a tuple; with different numbers, a window is left with
separations whose number is not that of the columns of its samples. -/
theorem C136_window_violated (sp : Spacing) (I : Interp ℝ) (k : ℕ) (h1 : 1 ≤ k) (h5 : k ≤ 5) (m : Multipole) (x : List ℝ)
    (q : List (List ℝ)) (g : List ℝ) (src : List String) (hx : Rising sp x) (hk : k < x.length) (hq : q.length = x.length)
    (hr : ∀ row ∈ q, row.length = x.length) (n n' : ℕ) (hn : 0 < n) (hn' : 0 < n') (hne : n ≠ n') :
    ∃ w' : Win ℝ, (⟨[m], .dict [(m, x)], [(m, q)], [(m, g)], src⟩ : Win ℝ).resampleAs sp I k (.seq [some (n : ℤ), some (n' : ℤ)]) = .ok w' ∧
      (∃ y t, w'.r.at (.mp m) = .ok y ∧ get? w'.Q m = some t ∧ y.length = n ∧ t.length = n ∧ ∀ row ∈ t, row.length = n') ∧
      ¬ w'.Ok := by
  have hz : ∀ (c : ℕ) (l : ℕ), 0 < c → sizeOr (some (c : ℤ)) l = .ok c := by
    intro c l hc
    unfold sizeOr
    simp only
    rw [if_neg (by omega), if_neg (by omega)]
    simp
  obtain ⟨a, b, a', b', ha, hb, hab, ha', hb', hab', h⟩ := resample2_ok I h1 h5 hx hx hk hk hq hr
    (size := .seq [some (n : ℤ), some (n' : ℤ)]) (z := some n) (z' := some n') (n := n) (n' := n') rfl
    (hz n _ hn) (hz n' _ hn')
  have hstep : resampleOneAs sp I k (⟨[m], .dict [(m, x)], [(m, q)], [(m, g)], src⟩ : Win ℝ)
      (.seq [some (n : ℤ), some (n' : ℤ)]) (m, q) = .ok (m, spaced sp a b n, (spaced sp a b n).map fun p =>
        (spaced sp a' b' n').map fun p' => I.spl22 x x (fun i j => (q.getD i []).getD j 0) p p') := by
    unfold resampleOneAs
    have hat : (RAttr.dict [(m, x)] : RAttr ℝ).at (.mp m) = .ok x := by simp [RAttr.at, get, get?]
    simp only [hat]
    rw [passed_resample I (x' := x) (Or.inl ⟨rfl, rfl⟩) rfl (by omega) hq hr, h]
  refine ⟨_, by unfold Win.resampleAs; simp only [traverse, hstep]; rfl, ⟨spaced sp a b n, (spaced sp a b n).map fun p =>
    (spaced sp a' b' n').map fun p' => I.spl22 x x (fun i j => (q.getD i []).getD j 0) p p', ?_, ?_, length_spaced sp a b n, ?_, ?_⟩,
    fun hok => ?_⟩
  · simp [RAttr.at, get, get?]
  · simp only [get?, List.map_cons, List.find?_cons, decide_true, Option.map_some]
  · simp [length_spaced]
  · intro row hrow
    obtain ⟨p, _, rfl⟩ := List.mem_map.1 hrow
    simp [length_spaced]
  · obtain ⟨d, hd, _, hd2⟩ := hok.dict
    simp only [RAttr.dict.injEq] at hd
    subst hd
    obtain ⟨_, h3⟩ := hd2 _ (List.mem_singleton.2 rfl)
    obtain ⟨_, h4⟩ := h3 (spaced sp a b n) (by simp [get?])
    have := h4 _ (List.mem_map.2 ⟨_, List.mem_of_mem_head? (by
      show (spaced sp a b n).head? = some ((spaced sp a b n).getD 0 0)
      cases hh : spaced sp a b n with
      | nil =>
        have := length_spaced sp a b n
        rw [hh] at this
        simp at this
        omega
      | cons u l => rfl), rfl⟩)
    simp [length_spaced] at this
    exact hne this.symm

/-! ### Examples -/

theorem rising_1234 (sp : Spacing) : Rising sp [1, 2, 3, 4] := by
  refine ⟨by simp; norm_num, ?_⟩
  cases sp <;> simp

theorem rising_1248 (sp : Spacing) : Rising sp [1, 2, 4, 8] := by
  refine ⟨by simp; norm_num, ?_⟩
  cases sp <;> simp

/-- Linearly spaced points are resampled at five logarithmically spaced ones from 1 to 4; the first and the
last samples are kept. -/
example : ∃ y t, resample .lglin (stepInterp ℝ) 3 (.one [1, 2, 3, 4]) (.one [5, 6, 7, 9]) (.int 5) = .ok (.one y t) ∧
    y.length = 5 ∧ t.getD 0 0 = 5 ∧ t.getD 4 0 = 9 ∧ y.getD 2 0 = 2 ∧ t.getD 2 0 = 6 := by
  obtain ⟨y, t, h, hy, h2, h3, _⟩ := C136_line .lglin (stepInterp ℝ) (stepInterp_ok ℝ) 3 (by omega) (by omega) [1, 2, 3, 4] [5, 6, 7, 9]
    (rising_1234 _) (by simp) rfl (.int 5) 5 (by simp [ReSize.line, sizeOr]) (by omega)
  obtain ⟨hl, hr, ⟨r, hr0, hr1⟩, hh, hb⟩ := hy
  have y0 : y.getD 0 0 = 1 := by rw [List.getD_eq_getElem?_getD, ← List.head?_eq_getElem?, hh]; rfl
  have y4 : y.getD 4 0 = 4 := by
    rw [List.getLast?_eq_getElem?, hl] at hb
    rw [List.getD_eq_getElem?_getD]
    simp only [Nat.reduceSub] at hb
    rw [hb]
    rfl
  have y2 : y.getD 2 0 = 2 := by
    have e1 := hr1 0 (by omega)
    have e2 := hr1 1 (by omega)
    have e3 := hr1 2 (by omega)
    have e4 := hr1 3 (by omega)
    simp only [Nat.reduceAdd] at e1 e2 e3 e4
    rw [e3, e2, e1, y0] at e4
    rw [y4] at e4
    have hq : r ^ 2 = 2 := by nlinarith [sq_nonneg (r ^ 2 - 2), sq_nonneg r, pow_pos hr0 2]
    rw [e2, e1, y0]
    linarith
  refine ⟨y, t, h, hl, ?_, ?_, y2, ?_⟩
  · exact h3 0 0 (by omega) (by simp) y0
  · exact h3 4 3 (by omega) (by simp) y4
  · exact h3 2 1 (by omega) (by simp) y2

/-- Points which are logarithmically spaced are kept in either dimension. -/
example : resample .lglin (stepInterp ℝ) 1 (.one [1, 2, 4, 8]) (.one [5, 6, 7, 9]) .none = .ok (.one [1, 2, 4, 8] [5, 6, 7, 9]) :=
  C136_same_line .lglin _ (stepInterp_ok ℝ) 1 (by omega) (by omega) _ _ (rising_1248 _)
    ⟨2, by norm_num, fun i hi => by
      have hi' : i < 3 := by simp at hi; omega
      interval_cases i <;> norm_num⟩ (by simp) rfl

/-- Two arrays, and two different numbers. -/
example : ∃ y y' t, resample .lin (stepInterp ℝ) 1 (.two [[1, 2, 3, 4], [1, 2, 4, 8]])
    (.two [[1, 2, 3, 4], [1, 2, 4, 8], [0, 0, 0, 0], [1, 1, 1, 1]]) (.seq [some 2, some 3]) = .ok (.two y y' t) ∧ y.length = 2 ∧
      y'.length = 3 ∧ t.length = 2 := by
  obtain ⟨y, y', t, h, hy, hy', ht, _⟩ := C136_plane_partial .lin (stepInterp ℝ) (stepInterp_ok ℝ) 1 (by omega) (by omega)
    (.two [[1, 2, 3, 4], [1, 2, 4, 8]]) _ _ (Or.inr rfl) rfl [[1, 2, 3, 4], [1, 2, 4, 8], [0, 0, 0, 0], [1, 1, 1, 1]]
    (rising_1234 _) (rising_1248 _) (by simp) rfl (by simp) (.seq [some 2, some 3]) (some 2) (some 3) 2 3 rfl rfl rfl (by omega) (by omega)
  exact ⟨y, y', t, h, hy.1, hy'.1, ht⟩

/-- As many rows and columns as points in each dimension, and still rejected. -/
example : resample .lin (stepInterp ℝ) 1 (.two [[1, 2, 3], [1, 2]]) (.two [[1, 2], [3, 4], [5, 6]]) .none = .error .valueError :=
  C136_lengths_violated _ _ _ _ _ (by simp) _ _

/-- A window resampled at two times three separations. -/
example : ∃ w' : Win ℝ, (⟨[m000], .dict [(m000, [1, 2])], [(m000, [[1, 2], [3, 4]])], [(m000, [1, 4])], ["array"]⟩ : Win ℝ).resampleAs
    .lin (stepInterp ℝ) 1 (.seq [some 2, some 3]) = .ok w' ∧ ¬ w'.Ok := by
  obtain ⟨w', h, _, h'⟩ := C136_window_violated .lin (stepInterp ℝ) 1 (by omega) (by omega) m000 [1, 2] [[1, 2], [3, 4]] [1, 4] ["array"]
    ⟨by simp, trivial⟩ (by simp) rfl (by simp) 2 3 (by omega) (by omega) (by omega)
  exact ⟨w', h, h'⟩

end Trv.Wc

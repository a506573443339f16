import Verif.Lemmas.Output
/-
C117: the files measurements are saved in.
-/
namespace Trv.Out

open Trv Trv.Par Trv.Mon

/-- The letters at the beginning of the name of a file. -/
def preOf (s : String) : Str :=
  if s = "powspec" then "pk".toList else if s = "2pcf" then "xi".toList
  else if s = "2pcf-win" then "xiw".toList else if s = "bispec" then "bk".toList
  else if s = "3pcf" then "zeta".toList else "zetaw".toList

/-- The end of the name of a three-point file. -/
def tailOf (p : P) : Str :=
  if p.stat = "3pcf-win-wa" then "_wa".toList ++ (toStr p.iWa ++ (toStr p.jWa ++ p.tag.getD []))
  else p.tag.getD []

theorem not_two_three {s : String} (h : Two s) : ¬ Three s := by
  rcases h with h | h | h <;> subst h <;> decide

theorem pyName_ok {p : P} {n : Str} (h : pyName p = .ok n) :
    (Two p.stat ∧ n = preOf p.stat ++ (toStr p.ELL ++ p.tag.getD [])) ∨
    (Three p.stat ∧ ∃ b, binform p = .ok b ∧
      n = preOf p.stat ++ (toStr p.ell1 ++ (toStr p.ell2 ++ (toStr p.ELL ++ (b ++ tailOf p))))) := by
  unfold pyName at h
  by_cases h2 : p.stat = "powspec" ∨ p.stat = "2pcf" ∨ p.stat = "2pcf-win"
  · rw [if_pos h2] at h
    left
    refine ⟨h2, ?_⟩
    unfold pyName2 P.tagStr at h
    rcases h2 with e | e | e <;> rw [e] at h ⊢ <;> simp [preOf] at h ⊢ <;> exact h.symm
  · rw [if_neg h2] at h
    right
    unfold pyName3 at h
    cases hb : binform p with
    | error e =>
      rw [hb] at h
      cases e <;> simp only at h <;> try exact absurd h (by simp)
      split_ifs at h
    | ok b =>
      rw [hb] at h
      simp only at h
      unfold P.tagStr degs at h
      split_ifs at h with e1 e2 e3 e4
      · refine ⟨Or.inl e1, b, rfl, ?_⟩
        rw [Except.ok.injEq] at h
        rw [← h]
        simp [preOf, tailOf, e1]
      · refine ⟨Or.inr (Or.inl e2), b, rfl, ?_⟩
        rw [Except.ok.injEq] at h
        rw [← h]
        simp [preOf, tailOf, e2]
      · refine ⟨Or.inr (Or.inr (Or.inl e3)), b, rfl, ?_⟩
        rw [Except.ok.injEq] at h
        rw [← h]
        simp [preOf, tailOf, e3]
      · refine ⟨Or.inr (Or.inr (Or.inr e4)), b, rfl, ?_⟩
        rw [Except.ok.injEq] at h
        rw [← h]
        simp [preOf, tailOf, e4]

theorem binform_ok {p : P} {b : Str} (h : binform p = .ok b) :
    (p.form = "diag" ∧ b = "_diag".toList) ∨
    (p.form = "off-diag" ∧ ∃ k, p.idxBin = some k ∧ b = "_offdiag".toList ++ toStr k) ∨
    (p.form = "row" ∧ ∃ k, p.idxBin = some k ∧ b = "_row".toList ++ toStr k) ∨
    (p.form = "full" ∧ b = "_full".toList) := by
  unfold binform at h
  split_ifs at h with e1 e2 e3 e4
  · exact Or.inl ⟨e1, by simpa using h.symm⟩
  · cases hk : p.idxBin with
    | none => simp [hk] at h
    | some k =>
      rw [hk] at h
      exact Or.inr (Or.inl ⟨e2, k, rfl, by simpa using h.symm⟩)
  · cases hk : p.idxBin with
    | none => simp [hk] at h
    | some k =>
      rw [hk] at h
      exact Or.inr (Or.inr (Or.inl ⟨e3, k, rfl, by simpa using h.symm⟩))
  · exact Or.inr (Or.inr (Or.inr ⟨e4, by simpa using h.symm⟩))

/-- The bin a form refers to. -/
def usedBin (p : P) : Option ℤ := if p.form = "off-diag" ∨ p.form = "row" then p.idxBin else none

theorem binform_inj {p q : P} {b c u v : Str} (hb : binform p = .ok b) (hc : binform q = .ok c)
    (hu : NoDigit u) (hv : NoDigit v) (h : b ++ u = c ++ v) :
    p.form = q.form ∧ usedBin p = usedBin q ∧ u = v := by
  unfold usedBin
  rcases binform_ok hb with ⟨f, rfl⟩ | ⟨f, k, hk, rfl⟩ | ⟨f, k, hk, rfl⟩ | ⟨f, rfl⟩ <;>
    rcases binform_ok hc with ⟨g, rfl⟩ | ⟨g, j, hj, rfl⟩ | ⟨g, j, hj, rfl⟩ | ⟨g, rfl⟩ <;>
    rw [f, g]
  all_goals first
    | (simp at h; done)
    | skip
  · simp at h
    simp [h]
  · simp only [List.append_assoc] at h
    obtain ⟨e1, e2⟩ := toStr_append hu hv (List.append_cancel_left h)
    simp [hk, hj, e1, e2]
  · simp only [List.append_assoc] at h
    obtain ⟨e1, e2⟩ := toStr_append hu hv (List.append_cancel_left h)
    simp [hk, hj, e1, e2]
  · simp at h
    simp [h]

theorem preOf_letters (s : String) : ∀ c ∈ preOf s, c.isDigit = false := by
  unfold preOf
  split_ifs <;> decide

theorem preOf_eq {s t : String} (hs : Two s ∨ Three s) (ht : Two t ∨ Three t) (h : preOf s = preOf t) :
    s = t ∨ (s = "3pcf-win" ∧ t = "3pcf-win-wa") ∨ (s = "3pcf-win-wa" ∧ t = "3pcf-win") := by
  rcases hs with (rfl | rfl | rfl) | (rfl | rfl | rfl | rfl) <;>
    rcases ht with (rfl | rfl | rfl) | (rfl | rfl | rfl | rfl) <;>
    first
      | exact Or.inl rfl
      | (right; decide)
      | (exact absurd h (by decide))

theorem noDigit_tailOf {p : P} (h : Plain p) : NoDigit (tailOf p) := by
  unfold tailOf
  split_ifs
  · intro c hc
    simp at hc
    subst hc
    decide
  · exact h.digit

theorem tail_two {p : P} (h : Plain p) : NoDigit (p.tag.getD []) := h.digit

/-- Names of plain parameters say which measurement they belong to. -/
theorem pyName_inj {p q : P} {n : Str} (hp : Plain p) (hq : Plain q) (h1 : pyName p = .ok n)
    (h2 : pyName q = .ok n) : ident p = ident q := by
  have hdig : ∀ (a : ℤ) (s : Str), 0 ≤ a → ∃ c l, toStr a ++ s = c :: l ∧ c.isDigit = true := by
    intro a s ha
    obtain ⟨c, l, e, hc⟩ := toStr_digit ha
    exact ⟨c, l ++ s, by rw [e]; rfl, hc⟩
  rcases pyName_ok h1 with ⟨t1, e1⟩ | ⟨t1, b, hb, e1⟩ <;>
    rcases pyName_ok h2 with ⟨t2, e2⟩ | ⟨t2, c, hc, e2⟩
  · obtain ⟨e3, e4⟩ := prefix_append (preOf_letters _) (preOf_letters _) (hdig _ _ hp.degree)
      (hdig _ _ hq.degree) (e1.symm.trans e2)
    have hs : p.stat = q.stat := by
      rcases preOf_eq (Or.inl t1) (Or.inl t2) e3 with e | ⟨e, _⟩ | ⟨e, _⟩
      · exact e
      · rw [e] at t1; exact absurd t1 (by decide)
      · rw [e] at t1; exact absurd t1 (by decide)
    obtain ⟨e5, e6⟩ := toStr_append (tail_two hp) (tail_two hq) e4
    have hw : q.stat ≠ "3pcf-win-wa" := by
      intro e; rw [e] at t2; exact absurd t2 (by decide)
    unfold ident
    rw [hs, if_neg (not_two_three t2), if_neg (not_two_three t2), if_neg (not_two_three t2),
      if_neg (not_two_three t2), e5, e6, if_neg hw, if_neg hw]
  · exfalso
    obtain ⟨e3, e4⟩ := prefix_append (preOf_letters _) (preOf_letters _) (hdig _ _ hp.degree)
      (hdig _ _ (hq.degrees t2).1.1) (e1.symm.trans e2)
    rcases preOf_eq (Or.inl t1) (Or.inr t2) e3 with e | ⟨e, _⟩ | ⟨e, _⟩
    · rw [e] at t1; exact not_two_three t1 t2
    · rw [e] at t1; exact absurd t1 (by decide)
    · rw [e] at t1; exact absurd t1 (by decide)
  · exfalso
    obtain ⟨e3, e4⟩ := prefix_append (preOf_letters _) (preOf_letters _) (hdig _ _ (hp.degrees t1).1.1)
      (hdig _ _ hq.degree) (e1.symm.trans e2)
    rcases preOf_eq (Or.inr t1) (Or.inl t2) e3 with e | ⟨_, e⟩ | ⟨_, e⟩
    · rw [e] at t1; exact not_two_three t2 t1
    · rw [e] at t2; exact absurd t2 (by decide)
    · rw [e] at t2; exact absurd t2 (by decide)
  · have dp := hp.degrees t1
    have dq := hq.degrees t2
    obtain ⟨e3, e4⟩ := prefix_append (preOf_letters _) (preOf_letters _) (hdig _ _ dp.1.1)
      (hdig _ _ dq.1.1) (e1.symm.trans e2)
    obtain ⟨d1, e5⟩ := toStr_single dp.1 dq.1 e4
    obtain ⟨d2, e6⟩ := toStr_single dp.2.1 dq.2.1 e5
    obtain ⟨d3, e7⟩ := toStr_single ⟨hp.degree, dp.2.2⟩ ⟨hq.degree, dq.2.2⟩ e6
    obtain ⟨f1, f2, f3⟩ := binform_inj hb hc (noDigit_tailOf hp) (noDigit_tailOf hq) e7
    have hs : p.stat = q.stat := by
      rcases preOf_eq (Or.inr t1) (Or.inr t2) e3 with e | ⟨e, e'⟩ | ⟨e, e'⟩
      · exact e
      · exfalso
        unfold tailOf at f3
        rw [if_neg (by rw [e]; decide), if_pos e'] at f3
        exact hp.window e (by rw [f3]; exact List.prefix_append _ _)
      · exfalso
        unfold tailOf at f3
        rw [if_pos e, if_neg (by rw [e']; decide)] at f3
        exact hq.window e' (by rw [← f3]; exact List.prefix_append _ _)
    have hw : (if p.stat = "3pcf-win-wa" then some (p.iWa, p.jWa) else none) =
        (if q.stat = "3pcf-win-wa" then some (q.iWa, q.jWa) else none) ∧ p.tag.getD [] = q.tag.getD [] := by
      unfold tailOf at f3
      by_cases hw : p.stat = "3pcf-win-wa"
      · have hw' : q.stat = "3pcf-win-wa" := hs ▸ hw
        rw [if_pos hw, if_pos hw'] at f3 ⊢
        have op := hp.orders hw
        have oq := hq.orders hw'
        obtain ⟨g1, g2⟩ := toStr_single op.1 oq.1 (List.append_cancel_left f3)
        obtain ⟨g3, g4⟩ := toStr_single op.2 oq.2 g2
        exact ⟨by rw [g1, g3], g4⟩
      · have hw' : q.stat ≠ "3pcf-win-wa" := hs ▸ hw
        rw [if_neg hw, if_neg hw'] at f3 ⊢
        exact ⟨rfl, f3⟩
    unfold usedBin at f2
    rw [f1] at f2
    unfold ident
    rw [if_pos t1, if_pos t2, if_pos t1, if_pos t2, d1, d2, d3, hw.1, hw.2, f1, f2, hs]

theorem preOf_chars (s : String) : '.' ∉ preOf s ∧ '/' ∉ preOf s ∧ preOf s ≠ [] := by
  unfold preOf
  split_ifs <;> decide

theorem binform_chars {p : P} {b : Str} (h : binform p = .ok b) : '.' ∉ b ∧ '/' ∉ b := by
  rcases binform_ok h with ⟨_, rfl⟩ | ⟨_, k, _, rfl⟩ | ⟨_, k, _, rfl⟩ | ⟨_, rfl⟩
  · decide
  · simp [notMem_toStr (c := '.') (by decide) (by decide) k, notMem_toStr (c := '/') (by decide) (by decide) k]
  · simp [notMem_toStr (c := '.') (by decide) (by decide) k, notMem_toStr (c := '/') (by decide) (by decide) k]
  · decide

/-- The name of a file: a part which does not depend on the tag, without dots and slashes, and the tag. -/
theorem pyName_tag {p : P} {n : Str} (h : pyName p = .ok n) :
    ∃ a, n = a ++ p.tag.getD [] ∧ '.' ∉ a ∧ '/' ∉ a ∧ a ≠ [] ∧
      ∀ t, pyName { p with tag := some t } = .ok (a ++ t) := by
  have hd := fun k => notMem_toStr (c := '.') (by decide) (by decide) k
  have hsl := fun k => notMem_toStr (c := '/') (by decide) (by decide) k
  obtain ⟨c1, c2, c3⟩ := preOf_chars p.stat
  rcases pyName_ok h with ⟨t1, e1⟩ | ⟨t1, b, hb, e1⟩
  · refine ⟨preOf p.stat ++ toStr p.ELL, by rw [e1, List.append_assoc], ?_, ?_, ?_, ?_⟩
    · simp [c1, hd]
    · simp [c2, hsl]
    · simp [c3]
    · intro t
      unfold pyName pyName2 P.tagStr preOf
      rcases t1 with e | e | e <;> simp [e]
  · obtain ⟨b1, b2⟩ := binform_chars hb
    have hw : ∃ u, tailOf p = u ++ p.tag.getD [] ∧ '.' ∉ u ∧ '/' ∉ u ∧
        ∀ t, tailOf { p with tag := some t } = u ++ t := by
      unfold tailOf
      by_cases hw : p.stat = "3pcf-win-wa"
      · rw [if_pos hw]
        refine ⟨"_wa".toList ++ (toStr p.iWa ++ toStr p.jWa), by simp, ?_, ?_, ?_⟩
        · simp [hd]
        · simp [hsl]
        · intro t
          simp [hw]
      · rw [if_neg hw]
        exact ⟨[], by simp, by simp, by simp, by simp [hw]⟩
    obtain ⟨u, hu, u1, u2, hu'⟩ := hw
    refine ⟨preOf p.stat ++ (toStr p.ell1 ++ (toStr p.ell2 ++ (toStr p.ELL ++ (b ++ u)))), ?_, ?_, ?_, ?_, ?_⟩
    · rw [e1, hu]; simp
    · simp [c1, hd, b1, u1]
    · simp [c2, hsl, b2, u2]
    · simp [c3]
    · intro t
      have hb' : binform { p with tag := some t } = .ok b := hb
      have h2 : ¬ (p.stat = "powspec" ∨ p.stat = "2pcf" ∨ p.stat = "2pcf-win") := fun h2 => not_two_three h2 t1
      have hu'' := hu' t
      unfold tailOf at hu''
      unfold pyName
      rw [if_neg h2]
      unfold pyName3 P.tagStr degs preOf
      rw [hb']
      rcases t1 with e | e | e | e <;> simp [e] at hu'' ⊢
      · exact hu''
      · exact hu''
      · exact hu''
      · rw [← hu'']

theorem pyPath_ok {p : P} {n suf : Str} (h : pyName p = .ok n) (hs : '/' ∉ p.tag.getD []) :
    pyPath p suf = .ok ⟨(p.dir.getD []).head? = some '/', comps (p.dir.getD []) ++ [withSuffix n suf]⟩ := by
  obtain ⟨a, rfl, a1, a2, a3, _⟩ := pyName_tag h
  unfold pyPath
  rw [h]
  simp only
  refine pathWithSuffix _ _ _ (by simp [a2, hs]) (by simp [a3]) ?_
  intro e
  cases a with
  | nil => exact a3 rfl
  | cons c a =>
    simp only [List.cons_append, List.cons.injEq] at e
    exact a1 (by simp [e.1])

/-- **C117, saved measurements go to distinct files** (partial: degrees of three-point statistics and
wide-angle orders are single digits, and the tags have no dots or slashes, do not begin with a digit, and
do not begin with "_wa" for a window).  Two measurements saved by the Python functions in the same
directory and format go to the same file only if they are of the same statistic, degrees, form, bin,
wide-angle orders and tag. -/
theorem C117_distinct_partial (p q : P) (suf : Str) (f : Path) (hp : Plain p) (hq : Plain q)
    (hd : p.dir = q.dir) (h1 : pyPath p suf = .ok f) (h2 : pyPath q suf = .ok f) : ident p = ident q := by
  cases n1 : pyName p with
  | error e => simp [pyPath, n1] at h1
  | ok n =>
    cases n2 : pyName q with
    | error e => simp [pyPath, n2] at h2
    | ok m =>
      rw [pyPath_ok n1 hp.slash] at h1
      rw [pyPath_ok n2 hq.slash, ← hd] at h2
      have e := h1.trans h2.symm
      simp only [Except.ok.injEq, Path.mk.injEq, true_and] at e
      have e' : withSuffix n suf = withSuffix m suf := by simpa using List.append_cancel_left e
      obtain ⟨a, ha, a1, _⟩ := pyName_tag n1
      obtain ⟨b, hb, b1, _⟩ := pyName_tag n2
      rw [withSuffix_none (by rw [ha]; simp [a1, hp.dot]), withSuffix_none (by rw [hb]; simp [b1, hq.dot])] at e'
      have := List.append_cancel_right e'
      subst this
      exact pyName_inj hp hq n1 n2

/-- **C117 fails for tags with a dot**: whatever follows the last dot of the tag is replaced by the suffix
of the format.  Measurements whose tags differ only after the last dot are saved in the same file, which
is also the file of the tag without that part if it contains no other dot. -/
theorem C117_dotted_violated (p : P) (n t a b suf : Str) (h : pyName p = .ok n) (ht : '/' ∉ t)
    (ha : '/' ∉ a ∧ '.' ∉ a ∧ a ≠ []) (hb : '/' ∉ b ∧ '.' ∉ b ∧ b ≠ []) :
    (∃ f, pyPath { p with tag := some (t ++ '.' :: a) } suf = .ok f ∧
      pyPath { p with tag := some (t ++ '.' :: b) } suf = .ok f ∧
      ('.' ∉ t → pyPath { p with tag := some t } suf = .ok f)) ∧
    (a ≠ b → ident { p with tag := some (t ++ '.' :: a) } ≠ ident { p with tag := some (t ++ '.' :: b) }) := by
  obtain ⟨s, hs, s1, s2, s3, hs'⟩ := pyName_tag h
  have key : ∀ a : Str, '/' ∉ a → '.' ∉ a → a ≠ [] →
      pyPath { p with tag := some (t ++ '.' :: a) } suf =
        .ok ⟨(p.dir.getD []).head? = some '/', comps (p.dir.getD []) ++ [s ++ t ++ suf]⟩ := by
    intro a h1 h2 h3
    rw [pyPath_ok (hs' (t ++ '.' :: a)) (by simp [ht, h1])]
    congr 3
    have e : s ++ (t ++ '.' :: a) = (s ++ t) ++ '.' :: a := by simp
    rw [e]
    unfold withSuffix
    rw [rfindDot_last h2]
    simp only
    rw [if_pos]
    · rw [List.take_left']
      rfl
    · have : 0 < s.length := List.length_pos_iff.2 s3
      have : 0 < a.length := List.length_pos_iff.2 h3
      simp only [List.length_append, List.length_cons]
      omega
  refine ⟨⟨_, key a ha.1 ha.2.1 ha.2.2, key b hb.1 hb.2.1 hb.2.2, ?_⟩, ?_⟩
  · intro hdot
    rw [pyPath_ok (hs' t) (by simpa using ht), withSuffix_none (by simp [s1, hdot])]
  · intro hab e
    unfold ident at e
    simp only [Prod.mk.injEq] at e
    have := e.2.2.2.2
    simp at this
    exact hab this

/-- **C117 fails for degrees of several digits**, which are written one after the other: the multipoles
(1, 11, L) and (11, 1, L) of every three-point statistic are saved in the same file. -/
theorem C117_degrees_violated (p : P) (suf : Str) (ht : Three p.stat) :
    pyPath { p with ell1 := 1, ell2 := 11 } suf = pyPath { p with ell1 := 11, ell2 := 1 } suf ∧
    cppPath { p with ell1 := 1, ell2 := 11 } = cppPath { p with ell1 := 11, ell2 := 1 } ∧
    ident { p with ell1 := 1, ell2 := 11 } ≠ ident { p with ell1 := 11, ell2 := 1 } := by
  have hd : degs { p with ell1 := 1, ell2 := 11 } = degs { p with ell1 := 11, ell2 := 1 } := by
    have h : toStr 1 ++ toStr 11 = toStr 11 ++ toStr 1 := by decide
    unfold degs
    simp only
    rw [h]
  refine ⟨?_, ?_, ?_⟩
  · unfold pyPath pyName pyName3
    rw [hd]
    rfl
  · unfold cppPath cppFull
    rw [hd]
    rfl
  · unfold ident
    simp only
    simp [ht]

/-- **C117 fails for the bin followed by a tag which begins with a digit**, and for the tag of a window
which looks like a wide-angle tag. -/
theorem C117_tags_violated (p : P) (suf : Str) (k : ℕ) (t : Str) :
    (p.form = "row" ∨ p.form = "off-diag" → Three p.stat → p.stat ≠ "3pcf-win-wa" →
      pyPath { p with idxBin := some (k * 10 + 1 : ℕ), tag := some t } suf =
        pyPath { p with idxBin := some k, tag := some ('1' :: t) } suf ∨ k = 0) ∧
    (∀ i j : ℤ, pyPath { p with stat := "3pcf-win-wa", iWa := i, jWa := j, tag := some t } suf =
      pyPath { p with stat := "3pcf-win", tag := some ("_wa".toList ++ toStr i ++ toStr j ++ t) } suf) := by
  refine ⟨?_, ?_⟩
  · intro hf ht hw
    rcases Nat.eq_zero_or_pos k with h0 | h0
    · exact Or.inr h0
    left
    have hk : toStr ((k * 10 + 1 : ℕ) : ℤ) = toStr (k : ℤ) ++ ['1'] := by
      have hn : ∀ n : ℕ, toStr (n : ℤ) = Nat.toDigits 10 n := by intro n; simp [toStr]
      rw [hn, hn, Nat.toDigits_eq_if (by norm_num), if_neg (by omega)]
      have e1 : (k * 10 + 1) / 10 = k := by omega
      have e2 : (k * 10 + 1) % 10 = 1 := by omega
      rw [e1, e2]
      rfl
    have hn : pyName { p with idxBin := some ((k * 10 + 1 : ℕ) : ℤ), tag := some t } =
        pyName { p with idxBin := some (k : ℤ), tag := some ('1' :: t) } := by
      unfold pyName pyName2 pyName3 binform P.tagStr degs
      rcases hf with hf | hf <;> simp only [hf] <;> rcases ht with e | e | e | e <;>
        first
        | exact absurd e hw
        | (simp only [e]; rw [hk]; simp)
    unfold pyPath
    rw [hn]
  · intro i j
    have hn : pyName { p with stat := "3pcf-win-wa", iWa := i, jWa := j, tag := some t } =
        pyName { p with stat := "3pcf-win", tag := some ("_wa".toList ++ toStr i ++ toStr j ++ t) } := by
      have hb : binform { p with stat := "3pcf-win-wa", iWa := i, jWa := j, tag := some t } =
          binform { p with stat := "3pcf-win", tag := some ("_wa".toList ++ toStr i ++ toStr j ++ t) } := rfl
      unfold pyName pyName3
      rw [hb]
      unfold P.tagStr degs
      simp
    unfold pyPath
    rw [hn]

/-! ### The program -/

theorem cppForm_ok {p : P} {f : Str} (h : cppForm p = some f) (hi : p.idxBin.isSome) :
    ∃ b, binform p = .ok ('_' :: b) ∧ f = b ++ p.tag.getD [] := by
  unfold cppForm P.tagStr at h
  unfold binform
  obtain ⟨k, hk⟩ := Option.isSome_iff_exists.1 hi
  rw [hk] at h ⊢
  split_ifs at h with e1 e2 e3
  · rcases e1 with e | e
    · exact ⟨"full".toList, by simp [e], by simpa [e] using h.symm⟩
    · exact ⟨"diag".toList, by simp [e], by simpa [e] using h.symm⟩
  · exact ⟨"offdiag".toList ++ toStr k, by simp [e2], by simpa using h.symm⟩
  · exact ⟨"row".toList ++ toStr k, by simp [e3], by simpa using h.symm⟩

theorem cppForm_of_binform {p : P} {b : Str} (h : binform p = .ok b) :
    ∃ c, b = '_' :: c ∧ cppForm p = some (c ++ p.tag.getD []) := by
  unfold cppForm P.tagStr
  rcases binform_ok h with ⟨e, rfl⟩ | ⟨e, k, hk, rfl⟩ | ⟨e, k, hk, rfl⟩ | ⟨e, rfl⟩
  · exact ⟨"diag".toList, rfl, by simp [e]⟩
  · exact ⟨"offdiag".toList ++ toStr k, rfl, by simp [e, hk]⟩
  · exact ⟨"row".toList ++ toStr k, rfl, by simp [e, hk]⟩
  · exact ⟨"full".toList, rfl, by simp [e]⟩

/-- **C117, the program and the Python functions.** Except for wide-angle windows, the program writes to the
path of the directory and the name which the Python functions use before they add the suffix. -/
theorem C117_same_names (p : P) (n : Str) (h : pyName p = .ok n) (hw : p.stat ≠ "3pcf-win-wa") :
    cppFull p = some (p.dir.getD [] ++ '/' :: n) := by
  unfold cppFull P.tagStr degs
  rcases pyName_ok h with ⟨t1, e1⟩ | ⟨t1, b, hb, e1⟩
  · unfold preOf at e1
    rcases t1 with e | e | e <;> simp [e] at e1 ⊢ <;> exact e1.symm
  · obtain ⟨c, rfl, hc⟩ := cppForm_of_binform hb
    unfold preOf tailOf at e1
    rw [if_neg hw] at e1
    rw [hc]
    rcases t1 with e | e | e | e
    · simp [e] at e1 ⊢; exact e1.symm
    · simp [e] at e1 ⊢; exact e1.symm
    · simp [e] at e1 ⊢; exact e1.symm
    · exact absurd e hw

/-- The program and the Python functions name the files of wide-angle windows differently: the
wide-angle orders come before the form in one and after it in the other. -/
theorem C117_wide_angle_violated (p : P) (n : Str) (h : pyName p = .ok n) (hw : p.stat = "3pcf-win-wa") :
    ∃ s, cppFull p = some s ∧ s ≠ p.dir.getD [] ++ '/' :: n := by
  rcases pyName_ok h with ⟨t1, e1⟩ | ⟨t1, b, hb, e1⟩
  · rw [hw] at t1; exact absurd t1 (by decide)
  · obtain ⟨c, hc', hc⟩ := cppForm_of_binform hb
    unfold cppFull degs
    rw [hc]
    refine ⟨_, by simp [hw]; rfl, ?_⟩
    rw [e1]
    unfold preOf tailOf
    rw [if_pos hw]
    simp only [hw]
    intro e
    simp at e
    rcases binform_ok hb with ⟨_, rfl⟩ | ⟨_, k, _, rfl⟩ | ⟨_, k, _, rfl⟩ | ⟨_, rfl⟩ <;> simp at e

/-- **C117, the program** (partial: as for the Python functions, but tags may have dots and slashes and the
tags of windows are free; paths of at most 1023 characters).  Two measurements of the program in the
same directory go to the same file only if they are of the same statistic, degrees, form, bin,
wide-angle orders and tag. -/
theorem C117_program_distinct_partial (p q : P) (f s t : Str)
    (hp : Plain { p with tag := some [] } ∧ NoDigit (p.tag.getD []) ∧ p.idxBin.isSome)
    (hq : Plain { q with tag := some [] } ∧ NoDigit (q.tag.getD []) ∧ q.idxBin.isSome)
    (hd : p.dir = q.dir) (hs : cppFull p = some s) (ht : cppFull q = some t)
    (ls : s.length ≤ 1023) (lt : t.length ≤ 1023)
    (h1 : cppPath p = some f) (h2 : cppPath q = some f) : ident p = ident q := by
  have est : s = t := by
    unfold cppPath at h1 h2
    rw [hs] at h1
    rw [ht] at h2
    simp only [Option.map_some, Option.some.injEq] at h1 h2
    rw [List.take_of_length_le ls] at h1
    rw [List.take_of_length_le lt] at h2
    rw [h1, h2]
  have key : ∀ (p : P) (s : Str), p.idxBin.isSome → cppFull p = some s →
      (Two p.stat ∧ s = (p.dir.getD [] ++ ['/']) ++ (preOf p.stat ++ (toStr p.ELL ++ p.tag.getD []))) ∨
      (Three p.stat ∧ p.stat ≠ "3pcf-win-wa" ∧ ∃ b, binform p = .ok b ∧
        s = (p.dir.getD [] ++ ['/']) ++
          (preOf p.stat ++ (toStr p.ell1 ++ (toStr p.ell2 ++ (toStr p.ELL ++ (b ++ p.tag.getD [])))))) ∨
      (p.stat = "3pcf-win-wa" ∧ ∃ b, binform p = .ok b ∧
        s = (p.dir.getD [] ++ ['/']) ++ (preOf p.stat ++ (toStr p.ell1 ++ (toStr p.ell2 ++ (toStr p.ELL ++
          ("_wa".toList ++ (toStr p.iWa ++ (toStr p.jWa ++ (b ++ p.tag.getD []))))))))) := by
    intro p s hi h
    unfold cppFull P.tagStr degs at h
    simp only at h
    split_ifs at h with e1 e2 e3 e4 e5 e6 e7
    · exact Or.inl ⟨Or.inl e1, by rw [← Option.some.inj h]; simp [preOf, e1]⟩
    · exact Or.inl ⟨Or.inr (Or.inl e2), by rw [← Option.some.inj h]; simp [preOf, e2]⟩
    · exact Or.inl ⟨Or.inr (Or.inr e3), by rw [← Option.some.inj h]; simp [preOf, e3]⟩
    · obtain ⟨g, hg, hg'⟩ := Option.map_eq_some_iff.1 h
      obtain ⟨b, hb, rfl⟩ := cppForm_ok hg hi
      exact Or.inr (Or.inl ⟨Or.inl e4, by rw [e4]; decide, _, hb, by rw [← hg']; simp [preOf, e4]⟩)
    · obtain ⟨g, hg, hg'⟩ := Option.map_eq_some_iff.1 h
      obtain ⟨b, hb, rfl⟩ := cppForm_ok hg hi
      exact Or.inr (Or.inl ⟨Or.inr (Or.inl e5), by rw [e5]; decide, _, hb, by rw [← hg']; simp [preOf, e5]⟩)
    · obtain ⟨g, hg, hg'⟩ := Option.map_eq_some_iff.1 h
      obtain ⟨b, hb, rfl⟩ := cppForm_ok hg hi
      exact Or.inr (Or.inl ⟨Or.inr (Or.inr (Or.inl e6)), by rw [e6]; decide, _, hb,
        by rw [← hg']; simp [preOf, e6]⟩)
    · obtain ⟨g, hg, hg'⟩ := Option.map_eq_some_iff.1 h
      obtain ⟨b, hb, rfl⟩ := cppForm_ok hg hi
      exact Or.inr (Or.inr ⟨e7, _, hb, by rw [← hg']; simp [preOf, e7]⟩)
  have hdig : ∀ (a : ℤ) (s : Str), 0 ≤ a → ∃ c l, toStr a ++ s = c :: l ∧ c.isDigit = true := by
    intro a s ha
    obtain ⟨c, l, e, hc⟩ := toStr_digit ha
    exact ⟨c, l ++ s, by rw [e]; rfl, hc⟩
  have hwa : ∀ (p : P) (b u v : Str), binform p = .ok b → b ++ u ≠ "_wa".toList ++ v := by
    intro p b u v hb e
    rcases binform_ok hb with ⟨_, rfl⟩ | ⟨_, k, _, rfl⟩ | ⟨_, k, _, rfl⟩ | ⟨_, rfl⟩ <;> simp at e
  subst est
  have w3 : Three "3pcf-win-wa" := by decide
  rcases key p s hp.2.2 hs with ⟨t1, e1⟩ | ⟨t1, w1, b, hb, e1⟩ | ⟨t1, b, hb, e1⟩ <;>
    rcases key q s hq.2.2 ht with ⟨t2, e2⟩ | ⟨t2, w2, c, hc, e2⟩ | ⟨t2, c, hc, e2⟩ <;>
    (rw [hd] at e1; have e0 := List.append_cancel_left (e1.symm.trans e2))
  · obtain ⟨e3, e4⟩ := prefix_append (preOf_letters _) (preOf_letters _) (hdig _ _ hp.1.degree)
      (hdig _ _ hq.1.degree) e0
    have hst : p.stat = q.stat := by
      rcases preOf_eq (Or.inl t1) (Or.inl t2) e3 with e | ⟨e, _⟩ | ⟨e, _⟩
      · exact e
      · rw [e] at t1; exact absurd t1 (by decide)
      · rw [e] at t1; exact absurd t1 (by decide)
    obtain ⟨e5, e6⟩ := toStr_append hp.2.1 hq.2.1 e4
    have hw : q.stat ≠ "3pcf-win-wa" := by
      intro e; rw [e] at t2; exact absurd t2 (by decide)
    unfold ident
    rw [hst, if_neg (not_two_three t2), if_neg (not_two_three t2), if_neg (not_two_three t2),
      if_neg (not_two_three t2), e5, e6, if_neg hw, if_neg hw]
  · exfalso
    obtain ⟨e3, _⟩ := prefix_append (preOf_letters _) (preOf_letters _) (hdig _ _ hp.1.degree)
      (hdig _ _ (hq.1.degrees t2).1.1) e0
    rcases preOf_eq (Or.inl t1) (Or.inr t2) e3 with e | ⟨e, _⟩ | ⟨e, _⟩
    · rw [e] at t1; exact not_two_three t1 t2
    · rw [e] at t1; exact absurd t1 (by decide)
    · rw [e] at t1; exact absurd t1 (by decide)
  · exfalso
    obtain ⟨e3, _⟩ := prefix_append (preOf_letters _) (preOf_letters _) (hdig _ _ hp.1.degree)
      (hdig _ _ (hq.1.degrees (t2 ▸ w3)).1.1) e0
    rcases preOf_eq (Or.inl t1) (Or.inr (t2 ▸ w3)) e3 with e | ⟨e, _⟩ | ⟨e, _⟩
    · rw [e, t2] at t1; exact absurd t1 (by decide)
    · rw [e] at t1; exact absurd t1 (by decide)
    · rw [e] at t1; exact absurd t1 (by decide)
  · exfalso
    obtain ⟨e3, _⟩ := prefix_append (preOf_letters _) (preOf_letters _) (hdig _ _ (hp.1.degrees t1).1.1)
      (hdig _ _ hq.1.degree) e0
    rcases preOf_eq (Or.inr t1) (Or.inl t2) e3 with e | ⟨_, e⟩ | ⟨_, e⟩
    · rw [e] at t1; exact not_two_three t2 t1
    · rw [e] at t2; exact absurd t2 (by decide)
    · rw [e] at t2; exact absurd t2 (by decide)
  · have dp := hp.1.degrees t1
    have dq := hq.1.degrees t2
    obtain ⟨e3, e4⟩ := prefix_append (preOf_letters _) (preOf_letters _) (hdig _ _ dp.1.1)
      (hdig _ _ dq.1.1) e0
    obtain ⟨d1, e5⟩ := toStr_single dp.1 dq.1 e4
    obtain ⟨d2, e6⟩ := toStr_single dp.2.1 dq.2.1 e5
    obtain ⟨d3, e7⟩ := toStr_single ⟨hp.1.degree, dp.2.2⟩ ⟨hq.1.degree, dq.2.2⟩ e6
    obtain ⟨f1, f2, f3⟩ := binform_inj hb hc hp.2.1 hq.2.1 e7
    have hst : p.stat = q.stat := by
      rcases preOf_eq (Or.inr t1) (Or.inr t2) e3 with e | ⟨_, e⟩ | ⟨e, _⟩
      · exact e
      · exact absurd e w2
      · exact absurd e w1
    simp only at d1 d2 d3
    unfold usedBin at f2
    rw [f1] at f2
    unfold ident
    rw [if_pos t1, if_pos t2, if_pos t1, if_pos t2, if_neg w1, if_neg w2, d1, d2, d3, f1, f2, f3, hst]
  · exfalso
    have dp := hp.1.degrees t1
    have dq := hq.1.degrees (t2 ▸ w3)
    obtain ⟨e3, e4⟩ := prefix_append (preOf_letters _) (preOf_letters _) (hdig _ _ dp.1.1)
      (hdig _ _ dq.1.1) e0
    obtain ⟨d1, e5⟩ := toStr_single dp.1 dq.1 e4
    obtain ⟨d2, e6⟩ := toStr_single dp.2.1 dq.2.1 e5
    obtain ⟨d3, e7⟩ := toStr_single ⟨hp.1.degree, dp.2.2⟩ ⟨hq.1.degree, dq.2.2⟩ e6
    exact hwa p _ _ _ hb e7
  · exfalso
    obtain ⟨e3, _⟩ := prefix_append (preOf_letters _) (preOf_letters _)
      (hdig _ _ (hp.1.degrees (t1 ▸ w3)).1.1) (hdig _ _ hq.1.degree) e0
    rcases preOf_eq (Or.inr (t1 ▸ w3)) (Or.inl t2) e3 with e | ⟨_, e⟩ | ⟨_, e⟩
    · rw [← e, t1] at t2; exact absurd t2 (by decide)
    · rw [e] at t2; exact absurd t2 (by decide)
    · rw [e] at t2; exact absurd t2 (by decide)
  · exfalso
    have dp := hp.1.degrees (t1 ▸ w3)
    have dq := hq.1.degrees t2
    obtain ⟨e3, e4⟩ := prefix_append (preOf_letters _) (preOf_letters _) (hdig _ _ dp.1.1)
      (hdig _ _ dq.1.1) e0
    obtain ⟨d1, e5⟩ := toStr_single dp.1 dq.1 e4
    obtain ⟨d2, e6⟩ := toStr_single dp.2.1 dq.2.1 e5
    obtain ⟨d3, e7⟩ := toStr_single ⟨hp.1.degree, dp.2.2⟩ ⟨hq.1.degree, dq.2.2⟩ e6
    exact hwa q _ _ _ hc e7.symm
  · have u1 : Three p.stat := t1 ▸ w3
    have u2 : Three q.stat := t2 ▸ w3
    have dp := hp.1.degrees u1
    have dq := hq.1.degrees u2
    have op := hp.1.orders t1
    have oq := hq.1.orders t2
    obtain ⟨e3, e4⟩ := prefix_append (preOf_letters _) (preOf_letters _) (hdig _ _ dp.1.1)
      (hdig _ _ dq.1.1) e0
    obtain ⟨d1, e5⟩ := toStr_single dp.1 dq.1 e4
    obtain ⟨d2, e6⟩ := toStr_single dp.2.1 dq.2.1 e5
    obtain ⟨d3, e7⟩ := toStr_single ⟨hp.1.degree, dp.2.2⟩ ⟨hq.1.degree, dq.2.2⟩ e6
    obtain ⟨g1, e8⟩ := toStr_single op.1 oq.1 (List.append_cancel_left e7)
    obtain ⟨g2, e9⟩ := toStr_single op.2 oq.2 e8
    obtain ⟨f1, f2, f3⟩ := binform_inj hb hc hp.2.1 hq.2.1 e9
    simp only at d1 d2 d3 g1 g2
    unfold usedBin at f2
    rw [f1] at f2
    unfold ident
    rw [if_pos u1, if_pos u2, if_pos u1, if_pos u2, if_pos t1, if_pos t2, d1, d2, d3, f1, f2, f3, g1, g2, t1, t2]

/-- **C117 fails for long directories**: the path of the program is cut to 1023 characters, and all
measurements go to the same file if the directory is that long. -/
theorem C117_truncated_violated (p q : P) (s t : Str) (hd : p.dir = q.dir)
    (hl : 1023 ≤ (p.dir.getD []).length) (hs : cppFull p = some s) (ht : cppFull q = some t) :
    cppPath p = cppPath q := by
  have key : ∀ (p : P) (s : Str), cppFull p = some s → ∃ u, s = p.dir.getD [] ++ u := by
    intro p s h
    unfold cppFull at h
    simp only at h
    split_ifs at h <;>
      first
      | exact ⟨_, by rw [← Option.some.inj h]; simp only [List.append_assoc]; rfl⟩
      | (obtain ⟨g, _, hg'⟩ := Option.map_eq_some_iff.1 h
         exact ⟨_, by rw [← hg']; simp only [List.append_assoc]; rfl⟩)
  obtain ⟨u, hu⟩ := key p s hs
  obtain ⟨v, hv⟩ := key q t ht
  unfold cppPath
  rw [hs, ht, hu, hv, ← hd]
  simp only [Option.map_some, Option.some.injEq]
  rw [List.take_append_of_le_length hl, List.take_append_of_le_length hl]

/-! ### Instances -/

/-- A bispectrum along a row. -/
def exampleRow : P :=
  ⟨"bispec", "row", 2, 0, 2, 0, 0, some 3, some "_run1".toList, some "out/".toList⟩

/-- A wide-angle window. -/
def exampleWide : P := ⟨"3pcf-win-wa", "full", 1, 1, 0, 1, 0, some 0, none, some "out".toList⟩

example : Plain exampleRow ∧ pyPath exampleRow ".txt".toList =
    .ok ⟨false, ["out".toList, "bk202_row3_run1.txt".toList]⟩ := by
  refine ⟨⟨by decide, by decide, ?_, by decide, by decide, by decide, by decide⟩, by decide⟩
  intro c hc
  have : c = '_' := by simpa [exampleRow, eq_comm] using hc
  subst this
  decide

example : Plain exampleWide := by
  refine ⟨by decide, by decide, ?_, by decide, by decide, by decide, by decide⟩
  intro c hc
  simp [exampleWide] at hc

/-- Tags for two redshifts: one file. -/
example : pyPath { stat := "powspec", tag := some "_z0.5".toList } ".txt".toList =
      .ok ⟨false, ["pk0_z0.txt".toList]⟩ ∧
    pyPath { stat := "powspec", tag := some "_z0.6".toList } ".txt".toList =
      .ok ⟨false, ["pk0_z0.txt".toList]⟩ := by decide

/-- The wide-angle window of the program and of the Python functions. -/
example : cppPath exampleWide = some "out/zetaw110_wa10_full".toList ∧
    pyName exampleWide = .ok "zetaw110_full_wa10".toList := by decide

end Trv.Out

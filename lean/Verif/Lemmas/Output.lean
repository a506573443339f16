import Verif.Spec.Output
import Verif.Lemmas.Multipole
/-
Lemmas on the names of files and on text tables.
-/
namespace Trv.Out

open Trv Trv.Par Trv.Mon

theorem toStr_inj {a b : ℤ} (h : toStr a = toStr b) : a = b := by
  have h1 := Wc.pyInt_toStr a
  rw [h, Wc.pyInt_toStr b] at h1
  simpa using h1.symm

theorem takeWhile_digits {n : ℕ} {s : Str} (hs : NoDigit s) :
    (Nat.toDigits 10 n ++ s).takeWhile Char.isDigit = Nat.toDigits 10 n := by
  have hd := Wc.toDigits_all n
  generalize Nat.toDigits 10 n = l at hd
  induction l with
  | nil =>
    cases s with
    | nil => rfl
    | cons c s => simp [hs c rfl]
  | cons c l ih =>
    rw [List.cons_append, List.takeWhile_cons, if_pos (hd c (by simp)), ih fun c hc => hd c (by simp [hc])]

/-- A number followed by a text which does not begin with a digit can be read off. -/
theorem toStr_append {a b : ℤ} {s t : Str} (hs : NoDigit s) (ht : NoDigit t)
    (h : toStr a ++ s = toStr b ++ t) : a = b ∧ s = t := by
  have key : toStr a = toStr b := by
    have hneg : ∀ (m n : ℕ) (s t : Str), '-' :: Nat.toDigits 10 m ++ s = Nat.toDigits 10 n ++ t → False := by
      intro m n s t h
      cases hn : Nat.toDigits 10 n with
      | nil => exact Wc.toDigits_ne_nil _ hn
      | cons c l =>
        rw [hn] at h
        simp only [List.cons_append, List.cons.injEq] at h
        have := Wc.toDigits_all n c (by rw [hn]; simp)
        rw [← h.1] at this
        simp [Char.isDigit] at this
    have hnat : ∀ m n : ℕ, Nat.toDigits 10 m ++ s = Nat.toDigits 10 n ++ t →
        Nat.toDigits 10 m = Nat.toDigits 10 n := by
      intro m n h
      rw [← takeWhile_digits (n := m) hs, h, takeWhile_digits ht]
    unfold toStr at h ⊢
    by_cases ha : a < 0 <;> by_cases hb : b < 0
    · rw [if_pos ha, if_pos hb] at h ⊢
      simp only [List.cons_append, List.cons.injEq, true_and] at h
      rw [hnat _ _ h]
    · rw [if_pos ha, if_neg hb] at h
      exact (hneg _ _ _ _ h).elim
    · rw [if_neg ha, if_pos hb] at h
      exact (hneg _ _ _ _ h.symm).elim
    · rw [if_neg ha, if_neg hb] at h ⊢
      exact hnat _ _ h
  refine ⟨toStr_inj key, ?_⟩
  rw [key] at h
  exact List.append_cancel_left h

theorem toStr_one {a : ℤ} (h0 : 0 ≤ a) (h9 : a ≤ 9) : ∃ c, toStr a = [c] ∧ c.isDigit = true := by
  refine ⟨Nat.digitChar a.toNat, ?_, ?_⟩
  · unfold toStr
    rw [if_neg (by omega), Nat.toDigits_of_lt_base (by omega)]
  · have : a.toNat < 10 := by omega
    interval_cases a.toNat <;> decide

theorem toStr_digit {a : ℤ} (h0 : 0 ≤ a) : ∃ c l, toStr a = c :: l ∧ c.isDigit = true := by
  unfold toStr
  rw [if_neg (by omega)]
  cases hn : Nat.toDigits 10 a.toNat with
  | nil => exact absurd hn (Wc.toDigits_ne_nil _)
  | cons c l => exact ⟨c, l, rfl, Wc.toDigits_all a.toNat c (by rw [hn]; simp)⟩

/-- One digit after the other can be read off. -/
theorem toStr_single {a b : ℤ} {s t : Str} (ha : 0 ≤ a ∧ a ≤ 9) (hb : 0 ≤ b ∧ b ≤ 9)
    (h : toStr a ++ s = toStr b ++ t) : a = b ∧ s = t := by
  obtain ⟨c, hc, _⟩ := toStr_one ha.1 ha.2
  obtain ⟨d, hd, _⟩ := toStr_one hb.1 hb.2
  have e : toStr a = toStr b := by
    rw [hc, hd] at h ⊢
    simp only [List.cons_append, List.nil_append, List.cons.injEq] at h
    rw [h.1]
  refine ⟨toStr_inj e, ?_⟩
  rw [e] at h
  exact List.append_cancel_left h

/-- A text of letters followed by one which begins with a digit can be read off. -/
theorem prefix_append {u v s t : Str} (hu : ∀ c ∈ u, c.isDigit = false) (hv : ∀ c ∈ v, c.isDigit = false)
    (hs : ∃ c l, s = c :: l ∧ c.isDigit = true) (ht : ∃ c l, t = c :: l ∧ c.isDigit = true)
    (h : u ++ s = v ++ t) : u = v ∧ s = t := by
  have key : ∀ (u s : Str), (∀ c ∈ u, c.isDigit = false) → (∃ c l, s = c :: l ∧ c.isDigit = true) →
      (u ++ s).takeWhile (fun c => !c.isDigit) = u := by
    intro u s hu hs
    induction u with
    | nil =>
      obtain ⟨c, l, rfl, hc⟩ := hs
      simp [hc]
    | cons c u ih =>
      rw [List.cons_append, List.takeWhile_cons, if_pos (by simp [hu c (by simp)]),
        ih fun c hc => hu c (by simp [hc])]
  have e : u = v := by rw [← key u s hu hs, h, key v t hv ht]
  subst e
  exact ⟨rfl, List.append_cancel_left h⟩

theorem splitSlash_none {s : Str} (h : '/' ∉ s) : splitSlash s = [s] := by
  induction s with
  | nil => rfl
  | cons c s ih =>
    rw [splitSlash, if_neg (by intro e; exact h (by simp [e])), ih (by intro e; exact h (by simp [e]))]

theorem comps_name {s : Str} (h : '/' ∉ s) (h1 : s ≠ []) (h2 : s ≠ ['.']) : comps s = [s] := by
  unfold comps
  rw [splitSlash_none h]
  simp [h1, h2]

theorem withSuffix_none {n suf : Str} (h : '.' ∉ n) : withSuffix n suf = n ++ suf := by
  unfold withSuffix rfindDot
  rw [if_neg h]

theorem pathWithSuffix (dir name suf : Str) (h : '/' ∉ name) (h1 : name ≠ []) (h2 : name ≠ ['.']) :
    (Path.of dir name).withSuffix suf =
      .ok ⟨dir.head? = some '/', comps dir ++ [withSuffix name suf]⟩ := by
  unfold Path.of Path.withSuffix
  rw [comps_name h h1 h2]
  simp

theorem toStr_chars (a : ℤ) : ∀ c ∈ toStr a, c = '-' ∨ c.isDigit = true := by
  intro c hc
  unfold toStr at hc
  split_ifs at hc
  · rcases List.mem_cons.1 hc with e | e
    · exact Or.inl e
    · exact Or.inr (Wc.toDigits_all _ _ e)
  · exact Or.inr (Wc.toDigits_all _ _ hc)

theorem notMem_toStr {c : Char} (h : c ≠ '-') (hd : c.isDigit = false) (a : ℤ) : c ∉ toStr a := by
  intro hc
  rcases toStr_chars a c hc with e | e
  · exact h e
  · rw [hd] at e; exact absurd e (by decide)

theorem rfindDot_last {s e : Str} (h : '.' ∉ e) : rfindDot (s ++ '.' :: e) = some s.length := by
  unfold rfindDot
  rw [if_pos (by simp)]
  have : (s ++ '.' :: e).reverse.idxOf '.' = e.length := by
    rw [List.reverse_append, List.reverse_cons, List.append_assoc,
      List.idxOf_append_of_notMem (by simpa using h)]
    simp
  rw [this]
  simp only [List.length_append, List.length_cons, Option.some.injEq]
  omega

end Trv.Out

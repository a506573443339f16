import Verif.Spec.Monitor
import Mathlib.Tactic.Ring
import Mathlib.Tactic.Linarith
import Mathlib.Tactic.FieldSimp
import Mathlib.Tactic.IntervalCases
import Mathlib.Algebra.Order.Archimedean.Basic
/-
C55, C56, C60, C66-C68: time display, strings, progress bar, logging, build date.
-/
set_option linter.unusedSectionVars false
namespace Trv.Mon

/-! ### C56 -/
section
variable {α : Type} [DecidableEq α]

theorem rfind_some {d s : List α} {i : ℕ} (h : rfind d s = some i) : d <+: s.drop i := by
  induction s generalizing i with
  | nil =>
    unfold rfind at h
    split_ifs at h with hd
    cases h; simp [hd]
  | cons c t ih =>
    unfold rfind at h
    cases hr : rfind d t with
    | some j =>
      rw [hr] at h
      cases h
      exact ih hr
    | none =>
      rw [hr] at h
      simp only at h
      split_ifs at h with hp
      cases h
      exact List.isPrefixOf_iff_prefix.1 hp

theorem rfind_ge {d s : List α} {k : ℕ} (hk : k ≤ s.length) (h : d <+: s.drop k) :
    ∃ i, rfind d s = some i ∧ k ≤ i := by
  induction s generalizing k with
  | nil =>
    have hk0 : k = 0 := by simpa using hk
    subst hk0
    have : d = [] := by simpa using h
    exact ⟨0, by simp [rfind, this], le_refl _⟩
  | cons c t ih =>
    cases k with
    | succ k =>
      obtain ⟨i, hi, hle⟩ := ih (by simpa using hk) h
      exact ⟨i + 1, by unfold rfind; rw [hi], by omega⟩
    | zero =>
      unfold rfind
      cases hr : rfind d t with
      | some j => exact ⟨j + 1, rfl, by omega⟩
      | none =>
        simp only
        have hp : d.isPrefixOf (c :: t) = true := List.isPrefixOf_iff_prefix.2 h
        rw [if_pos hp]
        exact ⟨0, rfl, le_refl _⟩

/-- **C56.** The extension test holds exactly for suffixes. -/
theorem C56_extension (fname fext : List α) : hasExtension fname fext = true ↔ fext <:+ fname := by
  unfold hasExtension
  constructor
  · intro h
    split_ifs at h with hl
    have h' : rfind fext fname = some (fname.length - fext.length) := by simpa using h
    have hp := rfind_some h'
    have heq : fext = fname.drop (fname.length - fext.length) :=
      hp.eq_of_length (by rw [List.length_drop]; omega)
    rw [heq]
    exact List.drop_suffix _ _
  · intro h
    have hl := h.length_le
    rw [if_pos hl]
    have heq : fname.drop (fname.length - fext.length) = fext := (List.suffix_iff_eq_drop.1 h).symm
    obtain ⟨i, hi, hle⟩ := rfind_ge (d := fext) (s := fname) (k := fname.length - fext.length)
      (by omega) (by rw [heq]; exact List.prefix_refl _)
    have hb := (rfind_some hi).length_le
    rw [List.length_drop] at hb
    have hi' : i ≤ fname.length ∨ fname.length < i := by omega
    have : i = fname.length - fext.length := by
      rcases hi' with h1 | h1
      · omega
      · -- an index past the end is never returned
        exfalso
        have : ∀ (s : List α) j, rfind fext s = some j → j ≤ s.length := by
          intro s
          induction s with
          | nil => intro j hj; unfold rfind at hj; split_ifs at hj; cases hj; simp
          | cons c t ih =>
            intro j hj
            unfold rfind at hj
            cases hr : rfind fext t with
            | some k => rw [hr] at hj; cases hj; have := ih k hr; simp only [List.length_cons]; omega
            | none =>
              rw [hr] at hj
              simp only at hj
              split_ifs at hj
              cases hj; omega
        have := this _ _ hi
        omega
    rw [hi, this]
    simp

theorem find_some {d s : List α} {i : ℕ} (h : find d s = some i) :
    s = s.take i ++ d ++ s.drop (i + d.length) := by
  induction s generalizing i with
  | nil =>
    unfold find at h
    split_ifs at h with hd
    cases h; simp [hd]
  | cons c t ih =>
    unfold find at h
    split_ifs at h with hp
    · cases h
      obtain ⟨r, hr⟩ := List.isPrefixOf_iff_prefix.1 hp
      simp only [List.take_zero, List.nil_append, Nat.zero_add]
      rw [← hr]; simp
    · obtain ⟨j, hj, rfl⟩ := Option.map_eq_some_iff.1 h
      have := ih hj
      have e : j + 1 + d.length = (j + d.length) + 1 := by omega
      rw [e]
      simp only [List.take_succ_cons, List.drop_succ_cons, List.cons_append]
      rw [← this]

theorem find_none {d s : List α} (h : find d s = none) : ¬ Occurs d s := by
  induction s with
  | nil =>
    unfold find at h
    split_ifs at h with hd
    intro hc
    exact hd (List.eq_nil_of_infix_nil hc)
  | cons c t ih =>
    unfold find at h
    split_ifs at h with hp
    intro hc
    rcases List.infix_cons_iff.1 hc with h1 | h1
    · exact hp (List.isPrefixOf_iff_prefix.2 h1)
    · exact ih (by simpa using h) h1

theorem find_first {d s : List α} {i : ℕ} (h : find d s = some i) (j : ℕ) (hj : j < i) :
    ¬ d <+: s.drop j := by
  induction s generalizing i j with
  | nil =>
    unfold find at h
    split_ifs at h with hd
    cases h; omega
  | cons c t ih =>
    unfold find at h
    split_ifs at h with hp
    · cases h; omega
    · obtain ⟨k, hk, rfl⟩ := Option.map_eq_some_iff.1 h
      cases j with
      | zero => exact fun hc => hp (List.isPrefixOf_iff_prefix.2 hc)
      | succ j => exact ih hk j (by omega)

/-- The text before the first occurrence does not contain the delimiter. -/
theorem find_take {d s : List α} {i : ℕ} (h : find d s = some i) (hd : d ≠ []) :
    ¬ Occurs d (s.take i) := by
  rintro ⟨a, b, hab⟩
  have hlt : a.length < i := by
    have h1 := congrArg List.length hab
    have h2 : 0 < d.length := List.length_pos_iff.2 hd
    simp only [List.length_append, List.length_take] at h1
    omega
  refine find_first h a.length hlt ⟨b ++ s.drop i, ?_⟩
  have hs : s = a ++ (d ++ (b ++ s.drop i)) := by
    conv_lhs => rw [← List.take_append_drop i s, ← hab]
    simp
  conv_rhs => rw [hs]
  rw [List.drop_left]

theorem splitLoop_none {d s : List α} (hd : d ≠ []) (h : find d s = none) :
    splitLoop d hd s = ([], s) := by
  rw [splitLoop]
  split
  · rfl
  · rename_i i hi; rw [hi] at h; cases h

theorem splitLoop_some {d s : List α} (hd : d ≠ []) {i : ℕ} (h : find d s = some i) :
    splitLoop d hd s = (s.take i :: (splitLoop d hd (s.drop (i + d.length))).1,
      (splitLoop d hd (s.drop (i + d.length))).2) := by
  rw [splitLoop]
  split
  · rename_i hn; rw [hn] at h; cases h
  · rename_i j hj; rw [hj] at h; cases h; rfl

/-- All the pieces, each followed by the delimiter, and the rest restore the string; no
piece contains the delimiter. -/
theorem splitLoop_spec {d : List α} (hd : d ≠ []) (s : List α) :
    s = ((splitLoop d hd s).1.map (· ++ d)).flatten ++ (splitLoop d hd s).2 ∧
    (∀ p ∈ (splitLoop d hd s).1, ¬ Occurs d p) ∧ ¬ Occurs d (splitLoop d hd s).2 := by
  induction hn : s.length using Nat.strong_induction_on generalizing s with
  | _ n ih =>
    cases h : find d s with
    | none =>
      rw [splitLoop_none hd h]
      refine ⟨by simp, by simp, find_none h⟩
    | some i =>
      have hlt : (s.drop (i + d.length)).length < n := by
        have h1 := find_lt h
        have h2 : 0 < d.length := List.length_pos_iff.2 hd
        rw [List.length_drop]; omega
      obtain ⟨e1, e2, e3⟩ := ih _ hlt (s.drop (i + d.length)) rfl
      rw [splitLoop_some hd h]
      refine ⟨?_, ?_, e3⟩
      · simp only [List.map_cons, List.flatten_cons, List.append_assoc]
        rw [← e1, ← List.append_assoc]
        exact find_some h
      · intro p hp
        rcases List.mem_cons.1 hp with rfl | hp
        · exact find_take h hd
        · exact e2 p hp

theorem join_append_delim (d : List α) (l : List (List α)) (hl : l ≠ []) :
    join d l ++ d = (l.map (· ++ d)).flatten := by
  induction l with
  | nil => exact absurd rfl hl
  | cons s l ih =>
    cases l with
    | nil => simp [join]
    | cons t l =>
      simp only [join, List.append_assoc]
      rw [ih (by simp)]
      simp

theorem join_snoc (d : List α) (l : List (List α)) (r : List α) :
    join d (l ++ [r]) = (l.map (· ++ d)).flatten ++ r := by
  induction l with
  | nil => simp [join]
  | cons s l ih =>
    cases l with
    | nil => simp [join]
    | cons t l =>
      simp only [List.cons_append, join] at ih ⊢
      rw [ih]
      simp

/-- **C56.** Joining the pieces of a split string restores it up to one trailing
delimiter, and no piece contains the delimiter. -/
theorem C56_join_split (s d : List α) (hd : d ≠ []) :
    (join d (split s d) = s ∨ join d (split s d) ++ d = s) ∧ ∀ p ∈ split s d, ¬ Occurs d p := by
  obtain ⟨h1, h2, h3⟩ := splitLoop_spec hd s
  unfold split
  by_cases hs : s = []
  · subst hs; simp [join]
  rw [if_neg hs, dif_neg hd]
  simp only
  by_cases hr : (splitLoop d hd s).2 = []
  · rw [if_pos hr]
    refine ⟨Or.inr ?_, h2⟩
    rw [join_append_delim]
    · rw [hr, List.append_nil] at h1; exact h1.symm
    · intro hn
      rw [hn, hr] at h1
      exact hs (by simpa using h1)
  · rw [if_neg hr]
    refine ⟨Or.inl ?_, ?_⟩
    · rw [join_snoc]; exact h1.symm
    · intro p hp
      rcases List.mem_append.1 hp with hp | hp
      · exact h2 p hp
      · rw [List.mem_singleton.1 hp]; exact h3

theorem occurs_singleton (c : α) (s : List α) : Occurs [c] s ↔ c ∈ s := by
  constructor
  · intro h; exact h.subset (by simp)
  · intro h
    obtain ⟨a, b, rfl⟩ := List.append_of_mem h
    exact ⟨a, b, by simp⟩

theorem find_le {d s : List α} {k : ℕ} (h : d <+: s.drop k) : ∃ i, find d s = some i ∧ i ≤ k := by
  induction s generalizing k with
  | nil =>
    have : d = [] := by simpa using h
    exact ⟨0, by simp [find, this], by omega⟩
  | cons c t ih =>
    unfold find
    split_ifs with hp
    · exact ⟨0, rfl, by omega⟩
    · cases k with
      | zero => exact absurd (List.isPrefixOf_iff_prefix.2 h) hp
      | succ k =>
        obtain ⟨i, hi, hle⟩ := ih h
        exact ⟨i + 1, by rw [hi]; rfl, by omega⟩

theorem find_append (d s r : List α) (h : ¬ Occurs d (s ++ d.dropLast)) (hd : d ≠ []) :
    find d (s ++ (d ++ r)) = some s.length := by
  obtain ⟨i, hi, hle⟩ := find_le (d := d) (s := s ++ (d ++ r)) (k := s.length)
    (by rw [List.drop_left]; exact List.prefix_append _ _)
  rw [hi]
  by_contra hne
  have hlt : i < s.length := by
    rcases Nat.lt_or_ge i s.length with h1 | h1
    · exact h1
    · exact absurd (by rw [Nat.le_antisymm hle h1]) hne
  apply h
  have h1 := find_some hi
  have hlen : 0 < d.length := List.length_pos_iff.2 hd
  have hsplit : s ++ d.dropLast = (s ++ (d ++ r)).take (s.length + (d.length - 1)) := by
    rw [List.take_append, List.take_of_length_le (by omega),
      show s.length + (d.length - 1) - s.length = d.length - 1 by omega,
      List.take_append_of_le_length (by omega), List.dropLast_eq_take]
  have hpre : (s ++ (d ++ r)).take i ++ d <+: (s ++ (d ++ r)).take (s.length + (d.length - 1)) := by
    apply List.prefix_of_prefix_length_le (l₃ := s ++ (d ++ r))
    · exact ⟨_, h1.symm⟩
    · exact List.take_prefix _ _
    · simp only [List.length_append, List.length_take]
      omega
  rw [hsplit]
  obtain ⟨t, ht⟩ := hpre
  exact ⟨_, t, ht⟩

theorem find_of_not_occurs {d s : List α} (h : ¬ Occurs d s) : find d s = none := by
  cases hf : find d s with
  | none => rfl
  | some i => exact absurd ⟨_, _, (find_some hf).symm⟩ h

theorem splitLoop_join {d : List α} (hd : d ≠ []) (l : List (List α)) (r : List α)
    (h : ∀ p ∈ l, ¬ Occurs d (p ++ d.dropLast)) (hr : ¬ Occurs d r) :
    splitLoop d hd (join d (l ++ [r])) = (l, r) := by
  induction l with
  | nil =>
    simp only [List.nil_append, join]
    exact splitLoop_none _ (find_of_not_occurs hr)
  | cons s l ih =>
    have e : join d (s :: l ++ [r]) = s ++ (d ++ join d (l ++ [r])) := by
      cases l with
      | nil => simp [join]
      | cons t l => simp [join]
    rw [e, splitLoop_some _ (find_append d s _ (h s (by simp)) hd)]
    have hdrop : (s ++ (d ++ join d (l ++ [r]))).drop (s.length + d.length) = join d (l ++ [r]) := by
      rw [← List.append_assoc, ← List.length_append, List.drop_left]
    rw [hdrop, ih fun p hp => h p (by simp [hp])]
    simp

/-- **C56.** Splitting a joined list restores the list if the last piece is not empty and
no piece, followed by the delimiter, contains it earlier. -/
theorem C56_split_join (d : List α) (hd : d ≠ []) (l : List (List α)) (r : List α)
    (h : ∀ p ∈ l, ¬ Occurs d (p ++ d.dropLast)) (hr : ¬ Occurs d r) (hr0 : r ≠ []) :
    split (join d (l ++ [r])) d = l ++ [r] := by
  have hne : join d (l ++ [r]) ≠ [] := by
    rw [join_snoc]; simp [hr0]
  unfold split
  rw [if_neg hne, dif_neg hd, splitLoop_join hd l r h hr]
  simp [hr0]

/-- For a single character it is enough that the pieces do not contain it. -/
theorem C56_split_join_char (c : α) (l : List (List α)) (h : ∀ p ∈ l, c ∉ p)
    (hl : ∀ r, l.getLast? = some r → r ≠ []) : split (join [c] l) [c] = l := by
  rcases List.eq_nil_or_concat l with rfl | ⟨l', r, rfl⟩
  · simp [join, split]
  · simp only [List.concat_eq_append] at *
    apply C56_split_join _ (by simp)
    · intro p hp
      simp only [List.dropLast_singleton, List.append_nil, occurs_singleton]
      exact h p (by simp [hp])
    · rw [occurs_singleton]; exact h r (by simp)
    · exact hl r (by simp)

/-- **C56 is violated for the file name delimiter**: the two-character delimiter can
overlap with the end of a name. -/
theorem C56_overlap_violated :
    ∃ l : List (List Char), (∀ p ∈ l, ¬ Occurs "::".toList p ∧ p ≠ []) ∧
      split (join "::".toList l) "::".toList ≠ l := by
  refine ⟨["a:".toList, "b".toList], ?_, by decide +kernel⟩
  intro p hp
  simp only [List.mem_cons, List.not_mem_nil, or_false] at hp
  rcases hp with rfl | rfl
  · refine ⟨?_, by decide⟩
    rintro ⟨a, b, hab⟩
    have hl := congrArg List.length hab
    have : ("a:".toList) = ['a', ':'] := rfl
    have h2 : ("::".toList) = [':', ':'] := rfl
    rw [this, h2] at hab hl
    simp only [List.length_append, List.length_cons, List.length_nil] at hl
    have ha : a = [] := List.length_eq_zero_iff.1 (by omega)
    have hb : b = [] := List.length_eq_zero_iff.1 (by omega)
    subst ha hb
    simp at hab
  · refine ⟨?_, by decide⟩
    intro h
    have := h.length_le
    simp at this

example : split "a;b;;c".toList ";".toList = ["a".toList, "b".toList, [], "c".toList] ∧
    join ";".toList ["a".toList, "b".toList] = "a;b".toList := by decide +kernel

/-- An empty last piece is dropped: the hypothesis on the last piece is needed. -/
theorem C56_trailing_piece_dropped (c : α) (s : List α) (h : c ∉ s) :
    split (join [c] [s, []]) [c] = [s] := by
  have e : join [c] [s, []] = join [c] ([s] ++ [[]]) := rfl
  unfold split
  rw [if_neg (by simp [join]), dif_neg (by simp), e,
    splitLoop_join (by simp) [s] [] (by
      intro p hp
      rw [List.mem_singleton.1 hp, List.dropLast_singleton, List.append_nil, occurs_singleton]
      exact h) (by rw [occurs_singleton]; simp)]
  simp

end

/-! ### C55 -/

theorem digitChar_val {n : ℕ} (h : n < 10) : (Nat.digitChar n).toNat - '0'.toNat = n := by
  interval_cases n <;> decide

theorem readNat_append (l : List Char) (c : Char) :
    readNat (l ++ [c]) = 10 * readNat l + (c.toNat - '0'.toNat) := by
  simp [readNat, List.foldl_append]

theorem readNat_toDigits (n : ℕ) : readNat (Nat.toDigits 10 n) = n := by
  induction n using Nat.strong_induction_on with
  | _ n ih =>
    rw [Nat.toDigits_eq_if (by norm_num)]
    split_ifs with h
    · simp only [readNat, List.foldl_cons, List.foldl_nil]
      rw [digitChar_val h]
      omega
    · rw [readNat_append, ih (n / 10) (by omega), digitChar_val (Nat.mod_lt _ (by norm_num))]
      omega

theorem readNat_zeros (k : ℕ) (l : List Char) : readNat (List.replicate k '0' ++ l) = readNat l := by
  have h : ∀ k, List.foldl (fun a (c : Char) => 10 * a + (c.toNat - '0'.toNat)) 0
      (List.replicate k '0') = 0 := by
    intro k
    induction k with
    | zero => rfl
    | succ k ih =>
      rw [List.replicate_succ, List.foldl_cons]
      exact ih
  unfold readNat
  rw [List.foldl_append, h]

theorem toDigits_length_le {n : ℕ} (h : n < 100) : (Nat.toDigits 10 n).length ≤ 2 := by
  rw [Nat.toDigits_eq_if (by norm_num)]
  split_ifs with h1
  · simp
  · rw [Nat.toDigits_of_lt_base (by omega)]
    simp

theorem toDigits_length_pos (n : ℕ) : 1 ≤ (Nat.toDigits 10 n).length := by
  rw [Nat.toDigits_eq_if (by norm_num)]
  split_ifs with h1 <;> simp

theorem toStr_nat (n : ℕ) : toStr (n : ℤ) = Nat.toDigits 10 n := by
  unfold toStr
  rw [if_neg (by omega)]
  simp

theorem pad2_nat {n : ℕ} (h : n < 100) :
    pad2 (toStr n) = .ok (fmt02 n) ∧ (fmt02 n).length = 2 ∧ readNat (fmt02 n) = n := by
  have hl := toDigits_length_le h
  have hp := toDigits_length_pos n
  have he : fmt02 n = List.replicate (2 - (Nat.toDigits 10 n).length) '0' ++ Nat.toDigits 10 n := by
    unfold fmt02
    rw [toStr_nat]
    split_ifs with h2
    · rfl
    · have : 2 - (Nat.toDigits 10 n).length = 0 := by omega
      rw [this]; simp
  refine ⟨?_, ?_, ?_⟩
  · unfold pad2
    rw [toStr_nat, if_pos hl, he]
  · rw [he]; simp; omega
  · rw [he, readNat_zeros, readNat_toDigits]

theorem fmt02_nat (n : ℕ) : readNat (fmt02 n) = n ∧ 2 ≤ (fmt02 n).length := by
  have hp := toDigits_length_pos n
  unfold fmt02
  rw [toStr_nat]
  split_ifs with h
  · exact ⟨by rw [readNat_zeros, readNat_toDigits], by simp; omega⟩
  · exact ⟨readNat_toDigits n, by omega⟩

theorem showTime_nat (t : ℕ) : showTime (t : ℤ) =
    .ok (fmt02 (t / 3600 : ℕ) ++ [':'] ++ fmt02 (t % 3600 / 60 : ℕ) ++ [':'] ++ fmt02 (t % 60 : ℕ)) := by
  have e1 : (t : ℤ).tdiv 3600 = ((t / 3600 : ℕ) : ℤ) := by
    rw [Int.tdiv_eq_ediv_of_nonneg (by omega)]; push_cast; rfl
  have e2 : ((t : ℤ).tmod 3600).tdiv 60 = ((t % 3600 / 60 : ℕ) : ℤ) := by
    rw [Int.tmod_eq_emod_of_nonneg (by omega), Int.tdiv_eq_ediv_of_nonneg (by omega)]
    push_cast; rfl
  have e3 : (t : ℤ).tmod 60 = ((t % 60 : ℕ) : ℤ) := by
    rw [Int.tmod_eq_emod_of_nonneg (by omega)]; push_cast; rfl
  unfold showTime
  rw [e1, e2, e3]
  simp only
  rw [(pad2_nat (n := t % 3600 / 60) (by omega)).1, (pad2_nat (n := t % 60) (by omega)).1]
  rfl

section
variable {K : Type} [Field K] [LinearOrder K] [IsStrictOrderedRing K] [FloorRing K]

/-- **C55.** The displayed time has two-digit minutes and seconds below sixty and denotes
the whole seconds of the elapsed time. -/
theorem C55_elapsed_time (x : K) (hx : 0 ≤ x) :
    ∃ hh mm ss, showElapsed x = .ok (hh ++ [':'] ++ mm ++ [':'] ++ ss) ∧
      2 ≤ hh.length ∧ mm.length = 2 ∧ ss.length = 2 ∧ readNat mm < 60 ∧ readNat ss < 60 ∧
      (3600 * readNat hh + 60 * readNat mm + readNat ss : ℤ) = ⌊x⌋ := by
  have hf : 0 ≤ ⌊x⌋ := Int.floor_nonneg.2 hx
  obtain ⟨t, ht⟩ := Int.eq_ofNat_of_zero_le hf
  refine ⟨fmt02 (t / 3600 : ℕ), fmt02 (t % 3600 / 60 : ℕ), fmt02 (t % 60 : ℕ), ?_, ?_⟩
  · unfold showElapsed truncK
    rw [if_pos hx, ht]
    exact showTime_nat t
  · obtain ⟨-, a1, a2⟩ := pad2_nat (n := t % 3600 / 60) (by omega)
    obtain ⟨-, b1, b2⟩ := pad2_nat (n := t % 60) (by omega)
    obtain ⟨c1, c2⟩ := fmt02_nat (t / 3600)
    rw [a2, b2, c1, ht]
    refine ⟨c2, a1, b1, by omega, by omega, by omega⟩

/-- **C55.** Displays of different numbers of whole seconds differ. -/
theorem C55_elapsed_time_injective (x y : K) (hx : 0 ≤ x) (hy : 0 ≤ y)
    (h : showElapsed x = showElapsed y) : ⌊x⌋ = ⌊y⌋ := by
  obtain ⟨h1, m1, s1, e1, -, l1, l1', -, -, v1⟩ := C55_elapsed_time x hx
  obtain ⟨h2, m2, s2, e2, -, l2, l2', -, -, v2⟩ := C55_elapsed_time y hy
  rw [e1, e2] at h
  simp only [Except.ok.injEq] at h
  obtain ⟨q1, q2⟩ := List.append_inj' h (by rw [l1', l2'])
  have q3 := List.append_cancel_right q1
  obtain ⟨q4, q5⟩ := List.append_inj' q3 (by rw [l1, l2])
  have q6 := List.append_cancel_right q4
  rw [← v1, ← v2, q2, q5, q6]

/-- **C55.** The Python log records show the same time. -/
theorem C55_python_agrees (x : K) (hx : 0 ≤ x) : showElapsed x = .ok (pyElapsed x) := by
  have hf : 0 ≤ ⌊x⌋ := Int.floor_nonneg.2 hx
  obtain ⟨t, ht⟩ := Int.eq_ofNat_of_zero_le hf
  have hx1 : ((t : ℤ) : K) ≤ x := by have := Int.floor_le x; rw [ht] at this; exact this
  have hx2 : x < ((t : ℤ) : K) + 1 := by have := Int.lt_floor_add_one x; rw [ht] at this; exact this
  have hx1' : ((t : ℕ) : K) ≤ x := by exact_mod_cast hx1
  have hx2' : x < ((t : ℕ) : K) + 1 := by exact_mod_cast hx2
  have key : ∀ a b : ℕ, a < b → (a : K) + 1 ≤ b := by intro a b h; exact_mod_cast h
  have h1 : ⌊x / 3600⌋ = ((t / 3600 : ℕ) : ℤ) := by
    rw [Int.floor_eq_iff]
    constructor
    · rw [le_div_iff₀ (by norm_num)]
      have : ((t / 3600 * 3600 : ℕ) : K) ≤ (t : K) := by exact_mod_cast (by omega)
      push_cast at this
      simp only [Int.cast_natCast]
      linarith
    · rw [div_lt_iff₀ (by norm_num)]
      have := key t ((t / 3600 + 1) * 3600) (by omega)
      push_cast at this
      simp only [Int.cast_natCast]
      linarith
  have h2 : ⌊(x - 3600 * (((t / 3600 : ℕ) : ℤ) : K)) / 60⌋ = ((t % 3600 / 60 : ℕ) : ℤ) := by
    rw [Int.floor_eq_iff]
    constructor
    · rw [le_div_iff₀ (by norm_num)]
      have : ((t % 3600 / 60 * 60 + 3600 * (t / 3600) : ℕ) : K) ≤ (t : K) := by
        exact_mod_cast (by omega)
      push_cast at this
      simp only [Int.cast_natCast]
      linarith
    · rw [div_lt_iff₀ (by norm_num)]
      have := key t ((t % 3600 / 60 + 1) * 60 + 3600 * (t / 3600)) (by omega)
      push_cast at this
      simp only [Int.cast_natCast]
      linarith
  have h3 : truncK (x - 3600 * (((t / 3600 : ℕ) : ℤ) : K) - 60 * (((t % 3600 / 60 : ℕ) : ℤ) : K))
      = ((t % 60 : ℕ) : ℤ) := by
    have ha : ((t % 60 + 3600 * (t / 3600) + 60 * (t % 3600 / 60) : ℕ) : K) = (t : K) := by
      exact_mod_cast (by omega)
    push_cast at ha
    have hnn : (0 : K) ≤ ((t % 60 : ℕ) : K) := Nat.cast_nonneg _
    unfold truncK
    rw [if_pos (by simp only [Int.cast_natCast]; linarith), Int.floor_eq_iff]
    constructor
    · simp only [Int.cast_natCast]; linarith
    · simp only [Int.cast_natCast]; linarith
  unfold showElapsed truncK pyElapsed
  rw [if_pos hx, ht]
  have := showTime_nat t
  simp only [Int.ofNat_eq_natCast]
  rw [this]
  simp only [h1, h2, h3]

example : showElapsed (3725.5 : ℚ) = .ok "01:02:05".toList := by decide +kernel

/-! ### C60 -/

theorem nodesLoop_one (δ : K) (fuel : ℕ) : nodesLoop δ (fuel + 1) 1 = some [1] := by
  simp [nodesLoop]

theorem nodesLoop_spec (δ : K) (hδ : 0 < δ) (n : ℕ) (back : K) (hb : back < 1)
    (hn : 1 - back ≤ (n : K) * δ) :
    ∃ l, nodesLoop δ (n + 2) back = some (back :: l) ∧ (back :: l).getLast? = some 1 ∧
      ∀ i x y, (back :: l)[i]? = some x → (back :: l)[i + 1]? = some y → x < y ∧ y = min (x + δ) 1 := by
  induction n generalizing back with
  | zero => simp only [Nat.cast_zero, zero_mul] at hn; linarith
  | succ n ih =>
    by_cases h : back + δ < 1
    · obtain ⟨l, e, hlast, hsp⟩ := ih (back + δ) h (by push_cast at hn; linarith)
      refine ⟨(back + δ) :: l, ?_, ?_, ?_⟩
      · rw [show n + 1 + 2 = (n + 2) + 1 by omega]
        unfold nodesLoop
        rw [if_pos hb, if_pos h, e]
        rfl
      · rw [List.getLast?_cons_cons]; exact hlast
      · intro i x y hx hy
        cases i with
        | zero =>
          simp only [List.getElem?_cons_zero, Option.some.injEq, Nat.zero_add,
            List.getElem?_cons_succ] at hx hy
          subst hx hy
          exact ⟨by linarith, (min_eq_left h.le).symm⟩
        | succ i =>
          rw [List.getElem?_cons_succ] at hx hy
          exact hsp i x y hx hy
    · refine ⟨[1], ?_, by simp, ?_⟩
      · rw [show n + 1 + 2 = (n + 1 + 1) + 1 by omega]
        unfold nodesLoop
        rw [if_pos hb, if_neg h, nodesLoop_one]
        rfl
      · intro i x y hx hy
        cases i with
        | zero =>
          simp only [List.getElem?_cons_zero, Option.some.injEq, Nat.zero_add,
            List.getElem?_cons_succ] at hx hy
          subst hx hy
          exact ⟨hb, (min_eq_right (not_lt.1 h)).symm⟩
        | succ i =>
          rw [List.getElem?_cons_succ] at hx hy
          simp at hy

/-- **C60 (exact arithmetic).** Setting nodes by an interval finishes for every interval
in (0, 100), with nodes at multiples of the interval up to one, strictly increasing. -/
theorem C60_nodes_by_interval (interval : K) (h0 : 0 < interval) (h1 : interval < 100) :
    ∃ fuel l, nodesByInterval fuel interval = .ok (some l) ∧ Spaced (interval / 100) l := by
  have hδ : 0 < interval / 100 := by positivity
  have hb : interval / 100 < 1 := by rw [div_lt_one (by norm_num)]; exact h1
  obtain ⟨n, hn⟩ := Archimedean.arch (1 - interval / 100) hδ
  rw [nsmul_eq_mul] at hn
  obtain ⟨l, e, hlast, hsp⟩ := nodesLoop_spec (interval / 100) hδ n (interval / 100) hb hn
  refine ⟨n + 2, _ :: l, ?_, rfl, hlast, hsp⟩
  unfold nodesByInterval
  rw [if_neg (by simp [h0, h1]), e]

example : nodesByInterval 10 (40 : ℚ) = .ok (some [2 / 5, 4 / 5, 1]) := by decide +kernel

/-- **C60 (partial: completion is reported at most once, at the end).** With nodes ending
at one, updates never read beyond the nodes. -/
theorem C60_updates_in_bounds_partial (b : Bar K) (hlast : b.nodes.getLast? = some 1)
    (hnext : b.next < b.nodes.length) (ps : List K) (hps : ∀ p ∈ ps, p < 1) (q : K) (hq : q ≤ 1) :
    ∃ b', b.updates (ps ++ [q]) = .ok b' := by
  have hne : b.nodes ≠ [] := by rintro h; simp [h] at hlast
  induction ps generalizing b with
  | nil =>
    simp only [List.nil_append, Bar.updates, Bar.update, hq, if_true, bind, Except.bind]
    rw [List.getElem?_eq_getElem hnext]
    simp only
    split_ifs <;> exact ⟨_, rfl⟩
  | cons p ps ih =>
    have hp : p < 1 := hps p (by simp)
    have hx : b.nodes[b.next]? = some (b.nodes[b.next]) := List.getElem?_eq_getElem hnext
    simp only [List.cons_append, Bar.updates, bind, Except.bind]
    unfold Bar.update
    simp only [hp.le, if_true, hx]
    by_cases hle : b.nodes[b.next] ≤ p
    · rw [if_pos hle]
      simp only
      apply ih
      · exact hlast
      · -- the node just passed is not the last one
        show b.next + 1 < b.nodes.length
        by_contra hc
        have hl : b.next = b.nodes.length - 1 := by omega
        rw [List.getLast?_eq_getElem?, ← hl, hx] at hlast
        simp only [Option.some.injEq] at hlast
        rw [hlast] at hle
        linarith
      · intro r hr; exact hps r (by simp [hr])
      · exact hne
    · rw [if_neg hle]
      simp only
      apply ih
      · exact hlast
      · exact hnext
      · intro r hr; exact hps r (by simp [hr])
      · exact hne

/-- **C60 is violated by repeated completion**: with any nodes in [0, 1], reporting
completion once more than there are nodes reads beyond them. -/
theorem C60_repeated_completion_violated (b : Bar K) (hn : ∀ x ∈ b.nodes, x ≤ 1) (h0 : b.next = 0) :
    b.updates (List.replicate (b.nodes.length + 1) 1) = .error .outOfBounds := by
  have key : ∀ k (b : Bar K), (∀ x ∈ b.nodes, x ≤ 1) → b.next + k = b.nodes.length →
      b.updates (List.replicate (k + 1) 1) = .error .outOfBounds := by
    intro k
    induction k with
    | zero =>
      intro b _ hb
      have : b.nodes[b.next]? = none := List.getElem?_eq_none (by omega)
      simp [List.replicate_succ, Bar.updates, Bar.update, this, bind, Except.bind]
    | succ k ih =>
      intro b hb1 hb2
      have hlt : b.next < b.nodes.length := by omega
      rw [List.replicate_succ]
      simp only [Bar.updates, bind, Except.bind]
      unfold Bar.update
      simp only [le_refl, if_true, List.getElem?_eq_getElem hlt]
      rw [if_pos (hb1 _ (List.getElem_mem hlt))]
      exact ih _ hb1 (by show b.next + 1 + k = b.nodes.length; omega)
  exact key _ b hn (by omega)

/-- **C60 is violated by the default nodes**: they are 101 zeros followed by the
percentage points, so that each of the first 101 updates prints a line, whatever the
progress. -/
theorem C60_default_nodes_violated (n : ℤ) (hn : 1 ≤ n) :
    ∃ b : Bar K, Bar.new n = .ok b ∧ b.nodes ≠ (List.range 101).map (fun k : ℕ => (k : K) / 100) ∧
      ∀ ps : List K, ps.length ≤ 101 → (∀ p ∈ ps, 0 ≤ p ∧ p ≤ 1) →
        ∃ b', b.updates ps = .ok b' ∧ b'.next = ps.length := by
  refine ⟨⟨n, 0, 0, defaultNodes, 0⟩, ?_, ?_, ?_⟩
  · unfold Bar.new
    rw [if_neg (by omega)]
  · intro h
    have := congrArg List.length h
    simp [defaultNodes] at this
  · have key : ∀ (ps : List K) (b : Bar K), b.nodes = defaultNodes → b.next + ps.length ≤ 101 →
        (∀ p ∈ ps, 0 ≤ p ∧ p ≤ 1) → ∃ b', b.updates ps = .ok b' ∧ b'.next = b.next + ps.length := by
      intro ps
      induction ps with
      | nil => intro b _ _ _; exact ⟨b, rfl, rfl⟩
      | cons p ps ih =>
        intro b hb hl hp
        simp only [List.length_cons] at hl ⊢
        have hz : b.nodes[b.next]? = some 0 := by
          rw [hb]; unfold defaultNodes
          rw [List.getElem?_append_left (by simp; omega), List.getElem?_replicate]
          simp; omega
        obtain ⟨b', e, e'⟩ := ih { b with progress := p, next := b.next + 1 } hb
          (by simp only; omega) (fun q hq => hp q (by simp [hq]))
        refine ⟨b', ?_, by rw [e']; simp only; omega⟩
        simp only [Bar.updates, bind, Except.bind]
        unfold Bar.update
        simp only [(hp p (by simp)).2, if_true, hz, (hp p (by simp)).1]
        exact e
    intro ps h1 h2
    obtain ⟨b', e, e'⟩ := key ps ⟨n, 0, 0, defaultNodes, 0⟩ rfl (by simpa using h1) h2
    exact ⟨b', e, by simpa using e'⟩

/-- **C60.** Setting the progress finds the first node not passed. -/
theorem C60_set_progress (b : Bar K) (p : K) (h0 : 0 ≤ p) (h1 : p ≤ 1)
    (hlast : b.nodes.getLast? = some 1) :
    ∃ b', b.setProgress p = .ok b' ∧ b'.progress = p ∧ b'.next < b.nodes.length ∧
      (∀ i < b'.next, ∀ x, b.nodes[i]? = some x → x < p) ∧
      (∀ x, b.nodes[b'.next]? = some x → p ≤ x) := by
  have key : ∀ l : List K, l.getLast? = some 1 → ∃ i, nextNode p l = .ok i ∧ i < l.length ∧
      (∀ j < i, ∀ x, l[j]? = some x → x < p) ∧ (∀ x, l[i]? = some x → p ≤ x) := by
    intro l
    induction l with
    | nil => intro h; simp at h
    | cons a l ih =>
      intro hl
      by_cases ha : a < p
      · have hl' : l.getLast? = some 1 := by
          cases l with
          | nil =>
            simp only [List.getLast?_singleton, Option.some.injEq] at hl
            rw [hl] at ha; linarith
          | cons c l => rw [List.getLast?_cons_cons] at hl; exact hl
        obtain ⟨i, e, e1, e2, e3⟩ := ih hl'
        refine ⟨i + 1, ?_, by simpa using e1, ?_, ?_⟩
        · unfold nextNode
          rw [if_pos ha, e]; rfl
        · intro j hj x hx
          cases j with
          | zero => simp only [List.getElem?_cons_zero, Option.some.injEq] at hx; rw [← hx]; exact ha
          | succ j => exact e2 j (by omega) x (by simpa using hx)
        · intro x hx; exact e3 x (by simpa using hx)
      · refine ⟨0, ?_, by simp, by simp, ?_⟩
        · unfold nextNode
          rw [if_neg ha]
        · intro x hx
          simp only [List.getElem?_cons_zero, Option.some.injEq] at hx
          rw [← hx]; exact not_lt.1 ha
  obtain ⟨i, e, e1, e2, e3⟩ := key b.nodes hlast
  refine ⟨{ b with progress := p, next := i }, ?_, rfl, e1, e2, e3⟩
  unfold Bar.setProgress
  rw [if_neg (by push Not; exact ⟨h0, h1⟩), e]
  rfl

/-- **C60.** A progress bar is created exactly for a positive number of tasks, at zero progress;
the task index can be set exactly from zero to that number, giving the fraction of tasks done. -/
theorem C60_task_index (n : ℤ) :
    ((∃ b : Bar K, Bar.new n = .ok b) ↔ 1 ≤ n) ∧
    ∀ b : Bar K, b.taskCount = n → 1 ≤ n → b.nodes.getLast? = some 1 → ∀ i : ℤ,
      (0 ≤ i ∧ i ≤ n → ∃ b', b.setTaskIdx i = .ok b' ∧ b'.taskIdx = i ∧
        b'.progress * (n : K) = (i : K)) ∧
      (¬ (0 ≤ i ∧ i ≤ n) → b.setTaskIdx i = .error .invalidParameter) := by
  refine ⟨⟨?_, ?_⟩, ?_⟩
  · rintro ⟨b, h⟩
    unfold Bar.new at h
    split_ifs at h
    omega
  · intro h
    exact ⟨_, by unfold Bar.new; rw [if_neg (by omega)]⟩
  · rintro b rfl hn hlast i
    have hn' : (0 : K) < (b.taskCount : K) := by exact_mod_cast (by omega : (0 : ℤ) < b.taskCount)
    refine ⟨fun ⟨h0, h1⟩ => ?_, fun h => ?_⟩
    · obtain ⟨b', e, e1, e2, -⟩ := C60_set_progress ({ b with taskIdx := i } : Bar K)
        ((i : K) / (b.taskCount : K))
        (div_nonneg (by exact_mod_cast h0) hn'.le)
        (by rw [div_le_one hn']; exact_mod_cast h1) hlast
      refine ⟨b', ?_, ?_, ?_⟩
      · unfold Bar.setTaskIdx
        rw [if_neg (by omega)]
        exact e
      · unfold Bar.setProgress at e
        split_ifs at e
        simp only [bind, Except.bind] at e
        split at e
        · cases e
        · cases e; rfl
      · rw [e1, div_mul_cancel₀ _ hn'.ne']
    · unfold Bar.setTaskIdx
      rw [if_pos (by omega)]

example : ∃ b : Bar ℚ, Bar.new 4 = .ok b ∧ b.taskCount = 4 ∧ b.nodes.getLast? = some 1 :=
  ⟨_, rfl, rfl, by decide +kernel⟩


end

/-! ### C66 -/

/-- **C66 is violated**: logging at any of the levels above `NSET` through the generic
function throws instead of printing the message. -/
theorem C66_log_level_violated (l : LogLevel) (hl : l ≠ .nset) (limit : ℤ) (h : limit ≤ l.val) :
    log limit l.val = .error .invalidParameter := by
  unfold log
  rw [if_pos h]
  cases l
  · exact absurd rfl hl
  all_goals rfl

/-- Messages below the limit are not printed. -/
theorem C66_log_limit_partial (limit entry : ℤ) (h : entry < limit) : log limit entry = .ok none := by
  unfold log
  rw [if_neg (by omega)]

/-- And a level outside the documented range is labelled as a debugging message. -/
theorem C66_log_mislabel_violated (limit : ℤ) (h : limit ≤ 100) :
    log limit 100 = .ok (some .dbug) := by
  unfold log
  rw [if_pos h]
  rfl

/-! ### C67 -/

/-- The UTC hour and minute are in range, for all time zone offsets below a day. -/
theorem C67_build_time_partial (t : DateTime) (h : t.Valid) (hr mn : ℤ)
    (hh : -24 < hr ∧ hr < 24) (hm : -60 < mn ∧ mn < 60) (hs : (0 ≤ hr ∧ 0 ≤ mn) ∨ (hr ≤ 0 ∧ mn ≤ 0)) :
    0 ≤ (toUtc t hr mn).hour ∧ (toUtc t hr mn).hour < 24 ∧
    0 ≤ (toUtc t hr mn).minute ∧ (toUtc t hr mn).minute < 60 ∧
    (24 * 60) * (toUtc t hr mn).day + 60 * (toUtc t hr mn).hour + (toUtc t hr mn).minute
      = (24 * 60) * t.day + 60 * (t.hour - hr) + (t.minute - mn) := by
  obtain ⟨-, -, -, -, h1, h2, h3, h4⟩ := h
  unfold toUtc
  simp only
  split_ifs <;> simp only at * <;> refine ⟨?_, ?_, ?_, ?_, ?_⟩ <;> first | omega | trivial

/-- **C67 is violated**: the day is not carried over to the month; every build in the
first hours of a month east of Greenwich has the day number zero. -/
theorem C67_build_date_violated (t : DateTime) (h : t.Valid) (hd : t.day = 1) (hr : ℤ)
    (hr0 : 0 < hr) (hr1 : hr < 24) (hlt : t.hour < hr) :
    (toUtc t hr 0).day = 0 ∧ ¬ (toUtc t hr 0).Valid := by
  obtain ⟨-, -, -, -, h1, h2, h3, h4⟩ := h
  have : (toUtc t hr 0).day = 0 := by
    unfold toUtc
    simp only [sub_zero]
    split_ifs <;> simp only at * <;> omega
  refine ⟨this, ?_⟩
  rintro ⟨-, -, hc, -⟩
  omega

example : DateTime.Valid ⟨2024, 3, 1, 0, 30⟩ ∧ (⟨2024, 3, 1, 0, 30⟩ : DateTime).hour < 1 :=
  ⟨by simp [DateTime.Valid, daysIn], by decide⟩

/-! ### C68 -/

theorem expandVars_none {s : List Char} (env : List Char → Option (List Char))
    (h : matchVar s = none) : expandVars env s = match s with
      | [] => []
      | c :: t => c :: expandVars env t := by
  rw [expandVars]
  split
  · rename_i n r hh; rw [hh] at h; cases h
  · rfl

theorem expandVars_some {s name rest : List Char} (env : List Char → Option (List Char))
    (h : matchVar s = some (name, rest)) :
    expandVars env s = (match env name with
      | some v => v
      | none => '$' :: '{' :: (name ++ ['}'])) ++ expandVars env rest := by
  rw [expandVars]
  split
  · rename_i n r hh; rw [hh] at h; cases h; rfl
  · rename_i hh; rw [hh] at h; cases h

theorem matchVar_cons_ne {c : Char} {t : List Char} (h : c ≠ '$') : matchVar (c :: t) = none := by
  unfold matchVar
  split
  · rename_i u hu; simp only [List.cons.injEq] at hu; exact absurd hu.1 h
  · rfl

theorem matchVar_var {name : List Char} (rest : List Char) (h : '}' ∉ name) (hn : name ≠ []) :
    matchVar ('$' :: '{' :: (name ++ '}' :: rest)) = some (name, rest) := by
  have h1 : (name ++ '}' :: rest).takeWhile (fun c => decide (c ≠ '}')) = name := by
    rw [List.takeWhile_append_of_pos]
    · simp
    · intro a ha; simp only [ne_eq, decide_not, Bool.not_eq_eq_eq_not, Bool.not_true, decide_eq_false_iff_not]
      rintro rfl; exact h ha
  have h2 : (name ++ '}' :: rest).dropWhile (fun c => decide (c ≠ '}')) = '}' :: rest := by
    rw [List.dropWhile_append_of_pos]
    · simp
    · intro a ha; simp only [ne_eq, decide_not, Bool.not_eq_eq_eq_not, Bool.not_true, decide_eq_false_iff_not]
      rintro rfl; exact h ha
  unfold matchVar
  simp only
  rw [h1, h2]
  simp [hn]

/-- **C68.** Text without a dollar sign before, a reference to a variable, and anything
after: the variable is replaced by its value if it is set and kept otherwise, the value is
not expanded again, and the rest is expanded independently. -/
theorem C68_expansion (env : List Char → Option (List Char)) (a name b : List Char)
    (ha : '$' ∉ a) (hn : name ≠ []) (hb : '}' ∉ name) :
    expandVars env (a ++ '$' :: '{' :: (name ++ '}' :: b))
      = a ++ (env name).getD ('$' :: '{' :: (name ++ ['}'])) ++ expandVars env b := by
  induction a with
  | nil =>
    rw [List.nil_append, expandVars_some env (matchVar_var b hb hn)]
    cases env name <;> simp
  | cons c a ih =>
    simp only [List.mem_cons, not_or] at ha
    rw [List.cons_append, expandVars_none env (matchVar_cons_ne (Ne.symm ha.1))]
    simp only [List.cons_append]
    rw [ih ha.2]

/-- **C68.** Text without a dollar sign is left alone. -/
theorem C68_no_variables (env : List Char → Option (List Char)) (s : List Char) (h : '$' ∉ s) :
    expandVars env s = s := by
  induction s with
  | nil => rw [expandVars_none env rfl]
  | cons c s ih =>
    simp only [List.mem_cons, not_or] at h
    rw [expandVars_none env (matchVar_cons_ne (Ne.symm h.1))]
    simp only
    rw [ih h.2]

example : expandVars (fun n => if n = "HOME".toList then some "/root".toList else none)
    "${HOME}/a${X}${HOME}".toList = "/root/a${X}/root".toList := by decide +kernel

end Trv.Mon

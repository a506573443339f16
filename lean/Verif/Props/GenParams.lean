import Verif.Spec.GenParams
import Mathlib.Data.List.Nodup
import Mathlib.Data.Nat.Notation
/-
C168: parameter files generated from a template.
-/
namespace Trv.Gpf
open Trv

theorem last_append (p : String) (A B : List Mod) : last p (A ++ B) = (last p B).or (last p A) := by
  induction A with
  | nil => simp [last]
  | cons x A ih =>
    obtain ⟨q, v⟩ := x
    rw [List.cons_append, last, last, ih, Option.or_assoc]

theorem last_none {p : String} {M : List Mod} (h : p ∉ M.map Prod.fst) : last p M = none := by
  induction M with
  | nil => rfl
  | cons x M ih =>
    obtain ⟨q, v⟩ := x
    rw [List.map_cons, List.mem_cons, not_or] at h
    rw [last, ih h.2, if_neg (Ne.symm h.1)]
    rfl

theorem last_filter_ne {p q : String} (h : q ≠ p) (M : List Mod) :
    last q (M.filter fun x => x.1 ≠ p) = last q M := by
  induction M with
  | nil => rfl
  | cons x M ih =>
    obtain ⟨r, v⟩ := x
    by_cases hr : r = p
    · have : ¬ r = q := fun e => h (e ▸ hr)
      rw [List.filter_cons_of_neg (by simp [hr]), ih, last, if_neg this, Option.or_none]
    · rw [List.filter_cons_of_pos (by simp [hr]), last, last, ih]

theorem innerFrom_absent {p : String} (v : String) {M : List Mod} (h : p ∉ M.map Prod.fst) (b : Bool) :
    innerFrom p b v M = (v, M) := by
  induction M generalizing b with
  | nil => cases b <;> rfl
  | cons x M ih =>
    obtain ⟨q, w⟩ := x
    rw [List.map_cons, List.mem_cons, not_or] at h
    have hq : ¬ p = q := h.1
    cases b with
    | false => rw [innerFrom, if_neg hq, ih h.2]
    | true => rw [innerFrom, ih h.2]

theorem filter_absent {p : String} {M : List Mod} (h : p ∉ M.map Prod.fst) :
    M.filter (fun x => x.1 ≠ p) = M := by
  rw [List.filter_eq_self]
  intro x hx
  have : x.1 ≠ p := fun e => h (e ▸ List.mem_map_of_mem hx)
  simp [this]

/-- With different names, the line takes the value given and the entry is removed. -/
theorem inner_nodup (p v : String) {M : List Mod} (h : (M.map Prod.fst).Nodup) :
    inner p v M = ((last p M).getD v, M.filter fun x => x.1 ≠ p) := by
  induction M with
  | nil => rfl
  | cons x M ih =>
    obtain ⟨q, w⟩ := x
    rw [List.map_cons, List.nodup_cons] at h
    by_cases hq : p = q
    · subst hq
      have ha : p ∉ M.map Prod.fst := h.1
      rw [last, last_none ha, List.filter_cons_of_neg (by simp), filter_absent ha]
      rw [inner, innerFrom, if_pos rfl, innerFrom_absent w ha]
      simp
    · have hq' : ¬ q = p := fun e => hq e.symm
      rw [inner, innerFrom, if_neg hq, ← inner, ih h.2, last, if_neg hq', Option.or_none,
        List.filter_cons_of_pos (by simp [hq'])]

theorem filter_nodup {p : String} {M : List Mod} (h : (M.map Prod.fst).Nodup) :
    ((M.filter fun x => x.1 ≠ p).map Prod.fst).Nodup :=
  h.sublist (List.filter_sublist.map _)

theorem outer_last (q : String) (L : List Line) : ∀ M : List Mod, (M.map Prod.fst).Nodup →
    (names L).Nodup →
    last q ((outer L M).1.filterMap id ++ (outer L M).2) = (last q M).or (valueOf L q) := by
  induction L with
  | nil => intro M _ _; simp [outer, valueOf, last]
  | cons l L ih =>
    intro M hM hL
    cases l with
    | none =>
      have e : names (none :: L) = names L := rfl
      rw [e] at hL
      have := ih M hM hL
      simpa [outer, valueOf] using this
    | some x =>
      obtain ⟨p, v⟩ := x
      have e : names (some (p, v) :: L) = p :: names L := rfl
      rw [e, List.nodup_cons] at hL
      have h1 := ih (M.filter fun x => x.1 ≠ p) (filter_nodup hM) hL.2
      have hv : valueOf (some (p, v) :: L) q = (valueOf L q).or (if p = q then some v else none) := rfl
      rw [hv, outer, inner_nodup p v hM]
      show last q ((p, (last p M).getD v) :: ((outer L _).1.filterMap id ++ (outer L _).2)) = _
      rw [last, h1]
      by_cases hq : q = p
      · subst hq
        have n1 : last q (M.filter fun x => x.1 ≠ q) = none :=
          last_none (by simp)
        have n2 : valueOf L q = none := last_none hL.1
        rw [n1, n2]
        simp only [if_true, Option.or_none, Option.none_or]
        cases last q M <;> rfl
      · have hq' : ¬ p = q := fun e => hq e.symm
        simp only [last_filter_ne hq, if_neg hq', Option.or_none]

theorem gen_lines (L : List Line) (M : List Mod) :
    (genCpp L M).1.filterMap id = (outer L M).1.filterMap id ++ (outer L M).2 := by
  unfold genCpp
  by_cases h : (outer L M).2 = []
  · simp [h]
  · simp only [if_neg h, List.filterMap_append]
    congr 1
    rw [List.filterMap_cons]
    simp

/-- **C168 (values), for different names.** When no parameter occurs twice in the template or among the
modifications, the generated file gives every modified parameter the value asked for, whether or not
the template has it, and every other parameter the value of the template.
Missing: repeated names (see the violations). -/
theorem C168_values_partial (L : List Line) (M : List Mod) (hL : (names L).Nodup)
    (hM : (M.map Prod.fst).Nodup) (q : String) :
    valueOf (genCpp L M).1 q = (last q M).or (valueOf L q) := by
  rw [valueOf, gen_lines]
  exact outer_last q L M hM hL

/-- **C168 (comments).** The lines of the template keep their places: blank and comment lines stay
and every parameter stays on its line, whatever the modifications. -/
theorem C168_places (L : List Line) (M : List Mod) :
    ∃ tail, (genCpp L M).1.map (Option.map Prod.fst) = L.map (Option.map Prod.fst) ++ tail := by
  have key : ∀ (L : List Line) (M : List Mod),
      (outer L M).1.map (Option.map Prod.fst) = L.map (Option.map Prod.fst) := by
    intro L
    induction L with
    | nil => intro M; rfl
    | cons l L ih =>
      intro M
      cases l with
      | none => simp [outer, ih]
      | some x => obtain ⟨p, v⟩ := x; simp [outer, ih]
  unfold genCpp
  by_cases h : (outer L M).2 = []
  · exact ⟨[], by simp [h, key]⟩
  · exact ⟨(none :: (outer L M).2.map some).map (Option.map Prod.fst), by
      simp only [if_neg h, List.map_append, key]⟩

/-- **C168 is violated for a parameter on two lines of the template**: only the first line is changed, and
the second decides, so that the value asked for has no effect. -/
theorem C168_two_lines_violated (p v₁ v₂ w : String) :
    valueOf (genCpp [some (p, v₁), some (p, v₂)] [(p, w)]).1 p = some v₂ := by
  simp [genCpp, outer, inner, innerFrom, valueOf, last]

/-- **C168 is violated for a parameter given three times**: the second value is used, neither the first nor
the last. -/
theorem C168_thrice_violated (p v w₁ w₂ w₃ : String) :
    valueOf (genCpp [some (p, v)] [(p, w₁), (p, w₂), (p, w₃)]).1 p = some w₂ := by
  simp [genCpp, outer, inner, innerFrom, valueOf, last]

/-- Pairs of entries of the parameter are passed with every second one kept. -/
theorem inner_pairs (p : String) (m : ℕ) : ∀ (us : List String) (v : String) (R : List Mod),
    us.length = 2 * m → ∃ (v' : String) (ks : List String), innerFrom p false v (us.map (fun w => (p, w)) ++ R)
      = ((innerFrom p false v' R).1, ks.map (fun w => (p, w)) ++ (innerFrom p false v' R).2) := by
  induction m with
  | zero =>
    intro us v R h
    have : us = [] := List.length_eq_zero_iff.1 (by omega)
    subst this
    exact ⟨v, [], rfl⟩
  | succ m ih =>
    intro us v R h
    match us, h with
    | [], h => simp at h
    | [_], h => simp at h; omega
    | x :: y :: us, h =>
      have hl : us.length = 2 * m := by simp at h; omega
      obtain ⟨v', ks, e⟩ := ih us x R hl
      refine ⟨v', y :: ks, ?_⟩
      rw [List.map_cons, List.map_cons, List.cons_append, List.cons_append, innerFrom, if_pos rfl,
        innerFrom, e]
      rfl

/-- **C168 (repeated modifications).** For a parameter given more than once, the last value is used if it is
given an even number of times, and the last but one if it is given an odd number of times. -/
theorem C168_repeated_violated (p v : String) (us : List String) (m : ℕ) (h : us.length = 2 * m)
    (x y z : String) :
    valueOf (genCpp [some (p, v)] ((us ++ [x, y]).map fun w => (p, w))).1 p = some y ∧
      valueOf (genCpp [some (p, v)] ((us ++ [x, y, z]).map fun w => (p, w))).1 p = some y := by
  have key : ∀ R : List String, R = [x, y] ∨ R = [x, y, z] →
      valueOf (genCpp [some (p, v)] ((us ++ R).map fun w => (p, w))).1 p = some y := by
    intro R hR
    obtain ⟨v', ks, e⟩ := inner_pairs p m us v (R.map fun w => (p, w)) h
    have e2 : (innerFrom p false v' (R.map fun w => (p, w))).2 = [(p, y)] := by
      rcases hR with rfl | rfl <;> simp [innerFrom]
    rw [e2] at e
    rw [valueOf, gen_lines, List.map_append, outer, inner, e]
    simp only [outer, last_append]
    simp [last]
  exact ⟨key _ (.inl rfl), key _ (.inr rfl)⟩

/-- **C168 is violated for a list used twice**: the entries found in the template are removed from the list
of the caller; when all are found, a second file generated with it is the template itself. -/
theorem C168_reuse_violated (L : List Line) (M : List Mod) (hM : (M.map Prod.fst).Nodup)
    (hin : ∀ m ∈ M, m.1 ∈ names L) (T : List Line) :
    (genCpp L M).2 = [] ∧ (genCpp T (genCpp L M).2).1 = T := by
  have key : ∀ (L : List Line) (M : List Mod), (M.map Prod.fst).Nodup →
      (∀ m ∈ M, m.1 ∈ names L) → (outer L M).2 = [] := by
    intro L
    induction L with
    | nil =>
      intro M _ h
      cases M with
      | nil => rfl
      | cons m M => exact absurd (h m (by simp)) (by simp [names])
    | cons l L ih =>
      intro M hM h
      cases l with
      | none => exact ih M hM h
      | some x =>
        obtain ⟨p, v⟩ := x
        rw [outer, inner_nodup p v hM]
        refine ih _ (filter_nodup hM) fun m hm => ?_
        rw [List.mem_filter] at hm
        have hne : m.1 ≠ p := by simpa using hm.2
        have e : names (some (p, v) :: L) = p :: names L := rfl
        have := h m hm.1
        rw [e, List.mem_cons] at this
        exact this.resolve_left hne
  have hnil : ∀ T : List Line, outer T [] = (T, []) := by
    intro T
    induction T with
    | nil => rfl
    | cons l T ih =>
      cases l with
      | none => simp [outer, ih]
      | some x => obtain ⟨p, v⟩ := x; simp [outer, inner, innerFrom, ih]
  have h0 : (genCpp L M).2 = [] := key L M hM hin
  refine ⟨h0, ?_⟩
  rw [h0, genCpp, hnil]
  simp

/-- **C168 is violated for switches**: a switch of the Python template is turned on by any text, `"false"`
included. -/
theorem C168_switch_violated (parse : String → Option Int) (d : List (String × Entry)) (k v : String)
    (b : Bool) (hk : d.find? (fun x => x.1 == k) = some (k, .bool b)) (hv : v ≠ "") :
    setItem parse d k v = .ok (setKey d k (.bool true)) := by
  simp [setItem, hk, convert, hv, Except.map]

/-- **C168 is violated for empty entries**: an entry left empty in the Python template cannot be given a
value; the script fails with a type error, while a parameter that the template does not have at all is
added. -/
theorem C168_empty_violated (parse : String → Option Int) (d : List (String × Entry)) (k v : String)
    (hk : d.find? (fun x => x.1 == k) = some (k, .null)) :
    setItem parse d k v = .error .typeError := by
  simp [setItem, hk, convert, Except.map]

/-- **C168 (texts and integers).** Texts are stored as given and integers as read; a key that the template
does not have is added as a text. -/
theorem C168_entries (parse : String → Option Int) (d : List (String × Entry)) (k v : String) :
    (∀ s, d.find? (fun x => x.1 == k) = some (k, .str s) →
      setItem parse d k v = .ok (setKey d k (.str v))) ∧
    (∀ n m, d.find? (fun x => x.1 == k) = some (k, .int n) → parse v = some m →
      setItem parse d k v = .ok (setKey d k (.int m))) ∧
    (d.find? (fun x => x.1 == k) = none → setItem parse d k v = .ok (d ++ [(k, .str v)])) := by
  refine ⟨fun s h => by simp [setItem, h, convert, Except.map],
    fun n m h hp => by simp [setItem, h, convert, hp, Except.map], fun h => ?_⟩
  have : d.any (fun x => x.1 == k) = false := by
    rw [List.find?_eq_none] at h
    rw [List.any_eq_false]
    exact h
  simp [setItem, h, setKey, this]

theorem look_put_self (k : String) (x : Node) (l : List (String × Node)) :
    look k (put k x l) = some x := by
  induction l with
  | nil => simp [put, look]
  | cons a l ih =>
    obtain ⟨j, n⟩ := a
    by_cases h : j = k
    · simp [put, look, h]
    · simp [put, look, h, ih]

theorem look_put_other {k j : String} (h : k ≠ j) (x : Node) (l : List (String × Node)) :
    look j (put k x l) = look j l := by
  induction l with
  | nil => simp [put, look, h]
  | cons a l ih =>
    obtain ⟨i, n⟩ := a
    by_cases h1 : i = k
    · subst h1
      simp [put, look, h]
    · by_cases h2 : i = j
      · subst h2
        simp [put, look, h1]
      · simp [put, look, h1, h2, ih]

/-- **C168 (nested keys).** Setting an entry through a chain of keys leaves every entry at any other chain as
it was, unless one chain continues the other. -/
theorem C168_nested_frame (parse : String → Option Int) (v k : String) (ks : List String) (n n' : Node)
    (h : setPath parse v k ks n = .ok n') (q : List String) (h1 : ¬ (k :: ks) <+: q)
    (h2 : ¬ q <+: (k :: ks)) : get q n' = get q n := by
  induction ks generalizing k n n' q with
  | nil =>
    cases n with
    | leaf e => simp [setPath] at h
    | dict l =>
      cases q with
      | nil => exact absurd List.nil_prefix h2
      | cons j q =>
        have hkj : k ≠ j := by
          rintro rfl
          exact h1 (by simp)
        have key : ∀ x, get (j :: q) (.dict (put k x l)) = get (j :: q) (.dict l) := fun x => by
          rw [get, get, look_put_other hkj]
        rw [setPath] at h
        split at h
        · cases h; exact key _
        · cases h
        · split at h
          · cases h
          · cases h; exact key _
  | cons i ks ih =>
    cases n with
    | leaf e => simp [setPath] at h
    | dict l =>
      cases q with
      | nil => exact absurd List.nil_prefix h2
      | cons j q =>
        rw [setPath] at h
        split at h
        · cases h
        · rename_i n0 hn0
          split at h
          · cases h
          · rename_i n1 hn1
            cases h
            by_cases hkj : k = j
            · subst hkj
              rw [get, get, look_put_self, hn0]
              refine ih i n0 n1 hn1 q (fun hp => h1 ?_) (fun hp => h2 ?_)
              · exact List.cons_prefix_cons.2 ⟨rfl, hp⟩
              · exact List.cons_prefix_cons.2 ⟨rfl, hp⟩
            · rw [get, get, look_put_other hkj]

/-- **C168 (the entry set).** After setting, the entry at the chain of keys is the text converted to the type
of the old entry, or the text itself if there was none. -/
theorem C168_nested_set (parse : String → Option Int) (v k : String) (ks : List String) (n n' : Node)
    (h : setPath parse v k ks n = .ok n') :
    (get (k :: ks) n = none ∧ get (k :: ks) n' = some (.leaf (.str v))) ∨
    (∃ e e', get (k :: ks) n = some (.leaf e) ∧ convert parse e v = .ok e' ∧
      get (k :: ks) n' = some (.leaf e')) := by
  induction ks generalizing k n n' with
  | nil =>
    cases n with
    | leaf e => simp [setPath] at h
    | dict l =>
      rw [setPath] at h
      split at h
      · rename_i hl
        cases h
        left
        constructor
        · rw [get, hl]
        · rw [get, look_put_self]; rfl
      · cases h
      · rename_i e hl
        split at h
        · cases h
        · rename_i e' he
          cases h
          right
          refine ⟨e, e', ?_, he, ?_⟩
          · rw [get, hl]; rfl
          · rw [get, look_put_self]; rfl
  | cons i ks ih =>
    cases n with
    | leaf e => simp [setPath] at h
    | dict l =>
      rw [setPath] at h
      split at h
      · cases h
      · rename_i n0 hn0
        split at h
        · cases h
        · rename_i n1 hn1
          cases h
          rw [get, get, look_put_self, hn0]
          exact ih i n0 n1 hn1

/-- A box size left empty: the entry cannot be set, while an entry of a misspelt name can. -/
example : setPath (fun _ => none) "1000." "boxsize" ["x"]
      (.dict [("boxsize", .dict [("x", .leaf .null)])]) = .error (.py .typeError) ∧
    ∃ n, setPath (fun _ => none) "1000." "boxsize" ["X"]
      (.dict [("boxsize", .dict [("x", .leaf .null)])]) = .ok n ∧
      get ["boxsize", "X"] n = some (.leaf (.str "1000.")) := by
  refine ⟨rfl, .dict [("boxsize", .dict [("x", .leaf .null), ("X", .leaf (.str "1000."))])], ?_, rfl⟩
  simp [setPath, look, put]

/-- A template of three lines with one parameter changed and one added. -/
example : genCpp [none, some ("a", "1"), some ("b", "2")] [("c", "9"), ("b", "7")]
    = ([none, some ("a", "1"), some ("b", "7"), none, some ("c", "9")], [("c", "9")]) := by
  decide +kernel

example : setItem (fun _ => none) [("interlace", .bool true), ("tag", .null)] "interlace" "false"
    = .ok [("interlace", .bool true), ("tag", .null)] := by decide +kernel

end Trv.Gpf

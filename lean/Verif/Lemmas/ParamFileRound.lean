import Verif.Props.ParamFile
/-
Lemmas for reading back printed lines of a parameter file.
-/
set_option linter.unusedSectionVars false
namespace Trv.Par
open Trv.Mon

/-- A text without white space. -/
def NoWs (w : Str) : Prop := ∀ c ∈ w, ws c = false

theorem pieces_word {w : Str} (hw : NoWs w) : pieces w = [w] := by
  induction w with
  | nil => rfl
  | cons c w ih =>
    unfold pieces
    rw [if_neg (by simp [hw c (by simp)]), ih fun d hd => hw d (by simp [hd])]

theorem pieces_space {w : Str} (hw : NoWs w) (s : Str) :
    pieces (w ++ ' ' :: s) = w :: pieces s := by
  induction w with
  | nil => simp [pieces, ws]
  | cons c w ih =>
    rw [List.cons_append, pieces, if_neg (by simp [hw c (by simp)]),
      ih fun d hd => hw d (by simp [hd])]

theorem words_assignLine {n v : Str} (hn : NoWs n) (hn0 : n ≠ []) (hv : NoWs v) :
    words (assignLine n v) = if v = [] then [n, ['=']] else [n, ['='], v] := by
  have e : assignLine n v = n ++ ' ' :: (['='] ++ ' ' :: v) := by simp [assignLine]
  rw [e, words, pieces_space hn, pieces_space (by intro c hc; simp at hc; subst hc; rfl),
    pieces_word hv]
  by_cases h : v = []
  · subst h; simp [hn0]
  · simp [hn0, h]

theorem head_assignLine {n v : Str} (hn0 : n ≠ []) : (assignLine n v).head? = n.head? := by
  cases n with
  | nil => exact absurd rfl hn0
  | cons c n => rfl

section
variable {K : Type}

/-- A text containing none of the names looked for. -/
def NoName (w : Str) : Prop := ∀ m ∈ known, ¬ m <:+: w

theorem mentions_assignLine {n v : Str} (hn : NoWs n) (hn0 : n ≠ []) (hv : NoWs v)
    (hvn : NoName v) (m : Str) (hm : m ∈ known) :
    mentions (assignLine n v) m = true ↔ m <:+: n := by
  have hs := names_separate.2.1 m hm
  rw [mentions_iff hs.1 hs.2, words_assignLine hn hn0 hv]
  have heq : ∀ m ∈ known, ¬ m <:+: ['='] := by decide +kernel
  by_cases h : v = []
  · rw [if_pos h]
    constructor
    · rintro ⟨w, hw, hin⟩
      simp only [List.mem_cons, List.not_mem_nil, or_false] at hw
      rcases hw with rfl | rfl
      · exact hin
      · exact absurd hin (heq m hm)
    · exact fun h => ⟨n, by simp, h⟩
  · rw [if_neg h]
    constructor
    · rintro ⟨w, hw, hin⟩
      simp only [List.mem_cons, List.not_mem_nil, or_false] at hw
      rcases hw with rfl | rfl | rfl
      · exact hin
      · exact absurd hin (heq m hm)
      · exact absurd hin (hvn m hm)
    · exact fun h => ⟨n, by simp, h⟩

theorem scanNames_none (ps : Parse K) (line v : Str) (l : List (Str × Kind)) (st : Store)
    (h : ∀ nk ∈ l, mentions line nk.1 = false) : scanNames ps line v l st = .ok st := by
  induction l generalizing st with
  | nil => rfl
  | cons nk l ih =>
    obtain ⟨n, k⟩ := nk
    unfold scanNames
    rw [h (n, k) (by simp)]
    simp only [Bool.false_eq_true, if_false, bind, Except.bind]
    exact ih st fun nk hnk => h nk (by simp [hnk])

theorem scanNames_one (ps : Parse K) (line v n0 : Str) (k0 : Kind) (l : List (Str × Kind))
    (st : Store) (hnd : (l.map (·.1)).Nodup) (hmem : (n0, k0) ∈ l)
    (g1 : ∀ nk ∈ l, mentions line nk.1 = decide (nk.1 = n0)) :
    scanNames ps line v l st = scanInto ps st n0 k0 v := by
  induction l generalizing st with
  | nil => cases hmem
  | cons nk l ih =>
    obtain ⟨n, k⟩ := nk
    unfold scanNames
    have e1 := g1 (n, k) (by simp)
    simp only at e1
    rw [List.map_cons, List.nodup_cons] at hnd
    rcases List.mem_cons.1 hmem with h | h
    · obtain ⟨rfl, rfl⟩ := Prod.mk.inj h
      rw [e1]
      simp only [decide_true, if_true, bind, Except.bind]
      cases hsc : scanInto ps st n0 k0 v with
      | error x => rfl
      | ok st' =>
        refine scanNames_none ps line v l st' fun nk hnk => ?_
        rw [g1 nk (by simp [hnk])]
        simp only [decide_eq_false_iff_not]
        intro hc
        exact hnd.1 (by rw [← hc]; exact List.mem_map_of_mem (f := (·.1)) hnk)
    · have hne : n ≠ n0 := by
        rintro rfl
        exact hnd.1 (List.mem_map_of_mem (f := (·.1)) h)
      rw [e1]
      simp only [hne, decide_false, Bool.false_eq_true, if_false, bind, Except.bind]
      exact ih st hnd.2 h fun nk hnk => g1 nk (by simp [hnk])

theorem known_head : ∀ n ∈ known, n.head? ≠ some '#' := by decide +kernel

/-- A printed line of a looked-for parameter scans its value into that parameter. -/
theorem scanLine_known (ps : Parse K) (st : Store) (n v : Str) (k : Kind)
    (hk : (n, k) ∈ fileNames) (hv : NoWs v) (hvn : NoName v) :
    scanLine ps st (assignLine n v) = if v = [] then .ok st else scanInto ps st n k v := by
  have hkn : n ∈ known := List.mem_map_of_mem (f := (·.1)) hk
  have hs := names_separate.2.1 n hkn
  unfold scanLine
  rw [head_assignLine hs.1, if_neg (known_head n hkn), words_assignLine hs.2 hs.1 hv]
  by_cases h : v = []
  · rw [if_pos h, if_pos h]
  · rw [if_neg h, if_neg h]
    simp only [ne_eq, not_true_eq_false, if_false]
    refine scanNames_one ps _ v n k fileNames st names_separate.1 hk fun nk hnk => ?_
    have hmk : nk.1 ∈ known := List.mem_map_of_mem (f := (·.1)) hnk
    rw [Bool.eq_iff_iff, decide_eq_true_iff, mentions_assignLine hs.2 hs.1 hv hvn _ hmk]
    exact ⟨fun h => names_separate.2.2 _ hmk _ hkn h, fun h => by rw [h]⟩

/-- A printed line whose name contains no looked-for name changes nothing. -/
theorem scanLine_unknown (ps : Parse K) (st : Store) (n v : Str) (hn : NoWs n) (hn0 : n ≠ [])
    (hnn : NoName n) (hv : NoWs v) (hvn : NoName v) :
    scanLine ps st (assignLine n v) = .ok st := by
  unfold scanLine
  split_ifs with h0
  · rfl
  · rw [words_assignLine hn hn0 hv]
    by_cases h : v = []
    · rw [if_pos h]
    · rw [if_neg h]
      simp only [ne_eq, not_true_eq_false, if_false]
      refine scanNames_none ps _ v fileNames st fun nk hnk => ?_
      have hmk : nk.1 ∈ known := List.mem_map_of_mem (f := (·.1)) hnk
      rw [Bool.eq_false_iff]
      intro hc
      exact hnn _ hmk ((mentions_assignLine hn hn0 hv hvn _ hmk).1 hc)

/-- The value fits where the parameter is scanned into. -/
def Fits (ps : Parse K) : Kind → Str → Prop
  | .str size limit, v => v.length < size ∧ (limit = true → v.length ≤ 1023)
  | .num, v => (ps.num v).isSome = true
  | .int, v => (ps.int v).isSome = true

theorem scanInto_fits {ps : Parse K} {k : Kind} {v : Str} (h : Fits ps k v) (st : Store) (n : Str) :
    scanInto ps st n k v = .ok (Function.update st n (some v)) := by
  cases k with
  | str size limit =>
    obtain ⟨h1, h2⟩ := h
    have e : (if limit = true then v.take 1023 else v) = v := by
      by_cases hl : limit = true
      · rw [if_pos hl, List.take_of_length_le (h2 hl)]
      · rw [if_neg hl]
    simp only [scanInto, e, if_pos h1]
  | num =>
    have h' : (ps.num v).isSome = true := h
    simp only [scanInto, if_pos h']
  | int =>
    have h' : (ps.int v).isSome = true := h
    simp only [scanInto, if_pos h']

/-- Names and values such that each line is either one looked for, with a fitting value, or none. -/
def GoodPair (ps : Parse K) (nv : Str × Str) : Prop :=
  NoWs nv.2 ∧ NoName nv.2 ∧
    ((∃ k, (nv.1, k) ∈ fileNames ∧ (nv.2 = [] ∨ Fits ps k nv.2)) ∨
      (NoWs nv.1 ∧ nv.1 ≠ [] ∧ NoName nv.1))

/-- The value stored for a printed one. -/
def stored (v : Str) : Option Str := if v = [] then none else some v

theorem scan_pairs (ps : Parse K) (L : List (Str × Str)) (hnd : (L.map (·.1)).Nodup)
    (hL : ∀ nv ∈ L, GoodPair ps nv) (st : Store) (hst : ∀ nv ∈ L, st nv.1 = none) :
    ∃ st', scanFile ps (L.map fun nv => assignLine nv.1 nv.2) st = .ok st' ∧
      (∀ nv ∈ L, nv.1 ∈ known → st' nv.1 = stored nv.2) ∧
      ∀ m, m ∉ L.map (·.1) → st' m = st m := by
  induction L generalizing st with
  | nil => exact ⟨st, rfl, by simp, fun _ _ => rfl⟩
  | cons nv L ih =>
    obtain ⟨n, v⟩ := nv
    rw [List.map_cons, List.nodup_cons] at hnd
    obtain ⟨hv, hvn, hcase⟩ := hL (n, v) (by simp)
    simp only at hv hvn hcase
    have step : ∃ st1, scanLine ps st (assignLine n v) = .ok st1 ∧
        (n ∈ known → st1 n = stored v) ∧ ∀ m, m ≠ n → st1 m = st m := by
      rcases hcase with ⟨k, hk, hf⟩ | ⟨h1, h2, h3⟩
      · rw [scanLine_known ps st n v k hk hv hvn]
        by_cases he : v = []
        · rw [if_pos he]
          exact ⟨st, rfl, fun _ => by
            rw [stored, if_pos he]; exact hst (n, v) (by simp), fun _ _ => rfl⟩
        · rw [if_neg he, scanInto_fits (hf.resolve_left he)]
          exact ⟨_, rfl, fun _ => by rw [Function.update_self, stored, if_neg he],
            fun m hm => Function.update_of_ne hm _ _⟩
      · rw [scanLine_unknown ps st n v h1 h2 h3 hv hvn]
        refine ⟨st, rfl, fun hk => ?_, fun _ _ => rfl⟩
        exact absurd (List.infix_refl n) (h3 n hk)
    obtain ⟨st1, hs1, hs2, hs3⟩ := step
    have hst1 : ∀ nv ∈ L, st1 nv.1 = none := by
      intro nv hnv
      rw [hs3 nv.1 ?_]
      · exact hst nv (by simp [hnv])
      · intro hc
        exact hnd.1 (by rw [← hc]; exact List.mem_map_of_mem (f := (·.1)) hnv)
    obtain ⟨st', h1, h2, h3⟩ := ih hnd.2 (fun nv hnv => hL nv (by simp [hnv])) st1 hst1
    refine ⟨st', ?_, ?_, ?_⟩
    · simp only [List.map_cons, scanFile, bind, Except.bind, hs1]; exact h1
    · intro nv hnv hk
      rcases List.mem_cons.1 hnv with rfl | hnv
      · simp only at hk ⊢
        rw [h3 n hnd.1]; exact hs2 hk
      · exact h2 nv hnv hk
    · intro m hm
      simp only [List.map_cons, List.mem_cons, not_or] at hm
      rw [h3 m hm.2, hs3 m hm.1]

end
end Trv.Par

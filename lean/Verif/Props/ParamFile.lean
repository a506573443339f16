import Verif.Model.ParamFile
import Verif.Props.ParamsMore
/-
C70, C71: parameter files.
-/
set_option linter.unusedSectionVars false
namespace Trv.Par
open Trv.Mon

/-! ### Words -/

theorem pieces_ne (s : Str) : pieces s ≠ [] := by
  cases s with
  | nil => simp [pieces]
  | cons c s =>
    unfold pieces
    split_ifs
    · simp
    · split <;> simp

theorem pieces_prefix {w s : Str} (hw : ∀ c ∈ w, ws c = false) (h : w <+: s) :
    ∃ p l, pieces s = p :: l ∧ w <+: p := by
  induction s generalizing w with
  | nil =>
    obtain rfl := List.prefix_nil.1 h
    exact ⟨[], [], rfl, List.prefix_refl _⟩
  | cons c s ih =>
    cases w with
    | nil =>
      obtain ⟨p, l, hp⟩ := List.exists_cons_of_ne_nil (pieces_ne (c :: s))
      exact ⟨p, l, hp, List.nil_prefix⟩
    | cons d w =>
      obtain ⟨rfl, h'⟩ := List.cons_prefix_cons.1 h
      obtain ⟨p, l, hp, hpre⟩ := ih (fun c hc => hw c (by simp [hc])) h'
      refine ⟨d :: p, l, ?_, List.cons_prefix_cons.2 ⟨rfl, hpre⟩⟩
      unfold pieces
      rw [if_neg (by simp [hw d (by simp)]), hp]

theorem infix_pieces {w s : Str} (hw : ∀ c ∈ w, ws c = false) (h : w <:+: s) :
    ∃ p ∈ pieces s, w <:+: p := by
  induction s with
  | nil => exact ⟨[], by simp [pieces], h⟩
  | cons c s ih =>
    rcases List.infix_cons_iff.1 h with h | h
    · obtain ⟨p, l, hp, hpre⟩ := pieces_prefix hw h
      exact ⟨p, by simp [hp], hpre.isInfix⟩
    · obtain ⟨p, hp, hin⟩ := ih h
      unfold pieces
      split_ifs
      · exact ⟨p, by simp [hp], hin⟩
      · split
        · rename_i hn; exact absurd hn (pieces_ne s)
        · rename_i q l hl
          rw [hl] at hp
          rcases List.mem_cons.1 hp with rfl | hp
          · exact ⟨c :: p, by simp, hin.trans (List.suffix_cons c p).isInfix⟩
          · exact ⟨p, by simp [hp], hin⟩

theorem pieces_infix {s p : Str} (h : p ∈ pieces s) :
    p <:+: s ∧ ((∃ l, pieces s = p :: l) → p <+: s) := by
  have hpre : ∀ (s p : Str) (l : List Str), pieces s = p :: l → p <+: s := by
    intro s
    induction s with
    | nil => intro p l h; simp [pieces] at h; rw [h.1]
    | cons c s ih =>
      intro p l h
      unfold pieces at h
      split_ifs at h
      · simp only [List.cons.injEq] at h; rw [← h.1]; exact List.nil_prefix
      · split at h
        · rename_i hn; exact absurd hn (pieces_ne s)
        · rename_i q l' hl
          simp only [List.cons.injEq] at h
          rw [← h.1]
          exact List.cons_prefix_cons.2 ⟨rfl, ih q l' hl⟩
  refine ⟨?_, fun ⟨l, hl⟩ => hpre s p l hl⟩
  induction s generalizing p with
  | nil => simp [pieces] at h; rw [h]
  | cons c s ih =>
    by_cases hh : ∃ l, pieces (c :: s) = p :: l
    · obtain ⟨l, hl⟩ := hh
      exact (hpre _ _ _ hl).isInfix
    · have : p ∈ pieces s := by
        unfold pieces at h hh
        split_ifs at h hh
        · rcases List.mem_cons.1 h with rfl | h
          · exact absurd ⟨_, rfl⟩ hh
          · exact h
        · split at h
          · rename_i hn; exact absurd hn (pieces_ne s)
          · rename_i q l' hl
            rw [hl] at hh ⊢
            rcases List.mem_cons.1 h with rfl | h
            · exact absurd ⟨_, rfl⟩ hh
            · simp [h]
      exact (ih this).trans (List.suffix_cons c s).isInfix

theorem mentions_iff {line n : Str} (hn : n ≠ []) (hw : ∀ c ∈ n, ws c = false) :
    mentions line n = true ↔ ∃ w ∈ words line, n <:+: w := by
  unfold mentions
  have h1 : (find n line).isSome = true ↔ n <:+: line := by
    cases hf : find n line with
    | none => simp only [Option.isSome_none, Bool.false_eq_true, false_iff]; exact find_none hf
    | some i =>
      simp only [Option.isSome_some, true_iff]
      exact ⟨_, _, (find_some hf).symm⟩
  rw [h1]
  constructor
  · intro h
    obtain ⟨p, hp, hin⟩ := infix_pieces hw h
    refine ⟨p, ?_, hin⟩
    unfold words
    rw [List.mem_filter]
    refine ⟨hp, ?_⟩
    simp only [ne_eq, decide_eq_true_eq]
    rintro rfl
    exact hn (List.eq_nil_of_infix_nil hin)
  · rintro ⟨w, hw', hin⟩
    exact hin.trans (pieces_infix (List.mem_filter.1 hw').1).1

/-! ### C70 -/

/-- The names looked for. -/
def known : List Str := fileNames.map (·.1)

/-- The recognised names are distinct words, none of which occurs in another. -/
theorem names_separate : known.Nodup ∧ (∀ n ∈ known, n ≠ [] ∧ ∀ c ∈ n, ws c = false) ∧
    ∀ n ∈ known, ∀ m ∈ known, n <:+: m → n = m := by
  decide +kernel

section
variable {K : Type}

theorem scanInto_other {ps : Parse K} {st st' : Store} {n m : Str} {k : Kind} {v : Str}
    (h : scanInto ps st n k v = .ok st') (hm : m ≠ n) : st' m = st m := by
  unfold scanInto at h
  split at h
  · simp only at h
    split_ifs at h
    all_goals
      cases h
      exact Function.update_of_ne hm _ _
  · cases h
    split_ifs
    · exact Function.update_of_ne hm _ _
    · rfl
  · cases h
    split_ifs
    · exact Function.update_of_ne hm _ _
    · rfl

theorem scanNames_other {ps : Parse K} {line v : Str} {l : List (Str × Kind)} {st st' : Store}
    (h : scanNames ps line v l st = .ok st') {m : Str}
    (hm : m ∉ l.map (·.1) ∨ mentions line m = false) : st' m = st m := by
  induction l generalizing st with
  | nil => cases h; rfl
  | cons nk l ih =>
    obtain ⟨n, k⟩ := nk
    unfold scanNames at h
    have hm' : m ∉ l.map (·.1) ∨ mentions line m = false := by
      rcases hm with hm | hm
      · left; intro hc; exact hm (by simp only [List.map_cons, List.mem_cons]; exact Or.inr hc)
      · exact Or.inr hm
    cases hmen : mentions line n with
    | false =>
      rw [hmen] at h
      simp only [Bool.false_eq_true, if_false, bind, Except.bind] at h
      exact ih h hm'
    | true =>
      rw [hmen] at h
      simp only [if_true, bind, Except.bind] at h
      split at h
      · cases h
      · rename_i st1 h1
        rw [ih h hm']
        refine scanInto_other h1 ?_
        rintro rfl
        rcases hm with hm | hm
        · exact hm (by simp)
        · rw [hm] at hmen; cases hmen

/-- The parameters a line assigns to. -/
def Assigned (line : Str) (m : Str) : Prop :=
  m ∈ known ∧ ∃ w ∈ words line, m <:+: w

/-- A line changes only the parameters whose names occur in one of its words. -/
theorem scanLine_other {ps : Parse K} {st st' : Store} {line m : Str}
    (h : scanLine ps st line = .ok st') (hm : ¬ Assigned line m) : st' m = st m := by
  unfold scanLine at h
  split_ifs at h
  · cases h; rfl
  · split at h
    · split_ifs at h
      · cases h; rfl
      · refine scanNames_other h ?_
        by_cases hk : m ∈ known
        · right
          rw [Bool.eq_false_iff]
          intro hc
          have hs := names_separate.2.1 m hk
          exact hm ⟨hk, (mentions_iff hs.1 hs.2).1 hc⟩
        · exact Or.inl hk
    · cases h; rfl

/-- **C70 (partial).** A line changes only the parameter named by its first word, if no other
parameter's name occurs in the other words or properly in the first. -/
theorem C70_line_partial (ps : Parse K) (st st' : Store) (line n : Str) (rest : List Str)
    (hw : words line = n :: rest) (hn : ∀ m ∈ known, m <:+: n → m = n)
    (hr : ∀ w ∈ rest, ∀ m ∈ known, ¬ m <:+: w)
    (h : scanLine ps st line = .ok st') (m : Str) (hm : m ≠ n) : st' m = st m := by
  refine scanLine_other h ?_
  rintro ⟨hk, w, hw', hin⟩
  rw [hw] at hw'
  rcases List.mem_cons.1 hw' with rfl | hw'
  · exact hm (hn m hk hin)
  · exact hr w hw' m hk hin

/-- **C70 (partial).** In particular a line whose first word is a recognised name and whose
other words contain none. -/
theorem C70_known_line_partial (ps : Parse K) (st st' : Store) (line n : Str) (rest : List Str)
    (hw : words line = n :: rest) (hn : n ∈ known) (hr : ∀ w ∈ rest, ∀ m ∈ known, ¬ m <:+: w)
    (h : scanLine ps st line = .ok st') (m : Str) (hm : m ≠ n) : st' m = st m :=
  C70_line_partial ps st st' line n rest hw (fun m hk hin => names_separate.2.2 m hk n hn hin) hr h m hm

end

/-- Parsing for examples: no number is accepted. -/
def noParse : Parse ℚ := ⟨fun _ => none, fun _ => none⟩

example : (match scanLine noParse (fun _ => none) "form   = full % comment".toList with
    | .ok st => decide (st "form".toList = some "full".toList) | .error _ => false) = true := by
  decide +kernel

/-- **C70 (violated).** A file name containing a parameter's name, or a comment after the
value mentioning one, changes that parameter too. -/
theorem C70_line_violated :
    (∃ st, scanLine noParse (fun _ => none) "catalogue_dir = /uniform".toList = .ok st ∧
      st "form".toList = some "/uniform".toList) ∧
    (∃ st, scanLine noParse (fun _ => none)
        "catalogue_type = survey  # see also the form".toList = .ok st ∧
      st "form".toList = some "survey".toList) := by
  have h1 : (match scanLine noParse (fun _ => none) "catalogue_dir = /uniform".toList with
    | .ok st => decide (st "form".toList = some "/uniform".toList) | .error _ => false) = true := by
    decide +kernel
  have h2 : (match scanLine noParse (fun _ => none)
      "catalogue_type = survey  # see also the form".toList with
    | .ok st => decide (st "form".toList = some "survey".toList) | .error _ => false) = true := by
    decide +kernel
  constructor
  · cases h : scanLine noParse (fun _ => none) "catalogue_dir = /uniform".toList with
    | error _ => rw [h] at h1; cases h1
    | ok st => rw [h] at h1; exact ⟨st, rfl, of_decide_eq_true h1⟩
  · cases h : scanLine noParse (fun _ => none)
      "catalogue_type = survey  # see also the form".toList with
    | error _ => rw [h] at h2; cases h2
    | ok st => rw [h] at h2; exact ⟨st, rfl, of_decide_eq_true h2⟩

/-- **C70 (violated).** For a longer file name this writes past the buffer of the other
parameter. -/
theorem C70_overflow_violated :
    scanLine noParse (fun _ => none) "data_catalogue_file = uniform_randoms.dat".toList =
      .error .undefined := by
  have h1 : (match scanLine noParse (fun _ => none) "data_catalogue_file = uniform_randoms.dat".toList with
    | .ok _ => false | .error x => decide (x = .undefined)) = true := by decide +kernel
  cases h : scanLine noParse (fun _ => none) "data_catalogue_file = uniform_randoms.dat".toList with
  | error x => rw [h] at h1; simp only [decide_eq_true_eq] at h1; rw [h1]
  | ok st => rw [h] at h1; cases h1

/-! ### C71 -/

section
variable {K : Type} [Field K] [LinearOrder K] [IsStrictOrderedRing K] [FloorRing K]

theorem scanFile_append (ps : Parse K) (l l' : List Str) (st : Store) :
    scanFile ps (l ++ l') st = (scanFile ps l st).bind (scanFile ps l') := by
  induction l generalizing st with
  | nil => rfl
  | cons a l ih =>
    simp only [List.cons_append, scanFile, bind]
    cases scanLine ps st a with
    | error _ => rfl
    | ok st1 => exact ih st1

theorem scanFile_other {ps : Parse K} {l : List Str} {st st' : Store} {m : Str}
    (h : scanFile ps l st = .ok st') (hm : ∀ line ∈ l, ¬ Assigned line m) : st' m = st m := by
  induction l generalizing st with
  | nil => cases h; rfl
  | cons a l ih =>
    unfold scanFile at h
    simp only [bind, Except.bind] at h
    split at h
    · cases h
    · rename_i st1 h1
      rw [ih h fun line hl => hm line (by simp [hl]), scanLine_other h1 (hm a (by simp))]

theorem validate_assignment {e : Env K} {fuel : ℕ} {init : Bool} {p p' : Params K}
    (h : validate e fuel init p = some (.ok p')) : ∃ o, orderOf p.assignment = .ok o := by
  cases fuel with
  | zero => cases h
  | succ fuel =>
    obtain ⟨q, hq, -⟩ := validate_cases h
    obtain ⟨a, b, c, d, f, h1, h2, -⟩ := pre_steps hq
    have hm := (vMesh_frame h2).2.2.2.1
    have ha : a.assignment = p.assignment := by rw [(vFiles_frame h1).1]; rfl
    rw [ha] at hm
    exact ⟨_, orderOf_table hm⟩

theorem scanNames_only (ps : Parse K) (line v n0 : Str) (hv : v.length < 16)
    (l : List (Str × Kind)) (st : Store)
    (g1 : ∀ nk ∈ l, mentions line nk.1 = decide (nk.1 = n0))
    (g2 : ∀ nk ∈ l, nk.1 = n0 → nk.2 = .str 16 true) :
    scanNames ps line v l st =
      .ok (if n0 ∈ l.map (·.1) then Function.update st n0 (some v) else st) := by
  induction l generalizing st with
  | nil => rfl
  | cons nk l ih =>
    obtain ⟨n, k⟩ := nk
    unfold scanNames
    have e1 := g1 (n, k) (by simp)
    have ih' := fun st => ih st (fun nk hnk => g1 nk (by simp [hnk]))
      (fun nk hnk => g2 nk (by simp [hnk]))
    simp only at e1
    by_cases hn : n = n0
    · have hk := g2 (n, k) (by simp) hn
      simp only at hk
      have htk : v.take 1023 = v := List.take_of_length_le (by omega)
      subst hn
      simp only [e1, decide_true, if_true, hk, scanInto, bind, Except.bind, htk, hv, ih']
      simp
    · have hne : ¬ n0 = n := fun h => hn h.symm
      simp only [e1, hn, decide_false, Bool.false_eq_true, if_false, bind, Except.bind, ih',
        List.map_cons, List.mem_cons, hne, false_or]

theorem order_line_facts : ∀ o ∈ [(1 : ℤ), 2, 3, 4],
    words (assignLine "assignment_order".toList (toStr o)) =
      ["assignment_order".toList, ['='], toStr o] ∧
    (assignLine "assignment_order".toList (toStr o)).head? ≠ some '#' ∧
    (toStr o).length < 16 ∧
    (∀ nk ∈ fileNames, mentions (assignLine "assignment_order".toList (toStr o)) nk.1 =
      decide (nk.1 = "assignment".toList)) := by decide +kernel

theorem assignment_kind : (∀ nk ∈ fileNames, nk.1 = "assignment".toList → nk.2 = .str 16 true) ∧
    "assignment".toList ∈ fileNames.map (·.1) := by
  decide +kernel

theorem scanLine_only (ps : Parse K) (st : Store) (line a v n0 : Str) (hv : v.length < 16)
    (h1 : words line = [a, ['='], v]) (h2 : line.head? ≠ some '#')
    (g1 : ∀ nk ∈ fileNames, mentions line nk.1 = decide (nk.1 = n0))
    (g2 : ∀ nk ∈ fileNames, nk.1 = n0 → nk.2 = .str 16 true) (g3 : n0 ∈ fileNames.map (·.1)) :
    scanLine ps st line = .ok (Function.update st n0 (some v)) := by
  unfold scanLine
  rw [if_neg h2, h1]
  simp only [ne_eq, not_true_eq_false, if_false]
  rw [scanNames_only ps line v n0 hv fileNames st g1 g2, if_pos g3]

/-- The line with the order of assignment sets the assignment scheme to a number. -/
theorem order_line (ps : Parse K) (st : Store) (o : ℤ) (ho : o ∈ [1, 2, 3, 4]) :
    ∃ st', scanLine ps st (assignLine "assignment_order".toList (toStr o)) = .ok st' ∧
      st' "assignment".toList = some (toStr o) := by
  obtain ⟨h1, h2, h3, h4⟩ := order_line_facts o ho
  exact ⟨_, scanLine_only ps st _ _ _ _ h3 h1 h2 h4 assignment_kind.1 assignment_kind.2,
    Function.update_self _ _ _⟩

theorem order_text : ∀ o ∈ [(1 : ℤ), 2, 3, 4],
    orderOf (String.ofList (toStr o)) = .error .invalidParameter := by
  decide +kernel

/-- **C71 (violated).** The file of used parameters printed for an accepted parameter set is
never accepted when read back: the line `assignment_order = …` sets the assignment scheme.
(Unless a later value happens to contain the word "assignment".) -/
theorem C71_print_read_violated (e : Env K) (ps : Parse K) (fmt : ℕ → K → Str) (sci : K → Str)
    (p : Params K) (hd : Derived p)
    (hl : ∀ nv ∈ (printed fmt sci p).2,
      ¬ Assigned (assignLine nv.1.toList nv.2) "assignment".toList) :
    ¬ ∃ fuel q, readFile e ps fuel (printFile fmt sci p) = some (.ok q) := by
  rintro ⟨fuel, q, h⟩
  unfold readFile printFile at h
  rw [List.map_append, List.map_cons, scanFile_append] at h
  cases h1 : scanFile ps ((printed fmt sci p).1.map fun nv => assignLine nv.1.toList nv.2)
      (fun _ => none) with
  | error x => rw [h1] at h; cases h
  | ok st1 =>
    rw [h1] at h
    simp only [Except.bind, scanFile, bind] at h
    have ho : p.assignOrder ∈ [(1 : ℤ), 2, 3, 4] := by
      have := hd.order
      simp only [orderTable, List.mem_cons, Prod.mk.injEq, List.not_mem_nil, or_false] at this
      simp only [List.mem_cons, List.not_mem_nil, or_false]
      tauto
    obtain ⟨st2, h2, h3⟩ := order_line ps st1 p.assignOrder ho
    simp only [h2] at h
    cases h4 : scanFile ps ((printed fmt sci p).2.map fun nv => assignLine nv.1.toList nv.2) st2 with
    | error x => rw [h4] at h; cases h
    | ok st3 =>
      rw [h4] at h
      simp only at h
      have h5 : st3 "assignment".toList = some (toStr p.assignOrder) := by
        rw [scanFile_other h4, h3]
        intro line hline
        obtain ⟨nv, hnv, rfl⟩ := List.mem_map.1 hline
        exact hl nv hnv
      cases h6 : attribution ps st3 with
      | error x => rw [h6] at h; cases h
      | ok r =>
        rw [h6] at h
        simp only at h
        obtain ⟨o, hof⟩ := validate_assignment h
        have hr : r.assignment = String.ofList (toStr p.assignOrder) := by
          unfold attribution at h6
          simp only [bind, Except.bind] at h6
          repeat' split at h6
          all_goals first
            | (cases h6; done)
            | (cases h6; simp only [strOr, h5, Option.getD_some])
        rw [hr, order_text _ ho] at hof
        cases hof

end

/-- The hypotheses hold for an accepted parameter set. -/
example : (match validate (exEnv false) 1 true exPar with
    | some (.ok q) => decide (∀ nv ∈ (printed (fun _ _ => ['1']) (fun _ => ['1']) q).2,
        ∀ w ∈ words (assignLine nv.1.toList nv.2), ¬ "assignment".toList <:+: w) | _ => false) = true := by
  decide +kernel

end Trv.Par

import Verif.Model.CatTable
import Mathlib.Data.List.Nodup
import Mathlib.Tactic.Ring
import Mathlib.Tactic.NormNum
/-
C124, C125: columns of catalogue tables.
-/
set_option linter.unusedSectionVars false
namespace Trv.Cat

variable {K : Type} [Field K] [LinearOrder K]

/-! ### C125: names -/

/-- The name in the file of a column of the catalogue. -/
def source (mapping : List (String × String)) (name : String) : String :=
  (mapping.lookup name).getD name

/-- A mapping of distinct names to distinct columns of a file in which no other column bears one
of the new names. -/
structure Renames (mapping : List (String × String)) (names : List String) : Prop where
  keys : (mapping.map fun p => p.1).Nodup
  vals : (mapping.map fun p => p.2).Nodup
  mem : ∀ p ∈ mapping, p.2 ∈ names
  fresh : ∀ p ∈ mapping, p.1 ∈ names → p.1 = p.2

theorem get_none {t : Table K} {name : String} (h : name ∉ t.names) : t.get name = none := by
  induction t with
  | nil => rfl
  | cons p t ih =>
    simp only [Table.names, List.map_cons, List.mem_cons, not_or] at h
    unfold Table.get
    rw [List.lookup_cons]
    have : (name == p.1) = false := by simpa using h.1
    rw [this]
    exact ih h.2

theorem get_rename {t : Table K} {old new : String} (hn : t.names.Nodup) (hold : old ∈ t.names)
    (hnew : new ∉ t.names) (name : String) :
    Table.get (t.map fun p => if p.1 = old then (new, p.2) else p) name
      = if name = new then t.get old else if name = old then none else t.get name := by
  induction t with
  | nil => simp [Table.names] at hold
  | cons p t ih =>
    obtain ⟨n, c⟩ := p
    simp only [Table.names, List.map_cons, List.nodup_cons, List.mem_cons, not_or] at hn hold hnew
    unfold Table.get
    simp only [List.map_cons]
    by_cases h1 : n = old
    · rw [if_pos h1]
      simp only [List.lookup_cons]
      subst h1
      have hmap : (t.map fun p => if p.1 = n then (new, p.2) else p) = t := by
        refine (List.map_congr_left (g := id) ?_).trans (List.map_id t)
        intro p hp
        rw [if_neg]
        · rfl
        rintro rfl
        exact hn.1 (List.mem_map_of_mem hp)
      by_cases h2 : name = new
      · simp [h2]
      · have hb : (name == new) = false := by simpa using h2
        rw [hb, if_neg h2]
        by_cases h3 : name = n
        · rw [if_pos h3]
          simp only [hmap]
          rw [h3]
          exact get_none hn.1
        · rw [if_neg h3]
          have hb' : (name == n) = false := by simpa using h3
          rw [hb']
          simp only [hmap]
    · rw [if_neg h1]
      simp only [List.lookup_cons]
      have hold' : old ∈ Table.names t := hold.resolve_left (fun h => h1 h.symm)
      have ih' := ih hn.2 hold' hnew.2
      unfold Table.get at ih'
      by_cases h3 : name = n
      · subst h3
        have e1 : name ≠ new := fun h => hnew.1 h.symm
        simp [e1, h1]
      · have hb : (name == n) = false := by simpa using h3
        have hb2 : (old == n) = false := by simpa using (fun h => h1 h.symm)
        rw [hb, hb2]
        exact ih'

theorem names_rename (t : Table K) (old new : String) :
    Table.names (t.map fun p => if p.1 = old then (new, p.2) else p)
      = t.names.map fun n => if n = old then new else n := by
  unfold Table.names
  rw [List.map_map, List.map_map]
  apply List.map_congr_left
  intro p _
  simp only [Function.comp]
  split_ifs <;> rfl

theorem nodup_rename {l : List String} {old new : String} (h : l.Nodup) (hnew : new ∉ l) :
    (l.map fun n => if n = old then new else n).Nodup := by
  rw [List.nodup_map_iff_inj_on h]
  intro a ha b hb hab
  split_ifs at hab with h1 h2 h2
  · rw [h1, h2]
  · exact absurd (hab ▸ hb) hnew
  · exact absurd (hab ▸ ha) hnew
  · exact hab

theorem names_get {t : Table K} {name : String} : name ∈ t.names ↔ (t.get name).isSome := by
  constructor
  · intro h
    induction t with
    | nil => simp [Table.names] at h
    | cons p t ih =>
      unfold Table.get
      rw [List.lookup_cons]
      by_cases h1 : name = p.1
      · have : (name == p.1) = true := by simpa using h1
        rw [this]; rfl
      · have : (name == p.1) = false := by simpa using h1
        rw [this]
        simp only [Table.names, List.map_cons, List.mem_cons] at h
        exact ih (h.resolve_left h1)
  · intro h
    by_contra hc
    rw [get_none hc] at h
    cases h

/-- Renaming the columns: each new name denotes the column of the old name, and names not involved
denote what they did. -/
theorem renameAll_ok (m : List (String × String)) : ∀ t : Table K, t.names.Nodup →
    Renames m t.names → ∃ t', renameAll m t = .ok t' ∧ t'.names.Nodup ∧ t'.rows = t.rows ∧
      (∀ p ∈ m, t'.get p.1 = t.get p.2) ∧
      (∀ n, n ∉ m.map (fun p => p.1) → n ∉ m.map (fun p => p.2) → t'.get n = t.get n) := by
  induction m with
  | nil =>
    intro t ht _
    exact ⟨t, rfl, ht, rfl, by simp, fun _ _ _ => rfl⟩
  | cons p m ih =>
    obtain ⟨k, v⟩ := p
    intro t ht hr
    have hv : v ∈ t.names := hr.mem _ List.mem_cons_self
    have hk := hr.keys
    have hvs := hr.vals
    simp only [List.map_cons, List.nodup_cons] at hk hvs
    by_cases hkv : v = k
    · subst hkv
      have hr' : Renames m t.names := ⟨hk.2, hvs.2, fun q hq => hr.mem q (List.mem_cons_of_mem _ hq),
        fun q hq => hr.fresh q (List.mem_cons_of_mem _ hq)⟩
      obtain ⟨t', e, h1, h2, h3, h4⟩ := ih t ht hr'
      refine ⟨t', ?_, h1, h2, ?_, ?_⟩
      · simp only [renameAll, bind, Except.bind, Table.rename, hv, not_true, if_false, if_true]
        exact e
      · intro q hq
        rcases List.mem_cons.1 hq with rfl | hq
        · exact h4 _ hk.1 hvs.1
        · exact h3 q hq
      · intro n hn1 hn2
        simp only [List.map_cons, List.mem_cons, not_or] at hn1 hn2
        exact h4 n hn1.2 hn2.2
    · have hknew : k ∉ t.names := fun h => hkv (hr.fresh _ List.mem_cons_self h).symm
      obtain ⟨t₁, ht₁⟩ : ∃ t₁ : Table K, t₁ = t.map fun p => if p.1 = v then (k, p.2) else p := ⟨_, rfl⟩
      have hn₁ : t₁.names = t.names.map fun n => if n = v then k else n := by
        rw [ht₁]; exact names_rename t v k
      have hnd : t₁.names.Nodup := by rw [hn₁]; exact nodup_rename ht hknew
      have hr' : Renames m t₁.names := by
        refine ⟨hk.2, hvs.2, ?_, ?_⟩
        · intro q hq
          rw [hn₁, List.mem_map]
          refine ⟨q.2, hr.mem q (List.mem_cons_of_mem _ hq), ?_⟩
          rw [if_neg]
          intro h
          exact hvs.1 (h ▸ List.mem_map_of_mem (f := fun p : String × String => p.2) hq)
        · intro q hq hmem
          rw [hn₁, List.mem_map] at hmem
          obtain ⟨n, hn, hnq⟩ := hmem
          split_ifs at hnq with hnv
          · exact absurd (hnq ▸ List.mem_map_of_mem (f := fun p : String × String => p.1) hq) hk.1
          · exact hr.fresh q (List.mem_cons_of_mem _ hq) (hnq ▸ hn)
      obtain ⟨t', e, h1, h2, h3, h4⟩ := ih t₁ hnd hr'
      have hget : ∀ name, t₁.get name = if name = k then t.get v else
          if name = v then none else t.get name := by
        intro name; rw [ht₁]; exact get_rename ht hv hknew name
      refine ⟨t', ?_, h1, ?_, ?_, ?_⟩
      · simp only [renameAll, bind, Except.bind, Table.rename, hv, not_true, if_false, hkv, hknew]
        rw [← ht₁]
        exact e
      · rw [h2, ht₁]
        cases t with
        | nil => rfl
        | cons p t =>
          simp only [List.map_cons, Table.rows]
          split_ifs <;> rfl
      · intro q hq
        rcases List.mem_cons.1 hq with rfl | hq
        · have hkv2 : k ∉ m.map (fun p => p.2) := by
            intro hmem
            obtain ⟨q, hq, hq2⟩ := List.mem_map.1 hmem
            have := hr.mem q (List.mem_cons_of_mem _ hq)
            rw [hq2] at this
            exact hknew this
          rw [h4 _ hk.1 hkv2, hget, if_pos rfl]
        · rw [h3 q hq, hget]
          have hq2 : q.2 ≠ v := fun h =>
            hvs.1 (h ▸ List.mem_map_of_mem (f := fun p : String × String => p.2) hq)
          have hq3 : q.2 ≠ k := by
            intro h
            exact hknew (h ▸ hr.mem q (List.mem_cons_of_mem _ hq))
          rw [if_neg hq3, if_neg hq2]
      · intro n hn1 hn2
        simp only [List.map_cons, List.mem_cons, not_or] at hn1 hn2
        rw [h4 n hn1.2 hn2.2, hget, if_neg hn1.1, if_neg hn2.1]

/-- A column of the catalogue is in the file: under the name it is mapped to, or under its own
name unless that column is mapped to another. -/
def Available (mapping : List (String × String)) (names : List String) (n : String) : Prop :=
  n ∈ mapping.map (fun p => p.1) ∨ (n ∈ names ∧ n ∉ mapping.map (fun p => p.2))

theorem lookup_mem {m : List (String × String)} (h : (m.map fun p => p.1).Nodup)
    {p : String × String} (hp : p ∈ m) : m.lookup p.1 = some p.2 := by
  induction m with
  | nil => cases hp
  | cons q m ih =>
    simp only [List.map_cons, List.nodup_cons] at h
    rw [List.lookup_cons]
    rcases List.mem_cons.1 hp with rfl | hp
    · simp
    · have : (p.1 == q.1) = false := by
        have hne : p.1 ≠ q.1 := fun he =>
          h.1 (he ▸ List.mem_map_of_mem (f := fun p : String × String => p.1) hp)
        simpa using hne
      rw [this]
      exact ih h.2 hp

theorem lookup_none {m : List (String × String)} {n : String} (h : n ∉ m.map fun p => p.1) :
    m.lookup n = none := by
  induction m with
  | nil => rfl
  | cons q m ih =>
    simp only [List.map_cons, List.mem_cons, not_or] at h
    rw [List.lookup_cons]
    have : (n == q.1) = false := by simpa using h.1
    rw [this]
    exact ih h.2

theorem renamed_get {m : List (String × String)} {t : Table K} (ht : t.names.Nodup)
    (hr : Renames m t.names) : ∃ t', renameAll m t = .ok t' ∧ t'.rows = t.rows ∧
      (∀ n, n ∈ t'.names ↔ Available m t.names n) ∧
      (∀ n, Available m t.names n → t'.get n = t.get (source m n)) := by
  obtain ⟨t', e, h1, h2, h3, h4⟩ := renameAll_ok m t ht hr
  have key : ∀ n, Available m t.names n → t'.get n = t.get (source m n) := by
    intro n hn
    by_cases hk : n ∈ m.map fun p => p.1
    · obtain ⟨p, hp, rfl⟩ := List.mem_map.1 hk
      rw [h3 p hp, source, lookup_mem hr.keys hp]
      rfl
    · obtain ⟨hn1, hn2⟩ := hn.resolve_left hk
      rw [h4 n hk hn2, source, lookup_none hk]
      rfl
  refine ⟨t', e, h2, ?_, key⟩
  intro n
  constructor
  · intro hn
    by_cases hk : n ∈ m.map fun p => p.1
    · exact Or.inl hk
    · right
      by_cases hv : n ∈ m.map fun p => p.2
      · exfalso
        -- a column which was renamed is gone: its name can only come back as a new name
        have hcount : ∀ (m : List (String × String)) (t t' : Table K), t.names.Nodup →
            Renames m t.names → renameAll m t = .ok t' → n ∉ m.map (fun p => p.1) →
            n ∈ m.map (fun p => p.2) → n ∉ t'.names := by
          intro m
          induction m with
          | nil => intro t t' _ _ _ _ h; simp at h
          | cons q m ih =>
            obtain ⟨k, v⟩ := q
            intro t t' ht hr he hk hv
            simp only [List.map_cons, List.mem_cons, not_or] at hk hv
            have hvm : v ∈ t.names := hr.mem _ List.mem_cons_self
            have hks := hr.keys
            have hvs := hr.vals
            simp only [List.map_cons, List.nodup_cons] at hks hvs
            simp only [renameAll, bind, Except.bind, Table.rename, hvm, not_true, if_false] at he
            by_cases hkv : v = k
            · rw [if_pos hkv] at he
              subst hkv
              have hr' : Renames m t.names := ⟨hks.2, hvs.2,
                fun q hq => hr.mem q (List.mem_cons_of_mem _ hq),
                fun q hq => hr.fresh q (List.mem_cons_of_mem _ hq)⟩
              exact ih t t' ht hr' he hk.2 (hv.resolve_left hk.1)
            · have hknew : k ∉ t.names := fun h => hkv (hr.fresh _ List.mem_cons_self h).symm
              rw [if_neg hkv, if_neg hknew] at he
              simp only at he
              obtain ⟨t₁, ht₁⟩ : ∃ t₁ : Table K,
                t₁ = t.map fun p => if p.1 = v then (k, p.2) else p := ⟨_, rfl⟩
              rw [← ht₁] at he
              have hn₁ : t₁.names = t.names.map fun n => if n = v then k else n := by
                rw [ht₁]; exact names_rename t v k
              have hnd : t₁.names.Nodup := by rw [hn₁]; exact nodup_rename ht hknew
              have hr' : Renames m t₁.names := by
                refine ⟨hks.2, hvs.2, ?_, ?_⟩
                · intro q hq
                  rw [hn₁, List.mem_map]
                  refine ⟨q.2, hr.mem q (List.mem_cons_of_mem _ hq), ?_⟩
                  rw [if_neg]
                  intro h
                  exact hvs.1 (h ▸ List.mem_map_of_mem (f := fun p : String × String => p.2) hq)
                · intro q hq hmem
                  rw [hn₁, List.mem_map] at hmem
                  obtain ⟨n, hn, hnq⟩ := hmem
                  split_ifs at hnq with hnv
                  · exact absurd (hnq ▸ List.mem_map_of_mem (f := fun p : String × String => p.1) hq)
                      hks.1
                  · exact hr.fresh q (List.mem_cons_of_mem _ hq) (hnq ▸ hn)
              by_cases hnv : n ∈ m.map fun p => p.2
              · exact ih t₁ t' hnd hr' he hk.2 hnv
              · have hnv' : n = v := hv.resolve_right hnv
                obtain ⟨t'', e2, -, -, -, g4⟩ := renameAll_ok m t₁ hnd hr'
                rw [e2] at he
                cases he
                have hg := g4 n hk.2 hnv
                intro hmem
                rw [names_get, hg, ht₁, get_rename ht hvm hknew, if_neg hk.1, if_pos hnv'] at hmem
                cases hmem
        exact hcount m t t' ht hr e hk hv hn
      · refine ⟨?_, hv⟩
        rw [names_get, ← h4 n hk hv, ← names_get]
        exact hn
  · intro hn
    rw [names_get, key n hn, ← names_get]
    rcases hn with hk | ⟨hn1, hn2⟩
    · obtain ⟨p, hp, rfl⟩ := List.mem_map.1 hk
      rw [source, lookup_mem hr.keys hp]
      exact hr.mem p hp
    · by_cases hk : n ∈ m.map fun p => p.1
      · obtain ⟨p, hp, rfl⟩ := List.mem_map.1 hk
        rw [source, lookup_mem hr.keys hp]
        exact hr.mem p hp
      · rw [source, lookup_none hk]
        exact hn1

theorem get_append {t : Table K} {n : String} (m : String) (c : TCol K) (h : m ∉ t.names) :
    Table.get (t ++ [(m, c)]) n = if n = m then some c else t.get n := by
  induction t with
  | nil =>
    unfold Table.get
    simp only [List.nil_append, List.lookup_cons, List.lookup_nil]
    by_cases h1 : n = m
    · simp [h1]
    · have : (n == m) = false := by simpa using h1
      rw [this, if_neg h1]
  | cons p t ih =>
    simp only [Table.names, List.map_cons, List.mem_cons, not_or] at h
    unfold Table.get at ih ⊢
    rw [List.cons_append, List.lookup_cons, List.lookup_cons]
    by_cases h1 : n = p.1
    · have hb : (n == p.1) = true := by simpa using h1
      rw [hb, if_neg]
      rintro rfl
      exact h.1 h1
    · have hb : (n == p.1) = false := by simpa using h1
      rw [hb]
      exact ih h.2

theorem withDefault_get (t : Table K) (m n : String) (v : K) (hne : t ≠ []) :
    (withDefault m v t).get n
        = (if n = m ∧ n ∉ t.names then some (.flt (List.replicate t.rows v)) else t.get n) ∧
      (withDefault m v t).rows = t.rows ∧ withDefault m v t ≠ [] ∧
      (∀ k, k ∈ (withDefault m v t).names ↔ k = m ∨ k ∈ t.names) := by
  unfold withDefault Table.addConst
  by_cases h : m ∈ t.names
  · rw [if_pos h]
    refine ⟨?_, rfl, hne, ?_⟩
    · rw [if_neg]
      rintro ⟨rfl, h'⟩
      exact h' h
    · intro k
      constructor
      · exact Or.inr
      · rintro (rfl | h')
        · exact h
        · exact h'
  · rw [if_neg h]
    refine ⟨?_, ?_, by simp, ?_⟩
    · rw [get_append m _ h]
      by_cases h1 : n = m
      · subst h1
        rw [if_pos rfl, if_pos ⟨rfl, h⟩]
      · rw [if_neg h1, if_neg (fun hc => h1 hc.1)]
    · cases t with
      | nil => exact absurd rfl hne
      | cons p t => rfl
    · intro k
      unfold Table.names
      rw [List.map_append, List.mem_append]
      simp only [List.map_cons, List.map_nil, List.mem_singleton]
      exact or_comm

/-- **C125 (partial: no column of the file which is not renamed bears one of the new names).**
A catalogue is read if the three coordinates are in the file; each of its columns is the one in
the file of the name it is mapped to (or of its own name), and optional columns not in the file are
constant, zero for the number density and one for the weights.  If a coordinate is missing the
file is rejected. -/
theorem C125_reading_partial (m : List (String × String)) (file : Table K)
    (hf : file.names.Nodup) (hr : Renames m file.names) :
    ((∀ n ∈ ["x", "y", "z"], Available m file.names n) → ∃ t, readTable m file = .ok t ∧
      (∀ n ∈ ["x", "y", "z", "nz", "ws", "wc"], Available m file.names n →
        t.get n = file.get (source m n) ∧ (t.get n).isSome) ∧
      (¬ Available m file.names "nz" → t.get "nz" = some (.flt (List.replicate file.rows 0))) ∧
      (¬ Available m file.names "ws" → t.get "ws" = some (.flt (List.replicate file.rows 1))) ∧
      (¬ Available m file.names "wc" → t.get "wc" = some (.flt (List.replicate file.rows 1)))) ∧
    ((∃ n ∈ ["x", "y", "z"], ¬ Available m file.names n) → readTable m file = .error .valueError) := by
  obtain ⟨t, e, h1, h2, h3⟩ := renamed_get hf hr
  constructor
  · intro hx
    have hx' : ∀ n ∈ ["x", "y", "z"], n ∈ t.names := fun n hn => (h2 n).2 (hx n hn)
    have hne : t ≠ [] := by
      rintro rfl
      have := hx' "x" (by simp)
      simp [Table.names] at this
    obtain ⟨a1, a2, a3, a4⟩ := withDefault_get t "nz" "nz" (0 : K) hne
    have A := fun n => (withDefault_get t "nz" n (0 : K) hne).1
    obtain ⟨t₁, ht₁⟩ : ∃ t₁, t₁ = withDefault "nz" (0 : K) t := ⟨_, rfl⟩
    rw [← ht₁] at a1 a2 a3 a4
    obtain ⟨b1, b2, b3, b4⟩ := withDefault_get t₁ "ws" "ws" (1 : K) a3
    have B := fun n => (withDefault_get t₁ "ws" n (1 : K) a3).1
    obtain ⟨t₂, ht₂⟩ : ∃ t₂, t₂ = withDefault "ws" (1 : K) t₁ := ⟨_, rfl⟩
    rw [← ht₂] at b1 b2 b3 b4
    have C := fun n => (withDefault_get t₂ "wc" n (1 : K) b3).1
    rw [← ht₁] at A
    rw [← ht₂] at B
    have hread : readTable m file = .ok (withDefault "wc" 1 t₂) := by
      unfold readTable
      simp only [e, bind, Except.bind, hx' "x" (by simp), hx' "y" (by simp), hx' "z" (by simp),
        not_true, if_false]
      rw [ht₂, ht₁]
    refine ⟨_, hread, ?_, ?_, ?_, ?_⟩
    · intro n hn hav
      have hmem := (h2 n).2 hav
      have q : (withDefault "wc" 1 t₂).get n = t.get n := by
        rw [C n, if_neg (fun hc => hc.2 ((b4 n).2 (Or.inr ((a4 n).2 (Or.inr hmem))))), B n,
          if_neg (fun hc => hc.2 ((a4 n).2 (Or.inr hmem))), A n, if_neg (fun hc => hc.2 hmem)]
      rw [q]
      exact ⟨h3 n hav, names_get.1 hmem⟩
    · intro hn
      have hmem : "nz" ∉ t.names := fun h => hn ((h2 _).1 h)
      rw [C, if_neg (fun hc => absurd hc.1 (by decide)), B, if_neg (fun hc => absurd hc.1 (by decide)),
        A, if_pos ⟨rfl, hmem⟩, h1]
    · intro hn
      have hmem : "ws" ∉ t.names := fun h => hn ((h2 _).1 h)
      have hmem1 : "ws" ∉ t₁.names := fun h => by
        rcases (a4 "ws").1 h with h' | h'
        · exact absurd h' (by decide)
        · exact hmem h'
      rw [C, if_neg (fun hc => absurd hc.1 (by decide)), B, if_pos ⟨rfl, hmem1⟩, a2, h1]
    · intro hn
      have hmem : "wc" ∉ t.names := fun h => hn ((h2 _).1 h)
      have hmem2 : "wc" ∉ t₂.names := fun h => by
        rcases (b4 "wc").1 h with h' | h'
        · exact absurd h' (by decide)
        · rcases (a4 "wc").1 h' with h'' | h''
          · exact absurd h'' (by decide)
          · exact hmem h''
      rw [C, if_pos ⟨rfl, hmem2⟩, b2, a2, h1]
  · rintro ⟨n, hn, hna⟩
    have hmem : n ∉ t.names := fun h => hna ((h2 n).1 h)
    unfold readTable
    simp only [e, bind, Except.bind]
    simp only [List.mem_cons, List.not_mem_nil, or_false] at hn
    by_cases c1 : "x" ∈ t.names
    · by_cases c2 : "y" ∈ t.names
      · by_cases c3 : "z" ∈ t.names
        · exfalso
          rcases hn with rfl | rfl | rfl
          · exact hmem c1
          · exact hmem c2
          · exact hmem c3
        · rw [if_neg (not_not.2 c1), if_neg (not_not.2 c2), if_pos c3]
      · rw [if_neg (not_not.2 c1), if_pos c2]
    · rw [if_pos c1]

/-- A file with positions in real and in redshift space. -/
def twoSpaces : Table ℚ :=
  [("x", .flt [1, 2]), ("y", .flt [3, 4]), ("z", .flt [5, 6]), ("zs", .flt [7, 8]),
   ("w", .flt [2, 3])]

example : twoSpaces.names.Nodup ∧ Renames [("ws", "w"), ("y", "y")] twoSpaces.names ∧
    ∀ n ∈ ["x", "y", "z"], Available [("ws", "w"), ("y", "y")] twoSpaces.names n := by
  refine ⟨by decide, ⟨by decide, by decide, by decide, by decide⟩, ?_⟩
  intro n hn
  simp only [List.mem_cons, List.not_mem_nil, or_false] at hn
  rcases hn with rfl | rfl | rfl
  · exact Or.inr (by decide)
  · exact Or.inl (by decide)
  · exact Or.inr (by decide)

/-- **C125 is violated if the file has a column of a new name**: a mapping which takes that
column from another one in the file — the redshift-space coordinate beside the real-space one, or
an exchange of two columns — is rejected. -/
theorem C125_existing_name_violated (m : List (String × String)) (file : Table K)
    (name alt : String) (h1 : name ∈ file.names) (h2 : alt ∈ file.names) (hne : alt ≠ name) :
    readTable ((name, alt) :: m) file = .error .keyError := by
  unfold readTable
  simp only [renameAll, Table.rename, h1, h2, hne, not_true, if_false, if_true, bind, Except.bind]

example : "z" ∈ twoSpaces.names ∧ "zs" ∈ twoSpaces.names ∧ "zs" ≠ "z" := by decide

/-! ### C125: arguments -/

/-- The value of a keyword. -/
def kwGet (d : List (String × KwVal)) (key : String) : Option KwVal := d.lookup key

theorem kwGet_set (d : List (String × KwVal)) (key : String) (v : KwVal) :
    kwGet (dictSet d key v) key = some v := by
  unfold dictSet
  by_cases h : d.any (fun p => p.1 = key) = true
  · rw [if_pos h]
    induction d with
    | nil => simp at h
    | cons p d ih =>
      unfold kwGet at ih ⊢
      rw [List.map_cons, List.lookup_cons]
      by_cases hp : p.1 = key
      · rw [if_pos hp]; simp
      · rw [if_neg hp]
        have hb : (key == p.1) = false := by simpa using fun h => hp h.symm
        rw [hb]
        apply ih
        simpa [hp] using h
  · rw [if_neg h]
    induction d with
    | nil => simp [kwGet]
    | cons p d ih =>
      have hp : p.1 ≠ key := fun hp => h (by simp [hp])
      have hb : (key == p.1) = false := by simpa using fun h => hp h.symm
      unfold kwGet at ih ⊢
      rw [List.cons_append, List.lookup_cons, hb]
      apply ih
      intro hc
      apply h
      simp only [List.any_cons, Bool.or_eq_true]
      exact Or.inr hc

/-- **C125 (arguments, partial: not for text files).** The keyword arguments are passed on and
the dictionary of the caller is not changed. -/
theorem C125_arguments_partial (format : String) (h1 : format ≠ "text")
    (h2 : format.startsWith "ascii" = false) (names : Option (List String))
    (kw : Option (List (String × KwVal))) :
    readKwargs format names kw = (kw.getD [], kw) := by
  unfold readKwargs
  simp only [h1, if_false, h2, Bool.false_eq_true]
  cases kw <;> rfl

example : "fits" ≠ "text" ∧ "fits".startsWith "ascii" = false := by decide +kernel

/-- **C125 is violated by the dictionary of keyword arguments of the caller, for text files**: the
names are written into it, replacing the names it may hold even when none are given. -/
theorem C125_arguments_violated (names : Option (List String)) (kw : List (String × KwVal))
    (h : kwGet kw "names" ≠ some (.names names)) :
    ∃ d, (readKwargs "text" names (some kw)).1 = d ∧ (readKwargs "text" names (some kw)).2 = some d ∧
      kwGet d "names" = some (.names names) ∧ d ≠ kw := by
  have ha : ("ascii" : String).startsWith "ascii" = true := by decide +kernel
  refine ⟨dictSet kw "names" (.names names), ?_, ?_, kwGet_set _ _ _, ?_⟩
  · unfold readKwargs
    simp only [if_true, ha, Option.getD_some]
  · unfold readKwargs
    simp only [if_true, ha, Option.getD_some, Option.map_some]
  · intro hc
    apply h
    rw [← hc]
    exact kwGet_set _ _ _

example : kwGet [("names", .names (some ["x", "y", "z"]))] "names" ≠ some (.names none) := by
  decide

/-! ### C124 -/

/-- The columns of a catalogue. -/
def six : List String := ["x", "y", "z", "nz", "ws", "wc"]

theorem mapM_arg (t : Table K) (l : List String) (r : List (List K)) :
    l.mapM t.arg = .ok r ↔ List.Forall₂ (fun n v => t.get n = some (.flt v)) l r := by
  induction l generalizing r with
  | nil =>
    simp only [List.mapM_nil, pure, Except.pure, Except.ok.injEq]
    constructor
    · rintro rfl; exact List.Forall₂.nil
    · intro h; cases h; rfl
  | cons n l ih =>
    rw [List.mapM_cons]
    cases hg : t.get n with
    | none =>
      simp only [Table.arg, hg, bind, Except.bind]
      constructor
      · intro h; cases h
      · intro h; cases h with | cons h1 _ => rw [hg] at h1; cases h1
    | some c =>
      cases c with
      | int z =>
        simp only [Table.arg, hg, bufferArg, bind, Except.bind]
        constructor
        · intro h; cases h
        · intro h; cases h with | cons h1 _ => rw [hg] at h1; cases h1
      | flt v =>
        simp only [Table.arg, hg, bufferArg, bind, Except.bind]
        cases hl : l.mapM t.arg with
        | error e =>
          constructor
          · intro h
            cases h
          · intro h
            cases h with
            | cons h1 h2 => rw [(ih _).2 h2] at hl; cases hl
        | ok q =>
          constructor
          · intro h
            simp only [pure, Except.pure, Except.ok.injEq] at h
            subst h
            exact List.Forall₂.cons hg ((ih q).1 hl)
          · intro h
            cases h with
            | cons h1 h2 =>
              rw [hg] at h1
              cases h1
              rw [(ih _).2 h2] at hl
              cases hl
              rfl

/-- **C124 (partial: all columns hold floats).** A catalogue is handed over with exactly the
numbers in its columns, and this happens only if all six columns hold floats. -/
theorem C124_conversion_partial (t : Table K) (r : List (List K)) :
    t.convert = .ok r ↔ List.Forall₂ (fun n v => t.get n = some (.flt v)) six r :=
  mapM_arg t six r

/-- **C124 is violated by columns of integers**: a catalogue with integers in one of its columns is
never handed over, although with the same numbers as floats it is. -/
theorem C124_integers_violated (t : Table K) (n : String) (hn : n ∈ six) (l : List ℤ)
    (h : t.get n = some (.int l)) : ∀ r, t.convert ≠ .ok r := by
  intro r hr
  rw [C124_conversion_partial] at hr
  have key : ∀ (a : List String) (b : List (List K)),
      List.Forall₂ (fun n v => t.get n = some (.flt v)) a b → n ∉ a := by
    intro a b hab
    induction hab with
    | nil => simp
    | cons h1 _ ih =>
      rw [List.mem_cons, not_or]
      refine ⟨?_, ih⟩
      rintro rfl
      rw [h] at h1
      cases h1
  exact key _ _ hr hn

/-- The column of a file in which every entry is written as an integer is one of integers, with the
numbers written. -/
theorem readColumn_ints (l : List ℤ) : readColumn (K := K) (l.map .int) = .int l ∧
    (readColumn (K := K) (l.map .int)).vals = (l.map Entry.int).map (Entry.num (K := K)) := by
  have : readColumn (K := K) (l.map .int) = .int l := by
    unfold readColumn
    rw [if_pos (by simp)]
    rw [List.map_map]
    congr 1
    exact (List.map_congr_left (g := id) (by intro a _; rfl)).trans (List.map_id l)
  refine ⟨this, ?_⟩
  rw [this, List.map_map]
  rfl

/-- **C124 is violated by a text catalogue whose weights are written as whole numbers**: it is
read, and then cannot be measured. -/
theorem C124_text_file_violated (x y z : List (Entry K)) (w : List ℤ) :
    ∃ t, readTable [] [("x", readColumn x), ("y", readColumn y), ("z", readColumn z),
      ("ws", readColumn (w.map .int))] = .ok t ∧ ∀ r, t.convert ≠ .ok r := by
  have hf : Table.names [("x", readColumn x), ("y", readColumn y), ("z", readColumn z),
      ("ws", readColumn (K := K) (w.map .int))] = ["x", "y", "z", "ws"] := rfl
  obtain ⟨t, ht, h1, -⟩ := (C125_reading_partial (K := K) [] [("x", readColumn x),
    ("y", readColumn y), ("z", readColumn z), ("ws", readColumn (w.map .int))]
    (by rw [hf]; decide) ⟨by simp, by simp, by simp, by simp⟩).1 (by
      intro n hn
      right
      rw [hf]
      simp only [List.mem_cons, List.not_mem_nil, or_false] at hn ⊢
      rcases hn with rfl | rfl | rfl <;> simp)
  refine ⟨t, ht, ?_⟩
  have h2 := (h1 "ws" (by simp) (Or.inr ⟨by rw [hf]; decide, by simp⟩)).1
  rw [(readColumn_ints w).1] at h2
  exact C124_integers_violated t "ws" (by decide) w h2

/-- **C124 is violated by a whole number given as the weight**, `ParticleCatalogue(x, y, z, ws=1)`:
accepted, and then it cannot be measured; the same number as a float can. -/
theorem C124_integer_weight_violated (x y z : List K) (hy : y.length = x.length)
    (hz : z.length = x.length) (w : ℤ) :
    (∃ t, newTable (.flt x) (.flt y) (.flt z) none (.intNum w) (.fltNum 1) = .ok t ∧
      ∀ r, t.convert ≠ .ok r) ∧
    (∃ t, newTable (.flt x) (.flt y) (.flt z) none (.fltNum (w : K)) (.fltNum 1) = .ok t ∧
      t.convert = .ok [x, y, z, List.replicate x.length 0, List.replicate x.length (w : K),
        List.replicate x.length 1]) := by
  constructor
  · refine ⟨[("x", .flt x), ("y", .flt y), ("z", .flt z), ("nz", .flt (List.replicate x.length 0)),
      ("ws", .int (List.replicate x.length w)), ("wc", .flt (List.replicate x.length 1))], ?_, ?_⟩
    · simp [newTable, ColVal.col, TCol.vals, hy, hz, bind, Except.bind]
    · exact C124_integers_violated _ "ws" (by decide) (List.replicate x.length w) rfl
  · refine ⟨[("x", .flt x), ("y", .flt y), ("z", .flt z), ("nz", .flt (List.replicate x.length 0)),
      ("ws", .flt (List.replicate x.length (w : K))), ("wc", .flt (List.replicate x.length 1))],
      ?_, ?_⟩
    · simp [newTable, ColVal.col, TCol.vals, hy, hz, bind, Except.bind]
    · rfl

/-- **C124 (construction).** A catalogue made of columns of floats is accepted exactly if all of them have as many
rows as the first coordinate, and is then handed over to the algorithm with exactly those columns; otherwise a
`ValueError` is raised. -/
theorem C124_construction (x y z nz ws wc : List K) :
    ((∀ l ∈ [y, z, nz, ws, wc], l.length = x.length) → ∃ t, newTable (.flt x) (.flt y) (.flt z)
      (some (.arr (.flt nz))) (.arr (.flt ws)) (.arr (.flt wc)) = .ok t ∧ t.convert = .ok [x, y, z, nz, ws, wc]) ∧
    ((∃ l ∈ [y, z, nz, ws, wc], l.length ≠ x.length) → newTable (.flt x) (.flt y) (.flt z)
      (some (.arr (.flt nz))) (.arr (.flt ws)) (.arr (.flt wc)) = .error .valueError) := by
  constructor
  · intro h
    simp only [List.mem_cons, List.not_mem_nil, or_false, forall_eq_or_imp, forall_eq] at h
    obtain ⟨h1, h2, h3, h4, h5⟩ := h
    refine ⟨[("x", .flt x), ("y", .flt y), ("z", .flt z), ("nz", .flt nz), ("ws", .flt ws), ("wc", .flt wc)], ?_, rfl⟩
    simp [newTable, ColVal.col, TCol.vals, h1, h2, h3, h4, h5, bind, Except.bind]
  · intro h
    simp only [List.mem_cons, List.not_mem_nil, or_false, exists_eq_or_imp, exists_eq_left] at h
    unfold newTable
    by_cases h1 : y.length = x.length
    · by_cases h2 : z.length = x.length
      · by_cases h3 : nz.length = x.length
        · by_cases h4 : ws.length = x.length
          · have h5 : wc.length ≠ x.length := by tauto
            simp [ColVal.col, TCol.vals, h1, h2, h3, h4, h5, bind, Except.bind]
          · simp [ColVal.col, TCol.vals, h1, h2, h3, h4, bind, Except.bind]
        · simp [ColVal.col, TCol.vals, h1, h2, h3, bind, Except.bind]
      · simp [ColVal.col, TCol.vals, h1, h2, bind, Except.bind]
    · simp [ColVal.col, TCol.vals, h1, bind, Except.bind]

/-- Both cases occur. -/
example : (∀ l ∈ [[(1 : ℚ), 2], [3, 4], [5, 6], [7, 8], [9, 10]], l.length = [(0 : ℚ), 1].length) ∧
    newTable (K := ℚ) (.flt [0, 1]) (.flt [1]) (.flt [3, 4]) (some (.arr (.flt [5, 6]))) (.arr (.flt [7, 8]))
      (.arr (.flt [9, 10])) = .error .valueError :=
  ⟨by simp, (C124_construction [0, 1] [1] [3, 4] [5, 6] [7, 8] [9, 10]).2 ⟨[1], by simp, by simp⟩⟩

/-- **C124 is violated by displacing a catalogue with a coordinate of integers**: it is rejected,
and coordinates before it have been displaced already. -/
theorem C124_displacement_violated (x : List K) (y z : List ℤ) (rest : Table K) (a b c : K)
    (hr : ∀ p ∈ rest, p.1 ≠ "x") :
    Table.offset (("x", .flt x) :: ("y", .int y) :: ("z", .int z) :: rest)
      [("x", a), ("y", b), ("z", c)]
      = (("x", .flt (x.map fun v => v - a)) :: ("y", .int y) :: ("z", .int z) :: rest,
         some .typeError) := by
  have hmap : (rest.map fun p => if p.1 = "x" then ("x", TCol.flt (x.map fun v => v - a)) else p)
      = rest := by
    refine (List.map_congr_left (g := id) ?_).trans (List.map_id rest)
    intro p hp
    rw [if_neg (hr p hp)]
    rfl
  have h1 : Table.isub (("x", .flt x) :: ("y", .int y) :: ("z", .int z) :: rest) "x" a
      = (("x", .flt (x.map fun v => v - a)) :: ("y", .int y) :: ("z", .int z) :: rest, none) := by
    have hg : Table.get (("x", .flt x) :: ("y", .int y) :: ("z", .int z) :: rest) "x"
        = some (.flt x) := rfl
    unfold Table.isub
    rw [hg]
    simp only [List.map_cons, hmap]
    simp
  have h2 : Table.isub (("x", .flt (x.map fun v => v - a)) :: ("y", .int y) :: ("z", .int z) :: rest)
      "y" b = (("x", .flt (x.map fun v => v - a)) :: ("y", .int y) :: ("z", .int z) :: rest,
        some .typeError) := rfl
  simp only [Table.offset, h1, h2]

/-- **C124 (partial: coordinates are floats).** A displacement is subtracted from each coordinate,
and no other column changes. -/
theorem C124_displacement_partial (t : Table K) (x y z : List K)
    (hx : t.get "x" = some (.flt x)) (hy : t.get "y" = some (.flt y))
    (hz : t.get "z" = some (.flt z)) (a b c : K) :
    ∃ t', t.offset [("x", a), ("y", b), ("z", c)] = (t', none) ∧ t'.names = t.names ∧
      t'.get "x" = some (.flt (x.map fun v => v - a)) ∧
      t'.get "y" = some (.flt (y.map fun v => v - b)) ∧
      t'.get "z" = some (.flt (z.map fun v => v - c)) ∧
      ∀ n, n ∉ ["x", "y", "z"] → t'.get n = t.get n := by
  have step : ∀ (t : Table K) (n : String) (l : List K) (o : K),
      t.get n = some (.flt l) → ∃ t', t.isub n o = (t', none) ∧ t'.names = t.names ∧
        ∀ k, t'.get k = if k = n then some (.flt (l.map fun v => v - o)) else t.get k := by
    intro t n l o hg
    refine ⟨_, by unfold Table.isub; rw [hg], ?_, ?_⟩
    · unfold Table.names
      rw [List.map_map]
      apply List.map_congr_left
      intro p _
      simp only [Function.comp]
      split_ifs with h
      · exact h.symm
      · rfl
    · intro k
      have hmem : n ∈ t.names := names_get.2 (by rw [hg]; rfl)
      clear hg
      induction t with
      | nil => simp [Table.names] at hmem
      | cons p t ih =>
        unfold Table.get at ih ⊢
        rw [List.map_cons, List.lookup_cons, List.lookup_cons]
        by_cases h1 : p.1 = n
        · rw [if_pos h1]
          by_cases h2 : k = n
          · subst h2
            simp
          · have hb : (k == n) = false := by simpa using h2
            have hb' : (k == p.1) = false := by rw [h1]; exact hb
            simp only [hb, hb', if_neg h2]
            by_cases h3 : n ∈ Table.names t
            · have := ih h3
              rw [if_neg h2] at this
              exact this
            · congr 1
              refine (List.map_congr_left (g := id) ?_).trans (List.map_id t)
              intro q hq
              rw [if_neg]
              · rfl
              · rintro rfl
                exact h3 (List.mem_map_of_mem hq)
        · rw [if_neg h1]
          have hmem' : n ∈ Table.names t := by
            simp only [Table.names, List.map_cons, List.mem_cons] at hmem
            exact hmem.resolve_left fun h => h1 h.symm
          by_cases h2 : k = p.1
          · have hb : (k == p.1) = true := by simpa using h2
            rw [hb]
            rw [if_neg]
            rintro rfl
            exact h1 h2.symm
          · have hb : (k == p.1) = false := by simpa using h2
            rw [hb]
            exact ih hmem'
  obtain ⟨t₁, e₁, n₁, g₁⟩ := step t "x" x a hx
  have hy₁ : t₁.get "y" = some (.flt y) := by rw [g₁, if_neg (by decide)]; exact hy
  obtain ⟨t₂, e₂, n₂, g₂⟩ := step t₁ "y" y b hy₁
  have hz₂ : t₂.get "z" = some (.flt z) := by
    rw [g₂, if_neg (by decide), g₁, if_neg (by decide)]; exact hz
  obtain ⟨t₃, e₃, n₃, g₃⟩ := step t₂ "z" z c hz₂
  refine ⟨t₃, ?_, ?_, ?_, ?_, ?_, ?_⟩
  · simp only [Table.offset, e₁, e₂, e₃]
  · rw [n₃, n₂, n₁]
  · rw [g₃, if_neg (by decide), g₂, if_neg (by decide), g₁, if_pos rfl]
  · rw [g₃, if_neg (by decide), g₂, if_pos rfl]
  · rw [g₃, if_pos rfl]
  · intro n hn
    simp only [List.mem_cons, List.not_mem_nil, or_false, not_or] at hn
    rw [g₃, if_neg hn.2.2, g₂, if_neg hn.2.1, g₁, if_neg hn.1]

example : twoSpaces.get "x" = some (.flt [1, 2]) ∧
    twoSpaces.get "y" = some (.flt [3, 4]) ∧ twoSpaces.get "z" = some (.flt [5, 6]) :=
  ⟨rfl, rfl, rfl⟩

end Trv.Cat

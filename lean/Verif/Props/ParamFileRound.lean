import Verif.Lemmas.ParamFileRound
import Verif.Lemmas.Multipole
import Mathlib.Tactic.FinCases
/-
C70, C71: the values read from a parameter file, and reading back the printed ones.
-/
set_option linter.unusedSectionVars false
namespace Trv.Par
open Trv.Mon

/-! ### Specification -/

/-- The value a list of assignments gives to a name; an assignment without a value gives none. -/
def given (L : List (Str × Str)) (n : String) : Option Str :=
  ((L.find? fun nv => nv.1 = n.toList).map (·.2)).filter (· ≠ [])

/-- The text given for a name, or the default. -/
def text (L : List (Str × Str)) (n d : String) : String := String.ofList ((given L n).getD d.toList)

/-- The number given for a name, or the default. -/
def number {α : Type} (f : Str → Option α) (L : List (Str × Str)) (n : String) (d : α) : α :=
  ((given L n).bind f).getD d

/-- Each parameter has the value given under its name, or its documented default. -/
structure Reads {K : Type} [Field K] (ps : Parse K) (L : List (Str × Str)) (q : Params K) : Prop where
  catDir : q.catDir = (given L "catalogue_dir").getD []
  measDir : q.measDir = (given L "measurement_dir").getD []
  dataFile : q.dataFile = (given L "data_catalogue_file").getD []
  randFile : q.randFile = (given L "rand_catalogue_file").getD []
  columns : q.columns = (given L "catalogue_columns").getD []
  dataset : q.dataset = (given L "catalogue_dataset").getD []
  tag : q.tag = (given L "output_tag").getD []
  box0 : (given L "boxsize_x").bind ps.num = some (q.box 0)
  box1 : (given L "boxsize_y").bind ps.num = some (q.box 1)
  box2 : (given L "boxsize_z").bind ps.num = some (q.box 2)
  ngrid0 : (given L "ngrid_x").bind ps.int = some (q.ngrid 0)
  ngrid1 : (given L "ngrid_y").bind ps.int = some (q.ngrid 1)
  ngrid2 : (given L "ngrid_z").bind ps.int = some (q.ngrid 2)
  volume : q.volume = q.box 0 * q.box 1 * q.box 2
  nmesh : q.nmesh = q.ngrid 0 * q.ngrid 1 * q.ngrid 2
  expand : q.expand = number ps.num L "expand" 1
  cutoff : q.cutoff = number ps.num L "cutoff_nyq" 0
  alignment : q.alignment = text L "alignment" "centre"
  padscale : q.padscale = text L "padscale" "box"
  padfactor : q.padfactor = number ps.num L "padfactor" 0
  assignment : q.assignment = text L "assignment" "tsc"
  interlace : q.interlace = text L "interlace" "false"
  catType : q.catType = text L "catalogue_type" ""
  statType : q.statType = text L "statistic_type" ""
  form : q.form = text L "form" "diag"
  norm : q.norm = text L "norm_convention" "particle"
  binning : q.binning = text L "binning" "lin"
  ell1 : q.ell1 = number ps.int L "ell1" 0
  ell2 : q.ell2 = number ps.int L "ell2" 0
  ELL : q.ELL = number ps.int L "ELL" 0
  iWa : q.iWa = number ps.int L "i_wa" 0
  jWa : q.jWa = number ps.int L "j_wa" 0
  binMin : q.binMin = number ps.num L "bin_min" 0
  binMax : q.binMax = number ps.num L "bin_max" 0
  numBins : q.numBins = number ps.int L "num_bins" 0
  idxBin : q.idxBin = number ps.int L "idx_bin" 0
  scheme : q.scheme = text L "fftw_scheme" "measure"
  wisdom : q.wisdom = (given L "use_fftw_wisdom").getD "false".toList
  saveBvec : q.saveBvec = (given L "save_binned_vectors").getD "false".toList
  progbar : q.progbar = (given L "progbar").getD "false".toList
  verbose : q.verbose = number ps.int L "verbose" 20

/-- Two parameter sets agree on everything which is printed and not derived. -/
structure SamePrinted {K : Type} (p q : Params K) : Prop where
  catDir : q.catDir = p.catDir
  measDir : q.measDir = p.measDir
  dataFile : q.dataFile = p.dataFile
  randFile : q.randFile = p.randFile
  columns : q.columns = p.columns
  dataset : q.dataset = p.dataset
  tag : q.tag = p.tag
  box : q.box = p.box
  ngrid : q.ngrid = p.ngrid
  expand : q.expand = p.expand
  alignment : q.alignment = p.alignment
  padscale : q.padscale = p.padscale
  padfactor : q.padfactor = p.padfactor
  assignment : q.assignment = p.assignment
  interlace : q.interlace = p.interlace
  catType : q.catType = p.catType
  statType : q.statType = p.statType
  form : q.form = p.form
  norm : q.norm = p.norm
  binning : q.binning = p.binning
  ell1 : q.ell1 = p.ell1
  ell2 : q.ell2 = p.ell2
  ELL : q.ELL = p.ELL
  iWa : q.iWa = p.iWa
  jWa : q.jWa = p.jWa
  binMin : q.binMin = p.binMin
  binMax : q.binMax = p.binMax
  numBins : q.numBins = p.numBins
  idxBin : q.idxBin = p.idxBin
  scheme : q.scheme = p.scheme
  wisdom : q.wisdom = p.wisdom
  saveBvec : q.saveBvec = p.saveBvec
  progbar : q.progbar = p.progbar
  verbose : q.verbose = p.verbose

/-! ### C70: one line -/

section
variable {K : Type}

/-- **C70 (partial).** A line `name = value` of a text parameter, whose value contains no
parameter's name, stores the value if it fits the buffer; a value longer than 1023 characters is cut
there if the scan is limited and the buffer that large; otherwise it is written past the buffer. -/
theorem C70_text_value_partial (ps : Parse K) (st : Store) (n v : Str) (size : ℕ) (limit : Bool)
    (hk : (n, Kind.str size limit) ∈ fileNames) (hv : NoWs v) (hvn : NoName v) (hv0 : v ≠ []) :
    (v.length < size → (limit = true → v.length ≤ 1023) →
      scanLine ps st (assignLine n v) = .ok (Function.update st n (some v))) ∧
    (limit = true → size = 1024 → 1024 ≤ v.length →
      scanLine ps st (assignLine n v) = .ok (Function.update st n (some (v.take 1023)))) ∧
    (size ≤ v.length → (limit = true → size ≤ 1023) →
      scanLine ps st (assignLine n v) = .error .undefined) := by
  rw [scanLine_known ps st n v _ hk hv hvn, if_neg hv0]
  refine ⟨fun h1 h2 =>
    scanInto_fits (k := .str size limit) (show _ ∧ _ from ⟨h1, h2⟩) st n, fun h1 h2 h3 => ?_, fun h1 h2 => ?_⟩
  · have : (v.take 1023).length < size := by rw [List.length_take]; omega
    simp only [scanInto, h1, if_true, if_pos this]
  · have : ¬ (if limit = true then v.take 1023 else v).length < size := by
      by_cases hl : limit = true
      · rw [if_pos hl, List.length_take]; have := h2 hl; omega
      · rw [if_neg hl]; omega
    simp only [scanInto, if_neg this]

/-- All three happen: a path of the binned vectors is stored or cut, a form of 16 characters
overflows. -/
example : ("save_binned_vectors".toList, Kind.str 1024 true) ∈ fileNames ∧
    ("form".toList, Kind.str 16 true) ∈ fileNames ∧ NoName (List.replicate 2000 'x') ∧
    NoWs (List.replicate 2000 'x') := by
  refine ⟨by decide +kernel, by decide +kernel, ?_, ?_⟩
  · intro m hm h
    have : ∀ m ∈ known, ∃ c ∈ m, c ≠ 'x' := by decide +kernel
    obtain ⟨c, hc, hne⟩ := this m hm
    exact hne (List.eq_of_mem_replicate (h.subset hc))
  · intro c hc
    rw [List.eq_of_mem_replicate hc]; decide

/-- **C70 (partial).** A line `name = value` of a number stores the value if it is accepted as one
and leaves the parameter otherwise. -/
theorem C70_number_value_partial (ps : Parse K) (st : Store) (n v : Str)
    (hv : NoWs v) (hvn : NoName v) (hv0 : v ≠ []) :
    ((n, Kind.num) ∈ fileNames → scanLine ps st (assignLine n v) =
      .ok (if ps.num v = none then st else Function.update st n (some v))) ∧
    ((n, Kind.int) ∈ fileNames → scanLine ps st (assignLine n v) =
      .ok (if ps.int v = none then st else Function.update st n (some v))) := by
  constructor
  · intro hk
    rw [scanLine_known ps st n v _ hk hv hvn, if_neg hv0]
    cases h : ps.num v <;> simp [scanInto, h]
  · intro hk
    rw [scanLine_known ps st n v _ hk hv hvn, if_neg hv0]
    cases h : ps.int v <;> simp [scanInto, h]

example : ("bin_min".toList, Kind.num) ∈ fileNames ∧ ("ell1".toList, Kind.int) ∈ fileNames ∧
    (∀ m ∈ known, ¬ m <:+: "0.005".toList) := by decide +kernel

end

/-! ### C70: a whole file -/

section
variable {K : Type} [Field K]

theorem given_mem {L : List (Str × Str)} (hnd : (L.map (·.1)).Nodup) {n : String} {v : Str}
    (h : (n.toList, v) ∈ L) : given L n = stored v := by
  have : L.find? (fun nv => decide (nv.1 = n.toList)) = some (n.toList, v) := by
    induction L with
    | nil => cases h
    | cons a L ih =>
      rw [List.map_cons, List.nodup_cons] at hnd
      rcases List.mem_cons.1 h with h | h
      · rw [← h]; simp
      · have hne : a.1 ≠ n.toList := by
          rintro hc
          exact hnd.1 (by rw [hc]; exact List.mem_map_of_mem (f := (·.1)) h)
        rw [List.find?_cons_of_neg (by simpa using hne)]
        exact ih hnd.2 h
  unfold given stored
  rw [this]
  by_cases hv : v = []
  · simp [hv]
  · simp [hv]

theorem given_absent {L : List (Str × Str)} {n : String} (h : n.toList ∉ L.map (·.1)) :
    given L n = none := by
  have : L.find? (fun nv => decide (nv.1 = n.toList)) = none := by
    rw [List.find?_eq_none]
    intro nv hnv hc
    exact h (by rw [← of_decide_eq_true hc]; exact List.mem_map_of_mem (f := (·.1)) hnv)
  unfold given
  rw [this]; rfl

theorem attribution_reads (ps : Parse K) (L : List (Str × Str)) (st : Store)
    (hst : ∀ n : String, n.toList ∈ known → st n.toList = given L n)
    (h0 : ∀ n ∈ ["boxsize_x", "boxsize_y", "boxsize_z"], ((given L n).bind ps.num).isSome = true)
    (h1 : ∀ n ∈ ["ngrid_x", "ngrid_y", "ngrid_z"], ((given L n).bind ps.int).isSome = true) :
    ∃ q, attribution ps st = .ok q ∧ Reads ps L q := by
  have hk : ∀ n ∈ ["catalogue_dir", "measurement_dir", "data_catalogue_file",
      "rand_catalogue_file", "catalogue_columns", "catalogue_dataset", "output_tag",
      "boxsize_x", "boxsize_y", "boxsize_z", "ngrid_x", "ngrid_y", "ngrid_z", "expand",
      "alignment", "padscale", "padfactor", "assignment", "interlace", "catalogue_type",
      "statistic_type", "form", "norm_convention", "binning", "ell1", "ell2", "ELL", "i_wa",
      "j_wa", "bin_min", "bin_max", "num_bins", "idx_bin", "cutoff_nyq", "fftw_scheme",
      "use_fftw_wisdom", "save_binned_vectors", "progbar", "verbose"], n.toList ∈ known := by
    decide +kernel
  simp only [List.mem_cons, List.not_mem_nil, or_false, forall_eq_or_imp, forall_eq] at hk
  obtain ⟨k1, k2, k3, k4, k5, k6, k7, k8, k9, k10, k11, k12, k13, k14, k15, k16, k17, k18, k19, k20,
    k21, k22, k23, k24, k25, k26, k27, k28, k29, k30, k31, k32, k33, k34, k35, k36, k37, k38, k39⟩ := hk
  have hreq : ∀ {α : Type} (f : Str → Option α) (n : String), n.toList ∈ known →
      ((given L n).bind f).isSome = true →
      ∃ x, numReq f st n = .ok x ∧ (given L n).bind f = some x := by
    intro α f n hn hs
    obtain ⟨x, hx⟩ := Option.isSome_iff_exists.1 hs
    refine ⟨x, ?_, hx⟩
    unfold numReq
    rw [hst n hn, hx]
  obtain ⟨bx, e1, f1⟩ := hreq ps.num "boxsize_x" k8 (h0 _ (by simp))
  obtain ⟨byy, e2, f2⟩ := hreq ps.num "boxsize_y" k9 (h0 _ (by simp))
  obtain ⟨bz, e3, f3⟩ := hreq ps.num "boxsize_z" k10 (h0 _ (by simp))
  obtain ⟨nx, e4, f4⟩ := hreq ps.int "ngrid_x" k11 (h1 _ (by simp))
  obtain ⟨ny, e5, f5⟩ := hreq ps.int "ngrid_y" k12 (h1 _ (by simp))
  obtain ⟨nz, e6, f6⟩ := hreq ps.int "ngrid_z" k13 (h1 _ (by simp))
  have hof : ∀ n : String, n.toList ∈ known → strOf st n = (given L n).getD [] := fun n hn => by
    unfold strOf; rw [hst n hn]
  have hor : ∀ (n : String) (d : Str), n.toList ∈ known → strOr st n d = (given L n).getD d :=
    fun n d hn => by unfold strOr; rw [hst n hn]
  have hnum : ∀ {α : Type} (f : Str → Option α) (n : String) (d : α), n.toList ∈ known →
      numOr f st n d = number f L n d := fun f n d hn => by unfold numOr number; rw [hst n hn]
  refine ⟨_, by simp only [attribution, e1, e2, e3, e4, e5, e6, bind, Except.bind]; rfl, ?_⟩
  constructor
  case catDir => exact hof _ k1
  case measDir => exact hof _ k2
  case dataFile => exact hof _ k3
  case randFile => exact hof _ k4
  case columns => exact hof _ k5
  case dataset => exact hof _ k6
  case tag => exact hof _ k7
  case box0 => exact f1
  case box1 => exact f2
  case box2 => exact f3
  case ngrid0 => exact f4
  case ngrid1 => exact f5
  case ngrid2 => exact f6
  case volume => rfl
  case nmesh => rfl
  case expand => exact hnum _ _ _ k14
  case cutoff => exact hnum _ _ _ k34
  case alignment => exact congrArg String.ofList (hor _ _ k15)
  case padscale => exact congrArg String.ofList (hor _ _ k16)
  case padfactor => exact hnum _ _ _ k17
  case assignment => exact congrArg String.ofList (hor _ _ k18)
  case interlace => exact congrArg String.ofList (hor _ _ k19)
  case catType => exact congrArg String.ofList (hof _ k20)
  case statType => exact congrArg String.ofList (hof _ k21)
  case form => exact congrArg String.ofList (hor _ _ k22)
  case norm => exact congrArg String.ofList (hor _ _ k23)
  case binning => exact congrArg String.ofList (hor _ _ k24)
  case ell1 => exact hnum _ _ _ k25
  case ell2 => exact hnum _ _ _ k26
  case ELL => exact hnum _ _ _ k27
  case iWa => exact hnum _ _ _ k28
  case jWa => exact hnum _ _ _ k29
  case binMin => exact hnum _ _ _ k30
  case binMax => exact hnum _ _ _ k31
  case numBins => exact hnum _ _ _ k32
  case idxBin => exact hnum _ _ _ k33
  case scheme => exact congrArg String.ofList (hor _ _ k35)
  case wisdom => exact hor _ _ k36
  case saveBvec => exact hor _ _ k37
  case progbar => exact hor _ _ k38
  case verbose => exact hnum _ _ _ k39

/-- **C70 (partial).** Reading a file of lines `name = value` with distinct names, no value
containing a parameter's name or longer than its buffer, gives each parameter the value assigned to
its name and every other one its default, provided the box sizes and mesh numbers, which have no
default, are given.  In any order of the lines. -/
theorem C70_file_partial (ps : Parse K) (L : List (Str × Str)) (hnd : (L.map (·.1)).Nodup)
    (hL : ∀ nv ∈ L, GoodPair ps nv)
    (h0 : ∀ n ∈ ["boxsize_x", "boxsize_y", "boxsize_z"], ((given L n).bind ps.num).isSome = true)
    (h1 : ∀ n ∈ ["ngrid_x", "ngrid_y", "ngrid_z"], ((given L n).bind ps.int).isSome = true) :
    ∃ st q, scanFile ps (L.map fun nv => assignLine nv.1 nv.2) (fun _ => none) = .ok st ∧
      attribution ps st = .ok q ∧ Reads ps L q := by
  obtain ⟨st, hs, hs1, hs2⟩ := scan_pairs ps L hnd hL (fun _ => none) (fun _ _ => rfl)
  obtain ⟨q, hq, hr⟩ := attribution_reads ps L st (fun n hn => by
    by_cases hm : n.toList ∈ L.map (·.1)
    · obtain ⟨nv, hnv, he⟩ := List.mem_map.1 hm
      rw [← he, hs1 nv hnv (by rw [he]; exact hn), given_mem hnd (v := nv.2) (by rw [← he]; exact hnv)]
    · rw [hs2 _ hm, given_absent hm]) h0 h1
  exact ⟨st, q, hs, hq, hr⟩

end

/-! ### C71 -/

section
variable {K : Type} [Field K] [LinearOrder K] [IsStrictOrderedRing K] [FloorRing K]

/-- The printed lines other than that of the order of assignment. -/
def otherLines (fmt : ℕ → K → Str) (sci : K → Str) (p : Params K) : List (Str × Str) :=
  ((printed fmt sci p).1 ++ (printed fmt sci p).2).map fun nv => (nv.1.toList, nv.2)

/-- A parameter set whose printed values can be read: they contain no white space and no name of a
parameter, fit their buffers, are not empty where an empty one means the default, and the printed
numbers have enough digits. -/
structure Readable (ps : Parse K) (fmt : ℕ → K → Str) (sci : K → Str) (p : Params K) : Prop where
  plain : ∀ nv ∈ otherLines fmt sci p, NoWs nv.2 ∧ NoName nv.2
  ints : ∀ z : ℤ, ps.int (toStr z) = some z
  box : ∀ i, ps.num (fmt 3 (p.box i)) = some (p.box i)
  nums : ∀ x ∈ [p.expand, p.padfactor, p.binMin, p.binMax], ps.num (fmt 4 x) = some x
  fmt : ∀ d x, fmt d x ≠ []
  long : ∀ s ∈ [p.catDir, p.measDir, p.columns, p.dataset, p.tag, p.wisdom, p.saveBvec],
    s.length ≤ 1023
  files : ∀ s ∈ [p.dataFile, p.randFile], s.length < 262144
  short : ∀ s ∈ [p.alignment, p.padscale, p.assignment, p.interlace, p.catType, p.statType, p.form,
    p.norm, p.binning, p.scheme, String.ofList p.progbar], s.toList.length < 16
  set : ∀ s ∈ [p.alignment, p.padscale, p.assignment, p.interlace, p.form, p.norm, p.binning,
    p.scheme, String.ofList p.wisdom, String.ofList p.saveBvec, String.ofList p.progbar], s.toList ≠ []

theorem toStr_ne (z : ℤ) : toStr z ≠ [] := by
  unfold toStr
  split_ifs
  · simp
  · intro h
    have := Nat.length_toDigits_pos (b := 10) (n := z.toNat)
    rw [h] at this
    simp at this

theorem known_printed : ∀ n ∈ ["catalogue_dir", "measurement_dir", "catalogue_columns",
    "catalogue_dataset", "output_tag"], (n.toList, Kind.str 1024 false) ∈ fileNames := by
  decide +kernel

theorem names_printed (fmt : ℕ → K → Str) (sci : K → Str) (p : Params K) :
    ((otherLines fmt sci p).map (·.1)).Nodup := by
  have : (otherLines fmt sci p).map (·.1) = ["catalogue_dir", "measurement_dir",
      "data_catalogue_file", "rand_catalogue_file", "catalogue_columns", "catalogue_dataset",
      "output_tag", "boxsize_x", "boxsize_y", "boxsize_z", "ngrid_x", "ngrid_y", "ngrid_z",
      "volume", "nmesh", "expand", "alignment", "padscale", "padfactor", "assignment", "interlace",
      "catalogue_type", "statistic_type", "npoint", "space", "ell1", "ell2", "ELL", "i_wa", "j_wa",
      "form", "norm_convention", "binning", "shape", "bin_min", "bin_max", "num_bins", "idx_bin",
      "fftw_scheme", "use_fftw_wisdom", "fftw_wisdom_file_f", "fftw_wisdom_file_b",
      "save_binned_vectors", "progbar", "verbose", "fftw_planner_flag"].map String.toList := by
    simp only [otherLines, printed, List.map_map, List.cons_append, List.nil_append, List.map_cons,
      List.map_nil, Function.comp]
  rw [this]
  decide +kernel

theorem good_printed {ps : Parse K} {fmt : ℕ → K → Str} {sci : K → Str} {p : Params K}
    (h : Readable ps fmt sci p) : ∀ nv ∈ otherLines fmt sci p, GoodPair ps nv := by
  intro nv hnv
  refine ⟨(h.plain nv hnv).1, (h.plain nv hnv).2, ?_⟩
  have none1 : ∀ n ∈ ["volume", "nmesh", "npoint", "space", "shape", "fftw_wisdom_file_f",
      "fftw_wisdom_file_b", "fftw_planner_flag"],
      NoWs n.toList ∧ n.toList ≠ [] ∧ NoName n.toList := by
    unfold NoWs NoName; decide +kernel
  have K1 : ∀ n ∈ ["catalogue_dir", "measurement_dir", "catalogue_columns", "catalogue_dataset",
      "output_tag"], (n.toList, Kind.str 1024 false) ∈ fileNames := by decide +kernel
  have K2 : ∀ n ∈ ["use_fftw_wisdom", "save_binned_vectors"],
      (n.toList, Kind.str 1024 true) ∈ fileNames := by decide +kernel
  have K3 : ∀ n ∈ ["data_catalogue_file", "rand_catalogue_file"],
      (n.toList, Kind.str 262144 false) ∈ fileNames := by decide +kernel
  have K4 : ∀ n ∈ ["alignment", "padscale", "assignment", "interlace", "catalogue_type", "statistic_type",
      "form", "norm_convention", "binning", "fftw_scheme", "progbar"],
      (n.toList, Kind.str 16 true) ∈ fileNames := by decide +kernel
  have K5 : ∀ n ∈ ["boxsize_x", "boxsize_y", "boxsize_z", "expand", "padfactor", "bin_min", "bin_max"],
      (n.toList, Kind.num) ∈ fileNames := by decide +kernel
  have K6 : ∀ n ∈ ["ngrid_x", "ngrid_y", "ngrid_z", "ell1", "ell2", "ELL", "i_wa", "j_wa", "num_bins",
      "idx_bin", "verbose"],
      (n.toList, Kind.int) ∈ fileNames := by decide +kernel
  have F1 : ∀ s : Str, s.length ≤ 1023 → Fits ps (.str 1024 false) s := fun s hs =>
    show _ ∧ _ from ⟨by omega, fun _ => hs⟩
  have F2 : ∀ s : Str, s.length ≤ 1023 → Fits ps (.str 1024 true) s := fun s hs =>
    show _ ∧ _ from ⟨by omega, fun _ => hs⟩
  have F3 : ∀ s : Str, s.length < 262144 → Fits ps (.str 262144 false) s := fun s hs =>
    show _ ∧ _ from ⟨hs, fun hc => by cases hc⟩
  have F4 : ∀ s : Str, s.length < 16 → Fits ps (.str 16 true) s := fun s hs =>
    show _ ∧ _ from ⟨hs, fun _ => by omega⟩
  have F5 : ∀ (s : Str) (x : K), ps.num s = some x → Fits ps .num s := fun s x hs =>
    show (ps.num s).isSome = true by rw [hs]; rfl
  have F6 : ∀ z : ℤ, Fits ps .int (toStr z) := fun z =>
    show (ps.int (toStr z)).isSome = true by rw [h.ints z]; rfl
  simp only [otherLines, printed, List.map_append, List.map_cons, List.map_nil, List.mem_append,
    List.mem_cons, List.not_mem_nil, or_false] at hnv
  rcases hnv with (rfl | rfl | rfl | rfl | rfl | rfl | rfl | rfl | rfl | rfl | rfl | rfl | rfl | rfl | rfl | rfl | rfl | rfl | rfl | rfl | rfl) | (rfl | rfl | rfl | rfl | rfl | rfl | rfl | rfl | rfl | rfl | rfl | rfl | rfl | rfl | rfl
      | rfl | rfl | rfl | rfl | rfl | rfl | rfl | rfl | rfl | rfl)
  · exact Or.inl ⟨_, K1 "catalogue_dir" (by simp), Or.inr (F1 _ (h.long p.catDir (by simp)))⟩
  · exact Or.inl ⟨_, K1 "measurement_dir" (by simp), Or.inr (F1 _ (h.long p.measDir (by simp)))⟩
  · exact Or.inl ⟨_, K3 "data_catalogue_file" (by simp), Or.inr (F3 _ (h.files p.dataFile (by simp)))⟩
  · exact Or.inl ⟨_, K3 "rand_catalogue_file" (by simp), Or.inr (F3 _ (h.files p.randFile (by simp)))⟩
  · exact Or.inl ⟨_, K1 "catalogue_columns" (by simp), Or.inr (F1 _ (h.long p.columns (by simp)))⟩
  · exact Or.inl ⟨_, K1 "catalogue_dataset" (by simp), Or.inr (F1 _ (h.long p.dataset (by simp)))⟩
  · exact Or.inl ⟨_, K1 "output_tag" (by simp), Or.inr (F1 _ (h.long p.tag (by simp)))⟩
  · exact Or.inl ⟨_, K5 "boxsize_x" (by simp), Or.inr (F5 _ _ (h.box 0))⟩
  · exact Or.inl ⟨_, K5 "boxsize_y" (by simp), Or.inr (F5 _ _ (h.box 1))⟩
  · exact Or.inl ⟨_, K5 "boxsize_z" (by simp), Or.inr (F5 _ _ (h.box 2))⟩
  · exact Or.inl ⟨_, K6 "ngrid_x" (by simp), Or.inr (F6 (p.ngrid 0))⟩
  · exact Or.inl ⟨_, K6 "ngrid_y" (by simp), Or.inr (F6 (p.ngrid 1))⟩
  · exact Or.inl ⟨_, K6 "ngrid_z" (by simp), Or.inr (F6 (p.ngrid 2))⟩
  · exact Or.inr (none1 "volume" (by simp))
  · exact Or.inr (none1 "nmesh" (by simp))
  · exact Or.inl ⟨_, K5 "expand" (by simp), Or.inr (F5 _ _ (h.nums p.expand (by simp)))⟩
  · exact Or.inl ⟨_, K4 "alignment" (by simp), Or.inr (F4 _ (h.short p.alignment (by simp)))⟩
  · exact Or.inl ⟨_, K4 "padscale" (by simp), Or.inr (F4 _ (h.short p.padscale (by simp)))⟩
  · exact Or.inl ⟨_, K5 "padfactor" (by simp), Or.inr (F5 _ _ (h.nums p.padfactor (by simp)))⟩
  · exact Or.inl ⟨_, K4 "assignment" (by simp), Or.inr (F4 _ (h.short p.assignment (by simp)))⟩
  · exact Or.inl ⟨_, K4 "interlace" (by simp), Or.inr (F4 _ (h.short p.interlace (by simp)))⟩
  · exact Or.inl ⟨_, K4 "catalogue_type" (by simp), Or.inr (F4 _ (h.short p.catType (by simp)))⟩
  · exact Or.inl ⟨_, K4 "statistic_type" (by simp), Or.inr (F4 _ (h.short p.statType (by simp)))⟩
  · exact Or.inr (none1 "npoint" (by simp))
  · exact Or.inr (none1 "space" (by simp))
  · exact Or.inl ⟨_, K6 "ell1" (by simp), Or.inr (F6 (p.ell1))⟩
  · exact Or.inl ⟨_, K6 "ell2" (by simp), Or.inr (F6 (p.ell2))⟩
  · exact Or.inl ⟨_, K6 "ELL" (by simp), Or.inr (F6 (p.ELL))⟩
  · exact Or.inl ⟨_, K6 "i_wa" (by simp), Or.inr (F6 (p.iWa))⟩
  · exact Or.inl ⟨_, K6 "j_wa" (by simp), Or.inr (F6 (p.jWa))⟩
  · exact Or.inl ⟨_, K4 "form" (by simp), Or.inr (F4 _ (h.short p.form (by simp)))⟩
  · exact Or.inl ⟨_, K4 "norm_convention" (by simp), Or.inr (F4 _ (h.short p.norm (by simp)))⟩
  · exact Or.inl ⟨_, K4 "binning" (by simp), Or.inr (F4 _ (h.short p.binning (by simp)))⟩
  · exact Or.inr (none1 "shape" (by simp))
  · exact Or.inl ⟨_, K5 "bin_min" (by simp), Or.inr (F5 _ _ (h.nums p.binMin (by simp)))⟩
  · exact Or.inl ⟨_, K5 "bin_max" (by simp), Or.inr (F5 _ _ (h.nums p.binMax (by simp)))⟩
  · exact Or.inl ⟨_, K6 "num_bins" (by simp), Or.inr (F6 (p.numBins))⟩
  · exact Or.inl ⟨_, K6 "idx_bin" (by simp), Or.inr (F6 (p.idxBin))⟩
  · exact Or.inl ⟨_, K4 "fftw_scheme" (by simp), Or.inr (F4 _ (h.short p.scheme (by simp)))⟩
  · exact Or.inl ⟨_, K2 "use_fftw_wisdom" (by simp), Or.inr (F2 _ (h.long p.wisdom (by simp)))⟩
  · exact Or.inr (none1 "fftw_wisdom_file_f" (by simp))
  · exact Or.inr (none1 "fftw_wisdom_file_b" (by simp))
  · exact Or.inl ⟨_, K2 "save_binned_vectors" (by simp), Or.inr (F2 _ (h.long p.saveBvec (by simp)))⟩
  · exact Or.inl ⟨_, K4 "progbar" (by simp), Or.inr (F4 _ (by
      simpa using h.short (String.ofList p.progbar) (by simp)))⟩
  · exact Or.inl ⟨_, K6 "verbose" (by simp), Or.inr (F6 (p.verbose))⟩
  · exact Or.inr (none1 "fftw_planner_flag" (by simp))

theorem given_printed {fmt : ℕ → K → Str} {sci : K → Str} {p : Params K} {n : String} {v : Str}
    (h : (n, v) ∈ (printed fmt sci p).1 ++ (printed fmt sci p).2) :
    given (otherLines fmt sci p) n = stored v :=
  given_mem (names_printed fmt sci p) (List.mem_map_of_mem (f := fun nv => (nv.1.toList, nv.2)) h)

theorem stored_getD (v : Str) : (stored v).getD [] = v := by
  unfold stored; split_ifs with h <;> simp [h]

theorem stored_ne {v : Str} (h : v ≠ []) : stored v = some v := if_neg h

/-- **C71 (partial).** Without the line of the order of assignment, the printed file is read back:
scanning and attributing its lines gives a parameter set agreeing with the printed one on everything
printed which is not derived.  (The cutoff is not among the printed parameters and is lost.) -/
theorem C71_print_read_partial (ps : Parse K) (fmt : ℕ → K → Str) (sci : K → Str) (p : Params K)
    (h : Readable ps fmt sci p) :
    ∃ st q, scanFile ps ((otherLines fmt sci p).map fun nv => assignLine nv.1 nv.2)
        (fun _ => none) = .ok st ∧ attribution ps st = .ok q ∧ SamePrinted p q ∧ q.cutoff = 0 := by
  have G : ∀ {n : String} {v : Str}, (n, v) ∈ (printed fmt sci p).1 ++ (printed fmt sci p).2 →
      given (otherLines fmt sci p) n = stored v := fun h => given_printed h
  have tx : ∀ {n d : String} {v : String}, v.toList ≠ [] ∨ d = "" →
      (n, v.toList) ∈ (printed fmt sci p).1 ++ (printed fmt sci p).2 →
      text (otherLines fmt sci p) n d = v := by
    intro n d v hv hm
    unfold text
    rw [G hm]
    rcases hv with hv | rfl
    · rw [stored_ne hv]; simp
    · rw [show ("" : String).toList = [] from rfl, stored_getD]; simp
  have sx : ∀ {n : String} {v d : Str}, (String.ofList v).toList ≠ [] →
      (n, v) ∈ (printed fmt sci p).1 ++ (printed fmt sci p).2 →
      (given (otherLines fmt sci p) n).getD d = v := by
    intro n v d hv hm
    rw [G hm, stored_ne (by simpa using hv)]; rfl
  have ix : ∀ {n : String} {z d : ℤ}, (n, toStr z) ∈ (printed fmt sci p).1 ++ (printed fmt sci p).2 →
      number ps.int (otherLines fmt sci p) n d = z := by
    intro n z d hm
    unfold number
    rw [G hm, stored_ne (toStr_ne z), Option.bind_some, h.ints]; rfl
  have nx : ∀ {n : String} {x d : K} {a : ℕ}, ps.num (fmt a x) = some x →
      (n, fmt a x) ∈ (printed fmt sci p).1 ++ (printed fmt sci p).2 →
      number ps.num (otherLines fmt sci p) n d = x := by
    intro n x d a hx hm
    unfold number
    rw [G hm, stored_ne (h.fmt a x), Option.bind_some, hx]; rfl
  have bx : ∀ {n : String} (i : Fin 3),
      (n, fmt 3 (p.box i)) ∈ (printed fmt sci p).1 ++ (printed fmt sci p).2 →
      (given (otherLines fmt sci p) n).bind ps.num = some (p.box i) := by
    intro n i hm
    rw [G hm, stored_ne (h.fmt _ _), Option.bind_some, h.box]
  have gx : ∀ {n : String} (i : Fin 3),
      (n, toStr (p.ngrid i)) ∈ (printed fmt sci p).1 ++ (printed fmt sci p).2 →
      (given (otherLines fmt sci p) n).bind ps.int = some (p.ngrid i) := by
    intro n i hm
    rw [G hm, stored_ne (toStr_ne _), Option.bind_some, h.ints]
  have b0 := bx (n := "boxsize_x") 0 (by simp [printed])
  have b1 := bx (n := "boxsize_y") 1 (by simp [printed])
  have b2 := bx (n := "boxsize_z") 2 (by simp [printed])
  have g0 := gx (n := "ngrid_x") 0 (by simp [printed])
  have g1 := gx (n := "ngrid_y") 1 (by simp [printed])
  have g2 := gx (n := "ngrid_z") 2 (by simp [printed])
  obtain ⟨st, q, hs, hq, hr⟩ := C70_file_partial ps (otherLines fmt sci p)
    (names_printed fmt sci p) (good_printed h)
    (by
      intro n hn
      simp only [List.mem_cons, List.not_mem_nil, or_false] at hn
      rcases hn with rfl | rfl | rfl
      · rw [b0]; rfl
      · rw [b1]; rfl
      · rw [b2]; rfl)
    (by
      intro n hn
      simp only [List.mem_cons, List.not_mem_nil, or_false] at hn
      rcases hn with rfl | rfl | rfl
      · rw [g0]; rfl
      · rw [g1]; rfl
      · rw [g2]; rfl)
  refine ⟨st, q, hs, hq, ?_, ?_⟩
  · constructor
    case catDir =>
      rw [hr.catDir, G (n := "catalogue_dir") (v := p.catDir) (by simp [printed]), stored_getD]
    case measDir =>
      rw [hr.measDir, G (n := "measurement_dir") (v := p.measDir) (by simp [printed]), stored_getD]
    case dataFile =>
      rw [hr.dataFile, G (n := "data_catalogue_file") (v := p.dataFile) (by simp [printed]), stored_getD]
    case randFile =>
      rw [hr.randFile, G (n := "rand_catalogue_file") (v := p.randFile) (by simp [printed]), stored_getD]
    case columns =>
      rw [hr.columns, G (n := "catalogue_columns") (v := p.columns) (by simp [printed]), stored_getD]
    case dataset =>
      rw [hr.dataset, G (n := "catalogue_dataset") (v := p.dataset) (by simp [printed]), stored_getD]
    case tag =>
      rw [hr.tag, G (n := "output_tag") (v := p.tag) (by simp [printed]), stored_getD]
    case box =>
      funext i
      fin_cases i
      · exact Option.some.inj (hr.box0.symm.trans b0)
      · exact Option.some.inj (hr.box1.symm.trans b1)
      · exact Option.some.inj (hr.box2.symm.trans b2)
    case ngrid =>
      funext i
      fin_cases i
      · exact Option.some.inj (hr.ngrid0.symm.trans g0)
      · exact Option.some.inj (hr.ngrid1.symm.trans g1)
      · exact Option.some.inj (hr.ngrid2.symm.trans g2)
    case expand => rw [hr.expand]; exact nx (a := 4) (h.nums _ (by simp)) (by simp [printed])
    case alignment => rw [hr.alignment]; exact tx (Or.inl (h.set _ (by simp))) (by simp [printed])
    case padscale => rw [hr.padscale]; exact tx (Or.inl (h.set _ (by simp))) (by simp [printed])
    case padfactor => rw [hr.padfactor]; exact nx (a := 4) (h.nums _ (by simp)) (by simp [printed])
    case assignment => rw [hr.assignment]; exact tx (Or.inl (h.set _ (by simp))) (by simp [printed])
    case interlace => rw [hr.interlace]; exact tx (Or.inl (h.set _ (by simp))) (by simp [printed])
    case catType => rw [hr.catType]; exact tx (Or.inr rfl) (by simp [printed])
    case statType => rw [hr.statType]; exact tx (Or.inr rfl) (by simp [printed])
    case ell1 => rw [hr.ell1]; exact ix (by simp [printed])
    case ell2 => rw [hr.ell2]; exact ix (by simp [printed])
    case ELL => rw [hr.ELL]; exact ix (by simp [printed])
    case iWa => rw [hr.iWa]; exact ix (by simp [printed])
    case jWa => rw [hr.jWa]; exact ix (by simp [printed])
    case form => rw [hr.form]; exact tx (Or.inl (h.set _ (by simp))) (by simp [printed])
    case norm => rw [hr.norm]; exact tx (Or.inl (h.set _ (by simp))) (by simp [printed])
    case binning => rw [hr.binning]; exact tx (Or.inl (h.set _ (by simp))) (by simp [printed])
    case binMin => rw [hr.binMin]; exact nx (a := 4) (h.nums _ (by simp)) (by simp [printed])
    case binMax => rw [hr.binMax]; exact nx (a := 4) (h.nums _ (by simp)) (by simp [printed])
    case numBins => rw [hr.numBins]; exact ix (by simp [printed])
    case idxBin => rw [hr.idxBin]; exact ix (by simp [printed])
    case scheme => rw [hr.scheme]; exact tx (Or.inl (h.set _ (by simp))) (by simp [printed])
    case wisdom =>
      rw [hr.wisdom]; exact sx (h.set _ (by simp)) (by simp [printed])
    case saveBvec =>
      rw [hr.saveBvec]; exact sx (h.set _ (by simp)) (by simp [printed])
    case progbar =>
      rw [hr.progbar]; exact sx (h.set _ (by simp)) (by simp [printed])
    case verbose => rw [hr.verbose]; exact ix (by simp [printed])
  · rw [hr.cutoff]
    unfold number
    rw [given_absent]
    · rfl
    · intro hm
      revert hm
      simp only [otherLines, printed, List.cons_append, List.nil_append, List.map_cons, List.map_nil]
      decide +kernel

end
/-- Printing and parsing for the example: the numbers of `exPar`. -/
def exFmt (_ : ℕ) (x : ℚ) : Str :=
  if x = 1000 then "1000.000".toList else if x = 1 then "1.0000".toList
  else if x = 1 / 100 then "0.0100".toList else if x = 1 / 10 then "0.1000".toList
  else "0.0000".toList

def exParse : Parse ℚ :=
  ⟨fun s => if s = "1000.000".toList then some 1000 else if s = "1.0000".toList then some 1
    else if s = "0.0100".toList then some (1 / 100) else if s = "0.1000".toList then some (1 / 10)
    else some 0, fun s => (Wc.pyInt s).toOption⟩

theorem exParse_int (z : ℤ) : exParse.int (toStr z) = some z := by
  show (Wc.pyInt (toStr z)).toOption = some z
  rw [Wc.pyInt_toStr]; rfl

theorem exFmt_ne (d : ℕ) (x : ℚ) : exFmt d x ≠ [] := by
  unfold exFmt
  split_ifs <;> decide

/-- A parameter set which can be read back. -/
example : Readable exParse exFmt (fun _ => "1.0e9".toList) exPar := by
  constructor
  · unfold NoWs NoName; decide +kernel
  · exact exParse_int
  · decide +kernel
  · decide +kernel
  · exact exFmt_ne
  · decide +kernel
  · decide +kernel
  · decide +kernel
  · decide +kernel

end Trv.Par

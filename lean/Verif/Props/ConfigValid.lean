import Verif.Props.ConfigLookup
import Verif.Props.TextFiles
/-!
# Validation of the configuration (C64, C75)
-/

namespace Disp

variable {F : Type} [PyFloat F]

namespace Spec

/-- The entry of a mapping. -/
def entry (c : YamlVal F) (key : String) : Option (YamlVal F) :=
  match c with
  | .dict d => (d.find? (fun p => p.1 == key)).map Prod.snd
  | _ => Option.none

/-- A name of a file that can be opened for reading or, if that fails with an OSError, for
writing, from within a temporary directory. -/
def UsableName (sys : CfgSys F) (name : String) : Prop :=
  sys.openR (joinPath sys.temp name) = .ok () ∨
    (sys.openR (joinPath sys.temp name) = .error .os ∨
      sys.openR (joinPath sys.temp name) = .error .fileNotFound) ∧
    sys.openW (joinPath sys.temp name) = .ok ()

/-- The configurations that the documentation describes. -/
structure WellTyped (sys : CfgSys F) (c : YamlVal F) : Prop where
  path : ∃ s, entry c "Path" = some (.str s) ∧ sys.isdir s = true
  file : ∃ s, entry c "File" = some (.str s) ∧ UsableName sys s
  interactive : ∃ b, entry c "Interactive" = some (.bool b)
  warn : ∃ b, entry c "WarnMissingPackages" = some (.bool b)
  modules : ∃ d, entry c "Modules" = some (.dict d) ∧ ∀ p ∈ d, ∃ b, p.2 = .bool b
  ref : ∃ r, entry c "ReferenceSpectrum" = some r ∧ (∃ x, entry r "Value" = some (.float x)) ∧
    (∃ s, entry r "SpectrumType" = some (.str s)) ∧ ∃ s, entry r "Unit" = some (.str s)

end Spec

open Spec

omit [PyFloat F] in
theorem dictGet_find {α : Type} (d : List (String × α)) (key : String) :
    dictGet d key = match (d.find? (fun p => p.1 == key)).map Prod.snd with
      | some v => .ok v
      | Option.none => .error .key := by
  induction d with
  | nil => rfl
  | cons p d ih =>
    obtain ⟨k, v⟩ := p
    rw [dictGet]
    by_cases h : k = key
    · subst h; simp
    · simp [h, ih]

omit [PyFloat F] in
theorem dictHas_find {α : Type} (d : List (String × α)) (key : String) :
    dictHas d key = ((d.find? (fun p => p.1 == key)).map Prod.snd).isSome := by
  induction d with
  | nil => rfl
  | cons p d ih =>
    obtain ⟨k, v⟩ := p
    by_cases h : k = key
    · subst h; simp [dictHas]
    · simp only [dictHas, List.any_cons, h, decide_false, Bool.false_or] at ih ⊢
      simp [h, ih]

omit [PyFloat F] in
theorem YamlVal.get_ok {c : YamlVal F} {key : String} {v : YamlVal F} :
    c.get key = .ok v ↔ entry c key = some v := by
  cases c with
  | dict d =>
    simp only [YamlVal.get, entry, dictGet_find]
    cases (d.find? (fun p => p.1 == key)).map Prod.snd <;> simp
  | _ => simp [YamlVal.get, entry]

omit [PyFloat F] in
theorem YamlVal.has_ok {c : YamlVal F} {key : String} :
    c.has key = .ok () ↔ ∃ v, entry c key = some v := by
  cases c with
  | dict d =>
    simp only [YamlVal.has, entry, dictHas_find]
    cases (d.find? (fun p => p.1 == key)).map Prod.snd <;> simp
  | _ => simp [YamlVal.has, entry]

omit [PyFloat F] in
theorem YamlVal.asStr_ok {v : YamlVal F} {s : String} : v.asStr = .ok s ↔ v = .str s := by
  cases v <;> simp [YamlVal.asStr]

omit [PyFloat F] in
theorem YamlVal.asBool_ok {v : YamlVal F} {b : Bool} : v.asBool = .ok b ↔ v = .bool b := by
  cases v <;> simp [YamlVal.asBool]

omit [PyFloat F] in
theorem YamlVal.asFloat_ok {v : YamlVal F} {x : F} : v.asFloat = .ok x ↔ v = .float x := by
  cases v <;> simp [YamlVal.asFloat]

omit [PyFloat F] in
theorem YamlVal.items_ok {v : YamlVal F} {d : List (String × YamlVal F)} :
    v.items = .ok d ↔ v = .dict d := by
  cases v <;> simp [YamlVal.items]

theorem orIOError_ok {b : Bool} : orIOError b = .ok () ↔ b = true := by
  cases b <;> simp [orIOError]

omit [PyFloat F] in
theorem validName_ok {sys : CfgSys F} {name : String} :
    sys.validName name = .ok true ↔ UsableName sys name := by
  unfold CfgSys.validName UsableName
  cases hr : sys.openR (joinPath sys.temp name) with
  | ok u => simp
  | error e =>
    cases hw : sys.openW (joinPath sys.temp name) with
    | ok u => cases e <;> simp [PyErr.isA]
    | error e' => cases e <;> cases e' <;> simp [PyErr.isA]

omit [PyFloat F] in
theorem checkModules_ok {d : List (String × YamlVal F)} :
    (∃ l, checkModules d = .ok l) ↔ ∀ p ∈ d, ∃ b, p.2 = .bool b := by
  unfold checkModules
  induction d with
  | nil => simp [pure, Except.pure]
  | cons p d ih =>
    obtain ⟨k, v⟩ := p
    constructor
    · rintro ⟨l, hl⟩
      rw [List.mapM_cons] at hl
      obtain ⟨x, hx, hl⟩ := except_bind_ok hl
      obtain ⟨b, hb, -⟩ := except_bind_ok hx
      obtain ⟨l', hl', -⟩ := except_bind_ok hl
      intro q hq
      rcases List.mem_cons.1 hq with rfl | hq
      · exact ⟨b, YamlVal.asBool_ok.1 hb⟩
      · exact ih.1 ⟨l', hl'⟩ q hq
    · intro h
      obtain ⟨b, hb⟩ := h (k, v) (by simp)
      obtain ⟨l, hl⟩ := ih.2 (fun q hq => h q (by simp [hq]))
      simp only at hb
      subst hb
      refine ⟨(k, b) :: l, ?_⟩
      rw [List.mapM_cons, hl]
      rfl

/-- **C64**: a configuration is accepted exactly if it is as documented. (Everything else is
rejected: there is no third outcome.) -/
theorem C64_exactly (sys : CfgSys F) (c : YamlVal F) :
    validateConfig sys c = .ok () ↔ WellTyped sys c := by
  constructor
  · intro h
    unfold validateConfig at h
    obtain ⟨v1, h1, h⟩ := except_bind_ok h
    obtain ⟨path, h2, h⟩ := except_bind_ok h
    obtain ⟨_, h3, h⟩ := except_bind_ok h
    obtain ⟨v2, h4, h⟩ := except_bind_ok h
    obtain ⟨file, h5, h⟩ := except_bind_ok h
    obtain ⟨valid, h6, h⟩ := except_bind_ok h
    obtain ⟨_, h7, h⟩ := except_bind_ok h
    obtain ⟨v3, h8, h⟩ := except_bind_ok h
    obtain ⟨b1, h9, h⟩ := except_bind_ok h
    obtain ⟨v4, h10, h⟩ := except_bind_ok h
    obtain ⟨b2, h11, h⟩ := except_bind_ok h
    obtain ⟨_, h12, h⟩ := except_bind_ok h
    obtain ⟨v5, h13, h⟩ := except_bind_ok h
    obtain ⟨d, h14, h⟩ := except_bind_ok h
    obtain ⟨l, h15, h⟩ := except_bind_ok h
    obtain ⟨_, h16, h⟩ := except_bind_ok h
    obtain ⟨r, h17, h⟩ := except_bind_ok h
    obtain ⟨v6, h18, h⟩ := except_bind_ok h
    obtain ⟨x, h19, h⟩ := except_bind_ok h
    obtain ⟨v7, h20, h⟩ := except_bind_ok h
    obtain ⟨s1, h21, h⟩ := except_bind_ok h
    obtain ⟨v8, h22, h⟩ := except_bind_ok h
    obtain ⟨s2, h23, h⟩ := except_bind_ok h
    have hv : valid = true := orIOError_ok.1 h7
    subst hv
    rw [YamlVal.get_ok] at h1 h4 h8 h10 h13 h17 h18 h20 h22
    rw [YamlVal.asStr_ok] at h2 h5 h21 h23
    rw [YamlVal.asBool_ok] at h9 h11
    rw [YamlVal.asFloat_ok] at h19
    rw [YamlVal.items_ok] at h14
    subst h2 h5 h9 h11 h14 h19 h21 h23
    exact ⟨⟨path, h1, orIOError_ok.1 h3⟩, ⟨file, h4, validName_ok.1 h6⟩, ⟨b1, h8⟩, ⟨b2, h10⟩,
      ⟨d, h13, checkModules_ok.1 ⟨l, h15⟩⟩, ⟨r, h17, ⟨x, h18⟩, ⟨s1, h20⟩, ⟨s2, h22⟩⟩⟩
  · rintro ⟨⟨path, h1, h2⟩, ⟨file, h3, h4⟩, ⟨b1, h5⟩, ⟨b2, h6⟩, ⟨d, h7, h8⟩,
      ⟨r, h9, ⟨x, h10⟩, ⟨s1, h11⟩, ⟨s2, h12⟩⟩⟩
    obtain ⟨l, hl⟩ := checkModules_ok.2 h8
    have m1 : c.has "Modules" = .ok () := YamlVal.has_ok.2 ⟨_, h7⟩
    have m2 : c.has "ReferenceSpectrum" = .ok () := YamlVal.has_ok.2 ⟨_, h9⟩
    rw [← YamlVal.get_ok] at h1 h3 h5 h6 h7 h9 h10 h11 h12
    rw [← validName_ok] at h4
    simp only [validateConfig, h1, h2, h3, h4, h5, h6, h7, h9, h10, h11, h12, m1, m2, hl, bind,
      Except.bind, YamlVal.asStr, YamlVal.asBool, YamlVal.asFloat, YamlVal.items, orIOError,
      if_true]

/-- The rejections: whatever is missing or wrong, an exception is raised. -/
theorem C64_rejects (sys : CfgSys F) (c : YamlVal F) (h : ¬ WellTyped sys c) :
    ∃ e, validateConfig sys c = .error e := by
  cases hv : validateConfig sys c with
  | error e => exact ⟨e, rfl⟩
  | ok u => exact absurd ((C64_exactly sys c).1 hv) h

/-! ## Catalogues -/

variable [SciPy F] [NumText F] [CsvIO F]

/-- No Catalogue is made from a configuration that is not as documented: the exception of the
validation is raised, and no file of the catalogue is looked at. -/
theorem C64_catalogue (sys : CfgSys F) (fs : FileSys F) (csv : String → Option (List Char))
    (c : YamlVal F) (rb : Rebuild) (h : ¬ WellTyped sys c) :
    ∃ e, validateConfig sys c = .error e ∧ newCatalogue sys fs csv c rb = some (.error e) := by
  obtain ⟨e, he⟩ := C64_rejects sys c h
  exact ⟨e, he, by simp [newCatalogue, he, bind, Except.bind]⟩

omit [SciPy F] [NumText F] [CsvIO F] in
/-- All entries that a Catalogue uses are there after the validation. -/
theorem C64_entries (sys : CfgSys F) (c : YamlVal F) (h : validateConfig sys c = .ok ()) :
    ∃ cc, CatConfig.ofYaml c = .ok cc ∧ entry c "Path" = some (.str cc.path) ∧
      entry c "File" = some (.str cc.file) := by
  obtain ⟨⟨path, h1, h2⟩, ⟨file, h3, h4⟩, ⟨b1, h5⟩, ⟨b2, h6⟩, ⟨d, h7, h8⟩,
      ⟨r, h9, ⟨x, h10⟩, ⟨s1, h11⟩, ⟨s2, h12⟩⟩⟩ := (C64_exactly sys c).1 h
  obtain ⟨l, hl⟩ := checkModules_ok.2 h8
  refine ⟨⟨path, file, l, x, s1, s2⟩, ?_, h1, h3⟩
  rw [← YamlVal.get_ok] at h1 h3 h5 h6 h7 h9 h10 h11 h12
  simp only [CatConfig.ofYaml, h1, h3, h7, h9, h10, h11, h12, hl, bind, Except.bind,
    YamlVal.asStr, YamlVal.asFloat, YamlVal.items]

/-! ## The default configuration -/

namespace Spec

/-- A directory whose name can be put in a YAML file as it is: no blank before `#`, no blank at
the end. -/
def PlainYaml (dir : String) : Prop :=
  (∀ a b, dir.toList ≠ a ++ ' ' :: '#' :: b) ∧ dir.toList.getLast? ≠ some ' '

end Spec

theorem cutComment_eq {s : List Char} (h : ∀ a b, s ≠ a ++ ' ' :: '#' :: b) : cutComment s = s := by
  induction s with
  | nil => rfl
  | cons c s ih =>
    rw [cutComment, if_neg, ih]
    · intro a b e
      exact h (c :: a) b (by simp [e])
    · rintro ⟨rfl, hh⟩
      cases s with
      | nil => simp at hh
      | cons d s =>
        have : d = '#' := by simpa using hh
        subst this
        exact h [] s rfl

theorem plainScalar_eq {dir : String} (h : PlainYaml dir) : plainScalar dir = dir := by
  obtain ⟨h1, h2⟩ := h
  rw [plainScalar, cutComment_eq h1]
  have : dir.toList.reverse.dropWhile (· = ' ') = dir.toList.reverse := by
    cases hr : dir.toList.reverse with
    | nil => rfl
    | cons c l =>
      have hc : c ≠ ' ' := by
        rintro rfl
        apply h2
        rw [List.getLast?_eq_head?_reverse, hr]
        rfl
      simp [hc]
  rw [this, List.reverse_reverse, String.ofList_toList]

omit [SciPy F] [NumText F] [CsvIO F] in
/-- **C75**: the default configuration is valid and names the user's directory, if this directory
exists, has a plain name and the temporary directory can be used. -/
theorem C75_default_partial (sys : CfgSys F) (dir : String) (hd : sys.isdir dir = true)
    (hp : PlainYaml dir) (hn : UsableName sys "catalogue.csv") :
    validateConfig sys (defaultFor dir) = .ok () ∧
      entry (defaultFor (F := F) dir) "Path" = some (.str dir) := by
  have e : entry (defaultFor (F := F) dir) "Path" = some (.str dir) := by
    simp [entry, defaultFor, plainScalar_eq hp]
  refine ⟨(C64_exactly sys _).2 ⟨⟨dir, e, hd⟩, ⟨_, rfl, hn⟩, ⟨_, rfl⟩, ⟨_, rfl⟩, ⟨_, rfl, ?_⟩,
    ⟨_, rfl, ⟨_, rfl⟩, ⟨_, rfl⟩, ⟨_, rfl⟩⟩⟩, e⟩
  intro p hp
  simp only [List.mem_cons, List.not_mem_nil, or_false] at hp
  rcases hp with rfl | rfl <;> exact ⟨true, rfl⟩

omit [PyFloat F] [SciPy F] [NumText F] [CsvIO F] in
/-- With ` #` in the name of the home directory, the default configuration names another
directory. -/
theorem C75_comment [PyFloat F] : entry (defaultFor (F := F) "/home/a #1/.config/dispersion") "Path" =
    some (.str "/home/a") := by
  have h : plainScalar "/home/a #1/.config/dispersion" = "/home/a" := by decide
  simp [entry, defaultFor, h]

/-- **C75** as stated, for all names of directories. -/
def C75_statement : Prop :=
  ∀ dir : String, entry (defaultFor (F := XR) dir) "Path" = some (.str dir)

/-- C75 is false for home directories like `/home/a #1`. -/
theorem C75_refuted : ¬ C75_statement := by
  intro h
  have h1 := h "/home/a #1/.config/dispersion"
  rw [C75_comment] at h1
  have h2 : ("/home/a" : String) = "/home/a #1/.config/dispersion" := by
    simpa using h1
  exact absurd h2 (by decide)

theorem demoSys_name : UsableName demoSys "catalogue.csv" := by
  refine .inr ⟨.inr rfl, ?_⟩
  have : joinPath "/tmp/x" "catalogue.csv" ≠ "/tmp/x/" := by decide
  simp [demoSys, this]

/-- The default configuration of the new user. -/
example : validateConfig demoSys (defaultFor "/home/user/.config/dispersion") = .ok () :=
  (C75_default_partial demoSys _ (by simp [demoSys]) ⟨by
    intro a b e
    have : ('#' : Char) ∈ "/home/user/.config/dispersion".toList := by rw [e]; simp
    exact absurd this (by decide), by decide⟩ demoSys_name).1

/-- An integer as reference value and an empty file name are rejected. -/
example : (∃ e, validateConfig demoSys (.dict [("Path", .str "/home/user/.config/dispersion"),
    ("File", .str "a.csv"), ("Interactive", .bool false), ("WarnMissingPackages", .bool false),
    ("Modules", .dict []), ("ReferenceSpectrum", .dict [("Value", .int 633),
      ("SpectrumType", .str "wavelength"), ("Unit", .str "nanometer")])]) = .error e) ∧
    ∃ e, validateConfig demoSys (.dict [("Path", .str "/home/user/.config/dispersion"),
      ("File", .str ""), ("Interactive", .bool false), ("WarnMissingPackages", .bool false),
      ("Modules", .dict []), ("ReferenceSpectrum", .dict [("Value", .float (.fin 633)),
        ("SpectrumType", .str "wavelength"), ("Unit", .str "nanometer")])]) = .error e := by
  refine ⟨C64_rejects _ _ ?_, C64_rejects _ _ ?_⟩
  · rintro ⟨-, -, -, -, -, ⟨r, hr, ⟨x, hx⟩, -⟩⟩
    simp [entry] at hr
    subst hr
    simp [entry] at hx
  · rintro ⟨-, ⟨s, hs, hn⟩, -, -, -, -⟩
    simp [entry] at hs
    subst hs
    have : joinPath "/tmp/x" "" = "/tmp/x/" := by decide
    rcases hn with hn | ⟨-, hn⟩
    · simp [demoSys] at hn
    · simp [demoSys, this] at hn

end Disp

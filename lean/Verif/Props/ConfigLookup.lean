import Verif.Model.Config
import Verif.Py.Ideal
/-!
# Where the configuration comes from (C63, C73, C74)
-/

namespace Disp

variable {F : Type} [PyFloat F]

namespace Spec

/-- A home directory is written without a slash at its end. -/
def PlainHome (h : String) : Prop := h.toList ≠ [] ∧ h.toList.getLast? ≠ some '/'

/-- The user's configuration directory. -/
def userDir (h : String) : String := h ++ "/.config/dispersion"

/-- The user's configuration file. -/
def userFile (h : String) : String := h ++ "/.config/dispersion/config.yaml"

/-- The configuration file in the package. -/
def packageFile (p : String) : String := p ++ "/config.yaml"

/-- The user's configuration directory is there or can be made. -/
structure HasUserDir (sys : CfgSys F) (made : Made) (h : String) : Prop where
  home : sys.home = some h
  plain : PlainHome h
  package : PlainHome sys.package
  dir : sys.exist (userDir h) = true ∨ userDir h ∈ made ∨ sys.mkdir (userDir h) = .ok ()

/-- What the documentation promises: the user's file, otherwise the file of the package, otherwise
the default configuration. -/
def expected (sys : CfgSys F) (h : String) : Res (YamlVal F) :=
  match sys.files (userFile h) with
  | some r => r
  | Option.none =>
    match sys.files (packageFile sys.package) with
    | some r => r
    | Option.none => .ok (defaultFor (userDir h))

end Spec

open Spec

theorem joinPath_plain {a : String} (h : PlainHome a) {b : String} (hb : b.toList.head? ≠ some '/') :
    joinPath a b = a ++ "/" ++ b := by
  obtain ⟨h1, h2⟩ := h
  apply String.toList_injective
  have hor : ¬ (a.toList = [] ∨ a.toList.getLast? = some '/') := by
    rintro (h | h)
    · exact h1 h
    · exact h2 h
  simp only [joinPath, joinChars, if_neg hb, if_neg hor]
  simp

theorem plain_append {a : String} {b : String} (h : PlainHome b) : PlainHome (a ++ b) := by
  obtain ⟨h1, h2⟩ := h
  refine ⟨by simp [h1], ?_⟩
  rw [String.toList_append, List.getLast?_append_of_ne_nil _ h1]
  exact h2

theorem userDir_join {h : String} (hp : PlainHome h) :
    joinPath (joinPath h ".config") "dispersion" = userDir h := by
  rw [joinPath_plain hp (by decide), joinPath_plain (plain_append (b := ".config") ⟨by decide, by decide⟩)
    (by decide)]
  apply String.toList_injective
  simp [userDir]

theorem userDir_plain (h : String) : PlainHome (userDir h) :=
  plain_append ⟨by decide, by decide⟩

theorem userFile_join (h : String) : configFile (userDir h) = userFile h := by
  rw [configFile, joinPath_plain (userDir_plain h) (by decide)]
  apply String.toList_injective
  simp [userDir, userFile]

theorem packageFile_join {p : String} (hp : PlainHome p) : configFile p = packageFile p := by
  rw [configFile, joinPath_plain hp (by decide)]
  apply String.toList_injective
  simp [packageFile]

/-- The user's directory is found, and made if need be; nothing else is made. -/
theorem userConfigDir_spec {sys : CfgSys F} {made : Made} {h : String}
    (hu : HasUserDir sys made h) :
    ∃ m, userConfigDir sys made = (.ok (userDir h), m) ∧ (m = made ∨ m = userDir h :: made) ∧
      (sys.exist (userDir h) = true ∨ userDir h ∈ m) := by
  simp only [userConfigDir, hu.home, userDir_join hu.plain]
  by_cases hc : (sys.exist (userDir h) || made.contains (userDir h)) = true
  · rw [if_pos hc]
    refine ⟨made, rfl, .inl rfl, ?_⟩
    simpa using hc
  · rw [if_neg hc]
    simp only [Bool.or_eq_true, List.contains_eq_mem, decide_eq_true_eq, not_or] at hc
    have hm : sys.mkdir (userDir h) = .ok () := by
      rcases hu.dir with hd | hd | hd
      · exact absurd hd hc.1
      · exact absurd hd hc.2
      · exact hd
    rw [hm]
    exact ⟨_, rfl, .inr rfl, .inr (by simp)⟩

/-- The directory stays usable. -/
theorem Spec.HasUserDir.again {sys : CfgSys F} {made m : Made} {h : String}
    (hu : HasUserDir sys made h) (hm : sys.exist (userDir h) = true ∨ userDir h ∈ m) :
    HasUserDir sys m h :=
  ⟨hu.home, hu.plain, hu.package, hm.elim .inl (fun h => .inr (.inl h))⟩

theorem configDir_spec {sys : CfgSys F} {made : Made} {h : String} (hu : HasUserDir sys made h) :
    ∃ m, HasUserDir sys m h ∧ (m = made ∨ m = userDir h :: made) ∧ configDir sys made =
      (if (sys.files (userFile h)).isSome then .ok (userDir h)
        else if (sys.files (packageFile sys.package)).isSome then .ok sys.package
        else .error .value, m) := by
  obtain ⟨m, hm, hmade, hex⟩ := userConfigDir_spec hu
  refine ⟨m, hu.again hex, hmade, ?_⟩
  simp only [configDir, hm, userFile_join, packageFile_join hu.package]
  split
  · rfl
  · split <;> rfl

theorem defaultConfig_spec {sys : CfgSys F} {made : Made} {h : String}
    (hu : HasUserDir sys made h) :
    ∃ m, HasUserDir sys m h ∧ (m = made ∨ m = userDir h :: made) ∧
      defaultConfig sys made = (.ok (defaultFor (userDir h)), m) := by
  obtain ⟨m, hm, hmade, hex⟩ := userConfigDir_spec hu
  exact ⟨m, hu.again hex, hmade, by simp [defaultConfig, hm]⟩

/-- Reading the file that is found first. -/
theorem readConfig_spec {sys : CfgSys F} {made : Made} {h : String} (hu : HasUserDir sys made h) :
    ∃ m, HasUserDir sys m h ∧ (m = made ∨ m = userDir h :: made) ∧ readConfig sys made =
      (match sys.files (userFile h) with
        | some r => r
        | Option.none =>
          match sys.files (packageFile sys.package) with
          | some r => r
          | Option.none => .error .value, m) := by
  obtain ⟨m, hm, hmade, hd⟩ := configDir_spec hu
  refine ⟨m, hm, hmade, ?_⟩
  unfold readConfig
  rw [hd]
  cases hf : sys.files (userFile h) with
  | some r => simp [userFile_join, CfgSys.readYaml, hf]
  | none =>
    cases hg : sys.files (packageFile sys.package) with
    | some r => simp [packageFile_join hu.package, CfgSys.readYaml, hg]
    | none => simp

/-- **C63**, first part: the user's file has precedence over the file of the package; the latter
is used if there is no user's file. -/
theorem C63_found_partial {sys : CfgSys F} {made : Made} {h : String} (hu : HasUserDir sys made h)
    (hf : sys.files (userFile h) ≠ Option.none ∨ sys.files (packageFile sys.package) ≠ Option.none)
    {c : YamlVal F} (hc : expected sys h = .ok c) : (getConfig sys made).1 = .ok c := by
  obtain ⟨m, -, -, hr⟩ := readConfig_spec hu
  unfold getConfig
  rw [hr]
  unfold expected at hc
  cases hf1 : sys.files (userFile h) with
  | some r =>
    rw [hf1] at hc
    simp only at hc
    simp [hc]
  | none =>
    cases hf2 : sys.files (packageFile sys.package) with
    | some r =>
      rw [hf1, hf2] at hc
      simp only at hc
      simp [hc]
    | none => simp [hf1, hf2] at hf

/-- If there is neither file, `get_config` does not return the default configuration but raises a
ValueError. -/
theorem C63_missing {sys : CfgSys F} {made : Made} {h : String} (hu : HasUserDir sys made h)
    (h1 : sys.files (userFile h) = Option.none)
    (h2 : sys.files (packageFile sys.package) = Option.none) :
    (getConfig sys made).1 = .error .value := by
  obtain ⟨m, -, -, hr⟩ := readConfig_spec hu
  unfold getConfig
  rw [hr, h1, h2]
  rfl

/-- `get_config` returns the default configuration if the file that is found cannot be opened. -/
theorem C63_unreadable {sys : CfgSys F} {made : Made} {h : String} (hu : HasUserDir sys made h)
    {e : PyErr} (he : e = .os ∨ e = .fileNotFound)
    (h1 : sys.files (userFile h) = some (.error e)) :
    (getConfig sys made).1 = .ok (defaultFor (userDir h)) := by
  obtain ⟨m, hm, -, hr⟩ := readConfig_spec hu
  obtain ⟨m', -, -, hd⟩ := defaultConfig_spec hm
  unfold getConfig
  rw [hr, h1]
  have : e.isA .os = true := by rcases he with rfl | rfl <;> decide
  simp [this, hd]

/-- If the directory `~/.config` is missing, the user's directory cannot be made, and neither
`get_config` nor `import dispersion` succeeds, whatever the package contains. -/
theorem C63_no_parent {sys : CfgSys F} {made : Made} {h : String} (hh : sys.home = some h)
    (hp : PlainHome h) (hex : sys.exist (userDir h) = false) (hno : userDir h ∉ made)
    (hmk : sys.mkdir (userDir h) = .error .fileNotFound) :
    getConfig sys made = (.error .fileNotFound, made) ∧
      importConfig sys made = (.error .fileNotFound, made) := by
  have hu : userConfigDir sys made = (.error .fileNotFound, made) := by
    simp [userConfigDir, hh, userDir_join hp, hex, hno, hmk]
  have hg : getConfig sys made = (.error .fileNotFound, made) := by
    simp only [getConfig, readConfig, configDir, defaultConfig, hu]
    rfl
  exact ⟨hg, by rw [importConfig, hg]; rfl⟩

/-- **C73**: on import, the package uses the user's file, otherwise its own, otherwise the default
configuration, and makes no other directory than the user's. -/
theorem C73_import {sys : CfgSys F} {made : Made} {h : String} (hu : HasUserDir sys made h)
    {c : YamlVal F} (hc : expected sys h = .ok c) :
    (importConfig sys made).1 = .ok c ∧
      ((importConfig sys made).2 = made ∨ (importConfig sys made).2 = userDir h :: made) := by
  obtain ⟨m, hm, hmade, hr⟩ := readConfig_spec hu
  unfold importConfig getConfig
  rw [hr]
  unfold expected at hc
  cases hf1 : sys.files (userFile h) with
  | some r =>
    rw [hf1] at hc
    simp only at hc
    simp [hc, hmade]
  | none =>
    cases hf2 : sys.files (packageFile sys.package) with
    | some r =>
      rw [hf1, hf2] at hc
      simp only at hc
      simp [hc, hmade]
    | none =>
      rw [hf1, hf2] at hc
      simp only at hc
      have e1 : (PyErr.isA .value .os) = false := by decide
      have e2 : (PyErr.isA .value .value) = true := by decide
      simp only [e1, e2, Bool.false_eq_true, if_false, if_true]
      obtain ⟨m', hm', hex⟩ : ∃ m', defaultConfig sys m = (.ok (defaultFor (userDir h)), m') ∧
          (m' = made ∨ m' = userDir h :: made) := by
        rcases hmade with rfl | rfl
        · obtain ⟨m', -, hmade', hd⟩ := defaultConfig_spec hm
          exact ⟨m', hd, hmade'⟩
        · refine ⟨userDir h :: made, ?_, .inr rfl⟩
          simp [defaultConfig, userConfigDir, hu.home, userDir_join hu.plain]
      rw [hm']
      exact ⟨hc, hex⟩

/-- **C74**: what `write_config` wrote to the user's directory is what `get_config` returns. -/
theorem C74_user {sys : CfgSys F} {made : Made} {h : String} (hu : HasUserDir sys made h)
    (c : YamlVal F) :
    ∃ sys', writeConfig sys made c (some (userDir h)) = (.ok sys', made) ∧
      (getConfig sys' made).1 = .ok c := by
  refine ⟨_, rfl, ?_⟩
  have hu' : HasUserDir (sys.write (configFile (userDir h)) c) made h :=
    ⟨hu.home, hu.plain, hu.package, hu.dir⟩
  have hf : (sys.write (configFile (userDir h)) c).files (userFile h) = some (.ok c) := by
    simp [CfgSys.write, userFile_join]
  refine C63_found_partial hu' (.inl (by simp [hf])) ?_
  simp [expected, hf]

/-- **C74** without a directory: the file in use is overwritten, and `get_config` returns what was
written. -/
theorem C74_in_use {sys : CfgSys F} {made : Made} {h : String} (hu : HasUserDir sys made h)
    (hf : sys.files (userFile h) ≠ Option.none ∨ sys.files (packageFile sys.package) ≠ Option.none)
    (c : YamlVal F) :
    ∃ sys' m, writeConfig sys made c Option.none = (.ok sys', m) ∧
      (getConfig sys' m).1 = .ok c := by
  obtain ⟨m, hm, -, hd⟩ := configDir_spec hu
  cases hf1 : sys.files (userFile h) with
  | some r =>
    have hd' : configDir sys made = (.ok (userDir h), m) := by simpa [hf1] using hd
    obtain ⟨sys', hw, hg⟩ := C74_user hm c
    refine ⟨sys', m, ?_, hg⟩
    have : sys' = sys.write (configFile (userDir h)) c := by
      simp only [writeConfig, Prod.mk.injEq, Except.ok.injEq, and_true] at hw
      exact hw.symm
    simp [writeConfig, hd', this]
  | none =>
    cases hf2 : sys.files (packageFile sys.package) with
    | some r =>
      have hd' : configDir sys made = (.ok sys.package, m) := by simpa [hf1, hf2] using hd
      refine ⟨sys.write (configFile sys.package) c, m, by simp [writeConfig, hd'], ?_⟩
      have hu' : HasUserDir (sys.write (configFile sys.package) c) m h :=
        ⟨hm.home, hm.plain, hm.package, hm.dir⟩
      have hp : (sys.write (configFile sys.package) c).files
          (packageFile (sys.write (configFile sys.package) c).package) = some (.ok c) := by
        simp [CfgSys.write, packageFile_join hu.package]
      refine C63_found_partial hu' (.inr (by simp [hp])) ?_
      unfold expected
      rw [hp]
      by_cases hsame : userFile h = configFile sys.package
      · simp [CfgSys.write, hsame]
      · simp [CfgSys.write, hsame, hf1]
    | none => simp [hf1, hf2] at hf

/-- If there is no file yet, `write_config` without a directory raises a ValueError. -/
theorem C74_nothing {sys : CfgSys F} {made : Made} {h : String} (hu : HasUserDir sys made h)
    (h1 : sys.files (userFile h) = Option.none)
    (h2 : sys.files (packageFile sys.package) = Option.none) (c : YamlVal F) :
    (writeConfig sys made c Option.none).1 = .error .value := by
  obtain ⟨m, -, -, hd⟩ := configDir_spec hu
  have hd' : configDir sys made = (.error .value, m) := by simpa [h1, h2] using hd
  simp [writeConfig, hd']

/-! ## The claim as stated -/

/-- **C63** as stated. -/
def C63_statement : Prop :=
  ∀ (sys : CfgSys XR) (h : String), HasUserDir sys [] h →
    ∀ c, expected sys h = .ok c → (getConfig sys []).1 = .ok c

/-- A new user: the directory exists, but there is no file yet. -/
noncomputable def demoSys : CfgSys XR where
  home := some "/home/user"
  package := "/usr/lib/python3/dispersion"
  temp := "/tmp/x"
  exist p := p = "/home/user/.config/dispersion"
  isdir p := p = "/home/user/.config/dispersion"
  files _ := Option.none
  mkdir _ := .error .os
  openR _ := .error .fileNotFound
  openW p := if p = "/tmp/x/" then .error .os else .ok ()

theorem demoSys_dir (made : Made) : HasUserDir demoSys made "/home/user" :=
  ⟨rfl, ⟨by decide, by decide⟩, ⟨by decide, by decide⟩, .inl (by simp [demoSys, userDir])⟩

/-- C63 is false: without any file, `get_config` raises a ValueError. -/
theorem C63_refuted : ¬ C63_statement := by
  intro h
  have h1 := h demoSys "/home/user" (demoSys_dir []) _ rfl
  rw [C63_missing (demoSys_dir []) rfl rfl] at h1
  cases h1

/-- The new user can import the package, which uses the default configuration, and can write a
configuration, but not without naming the directory. -/
example : (importConfig demoSys []).1 = .ok (defaultFor "/home/user/.config/dispersion") ∧
    (writeConfig demoSys [] (.dict []) Option.none).1 = .error .value ∧
    ∃ sys', writeConfig demoSys [] (.dict []) (some "/home/user/.config/dispersion") =
      (.ok sys', []) ∧ (getConfig sys' []).1 = .ok (.dict []) :=
  ⟨(C73_import (demoSys_dir []) rfl).1, C74_nothing (demoSys_dir []) rfl rfl _,
    C74_user (demoSys_dir []) _⟩

/-- A user with a file. -/
example : ∃ sys' m, writeConfig (demoSys.write "/home/user/.config/dispersion/config.yaml" .none) []
    (.dict []) Option.none = (.ok sys', m) ∧ (getConfig sys' m).1 = .ok (.dict []) :=
  C74_in_use (h := "/home/user") ⟨rfl, ⟨by decide, by decide⟩, ⟨by decide, by decide⟩,
    .inl (by simp [demoSys, userDir, CfgSys.write])⟩ (.inl (by simp [CfgSys.write, userFile])) _

/-- A home directory without `.config`. -/
noncomputable def demoBare : CfgSys XR :=
  { demoSys with exist := fun _ => false, mkdir := fun _ => .error .fileNotFound }

example : (importConfig demoBare []).1 = .error .fileNotFound := by
  rw [(C63_no_parent (h := "/home/user") rfl ⟨by decide, by decide⟩ rfl (by simp) rfl).2]

end Disp

import Verif.Props.Prompts
/-!
# The setup script (C76)
-/

namespace Disp

open Spec

variable {F : Type} [PyFloat F]

namespace Spec

/-- How directories behave: a folder (here `UserData`) exists or can be made only in a directory, where the user's
directory may have been made by the script itself. -/
def DirLaw (sys : CfgSys F) (h : String) : Prop :=
  ∀ p : String, sys.isdir (joinPath p "UserData") = true ∨
      sys.mkdir (joinPath p "UserData") = .ok () →
    sys.isdir p = true ∨ (p = userDir h ∧ sys.exist p = false ∧ sys.mkdir p = .ok ())

/-- The file system after the script has made some directories. -/
def after (sys : CfgSys F) (made : Made) : CfgSys F :=
  { sys with isdir := fun p => sys.isdir p || made.contains p }

end Spec

omit [PyFloat F] in
theorem makeFolder_spec {sys : CfgSys F} {made made' : Made} {dir : String}
    (h : makeFolder sys made dir = .ok made') :
    (made' = made ∨ made' = dir :: made) ∧
      (sys.isdir dir = true ∨ dir ∈ made ∨ sys.mkdir dir = .ok ()) ∧
      sys.dirNow made' dir = true := by
  unfold makeFolder at h
  by_cases hd : sys.dirNow made dir = true
  · rw [if_pos hd] at h
    have e : made = made' := by cases h; rfl
    subst e
    refine ⟨.inl rfl, ?_, hd⟩
    simp only [CfgSys.dirNow, Bool.or_eq_true, List.contains_eq_mem, decide_eq_true_eq] at hd
    exact hd.elim .inl (fun h => .inr (.inl h))
  · rw [if_neg hd] at h
    obtain ⟨u, hu, h⟩ := except_bind_ok h
    have e : dir :: made = made' := by cases h; rfl
    subst e
    exact ⟨.inr rfl, .inr (.inr hu), by simp [CfgSys.dirNow]⟩

omit [PyFloat F] in
/-- After a module was set up: the folder of an enabled module exists. -/
theorem setupModule_spec {sys : CfgSys F} {ins : Installer} {path modl : String} {made made' : Made}
    {inputs rest : List String} {b : Bool}
    (h : setupModule sys ins path modl (made, inputs) = .ok (b, (made', rest))) :
    (∀ p ∈ made, p ∈ made') ∧
    (modl = "UserData" → b = true) ∧
    (b = true → sys.dirNow made' (joinPath path modl) = true ∧
      (sys.isdir (joinPath path modl) = true ∨ joinPath path modl ∈ made ∨
        sys.mkdir (joinPath path modl) = .ok ())) := by
  unfold setupModule at h
  obtain ⟨⟨w, r1⟩, hw, h⟩ := except_bind_ok h
  cases w with
  | false =>
    simp only [Bool.false_eq_true, if_false, Except.ok.injEq, Prod.mk.injEq] at h
    obtain ⟨rfl, rfl, rfl⟩ := h
    refine ⟨fun p hp => hp, ?_, by simp⟩
    rintro rfl
    simp [wanted] at hw
  | true =>
    simp only [if_true] at h
    obtain ⟨m1, hm, h⟩ := except_bind_ok h
    obtain ⟨⟨ok, r2⟩, hi, h⟩ := except_bind_ok h
    simp only [Except.ok.injEq, Prod.mk.injEq] at h
    obtain ⟨rfl, rfl, rfl⟩ := h
    obtain ⟨hm1, hm2, hm3⟩ := makeFolder_spec hm
    refine ⟨?_, ?_, fun _ => ⟨hm3, hm2⟩⟩
    · intro p hp
      rcases hm1 with rfl | rfl
      · exact hp
      · simp [hp]
    · rintro rfl
      simp only [installModule, if_true] at hi
      obtain ⟨u, -, hi⟩ := except_bind_ok hi
      simp only [Except.ok.injEq, Prod.mk.injEq] at hi
      exact hi.1.symm

omit [PyFloat F] in
/-- What was made could be made. -/
theorem userConfigDir_made {sys : CfgSys F} {h : String} {m : Made} (hu : HasUserDir sys [] h)
    (hm : userConfigDir sys [] = (.ok (userDir h), m)) {p : String} (hp : p ∈ m) :
    sys.mkdir p = .ok () := by
  simp only [userConfigDir, hu.home, userDir_join hu.plain] at hm
  by_cases hc : (sys.exist (userDir h) || ([] : Made).contains (userDir h)) = true
  · rw [if_pos hc] at hm
    have e : [] = m := by cases hm; rfl
    subst e
    simp at hp
  · rw [if_neg hc] at hm
    have hk : sys.mkdir (userDir h) = .ok () := by
      rcases hu.dir with hd | hd | hd
      · simp [hd] at hc
      · simp at hd
      · exact hd
    rw [hk] at hm
    have e : [userDir h] = m := by cases hm; rfl
    subst e
    have e : p = userDir h := by simpa using hp
    rw [e]; exact hk

/-- **C76**: if the setup script gets to its end, the configuration it has written to the user's
directory is valid in the file system it leaves behind; its root directory is absolute, its root
directory and its file name were given by the user (or are the defaults) and confirmed, the module
`UserData` is enabled, and the folder of every enabled module exists. -/
theorem C76_setup {sys : CfgSys F} {ins : Installer} {inputs : List String} {h : String}
    (hu : HasUserDir sys [] h) (hos : DirLaw sys h) {r : SetupResult F}
    (hr : setupMain sys ins inputs = .ok r) :
    r.file = userFile h ∧ validateConfig (after sys r.made) r.config = .ok () ∧
      ∃ path name rii,
        r.config = setupConfig path name [("UserData", true), ("RefractiveIndexInfo", rii)] ∧
        path.toList.head? = some '/' ∧
        (∃ before x skipped y rest, inputs = before ++ x :: (skipped ++ y :: rest) ∧
          path = meant (plainScalar (userDir h)) x ∧ Yes y) ∧
        (∃ before x skipped y rest, inputs = before ++ x :: (skipped ++ y :: rest) ∧
          name = meant "catalogue.csv" x ∧ Yes y) ∧
        (after sys r.made).isdir (joinPath path "UserData") = true ∧
        (rii = true → (after sys r.made).isdir (joinPath path "RefractiveIndexInfo") = true) := by
  obtain ⟨m0, hm0, hmade0, hex0⟩ := userConfigDir_spec hu
  unfold setupMain at hr
  simp only [hm0] at hr
  obtain ⟨⟨dir, made⟩, hd, hr⟩ := except_bind_ok hr
  simp only [Except.ok.injEq, Prod.mk.injEq] at hd
  obtain ⟨rfl, rfl⟩ := hd
  obtain ⟨⟨path, r1⟩, hpath, hr⟩ := except_bind_ok hr
  obtain ⟨⟨name, r2⟩, hname, hr⟩ := except_bind_ok hr
  obtain ⟨⟨modules, made3, r3⟩, hmods, hr⟩ := except_bind_ok hr
  obtain ⟨⟨b, r4⟩, hb, hr⟩ := except_bind_ok hr
  have er : r = SetupResult.mk (setupConfig path name modules) (configFile (userDir h)) b made3 := by
    cases hr; rfl
  subst er
  unfold installModules at hmods
  obtain ⟨⟨b1, m1, i1⟩, h1, hmods⟩ := except_bind_ok hmods
  obtain ⟨⟨l2, st2⟩, hmods2, hmods⟩ := except_bind_ok hmods
  unfold installModules at hmods2
  obtain ⟨⟨b2, m2, i2⟩, h2, hmods2⟩ := except_bind_ok hmods2
  obtain ⟨⟨l3, st3⟩, hmods3, hmods2⟩ := except_bind_ok hmods2
  simp only [installModules, Except.ok.injEq, Prod.mk.injEq] at hmods3 hmods2 hmods
  obtain ⟨rfl, rfl⟩ := hmods3
  obtain ⟨rfl, rfl⟩ := hmods2
  obtain ⟨rfl, hst⟩ := hmods
  simp only [Prod.mk.injEq] at hst
  obtain ⟨rfl, rfl⟩ := hst
  dsimp only at hpath hname hb h1 h2
  obtain ⟨hsub1, hud, hdir1⟩ := setupModule_spec h1
  obtain ⟨hsub2, -, hdir2⟩ := setupModule_spec h2
  have eb1 : b1 = true := hud rfl
  subst eb1
  obtain ⟨hnow1, hex1⟩ := hdir1 rfl
  obtain ⟨before, x, skipped, y, hin, ha, hva, hsk, hy⟩ := C65_confirmed _ _ _ _ _ hpath
  obtain ⟨before', x', skipped', y', hin', ha', hva', hsk', hy'⟩ := C65_confirmed _ _ _ _ _ hname
  have habs : path.toList.head? = some '/' := by simpa [isAbs] using hva
  have hnow : ∀ p, sys.dirNow m1 p = true → (after sys m2).isdir p = true := by
    intro p hp
    simp only [CfgSys.dirNow, after, Bool.or_eq_true, List.contains_eq_mem,
      decide_eq_true_eq] at hp ⊢
    exact hp.imp_right (hsub2 p)
  have hpathdir : (after sys m2).isdir path = true := by
    have hcase : sys.isdir (joinPath path "UserData") = true ∨
        sys.mkdir (joinPath path "UserData") = .ok () := by
      rcases hex1 with h' | h' | h'
      · exact .inl h'
      · exact .inr (userConfigDir_made hu hm0 h')
      · exact .inr h'
    rcases hos path hcase with hp | ⟨rfl, hne, hmk⟩
    · simp [after, hp]
    · have : userDir h ∈ m0 := by
        rcases hex0 with h' | h'
        · rw [hne] at h'; cases h'
        · exact h'
      have : userDir h ∈ m2 := hsub2 _ (hsub1 _ this)
      simp [after, this]
  refine ⟨userFile_join h, ?_, path, name, b2, rfl, habs,
    ⟨before, x, skipped, y, r1, hin, ha, hy⟩,
    ⟨before ++ x :: (skipped ++ y :: before'), x', skipped', y', r2, by rw [hin, hin']; simp, ha',
      hy'⟩, hnow _ hnow1, ?_⟩
  · refine (C64_exactly _ _).2 ⟨⟨path, rfl, hpathdir⟩, ⟨name, rfl, ?_⟩, ⟨_, rfl⟩, ⟨_, rfl⟩,
      ⟨_, rfl, ?_⟩, ⟨_, rfl, ⟨_, rfl⟩, ⟨_, rfl⟩, ⟨_, rfl⟩⟩⟩
    · exact validName_ok.1 hva'
    · intro p hp
      simp only [List.map_cons, List.map_nil, List.mem_cons, List.not_mem_nil, or_false] at hp
      rcases hp with rfl | rfl <;> exact ⟨_, rfl⟩
  · intro e
    obtain ⟨hn2, -⟩ := hdir2 e
    simpa [CfgSys.dirNow, after] using hn2

/-- The script does not make the root directory: if the folder of the module `UserData` cannot be
made there, it ends with that exception before anything is written to the configuration. -/
theorem C76_no_root {sys : CfgSys F} {ins : Installer} {inputs r1 r2 : List String} {h : String}
    (hu : HasUserDir sys [] h) {path name : String}
    (hpath : untilConfirmed isAbs (plainScalar (userDir h)) inputs = .ok (path, r1))
    (hname : untilConfirmed sys.validName "catalogue.csv" r1 = .ok (name, r2)) {e : PyErr}
    (hno : sys.isdir (joinPath path "UserData") = false)
    (hne : joinPath path "UserData" ≠ userDir h)
    (hmk : sys.mkdir (joinPath path "UserData") = .error e) :
    setupMain sys ins inputs = .error e := by
  obtain ⟨m0, hm0, hmade0, -⟩ := userConfigDir_spec hu
  have hd : sys.dirNow m0 (joinPath path "UserData") = false := by
    rcases hmade0 with rfl | rfl <;> simp [CfgSys.dirNow, hno, hne]
  simp [setupMain, hm0, hpath, hname, bind, Except.bind, installModules, setupModule, wanted,
    makeFolder, hd, hmk]

/-! ## A run of the script -/

/-- A user whose data are in `/data`. -/
noncomputable def demoSetup : CfgSys XR :=
  { demoSys with
    isdir := fun p => p = "/home/user/.config/dispersion" || p = "/data" || p = "/data/"
    mkdir := fun p => if p = "/data/UserData" then .ok () else .error .fileNotFound }

def demoInstaller : Installer := ⟨fun _ => .ok (), fun _ => .error .runtime⟩

theorem demoSetup_dir : HasUserDir demoSetup [] "/home/user" :=
  ⟨rfl, ⟨by decide, by decide⟩, ⟨by decide, by decide⟩,
    .inl (by simp [demoSetup, demoSys, userDir])⟩

theorem demoSetup_law : DirLaw demoSetup "/home/user" := by
  have key : ∀ p s : String, joinPath p "UserData" = s → ∃ a, s.toList = a ++ "UserData".toList := by
    rintro p s rfl
    simp only [joinPath, joinChars, String.toList_ofList]
    rw [if_neg (by decide)]
    split
    · exact ⟨p.toList, rfl⟩
    · exact ⟨p.toList ++ ['/'], by simp⟩
  intro p hp
  left
  have hs : joinPath p "UserData" = "/data/UserData" := by
    rcases hp with hp | hp
    · exfalso
      simp only [demoSetup, Bool.or_eq_true, decide_eq_true_eq] at hp
      rcases hp with (hp | hp) | hp
      · obtain ⟨a, ha⟩ := key p _ hp
        have := congrArg List.getLast? ha
        rw [List.getLast?_append_of_ne_nil _ (by decide)] at this
        exact absurd this (by decide)
      · obtain ⟨a, ha⟩ := key p _ hp
        have := congrArg List.length ha
        simp at this
      · obtain ⟨a, ha⟩ := key p _ hp
        have := congrArg List.length ha
        simp at this
    · by_contra hne
      simp [demoSetup, hne] at hp
  have hp' : p = "/data" ∨ p = "/data/" := by
    have h1 := congrArg String.toList hs
    simp only [joinPath, joinChars, String.toList_ofList] at h1
    rw [if_neg (by decide)] at h1
    split at h1
    · right
      apply String.toList_injective
      have : p.toList ++ "UserData".toList = "/data/".toList ++ "UserData".toList := h1
      exact List.append_cancel_right this
    · left
      apply String.toList_injective
      have : p.toList ++ "/UserData".toList = "/data".toList ++ "/UserData".toList := h1
      exact List.append_cancel_right this
  rcases hp' with rfl | rfl <;> simp [demoSetup]

/-- The user's answers. -/
def demoAnswers : List String := ["data", "/data", "y", "", "yes", "no", "n"]

theorem demoSetup_runs : ∃ r, setupMain demoSetup demoInstaller demoAnswers = .ok r := by
  obtain ⟨m0, hm0, -, -⟩ := userConfigDir_spec demoSetup_dir
  have h1 : untilConfirmed isAbs (plainScalar (userDir "/home/user")) demoAnswers =
      .ok ("/data", ["", "yes", "no", "n"]) := untilConfirmed_yes rfl
  have hv : demoSetup.validName "catalogue.csv" = .ok true := validName_ok.2 (by
    refine .inr ⟨.inr rfl, ?_⟩
    have : joinPath "/tmp/x" "catalogue.csv" ≠ "/tmp/x/" := by decide
    simp [demoSetup, demoSys, this])
  have h2 : untilConfirmed demoSetup.validName "catalogue.csv" ["", "yes", "no", "n"] =
      .ok ("catalogue.csv", ["no", "n"]) := by
    refine untilConfirmed_yes ?_
    simp [askAndConfirm, ask, hv, bind, Except.bind, getConfirmation]
  have h3 : joinPath "/data" "UserData" = "/data/UserData" := by decide
  have h4 : makeFolder demoSetup m0 "/data/UserData" = .ok m0 ∨
      makeFolder demoSetup m0 "/data/UserData" = .ok ("/data/UserData" :: m0) := by
    unfold makeFolder
    split
    · exact .inl rfl
    · exact .inr (by simp [demoSetup, bind, Except.bind])
  have h5 : ∃ m, setupModule demoSetup demoInstaller "/data" "UserData" (m0, ["no", "n"]) =
      .ok (true, (m, ["no", "n"])) := by
    rcases h4 with h4 | h4
    · exact ⟨_, by simp [setupModule, wanted, h3, h4, installModule, demoInstaller, bind,
        Except.bind]; rfl⟩
    · exact ⟨_, by simp [setupModule, wanted, h3, h4, installModule, demoInstaller, bind,
        Except.bind]; rfl⟩
  obtain ⟨m, h5⟩ := h5
  have h6 : setupModule demoSetup demoInstaller "/data" "RefractiveIndexInfo" (m, ["no", "n"]) =
      .ok (false, (m, ["n"])) := by
    simp [setupModule, wanted, getConfirmation, bind, Except.bind]
  exact ⟨_, by
    simp only [setupMain, hm0, h1, h2, installModules, h5, h6, getConfirmation, bind, Except.bind]
    rfl⟩

/-- The run leaves a valid configuration behind. -/
example : ∃ r, setupMain demoSetup demoInstaller demoAnswers = .ok r ∧
    validateConfig (after demoSetup r.made) r.config = .ok () := by
  obtain ⟨r, hr⟩ := demoSetup_runs
  exact ⟨r, hr, (C76_setup demoSetup_dir demoSetup_law hr).2.1⟩

end Disp

import Verif.Props.SetupOutcome
import Verif.Props.ExampleFiles
/-!
# Running the setup script with direct answers, and running it again (C139)
-/

namespace Disp

open Spec

variable {m : Machine} {own typed : Loc → Prop} {lines : List String}
variable {F : Type} [PyFloat F] [SciPy F] [NumText F] [Printing F] [YamlIO F] [CsvIO F]

/-! ## Paths -/

theorem walk_append_inv {d : Disk} {a b : List (List Char)} {cur l : Loc}
    (h : d.walk cur (a ++ b) = .ok l) : ∃ l0, d.walk cur a = .ok l0 ∧ d.walk l0 b = .ok l := by
  induction a generalizing cur with
  | nil => exact ⟨cur, rfl, h⟩
  | cons c cs ih =>
    rw [List.cons_append, Disk.walk] at h
    rw [Disk.walk]
    split at h
    · split at h
      · rename_i hc; rw [if_pos hc]; exact ih h
      · rename_i hc
        rw [if_neg hc]
        split at h
        · rename_i hc2; rw [if_pos hc2]; exact ih h
        · rename_i hc2
          rw [if_neg hc2]
          split at h
          · rename_i hc3; rw [if_pos hc3]; exact ih h
          · cases h
    · cases h
    · cases h

theorem find_join {d : Disk} {a s : String} {l : Loc} (ha : m.find d a = .ok l)
    (hl : d l = some .dir) (hs : FileName s.toList) :
    m.find d (joinPath a s) = .ok (l ++ [s.toList]) := by
  obtain ⟨s1, s2, s3, s4, s5, s6⟩ := hs
  have hb : s.toList.head? ≠ some '/' := fun e => s4 (List.mem_of_head? e)
  unfold Machine.find at ha
  split at ha
  · cases ha
  rename_i hnul
  split at ha
  · cases ha
  rename_i hne
  have hane : a.toList ≠ [] := fun e => hne (String.toList_inj.1 (by simpa using e))
  have hj : (joinPath a s).toList
      = if a.toList = [] ∨ a.toList.getLast? = some '/' then a.toList ++ s.toList
        else a.toList ++ '/' :: s.toList := by
    unfold joinPath joinChars
    rw [String.toList_ofList, if_neg hb]
  have hhead : ∀ r, (a.toList ++ r).head? = a.toList.head? := by
    intro r
    cases h : a.toList with
    | nil => exact absurd h hane
    | cons c cs => rfl
  have hone : d.walk l [s.toList] = .ok (l ++ [s.toList]) := by
    rw [Disk.walk, hl]
    simp only
    rw [if_neg (by rintro (e | e); exacts [s1 e, s2 e]), if_neg s3]
    have : fitsName s.toList = true := by unfold fitsName; simpa using s6
    rw [if_pos this, Disk.walk]
  have hne' : joinPath a s ≠ "" := by
    intro e
    have h2 := congrArg String.toList e
    rw [hj] at h2
    split at h2 <;> simp at h2
    · exact s1 (by simpa using h2.2)
  unfold Machine.find
  by_cases hlast : a.toList.getLast? = some '/'
  · have hj' := hj.trans (if_pos (.inr hlast))
    rw [if_neg, if_neg hne']
    · unfold Machine.start at ha ⊢
      rw [hj', hhead]
      obtain ⟨a0, ha0⟩ : ∃ a0, a.toList = a0 ++ ['/'] := List.getLast?_eq_some_iff.1 hlast
      have h1 : splitOnChar '/' a.toList = splitOnChar '/' a0 ++ [[]] := by
        rw [ha0, splitOnChar_concat]; rfl
      have h2 : splitOnChar '/' (a.toList ++ s.toList) = splitOnChar '/' a0 ++ [s.toList] := by
        rw [ha0, List.append_assoc, List.singleton_append, splitOnChar_concat, splitOnChar_none s4]
      rw [h1] at ha
      rw [h2]
      obtain ⟨l0, h3, h4⟩ := walk_append_inv ha
      rw [walk_append h3]
      have : l0 = l := by
        rw [Disk.walk] at h4
        split at h4
        · rw [if_pos (.inl rfl), Disk.walk] at h4
          exact Except.ok.inj h4
        · cases h4
        · cases h4
      rw [this]
      exact hone
    · rw [hj']; simp [hnul, s5]
  · have hj' := hj.trans (if_neg (by rintro (e | e); exacts [hane e, hlast e]))
    rw [if_neg, if_neg hne']
    · unfold Machine.start at ha ⊢
      rw [hj', hhead, splitOnChar_concat, splitOnChar_none s4, walk_append ha]
      exact hone
    · rw [hj']; simp [hnul, s5]

theorem write_at {d : Disk} {p : String} {l : Loc} {text : List Char} (h : m.find d p = .ok l)
    (hd : d l ≠ some .dir) (hw : m.writable l = true) :
    m.write d p text = (.ok (), d.put l (.file text)) := by
  unfold Machine.write
  rw [h]
  simp only
  rw [if_neg hd, if_pos hw]

theorem folder_at {d : Disk} {p : String} {l : Loc} (h : m.find d p = .ok l)
    (hd : d l = none ∨ d l = some .dir) (hw : m.writable l = true) (ls : List String) :
    folder m p (d, ls) = (.ok (), (d.put l .dir, ls)) := by
  unfold folder onDisk Machine.isDir Machine.look Machine.mkdir
  simp only [h]
  rcases hd with hd | hd
  · simp [hd, hw]
  · have : d.put l .dir = d := by
      funext x
      unfold Disk.put
      split
      · rename_i e; rw [e, hd]
      · rfl
    simp [hd, this]

theorem userDir_at {d : Disk} {home : String} (hh : m.home = some home)
    (h : m.find d (joinPath (joinPath home ".config") "dispersion") = .ok (userPlace m home))
    (hd : d (userPlace m home) = none ∨ d (userPlace m home) = some .dir)
    (hw : m.writable (userPlace m home) = true) (ls : List String) :
    userDirD m (d, ls)
      = (.ok (joinPath (joinPath home ".config") "dispersion"),
          (d.put (userPlace m home) .dir, ls)) := by
  unfold userDirD Machine.exist Machine.look Machine.mkdir
  simp only [hh, h]
  rcases hd with hd | hd
  · simp [hd, hw]
  · have : d.put (userPlace m home) .dir = d := by
      funext x
      unfold Disk.put
      split
      · rename_i e; rw [e, hd]
      · rfl
    simp [hd, this]

/-! ## The dialogue -/

theorem confirm_yes (d : Disk) (ls : List String) : confirm (d, "y" :: ls) = (.ok true, (d, ls)) := by
  unfold confirm; simp [getConfirmation]

theorem confirm_no (d : Disk) (ls : List String) : confirm (d, "n" :: ls) = (.ok false, (d, ls)) := by
  unfold confirm; simp [getConfirmation]

theorem until_at {valid : String → Disk → Res Bool × Disk} {dflt x : String} {d d' : Disk}
    {ls : List String} (h : valid (if x = "" then dflt else x) d = (.ok true, d')) :
    untilS valid dflt (d, x :: "y" :: ls) = (.ok (if x = "" then dflt else x), (d', ls)) := by
  have h1 : askConfirmD valid dflt (d, x :: "y" :: ls)
      = (.ok (if x = "" then dflt else x, true), (d', ls)) := by
    unfold askConfirmD
    rw [script_bind]
    have : askD valid dflt (d, x :: "y" :: ls)
        = (.ok (if x = "" then dflt else x), (d', "y" :: ls)) := by
      unfold askD
      simp only
      rw [askLoop, h]
    rw [this]
    simp only
    rw [script_bind, confirm_yes]
    rfl
  unfold untilS
  rw [untilD]
  split
  · rename_i e; rw [h1] at e; simp at e
  · rename_i e; rw [h1] at e; simp at e; rw [e.1, e.2]
  · rename_i e; rw [h1] at e; simp at e

namespace Spec

/-- A disk with the folder `UserData` and the two examples. -/
def withExamples (R : Loc) (t1 t2 : List Char) (d : Disk) : Disk :=
  ((d.put (R ++ ["UserData".toList]) .dir).put
    (R ++ ["UserData".toList, "example_file.txt".toList]) (.file t1)).put
    (R ++ ["UserData".toList, "example_file2.yml".toList]) (.file t2)

/-- The folder `UserData` and the examples in it can be made or replaced. -/
structure ExampleRoom (m : Machine) (d : Disk) (R : Loc) : Prop where
  folder : d (R ++ ["UserData".toList]) = none ∨ d (R ++ ["UserData".toList]) = some .dir
  first : d (R ++ ["UserData".toList, "example_file.txt".toList]) ≠ some .dir
  second : d (R ++ ["UserData".toList, "example_file2.yml".toList]) ≠ some .dir
  folderAllowed : m.writable (R ++ ["UserData".toList]) = true
  firstAllowed : m.writable (R ++ ["UserData".toList, "example_file.txt".toList]) = true
  secondAllowed : m.writable (R ++ ["UserData".toList, "example_file2.yml".toList]) = true

end Spec

namespace Spec

/-- What a direct run needs: the user's directory is there or can be made, the root directory is
there (or is the user's directory), the folder `UserData`, the examples, the configuration and the
catalogue are no obstacles, the temporary directory never runs out of names. -/
structure Ready (m : Machine) (home root name : String) (d : Disk) : Prop where
  tree : DiskTree d
  temp : d m.temp = some .dir
  userDir : m.find d (joinPath (joinPath home ".config") "dispersion") = .ok (userPlace m home)
  user : d (userPlace m home) = none ∨ d (userPlace m home) = some .dir
  userAllowed : m.writable (userPlace m home) = true
  config : d (configPlace m home) ≠ some .dir
  configAllowed : m.writable (configPlace m home) = true
  absolute : root.toList.head? = some '/'
  rootFound : m.find (d.put (userPlace m home) .dir) root = .ok (target m.cwd root)
  rootDir : (d.put (userPlace m home) .dir) (target m.cwd root) = some .dir
  room : ExampleRoom m (d.put (userPlace m home) .dir) (target m.cwd root)
  nameOk : FileName name.toList
  notFolder : name ≠ "UserData"
  catalogue : (d.put (userPlace m home) .dir) (target m.cwd root ++ [name.toList]) ≠ some .dir
  catalogueAllowed : m.writable (target m.cwd root ++ [name.toList]) = true
  free : ∀ d', Changed m (SetupPlace m home root name) (fun _ => False) d d' → m.fresh d' ≠ none

/-- The disk after a direct run that does not build the catalogue. -/
def setUp (m : Machine) (home root : String) (t1 t2 conf : List Char) (d : Disk) : Disk :=
  (withExamples (target m.cwd root) t1 t2 (d.put (userPlace m home) .dir)).put
    (configPlace m home) (.file conf)

end Spec

theorem put_keeps {d : Disk} {l : Loc} {n : Node} (h : d l ≠ some .dir ∨ n = .dir) (x : Loc)
    (hx : d x = some .dir) : (d.put l n) x = some .dir := by
  simp only [Disk.put]
  split
  · rename_i e
    rcases h with h | h
    · rw [e] at hx; exact absurd hx h
    · rw [h]
  · exact hx

theorem kept_put {d : Disk} {l : Loc} {n : Node}
    (h : d l = none ∨ (n = .dir ∧ d l = some .dir) ∨
      (∃ t t', n = .file t ∧ d l = some (.file t'))) : NothingLost d (d.put l n) := by
  refine ⟨fun x hx => ?_, fun x t hx => ?_⟩
  · simp only [Disk.put]
    split
    · rename_i e
      subst e
      rcases h with h | ⟨h, -⟩ | ⟨t, t', -, h⟩
      · rw [h] at hx; cases hx
      · rw [h]
      · rw [h] at hx; cases hx
    · exact hx
  · simp only [Disk.put]
    split
    · rename_i e
      subst e
      rcases h with h | ⟨-, h⟩ | ⟨t, t', h, -⟩
      · rw [h] at hx; cases hx
      · rw [h] at hx; cases hx
      · rw [h]; exact ⟨t, rfl⟩
    · exact ⟨t, hx⟩

theorem kept_put_file {d : Disk} {l : Loc} {t : List Char} (h : d l ≠ some .dir) :
    NothingLost d (d.put l (.file t)) := by
  apply kept_put
  cases hl : d l with
  | none => exact .inl rfl
  | some n =>
    cases n with
    | dir => exact absurd hl h
    | file t' => exact .inr (.inr ⟨t, t', rfl, rfl⟩)

theorem fileName_userData : FileName "UserData".toList := by
  refine ⟨?_, ?_, ?_, ?_, ?_, ?_⟩ <;> decide
theorem fileName_example1 : FileName "example_file.txt".toList := by
  refine ⟨?_, ?_, ?_, ?_, ?_, ?_⟩ <;> decide
theorem fileName_example2 : FileName "example_file2.yml".toList := by
  refine ⟨?_, ?_, ?_, ?_, ?_, ?_⟩ <;> decide
theorem fileName_config : FileName "config.yaml".toList := by
  refine ⟨?_, ?_, ?_, ?_, ?_, ?_⟩ <;> decide

theorem writeMade_ok {p : String} {text : List Char} {d : Disk} {ls : List String} :
    writeMade m p (.ok text) (d, ls)
      = ((m.write d p text).1, ((m.write d p text).2, ls)) := rfl

theorem userData_at {tools : Tools F} {d : Disk} {root : String} {R : Loc} {t1 t2 : List Char}
    (hr : m.find d root = .ok R) (hR : d R = some .dir) (hroom : ExampleRoom m d R)
    (h1 : makeExampleTxt (F := F) (fun _ => .error .fileNotFound) = .ok t1)
    (h2 : makeExampleYaml (F := F) (fun _ => .error .fileNotFound) = .ok t2) (ls : List String) :
    setupModuleD m tools root "UserData" (d, ls) = (.ok true, (withExamples R t1 t2 d, ls)) := by
  have f0 := find_join hr hR fileName_userData
  have e0 := folder_at f0 hroom.folder hroom.folderAllowed ls
  have k1 : ∀ x, d x = some .dir → (d.put (R ++ ["UserData".toList]) .dir) x = some .dir :=
    put_keeps (.inr rfl)
  have g1 : (d.put (R ++ ["UserData".toList]) .dir) (R ++ ["UserData".toList]) = some .dir := by
    simp [Disk.put]
  have f1 := find_join (find_mono k1 f0) g1 fileName_example1
  rw [List.append_assoc, List.singleton_append] at f1
  have n1 : (d.put (R ++ ["UserData".toList]) .dir)
      (R ++ ["UserData".toList, "example_file.txt".toList]) ≠ some .dir := by
    simp only [Disk.put]
    rw [if_neg (by simp)]
    exact hroom.first
  have w1 := write_at (text := t1) f1 n1 hroom.firstAllowed
  have k2 := put_keeps (n := .file t1) (.inl n1)
  have f2 := find_join (find_mono k2 (find_mono k1 f0)) (k2 _ g1) fileName_example2
  rw [List.append_assoc, List.singleton_append] at f2
  have n2 : ((d.put (R ++ ["UserData".toList]) .dir).put
      (R ++ ["UserData".toList, "example_file.txt".toList]) (.file t1))
      (R ++ ["UserData".toList, "example_file2.yml".toList]) ≠ some .dir := by
    simp only [Disk.put]
    rw [if_neg (by simp), if_neg (by simp)]
    exact hroom.second
  have w2 := write_at (text := t2) f2 n2 hroom.secondAllowed
  unfold setupModuleD
  rw [script_bind]
  have hw : wantedD "UserData" (d, ls) = (.ok true, (d, ls)) := by
    unfold wantedD; rw [if_pos rfl]; rfl
  rw [hw]
  simp only [if_true]
  rw [script_bind, e0]
  simp only
  unfold installModuleD
  rw [if_pos rfl]
  unfold installUserD
  rw [script_bind, h1, writeMade_ok, w1]
  simp only
  rw [script_bind, h2, writeMade_ok, w2]
  rfl

theorem rii_declined {tools : Tools F} {root : String} (d : Disk) (ls : List String) :
    setupModuleD m tools root "RefractiveIndexInfo" (d, "n" :: ls) = (.ok false, (d, ls)) := by
  unfold setupModuleD
  rw [script_bind]
  have hw : wantedD "RefractiveIndexInfo" (d, "n" :: ls) = (.ok false, (d, ls)) := by
    unfold wantedD; rw [if_neg (by decide), confirm_no]
  rw [hw]
  rfl

/-! ## The disk of a direct run -/

section
variable {home root name : String} {d : Disk} {t1 t2 conf : List Char}

theorem last_ne {A B : Loc} {a b : List Char} (h : a ≠ b) : A ++ [a] ≠ B ++ [b] := by
  intro e
  have := List.append_inj' e rfl
  simp at this
  exact h this.2

theorem two (R : Loc) (a b : List Char) : R ++ [a, b] = (R ++ [a]) ++ [b] := by simp

theorem userPlace_two (m : Machine) (home : String) :
    userPlace m home = (target m.cwd home ++ [".config".toList]) ++ ["dispersion".toList] := by
  unfold userPlace; simp

theorem setUp_apply (x : Loc) : setUp m home root t1 t2 conf d x
    = if x = configPlace m home then some (.file conf)
      else if x = target m.cwd root ++ ["UserData".toList, "example_file2.yml".toList] then
        some (.file t2)
      else if x = target m.cwd root ++ ["UserData".toList, "example_file.txt".toList] then
        some (.file t1)
      else if x = target m.cwd root ++ ["UserData".toList] then some .dir
      else if x = userPlace m home then some .dir else d x := by
  simp only [setUp, withExamples, Disk.put]

theorem setUp_twice : setUp m home root t1 t2 conf (setUp m home root t1 t2 conf d)
    = setUp m home root t1 t2 conf d := by
  funext x
  rw [setUp_apply, setUp_apply]
  split_ifs <;> rfl

theorem setUp_changed : Changed m (SetupPlace m home root name) (fun _ => False) d
    (setUp m home root t1 t2 conf d) := by
  intro x
  rw [setUp_apply]
  split_ifs with h1 h2 h3 h4 h5
  · exact .inr (.inl (h1 ▸ .config))
  · exact .inr (.inl (h2 ▸ .module _ .example2))
  · exact .inr (.inl (h3 ▸ .module _ .example1))
  · exact .inr (.inl (h4 ▸ .module _ .userData))
  · exact .inr (.inl (h5 ▸ .userDir))
  · exact .inl rfl

theorem put_ne {l x : Loc} {n : Node} (h : x ≠ l) : (d.put l n) x = d x := by
  simp only [Disk.put]; rw [if_neg h]

theorem put_self {l : Loc} {n : Node} : (d.put l n) l = some n := by simp [Disk.put]

theorem config_ne_user : configPlace m home ≠ userPlace m home := by
  intro e
  have := congrArg List.length e
  simp [configPlace] at this

theorem Spec.Ready.first (h : Ready m home root name d) :
    DiskTree (d.put (userPlace m home) .dir) ∧ NothingLost d (d.put (userPlace m home) .dir) := by
  refine ⟨h.tree.put (.inr rfl) (by rw [userPlace_two]; simp) ?_, kept_put ?_⟩
  · rcases find_parent h.tree h.userDir with e | e
    · rw [userPlace_two] at e; simp at e
    · exact e
  · rcases h.user with e | e
    · exact .inl e
    · exact .inr (.inl ⟨rfl, e⟩)

theorem withExamples_sound {R : Loc} (hd : DiskTree d) (hR : d R = some .dir)
    (hroom : ExampleRoom m d R) :
    DiskTree (withExamples R t1 t2 d) ∧ NothingLost d (withExamples R t1 t2 d) := by
  have n1 : (d.put (R ++ ["UserData".toList]) .dir)
      (R ++ ["UserData".toList, "example_file.txt".toList]) ≠ some .dir := by
    simp only [Disk.put]
    rw [if_neg (by simp)]
    exact hroom.first
  have n2 : ((d.put (R ++ ["UserData".toList]) .dir).put
      (R ++ ["UserData".toList, "example_file.txt".toList]) (.file t1))
      (R ++ ["UserData".toList, "example_file2.yml".toList]) ≠ some .dir := by
    simp only [Disk.put]
    rw [if_neg (by simp), if_neg (by simp)]
    exact hroom.second
  have k0 : NothingLost d (d.put (R ++ ["UserData".toList]) .dir) := kept_put (by
    rcases hroom.folder with e | e
    · exact .inl e
    · exact .inr (.inl ⟨rfl, e⟩))
  have g0 : (d.put (R ++ ["UserData".toList]) .dir) (R ++ ["UserData".toList]) = some .dir := by
    simp [Disk.put]
  have k1 := kept_put_file (t := t1) n1
  have k2 := kept_put_file (t := t2) n2
  have a0 : DiskTree (d.put (R ++ ["UserData".toList]) .dir) :=
    hd.put (.inr rfl) (by simp) (by rw [List.dropLast_concat]; exact hR)
  have a1 := a0.put (n := .file t1) (.inl n1) (by simp)
    (by rw [two, List.dropLast_concat]; exact g0)
  have a2 := a1.put (n := .file t2) (.inl n2) (by simp)
    (by rw [two R _ "example_file2.yml".toList, List.dropLast_concat]; exact k1.1 _ g0)
  exact ⟨a2, (k0.trans k1).trans k2⟩

theorem config_withExamples {R : Loc} : withExamples R t1 t2 d (configPlace m home)
    = d (configPlace m home) := by
  simp only [withExamples, Disk.put]
  rw [if_neg, if_neg, if_neg]
  · exact last_ne (by decide)
  · rw [two]; exact last_ne (by decide)
  · rw [two]; exact last_ne (by decide)

theorem Spec.Ready.config_free (h : Ready m home root name d) :
    withExamples (target m.cwd root) t1 t2 (d.put (userPlace m home) .dir) (configPlace m home)
      ≠ some .dir := by
  rw [config_withExamples]
  simp only [Disk.put]
  rw [if_neg config_ne_user]
  exact h.config

theorem Spec.Ready.sound (h : Ready m home root name d) :
    DiskTree (setUp m home root t1 t2 conf d) ∧ NothingLost d (setUp m home root t1 t2 conf d) ∧
      NothingLost (d.put (userPlace m home) .dir) (setUp m home root t1 t2 conf d) := by
  obtain ⟨a1, b1⟩ := h.first
  obtain ⟨a2, b2⟩ := withExamples_sound (t1 := t1) (t2 := t2) a1 h.rootDir h.room
  have b3 := kept_put_file (t := conf) (h.config_free (t1 := t1) (t2 := t2))
  have hU : (d.put (userPlace m home) .dir) (userPlace m home) = some .dir := by simp [Disk.put]
  have a3 := a2.put (n := .file conf) (.inl (h.config_free (t1 := t1) (t2 := t2)))
    (by simp [configPlace]) (by
      unfold configPlace
      rw [List.dropLast_concat]
      exact b2.1 _ hU)
  exact ⟨a3, (b1.trans b2).trans b3, b2.trans b3⟩

/-! ## The run -/

theorem opening_at {tools : Tools F} (hm : TempLaw m) (hh : m.home = some home)
    (h : Ready m home root name d)
    (h1 : makeExampleTxt (F := F) (fun _ => .error .fileNotFound) = .ok t1)
    (h2 : makeExampleYaml (F := F) (fun _ => .error .fileNotFound) = .ok t2)
    {x y : String}
    (hx : (if x = "" then plainScalar (joinPath (joinPath home ".config") "dispersion") else x)
      = root)
    (hy : (if y = "" then "catalogue.csv" else y) = name) (ls : List String) :
    opening m tools (d, x :: "y" :: y :: "y" :: "n" :: ls)
      = (.ok (root, name, [("UserData", true), ("RefractiveIndexInfo", false)]),
          (withExamples (target m.cwd root) t1 t2 (d.put (userPlace m home) .dir), ls)) := by
  unfold opening
  rw [script_bind, userDir_at hh h.userDir h.user h.userAllowed]
  simp only
  rw [script_bind, until_at (d' := d.put (userPlace m home) .dir)
    (by rw [hx]; simp [isAbs, h.absolute]), hx]
  simp only
  obtain ⟨a1, b1⟩ := h.first
  have hch : Changed m (SetupPlace m home root name) (fun _ => False) d
      (d.put (userPlace m home) .dir) := put_changed .userDir
  obtain ⟨t, ht⟩ := Option.ne_none_iff_exists'.1 (h.free _ hch)
  have hwk := hm.workable a1 (b1.1 _ h.temp) ht
  have hv : m.validFileName (d.put (userPlace m home) .dir) name
      = (.ok true, d.put (userPlace m home) .dir) := by
    obtain ⟨e1, e2⟩ := C136_plain_partial hwk (name := name) h.nameOk.2.2.2.1 h.nameOk.2.2.2.2.1
    rcases e2 with ⟨-, e2⟩ | ⟨e2, -⟩
    · exact Prod.ext e2 e1
    · exact absurd h.nameOk e2
  rw [script_bind, until_at (d' := d.put (userPlace m home) .dir) (by rw [hy]; exact hv), hy]
  simp only
  have hmods : installModulesD m tools root ["UserData", "RefractiveIndexInfo"]
      (d.put (userPlace m home) .dir, "n" :: ls)
      = (.ok [("UserData", true), ("RefractiveIndexInfo", false)],
          (withExamples (target m.cwd root) t1 t2 (d.put (userPlace m home) .dir), ls)) := by
    rw [installModulesD, script_bind, userData_at h.rootFound h.rootDir h.room h1 h2]
    simp only
    rw [script_bind, installModulesD, script_bind, rii_declined]
    rfl
  rw [script_bind, hmods]
  rfl

theorem finish_at {tools : Tools F} (hh : m.home = some home) (h : Ready m home root name d)
    (mods : List (String × Bool)) (ls : List String) :
    finishD m tools root name mods
        (withExamples (target m.cwd root) t1 t2 (d.put (userPlace m home) .dir), ls)
      = closing m tools root name mods
          (setUp m home root t1 t2 (tools.dump (setupConfig root name mods)) d, ls) := by
  obtain ⟨a1, b1⟩ := h.first
  obtain ⟨a2, b2⟩ := withExamples_sound (t1 := t1) (t2 := t2) a1 h.rootDir h.room
  have hU : (d.put (userPlace m home) .dir) (userPlace m home) = some .dir := by simp [Disk.put]
  have hfu := find_mono (b1.trans b2).1 h.userDir
  have hid : (withExamples (target m.cwd root) t1 t2 (d.put (userPlace m home) .dir)).put
      (userPlace m home) .dir
      = withExamples (target m.cwd root) t1 t2 (d.put (userPlace m home) .dir) := by
    funext x
    simp only [Disk.put]
    split
    · rename_i e
      subst e
      exact (b2.1 _ hU).symm
    · rfl
  rw [finish_eq, script_bind, userDir_at hh hfu (.inr (b2.1 _ hU)) h.userAllowed, hid]
  simp only
  have hfc : m.find (withExamples (target m.cwd root) t1 t2 (d.put (userPlace m home) .dir))
      (configFile (joinPath (joinPath home ".config") "dispersion")) = .ok (configPlace m home) := by
    unfold configFile configPlace
    exact find_join hfu (b2.1 _ hU) fileName_config
  rw [script_bind, writeMade_ok, write_at hfc h.config_free h.configAllowed]
  rfl

/-- C139: a direct run ends normally, and the disk is as described. -/
theorem C139_run {tools : Tools F} (hm : TempLaw m) (hh : m.home = some home)
    (h : Ready m home root name d)
    (h1 : makeExampleTxt (F := F) (fun _ => .error .fileNotFound) = .ok t1)
    (h2 : makeExampleYaml (F := F) (fun _ => .error .fileNotFound) = .ok t2)
    {x y : String}
    (hx : (if x = "" then plainScalar (joinPath (joinPath home ".config") "dispersion") else x)
      = root)
    (hy : (if y = "" then "catalogue.csv" else y) = name) (ls : List String) :
    setupRun m tools (d, x :: "y" :: y :: "y" :: "n" :: "n" :: ls)
      = (.ok ⟨root, name, [("UserData", true), ("RefractiveIndexInfo", false)], false⟩,
          (setUp m home root t1 t2 (tools.dump (setupConfig root name
            [("UserData", true), ("RefractiveIndexInfo", false)])) d, ls)) := by
  rw [run_eq, script_bind, opening_at hm hh h h1 h2 hx hy]
  simp only
  rw [script_bind, finish_at hh h]
  unfold closing
  rw [script_bind, confirm_no]
  rfl

theorem Spec.Ready.catalogue_free (h : Ready m home root name d)
    (hc : target m.cwd root ++ [name.toList] ≠ userPlace m home) :
    setUp m home root t1 t2 conf d (target m.cwd root ++ [name.toList]) ≠ some .dir := by
  have hn := h.catalogue
  simp only [Disk.put] at hn
  rw [if_neg hc] at hn
  rw [setUp_apply]
  split_ifs with e1 e2 e3 e4
  · simp
  · simp
  · simp
  · have := List.append_inj' e4 rfl
    simp only [List.cons.injEq, and_true] at this
    exact absurd (String.toList_inj.1 this.2) h.notFolder
  · exact hn

theorem catalogue_ne_user (h : Ready m home root name d) :
    target m.cwd root ++ [name.toList] ≠ userPlace m home := by
  intro e
  apply h.catalogue
  rw [e]
  simp [Disk.put]

theorem configRest_setup (mods : List (String × Bool)) :
    configRest (F := F) (setupConfig root name mods) = .ok () := by
  have hmods : ∀ l : List (String × Bool),
      checkModules (F := F) (l.map (fun p => (p.1, .bool p.2))) = .ok l := by
    intro l
    unfold checkModules
    induction l with
    | nil => rfl
    | cons p l ih =>
      rw [List.map_cons, List.mapM_cons, ih]
      rfl
  have g1 : (setupConfig (F := F) root name mods).get "Interactive" = .ok (.bool false) := rfl
  have g2 : (setupConfig (F := F) root name mods).get "WarnMissingPackages" = .ok (.bool false) := rfl
  have g3 : (setupConfig (F := F) root name mods).get "Modules"
    = .ok (.dict (mods.map (fun p => (p.1, .bool p.2)))) := rfl
  have g4 : (setupConfig (F := F) root name mods).get "ReferenceSpectrum"
    = .ok (.dict [("Value", .float (lit (6328 / 10))), ("SpectrumType", .str "wavelength"),
        ("Unit", .str "nanometer")]) := rfl
  have g5 : (setupConfig (F := F) root name mods).has "Modules" = .ok () := rfl
  have g6 : (setupConfig (F := F) root name mods).has "ReferenceSpectrum" = .ok () := rfl
  unfold configRest
  rw [g1, g2, g3, g4, g5, g6]
  simp only [bind, Except.bind, YamlVal.items, YamlVal.asBool, hmods]
  rfl

theorem validate_at {d' : Disk} (hwk : ∃ t, Workable m d' t) (hr : m.isDir d' root = true)
    (hn : FileName name.toList) (mods : List (String × Bool)) :
    m.validate d' (setupConfig (F := F) root name mods) = (.ok (), d') := by
  obtain ⟨t, hwk⟩ := hwk
  have h1 : m.configName d' (setupConfig (F := F) root name mods) = .ok name := by
    simp [Machine.configName, setupConfig, YamlVal.get, dictGet, YamlVal.asStr, bind, Except.bind,
      orIOError, hr]
  have hv : m.validFileName d' name = (.ok true, d') := by
    obtain ⟨e1, e2⟩ := C136_plain_partial hwk (name := name) hn.2.2.2.1 hn.2.2.2.2.1
    rcases e2 with ⟨-, e2⟩ | ⟨e2, -⟩
    · exact Prod.ext e2 e1
    · exact absurd hn e2
  unfold Machine.validate
  rw [h1]
  simp only
  rw [hv]
  simp only [configRest_setup]
  rfl

theorem closing_built {tools : Tools F} (hm : TempLaw m) (h : Ready m home root name d)
    (mods : List (String × Bool)) {f : Frame F}
    (hb : tools.build (setupConfig root name mods) (setUp m home root t1 t2 conf d) = .ok f)
    (ls : List String) :
    closing m tools root name mods (setUp m home root t1 t2 conf d, "y" :: ls)
      = (.ok true, ((setUp m home root t1 t2 conf d).put (target m.cwd root ++ [name.toList])
          (.file (csvText f)), ls)) := by
  obtain ⟨a, b, c⟩ := h.sound (t1 := t1) (t2 := t2) (conf := conf)
  obtain ⟨t, ht⟩ := Option.ne_none_iff_exists'.1
    (h.free _ (setUp_changed (t1 := t1) (t2 := t2) (conf := conf)))
  have hwk := hm.workable a (b.1 _ h.temp) ht
  have hfr := find_mono c.1 h.rootFound
  have hdir : m.isDir (setUp m home root t1 t2 conf d) root = true := by
    unfold Machine.isDir Machine.look
    rw [hfr]
    simp [c.1 _ h.rootDir]
  unfold closing
  rw [script_bind, confirm_yes]
  simp only [if_true]
  rw [script_bind]
  unfold rebuildD
  rw [onDisk_bind, validate_at ⟨t, hwk⟩ hdir h.nameOk]
  simp only
  rw [onDisk_bind, hb]
  simp only
  rw [writeMade_ok, write_at (find_join hfr (c.1 _ h.rootDir) h.nameOk)
    (h.catalogue_free (catalogue_ne_user h)) h.catalogueAllowed]
  rfl

/-- C139: a direct run that builds the catalogue. -/
theorem C139_built {tools : Tools F} (hm : TempLaw m) (hh : m.home = some home)
    (h : Ready m home root name d)
    (h1 : makeExampleTxt (F := F) (fun _ => .error .fileNotFound) = .ok t1)
    (h2 : makeExampleYaml (F := F) (fun _ => .error .fileNotFound) = .ok t2)
    {x y : String}
    (hx : (if x = "" then plainScalar (joinPath (joinPath home ".config") "dispersion") else x)
      = root)
    (hy : (if y = "" then "catalogue.csv" else y) = name) (ls : List String)
    {f : Frame F}
    (hb : tools.build (setupConfig root name [("UserData", true), ("RefractiveIndexInfo", false)])
      (setUp m home root t1 t2 (tools.dump (setupConfig root name
            [("UserData", true), ("RefractiveIndexInfo", false)])) d) = .ok f) :
    setupRun m tools (d, x :: "y" :: y :: "y" :: "n" :: "y" :: ls)
      = (.ok ⟨root, name, [("UserData", true), ("RefractiveIndexInfo", false)], true⟩,
          ((setUp m home root t1 t2 (tools.dump (setupConfig root name
            [("UserData", true), ("RefractiveIndexInfo", false)])) d).put
            (target m.cwd root ++ [name.toList]) (.file (csvText f)), ls)) := by
  rw [run_eq, script_bind, opening_at hm hh h h1 h2 hx hy]
  simp only
  rw [script_bind, finish_at hh h, closing_built hm h _ hb]
  rfl

/-! ## Downloading again -/

theorem fileName_rii : FileName "RefractiveIndexInfo".toList := by
  refine ⟨?_, ?_, ?_, ?_, ?_, ?_⟩ <;> decide

/-- C139, the exception: git refuses to clone into a directory with something in it. So a run on a
disk where the module of refractiveindex.info has been downloaded fails if the answer is to
download again, and the answers about root directory and file name are not saved. -/
theorem C139_download {tools : Tools F} (hm : TempLaw m) (hh : m.home = some home)
    (h : Ready m home root name d)
    (hgit : ∀ p d', d' (target m.cwd p) = some .dir →
      (∃ c, d' (target m.cwd p ++ [c]) ≠ none) → ∃ e, tools.clone p d' = (.error e, d'))
    (hr : d (target m.cwd root ++ ["RefractiveIndexInfo".toList]) = some .dir)
    (hr' : ∃ c, d (target m.cwd root ++ ["RefractiveIndexInfo".toList, c]) ≠ none)
    (hra : m.writable (target m.cwd root ++ ["RefractiveIndexInfo".toList]) = true)
    (h1 : makeExampleTxt (F := F) (fun _ => .error .fileNotFound) = .ok t1)
    (h2 : makeExampleYaml (F := F) (fun _ => .error .fileNotFound) = .ok t2)
    {x y : String}
    (hx : (if x = "" then plainScalar (joinPath (joinPath home ".config") "dispersion") else x)
      = root)
    (hy : (if y = "" then "catalogue.csv" else y) = name) (ls : List String) :
    ∃ e, (setupRun m tools (d, x :: "y" :: y :: "y" :: "y" :: "y" :: ls)).1 = .error e ∧
      (setupRun m tools (d, x :: "y" :: y :: "y" :: "y" :: "y" :: ls)).2.1 (configPlace m home)
        = d (configPlace m home) := by
  obtain ⟨a1, b1⟩ := h.first
  obtain ⟨a2, b2⟩ := withExamples_sound (t1 := t1) (t2 := t2) a1 h.rootDir h.room
  have hch : Changed m (SetupPlace m home root name) (fun _ => False) d
      (d.put (userPlace m home) .dir) := put_changed .userDir
  obtain ⟨t, ht⟩ := Option.ne_none_iff_exists'.1 (h.free _ hch)
  have hwk := hm.workable a1 (b1.1 _ h.temp) ht
  have hv : m.validFileName (d.put (userPlace m home) .dir) name
      = (.ok true, d.put (userPlace m home) .dir) := by
    obtain ⟨e1, e2⟩ := C136_plain_partial hwk (name := name) h.nameOk.2.2.2.1 h.nameOk.2.2.2.2.1
    rcases e2 with ⟨-, e2⟩ | ⟨e2, -⟩
    · exact Prod.ext e2 e1
    · exact absurd h.nameOk e2
  have htr : target m.cwd (joinPath root "RefractiveIndexInfo")
      = target m.cwd root ++ ["RefractiveIndexInfo".toList] :=
    target_join _ _ (by decide) (by decide) (by decide) (by decide)
  have hd1 : withExamples (target m.cwd root) t1 t2 (d.put (userPlace m home) .dir)
      (target m.cwd root ++ ["RefractiveIndexInfo".toList]) = some .dir :=
    (b1.trans b2).1 _ hr
  obtain ⟨c, hc⟩ := hr'
  have hd2 : withExamples (target m.cwd root) t1 t2 (d.put (userPlace m home) .dir)
      (target m.cwd root ++ ["RefractiveIndexInfo".toList] ++ [c]) ≠ none := by
    rw [← two]
    cases hn : d (target m.cwd root ++ ["RefractiveIndexInfo".toList, c]) with
    | none => exact absurd hn hc
    | some n =>
      cases n with
      | dir => rw [(b1.trans b2).1 _ hn]; simp
      | file u =>
        obtain ⟨u', hu'⟩ := (b1.trans b2).2 _ u hn
        rw [hu']; simp
  obtain ⟨e, he⟩ := hgit (joinPath root "RefractiveIndexInfo") _ (by rw [htr]; exact hd1)
    ⟨c, by rw [htr]; exact hd2⟩
  have hfr := find_join (find_mono b2.1 h.rootFound) (b2.1 _ h.rootDir) fileName_rii
  have hid : (withExamples (target m.cwd root) t1 t2 (d.put (userPlace m home) .dir)).put
      (target m.cwd root ++ ["RefractiveIndexInfo".toList]) .dir
      = withExamples (target m.cwd root) t1 t2 (d.put (userPlace m home) .dir) := by
    funext z
    simp only [Disk.put]
    split
    · rename_i e; subst e; exact hd1.symm
    · rfl
  have hrii : setupModuleD m tools root "RefractiveIndexInfo"
      (withExamples (target m.cwd root) t1 t2 (d.put (userPlace m home) .dir), "y" :: "y" :: ls)
      = (.error e, (withExamples (target m.cwd root) t1 t2 (d.put (userPlace m home) .dir), ls)) := by
    unfold setupModuleD
    rw [script_bind]
    have hw : wantedD "RefractiveIndexInfo"
        (withExamples (target m.cwd root) t1 t2 (d.put (userPlace m home) .dir), "y" :: "y" :: ls)
        = (.ok true, (withExamples (target m.cwd root) t1 t2 (d.put (userPlace m home) .dir),
            "y" :: ls)) := by
      unfold wantedD; rw [if_neg (by decide), confirm_yes]
    rw [hw]
    simp only [if_true]
    rw [script_bind, folder_at hfr (.inr hd1) hra, hid]
    simp only
    have hi : installModuleD m tools "RefractiveIndexInfo" (joinPath root "RefractiveIndexInfo")
        = installRiiD m tools (joinPath root "RefractiveIndexInfo") := by
      unfold installModuleD; simp
    rw [hi]
    unfold installRiiD
    rw [script_bind, confirm_yes]
    simp only [if_true]
    rw [onDisk_bind, he]
  have hrun : setupRun m tools (d, x :: "y" :: y :: "y" :: "y" :: "y" :: ls)
      = (.error e, (withExamples (target m.cwd root) t1 t2 (d.put (userPlace m home) .dir), ls)) := by
    unfold setupRun
    rw [script_bind, userDir_at hh h.userDir h.user h.userAllowed]
    simp only
    rw [script_bind, until_at (d' := d.put (userPlace m home) .dir)
      (by rw [hx]; simp [isAbs, h.absolute]), hx]
    simp only
    rw [script_bind, until_at (d' := d.put (userPlace m home) .dir) (by rw [hy]; exact hv), hy]
    simp only
    rw [script_bind, installModulesD, script_bind,
      userData_at h.rootFound h.rootDir h.room h1 h2]
    simp only
    rw [script_bind, installModulesD, script_bind, hrii]
  refine ⟨e, by rw [hrun], ?_⟩
  rw [hrun]
  simp only
  rw [config_withExamples, put_ne config_ne_user]

/-! ## The second run -/

theorem Spec.Ready.after (h : Ready m home root name d) {d' : Disk} (hd' : DiskTree d')
    (hk : NothingLost (d.put (userPlace m home) .dir) d')
    (hch : Changed m (SetupPlace m home root name) (fun _ => False) d d')
    (hc : d' (configPlace m home) ≠ some .dir)
    (hf : d' (target m.cwd root ++ ["UserData".toList]) = some .dir)
    (h1 : d' (target m.cwd root ++ ["UserData".toList, "example_file.txt".toList]) ≠ some .dir)
    (h2 : d' (target m.cwd root ++ ["UserData".toList, "example_file2.yml".toList]) ≠ some .dir)
    (hcat : d' (target m.cwd root ++ [name.toList]) ≠ some .dir) :
    Ready m home root name d' := by
  have hU : (d.put (userPlace m home) .dir) (userPlace m home) = some .dir := by simp [Disk.put]
  have hid : d'.put (userPlace m home) .dir = d' := by
    funext x
    simp only [Disk.put]
    split
    · rename_i e
      subst e
      exact (hk.1 _ hU).symm
    · rfl
  have hk0 := h.first.2.trans hk
  exact {
    tree := hd'
    temp := hk0.1 _ h.temp
    userDir := find_mono hk0.1 h.userDir
    user := .inr (hk.1 _ hU)
    userAllowed := h.userAllowed
    config := hc
    configAllowed := h.configAllowed
    absolute := h.absolute
    rootFound := by rw [hid]; exact find_mono hk.1 h.rootFound
    rootDir := by rw [hid]; exact hk.1 _ h.rootDir
    room := by
      rw [hid]
      exact ⟨.inr hf, h1, h2, h.room.folderAllowed, h.room.firstAllowed, h.room.secondAllowed⟩
    nameOk := h.nameOk
    notFolder := h.notFolder
    catalogue := by rw [hid]; exact hcat
    catalogueAllowed := h.catalogueAllowed
    free := fun d'' hd'' => h.free d'' (hch.trans hd'') }

theorem setUp_folder : setUp m home root t1 t2 conf d (target m.cwd root ++ ["UserData".toList])
    = some .dir := by
  have h0 : target m.cwd root ++ ["UserData".toList] ≠ configPlace m home := last_ne (by decide)
  rw [setUp_apply, if_neg h0, if_neg (by simp), if_neg (by simp), if_pos rfl]

theorem setUp_first : setUp m home root t1 t2 conf d
    (target m.cwd root ++ ["UserData".toList, "example_file.txt".toList]) = some (.file t1) := by
  rw [setUp_apply, if_neg (by rw [two]; exact last_ne (by decide)), if_neg (by simp), if_pos rfl]

theorem setUp_second : setUp m home root t1 t2 conf d
    (target m.cwd root ++ ["UserData".toList, "example_file2.yml".toList]) = some (.file t2) := by
  rw [setUp_apply, if_neg (by rw [two]; exact last_ne (by decide)), if_pos rfl]

theorem setUp_config : setUp m home root t1 t2 conf d (configPlace m home) = some (.file conf) := by
  rw [setUp_apply, if_pos rfl]

theorem Spec.Ready.setUp (h : Ready m home root name d) :
    Ready m home root name (Spec.setUp m home root t1 t2 conf d) := by
  obtain ⟨a, -, c⟩ := h.sound (t1 := t1) (t2 := t2) (conf := conf)
  exact h.after a c setUp_changed (by rw [setUp_config]; simp) setUp_folder
    (by rw [setUp_first]; simp) (by rw [setUp_second]; simp)
    (h.catalogue_free (catalogue_ne_user h))

/-- C139: a second direct run with the same answers ends the same way and changes nothing. -/
theorem C139_again {tools : Tools F} (hm : TempLaw m) (hh : m.home = some home)
    (h : Ready m home root name d)
    (h1 : makeExampleTxt (F := F) (fun _ => .error .fileNotFound) = .ok t1)
    (h2 : makeExampleYaml (F := F) (fun _ => .error .fileNotFound) = .ok t2)
    {x y : String}
    (hx : (if x = "" then plainScalar (joinPath (joinPath home ".config") "dispersion") else x)
      = root)
    (hy : (if y = "" then "catalogue.csv" else y) = name) (ls : List String) :
    setupRun m tools ((setupRun m tools (d, x :: "y" :: y :: "y" :: "n" :: "n" :: ls)).2.1,
        x :: "y" :: y :: "y" :: "n" :: "n" :: ls)
      = setupRun m tools (d, x :: "y" :: y :: "y" :: "n" :: "n" :: ls) := by
  rw [C139_run hm hh h h1 h2 hx hy]
  simp only
  rw [C139_run hm hh h.setUp h1 h2 hx hy, setUp_twice]

theorem catalogue_ne_folder (h : Ready m home root name d) :
    target m.cwd root ++ ["UserData".toList] ≠ target m.cwd root ++ [name.toList] := by
  intro e
  have := List.append_inj' e rfl
  simp only [List.cons.injEq, and_true] at this
  exact h.notFolder (String.toList_inj.1 this.2).symm

theorem Spec.Ready.built (h : Ready m home root name d) (cat : List Char) :
    Ready m home root name ((Spec.setUp m home root t1 t2 conf d).put
      (target m.cwd root ++ [name.toList]) (.file cat)) := by
  obtain ⟨a, -, c⟩ := h.sound (t1 := t1) (t2 := t2) (conf := conf)
  have hfree := h.catalogue_free (t1 := t1) (t2 := t2) (conf := conf) (catalogue_ne_user h)
  have hcat : SetupPlace m home root name (target m.cwd root ++ [name.toList]) := by
    rw [← target_join _ _ h.nameOk.2.2.2.1 h.nameOk.1 h.nameOk.2.1 h.nameOk.2.2.1]
    exact .catalogue
  refine h.after (a.put (.inl hfree) (by simp) ?_) (c.trans (kept_put_file hfree))
    (setUp_changed.trans (put_changed hcat)) ?_ ?_ ?_ ?_ ?_
  · rw [List.dropLast_concat]; exact c.1 _ h.rootDir
  · by_cases e : configPlace m home = target m.cwd root ++ [name.toList]
    · rw [e, put_self]; simp
    · rw [put_ne e, setUp_config]; simp
  · rw [put_ne (catalogue_ne_folder h), setUp_folder]
  · rw [put_ne (by simp), setUp_first]; simp
  · rw [put_ne (by simp), setUp_second]; simp
  · rw [put_self]; simp

theorem setUp_built (h : Ready m home root name d) (cat : List Char) :
    setUp m home root t1 t2 conf ((setUp m home root t1 t2 conf d).put
      (target m.cwd root ++ [name.toList]) (.file cat))
    = setUp m home root t1 t2 conf d ∨
    setUp m home root t1 t2 conf ((setUp m home root t1 t2 conf d).put
      (target m.cwd root ++ [name.toList]) (.file cat))
    = (setUp m home root t1 t2 conf d).put (target m.cwd root ++ [name.toList]) (.file cat) := by
  have hnu := catalogue_ne_user h
  by_cases e : configPlace m home = target m.cwd root ++ [name.toList]
  · left
    rw [← e]
    funext x
    rw [setUp_apply, setUp_apply]
    split_ifs with e1 e2 e3 e4 e5
    iterate 5 rfl
    rw [put_ne e1, setUp_apply, if_neg e1, if_neg e2, if_neg e3, if_neg e4, if_neg e5]
  · right
    funext x
    by_cases hx : x = target m.cwd root ++ [name.toList]
    · subst hx
      rw [setUp_apply, if_neg (fun e' => e e'.symm), if_neg (by simp), if_neg (by simp),
        if_neg (fun e' => catalogue_ne_folder h e'.symm), if_neg hnu]
    · rw [put_ne hx, setUp_apply, put_ne hx, setUp_apply]
      split_ifs <;> rfl

/-- C139: a second direct run that builds the catalogue, too, if what is built does not depend on
the catalogue file. -/
theorem C139_again_built {tools : Tools F} (hm : TempLaw m) (hh : m.home = some home)
    (h : Ready m home root name d)
    (h1 : makeExampleTxt (F := F) (fun _ => .error .fileNotFound) = .ok t1)
    (h2 : makeExampleYaml (F := F) (fun _ => .error .fileNotFound) = .ok t2)
    {x y : String}
    (hx : (if x = "" then plainScalar (joinPath (joinPath home ".config") "dispersion") else x)
      = root)
    (hy : (if y = "" then "catalogue.csv" else y) = name) (ls : List String)
    {f : Frame F}
    (hb : tools.build (setupConfig root name [("UserData", true), ("RefractiveIndexInfo", false)])
      (setUp m home root t1 t2 (tools.dump (setupConfig root name
            [("UserData", true), ("RefractiveIndexInfo", false)])) d) = .ok f)
    (hi : ∀ (d' : Disk) (text : List Char),
      tools.build (setupConfig root name [("UserData", true), ("RefractiveIndexInfo", false)])
        (d'.put (target m.cwd root ++ [name.toList]) (.file text))
      = tools.build (setupConfig root name [("UserData", true), ("RefractiveIndexInfo", false)]) d') :
    setupRun m tools ((setupRun m tools (d, x :: "y" :: y :: "y" :: "n" :: "y" :: ls)).2.1,
        x :: "y" :: y :: "y" :: "n" :: "y" :: ls)
      = setupRun m tools (d, x :: "y" :: y :: "y" :: "n" :: "y" :: ls) := by
  rw [C139_built hm hh h h1 h2 hx hy ls hb]
  simp only
  have hput : ∀ (d : Disk) (l : Loc) (n : Node), (d.put l n).put l n = d.put l n := by
    intro d l n
    funext x
    simp only [Disk.put]
    split_ifs <;> rfl
  rcases setUp_built (t1 := t1) (t2 := t2) (conf := tools.dump (setupConfig root name
            [("UserData", true), ("RefractiveIndexInfo", false)])) h (csvText f) with e | e
  · rw [C139_built hm hh (h.built _) h1 h2 hx hy ls (f := f) (by rw [e]; exact hb), e]
  · rw [C139_built hm hh (h.built _) h1 h2 hx hy ls (f := f) (by rw [e, hi]; exact hb), e, hput]

end

/-! ## Cases -/

theorem demo_tempLaw : TempLaw demoMachine := by
  refine ⟨fun c hc => ?_, fun d t _ h => ?_⟩
  · have : c = "tmp".toList := by simpa [demoMachine] using hc
    subst this
    refine ⟨?_, ?_, ?_, ?_, ?_, ?_⟩ <;> decide
  · simp only [demoMachine] at h
    split at h
    · rename_i h'
      injection h with h
      subst h
      exact ⟨by refine ⟨?_, ?_, ?_, ?_, ?_, ?_⟩ <;> decide, h', fun _ _ => rfl⟩
    · cases h

theorem demo_root : target demoMachine.cwd "/home/user/.config/dispersion"
    = ["home".toList, "user".toList, ".config".toList, "dispersion".toList] := by decide

theorem demo_user : userPlace demoMachine "/home/user"
    = ["home".toList, "user".toList, ".config".toList, "dispersion".toList] := by decide

/-- On the machine of the demonstration everything is ready for the default answers with any name
for the catalogue but that of the folder. -/
theorem demo_ready {name : String} (hn : FileName name.toList) (hu : name ≠ "UserData") :
    Ready demoMachine "/home/user" "/home/user/.config/dispersion" name demoDisk where
  tree := demo_workable.tree
  temp := demo_workable.tempDir
  userDir := by rw [demo_user]; rfl
  user := by rw [demo_user]; left; decide
  userAllowed := rfl
  config := by unfold configPlace; rw [demo_user]; decide
  configAllowed := rfl
  absolute := by decide
  rootFound := by rw [demo_root, demo_user]; rfl
  rootDir := by rw [demo_root, demo_user]; decide
  room := by
    rw [demo_root, demo_user]
    exact ⟨by left; decide, by decide, by decide, rfl, rfl, rfl⟩
  nameOk := hn
  notFolder := hu
  catalogue := by
    rw [demo_root, demo_user]
    simp [Disk.put, demoDisk]
  catalogueAllowed := rfl
  free := by
    intro d' hd'
    have h0 : d' ["tmp".toList, "tmpx1".toList] = none := by
      have key : ¬ SetupPlace demoMachine "/home/user" "/home/user/.config/dispersion" name
          ["tmp".toList, "tmpx1".toList] := by
        generalize hl : (["tmp".toList, "tmpx1".toList] : Loc) = l
        intro h
        have head : l.head? = some "home".toList := by
          cases h with
          | userDir => rw [demo_user]; rfl
          | config => rw [demo_user]; rfl
          | module _ h =>
            cases h with
            | userData => rw [demo_root]; rfl
            | example1 => rw [demo_root]; rfl
            | example2 => rw [demo_root]; rfl
            | rii _ h =>
              rw [demo_root] at h
              obtain ⟨r, rfl⟩ := h
              rfl
          | catalogue =>
            rw [target_join _ _ hn.2.2.2.1 hn.1 hn.2.1 hn.2.2.1, demo_root]; rfl
        rw [← hl] at head
        revert head
        decide
      rcases hd' ["tmp".toList, "tmpx1".toList] with e | e | e
      · rw [e]; decide
      · exact absurd e key
      · exact e.1.elim
    simp only [demoMachine]
    rw [if_pos h0]
    simp

/-- The separation that `C138_config` asks for is needed: if the root directory is the user's
directory (the default) and the catalogue is named like the configuration file, a direct run ends
normally, but the configuration file holds the catalogue. -/
theorem C138_overwritten {home root : String} {d : Disk} {t1 t2 : List Char} {tools : Tools F}
    (hm : TempLaw m) (hh : m.home = some home) (h : Ready m home root "config.yaml" d)
    (hr : target m.cwd root = userPlace m home)
    (h1 : makeExampleTxt (F := F) (fun _ => .error .fileNotFound) = .ok t1)
    (h2 : makeExampleYaml (F := F) (fun _ => .error .fileNotFound) = .ok t2)
    {x : String}
    (hx : (if x = "" then plainScalar (joinPath (joinPath home ".config") "dispersion") else x)
      = root) (ls : List String) {f : Frame F}
    (hb : ∀ d', tools.build (setupConfig root "config.yaml"
      [("UserData", true), ("RefractiveIndexInfo", false)]) d' = .ok f) :
    (∃ r, (setupRun m tools (d, x :: "y" :: "config.yaml" :: "y" :: "n" :: "y" :: ls)).1 = .ok r) ∧
    (setupRun m tools (d, x :: "y" :: "config.yaml" :: "y" :: "n" :: "y" :: ls)).2.1
      (configPlace m home) = some (.file (csvText f)) := by
  rw [C139_built hm hh h h1 h2 hx (by simp) ls (hb _)]
  refine ⟨⟨_, rfl⟩, ?_⟩
  simp only
  rw [hr]
  exact put_self

/-- Git on the machine of the demonstration: a directory with nothing in it gets the library. -/
def demoClone (p : String) (d : Disk) : Res Unit × Disk :=
  if d (target [] p) = some .dir ∧ d (target [] p ++ ["database".toList]) = none then
    (.ok (), (d.put (target [] p ++ ["database".toList]) .dir).put
      (target [] p ++ ["database".toList, "library.yml".toList]) (.file []))
  else (.error .os, d)

theorem demo_gitLaw : GitLaw demoMachine demoClone := by
  intro p d hd
  unfold demoClone
  split
  · rename_i h
    have hlib : d (target [] p ++ ["database".toList, "library.yml".toList]) = none :=
      hd.below h.2 (by rw [two]; exact List.prefix_append _ _)
    have a0 := hd.put_dir h.1 h.2
    have a1 := a0.put (l := target [] p ++ ["database".toList, "library.yml".toList])
      (n := .file []) (.inl (by rw [put_ne (by simp), hlib]; simp)) (by simp)
      (by rw [two, List.dropLast_concat, put_self])
    refine ⟨a1, fun l hl => ?_, fun l hl => ?_⟩
    · simp only
      rw [put_ne, put_ne]
      · rintro rfl; exact hl (List.prefix_append _ _)
      · rintro rfl; exact hl (List.prefix_append _ _)
    · simp only
      rw [put_ne, put_ne]
      · rintro rfl; exact hl h.2
      · rintro rfl; exact hl hlib
  · exact ⟨hd, fun _ _ => rfl, fun _ _ => rfl⟩

/-- The default answers meet the hypotheses of `C137_only`, `C138_config` and `C138_catalogue`. -/
theorem demo_apart :
    ¬ Typed demoMachine ["", "y", "", "y", "n", "n"] (configPlace demoMachine "/home/user") ∧
    (∀ root, RootLine "/home/user" ["", "y", "", "y", "n", "n"] root →
      ¬ ModulePlace demoMachine root (configPlace demoMachine "/home/user")) ∧
    ∀ root name, RootLine "/home/user" ["", "y", "", "y", "n", "n"] root →
      NameLine ["", "y", "", "y", "n", "n"] name →
      target demoMachine.cwd (joinPath root name) ≠ configPlace demoMachine "/home/user" := by
  have hc : configPlace demoMachine "/home/user" = ["home".toList, "user".toList, ".config".toList,
      "dispersion".toList, "config.yaml".toList] := by decide
  rw [hc]
  have hroots : ∀ root, RootLine "/home/user" ["", "y", "", "y", "n", "n"] root →
      root = "/home/user/.config/dispersion" ∨ root = "" ∨ root = "y" ∨ root = "n" := by
    rintro root (h | h)
    · left; rw [h]; decide +kernel
    · simp at h; tauto
  refine ⟨?_, ?_, ?_⟩
  · rintro ⟨x, hx, hs, -⟩
    simp at hx
    rcases hx with rfl | rfl | rfl | rfl | rfl | rfl <;> exact absurd hs (by decide)
  · intro root hr
    generalize hl : (["home".toList, "user".toList, ".config".toList,
      "dispersion".toList, "config.yaml".toList] : Loc) = l
    intro h
    rcases hroots root hr with rfl | rfl | rfl | rfl
    all_goals
      cases h with
      | userData => exact absurd hl (by decide)
      | example1 => exact absurd hl (by decide)
      | example2 => exact absurd hl (by decide)
      | rii _ h => subst hl; revert h; decide
  · intro root name hr hn
    have hn' : name = "catalogue.csv" ∨ name = "" ∨ name = "y" ∨ name = "n" := by
      rcases hn with h | h
      · exact .inl h
      · simp at h; tauto
    rcases hroots root hr with rfl | rfl | rfl | rfl <;>
    rcases hn' with rfl | rfl | rfl | rfl <;> decide

/-- The examples can be made in the demonstration format, and the default answers with the name
`config.yaml` replace the configuration by the catalogue. -/
example [SciPy XR] (dump : YamlVal XR → List Char) (f : Frame XR) : letI := demoNumText
    letI := demoPrinting
    letI := demoYaml (F := XR)
    ∀ [CsvIO XR],
    (setupRun demoMachine ⟨dump, demoClone, fun _ _ => .ok f⟩
      (demoDisk, ["", "y", "config.yaml", "y", "n", "y"])).2.1 (configPlace demoMachine "/home/user")
      = some (.file (csvText f)) := by
  letI := demoNumText
  letI := demoPrinting
  letI := demoYaml (F := XR)
  haveI := demoPrintingLaws
  haveI := demoYamlLaws (F := XR)
  intro _
  obtain ⟨t, h, _⟩ := C93_text (F := XR) (fun _ => .error .fileNotFound)
    example_table_ideal.1 example_shown.1
  obtain ⟨t', h', _⟩ := C93_yaml (F := XR) (fun _ => .error .fileNotFound)
    example_table_ideal.2 example_shown.2
  exact (C138_overwritten demo_tempLaw rfl (demo_ready fileName_config (by decide))
    (by rw [demo_root, demo_user]) h h' (x := "") (by decide +kernel) [] (f := f)
    (fun _ => rfl)).2

end Disp

import Verif.Model.DiskCatalogue
import Verif.Props.SetupAgain
import Verif.Props.BuildFailures
/-!
# A database that is there already (C153)

The setup script asks whether the module of refractiveindex.info is to be installed, and then
whether it is to be downloaded. Without download the module is switched on if the script finds the
database. What it looks for is not what the catalogue reads.
-/

namespace Disp

open Spec

variable {F : Type} [PyFloat F] [SciPy F] [NumText F] [Printing F] [YamlIO F] [CsvIO F]

/-! ## Specification -/

namespace Spec

/-- The names of the files and folders of a database. -/
def riiFolder : Loc := ["RefractiveIndexInfo".toList]
/-- The folder with the library file, below the root directory of the catalogue. -/
def riiDatabase : Loc := ["RefractiveIndexInfo".toList, "database".toList]
/-- A file or folder in it. -/
def inDatabase (name : String) : Loc :=
  ["RefractiveIndexInfo".toList, "database".toList, name.toList]

/-- There is a file. -/
def FileAt (d : Disk) (l : Loc) : Prop := ∃ t, d l = some (.file t)

/-- The path `root` leads to the directory at `R`, where the folder of the module is or can be
made. -/
structure RootThere (m : Machine) (d : Disk) (root : String) (R : Loc) : Prop where
  tree : DiskTree d
  found : m.find d root = .ok R
  dir : d R = some .dir
  folder : d (R ++ riiFolder) = none ∨ d (R ++ riiFolder) = some .dir
  allowed : m.writable (R ++ riiFolder) = true

end Spec

/-! ## Paths -/

theorem fileName_database : FileName "database".toList := by
  refine ⟨?_, ?_, ?_, ?_, ?_, ?_⟩ <;> decide
theorem fileName_library : FileName "library.yml".toList := by
  refine ⟨?_, ?_, ?_, ?_, ?_, ?_⟩ <;> decide
theorem fileName_catalog : FileName "catalog-nk.yml".toList := by
  refine ⟨?_, ?_, ?_, ?_, ?_, ?_⟩ <;> decide
theorem fileName_data : FileName "data".toList := by
  refine ⟨?_, ?_, ?_, ?_, ?_, ?_⟩ <;> decide
theorem fileName_dataNk : FileName "data-nk".toList := by
  refine ⟨?_, ?_, ?_, ?_, ?_, ?_⟩ <;> decide

/-- A path with one more name. -/
theorem find_join_walk {m : Machine} {d : Disk} {a s : String} {l : Loc} (ha : m.find d a = .ok l)
    (hs : FileName s.toList) : m.find d (joinPath a s) = d.walk l [s.toList] := by
  obtain ⟨s1, s2, s3, s4, s5, s6⟩ := hs
  have hb : s.toList.head? ≠ some '/' := fun e => s4 (List.mem_of_head? e)
  unfold Machine.find at ha
  split at ha
  · cases ha
  rename_i hnul
  split at ha
  · cases ha
  rename_i hne
  have hane : a.toList ≠ [] := fun e => hne (String.toList_inj.1 (by simpa using e))
  have hj : (joinPath a s).toList
      = if a.toList = [] ∨ a.toList.getLast? = some '/' then a.toList ++ s.toList
        else a.toList ++ '/' :: s.toList := by
    unfold joinPath joinChars
    rw [String.toList_ofList, if_neg hb]
  have hhead : ∀ r, (a.toList ++ r).head? = a.toList.head? := by
    intro r
    cases h : a.toList with
    | nil => exact absurd h hane
    | cons c cs => rfl
  have hne' : joinPath a s ≠ "" := by
    intro e
    have h2 := congrArg String.toList e
    rw [hj] at h2
    split at h2 <;> simp at h2
    · exact s1 (by simpa using h2.2)
  unfold Machine.find
  by_cases hlast : a.toList.getLast? = some '/'
  · have hj' := hj.trans (if_pos (.inr hlast))
    rw [if_neg, if_neg hne']
    · unfold Machine.start at ha ⊢
      rw [hj', hhead]
      obtain ⟨a0, ha0⟩ : ∃ a0, a.toList = a0 ++ ['/'] := List.getLast?_eq_some_iff.1 hlast
      have h1 : splitOnChar '/' a.toList = splitOnChar '/' a0 ++ [[]] := by
        rw [ha0, splitOnChar_concat]; rfl
      have h2 : splitOnChar '/' (a.toList ++ s.toList) = splitOnChar '/' a0 ++ [s.toList] := by
        rw [ha0, List.append_assoc, List.singleton_append, splitOnChar_concat, splitOnChar_none s4]
      rw [h1] at ha
      rw [h2]
      obtain ⟨l0, h3, h4⟩ := walk_append_inv ha
      rw [walk_append h3]
      have : l0 = l := by
        rw [Disk.walk] at h4
        split at h4
        · rw [if_pos (.inl rfl), Disk.walk] at h4
          exact Except.ok.inj h4
        · cases h4
        · cases h4
      rw [this]
    · rw [hj']; simp [hnul, s5]
  · have hj' := hj.trans (if_neg (by rintro (e | e); exacts [hane e, hlast e]))
    rw [if_neg, if_neg hne']
    · unfold Machine.start at ha ⊢
      rw [hj', hhead, splitOnChar_concat, splitOnChar_none s4, walk_append ha]
    · rw [hj']; simp [hnul, s5]

/-- What is one name further, below a directory. -/
theorem find_join_cases {m : Machine} {d : Disk} {a s : String} {l : Loc} (ha : m.find d a = .ok l)
    (hs : FileName s.toList) :
    (d l = some .dir ∧ m.find d (joinPath a s) = .ok (l ++ [s.toList])) ∨
    ((∃ t, d l = some (.file t)) ∧ m.find d (joinPath a s) = .error .os) ∨
    (d l = none ∧ m.find d (joinPath a s) = .error .fileNotFound) := by
  cases hl : d l with
  | none =>
    refine .inr (.inr ⟨rfl, ?_⟩)
    rw [find_join_walk ha hs, Disk.walk, hl]
  | some n =>
    cases n with
    | dir => exact .inl ⟨rfl, find_join ha hl hs⟩
    | file t =>
      refine .inr (.inl ⟨⟨t, rfl⟩, ?_⟩)
      rw [find_join_walk ha hs, Disk.walk, hl]

section
variable {m : Machine} {d : Disk} {root : String} {R : Loc}

/-- The folder of the module, made if need be. -/
theorem root_folder (h : RootThere m d root R) {d' : Disk}
    (hd' : d' = d.put (R ++ riiFolder) .dir) :
    DiskTree d' ∧ m.find d' (joinPath root "RefractiveIndexInfo") = .ok (R ++ riiFolder) ∧
      d' (R ++ riiFolder) = some .dir ∧
      m.find d' (joinPath (joinPath root "RefractiveIndexInfo") "database")
        = .ok (R ++ riiDatabase) ∧
      (∀ x, ¬ x = R ++ riiFolder → d' x = d x) := by
  subst hd'
  have hk : ∀ x, d x = some .dir → (d.put (R ++ riiFolder) .dir) x = some .dir :=
    put_keeps (.inr rfl)
  have h1 := find_join (find_mono hk h.found) (hk _ h.dir) fileName_rii
  have h2 := find_join h1 put_self fileName_database
  refine ⟨?_, h1, put_self, ?_, fun x hx => put_ne hx⟩
  · rcases h.folder with e | e
    · exact h.tree.put_dir h.dir e
    · have : d.put (R ++ riiFolder) .dir = d := by
        funext x
        unfold Disk.put
        split
        · rename_i e'; rw [e', e]
        · rfl
      rw [this]
      exact h.tree
  · rw [h2]
    simp [riiDatabase]

/-- C153, what the script looks for: without download the module is switched on exactly if the file
`library.yml` is there, and nothing but the folder of the module is made. -/
theorem C153_looked (h : RootThere m d root R) (tools : Tools F) (ls : List String) :
    ∃ b, setupModuleD m tools root "RefractiveIndexInfo" (d, "y" :: "n" :: ls)
      = (.ok b, (d.put (R ++ riiFolder) .dir, ls)) ∧
      (b = true ↔ FileAt d (R ++ inDatabase "library.yml")) := by
  obtain ⟨ht, h1, h2, h3, h4⟩ := root_folder h rfl
  refine ⟨riiThere m (joinPath root "RefractiveIndexInfo") (d.put (R ++ riiFolder) .dir), ?_, ?_⟩
  · have hf := find_join h.found h.dir fileName_rii
    unfold setupModuleD
    rw [script_bind]
    have hw : wantedD "RefractiveIndexInfo" (d, "y" :: "n" :: ls) = (.ok true, (d, "n" :: ls)) := by
      unfold wantedD; rw [if_neg (by decide), confirm_yes]
    rw [hw]
    simp only [if_true]
    rw [script_bind, folder_at hf h.folder h.allowed]
    simp only
    have hi : installModuleD m tools "RefractiveIndexInfo" (joinPath root "RefractiveIndexInfo")
        = installRiiD m tools (joinPath root "RefractiveIndexInfo") := by
      unfold installModuleD; simp
    rw [hi]
    unfold installRiiD
    rw [script_bind, confirm_no]
    rfl
  · generalize hg : d.put (R ++ riiFolder) .dir = d' at *
    have hlib : d' (R ++ inDatabase "library.yml") = d (R ++ inDatabase "library.yml") :=
      h4 _ (by simp [inDatabase, riiFolder])
    have hdir : m.isDir d' (joinPath root "RefractiveIndexInfo") = true := by
      unfold Machine.isDir Machine.look
      rw [h1]
      simp [h2]
    unfold riiThere FileAt
    rw [hdir, ← hlib]
    have hloc : R ++ inDatabase "library.yml" = R ++ riiDatabase ++ ["library.yml".toList] := by
      simp [inDatabase, riiDatabase]
    rcases find_join_cases h3 fileName_library with ⟨e1, e2⟩ | ⟨⟨t, e1⟩, e2⟩ | ⟨e1, e2⟩
    · have : m.isDir d' (joinPath (joinPath root "RefractiveIndexInfo") "database") = true := by
        unfold Machine.isDir Machine.look
        rw [h3]
        simp [e1]
      rw [this]
      unfold Machine.isFile Machine.look
      rw [e2, hloc]
      simp only [Bool.and_self, Bool.true_and]
      cases hn : d' (R ++ riiDatabase ++ ["library.yml".toList]) with
      | none => simp
      | some n => cases n <;> simp
    · have : d' (R ++ inDatabase "library.yml") = none := by
        by_contra hne
        rw [hloc] at hne
        have := ht.2 _ _ hne
        rw [e1] at this
        cases this
      rw [this]
      unfold Machine.isFile Machine.look
      rw [e2]
      simp
    · have : d' (R ++ inDatabase "library.yml") = none := by
        by_contra hne
        rw [hloc] at hne
        have := ht.2 _ _ hne
        rw [e1] at this
        cases this
      rw [this]
      unfold Machine.isFile Machine.look
      rw [e2]
      simp

/-- Reading a file of the database. -/
theorem database_read (h : RootThere m d root R) (c : Contents F) {name : String}
    (hn : FileName name.toList) {d' : Disk} (hd' : d' = d.put (R ++ riiFolder) .dir) :
    (∀ t, d (R ++ inDatabase name) = some (.file t) → m.readable (R ++ inDatabase name) = true →
      (m.fileSys c d').library
        (joinPath (joinPath (joinPath root "RefractiveIndexInfo") "database") name)
        = c.library t) ∧
    (¬ FileAt d (R ++ inDatabase name) → ∃ e, (m.fileSys c d').library
        (joinPath (joinPath (joinPath root "RefractiveIndexInfo") "database") name) = .error e ∧
      (e = .os ∨ e = .fileNotFound)) ∧
    (d (R ++ inDatabase name) = none → d (R ++ riiDatabase) = some .dir →
      (m.fileSys c d').library
        (joinPath (joinPath (joinPath root "RefractiveIndexInfo") "database") name)
        = .error .fileNotFound) := by
  obtain ⟨ht, h1, h2, h3, h4⟩ := root_folder h hd'
  have hloc : R ++ inDatabase name = R ++ riiDatabase ++ [name.toList] := by
    simp [inDatabase, riiDatabase]
  have hx : d' (R ++ inDatabase name) = d (R ++ inDatabase name) :=
    h4 _ (by simp [inDatabase, riiFolder])
  have hy : d' (R ++ riiDatabase) = d (R ++ riiDatabase) :=
    h4 _ (by simp [riiDatabase, riiFolder])
  have hup : d (R ++ inDatabase name) ≠ none → d' (R ++ riiDatabase) = some .dir := by
    intro hne
    rw [← hx, hloc] at hne
    exact ht.2 _ _ hne
  unfold Machine.fileSys Machine.readWith
  simp only
  refine ⟨fun t hf hr => ?_, fun hf => ?_, fun hf hdb => ?_⟩
  · rw [find_join h3 (hup (by rw [hf]; simp)) hn]
    simp only
    rw [← hloc, hx, hf]
    simp [hr]
  · rcases find_join_cases h3 hn with ⟨e1, e2⟩ | ⟨-, e2⟩ | ⟨-, e2⟩
    · rw [e2]
      simp only
      rw [← hloc, hx]
      cases hc : d (R ++ inDatabase name) with
      | none => exact ⟨_, rfl, .inr rfl⟩
      | some n =>
        cases n with
        | dir => exact ⟨_, rfl, .inl rfl⟩
        | file t => exact absurd ⟨t, hc⟩ hf
    · rw [e2]; exact ⟨_, rfl, .inl rfl⟩
    · rw [e2]; exact ⟨_, rfl, .inr rfl⟩
  · rw [find_join h3 (hy.trans hdb) hn]
    simp only
    rw [← hloc, hx, hf]

/-- C153, the newer databases: if the library file is called `catalog-nk.yml` and there is no
`library.yml`, the script switches the module off, although the catalogue reads the library. -/
theorem C153_newer (h : RootThere m d root R) (tools : Tools F) (ls : List String)
    (c : Contents F) {t : List Char} (hc : d (R ++ inDatabase "catalog-nk.yml") = some (.file t))
    (hr : m.readable (R ++ inDatabase "catalog-nk.yml") = true) {shelves : List Shelf}
    (hs : c.library t = .ok shelves) (hl : ¬ FileAt d (R ++ inDatabase "library.yml")) :
    ∃ d', setupModuleD m tools root "RefractiveIndexInfo" (d, "y" :: "n" :: ls)
      = (.ok false, (d', ls)) ∧
      readLibrary (m.fileSys c d') (joinPath root "RefractiveIndexInfo") = .ok shelves := by
  obtain ⟨b, h1, h2⟩ := C153_looked h tools ls
  have hb : b = false := by
    cases b with
    | false => rfl
    | true => exact absurd (h2.1 rfl) hl
  subst hb
  refine ⟨_, h1, ?_⟩
  unfold readLibrary
  rw [(database_read h c fileName_catalog rfl).1 t hc hr, hs]

/-- C153, the part that holds: where no file or folder is called `catalog-nk.yml`, the script and the
catalogue look for the same file. If the module is switched on, the catalogue takes what the file
`library.yml` holds; if it is switched off, the reading of the module would raise OSError. -/
theorem C153_older_partial (h : RootThere m d root R) (tools : Tools F) (ls : List String)
    (c : Contents F) (hc : d (R ++ inDatabase "catalog-nk.yml") = none)
    (hr : m.readable (R ++ inDatabase "library.yml") = true) :
    ∃ b d', setupModuleD m tools root "RefractiveIndexInfo" (d, "y" :: "n" :: ls)
      = (.ok b, (d', ls)) ∧
      (b = true → ∃ t, d (R ++ inDatabase "library.yml") = some (.file t) ∧
        readLibrary (m.fileSys c d') (joinPath root "RefractiveIndexInfo") = c.library t) ∧
      (b = false → ∀ ref : Spectrum F, ∃ e, (e = .os ∨ e = .fileNotFound) ∧
        readModule (m.fileSys c d') ref root "RefractiveIndexInfo" = .error e) := by
  obtain ⟨b, h1, h2⟩ := C153_looked h tools ls
  refine ⟨b, _, h1, fun hb => ?_, fun hb ref => ?_⟩
  · obtain ⟨t, ht⟩ := h2.1 hb
    refine ⟨t, ht, ?_⟩
    have hdb : d (R ++ riiDatabase) = some .dir := by
      apply h.tree.2 (R ++ riiDatabase) "library.yml".toList
      have : R ++ riiDatabase ++ ["library.yml".toList] = R ++ inDatabase "library.yml" := by
        simp [inDatabase, riiDatabase]
      rw [this, ht]
      simp
    unfold readLibrary
    rw [(database_read h c fileName_catalog rfl).2.2 hc hdb]
    exact (database_read h c fileName_library rfl).1 t ht hr
  · have hl : ¬ FileAt d (R ++ inDatabase "library.yml") := fun hl => by
      rw [h2.2 hl] at hb; cases hb
    obtain ⟨e, a1, a2⟩ := (database_read h c fileName_catalog rfl).2.1
      (by rintro ⟨t, ht⟩; rw [hc] at ht; cases ht)
    obtain ⟨e', b1, b2⟩ := (database_read h c fileName_library rfl).2.1 hl
    have key : ∃ e, (e = .os ∨ e = .fileNotFound) ∧
        readLibrary (m.fileSys c (d.put (R ++ riiFolder) .dir))
          (joinPath root "RefractiveIndexInfo") = .error e := by
      unfold readLibrary
      rw [a1]
      rcases a2 with rfl | rfl
      · exact ⟨_, .inl rfl, rfl⟩
      · exact ⟨e', b2, b1⟩
    obtain ⟨e, he, hk⟩ := key
    refine ⟨e, he, ?_⟩
    simp [readModule, readRii, hk, bind, Except.bind]

/-- C153, the other way round: the script does not look for the data. With a library that has pages
but without the folders `data` and `data-nk` the module is switched on, and the building of the
catalogue raises ValueError. -/
theorem C153_data (h : RootThere m d root R) (tools : Tools F) (ls : List String)
    (c : Contents F) (hc : d (R ++ inDatabase "catalog-nk.yml") = none)
    (hr : m.readable (R ++ inDatabase "library.yml") = true) {t : List Char}
    (hl : d (R ++ inDatabase "library.yml") = some (.file t)) {shelves : List Shelf}
    (hs : c.library t = .ok shelves) (hp : pagesOf shelves ≠ [])
    (h1 : d (R ++ inDatabase "data") ≠ some .dir) (h2 : d (R ++ inDatabase "data-nk") ≠ some .dir) :
    ∃ d', setupModuleD m tools root "RefractiveIndexInfo" (d, "y" :: "n" :: ls)
      = (.ok true, (d', ls)) ∧ ∀ (ref : Spectrum F) (old : Frame F) (post : List (String × Bool)),
      buildCatalogue (m.fileSys c d') ref root (("RefractiveIndexInfo", true) :: post) old
        (.text "All") = .error .value := by
  obtain ⟨b, d', e1, e2, e3⟩ := C153_older_partial h tools ls c hc hr
  obtain ⟨b', f1, f2⟩ := C153_looked h tools ls
  rw [f1] at e1
  cases e1
  have hb := f2.2 ⟨t, hl⟩
  subst hb
  obtain ⟨t', g1, g2⟩ := e2 rfl
  rw [hl] at g1
  cases g1
  rw [hs] at g2
  refine ⟨_, f1, fun ref old post => ?_⟩
  have hno : ∀ name : String, FileName name.toList → d (R ++ inDatabase name) ≠ some .dir →
      (m.fileSys c (d.put (R ++ riiFolder) .dir)).isdir
        (joinPath (joinPath (joinPath root "RefractiveIndexInfo") "database") name) = false := by
    intro name hn hd
    obtain ⟨-, -, -, r3, r4⟩ := root_folder h rfl
    have hloc : R ++ inDatabase name = R ++ riiDatabase ++ [name.toList] := by
      simp [inDatabase, riiDatabase]
    have hx := r4 (R ++ inDatabase name) (by simp [inDatabase, riiFolder])
    show m.isDir _ _ = false
    unfold Machine.isDir Machine.look
    rcases find_join_cases r3 hn with ⟨-, q2⟩ | ⟨-, q2⟩ | ⟨-, q2⟩
    · rw [q2]
      rw [decide_eq_false_iff_not]
      simp only
      rw [← hloc, hx]
      exact hd
    · rw [q2]; simp
    · rw [q2]; simp
  have hw : Wanted (.text "All") "RefractiveIndexInfo" := .inl rfl
  have hpre : buildCatalogue (m.fileSys c (d.put (R ++ riiFolder) .dir)) ref root [] old
      (.text "All") = .ok [] := rfl
  exact C149_problem (post := post) hpre hw
    (Problem.data g2 hp (hno _ fileName_data h1) (hno _ fileName_dataNk h2))

/-- C153, the full statement: without download the module is switched on exactly if the catalogue can
read it. -/
def C153_statement (ref : Spectrum F) : Prop :=
  ∀ (m : Machine) (d : Disk) (root : String) (R : Loc), RootThere m d root R →
    (∀ l, m.readable l = true) →
    ∀ (tools : Tools F) (ls : List String) (c : Contents F) (b : Bool) (s : Disk × List String),
    setupModuleD m tools root "RefractiveIndexInfo" (d, "y" :: "n" :: ls) = (.ok b, s) →
    (b = true ↔ ∃ rows, readModule (m.fileSys c s.1) ref root "RefractiveIndexInfo" = .ok rows)

end

/-! ## Cases -/

/-- The disk of the demonstration with a database whose library has the given name. -/
def demoDatabase (name : String) : Disk :=
  ((demoDisk.put ["data".toList, "RefractiveIndexInfo".toList] .dir).put
    ["data".toList, "RefractiveIndexInfo".toList, "database".toList] .dir).put
    ["data".toList, "RefractiveIndexInfo".toList, "database".toList, name.toList] (.file [])

theorem demo_database (name : String) (hn : name = "library.yml" ∨ name = "catalog-nk.yml") :
    RootThere demoMachine (demoDatabase name) "/data" ["data".toList] := by
  have t1 : DiskTree (demoDisk.put ["data".toList, "RefractiveIndexInfo".toList] .dir) :=
    demo_workable.tree.put_dir (l := ["data".toList]) (by decide) (by decide)
  have t2 := t1.put_dir (l := ["data".toList, "RefractiveIndexInfo".toList])
    (c := "database".toList) (by decide) (by decide)
  have t3 := t2.put (l := ["data".toList, "RefractiveIndexInfo".toList, "database".toList,
    name.toList]) (n := .file []) (.inl (by rcases hn with rfl | rfl <;> decide)) (by simp)
    (by rcases hn with rfl | rfl <;> decide)
  refine ⟨t3, ?_, ?_, .inr ?_, rfl⟩ <;> rcases hn with rfl | rfl <;> decide

/-- C153 is false of the code. -/
theorem C153_refuted (ref : Spectrum F) : ¬ C153_statement ref := by
  intro h
  have hd := demo_database "catalog-nk.yml" (.inr rfl)
  obtain ⟨d', h1, h2⟩ := C153_newer (F := F) hd ⟨fun _ => [], fun _ d => (.ok (), d),
    fun _ _ => .error .os⟩ [] ⟨fun _ => [], fun _ _ => .error .value, fun _ => .ok [⟨[]⟩]⟩
    (t := []) (by decide) rfl rfl (by
      rintro ⟨t, ht⟩
      rw [show demoDatabase "catalog-nk.yml" (["data".toList] ++ inDatabase "library.yml") = none by
        decide] at ht
      cases ht)
  have := (h _ _ _ _ hd (fun _ => rfl) _ _ ⟨fun _ => [], fun _ _ => .error .value,
    fun _ => .ok [⟨[]⟩]⟩ _ _ h1).2 ⟨[], by
      simp only [readModule, readRii, h2, if_true, bind, Except.bind]
      rfl⟩
  cases this

/-- Beside `C153_looked` and `C153_data`: a database with a page and without data. -/
example (tools : Tools F) (ref : Spectrum F) : ∃ d',
    setupModuleD demoMachine tools "/data" "RefractiveIndexInfo"
      (demoDatabase "library.yml", ["y", "n"]) = (.ok true, (d', [])) ∧
    buildCatalogue (demoMachine.fileSys ⟨fun _ => [], fun _ _ => .error .value,
      fun _ => .ok [⟨[.book "Ag" "Silver" [.page "Johnson" "main/Ag/Johnson.yml"]]⟩]⟩ d') ref "/data"
      [("RefractiveIndexInfo", true)] [] (.text "All") = .error .value := by
  obtain ⟨d', h1, h2⟩ := C153_data (F := F) (demo_database "library.yml" (.inl rfl)) tools []
    ⟨fun _ => [], fun _ _ => .error .value,
      fun _ => .ok [⟨[.book "Ag" "Silver" [.page "Johnson" "main/Ag/Johnson.yml"]]⟩]⟩
    (by decide) rfl (t := []) (by decide) rfl (by simp [pagesOf, pagesOfBook, pageOf])
    (by decide) (by decide)
  exact ⟨d', h1, h2 ref [] []⟩

end Disp

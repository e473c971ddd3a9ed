import Verif.Props.Sessions
import Verif.Props.SetupScript
import Verif.Props.CatalogueTables
import Verif.Props.CatalogueCorrected
import Verif.Props.Plots
import Verif.Props.MaterialEquality

/-!
# From the setup script to a material (C102)

The setup script, the configuration, building the catalogue, aliases, saving and opening again, and
loading a material, as one theorem.
-/

namespace Disp

open Spec

/-- All texts of a row survive in a file. -/
structure Spec.Texts [CsvIO XR] (r : Row XR) : Prop where
  name : TextCell (CsvIO.quotesCr XR) r.name
  fullName : TextCell (CsvIO.quotesCr XR) r.fullName
  author : TextCell (CsvIO.quotesCr XR) r.author
  comment : TextCell (CsvIO.quotesCr XR) r.comment
  reference : TextCell (CsvIO.quotesCr XR) r.reference
  stype : TextCell (CsvIO.quotesCr XR) r.stype
  unit : TextCell (CsvIO.quotesCr XR) r.unit
  path : TextCell (CsvIO.quotesCr XR) r.path
  modl : TextCell (CsvIO.quotesCr XR) r.modl

/-- The disk after the setup script. -/
def Spec.afterSetup (sys : CfgSys XR) (r : SetupResult XR) : CfgSys XR :=
  (after sys r.made).write r.file r.config

variable [SciPy XR] [NumText XR] [CsvIO XR]

/-- The calls `register_alias(number, alias)` of a user. -/
def Spec.aliasCalls (cs : List (Nat × String)) : List (CatCall XR) :=
  cs.map (fun c => .registerAlias (.int c.1) c.2)

theorem after_registers (rd : String → Res (FileDict XR)) (base : String) (s : CatState XR)
    (cs : List (Nat × String)) : (s.after rd base (aliasCalls cs)).db =
      afterCalls s.db (cs.map (fun c => (.int c.1, c.2))) := by
  induction cs generalizing s with
  | nil => rfl
  | cons c cs ih =>
    show ((s.step rd base (.registerAlias (.int c.1) c.2)).2.after rd base (aliasCalls cs)).db = _
    rw [ih, List.map_cons, afterCalls, afterCalls, List.foldl_cons]
    congr 1
    simp only [CatState.step, afterCall]
    split <;> rename_i h <;> simp [h]

omit [SciPy XR] [NumText XR] [CsvIO XR] in
/-- The entries of a configuration that the setup script writes. -/
theorem setupConfig_entries (path name : String) (rii : Bool) :
    CatConfig.ofYaml (setupConfig (F := XR) path name
      [("UserData", true), ("RefractiveIndexInfo", rii)]) =
      .ok { path := path, file := name, modules := [("UserData", true), ("RefractiveIndexInfo", rii)],
            value := PyFloat.lit (6328 / 10), stype := "wavelength", unit := "nanometer" } := rfl

/-- The row of a table with one alias more. -/
theorem storable_alias {r : Row XR} (h : Texts r) {ref : Spectrum XR} {t u : String} {x : XR}
    (hs : Spectrum.new (.float x) t u = .ok ref) (hval : ∃ y, ref.values = .scalar y) {fs : FileSys XR} {l : ℝ}
    (hr : TellsOfFile fs ref l r) {a : String} (ha : CsvSafe (CsvIO.quotesCr XR) a.toList) :
    Spec.Storable { r with al := .str a } := by
  obtain ⟨uu, c, file, fd, lo, hi, m, -, -, -, -, -, hlo, hhi, hin, hout⟩ := hr
  have hnum : NumCell r.nRef ∧ NumCell r.kRef := by
    by_cases hx : lo ≤ shown "wavelength" c l ∧ shown "wavelength" c l ≤ hi
    · obtain ⟨v, hv, e⟩ := hin hx
      have hf := plotData_form m .nk (raw := .float x) trivial hs hv
      obtain ⟨y, hy⟩ := hval
      rw [hy] at hf
      generalize r.nRef = n, r.kRef = k at e
      cases e with
      | list => exact hf.elim
      | number => exact ⟨⟨_, rfl⟩, ⟨_, rfl⟩⟩
    · obtain ⟨e1, e2⟩ := hout hx
      exact ⟨⟨_, e1⟩, ⟨_, e2⟩⟩
  exact { al := ⟨a, rfl, ha⟩, name := h.name, fullName := h.fullName, author := h.author,
          comment := h.comment, reference := h.reference, stype := h.stype, unit := h.unit,
          lower := by show PyFloat.isNaN r.lower = false; rw [hlo]; rfl,
          upper := by show PyFloat.isNaN r.upper = false; rw [hhi]; rfl,
          nRef := hnum.1, kRef := hnum.2, path := h.path, modl := h.modl }

omit [CsvIO XR] in
/-- The rows of a catalogue that was built from scratch have no alias. -/
theorem built_alias {fs : FileSys XR} {ref : Spectrum XR} {base : String}
    {ms : List (String × Bool)} (hm : GoodModules ms) {old g : Frame XR}
    (h : buildCatalogue fs ref base ms old (.text "All") = .ok g) :
    (∃ rows, g = numbered rows) ∧ ∀ p ∈ g, p.2.al = .str "" := by
  have hr : Proper (.text "All") := .inl rfl
  obtain ⟨parts, rfl, h1, -⟩ := build_parts hm hr h
  refine ⟨⟨_, rfl⟩, fun p hp => ?_⟩
  have hpm : p.2 ∈ parts.flatten := by
    have := List.mem_map_of_mem (f := Prod.snd) hp
    rwa [numbered_rows] at this
  obtain ⟨part, hpart, hr'⟩ := List.mem_flatten.1 hpm
  clear h hp hpm
  have hmem := hm.2
  clear hm
  induction h1 with
  | nil => cases hpart
  | @cons q rows ms parts k1 k2 ih =>
    rcases List.mem_cons.1 hpart with rfl | hpart
    · rw [buildModule_eq hr (hmem q (List.mem_cons_self ..))] at k1
      split at k1
      · rw [if_pos (.inl rfl)] at k1
        exact (readModule_cells k1 _ hr').1
      · split at k1
        · cases k1
        · cases k1; cases hr'
    · exact ih hpart (fun q hq => hmem q (List.mem_cons_of_mem _ hq))

omit [SciPy XR] [NumText XR] [CsvIO XR] in
theorem withAliases_self (rows : List (Row XR)) (h : ∀ r ∈ rows, r.al = .str "") :
    withAliases rows (List.replicate rows.length "") = rows := by
  induction rows with
  | nil => rfl
  | cons r rows ih =>
    have h1 := h r List.mem_cons_self
    have h2 := ih (fun r' hr' => h r' (List.mem_cons_of_mem _ hr'))
    simp only [withAliases, List.length_cons, List.replicate_succ, List.zipWith_cons_cons,
      List.cons.injEq] at h2 ⊢
    refine ⟨?_, h2⟩
    rw [← h1]

omit [SciPy XR] [NumText XR] [CsvIO XR] in
theorem assignAll_mem (as : List String) (cs : List (Nat × String)) {a : String}
    (h : a ∈ assignAll as cs) : a ∈ as ∨ ∃ c ∈ cs, c.2 = a := by
  induction cs generalizing as with
  | nil => exact .inl h
  | cons c cs ih =>
    rcases ih (assign as c) h with h1 | ⟨c', h1, h2⟩
    · unfold assign at h1
      split at h1
      · exact .inl h1
      · rcases List.mem_or_eq_of_mem_set h1 with h1 | rfl
        · exact .inl h1
        · exact .inr ⟨c, List.mem_cons_self, rfl⟩
    · exact .inr ⟨c', List.mem_cons_of_mem _ h1, h2⟩

/-- C102: after the setup script, `get_config` returns the configuration that it wrote. If the data
files hold tables without units, `Catalogue(rebuild='All')` builds a catalogue, whose rows tell of
the files. After any calls of `register_alias` for its rows, `save_to_file` and opening the
catalogue again (unless a text contains what csv files cannot hold), every row number loads the
material of its file, with the bounds and the reference index that the row tells, and every alias
loads the material of the row that it was given to. -/
theorem C102_use [CsvLaws XR] {sys : CfgSys XR} {ins : Installer} {inputs : List String} {h : String}
    (hu : HasUserDir sys [] h) (hos : DirLaw sys h) {r : SetupResult XR}
    (hr : setupMain sys ins inputs = .ok r) :
    ∃ path name rii,
      r.config = setupConfig path name [("UserData", true), ("RefractiveIndexInfo", rii)] ∧
      (getConfig (afterSetup sys r) r.made).1 = .ok r.config ∧
      ∀ (fs : FileSys XR) (csv : String → Option (List Char)),
      (∀ p, fs.read (normPath p) = fs.read p) → PlainNames fs →
      TableFolder fs (joinPath path "UserData") →
      (rii = true → TableLibrary fs (joinPath path "RefractiveIndexInfo")) →
      ∃ ref g, Spectrum.new (.float (XR.fin 632.8)) "wavelength" "nanometer" = .ok ref ∧
        newCatalogue (afterSetup sys r) fs csv r.config (.text "All") = some (.ok g) ∧
        (∀ p ∈ g, TellsOfFile fs ref (632.8 * (1 / 10 ^ 9)) p.2) ∧
        ((∀ p ∈ g, Texts p.2) → ∀ cs : List (Nat × String),
          (∀ c ∈ cs, c.1 < g.length ∧ CsvSafe (CsvIO.quotesCr XR) c.2.toList) →
          ∀ csv' : String → Option (List Char), csv' (joinPath path name) =
            (CatState.after fs.read path ⟨false, g, none, csv (joinPath path name)⟩
              (aliasCalls cs ++ [.saveToFile])).file →
          ∃ g', newCatalogue (afterSetup sys r) fs csv' r.config (.text "None") = some (.ok g') ∧
            g'.length = g.length ∧
            ∀ (n : Nat) l row, g[n]? = some (l, row) → ∃ m,
              getMaterial fs.read path g' (.int n) = .ok m ∧ BoundsOf m row ∧ RefOf m ref row ∧
              ∀ a, a ≠ "" → (assignAll (List.replicate g.length "") cs)[n]? = some a →
                getMaterial fs.read path g' (.str a) = .ok m) := by
  obtain ⟨hfile, hvalid, path, name, rii, hcfg, -, -, -, -, -⟩ := C76_setup hu hos hr
  refine ⟨path, name, rii, hcfg, ?_, ?_⟩
  · have hu' : HasUserDir (after sys r.made) r.made h :=
      ⟨hu.home, hu.plain, hu.package, hu.dir.imp_right (fun h => .inr (h.resolve_left (by simp)))⟩
    obtain ⟨sys', e1, e2⟩ := C74_user hu' r.config
    have e3 : sys' = afterSetup sys r := by
      have := congrArg Prod.fst e1
      simp only [writeConfig, userFile_join] at this
      rw [afterSetup, hfile]
      exact (Except.ok.inj this).symm
    rw [← e3]
    exact e2
  intro fs csv hnorm hplain hfold hlib
  have hv : validateConfig (afterSetup sys r) r.config = .ok () := hvalid
  have hcc : CatConfig.ofYaml r.config = .ok { path := path, file := name, modules := [("UserData", true), ("RefractiveIndexInfo", rii)], value := PyFloat.lit (6328 / 10), stype := "wavelength", unit := "nanometer" } := by
    rw [hcfg]; exact setupConfig_entries path name rii
  have hlit : (PyFloat.lit (6328 / 10) : XR) = XR.fin 632.8 := by show XR.fin _ = _; norm_num
  have hnames : (lower "wavelength", lower "nanometer", "nm") ∈ names := by decide +kernel
  have href := new_scalar (F := XR) (t := "wavelength") (u := "nanometer") (c := "nm") hnames
    (XR.fin 632.8)
  obtain ⟨ref, hrefv, hscalar⟩ : ∃ ref : Spectrum XR,
      Spectrum.new (.float (XR.fin 632.8)) "wavelength" "nanometer" = .ok ref ∧
      ∃ y, ref.values = .scalar y := ⟨_, href, _, rfl⟩
  clear href
  have hm : GoodModules [("UserData", true), ("RefractiveIndexInfo", rii)] := by
    refine ⟨by simp, ?_⟩
    intro p hp
    simp only [List.mem_cons, List.not_mem_nil, or_false] at hp
    rcases hp with rfl | rfl <;> simp [moduleNames]
  obtain ⟨g, hg, htells⟩ := C87_catalogue (fs := fs) (ref := ref) (base := path) hm [] hnames
    (x := 632.8) (by norm_num) hrefv (by
      intro modl hmem hne
      simp only [List.mem_cons, List.not_mem_nil, or_false, Prod.mk.injEq] at hmem
      rcases hmem with ⟨rfl, -⟩ | ⟨rfl, -⟩
      · exact hfold
      · exact absurd rfl hne) (by
      intro hmem
      simp only [List.mem_cons, List.not_mem_nil, or_false, Prod.mk.injEq, String.reduceEq, false_and,
        false_or, true_and] at hmem
      exact hlib hmem.symm)
  have hl0 : metres (lower "wavelength") "nm" 632.8 = 632.8 * (1 / 10 ^ 9) := by
    have : lower "wavelength" = "wavelength" := by decide +kernel
    rw [this]
    simp only [metres, lengthUnit, String.reduceEq, if_true, if_false]
  rw [hl0] at htells
  refine ⟨ref, g, hrefv, ?_, htells, ?_⟩
  · unfold newCatalogue
    simp only [hv, hcc, hlit, hrefv, bind, Except.bind]
    simp [startCatalogue, hg, bind, Except.bind]
  intro htext cs hcs csv' hcsv'
  -- the rows, all without alias
  obtain ⟨⟨rows, hrows⟩, hal⟩ := built_alias hm hg
  have hlen : g.length = rows.length := by rw [hrows]; simp [numbered]
  have hmemg : ∀ r ∈ rows, ∃ p ∈ g, p.2 = r := by
    intro r' hr'
    rw [← numbered_rows rows, ← hrows] at hr'
    obtain ⟨p, hp, e⟩ := List.mem_map.1 hr'
    exact ⟨p, hp, e⟩
  have hself : withAliases rows (List.replicate rows.length "") = rows :=
    withAliases_self rows (fun r' hr' => by
      obtain ⟨p, hp, rfl⟩ := hmemg r' hr'
      exact hal p hp)
  obtain ⟨bs, hbl, hbs, hcalls, -, hload, -⟩ := C77_aliases fs.read path rows
    (as := List.replicate rows.length "") (by simp) (by
      intro i j a ha hi _
      have := List.mem_of_getElem? hi
      exact absurd (List.eq_of_mem_replicate this) ha) cs
    (fun c hc => by rw [← hlen]; exact (hcs c hc).1)
  rw [hself, ← hrows] at hcalls
  have hdb : (CatState.after fs.read path ⟨false, g, none, csv (joinPath path name)⟩
      (aliasCalls cs)).db = numbered (withAliases rows bs) := by
    rw [after_registers]; exact hcalls
  -- aliases that were given
  have hsafe : ∀ a ∈ bs, CsvSafe (CsvIO.quotesCr XR) a.toList := by
    intro a ha
    rw [hbs] at ha
    rcases assignAll_mem _ cs ha with h1 | ⟨c, h1, rfl⟩
    · rw [List.eq_of_mem_replicate h1]
      simp [CsvSafe, CrSafe]
    · exact (hcs c h1).2
  have hstore : ∀ p ∈ (CatState.after fs.read path ⟨false, g, none, csv (joinPath path name)⟩
      (aliasCalls cs)).db, Spec.Storable p.2 := by
    intro p hp
    rw [hdb] at hp
    have hp2 := List.mem_map_of_mem (f := Prod.snd) hp
    rw [numbered_rows] at hp2
    obtain ⟨i, hi⟩ := List.getElem?_of_mem hp2
    rw [withAliases_get rows hbl] at hi
    cases hri : rows[i]? with
    | none => rw [hri] at hi; cases hi
    | some r' =>
      cases hbi : bs[i]? with
      | none => rw [hri, hbi] at hi; cases hi
      | some a =>
        rw [hri, hbi] at hi
        have e : p.2 = { r' with al := .str a } := (Option.some.inj hi).symm
        obtain ⟨q, hq, rfl⟩ := hmemg r' (List.mem_of_getElem? hri)
        rw [e]
        exact storable_alias (htext q hq) hrefv hscalar (htells q hq) (hsafe a (List.mem_of_getElem? hbi))
  obtain ⟨g', e1, e2, e3, -, e5, e6⟩ := C97_reopened fs.read path
    ⟨false, g, none, csv (joinPath path name)⟩ (aliasCalls cs) [] (by simp) hstore (afterSetup sys r) fs
    csv' r.config _ ref hv hcc (by simp only; rw [hlit]; exact hrefv) hcsv'
  rw [hdb] at e3 e6
  refine ⟨g', e1, ?_, ?_⟩
  · have := e3.length_eq
    simp only [List.length_map, numbered_rows] at this
    rw [hlen]
    simpa [withAliases, hbl] using this.symm
  intro n l row hn
  obtain ⟨m, m1, m2, m3⟩ := C71_loads hnorm hplain (old := []) (by simp) hg n hn
  have hnr : rows[n]? = some row := by
    rw [hrows, numbered_get] at hn
    cases hx : rows[n]? with
    | none => rw [hx] at hn; cases hn
    | some y => rw [hx] at hn; cases hn; rfl
  have hnl : n < rows.length := (List.getElem?_eq_some_iff.1 hnr).1
  have hrow : rows[n] = row := (List.getElem?_eq_some_iff.1 hnr).2
  have hl : loadRow fs.read path row = .ok m := by
    rw [← m1]
    have : getMaterial fs.read path g (.int n) = loadRow fs.read path row := by
      unfold getMaterial findRow iloc
      simp only [Int.natCast_nonneg, if_true, Int.toNat_natCast, hn, bind, Except.bind]
    rw [this]
  have hb2 := numbered_byPosition (withAliases rows bs)
  refine ⟨m, ?_, m2, m3, ?_⟩
  · have hbn : n < bs.length := by rw [hbl]; exact hnl
    have hg2 : (CatState.after fs.read path ⟨false, g, none, csv (joinPath path name)⟩
        (aliasCalls cs)).db[n]? = some ((n : Int), { row with al := .str bs[n] }) := by
      rw [hdb, numbered_get, withAliases_get rows hbl, hnr, List.getElem?_eq_getElem hbn]
      rfl
    rw [e5 n _ hg2]
    exact hl
  · intro a ha hna
    rw [hlen, ← hbs] at hna
    rw [e6 hb2, hload a ha n hnl hna, hrow]
    exact hl

/-! ## A use -/

/-- Every folder has the file `a.txt`. -/
noncomputable def useFs : FileSys XR where
  listdir _ := .ok ["a.txt"]
  isfile _ := true
  isdir _ := true
  read _ := .ok nkFile
  library _ := .ok []

omit [SciPy XR] [NumText XR] in
theorem textCell_ok {c : Cell} (h : c = .str "" ∨ c = .str "a" ∨ c = .str "a.txt" ∨ c = .str "wavelength" ∨
    c = .str "nanometer" ∨ c = .str "UserData") : TextCell (CsvIO.quotesCr XR) c := by
  rcases h with rfl | rfl | rfl | rfl | rfl | rfl <;>
    exact ⟨_, rfl, by decide +kernel, fun e => absurd e (by decide +kernel)⟩

omit [CsvIO XR] in
theorem useFs_built {path : String} {rii : Bool} {ref : Spectrum XR} {g : Frame XR}
    (h : buildCatalogue useFs ref path [("UserData", true), ("RefractiveIndexInfo", rii)] []
      (.text "All") = .ok g) :
    ∃ r, textRow useFs ref (joinPath path "UserData") "UserData" "a.txt" = .ok r ∧
      g = numbered [r] := by
  have hm : GoodModules [("UserData", true), ("RefractiveIndexInfo", rii)] := by
    refine ⟨by simp, ?_⟩
    intro p hp
    simp only [List.mem_cons, List.not_mem_nil, or_false] at hp
    rcases hp with rfl | rfl <;> simp [moduleNames]
  have hr : Proper (.text "All") := .inl rfl
  obtain ⟨parts, rfl, h1, -⟩ := build_parts hm hr h
  cases h1 with
  | cons k1 k2 =>
    cases k2 with
    | cons k2 k3 =>
      cases k3
      rw [buildModule_eq hr (hm.2 _ (List.mem_cons_self ..))] at k1
      rw [buildModule_eq hr (hm.2 _ (List.mem_cons_of_mem _ List.mem_cons_self))] at k2
      rw [if_pos rfl, if_pos (.inl rfl), readModule_user (.inl rfl)] at k1
      unfold readTextDb at k1
      rw [show useFs.listdir (joinPath path "UserData") = .ok ["a.txt"] from rfl] at k1
      simp only [bind, Except.bind] at k1
      have hf : ((["a.txt"] : List String).filter (fun f => useFs.isfile (joinPath (joinPath
          path "UserData") f))).filter (fun f => allowedExt.contains (splitExt f).2) = ["a.txt"] := by
        rw [show (["a.txt"] : List String).filter (fun f => useFs.isfile (joinPath (joinPath
          path "UserData") f)) = ["a.txt"] from rfl]
        decide +kernel
      rw [hf] at k1
      have k4 := mapM_forall₂ k1
      cases k4 with
      | cons k4 k5 =>
        cases k5
        refine ⟨_, k4, ?_⟩
        cases rii
        · rw [if_neg (by simp)] at k2
          split at k2
          · cases k2
          · cases k2; rfl
        · rw [if_pos rfl, if_pos (.inl rfl)] at k2
          cases k2
          rfl

theorem useFs_texts {path : String} {ref : Spectrum XR} {r : Row XR}
    (h : textRow useFs ref (joinPath path "UserData") "UserData" "a.txt" = .ok r) : Texts r := by
  obtain ⟨m, hm, -, a1, a2, a3, a4, a5, a6, a7, a8, a9, -, -⟩ := textRow_spec h
  have key : ∀ k ∈ ["FullName", "Author", "Comment", "Reference"], ∀ c, MetaOf m k c → c = .str "" := by
    intro k hk c hc
    obtain ⟨md, v, e1, e2, e4⟩ := hc
    rcases new_meta _ hm with ⟨hn, -⟩ | ⟨p, fd, md', -, hfd, e3, -, e5⟩
    · exact absurd ⟨_, rfl⟩ hn
    · cases (Except.ok.inj hfd)
      rw [e1] at e3
      cases e3
      have := e5 _ _ (dictGet_mem e2)
      simp only [List.mem_cons, List.not_mem_nil, or_false] at hk
      rcases hk with rfl | rfl | rfl | rfl <;> cases this <;> cases e4 <;> rfl
  exact { name := textCell_ok (by
            rw [a1, show (splitExt "a.txt").1 = "a" by decide +kernel]; simp), fullName := textCell_ok (.inl (key _ (by simp) _ a6)),
          author := textCell_ok (.inl (key _ (by simp) _ a7)),
          comment := textCell_ok (.inl (key _ (by simp) _ a8)),
          reference := textCell_ok (.inl (key _ (by simp) _ a9)),
          stype := textCell_ok (by simp [a4]), unit := textCell_ok (by simp [a5]),
          path := textCell_ok (by
            rw [a2, show normPath "a.txt" = "a.txt" by decide +kernel]; simp), modl := textCell_ok (by simp [a3]) }

/-- Concrete case for `C102_use`: the data of the user of `demoSetup`, with an alias. -/
example [CsvLaws XR] : ∃ r path g g' m, setupMain demoSetup demoInstaller demoAnswers = .ok r ∧
    newCatalogue (afterSetup demoSetup r) useFs (fun _ => none) r.config (.text "All") =
      some (.ok g) ∧ g ≠ [] ∧
    newCatalogue (afterSetup demoSetup r) useFs (fun _ => (CatState.after useFs.read path
      ⟨false, g, none, none⟩ (aliasCalls [(0, "gold")] ++ [.saveToFile])).file) r.config (.text "None") =
      some (.ok g') ∧ getMaterial useFs.read path g' (.str "gold") = .ok m := by
  obtain ⟨r, hr⟩ := demoSetup_runs
  have hv := (C76_setup demoSetup_dir demoSetup_law hr).2.1
  obtain ⟨path, name, rii, hc, -, huse⟩ := C102_use demoSetup_dir demoSetup_law hr
  obtain ⟨ref, g, href, hnew, htell, hre⟩ := huse useFs (fun _ => none) (fun _ => rfl)
    ⟨by
      intro _ names hn f hf
      cases hn
      rw [List.mem_singleton.1 hf]
      decide +kernel, by
      intro _ shelves hs q hq
      cases hs
      cases hq⟩
    ⟨_, rfl, fun f _ _ _ => ⟨nkFile, 400, 700, rfl, blank_hasMeta, nkFile_tables⟩⟩
    (fun _ => ⟨rfl, [], rfl, fun q hq => by cases hq⟩)
  have hlit : (PyFloat.lit (6328 / 10) : XR) = XR.fin 632.8 := by show XR.fin _ = _; norm_num
  have hbuild : buildCatalogue useFs ref path [("UserData", true), ("RefractiveIndexInfo", rii)] []
      (.text "All") = .ok g := by
    unfold newCatalogue at hnew
    rw [show validateConfig (afterSetup demoSetup r) r.config = .ok () from hv, hc] at hnew
    simp only [setupConfig_entries, hlit, href, bind, Except.bind] at hnew
    simp [startCatalogue, bind, Except.bind] at hnew
    exact hnew
  obtain ⟨row, hrow, rfl⟩ := useFs_built hbuild
  have htext : ∀ p ∈ numbered [row], Texts p.2 := by
    intro p hp
    rw [show numbered [row] = [(0, row)] from rfl, List.mem_singleton] at hp
    rw [hp]
    exact useFs_texts hrow
  obtain ⟨g', h1, -, h3⟩ := hre htext [(0, "gold")] (by
    intro c hc
    rw [List.mem_singleton.1 hc]
    exact ⟨by simp [numbered], by decide +kernel, fun e => absurd e (by decide +kernel)⟩)
    (fun _ => _) rfl
  obtain ⟨m, -, -, -, h4⟩ := h3 0 0 row rfl
  exact ⟨r, path, _, g', m, hr, hnew, by simp [numbered], h1, h4 "gold" (by decide) rfl⟩

end Disp

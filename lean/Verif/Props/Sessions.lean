import Verif.Model.Session
import Verif.Model.Config
import Verif.Props.CsvReload
import Verif.Props.AliasLookup

/-!
# Histories of calls on a Catalogue (C97-C101)
-/

namespace Disp

open Spec

variable {F : Type} [PyFloat F] [SciPy F] [NumText F] [CsvIO F]

/-! ## What is on the disk -/

theorem after_append (rd : String → Res (FileDict F)) (base : String) (s : CatState F)
    (cs ds : List (CatCall F)) : s.after rd base (cs ++ ds) = (s.after rd base cs).after rd base ds := by
  simp [CatState.after, List.foldl_append]

theorem show_file (s : CatState F) (b : Bool) : (s.show b).2.file = s.file := by
  unfold CatState.show
  split <;> rfl

theorem step_file (rd : String → Res (FileDict F)) (base : String) (s : CatState F) (c : CatCall F)
    (h : c ≠ .saveToFile) : (s.step rd base c).2.file = s.file := by
  cases c with
  | registerAlias id al => simp only [CatState.step]; split <;> rfl
  | getMaterial id => simp only [CatState.step]; split <;> rfl
  | getDatabase => rfl
  | setDatabase f => rfl
  | viewInteractive => exact show_file s false
  | editInteractive => exact show_file s true
  | act a => simp only [CatState.step]; split <;> rfl
  | saveInteractive =>
    simp only [CatState.step]
    split
    · split <;> rfl
    · rfl
  | saveToFile => exact absurd rfl h

/-- C97, first half: without `save_to_file` no history of calls changes the catalogue file. -/
theorem C97_unsaved (rd : String → Res (FileDict F)) (base : String) (s : CatState F)
    (cs : List (CatCall F)) (h : .saveToFile ∉ cs) : (s.after rd base cs).file = s.file := by
  induction cs generalizing s with
  | nil => rfl
  | cons c cs ih =>
    simp only [List.mem_cons, not_or] at h
    show ((s.step rd base c).2.after rd base cs).file = s.file
    rw [ih _ h.2, step_file rd base s c (fun e => h.1 e.symm)]

/-- C97, every history: the file holds the table as it was at the last `save_to_file`. -/
theorem C97_saved (rd : String → Res (FileDict F)) (base : String) (s : CatState F)
    (cs ds : List (CatCall F)) (h : .saveToFile ∉ ds) :
    (s.after rd base (cs ++ .saveToFile :: ds)).file = some (csvText (s.after rd base cs).db) := by
  rw [after_append]
  exact C97_unsaved rd base _ ds h

/-- `Catalogue(rebuild='None')` with a valid configuration reads the catalogue file. -/
theorem open_stored (sys : CfgSys F) (fs : FileSys F) (csv : String → Option (List Char))
    (c : YamlVal F) (cc : CatConfig F) (ref : Spectrum F) (text : List Char)
    (hv : validateConfig sys c = .ok ()) (hc : CatConfig.ofYaml c = .ok cc)
    (hr : Spectrum.new (.float cc.value) cc.stype cc.unit = .ok ref)
    (hf : csv (joinPath cc.path cc.file) = some text) :
    newCatalogue sys fs csv c (.text "None") = loadCsv text := by
  unfold newCatalogue
  simp only [hv, hc, hr, bind, Except.bind, hf]
  rw [if_neg (by decide)]
  cases loadCsv (F := F) text with
  | none => rfl
  | some x =>
    simp only [Option.map_some, startCatalogue, bind, Except.bind]
    rw [if_neg (by decide)]
    cases x <;> simp

omit [SciPy F] [NumText F] [CsvIO F] in
theorem byPosition_get {f : Frame F} (h : ByPosition f) {i : Nat} {p : Int × Row F}
    (hi : f[i]? = some p) : p.1 = i := by
  have h1 : (f.map Prod.fst)[i]? = some p.1 := by rw [List.getElem?_map, hi]; rfl
  have hlt : i < f.length := (List.getElem?_eq_some_iff.1 hi).1
  rw [h, List.getElem?_map, List.getElem?_range hlt] at h1
  simpa using h1.symm

/-- In a table labelled by position, an alias that only one row has loads the material of that
row. -/
theorem byPosition_alias {f : Frame F} (h : ByPosition f) (rd : String → Res (FileDict F))
    (base : String) {a : String} (hu : f.countP (fun p => p.2.al = .str a) ≤ 1) {p : Int × Row F}
    (hp : p ∈ f) (ha : p.2.al = .str a) : getMaterial rd base f (.str a) = loadRow rd base p.2 := by
  have hmem : p ∈ f.filter (fun p => p.2.al = .str a) := by simp [hp, ha]
  have hlen : (f.filter (fun p => p.2.al = .str a)).length ≤ 1 := by
    rw [← List.countP_eq_length_filter]; exact hu
  obtain ⟨q, hq⟩ : ∃ q, f.filter (fun p => p.2.al = .str a) = [q] := by
    generalize f.filter (fun p => p.2.al = .str a) = l at hmem hlen
    match l, hmem, hlen with
    | [q], _, _ => exact ⟨q, rfl⟩
    | [], hm, _ => cases hm
    | _ :: _ :: _, _, hl => simp at hl
  rw [hq, List.mem_singleton] at hmem
  subst hmem
  obtain ⟨i, hi⟩ := List.getElem?_of_mem hp
  have hl := byPosition_get h hi
  unfold getMaterial findRow
  simp only [hq, List.map_cons, List.map_nil, iloc, hl, Int.natCast_nonneg, if_true, Int.toNat_natCast, hi,
    bind, Except.bind]

/-- C97, second half: opening the catalogue after any history shows the rows as they were at the
last `save_to_file`, in their order; every alias that only one row had loads the material of that
row, and a number the row at that position. If the rows were labelled by position, nothing has
changed at all. -/
theorem C97_reopened [CsvLaws F] (rd : String → Res (FileDict F)) (base : String) (s : CatState F)
    (cs ds : List (CatCall F)) (h : .saveToFile ∉ ds)
    (hst : ∀ p ∈ (s.after rd base cs).db, Spec.Storable p.2)
    (sys : CfgSys F) (fs : FileSys F) (csv : String → Option (List Char))
    (c : YamlVal F) (cc : CatConfig F) (ref : Spectrum F)
    (hv : validateConfig sys c = .ok ()) (hc : CatConfig.ofYaml c = .ok cc)
    (hr : Spectrum.new (.float cc.value) cc.stype cc.unit = .ok ref)
    (hf : csv (joinPath cc.path cc.file) = (s.after rd base (cs ++ .saveToFile :: ds)).file) :
    ∃ g : Frame F, newCatalogue sys fs csv c (.text "None") = some (.ok g) ∧ ByPosition g ∧
      List.Forall₂ SameRow ((s.after rd base cs).db.map Prod.snd) (g.map Prod.snd) ∧
      (∀ a, (s.after rd base cs).db.countP (fun p => p.2.al = .str a) ≤ 1 →
        ∀ p ∈ (s.after rd base cs).db, p.2.al = .str a →
          getMaterial rd base g (.str a) = loadRow rd base p.2) ∧
      (∀ (i : Nat) p, (s.after rd base cs).db[i]? = some p →
        getMaterial rd base g (.int i) = loadRow rd base p.2) ∧
      (ByPosition (s.after rd base cs).db → ∀ id,
        getMaterial rd base g id = getMaterial rd base (s.after rd base cs).db id) := by
  rw [C97_saved rd base s cs ds h] at hf
  rw [open_stored sys fs csv c cc ref _ hv hc hr hf]
  generalize (s.after rd base cs).db = f at *
  obtain ⟨g, hg, h1, h2⟩ := C62_roundtrip_partial f hst
  have hlen : g.length = f.length := by
    have := h2.length_eq
    simpa using this.symm
  have hpg : ByPosition g := by rw [ByPosition, h1, hlen]
  have hcount : ∀ a, g.countP (fun p => p.2.al = .str a) = f.countP (fun p => p.2.al = .str a) := by
    intro a
    have key : ∀ (l l' : List (Row F)), List.Forall₂ SameRow l l' →
        l'.countP (fun r => r.al = .str a) = l.countP (fun r => r.al = .str a) := by
      intro l l' hl
      induction hl with
      | nil => rfl
      | cons hpq _ ih => simp only [List.countP_cons, ih, hpq.al]
    have := key _ _ h2
    rw [List.countP_map, List.countP_map] at this
    exact this
  have hget : ∀ (i : Nat) p, f[i]? = some p → ∃ q, g[i]? = some q ∧ SameRow p.2 q.2 := by
    intro i p hi
    have key : ∀ (l l' : List (Row F)), List.Forall₂ SameRow l l' → ∀ (i : Nat) r, l[i]? = some r →
        ∃ r', l'[i]? = some r' ∧ SameRow r r' := by
      intro l l' hl
      induction hl with
      | nil => intro i r hi; simp at hi
      | cons hpq _ ih =>
        intro i r hi
        cases i with
        | zero => simp only [List.getElem?_cons_zero, Option.some.injEq] at hi; subst hi; exact ⟨_, rfl, hpq⟩
        | succ i => simpa using ih i r (by simpa using hi)
    obtain ⟨r', hr', hs⟩ := key _ _ h2 i p.2 (by rw [List.getElem?_map, hi]; rfl)
    rw [List.getElem?_map] at hr'
    cases hq : g[i]? with
    | none => rw [hq] at hr'; cases hr'
    | some q => rw [hq] at hr'; cases hr'; exact ⟨q, rfl, hs⟩
  refine ⟨g, hg, hpg, h2, ?_, ?_, fun hb id =>
    (sameTable_of (h1.trans hb.symm) h2).material rd base id⟩
  · intro a ha p hp hpa
    obtain ⟨i, hi⟩ := List.getElem?_of_mem hp
    obtain ⟨q, hq, hs⟩ := hget i p hi
    rw [byPosition_alias hpg rd base (by rw [hcount]; exact ha) (List.mem_of_getElem? hq)
      (hs.al.trans hpa)]
    exact hs.load rd base
  · intro i p hi
    obtain ⟨q, hq, hs⟩ := hget i p hi
    unfold getMaterial findRow iloc
    simp only [Int.natCast_nonneg, if_true, Int.toNat_natCast, hq, bind, Except.bind]
    exact hs.load rd base

/-! ## Which calls change the table -/

/-- C98: a call that raises changes nothing: neither the table nor the grid nor the file. -/
theorem C98_raises (rd : String → Res (FileDict F)) (base : String) (s : CatState F) (c : CatCall F)
    (e : PyErr) (h : (s.step rd base c).1 = .error e) : (s.step rd base c).2 = s := by
  revert h
  cases c with
  | registerAlias id al => simp only [CatState.step]; split <;> simp
  | getMaterial id => simp only [CatState.step]; split <;> simp
  | getDatabase => simp [CatState.step]
  | setDatabase f => simp [CatState.step]
  | viewInteractive => simp only [CatState.step, CatState.show]; split <;> simp
  | editInteractive => simp only [CatState.step, CatState.show]; split <;> simp
  | act a => simp only [CatState.step]; split <;> simp
  | saveInteractive =>
    simp only [CatState.step]
    split
    · split <;> simp
    · simp
  | saveToFile => simp [CatState.step]

/-- The calls that are meant to change the table. -/
def Spec.Writes : CatCall F → Prop
  | .registerAlias _ _ | .setDatabase _ | .saveInteractive => True
  | _ => False

/-- C98: in every history, the table changes through `register_alias`, `set_database` and
`save_interactive` only. -/
theorem C98_reads (rd : String → Res (FileDict F)) (base : String) (s : CatState F)
    (cs : List (CatCall F)) (h : ∀ c ∈ cs, ¬ Writes c) : (s.after rd base cs).db = s.db := by
  induction cs generalizing s with
  | nil => rfl
  | cons c cs ih =>
    show ((s.step rd base c).2.after rd base cs).db = s.db
    rw [ih _ (fun c hc => h c (List.mem_cons_of_mem _ hc))]
    have hc := h c List.mem_cons_self
    cases c with
    | registerAlias id al => exact absurd trivial hc
    | getMaterial id => simp only [CatState.step]; split <;> rfl
    | getDatabase => rfl
    | setDatabase f => exact absurd trivial hc
    | viewInteractive => simp only [CatState.step, CatState.show]; split <;> rfl
    | editInteractive => simp only [CatState.step, CatState.show]; split <;> rfl
    | act a => simp only [CatState.step]; split <;> rfl
    | saveInteractive => exact absurd trivial hc
    | saveToFile => rfl

/-- The interactive mode is a matter of the configuration; no call changes it. -/
theorem after_interactive (rd : String → Res (FileDict F)) (base : String) (s : CatState F)
    (cs : List (CatCall F)) : (s.after rd base cs).interactive = s.interactive := by
  induction cs generalizing s with
  | nil => rfl
  | cons c cs ih =>
    show ((s.step rd base c).2.after rd base cs).interactive = s.interactive
    rw [ih]
    cases c with
    | registerAlias id al => simp only [CatState.step]; split <;> rfl
    | getMaterial id => simp only [CatState.step]; split <;> rfl
    | getDatabase => rfl
    | setDatabase f => rfl
    | viewInteractive => simp only [CatState.step, CatState.show]; split <;> rfl
    | editInteractive => simp only [CatState.step, CatState.show]; split <;> rfl
    | act a => simp only [CatState.step]; split <;> rfl
    | saveInteractive =>
      simp only [CatState.step]
      split
      · split <;> rfl
      · rfl
    | saveToFile => rfl

/-- C98: with `Interactive: False` in the configuration the interactive methods raise ValueError,
after every history. -/
theorem C98_disabled (rd : String → Res (FileDict F)) (base : String) (s : CatState F)
    (hs : s.interactive = false) (cs : List (CatCall F)) (c : CatCall F)
    (hc : c = .viewInteractive ∨ c = .editInteractive ∨ c = .saveInteractive) :
    ((s.after rd base cs).step rd base c).1 = .error .value := by
  have hi : (s.after rd base cs).interactive = false := (after_interactive rd base s cs).trans hs
  rcases hc with rfl | rfl | rfl <;> simp [CatState.step, CatState.show, hi]

/-- C98: with interactive mode, `view_interactive` and `edit_interactive` show all rows of the
table in order, and `save_interactive` before either of them raises AttributeError. -/
theorem C98_enabled (rd : String → Res (FileDict F)) (base : String) (s : CatState F)
    (hs : s.interactive = true) :
    (∀ c, c = .viewInteractive ∨ c = .editInteractive → ∃ g, (s.step rd base c).1 = .ok () ∧
      (s.step rd base c).2 = { s with grid := some g } ∧ g.changedDf = s.db) ∧
    (s.grid = none → (s.step rd base .saveInteractive).1 = .error .attribute) := by
  constructor
  · rintro c (rfl | rfl)
    · refine ⟨{ rows := s.db, keep := fun _ => true, editable := false }, ?_, ?_, ?_⟩ <;>
        simp [CatState.step, CatState.show, hs, Grid.changedDf]
    · refine ⟨{ rows := s.db, keep := fun _ => true, editable := true }, ?_, ?_, ?_⟩ <;>
        simp [CatState.step, CatState.show, hs, Grid.changedDf]
  · intro hg
    simp [CatState.step, hs, hg]

/-- Concrete case for C97 and C98: with interactive mode, a row gets an alias, the table is saved,
the grid is opened, another alias is refused. The file holds the first alias. -/
example (rd : String → Res (FileDict F)) :
    let s : CatState F := ⟨true, numbered [exampleRow "" "a.txt", exampleRow "" "b.txt"], none, none⟩
    let t := s.after rd "/cat" [.registerAlias (.int 0) "x", .saveToFile, .viewInteractive]
    t.file = some (csvText (numbered [(exampleRow "x" "a.txt" : Row F), exampleRow "" "b.txt"])) ∧
    (t.step rd "/cat" (.registerAlias (.int 1) "x")).1 = .error .value ∧
    (t.step rd "/cat" .saveInteractive).1 = .ok () := by
  refine ⟨?_, ?_, ?_⟩ <;>
    simp [CatState.after, CatState.step, CatState.show, registerAlias, inUse, numbered, exampleRow, setAt, setAlias, sameAlias, bind, Except.bind]

/-! ## Viewing -/

/-- The calls that make a new grid. -/
def Spec.OpensGrid : CatCall F → Prop
  | .viewInteractive | .editInteractive => True
  | _ => False

omit [PyFloat F] [SciPy F] [NumText F] [CsvIO F] in
theorem Grid.act_view {g : Grid F} (hg : g.editable = false) (a : GridAction F) :
    (g.act a).editable = false ∧ (g.act a).rows.Perm g.rows := by
  cases a with
  | sort le => exact ⟨hg, List.mergeSort_perm _ _⟩
  | filter keep => exact ⟨hg, List.Perm.refl _⟩
  | edit l ch => simp only [Grid.act, hg, Bool.false_eq_true, if_false]; exact ⟨trivial, .refl _⟩

theorem after_view (rd : String → Res (FileDict F)) (base : String) (f : Frame F) (s : CatState F)
    (g : Grid F) (h1 : s.grid = some g) (h2 : g.editable = false) (h3 : g.rows.Perm f)
    (cs : List (CatCall F)) (hcs : ∀ c ∈ cs, ¬ OpensGrid c) :
    ∃ g', (s.after rd base cs).grid = some g' ∧ g'.editable = false ∧ g'.rows.Perm f := by
  induction cs generalizing s g with
  | nil => exact ⟨g, h1, h2, h3⟩
  | cons c cs ih =>
    have hrest := fun c hc => hcs c (List.mem_cons_of_mem _ hc)
    have hc := hcs c List.mem_cons_self
    show ∃ g', ((s.step rd base c).2.after rd base cs).grid = some g' ∧ _
    cases c with
    | registerAlias id al =>
      refine ih _ g ?_ h2 h3 hrest
      simp only [CatState.step]; split <;> exact h1
    | getMaterial id =>
      refine ih _ g ?_ h2 h3 hrest
      simp only [CatState.step]; split <;> exact h1
    | getDatabase => exact ih _ g h1 h2 h3 hrest
    | setDatabase f => exact ih _ g h1 h2 h3 hrest
    | viewInteractive => exact absurd trivial hc
    | editInteractive => exact absurd trivial hc
    | act a =>
      refine ih _ (g.act a) ?_ (g.act_view h2 a).1 ((g.act_view h2 a).2.trans h3) hrest
      simp only [CatState.step, h1]
    | saveInteractive =>
      refine ih _ g ?_ h2 h3 hrest
      simp only [CatState.step]
      split
      · rw [h1]
      · exact h1
    | saveToFile => exact ih _ g h1 h2 h3 hrest

/-- C99, every history: a table that was shown with `view_interactive` cannot be edited: what
`save_interactive` takes over later are rows of the table as it was shown, each at most as often
as it was there. -/
theorem C99_view (rd : String → Res (FileDict F)) (base : String) (s : CatState F)
    (hs : s.interactive = true) (cs : List (CatCall F)) (hcs : ∀ c ∈ cs, ¬ OpensGrid c) :
    (s.after rd base (.viewInteractive :: cs ++ [.saveInteractive])).db.Subperm s.db := by
  rw [after_append]
  have h1 : (s.step rd base .viewInteractive).2.grid =
      some { rows := s.db, keep := fun _ => true, editable := false } := by
    simp [CatState.step, CatState.show, hs]
  obtain ⟨g, e1, -, e3⟩ := after_view rd base s.db _ _ h1 rfl (.refl _) cs hcs
  have hi := after_interactive rd base s (.viewInteractive :: cs)
  rw [hs] at hi
  have e1' : (s.after rd base (.viewInteractive :: cs)).grid = some g := e1
  generalize s.after rd base (.viewInteractive :: cs) = s1 at *
  show ((s1.step rd base .saveInteractive).2).db.Subperm s.db
  simp only [CatState.step, hi, if_true, e1']
  exact (List.filter_sublist.subperm).trans e3.subperm

/-! ## Sorting, filtering and editing in the grid -/

/-- C100 (full statement, refuted below): sorting and filtering in the grid and saving with
`save_interactive` does not disturb the aliases of the rows that are left. -/
def C100_statement (F : Type) [PyFloat F] [SciPy F] [NumText F] [CsvIO F] : Prop :=
  ∀ (rd : String → Res (FileDict F)) (base : String) (s : CatState F), s.interactive = true →
    ByPosition s.db → UniqueAliases s.db → ∀ acts : List (GridAction F),
    ∀ f, f = (s.after rd base (.editInteractive :: acts.map .act ++ [.saveInteractive])).db →
    UniqueAliases f → ∀ a, a ≠ "" → ∀ p ∈ f, p.2.al = .str a →
      getMaterial rd base f (.str a) = loadRow rd base p.2

/-- The table after an interactive session. -/
theorem interactive_db (rd : String → Res (FileDict F)) (base : String) (s : CatState F)
    (hs : s.interactive = true) (acts : List (GridAction F)) :
    (s.after rd base (.editInteractive :: acts.map .act ++ [.saveInteractive])).db =
      (acts.foldl Grid.act { rows := s.db, keep := fun _ => true, editable := true }).changedDf := by
  have key : ∀ (acts : List (GridAction F)) (s : CatState F) (g : Grid F), s.interactive = true →
      s.grid = some g → (s.after rd base (acts.map .act ++ [.saveInteractive])).db =
        (acts.foldl Grid.act g).changedDf := by
    intro acts
    induction acts with
    | nil => intro s g h1 h2; simp [CatState.after, CatState.step, h1, h2]
    | cons a acts ih =>
      intro s g h1 h2
      show (((s.step rd base (.act a)).2).after rd base (acts.map .act ++ [.saveInteractive])).db = _
      exact ih _ _ (by simp [CatState.step, h1, h2]) (by simp [CatState.step, h2])
  exact key acts _ _ (by simp [CatState.step, CatState.show, hs])
    (by simp [CatState.step, CatState.show, hs])

/-- C100 without sorting and filtering: cells may be edited in any way. Missing for the full claim:
sorting and filtering, for which it is false. -/
theorem C100_edited_partial (rd : String → Res (FileDict F)) (base : String) (s : CatState F)
    (hs : s.interactive = true) (hp : ByPosition s.db) (edits : List (Int × (Row F → Row F)))
    (f : Frame F) (hf : f = (s.after rd base (.editInteractive ::
      (edits.map (fun e => .act (.edit e.1 e.2)) ++ [.saveInteractive]))).db) :
    ByPosition f ∧ ∀ a, f.countP (fun p => p.2.al = .str a) ≤ 1 → ∀ p ∈ f, p.2.al = .str a →
      getMaterial rd base f (.str a) = loadRow rd base p.2 := by
  have h1 := interactive_db rd base s hs (edits.map (fun e => .edit e.1 e.2))
  rw [List.map_map] at h1
  have h2 : f = ((edits.map (fun e => GridAction.edit e.1 e.2)).foldl Grid.act
      { rows := s.db, keep := fun _ => true, editable := true }).changedDf := hf.trans h1
  have key : ∀ (edits : List (Int × (Row F → Row F))) (g : Grid F), g.editable = true →
      g.keep = (fun _ => true) →
      ((edits.map (fun e => GridAction.edit e.1 e.2)).foldl Grid.act g).changedDf.map Prod.fst =
        g.rows.map Prod.fst := by
    intro edits
    induction edits with
    | nil => intro g _ hk; simp [Grid.changedDf, hk]
    | cons e edits ih =>
      intro g he hk
      rw [List.map_cons, List.foldl_cons, ih _ (by simp [Grid.act, he]) (by simp [Grid.act, he, hk])]
      simp only [Grid.act, he, if_true, List.map_map]
      apply List.map_congr_left
      intro p _
      simp only [Function.comp]
      split <;> rfl
  have h3 : f.map Prod.fst = s.db.map Prod.fst := by
    rw [h2]; exact key edits _ rfl rfl
  have hpf : ByPosition f := by
    have hl : f.length = s.db.length := by
      have := congrArg List.length h3
      simpa using this
    rw [ByPosition, h3, hl]
    exact hp
  exact ⟨hpf, fun a ha p hp' hpa => byPosition_alias hpf rd base ha hp' hpa⟩

/-- C100 is false: with aliases x and y for two files, sorting the rows in the other order and
saving makes x load the file of y. -/
theorem C100_refuted : ¬ C100_statement F := by
  intro h
  let f : Frame F := [(0, exampleRow "y" "b.txt"), (1, exampleRow "x" "a.txt")]
  let s : CatState F := { interactive := true, db := f, grid := none, file := none }
  let rd : String → Res (FileDict F) := fun p =>
    if p = "/cat/UserData/a.txt" then .error .os else .error .key
  have hu : ∀ f' : Frame F, f'.Perm f → UniqueAliases f' := by
    intro f' hf' a ha
    rw [hf'.countP_eq]
    by_cases hx : a = "x"
    · subst hx; simp [f, exampleRow]
    · rw [show f = [(0, exampleRow "y" "b.txt"), (1, exampleRow "x" "a.txt")] from rfl,
        List.countP_cons, List.countP_cons_of_neg (by simpa [exampleRow] using Ne.symm hx)]
      simp
      split <;> omega
  have hsort : f.mergeSort (fun p q => decide (q.1 ≤ p.1)) =
      [(1, exampleRow "x" "a.txt"), (0, exampleRow "y" "b.txt")] := by
    simp [f, List.mergeSort, List.MergeSort.Internal.splitInTwo]
  have := h rd "/cat" s rfl rfl (hu f (.refl _)) [.sort (fun p q => decide (q.1 ≤ p.1))] _ rfl
  rw [interactive_db rd "/cat" s rfl] at this
  simp only [List.foldl_cons, List.foldl_nil, Grid.act, Grid.changedDf, List.filter_true] at this
  rw [show s.db = f from rfl, hsort] at this
  have := this (hu _ (by rw [← hsort]; exact List.mergeSort_perm _ _)) "x" (by decide)
    (1, exampleRow "x" "a.txt") (by simp) rfl
  have e1 : getMaterial rd "/cat" [(1, exampleRow "x" "a.txt"), (0, exampleRow "y" "b.txt")] (.str "x") =
      loadRow rd "/cat" (exampleRow "y" "b.txt") := by
    simp [getMaterial, findRow, exampleRow, iloc, bind, Except.bind]
  rw [e1] at this
  have e2 : ∀ a b : String, loadRow rd "/cat" (exampleRow a b) = Material.new rd
      (rowKw (normPath (joinPath (joinPath "/cat" "UserData") (unixSlashes b))) (.str "wavelength")
        (.str "nanometer")) := fun _ _ => rfl
  rw [e2, e2, new_row, new_row] at this
  have p1 : normPath (joinPath (joinPath "/cat" "UserData") (unixSlashes "a.txt")) =
      "/cat/UserData/a.txt" := by decide +kernel
  have p2 : normPath (joinPath (joinPath "/cat" "UserData") (unixSlashes "b.txt")) ≠
      "/cat/UserData/a.txt" := by decide +kernel
  simp only [p1, rd, if_pos, if_neg p2, bind, Except.bind] at this
  cases this

/-! ## Aliases registered while a grid is open -/

/-- C101 (full statement, refuted below): `save_interactive` keeps the aliases that were
registered while the grid was open. -/
def C101_statement (F : Type) [PyFloat F] [SciPy F] [NumText F] [CsvIO F] : Prop :=
  ∀ (rd : String → Res (FileDict F)) (base : String) (s : CatState F), s.interactive = true →
    ByPosition s.db → ∀ (n : Nat) (a : String), n < s.db.length →
    ((s.after rd base [.editInteractive]).step rd base (.registerAlias (.int n) a)).1 = .ok () →
    inUse (s.after rd base [.editInteractive, .registerAlias (.int n) a, .saveInteractive]).db a = true

/-- What happens instead, for every table and every request: `save_interactive` restores the table
as it was when the grid was opened. -/
theorem C101_lost (rd : String → Res (FileDict F)) (base : String) (s : CatState F)
    (hs : s.interactive = true) (id : RowId) (a : String) :
    (s.after rd base [.editInteractive, .registerAlias id a, .saveInteractive]).db = s.db := by
  simp only [CatState.after, List.foldl_cons, List.foldl_nil, CatState.step, CatState.show, hs, if_true]
  split <;> simp [hs, Grid.changedDf]

/-- C101 for aliases registered before the grid is opened. Missing: those registered later, which
are lost. -/
theorem C101_before_partial (rd : String → Res (FileDict F)) (base : String) (s : CatState F)
    (hs : s.interactive = true) (id : RowId) (a : String) (f : Frame F)
    (h : registerAlias s.db id a = .ok f) :
    (s.after rd base [.registerAlias id a, .editInteractive, .saveInteractive]).db = f := by
  simp only [CatState.after, List.foldl_cons, List.foldl_nil, CatState.step, CatState.show, h, hs,
    if_true]
  simp [hs, Grid.changedDf]

theorem C101_refuted : ¬ C101_statement F := by
  intro h
  let s : CatState F := { interactive := true, db := numbered [exampleRow "" "a.txt"], grid := none,
                          file := none }
  have := h (fun _ => .error .os) "/cat" s rfl (numbered_byPosition _) 0 "x" (by simp [s, numbered])
    (by simp [CatState.after, CatState.step, CatState.show, s, registerAlias, inUse, numbered, exampleRow])
  rw [C101_lost _ _ s rfl] at this
  simp [s, inUse, numbered, exampleRow] at this

end Disp

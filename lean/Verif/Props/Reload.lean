import Verif.Props.CommentCycle
/-!
# C46, C47: materials made of the text files that were written
-/

namespace Disp

open Spec

variable {F : Type} [PyFloat F] [SciPy F] [NumText F]

theorem nonEmpty_of_name {t u c : String} (h : (lower t, lower u, c) ∈ names) : t ≠ "" ∧ u ≠ "" := by
  have : ∀ p ∈ names, p.1 ≠ "" ∧ p.2.1 ≠ "" := by decide +kernel
  have := this _ h
  refine ⟨?_, ?_⟩
  · rintro rfl; exact this.1 (show lower "" = "" by decide)
  · rintro rfl; exact this.2 (show lower "" = "" by decide)

theorem get_str {d : Dataset F} {k t : String} (h : dictGet d k = .ok (.str t)) (ht : t ≠ "")
    (x : String) : ((d.get k).nonEmptyStr).getD x = t := by
  rw [Dataset.get, h]
  show (if t = "" then Option.none else some t).getD x = t
  rw [if_neg ht]; rfl

/-- Processing a table of the refractive index. -/
theorem load_n (m : Material F) {d : Dataset F} {v : DVal F} {rows : List (List F)} {t u : String}
    (hd : dictGet d "DataType" = .ok (.str "tabulated n")) (hv : dictGet d "Data" = .ok v)
    (hs : strTableToNumeric v.asTable = .ok (.d2 2 .float rows)) (hw : ∀ r ∈ rows, r.length = 2)
    (ht : dictGet d "SpectrumType" = .ok (.str t)) (hu : dictGet d "Unit" = .ok (.str u))
    (ht0 : t ≠ "") (hu0 : u ≠ "") :
    processDataset m d = (tableData .float (pairsOf rows 1) t u).map
      (fun r => { m with defType := t, defUnit := u, name := "nk", real := some r }) := by
  unfold processDataset
  simp only [Dataset.getStr, hd, bind, Except.bind,
    show splitTwo "tabulated n" = .ok ("tabulated", "n") from by decide +kernel, if_true, hv, hs]
  unfold processTable
  simp only [get_str ht ht0, get_str hu hu0, specData_eq hw (show 1 < 2 by omega),
    show ¬ ("n" = "nk") from by decide, show ¬ ("n" = "n_alpha") from by decide, if_false, if_true,
    bind, Except.bind]
  cases tableData DType.float (pairsOf rows 1) t u <;> rfl

/-- Processing a table of the refractive index and the extinction coefficient. -/
theorem load_nk (m : Material F) {d : Dataset F} {v : DVal F} {rows : List (List F)} {t u : String}
    (hd : dictGet d "DataType" = .ok (.str "tabulated nk")) (hv : dictGet d "Data" = .ok v)
    (hs : strTableToNumeric v.asTable = .ok (.d2 3 .float rows)) (hw : ∀ r ∈ rows, r.length = 3)
    (ht : dictGet d "SpectrumType" = .ok (.str t)) (hu : dictGet d "Unit" = .ok (.str u))
    (ht0 : t ≠ "") (hu0 : u ≠ "") {a b : RealData F}
    (ha : tableData .float (pairsOf rows 1) t u = .ok a)
    (hb : tableData .float (pairsOf rows 2) t u = .ok b) :
    processDataset m d = .ok { m with
      defType := t, defUnit := u, name := "nk", real := some a, imag := some b } := by
  unfold processDataset
  simp only [Dataset.getStr, hd, bind, Except.bind,
    show splitTwo "tabulated nk" = .ok ("tabulated", "nk") from by decide +kernel, if_true, hv, hs]
  unfold processTable
  simp only [get_str ht ht0, get_str hu hu0, specData_eq hw (show 1 < 3 by omega),
    specData_eq hw (show 2 < 3 by omega), if_true, ha, hb, bind, Except.bind]

/-- The metadata of a material from a file. -/
theorem new_file_ok {p : String} {fd : FileDict F} (hm : HasMeta fd.metaData) {m1 : Material F}
    (h : ∀ md, fd.datasets.foldlM processDataset (fileBlank F p md) =
      .ok { m1 with metaData := some md }) :
    ∃ md, Material.new (fun _ => .ok fd) (fileKw F p) =
      .ok (finish { m1 with metaData := some md }) := by
  obtain ⟨md', h'⟩ := new_file (F := F) p hm
  have := h' fd.datasets
  refine ⟨md', ?_⟩
  obtain ⟨a, b⟩ := fd
  rw [this, h md']
  rfl

theorem validate_ok {n : ℕ} {rows : List (List F)} (h0 : 0 < n) (hw : ∀ r ∈ rows, r.length = n) :
    strTableToNumeric (.array (.d2 n .float rows)) = .ok (.d2 n .float rows) := by
  unfold strTableToNumeric
  simp only [bind, Except.bind, validateTable, col_eq hw h0]

/-! ## Text files -/

theorem fold_has {o : KeyOrder} {k : String} (ls : List (List Char)) : ∀ s : TextState F,
    (∃ v, dictGet s.metaData k = .ok v) → ∃ v, dictGet (ls.foldl (textStep o) s).metaData k = .ok v := by
  induction ls with
  | nil => exact fun _ h => h
  | cons l ls ih =>
    intro s h
    refine ih _ ?_
    unfold textStep
    cases lineRole o l with
    | comment => exact h
    | dataset a b => exact h
    | file a b =>
      show ∃ v, dictGet (dictSet _ _ _) k = .ok v
      rw [dictGet_set]
      split
      · exact ⟨_, rfl⟩
      · exact h

/-- What a fresh reader reads from a text file has all metadata keys. -/
theorem text_hasMeta [YamlIO F] {o : KeyOrder} (ho : o.Valid) {ext : String}
    {fmt : Char × Option Char} (hx : textFormat ext = some fmt) {text : List Char} {fd : FileDict F}
    {r' : Reader F} (h : (Reader.fresh o : Reader F).readFile o ext text = (.ok fd, r')) :
    HasMeta fd.metaData := by
  intro k hk
  unfold Reader.readFile at h
  simp only [hx] at h
  unfold Reader.readText at h
  split at h
  · cases h
  · rename_i a _
    have hf := fold_has (k := k) (readComment text) ((Reader.fresh o : Reader F).textStart o a) (o := o) (by
      show ∃ v, dictGet (defaultMeta o) k = .ok v
      rw [defaultMeta, dictGet_const]
      split
      · exact ⟨_, rfl⟩
      · rename_i hn
        rw [ho.1.mem_iff] at hn
        have : ∀ k ∈ fileKeys, k ∉ fileMetaKeys → k = "Specification" := by decide
        rw [this k hk hn]
        exact ⟨_, rfl⟩)
    unfold Reader.textResult at h
    simp only at h
    split at h
    · cases h
    · cases h
      dsimp only
      split
      · exact hf
      · rw [dictGet_set]
        split
        · exact ⟨_, rfl⟩
        · exact hf

variable [Printing F] [YamlIO F]

/-- C46 for the material of a table of the refractive index with at most 500 rows, if the printed
abscissae are still distinct: the file can be loaded, and the new material has the table as
printed, with the same spectrum type and unit. -/
theorem C46_reload_partial [LawfulCmp F] [PrintingLaws F]
    (rd : String → Res (FileDict F)) (kw : Kwargs F) (hnd : (kw.map Prod.fst).Nodup)
    (hp : PlainOptions kw) {c : String}
    (hc : (lower (defaultsOf kw).1, lower (defaultsOf kw).2, c) ∈ names)
    (rows : List (List F)) (hk : Only kw "tabulated_n" (.table 2) (.arr (.d2 2 .float rows)))
    (hg : GoodTable 2 rows) (h2 : 2 ≤ rows.length) (h500 : rows.length ≤ 500)
    (hgp : GoodTable 2 ((printed rows).map (fun r => r.map Printing.shown8))) :
    ∃ m, Material.new rd kw = .ok m ∧ ∀ o : KeyOrder, o.Valid → ∀ ext, IsText ext →
      ∃ m' r, Cycle o ext m m' ∧
        tableData .float (pairsOf ((printed rows).map (fun r => r.map Printing.shown8)) 1)
          (defaultsOf kw).1 (defaultsOf kw).2 = .ok r ∧
        m'.name = "nk" ∧ m'.real = some r ∧ m'.imag = some (cdata (lit 0)) ∧ m'.cplx = Option.none ∧
        m'.defType = (defaultsOf kw).1 ∧ m'.defUnit = (defaultsOf kw).2 := by
  obtain ⟨m, hm, hw⟩ := C46_material_partial rd kw hnd hp hc rows hk hg h2 h500
  obtain ⟨r0, hr0, hm0⟩ := (C24_table_partial rd kw hnd hp hc rows).1 hk hg
  have em : m = { blankMaterial (parsedOf kw) with
      name := "nk", real := some r0, imag := some (cdata (lit 0)) } := by
    rw [hm] at hm0; cases hm0; rfl
  have hl : (pairsOf rows 1).length = rows.length := by simp [pairsOf]
  obtain ⟨s0, er0, _⟩ := tableData_interp (by rw [hl]; exact h2) hr0
  refine ⟨m, hm, fun o ho ext he => ?_⟩
  obtain ⟨w, w', text, fd, d, r', g1, g2, g3, g4, g5, g6, g7⟩ := hw ext he true false o ho
  have hreal : m.real = some r0 := by rw [em]
  obtain ⟨g8, g9⟩ := g7 r0 hreal
  rw [er0] at g8 g9
  replace g8 : dictGet d "SpectrumType" = .ok (.str (defaultsOf kw).1) := g8
  replace g9 : dictGet d "Unit" = .ok (.str (defaultsOf kw).2) := g9
  obtain ⟨r, hr⟩ := tableData_ok hgp 1 hc
  obtain ⟨n1, n2⟩ := nonEmpty_of_name hc
  obtain ⟨delim, rsep, hes⟩ := ext_sep he
  obtain ⟨md, hnew⟩ := new_file_ok (F := F) (p := "") (text_hasMeta ho hes.format g3)
    (m1 := { fileBlank F "" [] with
      defType := (defaultsOf kw).1, defUnit := (defaultsOf kw).2, name := "nk", real := some r }) (by
    intro md
    rw [g4, List.foldlM_cons, load_n _ g5 g6 (validate_ok (by norm_num) hgp.width) hgp.width g8 g9
      n1 n2, hr]
    rfl)
  exact ⟨_, r, ⟨w, w', true, false, text, fd, r', "", g1, g2, g3, hnew⟩, hr, rfl, rfl, rfl, rfl, rfl, rfl⟩

/-! ## C47 -/

/-- C47 (full statement, refuted below): a cycle keeps the comment. -/
def C47_statement (F : Type) [PyFloat F] [SciPy F] [NumText F] [Printing F] [YamlIO F] : Prop :=
  ∀ (o : KeyOrder), o.Valid → ∀ (ext : String) (m m' : Material F) (c : List Char), CleanTexts m →
    HasComment m c → Cycle o ext m m' → HasComment m' c

/-- A cycle that exists, in the demonstration format. -/
theorem demo_cycle [SciPy XR] [YamlIO XR] : letI := demoNumText; letI := demoPrinting
    ∃ m m' : Material XR, CleanTexts m ∧ HasComment m [] ∧
      Cycle ⟨fileMetaKeys, datasetMetaKeys⟩ ".txt" m m' := by
  letI := demoNumText
  letI := demoPrinting
  haveI := demoPrintingLaws
  have hs : ("tabulated_n", DocType.table 2) ∈ sources := by decide
  obtain ⟨h1, h2⟩ := only_single (F := XR) hs (v := .arr (.d2 2 .float demoRows)) (by simp)
  have hpr : printed demoRows = demoRows := by
    have : ∀ r ∈ demoRows, r.map demoShown = r := by
      intro r hr
      conv_rhs => rw [← List.map_id r]
      exact List.map_congr_left (fun x hx => demoRows_shown.1 r hr x hx)
    show demoRows.map (fun r => r.map demoShown) = demoRows
    conv_rhs => rw [← List.map_id demoRows]
    exact List.map_congr_left this
  have he : (printed demoRows).map (fun r => r.map Printing.shown8) = demoRows := by
    rw [hpr]; exact demoRows_shown.2
  have hnm : (lower (defaultsOf [("tabulated_n", (.arr (.d2 2 .float demoRows) : PyVal XR))]).1,
      lower (defaultsOf [("tabulated_n", (.arr (.d2 2 .float demoRows) : PyVal XR))]).2, "nm") ∈ names := by
    rw [defaults_single (by decide)]; decide +kernel
  have hp : PlainOptions [("tabulated_n", (.arr (.d2 2 .float demoRows) : PyVal XR))] :=
    plain_single (by decide) (by decide)
  obtain ⟨m, hm, hcyc⟩ := C46_reload_partial (fun _ => .error .os) _ h1 hp hnm _ h2 demoRows_good
    (by simp [demoRows]) (by simp [demoRows]) (by rw [he]; exact demoRows_good)
  obtain ⟨m', r, hc, _⟩ := hcyc ⟨fileMetaKeys, datasetMetaKeys⟩ ⟨.refl _, .refl _⟩ ".txt" (.inl rfl)
  obtain ⟨r0, hr0, hm0⟩ := (C24_table_partial (fun _ => .error .os) _ h1 hp hnm _).1 h2 demoRows_good
  have em : m = { blankMaterial (parsedOf [("tabulated_n", (.arr (.d2 2 .float demoRows) : PyVal XR))]) with
      name := "nk", real := some r0, imag := some (cdata (lit 0)) } := by
    rw [hm] at hm0; cases hm0; rfl
  obtain ⟨s0, er0, _⟩ := tableData_interp (by simp [pairsOf, demoRows]) hr0
  refine ⟨m, m', ?_, ?_, hc⟩
  · rw [em, er0]
    exact ⟨⟨blankMeta, _, rfl, rfl, blankMeta_good.1, blankMeta_good.2.1, blankMeta_good.2.2,
      (clean_names hnm).1, (clean_names hnm).2⟩⟩
  · rw [em]
    exact ⟨blankMeta, rfl, rfl⟩

/-- C47 is false: an empty comment becomes a blank line. -/
theorem C47_refuted [SciPy XR] [YamlIO XR] : letI := demoNumText; letI := demoPrinting
    ¬ C47_statement XR := by
  letI := demoNumText
  letI := demoPrinting
  haveI := demoPrintingLaws
  intro h
  have ho : KeyOrder.Valid ⟨fileMetaKeys, datasetMetaKeys⟩ := ⟨.refl _, .refl _⟩
  obtain ⟨m, m', hx, hc, hcyc⟩ := demo_cycle
  obtain ⟨md1, e1, e2⟩ := h _ ho _ _ _ _ hx hc hcyc
  obtain ⟨md2, f1, f2⟩ := (text_step ho (.inl rfl) hx hc hcyc).2
  rw [e1] at f1
  have : md1 = md2 := by cases f1; rfl
  subst this
  rw [e2] at f2
  have hne : (String.ofList [] : String) ≠ String.ofList (closeLines (keptLines [] ++ [[' ']])) := by
    have : keptLines [] = [] := rfl
    rw [this]
    decide
  injection f2 with f3
  injection f3 with f4
  exact hne f4

end Disp

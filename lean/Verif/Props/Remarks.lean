import Verif.Props.PlainTables
import Verif.Props.TableColumns
/-!
# C158: remarks in the headers of text files

A header line `name: value` fills a field; what is in front of the colon need only begin with the
name of the field.
-/

namespace Disp

open Spec

/-! ## Specification -/

/-- The line is entitled with the name of the field: blanks, the name in small or capital letters,
blanks, and a colon. -/
def Spec.Entitled (key : String) (l : List Char) : Prop :=
  ∃ blanks word pad rest, l = blanks ++ word ++ pad ++ ':' :: rest ∧
    (∀ c ∈ blanks, pySpace c = true) ∧ word.map Char.toUpper = key.toList.map Char.toUpper ∧
    ∀ c ∈ pad, pySpace c = true

/-- A line that is entitled with no field. -/
def Spec.Remark (l : List Char) : Prop := ∀ key ∈ fileFields ++ datasetFields, ¬ Entitled key l

/-- The fields that say how a table is to be understood. -/
def Spec.tableFields : List String := ["DataType", "SpectrumType", "Unit"]

/-- The header states no kind of data, or that of a table. -/
def Spec.SaysTable (header : List (List Char)) : Prop :=
  ∀ dt, Says header "DataType" dt →
    dt = "" ∨ ∃ id : String, LineOf ["tabulated".toList, id.toList] dt.toList

variable {F : Type} [PyFloat F] [SciPy F] [NumText F] [YamlIO F]

/-- Loading a text file. -/
def loadText (o : KeyOrder) (ext : String) (text : List Char) (kw : Kwargs F) : Res (Material F) :=
  Material.new (fun _ => ((Reader.fresh o : Reader F).readFile o ext text).1) kw

/-! ## What headers say -/

theorem says_exists (header : List (List Char)) (key : String) : ∃ v, Says header key v := by
  induction header using List.reverseRecOn with
  | nil => exact ⟨"", .inr ⟨rfl, by simp⟩⟩
  | append_singleton hs l ih =>
    by_cases h : ∃ arg, Fills key.toList l arg
    · obtain ⟨arg, h⟩ := h
      exact ⟨String.ofList arg, .inl ⟨hs, l, [], rfl, by rwa [String.toList_ofList], by simp⟩⟩
    · have h : ∀ arg, ¬ Fills key.toList l arg := fun arg ha => h ⟨arg, ha⟩
      obtain ⟨v, ⟨as, l', bs, rfl, h1, h2⟩ | ⟨rfl, h1⟩⟩ := ih
      · refine ⟨v, .inl ⟨as, l', bs ++ [l], by simp, h1, ?_⟩⟩
        intro m hm
        rcases List.mem_append.1 hm with hm | hm
        · exact h2 m hm
        · rw [List.mem_singleton.1 hm]; exact h
      · refine ⟨"", .inr ⟨rfl, ?_⟩⟩
        intro m hm
        rcases List.mem_append.1 hm with hm | hm
        · exact h1 m hm
        · rw [List.mem_singleton.1 hm]; exact h

/-- A line that does not fill the field makes no difference to it. -/
theorem says_insert {as bs : List (List Char)} {l : List Char} {key v : String}
    (hl : ∀ arg, ¬ Fills key.toList l arg) (h : Says (as ++ l :: bs) key v) : Says (as ++ bs) key v := by
  rcases h with ⟨as', l', bs', he, h1, h2⟩ | ⟨rfl, h1⟩
  · left
    rcases List.append_eq_append_iff.1 he with ⟨cs, c1, c2⟩ | ⟨cs, c1, c2⟩
    · cases cs with
      | nil =>
        cases c2
        exact absurd h1 (hl _)
      | cons c cs =>
        cases c2
        exact ⟨as ++ cs, l', bs', by simp, h1, h2⟩
    · cases cs with
      | nil =>
        cases c2
        exact absurd h1 (hl _)
      | cons c cs =>
        cases c2
        refine ⟨as', l', cs ++ bs, by rw [c1]; simp, h1, ?_⟩
        intro m hm
        refine h2 m ?_
        rcases List.mem_append.1 hm with hm | hm
        · exact List.mem_append_left _ hm
        · exact List.mem_append_right _ (List.mem_cons_of_mem _ hm)
  · exact .inr ⟨rfl, fun m hm => h1 m (by
      rcases List.mem_append.1 hm with hm | hm
      · exact List.mem_append_left _ hm
      · exact List.mem_append_right _ (List.mem_cons_of_mem _ hm))⟩

omit [YamlIO F] in
/-- What a table needs of its dataset. -/
theorem same_dataset (m : Material F) {d d' : Dataset F} {dt : String}
    (hd : dictGet d "DataType" = .ok (.str dt)) (hd' : dictGet d' "DataType" = .ok (.str dt))
    (hdt : dt = "" ∨ ∃ id : String, LineOf ["tabulated".toList, id.toList] dt.toList)
    (ha : dictGet d "Data" = dictGet d' "Data")
    (ht : dictGet d "SpectrumType" = dictGet d' "SpectrumType")
    (hu : dictGet d "Unit" = dictGet d' "Unit") : processDataset m d = processDataset m d' := by
  unfold processDataset
  rcases hdt with rfl | ⟨id, hl⟩
  · simp only [Dataset.getStr, hd, hd', bind, Except.bind,
      show splitTwo "" = .error .value from by decide +kernel]
  · have hs : splitTwo dt = .ok ("tabulated", id) := by
      rw [splitTwo, splitSpaces_line hl]
      simp only [String.ofList_toList]
    simp only [Dataset.getStr, hd, hd', bind, Except.bind, hs, if_true, ha, processTable,
      Dataset.get, ht, hu]

theorem tabulated_line (id : String) (h : Word id.toList) :
    LineOf ["tabulated".toList, id.toList] ("tabulated " ++ id).toList := by
  have := LineOf.word (s := []) (t := "tabulated".toList) (by simp) (by unfold Word; decide +kernel)
    (rest := [' '] ++ id.toList ++ []) (by simp; decide) (.word (s := [' ']) (t := id.toList)
      (by decide +kernel) h (by simp) (.blank (s := []) (by simp)))
  simpa [String.toList_append] using this

theorem columnType_table (n : ℕ) : columnType n = "" ∨
    ∃ id : String, LineOf ["tabulated".toList, id.toList] (columnType n).toList := by
  unfold columnType
  split
  · exact .inr ⟨"n", tabulated_line "n" (by unfold Word; decide +kernel)⟩
  · exact .inr ⟨"nk", tabulated_line "nk" (by unfold Word; decide +kernel)⟩
  · exact .inl rfl

/-- A line that fills the same field with the same value takes the place of another. -/
theorem says_replace {as bs : List (List Char)} {l l' : List Char} {key v : String}
    (hl : ∀ arg, Fills key.toList l arg ↔ Fills key.toList l' arg)
    (h : Says (as ++ l :: bs) key v) : Says (as ++ l' :: bs) key v := by
  rcases h with ⟨as', m, bs', he, h1, h2⟩ | ⟨rfl, h1⟩
  · left
    rcases List.append_eq_append_iff.1 he with ⟨cs, c1, c2⟩ | ⟨cs, c1, c2⟩
    · cases cs with
      | nil =>
        cases c2
        exact ⟨as, l', bs, rfl, (hl _).1 h1, h2⟩
      | cons c cs =>
        cases c2
        exact ⟨as ++ l' :: cs, m, bs', by simp, h1, h2⟩
    · cases cs with
      | nil =>
        cases c2
        exact ⟨as, l', bs, rfl, (hl _).1 h1, h2⟩
      | cons c cs =>
        cases c2
        refine ⟨as', m, cs ++ l' :: bs, by rw [c1]; simp, h1, ?_⟩
        intro x hx arg
        rcases List.mem_append.1 hx with hx | hx
        · exact h2 x (List.mem_append_left _ hx) arg
        · rcases List.mem_cons.1 hx with rfl | hx
          · exact fun ha => h2 l (List.mem_append_right _ List.mem_cons_self) arg ((hl _).2 ha)
          · exact h2 x (List.mem_append_right _ (List.mem_cons_of_mem _ hx)) arg
  · refine .inr ⟨rfl, ?_⟩
    intro x hx arg
    rcases List.mem_append.1 hx with hx | hx
    · exact h1 x (List.mem_append_left _ hx) arg
    · rcases List.mem_cons.1 hx with rfl | hx
      · exact fun ha => h1 l (List.mem_append_right _ List.mem_cons_self) arg ((hl _).2 ha)
      · exact h1 x (List.mem_append_right _ (List.mem_cons_of_mem _ hx)) arg

/-- A line fills one field only. -/
theorem fills_alike {key key' : String} (hk : key ∈ datasetFields) (hk' : key' ∈ datasetFields)
    {l l' arg : List Char} (h : Fills key.toList l arg) (h' : Fills key.toList l' arg)
    (a : List Char) : Fills key'.toList l a ↔ Fills key'.toList l' a := by
  have ho : (⟨fileMetaKeys, datasetMetaKeys⟩ : KeyOrder).Valid := ⟨.refl _, .refl _⟩
  have e := (C44_dataset_field ho _ _ _).2 ⟨hk, h⟩
  have e' := (C44_dataset_field ho _ _ _).2 ⟨hk, h'⟩
  constructor
  · intro ha
    have := (C44_dataset_field ho _ _ _).2 ⟨hk', ha⟩
    rw [e, ← e'] at this
    exact ((C44_dataset_field ho _ _ _).1 this).2
  · intro ha
    have := (C44_dataset_field ho _ _ _).2 ⟨hk', ha⟩
    rw [e', ← e] at this
    exact ((C44_dataset_field ho _ _ _).1 this).2

/-- Headers that say the same of the table. -/
theorem same_said {o : KeyOrder} (ho : o.Valid) {ext : String} {mark : Char} {sep : Option Char}
    (hf : TextFormat ext mark sep) {header header' : List (List Char)} {n : ℕ}
    {rows : List (List F)} {text text' : List Char} (h : HandFile mark sep header rows text)
    (h' : HandFile mark sep header' rows text') (hn : 2 ≤ n) (hw : ∀ r ∈ rows, r.length = n)
    (h2 : 2 ≤ rows.length) (hst : SaysTable header)
    (hs : ∀ key ∈ tableFields, ∀ v, Says header key v → Says header' key v) {kw : Kwargs F}
    (hnd : (kw.map Prod.fst).Nodup) (hp : PlainOptions kw) {p : String}
    (hk : Only kw "file_path" .text (.str p)) :
    AnswerAlike (loadText o ext text kw) (loadText o ext text' kw) := by
  refine Spec.SameButDefaults.alike ?_
  have hx : textFormat ext = some (mark, sep) := by cases hf <;> decide +kernel
  obtain ⟨dt, hdt⟩ := says_exists header "DataType"
  obtain ⟨t, ht⟩ := says_exists header "SpectrumType"
  obtain ⟨u, hu⟩ := says_exists header "Unit"
  obtain ⟨fd, d, r, a1, a2, a3, a4, a5, a6, -⟩ := table_dict ho hf h hn hw h2 hdt ht hu
  obtain ⟨fd', d', r', b1, b2, b3, b4, b5, b6, -⟩ := table_dict ho hf h' hn hw h2
    (hs _ (by decide) _ hdt) (hs _ (by decide) _ ht) (hs _ (by decide) _ hu)
  obtain ⟨md, -, e⟩ := new_path hnd hp hk (text_hasMeta ho hx a1)
  obtain ⟨md', -, e'⟩ := new_path hnd hp hk (text_hasMeta ho hx b1)
  have hdt' : stated dt (columnType n) = "" ∨ ∃ id : String,
      LineOf ["tabulated".toList, id.toList] (stated dt (columnType n)).toList := by
    unfold stated
    split
    · exact columnType_table n
    · exact hst dt hdt
  unfold loadText
  rw [a1, b1]
  simp only
  have c1 := processDatasets_withMeta (some md) fd.datasets (blankMaterial (parsedOf kw))
  have c2 := processDatasets_withMeta (some md') fd'.datasets (blankMaterial (parsedOf kw))
  simp only [Material.withMeta] at c1 c2
  rw [e, e', c1, c2, a2, b2, List.foldlM_cons, List.foldlM_cons,
    same_dataset _ a4 b4 hdt' (a3.trans b3.symm) (a5.trans b5.symm) (a6.trans b6.symm)]
  cases processDataset (blankMaterial (parsedOf kw)) d' with
  | error e => exact .error
  | ok m => exact .ok rfl rfl rfl rfl

/-- C158, in part: a line whose text in front of the colon does not begin with `DataType`,
`SpectrumType` or `Unit` makes no difference to the answers of the material, wherever it stands in
the header. -/
theorem C158_harmless_partial {o : KeyOrder} (ho : o.Valid) {ext : String} {mark : Char}
    {sep : Option Char} (hf : TextFormat ext mark sep) {as bs : List (List Char)} {l : List Char}
    {n : ℕ} {rows : List (List F)} {text text' : List Char}
    (h : HandFile mark sep (as ++ l :: bs) rows text) (h' : HandFile mark sep (as ++ bs) rows text')
    (hn : 2 ≤ n) (hw : ∀ r ∈ rows, r.length = n) (h2 : 2 ≤ rows.length)
    (hst : SaysTable (as ++ l :: bs)) (hl : ∀ key ∈ tableFields, ∀ arg, ¬ Fills key.toList l arg)
    {kw : Kwargs F} (hnd : (kw.map Prod.fst).Nodup) (hp : PlainOptions kw) {p : String}
    (hk : Only kw "file_path" .text (.str p)) :
    AnswerAlike (loadText o ext text kw) (loadText o ext text' kw) :=
  same_said ho hf h h' hn hw h2 hst (fun key hkey _ hv => says_insert (hl key hkey) hv) hnd hp hk

/-- C158: a line counts by the beginning of the text in front of its colon. Two lines that fill the
same field with the same value are interchangeable, such as `Unit cell: nm` and `Unit: nm`. -/
theorem C158_taken {o : KeyOrder} (ho : o.Valid) {ext : String} {mark : Char}
    {sep : Option Char} (hf : TextFormat ext mark sep) {as bs : List (List Char)}
    {l l' : List Char} {n : ℕ} {rows : List (List F)} {text text' : List Char}
    (h : HandFile mark sep (as ++ l :: bs) rows text)
    (h' : HandFile mark sep (as ++ l' :: bs) rows text')
    (hn : 2 ≤ n) (hw : ∀ r ∈ rows, r.length = n) (h2 : 2 ≤ rows.length)
    (hst : SaysTable (as ++ l :: bs)) {key : String} (hkey : key ∈ tableFields) {arg : List Char}
    (hl : Fills key.toList l arg) (hl' : Fills key.toList l' arg)
    {kw : Kwargs F} (hnd : (kw.map Prod.fst).Nodup) (hp : PlainOptions kw) {p : String}
    (hk : Only kw "file_path" .text (.str p)) :
    AnswerAlike (loadText o ext text kw) (loadText o ext text' kw) := by
  have hd : ∀ k ∈ tableFields, k ∈ datasetFields := by decide
  exact same_said ho hf h h' hn hw h2 hst (fun k hk' _ hv =>
    says_replace (fills_alike (hd _ hkey) (hd _ hk') hl hl') hv) hnd hp hk

omit [NumText F] [YamlIO F] in
theorem table_named {t u : String} {a : NDArr F} {i j : ℕ} {r : RealData F}
    (h : specDataFromTable t u a i j = .ok r) : ∃ c, (lower t, lower u, c) ∈ names := by
  unfold specDataFromTable at h
  obtain ⟨rows, -, h⟩ := except_bind_ok h
  split at h
  · unfold RealData.newConstant at h
    obtain ⟨s, hs, -⟩ := except_bind_ok h
    exact ⟨_, (C01_stored _ _ _ _ hs).2.1⟩
  · unfold RealData.newInterp at h
    obtain ⟨lo, -, h⟩ := except_bind_ok h
    obtain ⟨hi, -, h⟩ := except_bind_ok h
    obtain ⟨s, hs, -⟩ := except_bind_ok h
    exact ⟨_, (C01_stored _ _ _ _ hs).2.1⟩

/-- C158: a header that gives, in whatever line, a unit that is not known makes the file unloadable,
for every kind of table, stated in the header or taken from the number of columns. -/
theorem C158_unknown_unit {o : KeyOrder} (ho : o.Valid) {ext : String} {mark : Char}
    {sep : Option Char} (hf : TextFormat ext mark sep) {header : List (List Char)} {n : ℕ}
    {rows : List (List F)} {text : List Char} (h : HandFile mark sep header rows text)
    (hn : 2 ≤ n) (hw : ∀ r ∈ rows, r.length = n) (h2 : 2 ≤ rows.length) {dt id : String}
    (hd : Says header "DataType" dt) (hid : id ∈ ["n", "k", "nk", "n_alpha", "eps"])
    (hdt : LineOf ["tabulated".toList, id.toList] (stated dt (columnType n)).toList) {u : String} (hu : Says header "Unit" u) (hne : u ≠ "")
    (hun : ∀ t c, (t, lower u, c) ∉ names) {kw : Kwargs F} (hnd : (kw.map Prod.fst).Nodup)
    (hp : PlainOptions kw) {p : String} (hk : Only kw "file_path" .text (.str p)) :
    ∃ e, loadText o ext text kw = .error e := by
  have hx : textFormat ext = some (mark, sep) := by cases hf <;> decide +kernel
  obtain ⟨t, ht⟩ := says_exists header "SpectrumType"
  obtain ⟨fd, d, r, a1, a2, a3, a4, a5, a6, -⟩ := table_dict ho hf h hn hw h2 hd ht hu
  obtain ⟨md, -, e⟩ := new_path hnd hp hk (text_hasMeta ho hx a1)
  unfold loadText
  rw [a1]
  simp only
  rw [e, a2, List.foldlM_cons]
  have key : ∀ m : Material F, ∃ e, processDataset m d = .error e := by
    intro m
    cases hr : processDataset m d with
    | error e => exact ⟨e, rfl⟩
    | ok m' =>
      exfalso
      unfold processDataset at hr
      have hs : splitTwo (stated dt (columnType n)) = .ok ("tabulated", id) := by
        rw [splitTwo, splitSpaces_line hdt]
        simp only [String.ofList_toList]
      simp only [Dataset.getStr, a4, bind, Except.bind, hs, if_true, a3] at hr
      split at hr
      · cases hr
      · rename_i a _
        have hget : ((Dataset.get d "Unit").nonEmptyStr).getD m.defUnit = u := by
          simp only [Dataset.get, a6, DVal.nonEmptyStr, if_neg hne, Option.getD_some]
        unfold processTable at hr
        simp only [hget] at hr
        simp only [List.mem_cons, List.not_mem_nil, or_false] at hid
        rcases hid with rfl | rfl | rfl | rfl | rfl <;>
        · simp only [String.reduceEq, if_true, if_false] at hr
          obtain ⟨x, hx', -⟩ := except_bind_ok hr
          obtain ⟨c, hc⟩ := table_named hx'
          exact hun _ _ hc
  obtain ⟨e, he⟩ := key { blankMaterial (parsedOf kw) with metaData := some md }
  rw [he]
  exact ⟨e, rfl⟩

/-! ## The property -/

/-- C158: a header line that is entitled with no field does not change the answers. -/
def C158_statement [SciPy Dbl] [YamlIO Dbl] : Prop :=
  ∀ (o : KeyOrder), o.Valid → ∀ (as bs : List (List Char))
    (l : List Char) (rows : List (List Dbl)) (text text' : List Char) (p : String),
    HandFile '#' Option.none (as ++ l :: bs) rows text →
    HandFile '#' Option.none (as ++ bs) rows text' → (∀ r ∈ rows, r.length = 2) →
    2 ≤ rows.length → SaysTable (as ++ l :: bs) → Remark l →
    AnswerAlike (loadText (F := Dbl) o ".txt" text [("file_path", .str p)])
      (loadText o ".txt" text' [("file_path", .str p)])

theorem entitled_letters {key : String} {l : List Char}
    (hk : ∀ c ∈ key.toList.map Char.toUpper, c ≠ ':' ∧ pySpace c = false) (h : Entitled key l) :
    ((l.takeWhile (· ≠ ':')).filter (fun c => !pySpace c)).map Char.toUpper =
      key.toList.map Char.toUpper := by
  obtain ⟨b, w, p, r, rfl, hb, hw, hp⟩ := h
  have hs : ∀ c, pySpace c = true → c ≠ ':' := by rintro c hc rfl; exact absurd hc (by decide)
  have hwc : ∀ c ∈ w, c ≠ ':' ∧ pySpace c = false := by
    intro c hc
    have := hk c.toUpper (hw ▸ List.mem_map_of_mem hc)
    refine ⟨?_, by rw [← upper_space]; exact this.2⟩
    rintro rfl
    exact this.1 (by decide)
  have ht : (b ++ w ++ p ++ ':' :: r).takeWhile (· ≠ ':') = b ++ w ++ p := by
    rw [List.takeWhile_append_of_pos (by
      intro c hc
      simp only [List.mem_append] at hc
      rcases hc with (hc | hc) | hc
      · simpa using hs c (hb c hc)
      · simpa using (hwc c hc).1
      · simpa using hs c (hp c hc))]
    simp
  rw [ht, List.filter_append, List.filter_append,
    show b.filter (fun c => !pySpace c) = [] from
      List.filter_eq_nil_iff.2 (by intro c hc; simp [hb c hc]),
    show p.filter (fun c => !pySpace c) = [] from
      List.filter_eq_nil_iff.2 (by intro c hc; simp [hp c hc]),
    show w.filter (fun c => !pySpace c) = w from
      List.filter_eq_self.2 (by intro c hc; simp [(hwc c hc).2])]
  simpa using hw

/-- `Unit cell: cubic` is a remark. -/
theorem cubic_remark : Remark " Unit cell: cubic".toList := by
  intro key hk h
  have shape : ∀ key ∈ fileFields ++ datasetFields,
      (∀ c ∈ key.toList.map Char.toUpper, c ≠ ':' ∧ pySpace c = false) ∧
      ((" Unit cell: cubic".toList.takeWhile (· ≠ ':')).filter (fun c => !pySpace c)).map
        Char.toUpper ≠ key.toList.map Char.toUpper := by decide +kernel
  exact (shape key hk).2 (entitled_letters (shape key hk).1 h)

theorem cubic_role (key : String) (hk : key ∈ datasetFields) (arg : List Char) :
    Fills key.toList " Unit cell: cubic".toList arg ↔ key = "Unit" ∧ arg = "cubic".toList := by
  have ho : (⟨fileMetaKeys, datasetMetaKeys⟩ : KeyOrder).Valid := ⟨.refl _, .refl _⟩
  have e : lineRole ⟨fileMetaKeys, datasetMetaKeys⟩ " Unit cell: cubic".toList =
    .dataset "Unit" "cubic".toList := by decide +kernel
  constructor
  · intro h
    have := (C44_dataset_field ho _ _ _).2 ⟨hk, h⟩
    rw [e] at this
    cases this
    exact ⟨rfl, rfl⟩
  · rintro ⟨rfl, rfl⟩
    exact ((C44_dataset_field ho _ _ _).1 e).2

omit [PyFloat F] [SciPy F] [YamlIO F] in
theorem other_header {mark : Char} {sep : Option Char} {header header' : List (List Char)}
    {rows : List (List F)} {text : List Char} (h : HandFile mark sep header rows text)
    (hh : ∀ l ∈ header', OneLine l) : ∃ text', HandFile mark sep header' rows text' := by
  obtain ⟨⟨nl, ls, h1, h2, -⟩, -⟩ := h
  exact ⟨_, ⟨nl, ls, h1, h2, rfl⟩, hh⟩

/-- C158 is refuted: a file in micrometres, and the same with the remark `Unit cell: cubic` at the
end of its header. -/
theorem C158_refuted [SciPy Dbl] [YamlIO Dbl] : ¬ C158_statement := by
  intro H
  have ho : (⟨fileMetaKeys, datasetMetaKeys⟩ : KeyOrder).Valid := ⟨.refl _, .refl _⟩
  obtain ⟨s1, s2, s3⟩ := micron_says
  obtain ⟨text, ht⟩ := other_header micron_table
    (header' := [" measured at room temperature".toList, " unit: um".toList] ++
      " Unit cell: cubic".toList :: []) (by unfold OneLine; decide +kernel)
  have hno : ∀ arg, ¬ Fills "DataType".toList " Unit cell: cubic".toList arg := fun arg ha =>
    absurd ((cubic_role _ (by decide) _).1 ha).1 (by decide)
  have hd : Says ([" measured at room temperature".toList, " unit: um".toList] ++
      " Unit cell: cubic".toList :: []) "DataType" "" := by
    obtain ⟨v, hv⟩ := says_exists ([" measured at room temperature".toList,
      " unit: um".toList] ++ " Unit cell: cubic".toList :: []) "DataType"
    rcases hv with ⟨as, l, bs, he, h1, -⟩ | ⟨rfl, h1⟩
    · have hl : l ∈ [" measured at room temperature".toList, " unit: um".toList] ++
        " Unit cell: cubic".toList :: [] := by rw [he]; simp
      simp only [List.mem_append, List.mem_cons, List.not_mem_nil, or_false] at hl
      rcases hl with (rfl | rfl) | rfl
      · exact absurd h1 (fills_no_colon (by decide +kernel))
      · exact absurd h1 (unit_line (by decide) _)
      · exact absurd h1 (hno _)
    · exact .inr ⟨rfl, h1⟩
  have hu : Says ([" measured at room temperature".toList, " unit: um".toList] ++
      " Unit cell: cubic".toList :: []) "Unit" "cubic" :=
    .inl ⟨_, _, [], rfl, (cubic_role _ (by decide) _).2 ⟨rfl, rfl⟩, by simp⟩
  obtain ⟨k1, k2⟩ := only_single (F := Dbl) (n := "file_path") (t := .text) (by decide)
    (v := .str "a.txt") (by simp)
  have hw : ∀ r ∈ micronRows, r.length = 2 := by simp [micronRows]
  obtain ⟨e, he⟩ := C158_unknown_unit ho .txt ht (by norm_num) hw (by simp [micronRows]) hd
    (id := "n") (by decide) (tabulated_line "n" (by unfold Word; decide +kernel)) hu (by decide) (by
      intro t c hc
      have : ∀ x ∈ names, x.2.1 ≠ lower "cubic" := by decide +kernel
      exact this _ hc rfl) k1
    (plain_single (F := Dbl) (n := "file_path") (by decide) (by decide)) k2
  obtain ⟨fd, r', m, m', f1, f2, -⟩ := micron_loads (fun _ => .error .value) _ ho
  have hst : SaysTable ([" measured at room temperature".toList, " unit: um".toList] ++
      " Unit cell: cubic".toList :: []) := by
    intro dt hdt
    rcases hdt with ⟨as, l, bs, he, h1, -⟩ | ⟨rfl, h1⟩
    · exfalso
      have hl : l ∈ [" measured at room temperature".toList, " unit: um".toList] ++
        " Unit cell: cubic".toList :: [] := by rw [he]; simp
      simp only [List.mem_append, List.mem_cons, List.not_mem_nil, or_false] at hl
      rcases hl with (rfl | rfl) | rfl
      · exact absurd h1 (fills_no_colon (by decide +kernel))
      · exact absurd h1 (unit_line (by decide) _)
      · exact absurd h1 (hno _)
    · exact .inl rfl
  have := H _ ho _ [] _ _ _ _ "a.txt" ht micron_table hw (by simp [micronRows]) hst
    cubic_remark
  rw [he] at this
  unfold loadText at this
  rw [f1] at this
  simp only at this
  rw [f2] at this
  cases this

/-- A case of `C158_harmless_partial`: the remark `measured at room temperature` may be left out. -/
example [SciPy Dbl] [YamlIO Dbl] (o : KeyOrder) (ho : o.Valid) : ∃ text,
    HandFile '#' Option.none [" unit: um".toList] micronRows text ∧
    AnswerAlike (loadText (F := Dbl) o ".txt" micronFile [("file_path", .str "a.txt")])
      (loadText o ".txt" text [("file_path", .str "a.txt")]) := by
  obtain ⟨text, ht⟩ := other_header micron_table (header' := [" unit: um".toList])
    (by unfold OneLine; decide +kernel)
  obtain ⟨k1, k2⟩ := only_single (F := Dbl) (n := "file_path") (t := .text) (by decide)
    (v := .str "a.txt") (by simp)
  refine ⟨text, ht, C158_harmless_partial ho .txt (as := []) micron_table ht (n := 2) (by norm_num)
    (by simp [micronRows]) (by simp [micronRows]) ?_ ?_ k1
    (plain_single (F := Dbl) (n := "file_path") (by decide) (by decide)) k2⟩
  · intro dt hdt
    rcases hdt with ⟨as, l, bs, he, h1, -⟩ | ⟨rfl, -⟩
    · have hl : l ∈ [" measured at room temperature".toList, " unit: um".toList] := by
        have : l ∈ as ++ l :: bs := by simp
        rw [← he] at this
        exact this
      simp only [List.mem_cons, List.not_mem_nil, or_false] at hl
      rcases hl with rfl | rfl
      · exact absurd h1 (fills_no_colon (by decide +kernel))
      · exact absurd h1 (unit_line (by decide) _)
    · exact .inl rfl
  · exact fun _ _ _ => fills_no_colon (by decide +kernel)

/-- A case for `C158_taken`: both lines fill the unit with `nm`. -/
example : Fills "Unit".toList " Unit cell: nm".toList "nm".toList ∧
    Fills "Unit".toList " Unit: nm".toList "nm".toList := by
  have ho : (⟨fileMetaKeys, datasetMetaKeys⟩ : KeyOrder).Valid := ⟨.refl _, .refl _⟩
  exact ⟨((C44_dataset_field ho _ "Unit" _).1 (by decide +kernel)).2,
    ((C44_dataset_field ho _ "Unit" _).1 (by decide +kernel)).2⟩

end Disp

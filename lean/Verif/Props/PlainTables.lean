import Verif.Props.RiiNames
import Verif.Props.TextMaterials
import Verif.Props.NumpyText
import Verif.Props.DoubleMixtures
/-!
# C147: text files that were written by hand
-/

namespace Disp

open Spec

namespace Spec

/-- The formats of text files: the extension, the mark of header lines, and the separator of the
columns (`none`: white space). -/
inductive TextFormat : String → Char → Option Char → Prop
  | txt : TextFormat ".txt" '#' none
  | csv : TextFormat ".csv" '#' (some ',')
  | nk : TextFormat ".nk" ';' none

/-- The ends of lines on Unix and on Windows. -/
inductive LineEnd : List Char → Prop
  | unix : LineEnd ['\n']
  | windows : LineEnd ['\r', '\n']

/-- Words with a separator between them, and white space around them. -/
inductive SepLine (d : Char) : List (List Char) → List Char → Prop
  | last {s w e : List Char} (hs : ∀ c ∈ s, pySpace c = true) (hw : Word w) (hd : d ∉ w)
      (he : ∀ c ∈ e, pySpace c = true) : SepLine d [w] (s ++ w ++ e)
  | more {s w e l : List Char} {ws : List (List Char)} (hs : ∀ c ∈ s, pySpace c = true)
      (hw : Word w) (hd : d ∉ w) (he : ∀ c ∈ e, pySpace c = true) (h : SepLine d ws l) :
      SepLine d (w :: ws) (s ++ w ++ e ++ d :: l)

/-- The words of a line. -/
def Words : Option Char → List (List Char) → List Char → Prop
  | none => LineOf
  | some d => SepLine d

/-- The line shows the numbers of a row. -/
structure ShowsRow {F : Type} [NumText F] (sep : Option Char) (r : List F) (l : List Char) : Prop where
  words : ∃ ws, Words sep ws l ∧ List.Forall₂ Reads ws r
  plain : ∀ c ∈ l, c ≠ '\n' ∧ c ≠ '\r' ∧ c ≠ '#' ∧ c ≠ ';'

/-- The text of a file: a header and rows of numbers. -/
structure HandFile {F : Type} [NumText F] (mark : Char) (sep : Option Char)
    (header : List (List Char)) (rows : List (List F)) (text : List Char) : Prop where
  lines : ∃ nl ls, LineEnd nl ∧ List.Forall₂ (ShowsRow sep) rows ls ∧
    text = (header.map (mark :: ·) ++ ls).flatMap (· ++ nl)
  header : ∀ l ∈ header, OneLine l

/-- What the header says of a field: the value in the last of the lines that fill it, or nothing. -/
def Says (header : List (List Char)) (key v : String) : Prop :=
  (∃ as l bs, header = as ++ l :: bs ∧ Fills key.toList l v.toList ∧
    ∀ m ∈ bs, ∀ arg, ¬ Fills key.toList m arg) ∨
  (v = "" ∧ ∀ l ∈ header, ∀ arg, ¬ Fills key.toList l arg)

/-- What is stated counts, and the default otherwise. -/
def stated (v x : String) : String := if v = "" then x else v

end Spec

/-! ## Lines -/

theorem universal_append {l r : List Char} (h : '\r' ∉ l) : universal (l ++ r) = l ++ universal r := by
  induction l with
  | nil => rfl
  | cons c l ih =>
    rw [List.cons_append, universal, if_neg (by rintro rfl; exact h (List.mem_cons_self ..)),
      ih (fun hm => h (List.mem_cons_of_mem _ hm))]
    rfl

theorem universal_lines {nl : List Char} (hn : LineEnd nl) {ls : List (List Char)}
    (h : ∀ l ∈ ls, '\r' ∉ l) : universal (ls.flatMap (· ++ nl)) = ls.flatMap (· ++ ['\n']) := by
  induction ls with
  | nil => rfl
  | cons l ls ih =>
    have ih := ih (fun m hm => h m (List.mem_cons_of_mem _ hm))
    rw [List.flatMap_cons, List.flatMap_cons, List.append_assoc,
      universal_append (h l (List.mem_cons_self ..)), List.append_assoc]
    congr 1
    cases hn with
    | unix =>
      rw [List.singleton_append, universal, if_neg (by decide), ih]
    | windows =>
      rw [List.cons_append, universal, if_pos rfl, if_pos (by rfl), List.singleton_append, universal,
        if_neg (by decide), ih]
      rfl

theorem split_lines {ls : List (List Char)} (h : ∀ l ∈ ls, '\n' ∉ l) :
    splitOnChar '\n' (ls.flatMap (· ++ ['\n'])) = ls ++ [[]] := by
  induction ls with
  | nil => rfl
  | cons l ls ih =>
    rw [List.flatMap_cons, List.append_assoc, List.singleton_append,
      splitOnChar_append (h l (List.mem_cons_self ..)), ih (fun m hm => h m (List.mem_cons_of_mem _ hm))]
    rfl

theorem splitLines_end {nl : List Char} (hn : LineEnd nl) {b rest : List Char} (h : OneLine b) :
    splitLines (b ++ (nl ++ rest)) = (b ++ nl) :: splitLines rest := by
  cases hn with
  | unix => exact splitLines_line h
  | windows =>
    induction b with
    | nil =>
      have h1 : splitLines ('\n' :: rest) = ['\n'] :: splitLines rest := by
        rw [splitLines, if_pos (by simp [isLineEnd_nl])]
      show splitLines ('\r' :: '\n' :: rest) = _
      rw [splitLines, if_neg (by simp), h1]
      rfl
    | cons c b ih =>
      have hc := h c (List.mem_cons_self ..)
      rw [List.cons_append, splitLines, if_neg (by simp [hc]),
        ih (fun d hd => h d (List.mem_cons_of_mem _ hd))]
      rfl

theorem readComment_header {nl : List Char} (hn : LineEnd nl) {mark : Char}
    (hm : mark = '#' ∨ mark = ';') {bs : List (List Char)} {rest : List Char}
    (h : ∀ b ∈ bs, OneLine b) (hr : ∀ c ∈ rest.head?, c ≠ '#' ∧ c ≠ ';') :
    readComment ((bs.map (mark :: ·)).flatMap (· ++ nl) ++ rest) = bs := by
  induction bs with
  | nil =>
    rw [List.map_nil, List.flatMap_nil, List.nil_append, readComment]
    cases rest with
    | nil => rfl
    | cons c cs =>
      obtain ⟨l, ls, he⟩ := splitLines_cons c cs
      have := hr c rfl
      rw [he, commentLines, if_neg (by simp [this])]
  | cons b bs ih =>
    have hb := h b (List.mem_cons_self ..)
    have h1 : OneLine (mark :: b) := by
      intro c hc
      rcases List.mem_cons.1 hc with rfl | hc
      · rcases hm with rfl | rfl <;> decide
      · exact hb c hc
    rw [List.map_cons, List.flatMap_cons, List.append_assoc, List.append_assoc, readComment,
      splitLines_end hn h1, List.cons_append, commentLines, if_pos hm]
    have h2 : rstripNl (b ++ nl) = b := by
      rw [rstripNl_append (by intro c hc; cases hn <;> simp at hc <;> tauto), hb.rstripNl]
    rw [h2]
    congr 1
    exact ih (fun c hc => h c (List.mem_cons_of_mem _ hc))

/-! ## Rows -/

theorem sepLine_fields {d : Char} (hd : pySpace d = false) {ws : List (List Char)} {l : List Char}
    (h : SepLine d ws l) : l ≠ [] ∧ (splitOnChar d l).map (fun f => lstrip (rstrip f)) = ws := by
  have blank : ∀ {s : List Char}, (∀ c ∈ s, pySpace c = true) → d ∉ s := by
    intro s hs hm
    rw [hs d hm] at hd
    cases hd
  have strip : ∀ {s w e : List Char}, (∀ c ∈ s, pySpace c = true) → Word w →
      (∀ c ∈ e, pySpace c = true) → lstrip (rstrip (s ++ w ++ e)) = w := by
    intro s w e hs hw he
    rw [rstrip_blank he, rstrip_append (isBlank_word hw), lstrip_blank hs]
    exact strip_word hw
  induction h with
  | @last s w e hs hw hdw he =>
    refine ⟨by have := hw.1; simp [this], ?_⟩
    rw [splitOnChar_none (by simp [blank hs, hdw, blank he]), List.map_cons, strip hs hw he]
    rfl
  | @more s w e l ws hs hw hdw he _ ih =>
    refine ⟨by simp, ?_⟩
    rw [splitOnChar_append (by simp [blank hs, hdw, blank he]), List.map_cons, strip hs hw he, ih.2]

section
variable {F : Type} [NumText F]

theorem shows_fields {ext : String} {mark : Char} {sep : Option Char} (hf : TextFormat ext mark sep)
    {r : List F} {l : List Char} (h : ShowsRow sep r l) :
    (fieldsOf mark sep l).mapM NumText.parseFloat = .ok r ∧
    (fieldsOf mark sep l).length = r.length := by
  obtain ⟨⟨ws, h1, h2⟩, h3⟩ := h
  have hm : mark = '#' ∨ mark = ';' := by cases hf <;> simp
  have hcut : l.takeWhile (· ≠ mark) = l := by
    refine takeWhile_all (fun c hc => ?_)
    obtain ⟨-, -, k1, k2⟩ := h3 c hc
    rcases hm with rfl | rfl
    · simpa using k1
    · simpa using k2
  have key : fieldsOf mark sep l = ws := by
    simp only [fieldsOf, hcut]
    cases hf with
    | txt => exact splitSpaces_line h1
    | nk => exact splitSpaces_line h1
    | csv =>
      obtain ⟨g1, g2⟩ := sepLine_fields (d := ',') (by decide) h1
      simp only [if_neg g1, g2]
  rw [key]
  exact ⟨mapM_reads h2, h2.length_eq⟩

theorem loadRows_table {ext : String} {mark : Char} {sep : Option Char}
    (hf : TextFormat ext mark sep) (bs : List (List Char)) {rows : List (List F)}
    {ls : List (List Char)} (h : List.Forall₂ (ShowsRow sep) rows ls) (hne : ∀ r ∈ rows, r ≠ []) :
    loadRows mark sep (bs.map (mark :: ·) ++ ls ++ [[]]) = .ok rows := by
  have empty : fieldsOf mark sep [] = [] := by cases hf <;> simp [fieldsOf, splitSpaces]
  induction bs with
  | nil =>
    rw [List.map_nil, List.nil_append]
    induction h with
    | nil => simp [loadRows, empty]
    | @cons r l rows ls hr _ ih =>
      obtain ⟨h1, h2⟩ := shows_fields hf hr
      have ih := ih (fun q hq => hne q (List.mem_cons_of_mem _ hq))
      have hr0 := hne r (List.mem_cons_self ..)
      rw [List.cons_append, loadRows]
      cases hw : fieldsOf mark sep l with
      | nil =>
        rw [hw] at h2
        exact absurd (List.length_eq_zero_iff.1 h2.symm) hr0
      | cons w ws =>
        rw [hw] at h1
        simp only [h1, ih, bind, Except.bind]
  | cons b bs ih =>
    have : fieldsOf mark sep (mark :: b) = [] := by
      have hc : (mark :: b).takeWhile (· ≠ mark) = [] := by simp
      simp only [fieldsOf, hc]
      cases hf <;> simp [splitSpaces]
    rw [List.map_cons, List.cons_append, List.cons_append, loadRows, this]
    exact ih

/-- The table and the header of a file. -/
theorem table_read {ext : String} {mark : Char} {sep : Option Char} (hf : TextFormat ext mark sep)
    {header : List (List Char)} {rows : List (List F)} {text : List Char}
    (h : HandFile mark sep header rows text) (hne : ∀ r ∈ rows, r ≠ []) :
    loadtxt mark sep text = squeezeRows rows ∧ readComment text = header := by
  obtain ⟨⟨nl, ls, hn, hl, rfl⟩, hh⟩ := h
  have hm : mark = '#' ∨ mark = ';' := by cases hf <;> simp
  have plain : ∀ l ∈ ls, ∀ c ∈ l, c ≠ '\n' ∧ c ≠ '\r' ∧ c ≠ '#' ∧ c ≠ ';' := by
    intro l hlm
    obtain ⟨i, hi, rfl⟩ := List.mem_iff_getElem.1 hlm
    have hi' : i < rows.length := by rw [hl.length_eq]; exact hi
    exact (hl.get hi' hi).plain
  have hmark : '\r' ≠ mark ∧ '\n' ≠ mark := by rcases hm with rfl | rfl <;> decide
  constructor
  · rw [loadtxt, universal_lines hn, split_lines, loadRows_table hf header hl hne]
    · rfl
    · intro l hlm hc
      rcases List.mem_append.1 hlm with k | k
      · obtain ⟨b, hb, rfl⟩ := List.mem_map.1 k
        rcases List.mem_cons.1 hc with e | hc
        · exact hmark.2 e
        · exact (hh b hb).nl hc
      · exact (plain l k _ hc).1 rfl
    · intro l hlm hc
      rcases List.mem_append.1 hlm with k | k
      · obtain ⟨b, hb, rfl⟩ := List.mem_map.1 k
        rcases List.mem_cons.1 hc with e | hc
        · exact hmark.1 e
        · exact (hh b hb).cr hc
      · exact (plain l k _ hc).2.1 rfl
  · rw [List.flatMap_append]
    refine readComment_header hn hm hh ?_
    intro c hc
    cases ls with
    | nil => simp at hc
    | cons l ls =>
      rw [List.flatMap_cons] at hc
      cases l with
      | nil =>
        -- a line of numbers is not empty
        cases hn <;> simp at hc <;> subst hc <;> decide
      | cons d l =>
        have : d = c := by simpa using hc
        subst this
        exact (plain _ (List.mem_cons_self ..) d (List.mem_cons_self ..)).2.2

/-! ## Fields -/

theorem says_data {o : KeyOrder} (ho : o.Valid) {cs : List (List Char)} {key v : String}
    (hk : key ∈ datasetFields) (h : Says cs key v) (a : NDArr F) (r : Reader F) :
    dictGet (cs.foldl (textStep o) (r.textStart o a)).dataset key = .ok (.str v) := by
  have hne : key ≠ "Data" := by rintro rfl; exact absurd hk (by decide)
  rcases h with ⟨as, l, bs, rfl, h1, h2⟩ | ⟨rfl, h1⟩
  · rw [fold_data_set as bs _ ((C44_dataset_field ho _ _ _).2 ⟨hk, h1⟩)
      (fun m hm arg hr => h2 m hm arg ((C44_dataset_field ho _ _ _).1 hr).2)]
    simp
  · rw [fold_data_keep cs _ (fun l hl arg hr => h1 l hl arg ((C44_dataset_field ho _ _ _).1 hr).2)]
    show dictGet (dictSet (defaultDataset o) "Data" (.arr a)) key = _
    rw [dictGet_set, if_neg hne.symm, defaultDataset, dictGet_const, if_pos]
    exact ho.2.mem_iff.2 hk

theorem data_kept {o : KeyOrder} (ho : o.Valid) (cs : List (List Char)) (a : NDArr F)
    (r : Reader F) :
    dictGet (cs.foldl (textStep o) (r.textStart o a)).dataset "Data" = .ok (.arr a) := by
  rw [fold_data_keep cs _ (fun l hl arg hr => absurd ((C44_dataset_field ho _ _ _).1 hr).1 (by decide))]
  show dictGet (dictSet (defaultDataset o) "Data" (.arr a)) "Data" = _
  rw [dictGet_set, if_pos rfl]

theorem says_meta {o : KeyOrder} (ho : o.Valid) {cs : List (List Char)} {key v : String}
    (hk : key ∈ fileFields) (h : Says cs key v) (a : NDArr F) :
    dictGet (cs.foldl (textStep o) ((Reader.fresh o : Reader F).textStart o a)).metaData key =
      .ok (.str v) := by
  rcases h with ⟨as, l, bs, rfl, h1, h2⟩ | ⟨rfl, h1⟩
  · rw [fold_meta_set as bs _ ((C44_file_field ho _ _ _).2 ⟨hk, h1⟩)
      (fun m hm arg hr => h2 m hm arg ((C44_file_field ho _ _ _).1 hr).2)]
    simp
  · rw [fold_meta_keep cs _ (fun l hl arg hr => h1 l hl arg ((C44_file_field ho _ _ _).1 hr).2)]
    show dictGet (defaultMeta o) key = _
    rw [defaultMeta, dictGet_const, if_pos]
    exact ho.1.mem_iff.2 hk

end

/-! ## Materials -/

section
variable {F : Type} [PyFloat F] [SciPy F] [NumText F] [YamlIO F]

omit [PyFloat F] [SciPy F] [NumText F] [YamlIO F] in
theorem get_stated {d : Dataset F} {k v : String} (h : dictGet d k = .ok (.str v)) (x : String) :
    ((d.get k).nonEmptyStr).getD x = stated v x := by
  rw [Dataset.get, h]
  show (if v = "" then Option.none else some v).getD x = _
  unfold stated
  split <;> rfl

/-- The type that the number of columns stands for. -/
def Spec.columnType : ℕ → String
  | 2 => "tabulated n"
  | 3 => "tabulated nk"
  | _ => ""

/-- What the reader makes of the file. -/
theorem table_dict {o : KeyOrder} (ho : o.Valid) {ext : String} {mark : Char} {sep : Option Char}
    (hf : TextFormat ext mark sep) {header : List (List Char)} {n : ℕ} {rows : List (List F)}
    {text : List Char} (h : HandFile mark sep header rows text) (hn : 2 ≤ n)
    (hw : ∀ r ∈ rows, r.length = n) (h2 : 2 ≤ rows.length) {dt t u : String}
    (hd : Says header "DataType" dt) (ht : Says header "SpectrumType" t)
    (hu : Says header "Unit" u) :
    ∃ (fd : FileDict F) (d : Dataset F) (r' : Reader F),
      (Reader.fresh o : Reader F).readFile o ext text = (.ok fd, r') ∧ fd.datasets = [d] ∧
      dictGet d "Data" = .ok (.arr (.d2 n .float rows)) ∧
      dictGet d "DataType" = .ok (.str (stated dt (columnType n))) ∧
      dictGet d "SpectrumType" = .ok (.str t) ∧ dictGet d "Unit" = .ok (.str u) ∧
      ∀ key ∈ textFields, ∀ v, Says header key v → dictGet fd.metaData key = .ok (.str v) := by
  obtain ⟨h3, h4⟩ := table_read hf h (by
    rintro r hr rfl
    have := hw [] hr
    simp at this; omega)
  obtain ⟨a, a1, a2⟩ := squeezeRows_ok hw
  have a2 := a2 h2 hn
  subst a2
  rw [a1] at h3
  have hx : textFormat ext = some (mark, sep) := by cases hf <;> decide +kernel
  set S := header.foldl (textStep o) ((Reader.fresh o : Reader F).textStart o (.d2 n .float rows))
    with hS
  have s1 : dictGet S.dataset "DataType" = .ok (.str dt) := says_data ho (by decide) hd _ _
  have s2 : dictGet S.dataset "SpectrumType" = .ok (.str t) := says_data ho (by decide) ht _ _
  have s3 : dictGet S.dataset "Unit" = .ok (.str u) := says_data ho (by decide) hu _ _
  have s4 : dictGet S.dataset "Data" = .ok (.arr (.d2 n .float rows)) := data_kept ho _ _ _
  have hinf : ∃ d, inferType S.dataset = .ok d ∧
      dictGet d "DataType" = .ok (.str (stated dt (columnType n))) ∧
      ∀ k, k ≠ "DataType" → dictGet d k = dictGet S.dataset k := by
    unfold inferType
    rw [s1]
    simp only [Dataset.get, s4]
    unfold stated
    by_cases h0 : dt = ""
    · rw [if_pos h0, if_pos h0]
      by_cases k3 : n = 3
      · subst k3
        refine ⟨_, if_pos rfl, by rw [dictGet_set, if_pos rfl]; rfl, fun k hk => ?_⟩
        rw [dictGet_set, if_neg hk.symm]
      · rw [if_neg k3]
        by_cases k2 : n = 2
        · subst k2
          refine ⟨_, if_pos rfl, by rw [dictGet_set, if_pos rfl]; rfl, fun k hk => ?_⟩
          rw [dictGet_set, if_neg hk.symm]
        · rw [if_neg k2]
          refine ⟨_, rfl, ?_, fun _ _ => rfl⟩
          rw [s1, h0]
          congr 2
          unfold columnType
          split <;> simp_all
    · rw [if_neg h0, if_neg h0]
      exact ⟨_, rfl, s1, fun _ _ => rfl⟩
  obtain ⟨d, d1, d2, d3⟩ := hinf
  have hread : (Reader.fresh o : Reader F).readFile o ext text =
      (Reader.fresh o : Reader F).textResult S := by
    unfold Reader.readFile
    rw [hx]
    simp only [Reader.readText, h3, h4]
    rfl
  unfold Reader.textResult at hread
  rw [d1] at hread
  refine ⟨_, d, _, hread, rfl, by rw [d3 _ (by decide), s4], d2, by rw [d3 _ (by decide), s2],
    by rw [d3 _ (by decide), s3], ?_⟩
  · intro key hk v hv
    have : ∀ k ∈ textFields, k ∈ fileFields := by decide
    have hm := says_meta (F := F) ho (key := key) (v := v) (this key hk) hv (.d2 n .float rows)
    rw [← hS] at hm
    have hne : "MetaComment" ≠ key := by rintro rfl; exact absurd hk (by decide)
    show dictGet (if S.multi = [] then _ else _) key = _
    split
    · exact hm
    · rw [dictGet_set, if_neg hne]
      exact hm

/-- The argument of the constructor that takes a table of so many columns. -/
inductive Spec.ColumnArg : ℕ → String → Prop
  | index : ColumnArg 2 "tabulated_n"
  | both : ColumnArg 3 "tabulated_nk"

omit [YamlIO F] in
theorem load_n_stated (m : Material F) {d : Dataset F} {v : DVal F} {rows : List (List F)}
    {t u : String}
    (hd : dictGet d "DataType" = .ok (.str "tabulated n")) (hv : dictGet d "Data" = .ok v)
    (hs : strTableToNumeric v.asTable = .ok (.d2 2 .float rows)) (hw : ∀ r ∈ rows, r.length = 2)
    (ht : dictGet d "SpectrumType" = .ok (.str t)) (hu : dictGet d "Unit" = .ok (.str u))
    {a : RealData F} (ha : tableData .float (pairsOf rows 1) (stated t m.defType)
      (stated u m.defUnit) = .ok a) :
    processDataset m d = .ok { m with
      defType := stated t m.defType, defUnit := stated u m.defUnit, name := "nk", real := some a } := by
  unfold processDataset
  simp only [Dataset.getStr, hd, bind, Except.bind,
    show splitTwo "tabulated n" = .ok ("tabulated", "n") from by decide +kernel, if_true, hv, hs]
  unfold processTable
  simp only [get_stated ht, get_stated hu, specData_eq hw (show 1 < 2 by omega),
    show ¬ ("n" = "nk") from by decide, show ¬ ("n" = "n_alpha") from by decide, if_false, if_true,
    ha, bind, Except.bind]

omit [YamlIO F] in
theorem load_nk_stated (m : Material F) {d : Dataset F} {v : DVal F} {rows : List (List F)}
    {t u : String}
    (hd : dictGet d "DataType" = .ok (.str "tabulated nk")) (hv : dictGet d "Data" = .ok v)
    (hs : strTableToNumeric v.asTable = .ok (.d2 3 .float rows)) (hw : ∀ r ∈ rows, r.length = 3)
    (ht : dictGet d "SpectrumType" = .ok (.str t)) (hu : dictGet d "Unit" = .ok (.str u))
    {a b : RealData F} (ha : tableData .float (pairsOf rows 1) (stated t m.defType)
      (stated u m.defUnit) = .ok a)
    (hb : tableData .float (pairsOf rows 2) (stated t m.defType) (stated u m.defUnit) = .ok b) :
    processDataset m d = .ok { m with
      defType := stated t m.defType, defUnit := stated u m.defUnit, name := "nk", real := some a, imag := some b } := by
  unfold processDataset
  simp only [Dataset.getStr, hd, bind, Except.bind,
    show splitTwo "tabulated nk" = .ok ("tabulated", "nk") from by decide +kernel, if_true, hv, hs]
  unfold processTable
  simp only [get_stated ht, get_stated hu, specData_eq hw (show 1 < 3 by omega),
    specData_eq hw (show 2 < 3 by omega), if_true, ha, hb, bind, Except.bind]

/-- C147: a text file of two or three columns of numbers, at least two rows, with or without a
header, in the layout of its extension and with the line ends of Unix or Windows, makes the same
material as its table given as the argument `tabulated_n` or `tabulated_nk`. The spectrum type and
the unit are the ones of the header, or of the call where the header does not state them; the
metadata are the ones of the header, the last statement counting, or empty. -/
theorem C147_table [LawfulCmp F] {o : KeyOrder} (ho : o.Valid) {ext : String} {mark : Char}
    {sep : Option Char} (hf : TextFormat ext mark sep) {header : List (List Char)} {n : ℕ}
    {arg : String} (hna : ColumnArg n arg) {rows : List (List F)} {text : List Char}
    (h : HandFile mark sep header rows text) (hg : GoodTable n rows) (h2 : 2 ≤ rows.length)
    {dt t u : String} (hd : Says header "DataType" dt) (hdt : dt = "" ∨ dt = columnType n)
    (ht : Says header "SpectrumType" t) (hu : Says header "Unit" u)
    {kw kw' : Kwargs F} (hnd : (kw.map Prod.fst).Nodup) (hp : PlainOptions kw) {p : String}
    (hk : Only kw "file_path" .text (.str p)) (hnd' : (kw'.map Prod.fst).Nodup)
    (hp' : PlainOptions kw') (hk' : Only kw' arg (.table n) (.arr (.d2 n .float rows)))
    (hst : (defaultsOf kw').1 = stated t (defaultsOf kw).1)
    (hun : (defaultsOf kw').2 = stated u (defaultsOf kw).2) {c : String}
    (hc : (lower (defaultsOf kw').1, lower (defaultsOf kw').2, c) ∈ names)
    (rd : String → Res (FileDict F)) :
    ∃ (fd : FileDict F) (r' : Reader F) (m m' : Material F) (md : List (String × MetaVal)),
      (Reader.fresh o : Reader F).readFile o ext text = (.ok fd, r') ∧
      Material.new (fun _ => .ok fd) kw = .ok m ∧ Material.new rd kw' = .ok m' ∧
      m.name = m'.name ∧ m.real = m'.real ∧ m.imag = m'.imag ∧ m.cplx = m'.cplx ∧
      m.defType = m'.defType ∧ m.defUnit = m'.defUnit ∧ m.metaData = some md ∧
      ∀ key ∈ textFields, ∀ v, Says header key v → dictGet md key = .ok (.str v) := by
  have hn : 2 ≤ n := by cases hna <;> omega
  have hx : textFormat ext = some (mark, sep) := by cases hf <;> decide +kernel
  obtain ⟨fd, d, r', f1, f2, f3, f4, f5, f6, f7⟩ := table_dict ho hf h hn hg.width h2 hd ht hu
  obtain ⟨md, m1, m2⟩ := new_path hnd hp hk (text_hasMeta ho hx f1)
  have hdt' : stated dt (columnType n) = columnType n := by
    unfold stated
    rcases hdt with rfl | rfl
    · rfl
    · split <;> rfl
  rw [hdt'] at f4
  rw [f2] at m2
  have htf : ∀ key ∈ textFields, key ∈ fileKeys := by decide
  have hmd : ∀ key ∈ textFields, ∀ v, Says header key v → dictGet md key = .ok (.str v) :=
    fun key hkey v hv => by rw [m1 key (htf key hkey)]; exact f7 key hkey v hv
  have hval := validate_ok (F := F) (n := n) (by omega) hg.width
  cases hna with
  | index =>
    obtain ⟨r, k1, k2⟩ := (C24_table_partial rd kw' hnd' hp' hc rows).1 hk' hg
    rw [hst, hun] at k1
    change dictGet d "DataType" = .ok (.str "tabulated n") at f4
    rw [List.foldlM_cons, load_n_stated { blankMaterial (parsedOf kw) with metaData := some md } f4 f3 hval hg.width f5 f6 k1] at m2
    simp only [bind, Except.bind, List.foldlM_nil, pure, Except.pure, Except.map] at m2
    refine ⟨fd, r', _, _, md, f1, m2, k2, ?_, ?_, ?_, ?_, ?_, ?_, ?_, hmd⟩
    · rfl
    · rfl
    · rfl
    · rfl
    · exact hst.symm
    · exact hun.symm
    · rfl
  | both =>
    obtain ⟨r, i, k1, k2, k3⟩ := (C24_table_partial rd kw' hnd' hp' hc rows).2.1 hk' hg
    rw [hst, hun] at k1 k2
    change dictGet d "DataType" = .ok (.str "tabulated nk") at f4
    rw [List.foldlM_cons, load_nk_stated { blankMaterial (parsedOf kw) with metaData := some md } f4 f3 hval hg.width f5 f6 k1 k2] at m2
    simp only [bind, Except.bind, List.foldlM_nil, pure, Except.pure, Except.map] at m2
    refine ⟨fd, r', _, _, md, f1, m2, k3, ?_, ?_, ?_, ?_, ?_, ?_, ?_, hmd⟩
    · rfl
    · rfl
    · rfl
    · rfl
    · exact hst.symm
    · exact hun.symm
    · rfl

/-- C147: with four or more columns and no data type in the header, the constructor raises
`ValueError`. -/
theorem C147_columns {o : KeyOrder} (ho : o.Valid) {ext : String} {mark : Char}
    {sep : Option Char} (hf : TextFormat ext mark sep) {header : List (List Char)} {n : ℕ}
    (hn : 4 ≤ n) {rows : List (List F)} {text : List Char}
    (h : HandFile mark sep header rows text) (hw : ∀ r ∈ rows, r.length = n)
    (h2 : 2 ≤ rows.length) {t u : String} (hd : Says header "DataType" "")
    (ht : Says header "SpectrumType" t) (hu : Says header "Unit" u)
    {kw : Kwargs F} (hnd : (kw.map Prod.fst).Nodup) (hp : PlainOptions kw) {p : String}
    (hk : Only kw "file_path" .text (.str p)) :
    ∃ (fd : FileDict F) (r' : Reader F),
      (Reader.fresh o : Reader F).readFile o ext text = (.ok fd, r') ∧
      Material.new (fun _ => .ok fd) kw = .error .value := by
  have hx : textFormat ext = some (mark, sep) := by cases hf <;> decide +kernel
  obtain ⟨fd, d, r', f1, f2, -, f4, -⟩ := table_dict ho hf h (by omega) hw h2 hd ht hu
  obtain ⟨md, -, m2⟩ := new_path hnd hp hk (text_hasMeta ho hx f1)
  refine ⟨fd, r', f1, ?_⟩
  have hct : stated "" (columnType n) = "" := by
    unfold stated columnType
    rw [if_pos rfl]
    split <;> first | omega | rfl
  rw [hct] at f4
  rw [m2, f2, List.foldlM_cons]
  unfold processDataset
  simp only [Dataset.getStr, f4, bind, Except.bind,
    show splitTwo "" = .error .value from by decide +kernel]
  rfl

omit [SciPy F] in
/-- C147: a single row of two or more numbers without a data type in the header is no table:
reading the file raises `IndexError`. -/
theorem C147_one_row {o : KeyOrder} (ho : o.Valid) {ext : String} {mark : Char}
    {sep : Option Char} (hf : TextFormat ext mark sep) {header : List (List Char)} {r : List F}
    (hr : 2 ≤ r.length) {text : List Char} (h : HandFile mark sep header [r] text)
    (hd : Says header "DataType" "") :
    ((Reader.fresh o : Reader F).readFile o ext text).1 = .error .index := by
  have hx : textFormat ext = some (mark, sep) := by cases hf <;> decide +kernel
  obtain ⟨h3, h4⟩ := table_read hf h (by
    intro q hq
    rw [List.mem_singleton] at hq
    subst hq
    rintro rfl
    simp at hr)
  have ha : squeezeRows [r] = .ok (.d1 .float r) := by
    match r, hr with
    | _ :: _ :: _, _ => rfl
  rw [ha] at h3
  unfold Reader.readFile
  rw [hx]
  simp only [Reader.readText, h3, h4]
  unfold Reader.textResult
  have s1 := says_data (F := F) ho (key := "DataType") (by decide) hd (.d1 .float r) (Reader.fresh o)
  have s4 := data_kept (F := F) ho header (.d1 .float r) (Reader.fresh o)
  have : inferType (header.foldl (textStep o)
      ((Reader.fresh o : Reader F).textStart o (.d1 .float r))).dataset = .error .index := by
    unfold inferType
    rw [s1]
    simp only [Dataset.get, s4, if_true]
  rw [this]

end

/-! ## A case -/

/-- A file with the line ends of Windows, a comment, and the unit in the header. -/
def micronFile : List Char :=
  "# measured at room temperature\x0d\n# unit: um\x0d\n 1\t2\x0d\n2  3 \x0d\n".toList

noncomputable section

/-- Its table. -/
def micronRows : List (List Dbl) := [[intDbl 1, intDbl 2], [intDbl 2, intDbl 3]]

theorem reads_digit {c : Char} {n : ℕ} (hc : c.isDigit = true) (hn : readUnsigned [c] = some (n : ℚ)) :
    Reads [c] (intDbl n) := by
  have := readDouble_signed 0 hc hn
  simp only [signText, lt_irrefl, if_false, List.nil_append, one_mul] at this
  show readDouble [c] = _
  rw [this, intDbl]
  norm_num

theorem micron_table : HandFile '#' Option.none [" measured at room temperature".toList,
    " unit: um".toList] micronRows micronFile := by
  refine ⟨⟨['\r', '\n'], [" 1\t2".toList, "2  3 ".toList], .windows, ?_, by decide +kernel⟩,
    by unfold OneLine; decide +kernel⟩
  have w : ∀ c ∈ ['1', '2', '3'], Word [c] := by unfold Word; decide
  have r1 : Reads ['1'] (intDbl 1) := reads_digit (n := 1) (by decide) (by decide +kernel)
  have r2 : Reads ['2'] (intDbl 2) := reads_digit (n := 2) (by decide) (by decide +kernel)
  have r3 : Reads ['3'] (intDbl 3) := reads_digit (n := 3) (by decide) (by decide +kernel)
  refine .cons ⟨⟨[['1'], ['2']], ?_, .cons r1 (.cons r2 .nil)⟩, by decide +kernel⟩
    (.cons ⟨⟨[['2'], ['3']], ?_, .cons r2 (.cons r3 .nil)⟩, by decide +kernel⟩ .nil)
  · exact LineOf.word (s := [' ']) (t := ['1']) (rest := ['\t', '2']) (by decide) (w _ (by decide))
      (by decide) (LineOf.word (s := ['\t']) (t := ['2']) (rest := []) (by decide) (w _ (by decide))
      (by decide) (.blank (by decide)))
  · exact LineOf.word (s := []) (t := ['2']) (rest := [' ', ' ', '3', ' ']) (by decide)
      (w _ (by decide)) (by decide) (LineOf.word (s := [' ', ' ']) (t := ['3']) (rest := [' '])
      (by decide) (w _ (by decide)) (by decide) (.blank (by decide)))

theorem fills_no_colon {key line arg : List Char} (h : ':' ∉ line) : ¬ Fills key line arg := by
  rintro ⟨b, w, m, r, n, p, rfl, -⟩
  simp at h

theorem unit_line {key : String} (hk : key ∈ ["DataType", "SpectrumType"]) (arg : List Char) :
    ¬ Fills key.toList " unit: um".toList arg := by
  intro h
  have ho : (⟨fileMetaKeys, datasetMetaKeys⟩ : KeyOrder).Valid := ⟨.refl _, .refl _⟩
  have : ∀ k ∈ ["DataType", "SpectrumType"], k ∈ datasetFields := by decide
  have h1 := (C44_dataset_field ho _ _ _).2 ⟨this key hk, h⟩
  rw [show lineRole ⟨fileMetaKeys, datasetMetaKeys⟩ " unit: um".toList = .dataset "Unit" "um".toList
    from by decide +kernel] at h1
  cases h1
  exact absurd hk (by decide)

theorem micron_says : Says [" measured at room temperature".toList, " unit: um".toList] "DataType" "" ∧
    Says [" measured at room temperature".toList, " unit: um".toList] "SpectrumType" "" ∧
    Says [" measured at room temperature".toList, " unit: um".toList] "Unit" "um" := by
  have ho : (⟨fileMetaKeys, datasetMetaKeys⟩ : KeyOrder).Valid := ⟨.refl _, .refl _⟩
  have hc : ∀ key arg : List Char, ¬ Fills key " measured at room temperature".toList arg :=
    fun _ _ => fills_no_colon (by decide +kernel)
  refine ⟨.inr ⟨rfl, ?_⟩, .inr ⟨rfl, ?_⟩,
    .inl ⟨[" measured at room temperature".toList], " unit: um".toList, [], rfl, ?_, by simp⟩⟩
  · intro l hl arg
    rcases List.mem_cons.1 hl with rfl | hl
    · exact hc _ _
    · rw [List.mem_singleton.1 hl]; exact unit_line (by decide) arg
  · intro l hl arg
    rcases List.mem_cons.1 hl with rfl | hl
    · exact hc _ _
    · rw [List.mem_singleton.1 hl]; exact unit_line (by decide) arg
  · exact ((C44_dataset_field ho _ _ _).1 (show lineRole ⟨fileMetaKeys, datasetMetaKeys⟩
      " unit: um".toList = .dataset "Unit" "um".toList from by decide +kernel)).2

/-- A case: the file is read as a table in micrometres, whatever the order of the keys. -/
theorem micron_loads [SciPy Dbl] [YamlIO Dbl] (rd : String → Res (FileDict Dbl)) (o : KeyOrder)
    (ho : o.Valid) :
    ∃ (fd : FileDict Dbl) (r' : Reader Dbl) (m m' : Material Dbl),
    (Reader.fresh o : Reader Dbl).readFile o ".txt" micronFile = (.ok fd, r') ∧
    Material.new (fun _ => .ok fd) [("file_path", .str "a.txt")] = .ok m ∧
    Material.new rd [("tabulated_n", .arr (.d2 2 .float micronRows)), ("unit", .str "um")] = .ok m' ∧
    m.real = m'.real ∧ m.imag = m'.imag ∧ m.defUnit = m'.defUnit := by
  obtain ⟨s1, s2, s3⟩ := micron_says
  have v : ∀ {n : ℤ}, |n| ≤ 2 ^ 53 → (intDbl n).val = .fin n := fun h => intDbl_val h
  have v1 : (intDbl 1).val = .fin 1 := by exact_mod_cast v (n := 1) (by norm_num)
  have v2 : (intDbl 2).val = .fin 2 := by exact_mod_cast v (n := 2) (by norm_num)
  have hg : GoodTable 2 micronRows := by
    refine ⟨by simp [micronRows], by simp [micronRows], ?_, ?_⟩
    · intro r hr
      simp only [micronRows, List.mem_cons, List.not_mem_nil, or_false] at hr
      rcases hr with rfl | rfl
      · show (intDbl 1).val.isNaN = false
        rw [v1]; rfl
      · show (intDbl 2).val.isNaN = false
        rw [v2]; rfl
    · simp only [micronRows, List.pairwise_cons, List.mem_singleton, forall_eq, List.not_mem_nil,
        false_imp_iff, implies_true, List.Pairwise.nil, and_true]
      show XR.eq (intDbl 1).val (intDbl 2).val = false
      rw [v1, v2]
      simp [XR.eq, XR.le, XR.isNaN, XR.lt]
  obtain ⟨k1, k2⟩ := only_single (F := Dbl) (n := "file_path") (t := .text) (by decide)
    (v := .str "a.txt") (by simp)
  have p1 : PlainOptions [("tabulated_n", PyVal.arr (.d2 2 .float micronRows)), ("unit", .str "um")] := by
    refine ⟨?_, ?_⟩
    · intro n hn v hv
      simp only [textOptions, List.mem_cons, List.not_mem_nil, or_false] at hn
      simp only [List.mem_cons, List.not_mem_nil, or_false, Prod.mk.injEq] at hv
      rcases hv with ⟨rfl, rfl⟩ | ⟨rfl, rfl⟩
      · exact absurd hn (by decide)
      · exact .inr ⟨_, rfl⟩
    · rintro ⟨v, hv, -⟩
      simp at hv
  have p2 : Only [("tabulated_n", PyVal.arr (.d2 2 .float micronRows)), ("unit", .str "um")]
      "tabulated_n" (.table 2) (.arr (.d2 2 .float micronRows)) := by
    refine ⟨by decide, by simp, by simp, ?_⟩
    rintro n ty hs ⟨v, hv, -⟩
    simp only [List.mem_cons, List.not_mem_nil, or_false, Prod.mk.injEq] at hv
    rcases hv with ⟨rfl, -⟩ | ⟨rfl, -⟩
    · rfl
    · have : ∀ x ∈ sources, x.1 ≠ "unit" := by decide
      exact absurd rfl (this _ hs)
  obtain ⟨fd, r', m, m', md, f1, f2, f3, -, f4, f5, -, -, f6, -, -⟩ := C147_table ho .txt .index
    micron_table hg (by simp [micronRows]) s1 (.inl rfl) s2 s3 k1
    (plain_single (F := Dbl) (n := "file_path") (by decide) (by decide)) k2
    (kw' := [("tabulated_n", .arr (.d2 2 .float micronRows)), ("unit", .str "um")]) (by simp)
    p1 p2 (by rfl) (by rfl) (c := "um") (by decide +kernel) rd
  exact ⟨fd, r', m, m', f1, f2, f3, f4, f5, f6⟩

end

end Disp

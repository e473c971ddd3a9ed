import Verif.Props.UnknownKinds
/-!
# C157: tables of YAML files whose columns do not fit their kind

The tables given to the constructor are measured (C24); those of files are not.
-/

namespace Disp

open Spec

/-! ## Specification -/

/-- The numbers of columns of the kinds of tables. -/
def Spec.tableColumns : List (String × ℕ) :=
  [("n", 2), ("k", 2), ("nk", 3), ("n_alpha", 3), ("eps", 3)]

section
variable {F : Type} [PyFloat F] [NumText F]

/-- A dataset with a table of the given kind, which may state its spectrum type and unit, with its
entries in any order and its numbers in any layout. -/
structure Spec.TableOf (d : Dataset F) (id : String) (rows : List (List F)) (t u : String) :
    Prop where
  entry : ∃ kind x y toks, HandEntry d "data" "Data" kind x y t u ∧
    LineOf ["tabulated".toList, id.toList] kind.toList ∧ TextOf toks x.toList ∧
    List.Forall₂ (List.Forall₂ Reads) toks rows
  some_rows : rows ≠ []
end

/-- Two calls of the constructor with the same exception, or with materials that answer every
question alike. -/
inductive Spec.AnswerAlike {F : Type} [PyFloat F] [SciPy F] :
    Res (Material F) → Res (Material F) → Prop
  | ok {m m' : Material F} : (∀ s, m.getNk s = m'.getNk s) →
      (∀ raw t u, m.getNkRaw raw t u = m'.getNkRaw raw t u) →
      (∀ s, m.getPermittivity s = m'.getPermittivity s) →
      (∀ raw t u, m.getPermittivityRaw raw t u = m'.getPermittivityRaw raw t u) →
      AnswerAlike (.ok m) (.ok m')
  | error {e : PyErr} : AnswerAlike (.error e) (.error e)

variable {F : Type} [PyFloat F] [SciPy F] [NumText F]

/-! ## Columns -/

omit [PyFloat F] [SciPy F] [NumText F] in
theorem cut_index {r : List F} {j c : ℕ} (hj : j < c) : pyIdx (r.take c) j = pyIdx r j := by
  unfold pyIdx
  rw [List.getElem?_take_of_lt hj]

omit [PyFloat F] [SciPy F] [NumText F] in
theorem cut_col {rows : List (List F)} {j c w : ℕ} (dt : DType) (hj : j < c) (hc : c ≤ w) :
    (NDArr.d2 c dt (rows.map (List.take c))).col j = (NDArr.d2 w dt rows).col j := by
  simp only [NDArr.col, if_pos hj, if_pos (hj.trans_le hc)]
  induction rows with
  | nil => rfl
  | cons r rows ih =>
    rw [List.map_cons, List.mapM_cons, List.mapM_cons, cut_index hj, ih]

omit [NumText F] in
theorem cut_data {rows : List (List F)} {i j c w : ℕ} (t u : String) (hi : i < c) (hj : j < c)
    (hc : c ≤ w) : specDataFromTable t u (.d2 c .float (rows.map (List.take c))) i j
      = specDataFromTable t u (.d2 w .float rows) i j := by
  simp only [specDataFromTable, NDArr.cols2, cut_col .float hi hc, cut_col .float hj hc]
  rfl

omit [NumText F] in
theorem cut_alpha {rows : List (List F)} {c w : ℕ} (t u : String) (h3 : 3 ≤ c) (hc : c ≤ w) :
    alphaToK t u (.d2 c .float (rows.map (List.take c))) = alphaToK t u (.d2 w .float rows) := by
  simp only [alphaToK, cut_col .float (show 0 < c by omega) hc, cut_col .float (show 2 < c by omega) hc]
  rfl

/-- Further columns make no difference. -/
theorem cut_table {rows : List (List F)} {id : String} {c w : ℕ} (hid : (id, c) ∈ tableColumns)
    (hc : c ≤ w) (m : Material F) {d d' : Dataset F}
    (ht : dictGet d "SpectrumType" = dictGet d' "SpectrumType")
    (hu : dictGet d "Unit" = dictGet d' "Unit") :
    processTable m (.d2 w .float rows) id d
      = processTable m (.d2 c .float (rows.map (List.take c))) id d' := by
  simp only [tableColumns, List.mem_cons, Prod.mk.injEq, List.not_mem_nil, or_false] at hid
  unfold processTable
  simp only [Dataset.get, ht, hu]
  rcases hid with ⟨rfl, rfl⟩ | ⟨rfl, rfl⟩ | ⟨rfl, rfl⟩ | ⟨rfl, rfl⟩ | ⟨rfl, rfl⟩
  · simp [cut_data _ _ (show 0 < 2 by omega) (show 1 < 2 by omega) hc]
  · simp [cut_data _ _ (show 0 < 2 by omega) (show 1 < 2 by omega) hc]
  · simp [cut_data _ _ (show 0 < 3 by omega) (show 1 < 3 by omega) hc,
      cut_data _ _ (show 0 < 3 by omega) (show 2 < 3 by omega) hc]
  · simp [cut_data _ _ (show 0 < 3 by omega) (show 1 < 3 by omega) hc, cut_alpha _ _ le_rfl hc]
  · simp [cut_data _ _ (show 0 < 3 by omega) (show 1 < 3 by omega) hc,
      cut_data _ _ (show 0 < 3 by omega) (show 2 < 3 by omega) hc]

omit [NumText F] in
theorem no_column {rows : List (List F)} {i j w : ℕ} (t u : String) (hj : w ≤ j) :
    ∃ e, specDataFromTable t u (.d2 w .float rows) i j = .error e := by
  unfold specDataFromTable NDArr.cols2
  cases (NDArr.d2 w .float rows).col i with
  | error e => exact ⟨e, rfl⟩
  | ok xs =>
    simp only [NDArr.col, if_neg (Nat.not_lt.2 hj), bind, Except.bind]
    exact ⟨_, rfl⟩

/-- Too few columns are refused. -/
theorem few_table {rows : List (List F)} {id : String} {c w : ℕ} (hid : (id, c) ∈ tableColumns)
    (hc : w < c) (m : Material F) (d : Dataset F) :
    ∃ e, processTable m (.d2 w .float rows) id d = .error e := by
  simp only [tableColumns, List.mem_cons, Prod.mk.injEq, List.not_mem_nil, or_false] at hid
  cases hp : processTable m (.d2 w .float rows) id d with
  | error e => exact ⟨e, rfl⟩
  | ok m' =>
    exfalso
    unfold processTable at hp
    rcases hid with ⟨rfl, rfl⟩ | ⟨rfl, rfl⟩ | ⟨rfl, rfl⟩ | ⟨rfl, rfl⟩ | ⟨rfl, rfl⟩
    · rw [if_neg (by decide), if_neg (by decide), if_pos rfl] at hp
      obtain ⟨_, h1, -⟩ := except_bind_ok hp
      obtain ⟨e, he⟩ := no_column (rows := rows) (i := 0) (j := 1) _ _ (show w ≤ 1 by omega)
      rw [he] at h1
      cases h1
    · rw [if_neg (by decide), if_neg (by decide), if_neg (by decide), if_pos rfl] at hp
      obtain ⟨_, h1, -⟩ := except_bind_ok hp
      obtain ⟨e, he⟩ := no_column (rows := rows) (i := 0) (j := 1) _ _ (show w ≤ 1 by omega)
      rw [he] at h1
      cases h1
    · rw [if_pos rfl] at hp
      obtain ⟨_, -, hp⟩ := except_bind_ok hp
      obtain ⟨_, h1, -⟩ := except_bind_ok hp
      obtain ⟨e, he⟩ := no_column (rows := rows) (i := 0) (j := 2) _ _ (show w ≤ 2 by omega)
      rw [he] at h1
      cases h1
    · rw [if_neg (by decide), if_pos rfl] at hp
      obtain ⟨_, -, hp⟩ := except_bind_ok hp
      obtain ⟨_, h1, -⟩ := except_bind_ok hp
      unfold alphaToK at h1
      obtain ⟨_, -, h1⟩ := except_bind_ok h1
      obtain ⟨_, -, h1⟩ := except_bind_ok h1
      obtain ⟨_, -, h1⟩ := except_bind_ok h1
      obtain ⟨_, h2, -⟩ := except_bind_ok h1
      rw [NDArr.col, if_neg (by omega)] at h2
      cases h2
    · rw [if_neg (by decide), if_neg (by decide), if_neg (by decide), if_neg (by decide),
        if_pos rfl] at hp
      obtain ⟨_, -, hp⟩ := except_bind_ok hp
      obtain ⟨_, h1, -⟩ := except_bind_ok hp
      obtain ⟨e, he⟩ := no_column (rows := rows) (i := 0) (j := 2) _ _ (show w ≤ 2 by omega)
      rw [he] at h1
      cases h1

/-! ## Datasets -/

/-- What is made of such a dataset. -/
theorem Spec.TableOf.process {o : KeyOrder} (ho : o.Valid) {d : Dataset F} {id t u : String}
    {rows : List (List F)} (h : TableOf d id rows t u) :
    ∃ out, processMatData1 o d = .ok out ∧ dictGet out "SpectrumType" = .ok (.str t) ∧
      dictGet out "Unit" = .ok (.str u) ∧
      ((∃ r ∈ rows, ∃ q ∈ rows, r.length ≠ q.length) →
        ∀ m : Material F, ∃ e, processDataset m out = .error e) ∧
      ∀ w, (∀ r ∈ rows, r.length = w) → ∀ m : Material F,
        processDataset m out = processTable m (.d2 w .float rows) id out := by
  obtain ⟨⟨kind, x, y, toks, hd, hl, hx, hv⟩, hne⟩ := h
  obtain ⟨out, o1, o2, o3, -, o5, o6⟩ := hd.process ho
    (entryData_word d hl (p := "tabulated") (by decide) (List.prefix_refl _))
  obtain ⟨l1, -⟩ := lstrip_line hl
  have hs : splitTwo (String.ofList (lstrip kind.toList)) = .ok ("tabulated", id) := by
    rw [splitTwo, String.toList_ofList, splitSpaces_line l1]
    simp only [String.ofList_toList]
  refine ⟨out, o1, o5, o6, ?_, ?_⟩
  · rintro ⟨r, hr, q, hq, hrq⟩ m
    unfold processDataset
    simp only [Dataset.getStr, o2, bind, Except.bind, hs, if_true, o3, DVal.asTable,
      C43_ragged hx hv ⟨r, hr, q, hq, hrq⟩]
    exact ⟨_, rfl⟩
  · intro w hw m
    unfold processDataset
    simp only [Dataset.getStr, o2, bind, Except.bind, hs, if_true, o3, DVal.asTable,
      C43_parse hx hv hne hw]

/-! ## Files -/

variable [YamlIO F]

/-- C157, too few columns: a table with fewer columns than its kind has raises an exception,
wherever it stands in the file. -/
theorem C157_few {o : KeyOrder} (ho : o.Valid) {text : List Char} {ds : List (Dataset F)}
    (hf : YamlFile text ds) {d : Dataset F} (hd : d ∈ ds) {id t u : String} {rows : List (List F)}
    (h : TableOf d id rows t u) {c w : ℕ} (hid : (id, c) ∈ tableColumns)
    (hw : ∀ r ∈ rows, r.length = w) (hc : w < c) {kw : Kwargs F} (hnd : (kw.map Prod.fst).Nodup)
    (hp : PlainOptions kw) {path : String} (hk : Only kw "file_path" .text (.str path)) :
    ∃ e, loadYaml o text kw = .error e := by
  obtain ⟨out, o1, -, -, -, o2⟩ := h.process ho
  refine refused_anywhere ho hf hd (.inr ⟨out, o1, fun m => ?_⟩) hnd hp hk
  rw [o2 w hw m]
  exact few_table hid hc m out

/-- C157, rows of different lengths: such a table raises an exception, whatever its kind and
wherever it stands in the file. -/
theorem C157_ragged {o : KeyOrder} (ho : o.Valid) {text : List Char} {ds : List (Dataset F)}
    (hf : YamlFile text ds) {d : Dataset F} (hd : d ∈ ds) {id t u : String} {rows : List (List F)}
    (h : TableOf d id rows t u) (hr : ∃ r ∈ rows, ∃ q ∈ rows, r.length ≠ q.length)
    {kw : Kwargs F} (hnd : (kw.map Prod.fst).Nodup)
    (hp : PlainOptions kw) {path : String} (hk : Only kw "file_path" .text (.str path)) :
    ∃ e, loadYaml o text kw = .error e := by
  obtain ⟨out, o1, -, -, o2, -⟩ := h.process ho
  exact refused_anywhere ho hf hd (.inr ⟨out, o1, o2 hr⟩) hnd hp hk

omit [NumText F] [YamlIO F] in
theorem Spec.SameButDefaults.alike {r r' : Res (Material F)} (h : SameButDefaults r r') :
    AnswerAlike r r' := by
  cases h with
  | error => exact .error
  | @ok m m' h1 h2 h3 h4 =>
    have e : ∀ s, m.evalStored s = m'.evalStored s := by
      intro s
      unfold Material.evalStored
      rw [h2, h3, h4]
    have n : ∀ raw t u, m.nkCore raw t u = m'.nkCore raw t u := by
      intro raw t u
      unfold Material.nkCore
      simp only [h1, e]
    have p : ∀ s, m.getPermittivity s = m'.getPermittivity s := by
      intro s
      unfold Material.getPermittivity
      rw [h1, e]
    refine .ok ?_ n p ?_
    · intro s
      rw [Material.getNk, Material.getNk, n]
    · intro raw t u
      unfold Material.getPermittivityRaw
      simp only [p]

/-- C157 in truth for further columns: a table with more columns than its kind has is loaded as if
they were not there, in silence, wherever it stands in the file. -/
theorem C157_further {o : KeyOrder} (ho : o.Valid) {text text' : List Char} {d d' : Dataset F}
    {ds ds' : List (Dataset F)} (hf : YamlFile text (ds ++ d :: ds'))
    (hf' : YamlFile text' (ds ++ d' :: ds')) {id t u : String} {rows : List (List F)} {c w : ℕ}
    (hid : (id, c) ∈ tableColumns) (h : TableOf d id rows t u)
    (h' : TableOf d' id (rows.map (List.take c)) t u) (hw : ∀ r ∈ rows, r.length = w) (hc : c ≤ w)
    {kw : Kwargs F} (hnd : (kw.map Prod.fst).Nodup)
    (hp : PlainOptions kw) {path : String} (hk : Only kw "file_path" .text (.str path)) :
    AnswerAlike (loadYaml o text kw) (loadYaml o text' kw) := by
  refine Spec.SameButDefaults.alike ?_
  obtain ⟨out, o1, o2, o3, -, o4⟩ := h.process ho
  obtain ⟨out', p1, p2, p3, -, p4⟩ := h'.process ho
  have hw' : ∀ r ∈ rows.map (List.take c), r.length = c := by
    intro r hr
    obtain ⟨q, hq, rfl⟩ := List.mem_map.1 hr
    rw [List.length_take, hw q hq]
    omega
  have hload : ∀ m : Material F, processDataset m out = processDataset m out' := by
    intro m
    rw [o4 w hw m, p4 c hw' m]
    exact cut_table hid hc m (o2.trans p2.symm) (o3.trans p3.symm)
  unfold loadYaml
  cases hm : ds.mapM (processMatData1 o) with
  | error e =>
    have h1 : ∀ d, (ds ++ d :: ds').mapM (processMatData1 o) = .error e := by
      intro d
      rw [List.mapM_append, hm]
      rfl
    rw [hf.read_error (h1 d), hf'.read_error (h1 d'), new_unread hnd hp hk]
    exact .error
  | ok outs =>
    cases hm' : ds'.mapM (processMatData1 o) with
    | error e =>
      have h1 : (ds ++ d :: ds').mapM (processMatData1 o) = .error e := by
        rw [List.mapM_append, hm, List.mapM_cons, o1, hm']
        rfl
      have h2 : (ds ++ d' :: ds').mapM (processMatData1 o) = .error e := by
        rw [List.mapM_append, hm, List.mapM_cons, p1, hm']
        rfl
      rw [hf.read_error h1, hf'.read_error h2, new_unread hnd hp hk]
      exact .error
    | ok outs' =>
      have h1 : (ds ++ d :: ds').mapM (processMatData1 o) = .ok (outs ++ out :: outs') := by
        rw [List.mapM_append, hm, List.mapM_cons, o1, hm']
        rfl
      have h2 : (ds ++ d' :: ds').mapM (processMatData1 o) = .ok (outs ++ out' :: outs') := by
        rw [List.mapM_append, hm, List.mapM_cons, p1, hm']
        rfl
      obtain ⟨fd, r, a1, a2, a3⟩ := hf.read ho h1
      obtain ⟨fd', r', b1, b2, b3⟩ := hf'.read ho h2
      rw [a1, b1]
      obtain ⟨md, -, e⟩ := new_path hnd hp hk a2
      obtain ⟨md', -, e'⟩ := new_path hnd hp hk b2
      have c1 := processDatasets_withMeta (some md) fd.datasets (blankMaterial (parsedOf kw))
      have c2 := processDatasets_withMeta (some md') fd'.datasets (blankMaterial (parsedOf kw))
      simp only [Material.withMeta] at c1 c2
      simp only
      rw [e, e', c1, c2, a3, b3, List.foldlM_append, List.foldlM_append]
      cases outs.foldlM processDataset (blankMaterial (parsedOf kw)) with
      | error e => exact .error
      | ok m =>
        simp only [bind, Except.bind, List.foldlM_cons, hload]
        cases processDataset m out' with
        | error e => exact .error
        | ok m1 =>
          simp only
          cases outs'.foldlM processDataset m1 with
          | error e => exact .error
          | ok m' => exact .ok rfl rfl rfl rfl

/-! ## The full claim is false -/

/-- C157 (full statement, refuted below): a file with a table whose rows do not have the length that
its kind has raises an exception. -/
def C157_statement [SciPy XR] [NumText XR] : Prop :=
  ∀ (_ : YamlIO XR) (o : KeyOrder) (text : List Char) (ds : List (Dataset XR)) (kw : Kwargs XR)
    (p : String), o.Valid → YamlFile text ds →
    (∃ d ∈ ds, ∃ id c rows t u, TableOf d id rows t u ∧ (id, c) ∈ tableColumns ∧
      ∃ r ∈ rows, r.length ≠ c) →
    (kw.map Prod.fst).Nodup → PlainOptions kw → Only kw "file_path" .text (.str p) →
    ∃ e, loadYaml o text kw = .error e

/-- A table of the index with a further column, and the same table without it. -/
def wideTable : Dataset XR := [("type", .str "tabulated n"), ("data", .str "0.5 1.5 2\n2 2 2")]
def narrowTable : Dataset XR := [("type", .str "tabulated n"), ("data", .str "0.5 1.5\n2 2")]

noncomputable def wideYaml : YamlIO XR :=
  ⟨fun t => .ok [("DATA", .data (if t = [] then [narrowTable] else [wideTable]))], fun _ => []⟩

theorem wide_file (text : List Char) : letI := wideYaml
    YamlFile text (if universal text = [] then [narrowTable] else [wideTable]) := by
  letI := wideYaml
  exact ⟨⟨_, rfl, by simp [Keys], by unfold UpperKeys; simp; decide +kernel, rfl, by
      intro p hp hne
      simp only [List.mem_cons, List.not_mem_nil, or_false] at hp
      exact absurd (by rw [hp]) hne⟩⟩

theorem index_line : LineOf ["tabulated".toList, "n".toList] "tabulated n".toList := by
  have w : ∀ t ∈ ["tabulated".toList, "n".toList], Word t := by unfold Word; decide +kernel
  exact LineOf.word (s := []) (t := "tabulated".toList) (by simp) (w _ (by simp))
    (rest := " n".toList) (by decide) (LineOf.word (s := [' ']) (t := "n".toList)
      (by decide +kernel) (w _ (by simp)) (rest := []) (by simp) (.blank (by simp)))

/-- The entries of a dataset that has nothing but a kind and a table. -/
theorem plain_entry (kind x : String) :
    HandEntry ([("type", .str kind), ("data", .str x)] : Dataset XR) "data" "Data" kind x "" "" "" := by
  have hno : ∀ ns ∈ [rangeNames, ["SpectrumType"], ["Unit"], ["t", "y", "p", "e"]],
      ∀ p ∈ ([("type", .str kind), ("data", .str x)] : Dataset XR), ¬ Spelled p.1 ns := by
    have : ∀ ns ∈ [rangeNames, ["SpectrumType"], ["Unit"], ["t", "y", "p", "e"]],
        ∀ k ∈ ["type", "data"], ¬ (∃ n ∈ ns,
        k.toList.map Char.toUpper = n.toList.map Char.toUpper) := by decide +kernel
    intro ns hns p hp
    refine this ns hns p.1 ?_
    simp only [List.mem_cons, List.not_mem_nil, or_false] at hp
    rcases hp with rfl | rfl <;> simp
  exact ⟨by simp [Keys], .inl (by simp), .inl (by simp),
      .inr ⟨rfl, hno _ (by simp)⟩, .inr ⟨rfl, hno _ (by simp)⟩, .inr ⟨rfl, hno _ (by simp)⟩,
      hno _ (by simp)⟩

theorem small_words : ∀ t ∈ ["0.5".toList, "1.5".toList, "2".toList], Word t := by
  unfold Word; decide +kernel

theorem three_words {a b c : List Char} (ha : a ∈ ["0.5".toList, "1.5".toList, "2".toList])
    (hb : b ∈ ["0.5".toList, "1.5".toList, "2".toList])
    (hc : c ∈ ["0.5".toList, "1.5".toList, "2".toList]) :
    LineOf [a, b, c] (a ++ (' ' :: (b ++ (' ' :: c)))) := by
  have := LineOf.word (s := []) (t := a) (by simp) (small_words _ ha)
    (rest := [' '] ++ b ++ ([' '] ++ c ++ []))
    (by simp; decide) (.word (s := [' ']) (t := b) (by decide +kernel) (small_words _ hb)
      (by simp; decide) (.word (s := [' ']) (t := c) (by decide +kernel) (small_words _ hc) (by simp)
        (.blank (s := []) (by simp))))
  simpa using this

theorem two_words {a b : List Char} (ha : a ∈ ["0.5".toList, "1.5".toList, "2".toList])
    (hb : b ∈ ["0.5".toList, "1.5".toList, "2".toList]) : LineOf [a, b] (a ++ (' ' :: b)) := by
  have := LineOf.word (s := []) (t := a) (by simp) (small_words _ ha) (rest := [' '] ++ b ++ [])
    (by simp; decide) (.word (s := [' ']) (t := b) (by decide +kernel) (small_words _ hb) (by simp)
      (.blank (s := []) (by simp)))
  simpa using this

theorem wide_table : letI := glassNumbers
    TableOf wideTable "n" [[XR.fin 0.5, XR.fin 1.5, XR.fin 2], [XR.fin 2, XR.fin 2, XR.fin 2]]
      "" "" := by
  letI := glassNumbers
  refine ⟨⟨_, _, _, [["0.5".toList, "1.5".toList, "2".toList], ["2".toList, "2".toList, "2".toList]],
    plain_entry _ _, index_line, ⟨["0.5 1.5 2".toList, "2 2 2".toList], [], by decide +kernel, by simp,
      .cons (three_words (by simp) (by simp) (by simp))
        (.cons (three_words (by simp) (by simp) (by simp)) .nil), by simp,
      by decide +kernel, by simp⟩, ?_⟩, by simp⟩
  refine .cons (.cons ?_ (.cons ?_ (.cons ?_ .nil))) (.cons (.cons ?_ (.cons ?_ (.cons ?_ .nil))) .nil) <;>
    (show glassNumbers.parseFloat _ = _; unfold glassNumbers; simp)

theorem narrow_table : letI := glassNumbers
    TableOf narrowTable "n" [[XR.fin 0.5, XR.fin 1.5], [XR.fin 2, XR.fin 2]] "" "" := by
  letI := glassNumbers
  obtain ⟨-, hx, hv⟩ := capital_entry
  exact ⟨⟨_, _, _, _, plain_entry _ _, index_line, hx, hv⟩, by simp⟩

theorem narrow_content : letI := glassNumbers
    Content [narrowTable] 0.5 2 (OnLine (column [[0.5, 1.5], [2, 2]] 1)) (fun _ k => k = 0) := by
  letI := glassNumbers
  obtain ⟨-, hx, hv⟩ := capital_entry
  refine .index (.table ⟨by unfold Keys; decide +kernel, by simp [narrowTable],
    by simp [narrowTable, dictGet], ?_, by simp,
    by simp, ?_⟩ ?_) ⟨?_, ?_, ?_, ?_, ?_⟩
  · exact ⟨_, _, by simp [narrowTable, dictGet], hx, by simpa using hv⟩
  · simp [abscissa]; norm_num
  · refine ⟨⟨[0.5, 1.5], by simp, by simp [abscissa]⟩, ⟨[2, 2], by simp, by simp [abscissa]⟩, ?_⟩
    simp [abscissa]
    norm_num
  · norm_num
  · norm_num
  · exact ⟨500000000, by norm_num⟩
  · exact ⟨2000000000, by norm_num⟩
  · exact fun h => absurd rfl h

/-- The third column of the table is passed over: both files are loaded, with the same answers. -/
theorem wide_loads [SciPy XR] {o : KeyOrder} (ho : o.Valid) : letI := glassNumbers
    letI := wideYaml
    ∃ m m', loadYaml o ['x'] (rowKw (F := XR) "a.yml" (.str "wavelength") (.str "um")) = .ok m ∧
      loadYaml o [] (rowKw (F := XR) "a.yml" (.str "wavelength") (.str "um")) = .ok m' ∧
      ∀ s, m.getNk s = m'.getNk s := by
  letI := glassNumbers
  letI := wideYaml
  obtain ⟨g1, g2, g3⟩ := rowKw_good (F := XR) "a.yml" "wavelength" "um"
  have f0 : YamlFile [] ([] ++ narrowTable :: []) := wide_file []
  have f1 : YamlFile ['x'] ([] ++ wideTable :: []) := wide_file ['x']
  obtain ⟨fd, r', m, -, -, h1, h2, -⟩ := C108_file ho f0 narrow_content "a.yml" "wavelength" "um"
    (by decide +kernel) (by simp)
  have hl : loadYaml o [] (rowKw (F := XR) "a.yml" (.str "wavelength") (.str "um")) = .ok m := by
    unfold loadYaml
    rw [h1]
    exact h2
  have := C157_further (c := 2) ho f1 f0 (by decide) wide_table narrow_table (w := 3) (by simp) (by omega)
    g1 g2 g3
  rw [hl] at this
  generalize hr : loadYaml o ['x'] (rowKw (F := XR) "a.yml" (.str "wavelength") (.str "um")) = r
    at this
  cases this with
  | ok a _ _ _ => exact ⟨_, m, rfl, hl, a⟩

/-- Concrete cases for `C157_few` and `C157_ragged`: two columns for `nk`; and rows of two and three
numbers. -/
example [SciPy XR] {o : KeyOrder} (ho : o.Valid) (text : List Char) : letI := glassNumbers
    letI : YamlIO XR := ⟨fun t => .ok [("DATA", .data (if t = [] then
      [glass, [("type", .str "tabulated nk"), ("data", .str "0.5 1.5\n2 2")]] else
      [[("type", .str "tabulated n"), ("data", .str "0.5 1.5\n2 2 2")], glass]))], fun _ => []⟩
    ∃ e, loadYaml o text (rowKw (F := XR) "a.yml" (.str "wavelength") (.str "um")) = .error e := by
  letI := glassNumbers
  letI : YamlIO XR := ⟨fun t => .ok [("DATA", .data (if t = [] then
      [glass, [("type", .str "tabulated nk"), ("data", .str "0.5 1.5\n2 2")]] else
      [[("type", .str "tabulated n"), ("data", .str "0.5 1.5\n2 2 2")], glass]))], fun _ => []⟩
  obtain ⟨g1, g2, g3⟩ := rowKw_good (F := XR) "a.yml" "wavelength" "um"
  have hf : YamlFile text (if universal text = [] then
      [glass, [("type", .str "tabulated nk"), ("data", .str "0.5 1.5\n2 2")]] else
      [[("type", .str "tabulated n"), ("data", .str "0.5 1.5\n2 2 2")], glass]) :=
    ⟨⟨_, rfl, by simp [Keys], by unfold UpperKeys; simp; decide +kernel, rfl, by
      intro p hp hne
      simp only [List.mem_cons, List.not_mem_nil, or_false] at hp
      exact absurd (by rw [hp]) hne⟩⟩
  obtain ⟨-, hx, hv⟩ := capital_entry
  split_ifs at hf with hu
  · have w : ∀ t ∈ ["tabulated".toList, "nk".toList], Word t := by unfold Word; decide +kernel
    have hl : LineOf ["tabulated".toList, "nk".toList] "tabulated nk".toList :=
      LineOf.word (s := []) (t := "tabulated".toList) (by simp) (w _ (by simp))
        (rest := " nk".toList) (by decide) (LineOf.word (s := [' ']) (t := "nk".toList)
          (by decide +kernel) (w _ (by simp)) (rest := []) (by simp) (.blank (by simp)))
    exact C157_few ho hf (List.mem_cons_of_mem _ (List.mem_cons_self ..))
      ⟨⟨_, _, _, _, plain_entry _ _, hl, hx, hv⟩, by simp⟩ (c := 3) (w := 2) (by decide) (by simp)
      (by omega) g1 g2 g3
  · have hx' : TextOf [["0.5".toList, "1.5".toList], ["2".toList, "2".toList, "2".toList]]
        "0.5 1.5\n2 2 2".toList :=
      ⟨["0.5 1.5".toList, "2 2 2".toList], [], by decide +kernel, by simp,
        .cons (two_words (by simp) (by simp)) (.cons (three_words (by simp) (by simp) (by simp)) .nil),
        by simp, by decide +kernel, by simp⟩
    have hv' : List.Forall₂ (List.Forall₂ Reads)
        [["0.5".toList, "1.5".toList], ["2".toList, "2".toList, "2".toList]]
        [[XR.fin 0.5, XR.fin 1.5], [XR.fin 2, XR.fin 2, XR.fin 2]] := by
      refine .cons (.cons ?_ (.cons ?_ .nil)) (.cons (.cons ?_ (.cons ?_ (.cons ?_ .nil))) .nil) <;>
        (show glassNumbers.parseFloat _ = _; unfold glassNumbers; simp)
    exact C157_ragged ho hf (List.mem_cons_self ..)
      ⟨⟨_, _, _, _, plain_entry _ _, index_line, hx', hv'⟩, by simp⟩ (by simp) g1 g2 g3

/-- C157 is false. -/
theorem C157_refuted [SciPy XR] : letI := glassNumbers; ¬ C157_statement := by
  letI := glassNumbers
  letI := wideYaml
  intro h
  let o : KeyOrder := ⟨fileMetaKeys, datasetMetaKeys⟩
  have ho : o.Valid := ⟨.refl _, .refl _⟩
  obtain ⟨g1, g2, g3⟩ := rowKw_good (F := XR) "a.yml" "wavelength" "um"
  obtain ⟨m, -, hm, -⟩ := wide_loads ho
  obtain ⟨e, he⟩ := h wideYaml o ['x'] [wideTable] _ _ ho (wide_file ['x'])
    ⟨wideTable, by simp, "n", 2, _, _, _, wide_table, by decide, _, List.mem_cons_self .., by simp⟩
    g1 g2 g3
  rw [hm] at he
  cases he

end Disp

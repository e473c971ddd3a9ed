import Verif.Props.TextCycle
/-!
# C45, C46: a material read back from a text file
-/

namespace Disp

variable {F : Type} [PyFloat F] [SciPy F] [NumText F] [Printing F]

/-! ## The datasets of a writer -/

/-- Either the datasets of the two parts, or one dataset with three columns. -/
theorem collapse_cases {d0 d1 : Dataset F} {ds : List (Dataset F)}
    (h : collapseDatasets d0 d1 = .ok ds) : ds = [d0, d1] ∨
    ∃ u0 t0 s, dictGet d0 "Unit" = .ok u0 ∧ dictGet d0 "SpectrumType" = .ok t0 ∧
      ds = [[("Unit", u0), ("SpectrumType", t0), ("DataType", .str "tabulated nk"),
        ("Data", .str s)]] := by
  unfold collapseDatasets at h
  obtain ⟨n0, _, h⟩ := except_bind_ok h
  obtain ⟨k0, _, h⟩ := except_bind_ok h
  obtain ⟨n1, _, h⟩ := except_bind_ok h
  obtain ⟨k1, _, h⟩ := except_bind_ok h
  split at h
  · obtain ⟨xs, _, h⟩ := except_bind_ok h
    obtain ⟨ys, _, h⟩ := except_bind_ok h
    obtain ⟨same, _, h⟩ := except_bind_ok h
    obtain ⟨u0, hu, h⟩ := except_bind_ok h
    obtain ⟨u1, _, h⟩ := except_bind_ok h
    obtain ⟨t0, ht, h⟩ := except_bind_ok h
    obtain ⟨t1, _, h⟩ := except_bind_ok h
    split at h
    · obtain ⟨table, _, h⟩ := except_bind_ok h
      right
      refine ⟨u0, t0, String.ofList (numericToString table), hu, ht, ?_⟩
      cases h; rfl
    · left; cases h; rfl
  · left; cases h; rfl

/-- The fields of the dictionary of one part. -/
theorem dictRepr_fields {d : RealData F} {dict : Dataset F} (h : d.dictRepr = .ok dict) :
    dictGet dict "SpectrumType" = .ok (.str d.stype) ∧ dictGet dict "Unit" = .ok (.str d.unit) ∧
    (∃ s, s ≠ "" ∧ dictGet dict "DataType" = .ok (.str s)) ∧
    (∀ v, multiKey dict ["Data", "data"] = .ok v →
      (∃ s, v = .str s) ∧ dictGet dict "DataType" = .ok (.str "tabulated") ∧ d.isPlain = true) := by
  cases d with
  | constant c r t u =>
    rw [RealData.dictRepr] at h
    obtain ⟨vr, _, h⟩ := except_bind_ok h
    have e : dict = [("DataType", .str "constant"), ("ValidRange", vr), ("SpectrumType", .str t),
      ("Unit", .str u), ("Value", .num c)] := by cases h; rfl
    subst e
    refine ⟨by simp [dictGet]; rfl, by simp [dictGet]; rfl, ⟨"constant", by decide, by simp [dictGet]⟩, ?_⟩
    intro v hv
    simp [multiKey, dictHas] at hv
  | interp order rows r t u =>
    rw [RealData.dictRepr] at h
    obtain ⟨vr, _, h⟩ := except_bind_ok h
    have e : dict = [("DataType", .str "tabulated"), ("ValidRange", vr), ("SpectrumType", .str t),
      ("Unit", .str u), ("Data", .str (String.ofList
        (numericToString (.d2 2 .float (rows.map (fun p => [p.1, p.2]))))))] := by cases h; rfl
    subst e
    refine ⟨by simp [dictGet]; rfl, by simp [dictGet]; rfl, ⟨"tabulated", by decide, by simp [dictGet]⟩, ?_⟩
    intro v hv
    simp [multiKey, dictHas, dictGet] at hv
    exact ⟨⟨_, hv.symm⟩, by simp [dictGet], rfl⟩
  | model k p r t u =>
    rw [RealData.dictRepr] at h
    obtain ⟨vr, _, h⟩ := except_bind_ok h
    have e := (Except.ok.inj h).symm
    subst e
    refine ⟨by simp [dictGet]; rfl, by simp [dictGet]; rfl, ⟨"model " ++ k.className, ?_, by simp [dictGet]⟩, ?_⟩
    · cases k <;> decide
    · intro v hv
      simp [multiKey, dictHas] at hv
  | extrap base order spline r t u => rw [RealData.dictRepr] at h; cases h

theorem addDtypeSuffix_cases {name dtype s : String} {b : Bool}
    (h : addDtypeSuffix name dtype b = .ok s) : s = dtype ++ " n" ∨ s = dtype ++ " k" ∨
      s = dtype ++ " eps_r" ∨ s = dtype ++ " eps_k" := by
  unfold addDtypeSuffix at h
  split at h
  · cases b with
    | true => left; cases h; rfl
    | false => right; left; cases h; rfl
  · split at h
    · cases b with
      | true => right; right; left; cases h; rfl
      | false => right; right; right; cases h; rfl
    · cases h

/-- The data types of tables. -/
def tableTypes : List String :=
  ["tabulated n", "tabulated k", "tabulated eps_r", "tabulated eps_k", "tabulated nk"]

/-- The dataset of one part. -/
theorem partToDict_fields {name : String} {d : RealData F} {b : Bool} {dict : Dataset F}
    (h : partToDict name (some d) b = .ok dict) :
    dictGet dict "SpectrumType" = .ok (.str d.stype) ∧ dictGet dict "Unit" = .ok (.str d.unit) ∧
    (∀ v, multiKey dict ["Data", "data"] = .ok v →
      (∃ s, v = .str s) ∧ ∃ t ∈ tableTypes, dictGet dict "DataType" = .ok (.str t)) := by
  rw [partToDict] at h
  obtain ⟨dict0, hd, h⟩ := except_bind_ok h
  obtain ⟨f1, f2, _, f4⟩ := dictRepr_fields hd
  by_cases hp : d.isPlain = true
  · rw [if_pos hp] at h
    obtain ⟨dt, hdt, h⟩ := except_bind_ok h
    obtain ⟨dt2, hs, h⟩ := except_bind_ok h
    have e : dict = dictSet dict0 "DataType" (.str dt2) := by cases h; rfl
    subst e
    have hget : ∀ k, k ≠ "DataType" →
        dictGet (dictSet dict0 "DataType" (.str dt2)) k = dictGet dict0 k := by
      intro k hk
      rw [dictGet_set, if_neg (Ne.symm hk)]
    have hhas : ∀ k, dictHas dict0 k = true →
        dictHas (dictSet dict0 "DataType" (.str dt2)) k = true := by
      intro k hk
      obtain ⟨v, hv, _⟩ := dictGet_ok_of_has _ _ hk
      by_cases hkd : k = "DataType"
      · subst hkd
        rw [dictHas_iff]
        exact ⟨_, dictGet_mem (by rw [dictGet_set, if_pos rfl])⟩
      · rw [dictHas_iff]
        exact ⟨_, dictGet_mem ((hget k hkd).trans hv)⟩
    have hhas' : ∀ k, k ≠ "DataType" → dictHas (dictSet dict0 "DataType" (.str dt2)) k = true →
        dictHas dict0 k = true := by
      intro k hkd hk
      obtain ⟨v, hv, _⟩ := dictGet_ok_of_has _ _ hk
      rw [hget k hkd] at hv
      rw [dictHas_iff]
      exact ⟨_, dictGet_mem hv⟩
    refine ⟨by rw [hget _ (by decide)]; exact f1, by rw [hget _ (by decide)]; exact f2, ?_⟩
    intro v hv
    have hv0 : multiKey dict0 ["Data", "data"] = .ok v := by
      rw [← hv]
      simp only [multiKey, hget "Data" (by decide), hget "data" (by decide)]
      by_cases h1 : dictHas dict0 "Data" = true
      · rw [if_pos h1, if_pos (hhas _ h1)]
      · rw [if_neg h1, if_neg (fun hh => h1 (hhas' _ (by decide) hh))]
        by_cases h2 : dictHas dict0 "data" = true
        · rw [if_pos h2, if_pos (hhas _ h2)]
        · rw [if_neg h2, if_neg (fun hh => h2 (hhas' _ (by decide) hh))]
    obtain ⟨g1, g2, _⟩ := f4 v hv0
    refine ⟨g1, dt2, ?_, by rw [dictGet_set, if_pos rfl]⟩
    have : dt = "tabulated" := by
      rw [Dataset.getStr, g2] at hdt
      cases hdt; rfl
    subst this
    rcases addDtypeSuffix_cases hs with rfl | rfl | rfl | rfl <;> decide
  · rw [if_neg hp] at h
    have e : dict = dict0 := by cases h; rfl
    subst e
    refine ⟨f1, f2, ?_⟩
    intro v hv
    exact absurd (f4 v hv).2.2 hp

/-- The first dataset of a writer describes the real part. -/
theorem first_dataset {ext : String} {m : Material F} {w : Writer F} (h : Writer.new ext m = .ok w) :
    ∃ rd md d ds, m.real = some rd ∧ m.metaData = some md ∧ w.datasets = d :: ds ∧
      w.ext = ext ∧ w.metaData = md.filter (fun p => p.1 ≠ "Alias") ∧
      dictGet d "SpectrumType" = .ok (.str rd.stype) ∧ dictGet d "Unit" = .ok (.str rd.unit) ∧
      (∀ v, multiKey d ["Data", "data"] = .ok v →
        (∃ s, v = .str s) ∧ ∃ t ∈ tableTypes, dictGet d "DataType" = .ok (.str t)) := by
  unfold Writer.new at h
  cases hmd : m.metaData with
  | none => rw [hmd] at h; cases h
  | some md =>
    rw [hmd] at h
    obtain ⟨ds, hds, h⟩ := except_bind_ok h
    have ew : w = { ext := ext, metaData := md.filter (fun p => p.1 ≠ "Alias"), datasets := ds } := by
      cases h; rfl
    unfold Material.datasetToDict at hds
    cases hc : m.cplx with
    | some c => rw [hc] at hds; cases hds
    | none =>
      rw [hc] at hds
      obtain ⟨d0, h0, hds⟩ := except_bind_ok hds
      obtain ⟨d1, _, hds⟩ := except_bind_ok hds
      cases hr : m.real with
      | none => rw [hr, partToDict] at h0; cases h0
      | some rd =>
        rw [hr] at h0
        obtain ⟨f1, f2, f3⟩ := partToDict_fields h0
        rcases collapse_cases hds with e | ⟨u0, t0, s, hu, ht, e⟩
        · exact ⟨rd, md, d0, [d1], rfl, rfl, by rw [ew]; exact e, by rw [ew], by rw [ew], f1, f2, f3⟩
        · have eu : u0 = .str rd.unit := by rw [f2] at hu; cases hu; rfl
          have et : t0 = .str rd.stype := by rw [f1] at ht; cases ht; rfl
          refine ⟨rd, md, _, [], rfl, rfl, by rw [ew]; exact e, by rw [ew], by rw [ew], ?_, ?_, ?_⟩
          · rw [et]; simp [dictGet]
          · rw [eu]; simp [dictGet]
          · intro v hv
            simp [multiKey, dictHas, dictGet] at hv
            exact ⟨⟨s, hv.symm⟩, "tabulated nk", by decide, by simp [dictGet]⟩

omit [SciPy F] [Printing F] in
/-- A table in text form has rows of one length. -/
theorem strTable_text {s : List Char} {a : NDArr F} (h : strTableToNumeric (.text s) = .ok a) :
    ∃ m rows, a = .d2 m .float rows ∧ 0 < m ∧ rows ≠ [] ∧ ∀ r ∈ rows, r.length = m := by
  unfold strTableToNumeric at h
  simp only at h
  obtain ⟨a', ha, h⟩ := except_bind_ok h
  obtain ⟨b, hb, h⟩ := except_bind_ok h
  have e : a' = a := by cases h; rfl
  subst e
  obtain ⟨rows, _, ha⟩ := except_bind_ok ha
  cases rows with
  | nil =>
    have e : a' = .d1 .float [] := by cases ha; rfl
    subst e
    cases hb
  | cons r rs =>
    rw [arrayOfRows] at ha
    split at ha
    · rename_i hall
      have e : a' = .d2 r.length .float (r :: rs) := by cases ha; rfl
      subst e
      refine ⟨_, _, rfl, ?_, by simp, ?_⟩
      · rw [validateTable, NDArr.col] at hb
        by_contra hc
        rw [if_neg hc] at hb
        cases hb
      · intro q hq
        rcases List.mem_cons.1 hq with rfl | hq
        · rfl
        · rw [List.all_eq_true] at hall
          simpa using hall q hq
    · cases ha

/-! ## Writing and reading -/

/-- Everything about one cycle of writing and reading a text file. -/
theorem text_cycle [YamlIO F] [PrintingLaws F] {ext : String} {delim : Char} {rsep : Option Char}
    (he : ExtSep ext delim rsep) {m : Material F} {w w' : Writer F} (hn : Writer.new ext m = .ok w)
    {md : List (String × MetaVal)} (hmd : m.metaData = some md) {rd : RealData F}
    (hrd : m.real = some rd) {c : String} (hc : dictGet md "MetaComment" = .ok (.str c))
    (hcc : PlainComment c.toList) (hm : CleanMeta md) (h1 : Clean rd.stype.toList)
    (h2 : Clean rd.unit.toList) {ic rii : Bool} {text : List Char}
    (hw : w.writeFile ic rii = (.ok text, w')) {o : KeyOrder} (ho : o.Valid) :
    ∃ (d0 : Dataset F) (ds0 : List (Dataset F)) (t s : String) (n : ℕ) (rows : List (List F))
      (a : NDArr F) (fd : FileDict F) (d : Dataset F) (r' : Reader F),
      w.datasets = d0 :: ds0 ∧ dictGet d0 "DataType" = .ok (.str t) ∧
      multiKey d0 ["Data", "data"] = .ok (.str s) ∧
      strTableToNumeric (.text s.toList) = .ok (.d2 n .float rows) ∧
      0 < n ∧ rows ≠ [] ∧ (∀ r ∈ rows, r.length = n) ∧
      squeezeRows (rows.map (fun r => r.map Printing.shown8)) = .ok a ∧
      ((Reader.fresh o : Reader F).readFile o ext text) = (.ok fd, r') ∧
      fd.datasets = [d] ∧ dictGet d "Data" = .ok (.arr a) ∧
      dictGet d "SpectrumType" = .ok (.str rd.stype) ∧ dictGet d "Unit" = .ok (.str rd.unit) ∧
      dictGet d "DataType" = .ok (.str t) ∧
      (∀ k ∈ writtenKeys, ∀ x, dictGet md k = .ok (.str x) →
        dictGet fd.metaData k = .ok (.str x)) ∧
      dictGet fd.metaData "MetaComment" = .ok (.str (String.ofList
        (((commentBodies c.toList).filter (fun l => lineRole o l = .comment)).flatMap
          (fun l => l ++ ['\n']) ++ [' ', '\n']))) := by
  obtain ⟨rd', md', d0, ds0, r1, r2, r3, r4, r5, r6, r7, r8⟩ := first_dataset hn
  have e1 : rd' = rd := by rw [hrd] at r1; cases r1; rfl
  have e2 : md' = md := by rw [hmd] at r2; cases r2; rfl
  subst e1 e2
  have hget : ∀ k, k ≠ "Alias" → dictGet w.metaData k = dictGet md' k := by
    intro k hk; rw [r5]; exact dictGet_filter _ hk
  have hmw : CleanMeta w.metaData := by
    intro k hk s hs
    refine hm k hk s ?_
    rw [← hs]
    refine (hget k ?_).symm
    rintro rfl; exact absurd hk (by decide)
  -- the file can only have been written if there is a table
  have hdt : ∃ v, multiKey d0 ["Data", "data"] = .ok v := by
    rw [Writer.writeFile] at hw
    cases hp : dictPop w.metaData "MetaComment" with
    | error e => rw [hp] at hw; cases hw
    | ok p =>
      rw [hp] at hw
      simp only [r4, he.format] at hw
      cases ht : ({ ext := ext, metaData := p.2, datasets := w.datasets } : Writer F).writeText with
      | error e => rw [ht] at hw; cases hw
      | ok tt =>
        obtain ⟨d', _, _, _, _, v, _, _, _, _, _, _, _, q1, _, _, _, _, _, _, q8, _⟩ :=
          (writeText_parts (w := { ext := ext, metaData := p.2, datasets := w.datasets }) he ht).ex
        have : d' = d0 := by
          have : d' :: _ = d0 :: ds0 := q1.symm.trans r3
          cases this; rfl
        subst this
        exact ⟨v, q8⟩
  obtain ⟨v0, hv0⟩ := hdt
  obtain ⟨⟨s, rfl⟩, t, ht, hdt⟩ := r8 v0 hv0
  have hclean : Clean t.toList := by
    have : ∀ t ∈ tableTypes, (∀ c ∈ t.toList, isLineEnd c = false) ∧
        ∀ c ∈ t.toList.head?, pySpace c = false := by decide
    exact this t ht
  have htne : t ≠ "" := by
    have : ∀ t ∈ tableTypes, t ≠ "" := by decide
    exact this t ht
  obtain ⟨v, n, dtp, rows, q1, q2, q3⟩ := written_text (w := w) (by rw [r4]; exact he)
    ((hget _ (by decide)).trans hc) r3 r6 r7 hdt hmw h1 h2 hclean hw
  have ev : v = .str s := by rw [hv0] at q1; cases q1; rfl
  subst ev
  obtain ⟨n', rows', e3, hn0, hne, hlen⟩ := strTable_text q2
  have e4 : n' = n := by cases e3; rfl
  have e5 : rows' = rows := by cases e3; rfl
  have e6 : dtp = .float := by cases e3; rfl
  subst e4 e5 e6
  have hne' : ∀ r ∈ rows', r ≠ [] := by
    rintro r hr rfl
    have := hlen [] hr
    simp at this; omega
  obtain ⟨a, ha, _⟩ := squeezeRows_ok (m := n')
    (rows := rows'.map (fun r => r.map Printing.shown8)) (by
      intro r hr
      obtain ⟨p, hp, rfl⟩ := List.mem_map.1 hr
      rw [List.length_map]; exact hlen p hp)
  set md1 := w.metaData.filter (fun p => p.1 ≠ "MetaComment") with hmd1
  have hget1 : ∀ k ∈ writtenKeys, dictGet md1 k = dictGet md' k := by
    intro k hk
    rw [hmd1, dictGet_filter _ (by rintro rfl; exact absurd hk (by decide)),
      hget k (by rintro rfl; exact absurd hk (by decide))]
  have hm1 : CleanMeta md1 := by
    intro k hk x hx
    rw [hget1 k hk] at hx
    exact hm k hk x hx
  have hbod : ∀ b ∈ commentBodies c.toList ++
      headerBodies md1 rd'.stype.toList rd'.unit.toList t.toList, OneLine b := by
    intro b hb
    rcases List.mem_append.1 hb with hb | hb
    · exact commentBodies_one hcc b hb
    · exact headerBodies_one hm1 h1 h2 hclean b hb
  have hread := read_written he hbod hne' ha (Reader.fresh o) o
  rw [← q3] at hread
  obtain ⟨g1, g2, g3, g4, g5, g6⟩ := cycle_fields ho hm1 h1 h2 hclean (commentBodies c.toList)
    ((Reader.fresh o : Reader F).textStart o a)
  generalize List.foldl (textStep o) _ _ = S at hread g1 g2 g3 g4 g5 g6
  have hinf : inferType S.dataset = .ok S.dataset := by
    rw [inferType, g4]
    simp only [if_neg htne]
  have hmul : S.multi ≠ [] := by rw [g6]; simp
  rw [Reader.textResult, hinf, if_neg hmul] at hread
  refine ⟨d0, ds0, t, s, n', rows', a, _, S.dataset, _, r3, hdt, hv0, q2, hn0, hne, hlen, ha, hread, ?_, ?_,
    g2, g3, g4, ?_, ?_⟩
  · rfl
  · rw [g5]
    show dictGet (dictSet (defaultDataset o) "Data" (.arr a)) "Data" = _
    rw [dictGet_set, if_pos rfl]
  · intro k hk x hx
    show dictGet (dictSet S.metaData "MetaComment" _) k = _
    rw [dictGet_set, if_neg (by rintro rfl; exact absurd hk (by decide))]
    exact g1 k hk x (by rw [hget1 k hk]; exact hx)
  · show dictGet (dictSet S.metaData "MetaComment" _) "MetaComment" = _
    rw [dictGet_set, if_pos rfl, g6]
    rfl

/-- C45: a material written to a `.txt` or `.csv` file and read back has the same reference,
author, names and comment, and its data have the same spectrum type, unit and data type, if
these values are single lines without leading blanks. This holds for every meta comment
whose lines end with line feeds. -/
theorem C45_metadata [YamlIO F] [PrintingLaws F] {ext : String} {delim : Char} {rsep : Option Char}
    (he : ExtSep ext delim rsep) {m : Material F} {w w' : Writer F} (hn : Writer.new ext m = .ok w)
    {md : List (String × MetaVal)} (hmd : m.metaData = some md) {rd : RealData F}
    (hrd : m.real = some rd) {c : String} (hc : dictGet md "MetaComment" = .ok (.str c))
    (hcc : PlainComment c.toList) (hm : CleanMeta md) (h1 : Clean rd.stype.toList)
    (h2 : Clean rd.unit.toList) {ic rii : Bool} {text : List Char}
    (hw : w.writeFile ic rii = (.ok text, w')) {o : KeyOrder} (ho : o.Valid) :
    ∃ (fd : FileDict F) (d d0 : Dataset F) (r' : Reader F) (ds0 : List (Dataset F)),
      (Reader.fresh o : Reader F).readFile o ext text = (.ok fd, r') ∧ fd.datasets = [d] ∧
      w.datasets = d0 :: ds0 ∧
      (∀ k ∈ Spec.textFields, ∀ x, dictGet md k = .ok (.str x) →
        dictGet fd.metaData k = .ok (.str x)) ∧
      dictGet d "SpectrumType" = .ok (.str rd.stype) ∧ dictGet d "Unit" = .ok (.str rd.unit) ∧
      dictGet d "DataType" = dictGet d0 "DataType" := by
  obtain ⟨d0, ds0, t, s, n, rows, a, fd, d, r', p1, p2, p3, p4, p5, p6, p7, p8, p9, p10, p11, p12, p13,
    p14, p15, p16⟩ := text_cycle he hn hmd hrd hc hcc hm h1 h2 hw ho
  exact ⟨fd, d, d0, r', ds0, p9, p10, p1, p15, p12, p13, p14.trans p2.symm⟩

/-- C46: reading back gives the table of the file dictionary, of at least two rows and columns,
with every number as shown with eight decimals. -/
theorem C46_table [YamlIO F] [PrintingLaws F] {ext : String} {delim : Char} {rsep : Option Char}
    (he : ExtSep ext delim rsep) {m : Material F} {w w' : Writer F} (hn : Writer.new ext m = .ok w)
    {md : List (String × MetaVal)} (hmd : m.metaData = some md) {rd : RealData F}
    (hrd : m.real = some rd) {c : String} (hc : dictGet md "MetaComment" = .ok (.str c))
    (hcc : PlainComment c.toList) (hm : CleanMeta md) (h1 : Clean rd.stype.toList)
    (h2 : Clean rd.unit.toList) {ic rii : Bool} {text : List Char}
    (hw : w.writeFile ic rii = (.ok text, w')) {o : KeyOrder} (ho : o.Valid)
    {d0 : Dataset F} {ds0 : List (Dataset F)} (hd0 : w.datasets = d0 :: ds0) {s : String}
    (hs : multiKey d0 ["Data", "data"] = .ok (.str s)) {n : ℕ} {rows : List (List F)}
    (ht : strTableToNumeric (.text s.toList) = .ok (.d2 n .float rows)) (h2n : 2 ≤ n)
    (h2r : 2 ≤ rows.length) :
    ∃ (fd : FileDict F) (d : Dataset F) (r' : Reader F),
      (Reader.fresh o : Reader F).readFile o ext text = (.ok fd, r') ∧ fd.datasets = [d] ∧
      dictGet d "Data" = .ok (.arr (.d2 n .float (rows.map (fun r => r.map Printing.shown8)))) := by
  obtain ⟨d0', ds0', t, s', n', rows', a, fd, d, r', p1, p2, p3, p4, p5, p6, p7, p8, p9, p10, p11, p12,
    p13, p14, p15, p16⟩ := text_cycle he hn hmd hrd hc hcc hm h1 h2 hw ho
  have e1 : d0' = d0 := by rw [hd0] at p1; cases p1; rfl
  subst e1
  have e2 : s' = s := by rw [hs] at p3; cases p3; rfl
  subst e2
  have e3 : n' = n := by rw [ht] at p4; cases p4; rfl
  have e4 : rows' = rows := by rw [ht] at p4; cases p4; rfl
  subst e3 e4
  refine ⟨fd, d, r', p9, p10, ?_⟩
  obtain ⟨a', q1, q2⟩ := squeezeRows_ok (m := n')
    (rows := rows'.map (fun r => r.map Printing.shown8)) (by
      intro r hr
      obtain ⟨p, hp, rfl⟩ := List.mem_map.1 hr
      rw [List.length_map]; exact p7 p hp)
  have : a' = a := by rw [p8] at q1; cases q1; rfl
  subst this
  rw [p11, q2 (by rw [List.length_map]; exact h2r) h2n]

end Disp

import Verif.Model.Examples
import Verif.Props.TextMaterials
import Verif.Props.YamlMaterials
import Verif.Lemmas.Rounding
/-!
# C93: the example files of the setup script
-/

namespace Disp

open Spec

variable {F : Type} [PyFloat F] [SciPy F] [NumText F]

/-! ## The metadata -/

/-- The texts of both examples. -/
structure Spec.ExampleTexts (md : List (String × MetaVal)) : Prop where
  reference : dictGet md "Reference" = .ok (.str "Literature reference to the data")
  comment : dictGet md "Comment" = .ok (.str "Any additional information goes here")
  name : dictGet md "Name" = .ok (.str "Short name of the material")
  fullName : dictGet md "FullName" = .ok (.str "Full name of the material")
  author : dictGet md "Author" = .ok (.str "The author of this data file")

theorem example_texts : ExampleTexts (exampleMeta blankMeta) := ⟨rfl, rfl, rfl, rfl, rfl⟩

theorem Spec.ExampleTexts.of {md md' : List (String × MetaVal)} (h : ExampleTexts md)
    (he : ∀ k ∈ ["Reference", "Author", "FullName", "Name", "Comment"],
      dictGet md' k = dictGet md k) : ExampleTexts md' :=
  ⟨(he _ (by decide)).trans h.reference, (he _ (by decide)).trans h.comment,
    (he _ (by decide)).trans h.name, (he _ (by decide)).trans h.fullName,
    (he _ (by decide)).trans h.author⟩

theorem exampleMeta_eq : exampleMeta blankMeta =
    [("Reference", .str "Literature reference to the data"),
     ("Comment", .str "Any additional information goes here"),
     ("Name", .str "Short name of the material"), ("FullName", .str "Full name of the material"),
     ("Author", .str "The author of this data file"), ("Alias", .str ""),
     ("MetaComment", .str
       " This is a multiline meta-comment\n which provides information not\n in metadata"),
     ("Specification", .dict [])] := rfl

theorem example_get {k : String} {v : MetaVal} (h : dictGet (exampleMeta blankMeta) k = .ok v) :
    (∃ s, v = .str s ∧ s ∈ ["Literature reference to the data",
      "Any additional information goes here", "Short name of the material",
      "Full name of the material", "The author of this data file", ""]) ∨
    (k = "MetaComment" ∧ v = .str
      " This is a multiline meta-comment\n which provides information not\n in metadata") ∨
    v = .dict [] := by
  have := dictGet_mem h
  rw [exampleMeta_eq] at this
  simp only [List.mem_cons, List.not_mem_nil, or_false, Prod.mk.injEq] at this
  rcases this with ⟨_, rfl⟩ | ⟨_, rfl⟩ | ⟨_, rfl⟩ | ⟨_, rfl⟩ | ⟨_, rfl⟩ | ⟨_, rfl⟩ | ⟨rfl, rfl⟩ |
    ⟨_, rfl⟩ <;> simp

theorem example_good : GoodMeta (exampleMeta blankMeta) := by
  refine ⟨?_, ⟨_, rfl⟩, ⟨[], rfl⟩, ?_, ?_⟩
  · intro k hk
    simp only [textFields, List.mem_cons, List.not_mem_nil, or_false] at hk
    rcases hk with rfl | rfl | rfl | rfl | rfl <;> exact ⟨_, rfl⟩
  · intro p hp
    rw [exampleMeta_eq] at hp
    simp only [List.mem_cons, List.not_mem_nil, or_false] at hp
    rcases hp with rfl | rfl | rfl | rfl | rfl | rfl | rfl | rfl
    · exact .inr (.inr ⟨_, rfl⟩)
    · exact .inr (.inr ⟨_, rfl⟩)
    · exact .inr (.inr ⟨_, rfl⟩)
    · exact .inr (.inr ⟨_, rfl⟩)
    · exact .inr (.inr ⟨_, rfl⟩)
    · exact .inl rfl
    · exact .inr (.inl rfl)
    · exact .inr (.inr ⟨_, rfl⟩)
  · show (_ : List String).Nodup
    rw [exampleMeta_eq]; decide

theorem example_header : HeaderMeta (exampleMeta blankMeta) := by
  refine ⟨example_good, ?_, ?_⟩
  · intro k hk s hs
    have hall : ∀ s ∈ ["Literature reference to the data",
      "Any additional information goes here", "Short name of the material",
      "Full name of the material", "The author of this data file", ""],
        (∀ c ∈ s.toList, isLineEnd c = false) ∧ ∀ c ∈ s.toList.head?, pySpace c = false := by
      decide +kernel
    rcases example_get hs with ⟨s', e, hm⟩ | ⟨rfl, _⟩ | e
    · have : s = s' := by cases e; rfl
      subst this
      exact hall _ hm
    · exact absurd hk (by decide)
    · cases e
  · intro c hc
    have : c = " This is a multiline meta-comment\n which provides information not\n in metadata" := by
      have : dictGet (exampleMeta blankMeta) "MetaComment" = .ok (.str
        " This is a multiline meta-comment\n which provides information not\n in metadata") := rfl
      rw [this] at hc; cases hc; rfl
    subst this
    unfold PlainComment
    decide +kernel

theorem example_plain : PlainMeta (exampleMeta blankMeta) := by
  have hall : ∀ s ∈ ["Literature reference to the data",
      "Any additional information goes here", "Short name of the material",
      "Full name of the material", "The author of this data file", "",
      " This is a multiline meta-comment\n which provides information not\n in metadata"],
        PlainText s := by
    unfold PlainText; decide +kernel
  constructor
  · intro k s hs
    rcases example_get hs with ⟨s', e, hm⟩ | ⟨_, e⟩ | e
    · have : s = s' := by cases e; rfl
      subst this
      exact hall _ (by
        simp only [List.mem_cons, List.not_mem_nil, or_false] at hm ⊢
        rcases hm with h | h | h | h | h | h <;> simp [h])
    · injection e with e
      rw [e]; exact hall _ (by simp)
    · cases e
  · intro k s hs
    rcases example_get hs with ⟨s', e, hm⟩ | ⟨_, e⟩ | e
    · cases e
    · cases e
    · have : s = [] := by cases e; rfl
      subst this; exact ⟨by simp [Distinct], by simp⟩

theorem example_kept :
    keptLines " This is a multiline meta-comment\n which provides information not\n in metadata".toList =
      [" This is a multiline meta-comment".toList, " which provides information not".toList,
       " in metadata".toList] := by
  rw [keptLines_eq (o := ⟨fileMetaKeys, datasetMetaKeys⟩) ⟨.refl _, .refl _⟩]
  decide +kernel

/-! ## The text file -/

section text
variable [Printing F] [YamlIO F]

theorem options_three {n t u : String} {v : PyVal F} (h1 : n ∉ textOptions) (h2 : n ≠ "interp_oder") :
    PlainOptions ([(n, v), ("spectrum_type", .str t), ("unit", .str u)] : Kwargs F) := by
  constructor
  · intro m hm w hw
    simp only [List.mem_cons, List.not_mem_nil, or_false, Prod.mk.injEq] at hw
    rcases hw with ⟨rfl, rfl⟩ | ⟨_, rfl⟩ | ⟨_, rfl⟩
    · exact absurd hm h1
    · exact .inr ⟨_, rfl⟩
    · exact .inr ⟨_, rfl⟩
  · rintro ⟨w, hw, -⟩
    simp only [List.mem_cons, List.not_mem_nil, or_false, Prod.mk.injEq] at hw
    rcases hw with ⟨e, _⟩ | ⟨e, _⟩ | ⟨e, _⟩
    · exact h2 e.symm
    · exact absurd e (by decide)
    · exact absurd e (by decide)

theorem only_three {n t u : String} {ty : DocType} {v : PyVal F} (hs : (n, ty) ∈ sources)
    (hv : v ≠ .none) (h1 : n ∉ textOptions) :
    (([(n, v), ("spectrum_type", .str t), ("unit", .str u)] : Kwargs F).map Prod.fst).Nodup ∧
    Only [(n, v), ("spectrum_type", .str t), ("unit", .str u)] n ty v := by
  simp only [textOptions, List.mem_cons, List.not_mem_nil, or_false, not_or] at h1
  refine ⟨?_, hs, by simp, hv, ?_⟩
  · have h2 : n ≠ "spectrum_type" := h1.1
    have h3 : n ≠ "unit" := h1.2
    simp [h2, h3]
  · rintro m ty' hm ⟨w, hw, -⟩
    simp only [List.mem_cons, List.not_mem_nil, or_false, Prod.mk.injEq] at hw
    have hno : ∀ p ∈ sources, p.1 ≠ "spectrum_type" ∧ p.1 ≠ "unit" := by decide
    rcases hw with ⟨rfl, _⟩ | ⟨rfl, _⟩ | ⟨rfl, _⟩
    · rfl
    · exact absurd rfl (hno _ hm).1
    · exact absurd rfl (hno _ hm).2

/-- C93, the text file: if the numbers of its table are distinct and are shown exactly, it is
written without error, and every new material of it has the tables of refractive index and
extinction coefficient over wavelengths in nanometres, the texts, and the three lines of the
comment with a fourth blank one. -/
theorem C93_text [LawfulCmp F] [PrintingLaws F] (rd : String → Res (FileDict F))
    (hg : GoodTable (F := F) 3 exampleTable)
    (hs : ShownExactly (F := F) exampleTable.flatten) :
    ∃ text, makeExampleTxt rd = .ok text ∧ ∀ o : KeyOrder, o.Valid →
      ∃ (fd : FileDict F) (r' : Reader F) (m' : Material F) (r i : RealData F)
        (md : List (String × MetaVal)),
        (Reader.fresh o : Reader F).readFile o ".txt" text = (.ok fd, r') ∧
        Material.new (fun _ => .ok fd) (fileKw F "") = .ok m' ∧
        RealData.newInterp .float [(lit 400, lit (17 / 10)), (lit 500, lit (16 / 10)),
          (lit 600, lit (15 / 10)), (lit 700, lit (14 / 10))] "wavelength" "nanometer" 1 = .ok r ∧
        RealData.newInterp .float [(lit 400, lit (1 / 10)), (lit 500, lit (5 / 100)),
          (lit 600, lit 0), (lit 700, lit 0)] "wavelength" "nanometer" 1 = .ok i ∧
        m'.name = "nk" ∧ m'.real = some r ∧ m'.imag = some i ∧ m'.cplx = Option.none ∧
        m'.metaData = some md ∧ ExampleTexts md ∧
        dictGet md "MetaComment" = .ok (.str (" This is a multiline meta-comment\n" ++
          " which provides information not\n in metadata\n \n")) := by
  have hsrc : ("tabulated_nk", DocType.table 3) ∈ sources := by decide
  obtain ⟨h1, h2⟩ := only_three (F := F) (t := "wavelength") (u := "nanometer") hsrc
    (v := .arr (.d2 3 .float exampleTable)) (by simp) (by decide)
  have hp := options_three (F := F) (n := "tabulated_nk") (t := "wavelength") (u := "nanometer")
    (v := .arr (.d2 3 .float exampleTable)) (by decide) (by decide)
  have hc : (lower "wavelength", lower "nanometer", "nm") ∈ names := by decide +kernel
  obtain ⟨r, i, hr, hi, hm0⟩ := (C24_table_partial rd _ h1 hp hc exampleTable).2.1 h2 hg
  obtain ⟨m, hm, hcyc⟩ := C92_built_index_extinction rd _ h1 hp hc exampleTable h2 hg
    (by simp [exampleTable]) (by simp [exampleTable]) hs example_header
  rw [hm] at hm0
  have em := Except.ok.inj hm0
  have emat : exampleMaterial rd = .ok { m with metaData := some (exampleMeta blankMeta) } := by
    unfold exampleMaterial
    simp only [hm, bind, Except.bind]
    rw [em]; rfl
  obtain ⟨m1, md1, ⟨w, w', text, fd1, r1, s1, s2, s3, s4⟩, _⟩ := hcyc ⟨fileMetaKeys, datasetMetaKeys⟩
    ⟨.refl _, .refl _⟩ ".txt" (.inl rfl) true false
  refine ⟨text, by unfold makeExampleTxt; simp only [emat, s1, bind, Except.bind, s2], ?_⟩
  intro o ho
  obtain ⟨m', md', ⟨v, v', text', fd, r', t1, t2, t3, t4⟩, u1, u2, u3, u4, _, _, u5, u6⟩ :=
    hcyc o ho ".txt" (.inl rfl) true false
  have ev : v = w := by rw [s1] at t1; cases t1; rfl
  subst ev
  have et : text' = text := by rw [s2] at t2; cases t2; rfl
  subst et
  refine ⟨fd, r', m', r, i, md', t3, t4, hr, hi, ?_, ?_, ?_, ?_, u5, example_texts.of u6.text, ?_⟩
  · rw [u1, em]
  · rw [u2, em]
  · rw [u3, em]
  · rw [u4, em]; rfl
  · rw [u6.comment _ rfl, example_kept]
    rfl

end text

/-! ## The YAML file -/

section yaml
variable [Printing F] [YamlIO F]

/-- The parameters of the second example. -/
def Spec.exampleParams : List F :=
  [lit 0, lit 1, lit (5 / 100), lit 2, lit (1 / 10), lit 10, lit 25]

/-- The material of the second example: a Sellmeier model, and a table of the extinction
coefficient. -/
theorem example2_new [LawfulCmp F] (rd : String → Res (FileDict F))
    (hg : GoodTable (F := F) 2 (rowsOf exampleExtinction)) :
    ∃ s k m, RealData.newModel .sellmeier (exampleParams : List F)
        (.ndarray .float [lit (35 / 100), lit 2]) "wavelength" "micrometer" =
          .ok (.model .sellmeier exampleParams s "wavelength" "micrometer") ∧
      s.values = .array .float [lit (35 / 100), lit 2] ∧
      tableData .float exampleExtinction "wavelength" "nm" = .ok k ∧
      exampleMaterial2 rd = .ok m ∧ m.name = "nk" ∧ m.cplx = Option.none ∧
      m.real = some (.model .sellmeier exampleParams s "wavelength" "micrometer") ∧
      m.imag = some k ∧ m.metaData = some (exampleMeta blankMeta) := by
  have hsrc : ("model_kw", DocType.model) ∈ sources := by decide
  obtain ⟨h1, h2⟩ := only_three (F := F) (t := "wavelength") (u := "micrometer") hsrc
    (v := .dict exampleModel) (by simp) (by decide)
  have hp := options_three (F := F) (n := "model_kw") (t := "wavelength") (u := "micrometer")
    (v := .dict exampleModel) (by decide) (by decide)
  have hf : classRef "Sellmeier" = .real .sellmeier := by decide +kernel
  obtain ⟨c1, _⟩ := C19_index_models (F := F) .sellmeier (by decide) exampleParams
    (.ndarray .float [lit (35 / 100), lit 2]) rfl "wavelength" "micrometer"
  obtain ⟨md, hmd, -⟩ := c1 ⟨by decide +kernel, by decide +kernel⟩
  obtain ⟨s, hs, hm2⟩ := except_bind_ok (show (do
    let r ← Spectrum.new (.ndarray .float [lit (35 / 100), lit 2]) "wavelength" "micrometer"
    _) = Except.ok md from hmd)
  obtain ⟨_, _, hm2⟩ := except_bind_ok hm2
  have emd : md = .model .sellmeier exampleParams s "wavelength" "micrometer" := by
    cases hm2; rfl
  subst emd
  have hv : s.values = .array .float [lit (35 / 100), lit 2] := by
    unfold Spectrum.new at hs
    simp only at hs
    split at hs
    · obtain ⟨p, _, hs⟩ := except_bind_ok hs
      obtain ⟨v, hv, hs⟩ := except_bind_ok hs
      obtain ⟨st, _, hs⟩ := except_bind_ok hs
      have e : v = .array .float [lit (35 / 100), lit 2] := by cases hv; rfl
      cases hs; exact e
    · cases hs
  have hc : (lower "wavelength", lower "nm", "nm") ∈ names := by decide +kernel
  obtain ⟨k, hk⟩ := tableData_ok hg 1 hc
  have hpairs : pairsOf (rowsOf exampleExtinction) 1 = (exampleExtinction : List (F × F)) := rfl
  rw [hpairs] at hk
  have hnew : Material.new rd [("model_kw", .dict exampleModel),
      ("spectrum_type", .str "wavelength"), ("unit", .str "micrometer")] =
      .ok { blankMaterial (parsedOf [("model_kw", .dict (exampleModel : ModelKw F)),
      ("spectrum_type", .str "wavelength"), ("unit", .str "micrometer")]) with
        name := "nk", real := some (.model .sellmeier exampleParams s "wavelength" "micrometer"),
        imag := some (cdata (lit 0)), defType := "wavelength", defUnit := "micrometer" } := by
    rw [new_eq_dispatch rd h1 hp h2 ⟨_, rfl⟩ trivial (by decide), dispatch_eq rd _ h1 h2 ⟨_, rfl⟩]
    simp only [dispatchOn]
    have he : processModelDict (blankMaterial (parsedOf [("model_kw", .dict (exampleModel : ModelKw F)),
        ("spectrum_type", .str "wavelength"), ("unit", .str "micrometer")])) exampleModel =
        processModelDict (blankMaterial (parsedOf [("model_kw", .dict (exampleModel : ModelKw F)),
        ("spectrum_type", .str "wavelength"), ("unit", .str "micrometer")]))
          { exampleModel with stype := some "wavelength" } := rfl
    obtain ⟨e1, _⟩ := processModelDict_eq (blankMaterial (parsedOf [("model_kw",
      .dict (exampleModel : ModelKw F)), ("spectrum_type", .str "wavelength"),
      ("unit", .str "micrometer")])) (d := { exampleModel with stype := some "wavelength" })
      (k := "Sellmeier") rfl rfl rfl rfl rfl
    rw [he, e1 _ hf]
    simp only [show RealData.newModel .sellmeier [lit 0, lit 1, lit (5 / 100), lit 2, lit (1 / 10),
      lit 10, lit 25] (.ndarray .float [lit (35 / 100), lit 2]) "wavelength" "micrometer" = _
      from hmd, Formula.output, storeReal, bind, Except.bind, complete_eq]
    rfl
  have hk' : RealData.newInterp .float exampleExtinction "wavelength" "nm" 1 = .ok k := hk
  have hm : ∀ m, Material.new rd [("model_kw", .dict exampleModel),
      ("spectrum_type", .str "wavelength"), ("unit", .str "micrometer")] = .ok m →
      exampleMaterial2 rd =
        .ok { m with metaData := m.metaData.map exampleMeta, imag := some k } := by
    intro m h
    unfold exampleMaterial2
    simp only [h, hk', bind, Except.bind]
  exact ⟨s, k, _, hmd, hv, hk, hm _ hnew, rfl, rfl, rfl, rfl, rfl⟩

/-- C93, the YAML file: it is written without error, and every new material of it has the
Sellmeier model with its parameters and range in micrometres, the table of the extinction
coefficient over wavelengths in nanometres, the texts, and the comment without its last letter. -/
theorem C93_yaml [LawfulCmp F] [PrintingLaws F] [YamlLaws F] (rd : String → Res (FileDict F))
    (hg : GoodTable (F := F) 2 (rowsOf exampleExtinction))
    (hs : ShownExactly (F := F) ((rowsOf exampleExtinction).flatten ++ exampleParams ++
      [lit (35 / 100)])) :
    ∃ text, makeExampleYaml rd = .ok text ∧ ∀ o : KeyOrder, o.Valid →
      ∃ (fd : FileDict F) (r' : Reader F) (m' : Material F) (r i : RealData F)
        (md : List (String × MetaVal)),
        (Reader.fresh o : Reader F).readFile o ".yml" text = (.ok fd, r') ∧
        Material.new (fun _ => .ok fd) (fileKw F "") = .ok m' ∧
        RealData.newModel .sellmeier [lit 0, lit 1, lit (5 / 100), lit 2, lit (1 / 10), lit 10,
          lit 25] (.ndarray .float [lit (35 / 100), lit 2]) "wavelength" "micrometer" = .ok r ∧
        RealData.newInterp .float [(lit 400, lit (1 / 10)), (lit 500, lit (5 / 100)),
          (lit 600, lit 0), (lit 700, lit 0)] "wavelength" "nm" 1 = .ok i ∧
        m'.name = "nk" ∧ m'.real = some r ∧ m'.imag = some i ∧ m'.cplx = Option.none ∧
        m'.metaData = some md ∧ ExampleTexts md ∧
        dictGet md "MetaComment" = .ok (.str (" This is a multiline meta-comment\n" ++
          " which provides information not\n in metadat")) := by
  obtain ⟨s, k, m, h1, hv, hk, hm, n1, n2, n3, n4, n5⟩ := example2_new rd hg
  obtain ⟨⟨sk, rfl⟩, hst, _⟩ := tableData_storable (by simp [exampleExtinction]) hk
  have hc : (lower "wavelength", lower "nm", "nm") ∈ names := by decide +kernel
  obtain ⟨p1, p2⟩ := names_plain hc
  have hc' : (lower "wavelength", lower "micrometer", "um") ∈ names := by decide +kernel
  obtain ⟨q1, q2⟩ := names_plain hc'
  have hpr := (hs.table (rows := rowsOf exampleExtinction) (fun x hx => by simp [hx])).1
  have key := fun (o : KeyOrder) (ho : o.Valid) =>
    C50_reload_partial (m := m) (md := exampleMeta blankMeta)
      ⟨n5, ⟨example_good, by rw [exampleMeta_eq]; decide⟩, .inl n1, n2, n3, n4,
        ⟨⟨_, _, hv⟩, by intros; simp⟩, hst⟩ n1 example_plain
      ⟨by rintro _ _ _ _ _ ⟨⟩, fun o ps s t u e => by
          have : ps = exampleExtinction := by cases e; rfl
          subst this
          simp [exampleExtinction], by rintro _ _ _ _ _ _ _ _ _ _ ⟨⟩⟩
      (.model (by decide) (by decide +kernel) (by decide +kernel) q1 q2 hv (by simp) (by simp)
        (by simp [exampleParams]))
      (.table hc p1 p2 (by simp [exampleExtinction]) (by rw [hpr]; exact hg))
      (by rintro _ _ _ _ _ ⟨⟩) (by rintro _ _ _ _ _ _ _ _ ⟨⟩) true (.inl rfl) (by rintro ⟨⟨⟩, _⟩) ho
  obtain ⟨w, w', text, fd, r1, m', md', r', i', a1, a2, a3, a4, a5, a6, a7, a8, a9, _⟩ :=
    key ⟨fileMetaKeys, datasetMetaKeys⟩ ⟨.refl _, .refl _⟩
  refine ⟨text, by unfold makeExampleYaml; simp only [hm, a1, bind, Except.bind, a2], ?_⟩
  clear a3 a4 a5 a6 a7 a8 a9
  intro o ho
  obtain ⟨v, v', text', fd, r1, m', md', r', i', b1, b2, b3, b4, b5, b6, b7, b8, b9, b10, b11⟩ :=
    key o ho
  have ev : v = w := by rw [a1] at b1; cases b1; rfl
  subst ev
  have et : text' = text := by rw [a2] at b2; cases b2; rfl
  subst et
  refine ⟨fd, r1, m', r', i', md', b3, b4, ?_, ?_, b5, b6, b7, b8, b10, example_texts.of b11.text, ?_⟩
  · cases b9 with
    | joined e => cases e
    | separate c1 c2 =>
      cases c1 with
      | model hx hn =>
        have := hx.symm.trans hv
        injection this with e1 e2
        subst e1 e2
        have f1 : (exampleParams : List F).map (Printing.shown exampleParams) = exampleParams := by
          conv_rhs => rw [← List.map_id (exampleParams : List F)]
          exact List.map_congr_left (fun x hx => hs.array _ (fun y hy => by simp [hy]) x hx)
        have f2 : ([lit (35 / 100), lit 2] : List F).map (Printing.shown [lit (35 / 100), lit 2]) =
            [lit (35 / 100), lit 2] := by
          conv_rhs => rw [← List.map_id ([lit (35 / 100), lit 2] : List F)]
          refine List.map_congr_left (fun x hx => hs.array _ (fun y hy => ?_) x hx)
          simp only [List.mem_cons, List.not_mem_nil, or_false] at hy
          rcases hy with rfl | rfl <;> simp [exampleParams]
        rw [f1, f2] at hn
        exact hn
  · cases b9 with
    | joined e => cases e
    | separate c1 c2 =>
      cases c2 with
      | table hn => rw [hpr] at hn; exact hn
  · rw [b11.comment _ rfl]
    decide +kernel

end yaml

/-! ## The hypotheses -/

theorem example_table_ideal : GoodTable (F := XR) 3 exampleTable ∧
    GoodTable (F := XR) 2 (rowsOf exampleExtinction) := by
  refine ⟨⟨by simp [exampleTable], by simp [exampleTable], ?_, ?_⟩,
    ⟨by simp [exampleExtinction, rowsOf], by simp [exampleExtinction, rowsOf], ?_, ?_⟩⟩
  · simp [exampleTable, rowX, PyFloat.isNaN, XR.isNaN, lit]
  · simp [exampleTable, rowX, lit]
  · simp [exampleExtinction, rowsOf, rowX, PyFloat.isNaN, XR.isNaN, lit]
  · simp [exampleExtinction, rowsOf, rowX, lit]

/-- In double precision the numbers are distinct as well. -/
theorem example_table_double : GoodTable (F := Dbl) 3 exampleTable ∧
    GoodTable (F := Dbl) 2 (rowsOf exampleExtinction) := by
  have h4 : (lit 400 : Dbl).val = .fin 400 := by exact_mod_cast Dbl.lit_int (n := 400) (by norm_num)
  have h5 : (lit 500 : Dbl).val = .fin 500 := by exact_mod_cast Dbl.lit_int (n := 500) (by norm_num)
  have h6 : (lit 600 : Dbl).val = .fin 600 := by exact_mod_cast Dbl.lit_int (n := 600) (by norm_num)
  have h7 : (lit 700 : Dbl).val = .fin 700 := by exact_mod_cast Dbl.lit_int (n := 700) (by norm_num)
  have hn : ∀ x : Dbl, PyFloat.isNaN x = XR.isNaN x.val := fun _ => rfl
  have he : ∀ x y : Dbl, PyFloat.eq x y = PyFloat.eq x.val y.val := fun _ _ => rfl
  refine ⟨⟨by simp [exampleTable], by simp [exampleTable], ?_, ?_⟩,
    ⟨by simp [exampleExtinction, rowsOf], by simp [exampleExtinction, rowsOf], ?_, ?_⟩⟩
  · simp [exampleTable, rowX, hn, XR.isNaN, h4, h5, h6, h7]
  · simp [exampleTable, rowX, he, h4, h5, h6, h7]
  · simp [exampleExtinction, rowsOf, rowX, hn, XR.isNaN, h4, h5, h6, h7]
  · simp [exampleExtinction, rowsOf, rowX, he, h4, h5, h6, h7]

/-- The demonstration format shows the numbers of both examples exactly. -/
theorem example_shown : letI := demoNumText; letI := demoPrinting
    ShownExactly (F := XR) exampleTable.flatten ∧
    ShownExactly (F := XR) ((rowsOf exampleExtinction).flatten ++ exampleParams ++
      [lit (35 / 100)]) := by
  letI := demoNumText
  letI := demoPrinting
  have hr : ∀ k : ℤ, XR.roundDec 8 ((k : ℝ) / 100) = (k : ℝ) / 100 ∧
      XR.rint ((k : ℝ) / 100 * 10 ^ 8) = k * 1000000 := by
    intro k
    have e : (k : ℝ) / 100 * 10 ^ 8 = ((k * 1000000 : ℤ) : ℝ) := by push_cast; ring
    refine ⟨?_, by rw [e, rint_int]⟩
    rw [XR.roundDec, e, rint_int]; push_cast; ring
  have key : ∀ k : ℤ, k.natAbs ≤ 70000 → ∀ x : XR, x = .fin ((k : ℝ) / 100) →
      demoShown x = x ∧ XR.round 8 x = x := by
    rintro k hk x rfl
    refine ⟨?_, ?_⟩
    · rw [demoShown, (hr k).2, if_pos (by omega), (hr k).1]
    · show XR.fin (XR.roundDec 8 _) = _
      rw [(hr k).1]
  have two : ∀ xs : List XR, (∀ x ∈ xs, ∃ k : ℤ, k.natAbs ≤ 70000 ∧ x = .fin ((k : ℝ) / 100)) →
      ShownExactly xs := by
    intro xs h
    refine ⟨fun ys hy y hm => ?_, fun x hx => ?_⟩
    · obtain ⟨k, h1, h2⟩ := h y (hy y hm)
      exact (key k h1 y h2).1
    · obtain ⟨k, h1, h2⟩ := h x hx
      exact (key k h1 x h2).2
  have num : ∀ (q : ℚ) (k : ℤ), k.natAbs ≤ 70000 → q = k / 100 →
      ∃ k : ℤ, k.natAbs ≤ 70000 ∧ (lit q : XR) = .fin ((k : ℝ) / 100) := by
    intro q k h1 h2
    refine ⟨k, h1, ?_⟩
    show XR.fin (q : ℝ) = _
    rw [h2]; push_cast; rfl
  refine ⟨two _ ?_, two _ ?_⟩
  · intro x hx
    simp only [exampleTable, List.flatten_cons, List.flatten_nil, List.cons_append, List.nil_append,
      List.mem_cons, List.not_mem_nil, or_false] at hx
    rcases hx with rfl | rfl | rfl | rfl | rfl | rfl | rfl | rfl | rfl | rfl | rfl | rfl
    · exact num _ 40000 (by norm_num) (by norm_num)
    · exact num _ 170 (by norm_num) (by norm_num)
    · exact num _ 10 (by norm_num) (by norm_num)
    · exact num _ 50000 (by norm_num) (by norm_num)
    · exact num _ 160 (by norm_num) (by norm_num)
    · exact num _ 5 (by norm_num) (by norm_num)
    · exact num _ 60000 (by norm_num) (by norm_num)
    · exact num _ 150 (by norm_num) (by norm_num)
    · exact num _ 0 (by norm_num) (by norm_num)
    · exact num _ 70000 (by norm_num) (by norm_num)
    · exact num _ 140 (by norm_num) (by norm_num)
    · exact num _ 0 (by norm_num) (by norm_num)
  · intro x hx
    simp only [exampleExtinction, rowsOf, exampleParams, List.map_cons, List.map_nil,
      List.flatten_cons, List.flatten_nil, List.cons_append, List.nil_append, List.append_assoc,
      List.mem_cons, List.not_mem_nil, or_false] at hx
    rcases hx with rfl | rfl | rfl | rfl | rfl | rfl | rfl | rfl | rfl | rfl | rfl | rfl | rfl | rfl |
      rfl | rfl
    · exact num _ 40000 (by norm_num) (by norm_num)
    · exact num _ 10 (by norm_num) (by norm_num)
    · exact num _ 50000 (by norm_num) (by norm_num)
    · exact num _ 5 (by norm_num) (by norm_num)
    · exact num _ 60000 (by norm_num) (by norm_num)
    · exact num _ 0 (by norm_num) (by norm_num)
    · exact num _ 70000 (by norm_num) (by norm_num)
    · exact num _ 0 (by norm_num) (by norm_num)
    · exact num _ 0 (by norm_num) (by norm_num)
    · exact num _ 100 (by norm_num) (by norm_num)
    · exact num _ 5 (by norm_num) (by norm_num)
    · exact num _ 200 (by norm_num) (by norm_num)
    · exact num _ 10 (by norm_num) (by norm_num)
    · exact num _ 1000 (by norm_num) (by norm_num)
    · exact num _ 2500 (by norm_num) (by norm_num)
    · exact num _ 35 (by norm_num) (by norm_num)

/-- Both files can be written in the demonstration format. -/
example [SciPy XR] : letI := demoNumText; letI := demoPrinting; letI := demoYaml (F := XR)
    (∃ text, makeExampleTxt (F := XR) (fun _ => .error .os) = .ok text) ∧
    (∃ text, makeExampleYaml (F := XR) (fun _ => .error .os) = .ok text) := by
  letI := demoNumText
  letI := demoPrinting
  letI := demoYaml (F := XR)
  haveI := demoPrintingLaws
  haveI := demoYamlLaws (F := XR)
  obtain ⟨t, h, _⟩ := C93_text (F := XR) (fun _ => .error .os) example_table_ideal.1 example_shown.1
  obtain ⟨t', h', _⟩ := C93_yaml (F := XR) (fun _ => .error .os) example_table_ideal.2 example_shown.2
  exact ⟨⟨t, h⟩, ⟨t', h'⟩⟩

end Disp

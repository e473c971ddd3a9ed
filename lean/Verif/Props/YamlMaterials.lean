import Verif.Lemmas.YamlIdeal
import Verif.Lemmas.PrintingIdeal
import Verif.Props.YamlReload
/-!
# C47, C50: materials that were built from keyword arguments, written to YAML and loaded
-/

namespace Disp

open Spec

variable {F : Type} [PyFloat F] [SciPy F] [NumText F]

theorem plain_of_lower {t : String} (h : ∀ c ∈ (lower t).toList, 32 ≤ c.toNat ∧ c.toNat ≤ 126) :
    PlainText t := by
  intro c hc
  right
  have := h c.toLower (by rw [lower, String.toList_ofList]; exact List.mem_map_of_mem hc)
  by_cases hu : c.isUpper = true
  · rw [Char.isUpper] at hu
    simp only [Bool.and_eq_true, decide_eq_true_eq] at hu
    obtain ⟨h1, h2⟩ := hu
    have h1 : 65 ≤ c.toNat := h1
    have h2 : c.toNat ≤ 90 := h2
    omega
  · have e : c.toLower = c := by
      rw [Char.toLower]
      split
      · rename_i hh
        exact absurd (by simpa [Char.isUpper] using hh) hu
      · rfl
    rwa [e] at this

theorem names_plain {t u c : String} (h : (lower t, lower u, c) ∈ names) :
    PlainText t ∧ PlainText u := by
  have : ∀ p ∈ names, (∀ c ∈ p.1.toList, 32 ≤ c.toNat ∧ c.toNat ≤ 126) ∧
      (∀ c ∈ p.2.1.toList, 32 ≤ c.toNat ∧ c.toNat ≤ 126) := by decide +kernel
  obtain ⟨h1, h2⟩ := this _ h
  exact ⟨plain_of_lower h1, plain_of_lower h2⟩

theorem blankMeta_plain : PlainMeta blankMeta := by
  have key : ∀ k v, dictGet blankMeta k = .ok v → v = .str "" ∨ v = .dict [] := by
    intro k v h
    have := dictGet_mem h
    simp only [blankMeta, List.mem_cons, List.not_mem_nil, or_false, Prod.mk.injEq] at this
    rcases this with ⟨_, rfl⟩ | ⟨_, rfl⟩ | ⟨_, rfl⟩ | ⟨_, rfl⟩ | ⟨_, rfl⟩ | ⟨_, rfl⟩ | ⟨_, rfl⟩ |
      ⟨_, rfl⟩ <;> simp
  constructor
  · intro k s h
    rcases key k _ h with e | e
    · have : s = "" := by cases e; rfl
      subst this; intro c hc; cases hc
    · cases e
  · intro k s h
    rcases key k _ h with e | e
    · cases e
    · have : s = [] := by cases e; rfl
      subst this; exact ⟨by simp [Distinct], by simp⟩

variable [YamlIO F] [YamlLaws F] [Printing F] [PrintingLaws F]

/-- C68 (and C50) for the material of a table of the refractive index with at least two and at most 500
rows: the new material has the table as printed, with the same spectrum type and unit. -/
theorem C68_yaml_table [LawfulCmp F] (rd : String → Res (FileDict F)) (kw : Kwargs F)
    (hnd : (kw.map Prod.fst).Nodup) (hp : PlainOptions kw) {c : String}
    (hc : (lower (defaultsOf kw).1, lower (defaultsOf kw).2, c) ∈ names)
    (rows : List (List F)) (hk : Only kw "tabulated_n" (.table 2) (.arr (.d2 2 .float rows)))
    (hg : GoodTable 2 rows) (h2 : 2 ≤ rows.length) (h500 : rows.length ≤ 500)
    (hgp : GoodTable 2 (printed rows)) :
    ∃ m, Material.new rd kw = .ok m ∧ ∀ o : KeyOrder, o.Valid → ∃ m' r, SavedAndLoaded o ".yml" true false m m' ∧
      tableData .float (pairsOf (printed rows) 1) (defaultsOf kw).1 (defaultsOf kw).2 = .ok r ∧
      m'.name = "nk" ∧ m'.real = some r ∧ m'.imag = some (cdata (lit 0)) ∧
      m'.cplx = Option.none := by
  obtain ⟨r0, hr0, hm0⟩ := (C24_table_partial rd kw hnd hp hc rows).1 hk hg
  have hl : (pairsOf rows 1).length = rows.length := by simp [pairsOf]
  obtain ⟨⟨s0, rfl⟩, hs0, hc0⟩ := tableData_storable (by rw [hl]; exact h2) hr0
  obtain ⟨p1, p2⟩ := names_plain hc
  refine ⟨_, hm0, fun o ho => ?_⟩
  have hro := rowsOf_pairsOf hg.width
  obtain ⟨w, w', text, fd, r1, m', md', r', i', a1, a2, a3, a4, a5, a6, a7, a8, a9, _⟩ :=
    C50_reload_partial (m := { blankMaterial (parsedOf kw) with
      name := "nk", real := some (.interp 1 (pairsOf rows 1) s0 (defaultsOf kw).1 (defaultsOf kw).2),
      imag := some (cdata (lit 0)) }) (md := blankMeta) (i := cdata (lit 0))
      ⟨rfl, blankMeta_ok, .inl rfl, rfl, rfl, rfl, hs0, cdata_storable _⟩ rfl blankMeta_plain
      ⟨fun o ps s t u e => by
          have : ps = pairsOf rows 1 := by cases e; rfl
          subst this
          refine ⟨?_, by rw [hl]; exact h500⟩
          intro he
          rw [he] at hl
          simp at hl; omega,
        by rintro _ _ _ _ _ ⟨⟩, by rintro _ _ _ _ _ _ _ _ _ _ _ ⟨⟩⟩
      (.table hc p1 p2 (by rw [hl]; exact h500) (by rw [hro]; exact hgp)) (.constant _ _ _ _)
      (by rintro _ _ _ _ _ ⟨⟩) (by rintro _ _ _ _ _ _ _ _ _ ⟨⟩) true (.inl rfl) (by rintro ⟨⟨⟩, _⟩) ho
  refine ⟨m', r', ⟨w, w', text, fd, r1, a1, a2, a3, a4⟩, ?_, a5, a6, ?_, a8⟩
  · cases a9 with
    | separate b1 b2 =>
      cases b1 with
      | table b => rw [hro] at b; exact b
    | joined _ e => cases e
  · rw [a7]
    cases a9 with
    | separate b1 b2 =>
      have : ∀ {d i : RealData F}, Reloaded d i → isConst d = true → i = cdata (lit 0) := by
        intro d i hd hc
        cases hd with
        | constant => rfl
        | table => cases hc
        | model => cases hc
      rw [this b2 rfl]
    | joined _ e => cases e

/-- C69 (and C50) for the material of a model of the refractive index with up to 1000 parameters: the new
material has the same model with its parameters and range as printed. -/
theorem C69_yaml_model [LawfulCmp F] (rd : String → Res (FileDict F)) (kw : Kwargs F)
    (hnd : (kw.map Prod.fst).Nodup) (hp : PlainOptions kw) (d : ModelKw F)
    (h : Only kw "model_kw" .model (.dict d)) (k : String) (hk : d.name = some k)
    (p : List F) (hpar : d.params = some p) (xs : List F)
    (hr : d.validRange = some (.list .float xs))
    (t u : String) (ht : d.stype = some t) (hu : d.unit = some u) (hki : k ∈ indexModels)
    (hlt : lower t = "wavelength") (hlu : lower u ∈ ["um", "micrometer", "micrometre"])
    (hp1 : p.length ≤ 1000) (hx0 : xs ≠ []) (hx1 : xs.length ≤ 1000) :
    ∃ m f, Material.new rd kw = .ok m ∧ classRef k = .real f ∧ ∀ o : KeyOrder, o.Valid →
      ∃ m' r, SavedAndLoaded o ".yml" true false m m' ∧
        RealData.newModel f (p.map (Printing.shown p)) (.list .float (xs.map (Printing.shown xs)))
          t u = .ok r ∧
        m'.name = "nk" ∧ m'.real = some r ∧ m'.imag = some (cdata (lit 0)) ∧
        m'.cplx = Option.none := by
  obtain ⟨f, md, hmd, hf, hm⟩ := ((C24_model_partial rd kw hnd hp d h k hk p hpar _ hr (by trivial)
    t u ht hu).1 hki).1 ⟨hlt, hlu⟩
  obtain ⟨f', hf', hff, _⟩ := indexModel_class k hki
  have e : f' = f := by rw [hf] at hf'; cases hf'; rfl
  subst e
  have hc : (lower t, lower u, "um") ∈ names := by
    rw [hlt]
    simp only [List.mem_cons, List.not_mem_nil, or_false] at hlu
    rcases hlu with lu | lu | lu <;> rw [lu] <;> decide +kernel
  obtain ⟨p1, p2⟩ := names_plain hc
  obtain ⟨s, rfl, hs⟩ : ∃ s, md = .model f' p s t u ∧ s.values = .array .float xs := by
    unfold RealData.newModel at hmd
    obtain ⟨s, hs, hmd⟩ := except_bind_ok hmd
    obtain ⟨_, _, hmd⟩ := except_bind_ok hmd
    refine ⟨s, by cases hmd; rfl, ?_⟩
    rw [Spectrum.new_eq] at hs
    cases hl : specLookup (lower t) (lower u) with
    | error e => rw [hl] at hs; cases hs
    | ok c =>
      rw [hl] at hs
      obtain ⟨v, hv, hs⟩ := except_bind_ok hs
      obtain ⟨std, _, hs⟩ := except_bind_ok hs
      have e : v = .array .float xs := by cases hv; rfl
      cases hs
      exact e
  refine ⟨_, f', hm, hf, fun o ho => ?_⟩
  obtain ⟨w, w', text, fd, r1, m', md', r', i', a1, a2, a3, a4, a5, a6, a7, a8, a9, _⟩ :=
    C50_reload_partial (m := { blankMaterial (parsedOf kw) with
      name := "nk", real := some (.model f' p s t u), imag := some (cdata (lit 0)), defType := t,
      defUnit := u }) (md := blankMeta) (i := cdata (lit 0))
      ⟨rfl, blankMeta_ok, .inl rfl, rfl, rfl, rfl, ⟨⟨_, _, hs⟩, by rintro _ _ _ _ _ _ ⟨⟩⟩,
        cdata_storable _⟩ rfl blankMeta_plain
      ⟨by rintro _ _ _ _ _ ⟨⟩, by rintro _ _ _ _ _ ⟨⟩, by rintro _ _ _ _ _ _ _ _ _ _ ⟨⟩⟩
      (.model hff hlt hlu p1 p2 hs hx0 hx1 hp1) (.constant _ _ _ _)
      (by rintro _ _ _ _ _ ⟨⟩) (by rintro _ _ _ _ _ _ _ _ ⟨⟩) true (.inl rfl) (by rintro ⟨⟨⟩, _⟩) ho
  refine ⟨m', r', ⟨w, w', text, fd, r1, a1, a2, a3, a4⟩, ?_, a5, a6, ?_, a8⟩
  · cases a9 with
    | separate b1 b2 =>
      cases b1 with
      | model b b' =>
        rename_i xs' dt
        have e : xs' = xs := by rw [hs] at b; cases b; rfl
        rw [e] at b'; exact b'
    | joined e => cases e
  · rw [a7]
    cases a9 with
    | separate b1 b2 =>
      have : ∀ {d i : RealData F}, Reloaded d i → isConst d = true → i = cdata (lit 0) := by
        intro d i hd hc
        cases hd with
        | constant => rfl
        | table => cases hc
        | model => cases hc
      rw [this b2 rfl]
    | joined e => cases e

/-- C47 for YAML files, under the assumptions of `C50_reload_partial`: the comment loses the line
feeds at its end and then its last character. -/
theorem C47_yaml_partial [LawfulCmp F] {m : Material F} {md : List (String × MetaVal)}
    {r i : RealData F} (h : HasParts m md r i) (hn : m.name = "nk") (hp : PlainMeta md)
    (hf : Fits r i) (hr : Loadable r) (hi : Loadable i) (him : NoModel i) (hj : JoinOk r i)
    (hb : ¬ (isConst r = true ∧ isConst i = true)) {o : KeyOrder} (ho : o.Valid) {c : List Char}
    (hc : HasComment m c) :
    ∃ m', Cycle o ".yml" m m' ∧ HasComment m' (rstripNl c).dropLast ∧
      (c ≠ [] → ¬ HasComment m' c) := by
  obtain ⟨w, w', text, fd, r1, m', md', r', i', a1, a2, a3, a4, a5, a6, a7, a8, a9, a10, a11⟩ :=
    C50_reload_partial h hn hp hf hr hi him hj true (.inl rfl) hb ho
  obtain ⟨md2, e1, e2⟩ := hc
  have : md2 = md := by rw [h.metaData] at e1; cases e1; rfl
  subst this
  have hcm := a11.comment _ e2
  rw [String.toList_ofList] at hcm
  refine ⟨m', ⟨w, w', true, false, text, fd, r1, "", a1, a2, a3, a4⟩, ⟨md', a10, hcm⟩, ?_⟩
  rintro hc0 ⟨md3, f1, f2⟩
  have : md3 = md' := by rw [a10] at f1; cases f1; rfl
  subst this
  rw [hcm] at f2
  have e : String.ofList (rstripNl c).dropLast = String.ofList c := by
    injection f2 with f3; injection f3
  have e : (rstripNl c).dropLast = c := by
    have := congrArg String.toList e
    rwa [String.toList_ofList, String.toList_ofList] at this
  have h1 : (rstripNl c).length ≤ c.length := by
    rw [rstripNl, List.length_reverse]
    have := (List.dropWhile_sublist (fun c => c = '\n' || c = '\r') (l := c.reverse)).length_le
    rwa [List.length_reverse] at this
  have h2 := congrArg List.length e
  rw [List.length_dropLast] at h2
  have h3 : c.length ≠ 0 := fun h => hc0 (List.length_eq_zero_iff.1 h)
  omega

/-- C70: under the assumptions of `C50_reload_partial` every text field but the comment, and every
documented specification, is in the new material as it was. -/
theorem C70_yaml_metadata [LawfulCmp F] {m : Material F} {md : List (String × MetaVal)}
    {r i : RealData F} (h : HasParts m md r i) (hn : m.name = "nk") (hp : PlainMeta md)
    (hf : Fits r i) (hr : Loadable r) (hi : Loadable i) (him : NoModel i) (hj : JoinOk r i)
    (hb : ¬ (isConst r = true ∧ isConst i = true)) {o : KeyOrder} (ho : o.Valid) :
    ∃ m' md', Cycle o ".yml" m m' ∧ m'.metaData = some md' ∧ YamlMeta md md' := by
  obtain ⟨w, w', text, fd, r1, m', md', r', i', a1, a2, a3, a4, a5, a6, a7, a8, a9, a10, a11⟩ :=
    C50_reload_partial h hn hp hf hr hi him hj true (.inl rfl) hb ho
  exact ⟨m', md', ⟨w, w', true, false, text, fd, r1, "", a1, a2, a3, a4⟩, a10, a11⟩

/-! ## The full statement -/

/-- A part as printed: tables and models with their numbers as printed, constants with the same
value. -/
inductive Spec.PrintedPart : RealData F → RealData F → Prop
  | constant (c : F) (s s' : Spectrum F) (t u t' u' : String) :
      PrintedPart (.constant c s t u) (.constant c s' t' u')
  | other {d d' : RealData F} : isConst d = false → Reloaded d d' → PrintedPart d d'

/-- C50 (full statement, refuted below): a cycle keeps the kind of data and both parts. -/
def C50_statement (F : Type) [PyFloat F] [SciPy F] [NumText F] [Printing F] [YamlIO F] : Prop :=
  ∀ (o : KeyOrder), o.Valid → ∀ (rd : String → Res (FileDict F)) (kw : Kwargs F)
    (m m' : Material F) (r i : RealData F), Material.new rd kw = .ok m → m.real = some r →
    m.imag = some i → m.cplx = Option.none → Cycle o ".yml" m m' → m'.name = m.name ∧
    ∃ r' i', m'.real = some r' ∧ m'.imag = some i' ∧
      ((PrintedPart r r' ∧ PrintedPart i i') ∨ ReloadedParts r i r' i')

/-- C50 for tables of a permittivity with up to 500 rows: the new material has no data. -/
theorem C50_eps_table [LawfulCmp F] (rd : String → Res (FileDict F)) (kw : Kwargs F)
    (hnd : (kw.map Prod.fst).Nodup) (hp : PlainOptions kw) {c : String}
    (hc : (lower (defaultsOf kw).1, lower (defaultsOf kw).2, c) ∈ names)
    (rows : List (List F)) (hk : Only kw "tabulated_eps" (.table 3) (.arr (.d2 3 .float rows)))
    (hg : GoodTable 3 rows) (h2 : 2 ≤ rows.length) (h500 : rows.length ≤ 500)
    (hgr : GoodTable 2 (printed (rowsOf (pairsOf rows 1))))
    (hgi : GoodTable 2 (printed (rowsOf (pairsOf rows 2)))) :
    ∃ m r i, Material.new rd kw = .ok m ∧ m.name = "eps" ∧ m.real = some r ∧ m.imag = some i ∧
      m.cplx = Option.none ∧ ∀ o : KeyOrder, o.Valid → ∃ m', Cycle o ".yml" m m' ∧ m'.name = "" ∧
      ∀ s, (m'.getPermittivity s).1 = .error .value ∧ ∃ e, (m'.getNk s).1 = .error e := by
  obtain ⟨r, i, hr, hi, hm⟩ := (C24_table_partial rd kw hnd hp hc rows).2.2 hk hg
  have hl : ∀ j, (pairsOf rows j).length = rows.length := by simp [pairsOf]
  obtain ⟨⟨s, rfl⟩, hs, hcr⟩ := tableData_storable (by rw [hl]; exact h2) hr
  obtain ⟨⟨s', rfl⟩, hs', hci⟩ := tableData_storable (by rw [hl]; exact h2) hi
  obtain ⟨p1, p2⟩ := names_plain hc
  refine ⟨_, _, _, hm, rfl, rfl, rfl, rfl, fun o ho => ?_⟩
  obtain ⟨m', a1, a2, _, _, _, a6⟩ := C50_permittivity (m := { blankMaterial (parsedOf kw) with
      name := "eps", real := some (.interp 1 (pairsOf rows 1) s (defaultsOf kw).1 (defaultsOf kw).2),
      imag := some (.interp 1 (pairsOf rows 2) s' (defaultsOf kw).1 (defaultsOf kw).2) })
    (md := blankMeta) ⟨rfl, blankMeta_ok, .inr rfl, rfl, rfl, rfl, hs, hs'⟩ rfl blankMeta_plain
    (.table hc p1 p2 (by rw [hl]; exact h500) hgr) (.table hc p1 p2 (by rw [hl]; exact h500) hgi)
    (by rintro _ _ _ _ _ ⟨⟩) (by rintro _ _ _ _ _ ⟨⟩) hcr hci ho
  exact ⟨m', a1, a2, a6⟩

/-! ## Demonstration -/

theorem demoRows_printed : letI := demoPrinting; printed demoRows = demoRows := by
  letI := demoPrinting
  have : ∀ r ∈ demoRows, r.map demoShown = r := by
    intro r hr
    conv_rhs => rw [← List.map_id r]
    exact List.map_congr_left (fun x hx => demoRows_shown.1 r hr x hx)
  show demoRows.map (fun r => r.map demoShown) = demoRows
  conv_rhs => rw [← List.map_id demoRows]
  exact List.map_congr_left this

/-- Concrete case for `C68_yaml_table`: the table of a glass is loaded as it was, in the
demonstration formats. -/
theorem C50_demo [SciPy XR] (rd : String → Res (FileDict XR)) :
    letI := demoNumText; letI := demoPrinting; letI := demoYaml (F := XR)
    ∃ m m' r, Material.new rd [("tabulated_n", .arr (.d2 2 .float demoRows))] = .ok m ∧
      Cycle ⟨fileMetaKeys, datasetMetaKeys⟩ ".yml" m m' ∧
      tableData .float (pairsOf demoRows 1) "wavelength" "nanometer" = .ok r ∧ m'.name = "nk" ∧
      m'.real = some r := by
  letI := demoNumText
  letI := demoPrinting
  letI := demoYaml (F := XR)
  haveI := demoPrintingLaws
  haveI := demoYamlLaws (F := XR)
  have hs : ("tabulated_n", DocType.table 2) ∈ sources := by decide
  obtain ⟨h1, h2⟩ := only_single (F := XR) hs (v := .arr (.d2 2 .float demoRows)) (by simp)
  have hd := defaults_single (F := XR) (n := "tabulated_n") (v := .arr (.d2 2 .float demoRows))
    (by decide)
  obtain ⟨m, hm, hcyc⟩ := C68_yaml_table rd _ h1 (plain_single (by decide) (by decide))
    (c := "nm") (by rw [hd]; decide +kernel) _ h2 demoRows_good
    (by simp [demoRows]) (by simp [demoRows]) (by rw [demoRows_printed]; exact demoRows_good)
  obtain ⟨m', r, a, b, c, d, _⟩ := hcyc ⟨fileMetaKeys, datasetMetaKeys⟩ ⟨.refl _, .refl _⟩
  rw [demoRows_printed, hd] at b
  exact ⟨m, m', r, hm, a.cycle, b, c, d⟩

/-- A table of a permittivity. -/
def demoEps : List (List XR) :=
  [[XR.fin 400, XR.fin 1.5, XR.fin 1.5], [XR.fin 500, XR.fin 1.25, XR.fin 1.25]]

/-- C50, the full statement, is wrong: the permittivity is lost. -/
theorem C50_refuted [SciPy XR] : letI := demoNumText; letI := demoPrinting
    letI := demoYaml (F := XR); ¬ C50_statement XR := by
  letI := demoNumText
  letI := demoPrinting
  letI := demoYaml (F := XR)
  haveI := demoPrintingLaws
  haveI := demoYamlLaws (F := XR)
  intro h
  have hs : ("tabulated_eps", DocType.table 3) ∈ sources := by decide
  obtain ⟨h1, h2⟩ := only_single (F := XR) hs (v := .arr (.d2 3 .float demoEps)) (by simp)
  have hd := defaults_single (F := XR) (n := "tabulated_eps") (v := .arr (.d2 3 .float demoEps))
    (by decide)
  have hg : GoodTable 2 (printed demoRows) := by rw [demoRows_printed]; exact demoRows_good
  obtain ⟨m, r, i, hm, hn, hr, hi, hx, hcyc⟩ := C50_eps_table (fun _ => .error .os) _ h1
    (plain_single (by decide) (by decide)) (c := "nm") (by rw [hd]; decide +kernel) demoEps h2
    ⟨by simp [demoEps], by simp [demoEps], by simp [demoEps, rowX, PyFloat.isNaN, XR.isNaN],
      by simp [demoEps, rowX]⟩ (by simp [demoEps]) (by simp [demoEps]) hg hg
  have ho : KeyOrder.Valid ⟨fileMetaKeys, datasetMetaKeys⟩ := ⟨.refl _, .refl _⟩
  obtain ⟨m', hc, hn', _⟩ := hcyc _ ho
  have := (h _ ho _ _ _ _ _ _ hm hr hi hx hc).1
  rw [hn, hn'] at this
  exact absurd this (by decide)

/-- A Sellmeier model. -/
def demoSellmeier (a b c : XR) : ModelKw XR where
  name := some "Sellmeier"
  params := some [a, b, c]
  validRange := some (.list .float [a, b])
  stype := some "wavelength"
  unit := some "um"

/-- Concrete case for `C69_yaml_model`: a Sellmeier model with range and parameters. -/
example [SciPy XR] (rd : String → Res (FileDict XR)) (a b c : XR) :
    letI := demoNumText; letI := demoPrinting; letI := demoYaml (F := XR)
    ∃ m m' r, Material.new rd [("model_kw", .dict (demoSellmeier a b c))] = .ok m ∧
      Cycle ⟨fileMetaKeys, datasetMetaKeys⟩ ".yml" m m' ∧ m'.real = some r := by
  letI := demoNumText
  letI := demoPrinting
  letI := demoYaml (F := XR)
  haveI := demoPrintingLaws
  haveI := demoYamlLaws (F := XR)
  have hs : ("model_kw", DocType.model) ∈ sources := by decide
  obtain ⟨h1, h2⟩ := only_single (F := XR) hs (v := .dict (demoSellmeier a b c)) (by simp)
  obtain ⟨m, f, hm, _, hcyc⟩ := C69_yaml_model rd _ h1 (plain_single (by decide) (by decide)) _
    h2 "Sellmeier" rfl _ rfl _ rfl _ _ rfl rfl (by decide) (by decide) (by decide) (by simp)
    (by simp) (by simp)
  obtain ⟨m', r, x1, _, _, x2, _⟩ := hcyc ⟨fileMetaKeys, datasetMetaKeys⟩ ⟨.refl _, .refl _⟩
  exact ⟨m, m', r, hm, x1.cycle, x2⟩

end Disp

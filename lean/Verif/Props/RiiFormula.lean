import Verif.Props.RiiNames
/-!
# C113: how models are named in files with the names of refractiveindex.info
-/

namespace Disp

open Spec

/-- The formulas of refractiveindex.info, with their numbers. -/
def Spec.riiNumber : List (String × ℕ) :=
  [("Sellmeier", 1), ("Sellmeier2", 2), ("Polynomial", 3), ("RefractiveIndexInfo", 4),
   ("Cauchy", 5), ("Gases", 6), ("Herzberger", 7), ("Retro", 8), ("Exotic", 9)]

variable {F : Type} [PyFloat F] [SciPy F] [NumText F] [Printing F] [YamlIO F]

/-- The material is written with `use_rii_aliases=True`; reading the file gives the datasets. -/
def RiiWritten (o : KeyOrder) (m : Material F) (ds : List (Dataset F)) : Prop :=
  ∃ (w w' : Writer F) (ic : Bool) (text : List Char) (fd : FileDict F) (r' : Reader F),
    Writer.new ".yml" m = .ok w ∧ w.writeFile ic true = (.ok text, w') ∧
    (Reader.fresh o : Reader F).readFile o ".yml" text = (.ok fd, r') ∧ fd.datasets = ds

/-- C113 (full statement, refuted below): a model that refractiveindex.info knows as formula `n` is
written as `formula n`. -/
def C113_statement (F : Type) [PyFloat F] [SciPy F] [NumText F] [Printing F] [YamlIO F] : Prop :=
  ∀ (o : KeyOrder), o.Valid → ∀ (rd : String → Res (FileDict F)) (kw : Kwargs F) (d : ModelKw F)
    (k : String) (n : ℕ) (m : Material F) (ds : List (Dataset F)),
    Only kw "model_kw" .model (.dict d) → d.name = some k → (k, n) ∈ riiNumber →
    Material.new rd kw = .ok m → RiiWritten o m ds →
    ∃ x ∈ ds, dictGet x "DataType" = .ok (.str ("formula " ++ toString n))

omit [PyFloat F] [SciPy F] [NumText F] [Printing F] [YamlIO F] in
/-- A class of an index model has the name under which it was found. -/
theorem class_name {k : String} (hk : k ∈ indexModels) {f : Formula} (hf : classRef k = .real f) :
    f.className = k := by
  have : ∀ k ∈ indexModels, ∀ g : Formula, classRef k = .real g → g.className = k := by
    intro k hk g hg
    simp only [indexModels, List.mem_cons, List.not_mem_nil, or_false] at hk
    have key : ∀ (k : String) (f : Formula), classRef k = .real f → f.className = k →
        classRef k = .real g → g.className = k := by
      intro k f h1 h2 h3
      rw [h1] at h3
      cases h3
      exact h2
    rcases hk with rfl | rfl | rfl | rfl | rfl | rfl | rfl | rfl | rfl
    · exact key _ .sellmeier (by decide +kernel) rfl hg
    · exact key _ .sellmeier2 (by decide +kernel) rfl hg
    · exact key _ .polynomial (by decide +kernel) rfl hg
    · exact key _ .refractiveIndexInfo (by decide +kernel) rfl hg
    · exact key _ .cauchy (by decide +kernel) rfl hg
    · exact key _ .gases (by decide +kernel) rfl hg
    · exact key _ .herzberger (by decide +kernel) rfl hg
    · exact key _ .retro (by decide +kernel) rfl hg
    · exact key _ .exotic (by decide +kernel) rfl hg
  exact this k hk f hf

variable [LawfulCmp F] [PrintingLaws F] [YamlLaws F]

/-- C113 for every model of the refractive index: the file has one dataset, which is named
`model` and the name of the class in the package, so never by the number of the formula. Missing:
the statement itself, which is false. -/
theorem C113_name_partial (rd : String → Res (FileDict F)) (kw : Kwargs F)
    (hnd : (kw.map Prod.fst).Nodup) (hp : PlainOptions kw) (d : ModelKw F)
    (h : Only kw "model_kw" .model (.dict d)) (k : String) (hk : d.name = some k)
    (p : List F) (hpar : d.params = some p) (xs : List F)
    (hr : d.validRange = some (.list .float xs))
    (t u : String) (ht : d.stype = some t) (hu : d.unit = some u) (hki : k ∈ indexModels)
    (hlt : lower t = "wavelength") (hlu : lower u ∈ ["um", "micrometer", "micrometre"])
    (hp1 : p.length ≤ 1000) (hx0 : xs ≠ []) (hx1 : xs.length ≤ 1000) :
    ∃ m, Material.new rd kw = .ok m ∧ ∀ o : KeyOrder, o.Valid → ∃ x, RiiWritten o m [x] ∧
      dictGet x "DataType" = .ok (.str ("model " ++ k)) := by
  obtain ⟨f, md, hmd, hf, hm⟩ := ((C24_model_partial rd kw hnd hp d h k hk p hpar _ hr (by trivial)
    t u ht hu).1 hki).1 ⟨hlt, hlu⟩
  obtain ⟨f', hf', hff, hname⟩ := indexModel_class k hki
  have e : f' = f := by rw [hf] at hf'; cases hf'; rfl
  subst e
  obtain ⟨s, rfl, hs⟩ : ∃ s, md = .model f' p s t u ∧ s.values = .array .float xs := by
    unfold RealData.newModel at hmd
    obtain ⟨s, hs, hmd⟩ := except_bind_ok hmd
    obtain ⟨_, _, hmd⟩ := except_bind_ok hmd
    refine ⟨s, by cases hmd; rfl, ?_⟩
    rw [Spectrum.new_eq] at hs
    cases hl : specLookup (lower t) (lower u) with
    | error e => rw [hl] at hs; cases hs
    | ok c =>
      rw [hl] at hs
      obtain ⟨v, hv, hs⟩ := except_bind_ok hs
      obtain ⟨std, _, hs⟩ := except_bind_ok hs
      have e : v = .array .float xs := by cases hv; rfl
      cases hs
      exact e
  refine ⟨_, hm, fun o ho => ?_⟩
  have hst : Storable (.model f' p s t u) := ⟨⟨_, _, hs⟩, by rintro _ _ _ _ _ _ ⟨⟩⟩
  have hparts : HasParts { blankMaterial (parsedOf kw) with
      name := "nk", real := some (.model f' p s t u), imag := some (cdata (lit 0)), defType := t,
      defUnit := u } blankMeta (.model f' p s t u) (cdata (lit 0)) :=
    ⟨rfl, blankMeta_ok, .inl rfl, rfl, rfl, rfl, hst, cdata_storable _⟩
  obtain ⟨w, w', c, sp, ds, h1, h2, h3, h4, h5⟩ := C49_written_partial hparts (fun _ =>
      ⟨by rintro _ _ _ _ _ ⟨⟩, by rintro _ _ _ _ _ ⟨⟩, by rintro _ _ _ _ _ _ _ _ _ _ ⟨⟩⟩) true true
    (by rintro ⟨_, ⟨⟩, _⟩)
  simp only [if_true] at h4
  have hds : ds = [outDict (.model f' p s t u) " n"] := by
    rcases h5 with rfl | ⟨_, _, _, _, _, _, _, _, _, ⟨⟩, _⟩
    rfl
  subst hds
  rw [List.map_cons, List.map_nil, riiDataset_out hst rfl (by decide)] at h4
  obtain ⟨htx, hkn⟩ := riiOut_text (s := " n") hst rfl (by decide)
  obtain ⟨fd, r1, g1, g2, g3, g4⟩ := reload_list ho blankMeta_ok blankMeta_plain h2 h3
    (ds := [riiOut (.model f' p s t u) " n"])
    (Ps := [fun out => dictGet out "DataType" = .ok (.str ("model " ++ f'.className))])
    (.cons ⟨htx, fun d' hd' => by
      have hg' := perm_get htx.1 hd'
      obtain ⟨out, e1, e2, _⟩ := rii_entry ho ((hd'.map Prod.fst).nodup_iff.1 htx.1)
        (fun q hq => hkn q (hd'.mem_iff.2 hq)) (t := "model " ++ f'.className)
        (by rw [hg']; rfl) (by cases f' <;> decide +kernel)
        (v := .str (String.ofList (numericToString (.d1 .float p)))) (by
          have : entryData d' ("model " ++ f'.className).toList =
              getEither d' "coefficients" "Parameters" := by
            cases f' <;> rfl
          rw [this, getEither, hg']; rfl)
      exact ⟨out, e1, e2⟩⟩ .nil)
  cases hfd : fd.datasets with
  | nil => rw [hfd] at g2; cases g2
  | cons x rest =>
    rw [hfd] at g2
    cases g2 with
    | cons q1 q2 =>
      cases q2
      refine ⟨x, ⟨w, w', true, _, fd, r1, h1, h4, g1, hfd⟩, ?_⟩
      rw [← class_name hki hf]
      exact q1

/-- The Sellmeier model of the demonstration is written as `model Sellmeier`. -/
theorem sellmeier_written [SciPy XR] (rd : String → Res (FileDict XR)) (a b c : XR) :
    letI := demoNumText; letI := demoPrinting; letI := demoYaml (F := XR)
    ∃ m x, Material.new rd [("model_kw", .dict (demoSellmeier a b c))] = .ok m ∧
      RiiWritten ⟨fileMetaKeys, datasetMetaKeys⟩ m [x] ∧
      dictGet x "DataType" = .ok (.str "model Sellmeier") := by
  letI := demoNumText
  letI := demoPrinting
  letI := demoYaml (F := XR)
  haveI := demoPrintingLaws
  haveI := demoYamlLaws (F := XR)
  have hs : ("model_kw", DocType.model) ∈ sources := by decide
  obtain ⟨h1, h2⟩ := only_single (F := XR) hs (v := .dict (demoSellmeier a b c)) (by simp)
  obtain ⟨m, hm, hcyc⟩ := C113_name_partial rd _ h1 (plain_single (by decide) (by decide)) _
    h2 "Sellmeier" rfl _ rfl _ rfl _ _ rfl rfl (by decide) (by decide) (by decide) (by simp)
    (by simp) (by simp)
  obtain ⟨x, x1, x2⟩ := hcyc ⟨fileMetaKeys, datasetMetaKeys⟩ ⟨.refl _, .refl _⟩
  exact ⟨m, x, hm, x1, x2⟩

/-- C113, the full statement, is wrong: a Sellmeier model is not written as `formula 1`. -/
theorem C113_refuted [SciPy XR] : letI := demoNumText; letI := demoPrinting
    letI := demoYaml (F := XR); ¬ C113_statement XR := by
  letI := demoNumText
  letI := demoPrinting
  letI := demoYaml (F := XR)
  intro h
  have hs : ("model_kw", DocType.model) ∈ sources := by decide
  obtain ⟨h1, h2⟩ := only_single (F := XR) hs
    (v := .dict (demoSellmeier (lit 0) (lit 1) (lit 2))) (by simp)
  obtain ⟨m, x, hm, hw, hx⟩ := sellmeier_written (fun _ => .error .os) (lit 0) (lit 1) (lit 2)
  obtain ⟨y, hy, hyt⟩ := h ⟨fileMetaKeys, datasetMetaKeys⟩ ⟨.refl _, .refl _⟩ _ _ _ "Sellmeier" 1 m
    [x] h2 rfl (by decide) hm hw
  rw [List.mem_singleton] at hy
  subst hy
  rw [hx] at hyt
  simp only [Except.ok.injEq, DVal.str.injEq] at hyt
  exact absurd hyt (by decide +kernel)

end Disp

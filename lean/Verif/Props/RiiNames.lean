import Verif.Props.AliasLookup
import Verif.Props.YamlMaterials
/-!
# C79, C80: files with the names of refractiveindex.info
-/

namespace Disp

open Spec

section entries
variable {F : Type}

/-! ## The datasets that are written -/

/-- The text has no capital letter. -/
def NoCapital (s : String) : Prop := ∀ c ∈ s.toList, ¬ (65 ≤ c.toNat ∧ c.toNat ≤ 90)

theorem rii_capital : ∀ p ∈ riiAliases, ∃ c ∈ p.1.toList, 65 ≤ c.toNat ∧ c.toNat ≤ 90 := by
  decide +kernel

theorem rii_plain {s : String} (h : NoCapital s) : ∃ e, dictGet riiAliases s = .error e := by
  cases hd : dictGet riiAliases s with
  | error e => exact ⟨e, rfl⟩
  | ok v =>
    obtain ⟨c, hc, hu⟩ := rii_capital _ (dictGet_mem hd)
    exact absurd hu (h c hc)

/-- The names that the datasets have in these files. -/
def riiKeys : List String := ["type", "wavelength_range", "data", "coefficients"]

theorem rii_key {o : KeyOrder} (ho : o.Valid) : ∀ k ∈ riiKeys,
    datasetKey o k = if k = "wavelength_range" then some "ValidRange" else Option.none := by
  have hv : KeyOrder.Valid ⟨fileMetaKeys, datasetMetaKeys⟩ := ⟨.refl _, .refl _⟩
  intro k hk
  rw [datasetKey_same ho hv]
  revert k
  decide +kernel

theorem rii_fill {o : KeyOrder} (ho : o.Valid) : ∀ (d : Dataset F), Keys d →
    (∀ p ∈ d, p.1 ∈ riiKeys) → ∀ (out : Dataset F),
    (∀ k, k ≠ "ValidRange" → dictGet (fillFields o d out) k = dictGet out k) ∧
    (∀ v, dictGet d "wavelength_range" = .ok v →
      dictGet (fillFields o d out) "ValidRange" = .ok v) ∧
    ("wavelength_range" ∉ d.map Prod.fst →
      dictGet (fillFields o d out) "ValidRange" = dictGet out "ValidRange") := by
  intro d
  induction d with
  | nil => intro _ _ out; exact ⟨fun _ _ => rfl, fun v h => by (cases h), fun _ => rfl⟩
  | cons p d ih =>
    intro hk hkn out
    have hk' : Keys d := (List.nodup_cons.1 hk).2
    have hnot : p.1 ∉ d.map Prod.fst := (List.nodup_cons.1 hk).1
    have step : fillFields o (p :: d) out = fillFields o d (match datasetKey o p.1 with
      | some key => dictSet out key p.2
      | Option.none => out) := rfl
    rw [rii_key ho p.1 (hkn p (List.mem_cons_self ..))] at step
    by_cases he : p.1 = "wavelength_range"
    · simp only [he, if_true] at step
      obtain ⟨i1, i2, i3⟩ := ih hk' (fun q hq => hkn q (List.mem_cons_of_mem _ hq))
        (dictSet out "ValidRange" p.2)
      rw [step]
      refine ⟨fun k hne => ?_, fun v hv => ?_, fun h => ?_⟩
      · rw [i1 k hne, dictGet_set, if_neg (Ne.symm hne)]
      · have : dictGet (p :: d) "wavelength_range" = .ok p.2 :=
          dictGet_of_mem hk (by rw [← he]; simp)
        rw [this] at hv
        cases hv
        rw [i3 (by rw [← he]; exact hnot), dictGet_set, if_pos rfl]
      · exact absurd (by simp [he]) h
    · simp only [he, if_false] at step
      obtain ⟨i1, i2, i3⟩ := ih hk' (fun q hq => hkn q (List.mem_cons_of_mem _ hq)) out
      rw [step]
      refine ⟨i1, fun v hv => i2 v ?_, fun h => i3 (fun h' => h (by simp [h']))⟩
      rcases List.mem_cons.1 (dictGet_mem hv) with h | h
      · exact absurd (by rw [← h]) he
      · exact dictGet_of_mem hk' h

/-- Reading one dataset of such a file: the spectrum type and the unit are not given. -/
theorem rii_entry {o : KeyOrder} (ho : o.Valid) {d : Dataset F} (hk : Keys d)
    (hkn : ∀ p ∈ d, p.1 ∈ riiKeys) {t : String} (ht : dictGet d "type" = .ok (.str t))
    (hl : lstrip t.toList = t.toList) {v : DVal F} (hv : entryData d t.toList = .ok v) :
    ∃ out, processMatData1 o d = .ok out ∧ dictGet out "DataType" = .ok (.str t) ∧
      dictGet out "Data" = .ok v ∧ dictGet out "SpectrumType" = .ok (.str "") ∧
      dictGet out "Unit" = .ok (.str "") ∧
      ∀ w, dictGet d "wavelength_range" = .ok w → dictGet out "ValidRange" = .ok w := by
  have he : entryType d = .ok t.toList := by
    rw [entryType, getEither, ht]
    simp only [hl]
  have hpr : processMatData1 o d = .ok (fillFields o d (dictSet (dictSet (defaultDataset o)
      "DataType" (.str (String.ofList t.toList))) "Data" v)) := by
    rw [processMatData1, he]
    simp only [bind, Except.bind, hv]
  obtain ⟨f1, f2, _⟩ := rii_fill ho d hk hkn (dictSet (dictSet (defaultDataset o)
      "DataType" (.str (String.ofList t.toList))) "Data" v)
  have hdef : ∀ k ∈ datasetMetaKeys, dictGet (defaultDataset o : Dataset F) k = .ok (.str "") := by
    intro k hk
    rw [defaultDataset, dictGet_const, if_pos (ho.2.mem_iff.2 hk)]
  refine ⟨_, hpr, ?_, ?_, ?_, ?_, f2⟩
  · rw [f1 _ (by decide), dictGet_set, if_neg (by decide), dictGet_set, if_pos rfl,
      String.ofList_toList]
  · rw [f1 _ (by decide), dictGet_set, if_pos rfl]
  · rw [f1 _ (by decide), dictGet_set, if_neg (by decide), dictGet_set, if_neg (by decide)]
    exact hdef _ (by decide)
  · rw [f1 _ (by decide), dictGet_set, if_neg (by decide), dictGet_set, if_neg (by decide)]
    exact hdef _ (by decide)

end entries

variable {F : Type} [PyFloat F] [SciPy F] [NumText F] [Printing F]

/-- The dataset of a part in these files. -/
def riiOut (d : RealData F) (suffix : String) : Dataset F :=
  match d with
  | .interp _ ps r _ _ => [("type", .str ("tabulated" ++ suffix)), ("wavelength_range", rangeOf r),
      ("data", .str (tableText 2 (rowsOf ps)))]
  | .model k p r _ _ => [("type", .str ("model " ++ k.className)), ("wavelength_range", rangeOf r),
      ("coefficients", .str (String.ofList (numericToString (.d1 .float p))))]
  | _ => []

omit [SciPy F] [PyFloat F] in
theorem array_noCapital [PrintingLaws F] (a : NDArr F) :
    NoCapital (String.ofList (numericToString a)) := by
  intro c hc
  rw [String.toList_ofList] at hc
  rcases arrayText_plain a c hc with rfl | h
  · decide
  · exact h.2.2

theorem suffix_noCapital : ∀ s ∈ suffixes, NoCapital ("tabulated" ++ s) := by
  unfold NoCapital
  decide +kernel

omit [SciPy F] [PyFloat F] in
theorem range_noCapital [PrintingLaws F] {s : Spectrum F} {dt : DType} {xs : List F}
    (h : s.values = .array dt xs) : ∃ x, rangeOf s = .str x ∧ NoCapital x ∧ PlainText x :=
  ⟨_, by rw [rangeOf, h], array_noCapital _, plainText_array _⟩

theorem model_alias (k : Formula) : dictGet riiAliases ("model " ++ k.className) = .error .key := by
  cases k <;> decide +kernel

/-- A part under the names of refractiveindex.info. -/
theorem riiDataset_out [PrintingLaws F] {d : RealData F} (hs : Storable d)
    (hc : isConst d = false) {s : String} (hsx : s ∈ suffixes) :
    riiDataset (outDict d s) = riiOut d s := by
  obtain ⟨⟨dt, xs, hr⟩, hne⟩ := hs
  obtain ⟨x, hx, hxc, _⟩ := range_noCapital hr
  obtain ⟨e, he⟩ := rii_plain hxc
  have k1 : dictGet riiAliases "DataType" = .ok "type" := by decide +kernel
  have k2 : dictGet riiAliases "ValidRange" = .ok "wavelength_range" := by decide +kernel
  have k3 : dictGet riiAliases "Data" = .ok "data" := by decide +kernel
  have k4 : dictGet riiAliases "Parameters" = .ok "coefficients" := by decide +kernel
  have n1 : ["SpectrumType", "Unit", "Yields"].contains "DataType" = false := by decide
  have n2 : ["SpectrumType", "Unit", "Yields"].contains "ValidRange" = false := by decide
  have n3 : ["SpectrumType", "Unit", "Yields"].contains "Data" = false := by decide
  have n4 : ["SpectrumType", "Unit", "Yields"].contains "Parameters" = false := by decide
  have n5 : ["SpectrumType", "Unit", "Yields"].contains "SpectrumType" = true := by decide
  have n6 : ["SpectrumType", "Unit", "Yields"].contains "Unit" = true := by decide
  have n7 : ["SpectrumType", "Unit", "Yields"].contains "Yields" = true := by decide
  cases d with
  | constant c r t u => cases hc
  | extrap b o s r t u => exact (hne _ _ _ _ _ _ rfl).elim
  | interp o ps r t u =>
    have hx : rangeOf r = .str x := hx
    obtain ⟨e1, h1⟩ := rii_plain (suffix_noCapital s hsx)
    obtain ⟨e2, h2⟩ := rii_plain (s := tableText 2 (rowsOf ps)) (array_noCapital _)
    simp only [riiDataset, outDict, riiOut, List.foldl_cons, List.foldl_nil, hx, he, h1, h2, k1, k2,
      k3, n1, n2, n3, n5, n6, Bool.false_eq_true, if_false, if_true]
    rfl
  | model k ps r t u =>
    have hx : rangeOf r = .str x := hx
    obtain ⟨e2, h2⟩ := rii_plain (array_noCapital (.d1 .float ps))
    simp only [riiDataset, outDict, riiOut, List.foldl_cons, List.foldl_nil, hx, he, h2, k1, k2,
      k4, n1, n2, n4, n5, n6, n7, model_alias, Bool.false_eq_true, if_false, if_true]
    rfl

/-- The dataset of both parts under these names. -/
def riiNk (rows : List (List F)) : Dataset F :=
  [("type", .str "tabulated nk"), ("data", .str (tableText 3 rows))]

theorem riiDataset_nk [PrintingLaws F] (t u : String) (rows : List (List F)) :
    riiDataset (nkDataset t u rows) = riiNk rows := by
  obtain ⟨e2, h2⟩ := rii_plain (s := tableText 3 rows) (array_noCapital _)
  have k1 : dictGet riiAliases "DataType" = .ok "type" := by decide +kernel
  have k3 : dictGet riiAliases "Data" = .ok "data" := by decide +kernel
  have k5 : dictGet riiAliases "tabulated nk" = .error .key := by decide +kernel
  have n1 : ["SpectrumType", "Unit", "Yields"].contains "DataType" = false := by decide
  have n3 : ["SpectrumType", "Unit", "Yields"].contains "Data" = false := by decide
  have n5 : ["SpectrumType", "Unit", "Yields"].contains "SpectrumType" = true := by decide
  have n6 : ["SpectrumType", "Unit", "Yields"].contains "Unit" = true := by decide
  simp only [riiDataset, nkDataset, riiNk, List.foldl_cons, List.foldl_nil, h2, k1, k3, k5, n1, n3,
    n5, n6, Bool.false_eq_true, if_false, if_true]
  rfl

theorem rii_text_keys : ∀ k ∈ riiKeys, PlainText k := by
  intro k hk
  refine plainText_list ?_
  revert k
  decide +kernel

/-- The datasets consist of text. -/
theorem riiOut_text [PrintingLaws F] {d : RealData F} (hs : Storable d) (hc : isConst d = false)
    {s : String} (hsx : s ∈ suffixes) :
    TextDataset (riiOut d s) ∧ ∀ p ∈ riiOut d s, p.1 ∈ riiKeys := by
  obtain ⟨⟨dt, xs, hr⟩, hne⟩ := hs
  obtain ⟨x, hx, _, hxp⟩ := range_noCapital hr
  cases d with
  | constant c r t u => cases hc
  | extrap b o s r t u => exact (hne _ _ _ _ _ _ rfl).elim
  | interp o ps r t u =>
    have hkn : ∀ p ∈ riiOut (.interp o ps r t u) s, p.1 ∈ riiKeys := by
      intro p hp
      simp only [riiOut, List.mem_cons, List.not_mem_nil, or_false] at hp
      rcases hp with rfl | rfl | rfl <;> simp [riiKeys]
    refine ⟨⟨by simp [Distinct, riiOut], fun p hp' => ⟨rii_text_keys _ (hkn p hp'), .inr ?_⟩⟩, hkn⟩
    have hx : rangeOf r = .str x := hx
    simp only [riiOut, hx, List.mem_cons, List.not_mem_nil, or_false] at hp'
    rcases hp' with rfl | rfl | rfl
    · exact ⟨_, rfl, tabulated_plain s hsx⟩
    · exact ⟨_, rfl, hxp⟩
    · exact ⟨_, rfl, plainText_array _⟩
  | model k ps r t u =>
    have hkn : ∀ p ∈ riiOut (.model k ps r t u) s, p.1 ∈ riiKeys := by
      intro p hp
      simp only [riiOut, List.mem_cons, List.not_mem_nil, or_false] at hp
      rcases hp with rfl | rfl | rfl <;> simp [riiKeys]
    refine ⟨⟨by simp [Distinct, riiOut], fun p hp' => ⟨rii_text_keys _ (hkn p hp'), .inr ?_⟩⟩, hkn⟩
    have hx : rangeOf r = .str x := hx
    simp only [riiOut, hx, List.mem_cons, List.not_mem_nil, or_false] at hp'
    rcases hp' with rfl | rfl | rfl
    · exact ⟨_, rfl, model_plain k⟩
    · exact ⟨_, rfl, hxp⟩
    · exact ⟨_, rfl, plainText_array _⟩

theorem riiNk_text [PrintingLaws F] (rows : List (List F)) :
    TextDataset (riiNk rows) ∧ ∀ p ∈ riiNk rows, p.1 ∈ riiKeys := by
  have hkn : ∀ p ∈ riiNk rows, p.1 ∈ riiKeys := by
    intro p hp
    simp only [riiNk, List.mem_cons, List.not_mem_nil, or_false] at hp
    rcases hp with rfl | rfl <;> simp [riiKeys]
  refine ⟨⟨by simp [Distinct, riiNk], fun p hp' => ⟨rii_text_keys _ (hkn p hp'), .inr ?_⟩⟩, hkn⟩
  simp only [riiNk, List.mem_cons, List.not_mem_nil, or_false] at hp'
  rcases hp' with rfl | rfl
  · exact ⟨_, rfl, plainText_list (by decide +kernel)⟩
  · exact ⟨_, rfl, plainText_array _⟩

/-! ## Loading with the type and unit of the call -/

omit [Printing F] in
theorem get_blank {d : Dataset F} {k : String} (h : dictGet d k = .ok (.str "")) (x : String) :
    ((d.get k).nonEmptyStr).getD x = x := by
  rw [Dataset.get, h]
  rfl

omit [Printing F] in
theorem load_n_as (m : Material F) {d : Dataset F} {v : DVal F} {rows : List (List F)}
    (hd : dictGet d "DataType" = .ok (.str "tabulated n")) (hv : dictGet d "Data" = .ok v)
    (hs : strTableToNumeric v.asTable = .ok (.d2 2 .float rows)) (hw : ∀ r ∈ rows, r.length = 2)
    (ht : dictGet d "SpectrumType" = .ok (.str "")) (hu : dictGet d "Unit" = .ok (.str "")) :
    processDataset m d = (tableData .float (pairsOf rows 1) m.defType m.defUnit).map
      (fun r => { m with name := "nk", real := some r }) := by
  unfold processDataset
  simp only [Dataset.getStr, hd, bind, Except.bind,
    show splitTwo "tabulated n" = .ok ("tabulated", "n") from by decide +kernel, if_true, hv, hs]
  unfold processTable
  simp only [get_blank ht, get_blank hu, specData_eq hw (show 1 < 2 by omega),
    show ¬ ("n" = "nk") from by decide, show ¬ ("n" = "n_alpha") from by decide, if_false, if_true,
    bind, Except.bind]
  cases tableData DType.float (pairsOf rows 1) m.defType m.defUnit <;> rfl

omit [Printing F] in
theorem load_k_as (m : Material F) {d : Dataset F} {v : DVal F} {rows : List (List F)}
    (hd : dictGet d "DataType" = .ok (.str "tabulated k")) (hv : dictGet d "Data" = .ok v)
    (hs : strTableToNumeric v.asTable = .ok (.d2 2 .float rows)) (hw : ∀ r ∈ rows, r.length = 2)
    (ht : dictGet d "SpectrumType" = .ok (.str "")) (hu : dictGet d "Unit" = .ok (.str "")) :
    processDataset m d = (tableData .float (pairsOf rows 1) m.defType m.defUnit).map
      (fun r => { m with name := "nk", imag := some r }) := by
  unfold processDataset
  simp only [Dataset.getStr, hd, bind, Except.bind,
    show splitTwo "tabulated k" = .ok ("tabulated", "k") from by decide +kernel, if_true, hv, hs]
  unfold processTable
  simp only [get_blank ht, get_blank hu, specData_eq hw (show 1 < 2 by omega),
    show ¬ ("k" = "nk") from by decide, show ¬ ("k" = "n_alpha") from by decide,
    show ¬ ("k" = "n") from by decide, if_false, if_true, bind, Except.bind]
  cases tableData DType.float (pairsOf rows 1) m.defType m.defUnit <;> rfl

omit [Printing F] in
theorem load_nk_as (m : Material F) {d : Dataset F} {v : DVal F} {rows : List (List F)}
    (hd : dictGet d "DataType" = .ok (.str "tabulated nk")) (hv : dictGet d "Data" = .ok v)
    (hs : strTableToNumeric v.asTable = .ok (.d2 3 .float rows)) (hw : ∀ r ∈ rows, r.length = 3)
    (ht : dictGet d "SpectrumType" = .ok (.str "")) (hu : dictGet d "Unit" = .ok (.str ""))
    {a b : RealData F}
    (ha : tableData .float (pairsOf rows 1) m.defType m.defUnit = .ok a)
    (hb : tableData .float (pairsOf rows 2) m.defType m.defUnit = .ok b) :
    processDataset m d = .ok { m with name := "nk", real := some a, imag := some b } := by
  unfold processDataset
  simp only [Dataset.getStr, hd, bind, Except.bind,
    show splitTwo "tabulated nk" = .ok ("tabulated", "nk") from by decide +kernel, if_true, hv, hs]
  unfold processTable
  simp only [get_blank ht, get_blank hu, specData_eq hw (show 1 < 3 by omega),
    specData_eq hw (show 2 < 3 by omega), if_true, ha, hb, bind, Except.bind]

omit [Printing F] in
theorem load_model_as (m : Material F) {d : Dataset F} {k : Formula} (hk : k ≠ .fano)
    {x y : String} {ps rs : List F}
    (hd : dictGet d "DataType" = .ok (.str ("model " ++ k.className)))
    (hv : dictGet d "Data" = .ok (.str x)) (hr : dictGet d "ValidRange" = .ok (.str y))
    (hx : (splitSpaces x.toList).mapM NumText.parseFloat = .ok ps)
    (hy : (splitSpaces y.toList).mapM NumText.parseFloat = .ok rs) (hy0 : y ≠ "")
    (ht : dictGet d "SpectrumType" = .ok (.str "")) (hu : dictGet d "Unit" = .ok (.str "")) :
    processDataset m d = (RealData.newModel k ps (.list .float rs) m.defType m.defUnit).map
      (fun r => { m with name := "nk", real := some r }) := by
  unfold processDataset
  simp only [Dataset.getStr, hd, bind, Except.bind, model_split,
    show ¬ ("model" = "tabulated") from by decide, if_false, or_true, if_true]
  unfold processFormulaData
  have e1 : ∀ z, ((DVal.str "" : DVal F).nonEmptyStr).getD z = z := fun _ => rfl
  simp only [Dataset.getStr, hd, hv, bind, Except.bind, model_split, or_true, not_true, if_false,
    show ¬ ("model" = "formula") from by decide, false_and, parseRange, hr, if_neg hy0, hy, hx,
    ht, hu, e1, formulaName]
  unfold processModelDict
  simp only [model_class, Option.getD_some, bind, Except.bind]
  cases RealData.newModel k ps (.list .float rs) m.defType m.defUnit with
  | error e => rfl
  | ok r =>
    simp only [model_output hk]
    rfl

/-! ## Loading with further arguments -/

omit [Printing F] in
/-- The metadata of a file are copied. -/
theorem copy_meta {md : List (String × MetaVal)} (hmd : HasMeta md) :
    ∃ md', fileKeys.mapM (fun k => (do .ok (k, ← dictGet md k) : Res (String × MetaVal))) = .ok md' ∧
      ∀ k ∈ fileKeys, dictGet md' k = dictGet md k := by
  have : ∀ ks : List String, (∀ k ∈ ks, ∃ v, dictGet md k = .ok v) → ks.Nodup →
      ∃ md', ks.mapM (fun k => (do .ok (k, ← dictGet md k) : Res (String × MetaVal))) = .ok md' ∧
        md'.map Prod.fst = ks ∧ ∀ p ∈ md', dictGet md p.1 = .ok p.2 := by
    intro ks
    induction ks with
    | nil => intro _ _; exact ⟨[], rfl, rfl, by simp⟩
    | cons k ks ih =>
      intro h hn
      obtain ⟨v, hv⟩ := h k (by simp)
      obtain ⟨l, hl, l1, l2⟩ := ih (fun k' hk' => h k' (by simp [hk'])) (List.nodup_cons.1 hn).2
      refine ⟨(k, v) :: l, ?_, by simp [l1], ?_⟩
      · rw [List.mapM_cons, hl, hv]
        rfl
      · intro p hp
        rcases List.mem_cons.1 hp with rfl | hp
        · exact hv
        · exact l2 p hp
  obtain ⟨md', h1, h2, h3⟩ := this fileKeys hmd (by decide)
  refine ⟨md', h1, fun k hk => ?_⟩
  have hkk : Keys md' := by
    show (md'.map Prod.fst).Nodup
    rw [h2]; decide
  rw [← h2] at hk
  obtain ⟨q, hq, rfl⟩ := List.mem_map.1 hk
  rw [h3 q hq]
  exact dictGet_of_mem hkk hq

omit [Printing F] in
/-- Loading a file with any further arguments: the datasets one after the other, then
completion. -/
theorem new_path {kw : Kwargs F} {p : String} (hnd : (kw.map Prod.fst).Nodup)
    (hp : PlainOptions kw) (hk : Only kw "file_path" .text (.str p))
    {fd : FileDict F} (hmd : HasMeta fd.metaData) :
    ∃ md', (∀ k ∈ fileKeys, dictGet md' k = dictGet fd.metaData k) ∧
      Material.new (fun _ => .ok fd) kw = (fd.datasets.foldlM processDataset
        { blankMaterial (parsedOf kw) with metaData := some md' }).map finish := by
  obtain ⟨md', h1, h2⟩ := copy_meta hmd
  refine ⟨md', h2, ?_⟩
  rw [new_eq_dispatch _ hnd hp hk ⟨_, rfl⟩ trivial (by decide), dispatch_eq _ _ hnd hk ⟨_, rfl⟩]
  simp only [fileKeys, bind, Except.bind] at h1
  simp only [dispatchOn, bind, Except.bind, processFileData, h1]
  split
  · rename_i e h
    rw [h]
    rfl
  · rename_i m h
    rw [h]
    exact complete_eq m

/-! ## What is reloaded -/

/-- What the writing and reading of a part keeps if the file does not say in which spectrum type
and unit it is: the numbers as printed, with the type and unit of the call. -/
inductive Spec.ReloadedAs (t u : String) : RealData F → RealData F → Prop
  | constant (c : F) (s : Spectrum F) (t' u' : String) :
      ReloadedAs t u (.constant c s t' u') (cdata (lit 0))
  | table {o : ℕ} {ps : List (F × F)} {s : Spectrum F} {t' u' : String} {d : RealData F} :
      tableData .float (pairsOf (printed (rowsOf ps)) 1) t u = .ok d →
      ReloadedAs t u (.interp o ps s t' u') d
  | model {k : Formula} {ps xs : List F} {s : Spectrum F} {dt : DType} {t' u' : String}
      {d : RealData F} : s.values = .array dt xs →
      RealData.newModel k (ps.map (Printing.shown ps)) (.list .float (xs.map (Printing.shown xs)))
        t u = .ok d →
      ReloadedAs t u (.model k ps s t' u') d

/-- The parts of a reloaded material, in the type and unit of the call. -/
inductive Spec.ReloadedPartsAs (t u : String) (r i r' i' : RealData F) : Prop
  | separate : ReloadedAs t u r r' → ReloadedAs t u i i' → ReloadedPartsAs t u r i r' i'
  | joined {o ps s o' ps' s' t0 u0} : r = .interp o ps s t0 u0 → i = .interp o' ps' s' t0 u0 →
      SameAbscissae (printed (rowsOf ps)) (printed (rowsOf ps')) →
      tableData .float (pairsOf (printed (joined (printed (rowsOf ps)) (printed (rowsOf ps')))) 1)
        t u = .ok r' →
      tableData .float (pairsOf (printed (joined (printed (rowsOf ps)) (printed (rowsOf ps')))) 2)
        t u = .ok i' →
      ReloadedPartsAs t u r i r' i'

/-- A part that can be read back in the type `t` and the unit `u`. -/
inductive Spec.LoadableAs (t u : String) : RealData F → Prop
  | constant (c : F) (s : Spectrum F) (t' u' : String) : LoadableAs t u (.constant c s t' u')
  | table {o : ℕ} {ps : List (F × F)} {s : Spectrum F} {t' u' c : String} :
      (lower t, lower u, c) ∈ names → ps.length ≤ 500 →
      GoodTable 2 (printed (rowsOf ps)) → LoadableAs t u (.interp o ps s t' u')
  | model {k : Formula} {ps xs : List F} {s : Spectrum F} {dt : DType} {t' u' : String} :
      k ≠ .fano → lower t = "wavelength" → lower u ∈ ["um", "micrometer", "micrometre"] →
      s.values = .array dt xs → xs ≠ [] → xs.length ≤ 1000 → ps.length ≤ 1000 →
      LoadableAs t u (.model k ps s t' u')

variable [LawfulCmp F] [PrintingLaws F]

/-- Reading the dataset of a refractive index. -/
theorem rii_part_n {o : KeyOrder} (ho : o.Valid) {t u : String} {d : RealData F} (hs : Storable d)
    (hl : LoadableAs t u d) (hc : isConst d = false) {d' : Dataset F} (hp : (riiOut d " n").Perm d') :
    ∃ out r', processMatData1 o d' = .ok out ∧ ReloadedAs t u d r' ∧ ∀ m : Material F,
      m.defType = t → m.defUnit = u →
      processDataset m out = .ok { m with name := "nk", real := some r' } := by
  obtain ⟨ht, hkn⟩ := riiOut_text (s := " n") hs hc (by decide)
  have hk := ht.1
  have hg' := perm_get hk hp
  have hkn' : ∀ p ∈ d', p.1 ∈ riiKeys := fun p hq => hkn p (hp.mem_iff.2 hq)
  have hk' : Keys d' := (hp.map Prod.fst).nodup_iff.1 hk
  cases hl with
  | constant c s t u => cases hc
  | table hn h5 hg =>
    rename_i o' ps s t' u' c
    obtain ⟨⟨r', hr'⟩, hrd⟩ := table_loaded hn h5 hg
    obtain ⟨out, e1, e2, e3, e4, e5, _⟩ := rii_entry ho hk' hkn' (t := "tabulated n")
      (by rw [hg']; rfl) (by decide +kernel)
      (v := .str (tableText 2 (rowsOf ps))) (by
        show getEither d' "data" "Data" = _
        rw [getEither, hg']; rfl)
    refine ⟨out, r', e1, .table hr', fun m h1 h2 => ?_⟩
    subst h1 h2
    rw [load_n_as m e2 e3 hrd hg.width e4 e5, hr']
    rfl
  | model hf lt lu hv hx0 hx1 hp1 =>
    rename_i k ps xs s dt t' u'
    obtain ⟨out, e1, e2, e3, e4, e5, e6⟩ := rii_entry ho hk' hkn' (t := "model " ++ k.className)
      (by rw [hg']; rfl) (by cases k <;> decide +kernel)
      (v := .str (String.ofList (numericToString (.d1 .float ps)))) (by
        have : entryData d' ("model " ++ k.className).toList = getEither d' "coefficients" "Parameters" := by
          cases k <;> rfl
        rw [this, getEither, hg']; rfl)
    obtain ⟨r', hr'⟩ := newModel_shown hf lt lu (ps.map (Printing.shown ps))
      (xs.map (Printing.shown xs))
    have hrange : dictGet d' "wavelength_range" =
        .ok (.str (String.ofList (numericToString (.d1 dt xs)))) := by
      rw [hg']
      show Except.ok (rangeOf s) = _
      rw [rangeOf, hv]
    refine ⟨out, r', e1, .model hv hr', fun m h1 h2 => ?_⟩
    subst h1 h2
    rw [load_model_as m hf e2 e3 (e6 _ hrange)
      (by rw [String.toList_ofList]; exact vectorText_read .float hp1)
      (by rw [String.toList_ofList]; exact vectorText_read dt hx1) ?_ e4 e5, hr']
    · rfl
    · intro he
      obtain ⟨ts, w1, w2, _⟩ := vectorText_words (F := F) dt hx1
      have he2 : numericToString (.d1 dt xs) = [] := by
        have := congrArg String.toList he
        rwa [String.toList_ofList] at this
      rw [he2, splitSpaces_nil] at w1
      subst w1
      exact hx0 (List.length_eq_zero_iff.1 w2.symm)

/-- Reading the dataset of an extinction coefficient. -/
theorem rii_part_k {o : KeyOrder} (ho : o.Valid) {t u : String} {o' : ℕ} {ps : List (F × F)}
    {s : Spectrum F} {t' u' : String} (hs : Storable (.interp o' ps s t' u'))
    (hl : LoadableAs t u (.interp o' ps s t' u'))
    {d' : Dataset F} (hp : (riiOut (.interp o' ps s t' u') " k").Perm d') :
    ∃ out r', processMatData1 o d' = .ok out ∧ ReloadedAs t u (.interp o' ps s t' u') r' ∧
      ∀ m : Material F, m.defType = t → m.defUnit = u →
      processDataset m out = .ok { m with name := "nk", imag := some r' } := by
  obtain ⟨ht, hkn⟩ := riiOut_text (s := " k") hs rfl (by decide)
  have hk := ht.1
  have hg' := perm_get hk hp
  have hkn' : ∀ p ∈ d', p.1 ∈ riiKeys := fun p hq => hkn p (hp.mem_iff.2 hq)
  have hk' : Keys d' := (hp.map Prod.fst).nodup_iff.1 hk
  cases hl with
  | table hn h5 hg =>
    rename_i c
    obtain ⟨⟨r', hr'⟩, hrd⟩ := table_loaded hn h5 hg
    obtain ⟨out, e1, e2, e3, e4, e5, _⟩ := rii_entry ho hk' hkn' (t := "tabulated k")
      (by rw [hg']; rfl) (by decide +kernel)
      (v := .str (tableText 2 (rowsOf ps))) (by
        show getEither d' "data" "Data" = _
        rw [getEither, hg']; rfl)
    refine ⟨out, r', e1, .table hr', fun m h1 h2 => ?_⟩
    subst h1 h2
    rw [load_k_as m e2 e3 hrd hg.width e4 e5, hr']
    rfl

/-- Reading the dataset of both. -/
theorem rii_part_nk {o : KeyOrder} (ho : o.Valid) (rows : List (List F)) {d' : Dataset F}
    (hp : (riiNk rows).Perm d') :
    ∃ out, processMatData1 o d' = .ok out ∧ dictGet out "DataType" = .ok (.str "tabulated nk") ∧
      dictGet out "Data" = .ok (.str (tableText 3 rows)) ∧
      dictGet out "SpectrumType" = .ok (.str "") ∧ dictGet out "Unit" = .ok (.str "") := by
  obtain ⟨ht, hkn⟩ := riiNk_text rows
  have hg' := perm_get ht.1 hp
  obtain ⟨out, e1, e2, e3, e4, e5, _⟩ := rii_entry ho ((hp.map Prod.fst).nodup_iff.1 ht.1)
    (fun p hq => hkn p (hp.mem_iff.2 hq)) (t := "tabulated nk") (by rw [hg']; rfl) (by decide +kernel)
    (v := .str (tableText 3 rows)) (by
      show getEither d' "data" "Data" = _
      rw [getEither, hg']; rfl)
  exact ⟨out, e1, e2, e3, e4, e5⟩


variable [YamlIO F] [YamlLaws F]

omit [PrintingLaws F] [LawfulCmp F] [YamlIO F] [YamlLaws F] in
theorem reloadedAs_const {d : RealData F} (t u : String) (hc : isConst d = true) :
    ReloadedAs t u d (cdata (lit 0)) := by
  cases d with
  | constant c s t' u' => exact .constant c s t' u'
  | interp => cases hc
  | model => cases hc
  | extrap => cases hc

/-- A file with the names of refractiveindex.info, loaded with any arguments: the tables and
models have their numbers as printed, in the spectrum type and unit of the call. -/
theorem rii_reload {m : Material F} {md : List (String × MetaVal)}
    {r i : RealData F} (h : HasParts m md r i) (hn : m.name = "nk") (hp : PlainMeta md)
    (hf : Fits r i) {kw : Kwargs F} {p : String} (hnd : (kw.map Prod.fst).Nodup)
    (hpl : PlainOptions kw) (hkw : Only kw "file_path" .text (.str p))
    {t u c0 : String} (ht : (defaultsOf kw).1 = t) (hu : (defaultsOf kw).2 = u)
    (hname : (lower t, lower u, c0) ∈ names)
    (hr : LoadableAs t u r) (hi : LoadableAs t u i) (him : NoModel i) (hj : JoinOk r i)
    (ic : Bool) (hic : ic = true ∨ (isConst r = false ∧ isConst i = false))
    (hb : ¬ (isConst r = true ∧ isConst i = true)) {o : KeyOrder} (ho : o.Valid) :
    ∃ w w' text fd r1 m' md' r' i', Writer.new ".yml" m = .ok w ∧
      w.writeFile ic true = (.ok text, w') ∧
      (Reader.fresh o : Reader F).readFile o ".yml" text = (.ok fd, r1) ∧
      Material.new (fun _ => .ok fd) kw = .ok m' ∧
      m'.name = "nk" ∧ m'.real = some r' ∧ m'.imag = some i' ∧ m'.cplx = Option.none ∧
      ReloadedPartsAs t u r i r' i' ∧ m'.metaData = some md' ∧ YamlMeta md md' := by
  obtain ⟨w, w', c, s, ds, h1, h2, h3, h4, h5⟩ := C49_written_partial h (fun _ => hf) ic true
    (fun ⟨_, a, b⟩ => hb ⟨a, b⟩)
  simp only [if_true] at h4
  rw [hn] at h5
  -- it suffices to process the datasets
  suffices hmain : ∃ Ps : List (Dataset F → Prop),
      List.Forall₂ (fun d P => TextDataset d ∧ ∀ d', d.Perm d' →
        ∃ out, processMatData1 o d' = .ok out ∧ P out) (ds.map riiDataset) Ps ∧
      (∀ outs, List.Forall₂ (fun P out => P out) Ps outs → ∀ b : Material F, b.defType = t →
        b.defUnit = u → b.real = Option.none → b.imag = Option.none → b.cplx = Option.none →
        ∃ (x : Material F) (r' i' : RealData F), outs.foldlM processDataset b = .ok x ∧
        (finish x).name = "nk" ∧ (finish x).real = some r' ∧ (finish x).imag = some i' ∧
        x.cplx = Option.none ∧ x.metaData = b.metaData ∧ ReloadedPartsAs t u r i r' i') by
    obtain ⟨Ps, k1, k2⟩ := hmain
    obtain ⟨fd, r1, g1, g2, g3, g4⟩ := reload_list ho h.ok hp h2 h3 k1
    obtain ⟨mdx, y3, hnew⟩ := new_path hnd hpl hkw g4
    obtain ⟨x, r', i', x1, x3, x4, x5, x6, x7, k3⟩ := k2 _ g2
      { blankMaterial (parsedOf kw) with metaData := some mdx } ht hu rfl rfl rfl
    rw [x1] at hnew
    refine ⟨w, w', _, fd, r1, finish x, mdx, r', i', h1, h4, g1, hnew, x3, x4, x5, x6, k3, x7, ?_⟩
    have hw : ∀ k ∈ writtenKeys, k ∈ fileKeys := by decide
    refine ⟨fun k hk => by rw [y3 k (hw k hk)]; exact g3.text k hk, fun c hc => ?_, fun s hs => ?_⟩
    · rw [y3 _ (by decide)]; exact g3.comment c hc
    · obtain ⟨s', z1, z2⟩ := g3.spec s hs
      exact ⟨s', by rw [y3 _ (by decide)]; exact z1, z2⟩
  have sn : sfx "nk" true = " n" := rfl
  have sk : sfx "nk" false = " k" := rfl
  let Pn : Dataset F → Prop := fun out => ∃ r', ReloadedAs t u r r' ∧ ∀ m : Material F,
    m.defType = t → m.defUnit = u →
    processDataset m out = .ok { m with name := "nk", real := some r' }
  let Pk : Dataset F → Prop := fun out => ∃ r', ReloadedAs t u i r' ∧ ∀ m : Material F,
    m.defType = t → m.defUnit = u →
    processDataset m out = .ok { m with name := "nk", imag := some r' }
  rcases h5 with rfl | ⟨_, o1, ps, q, o2, ps', q', t0, u0, er, ei, hsame, rfl⟩
  · rw [sn, sk]
    have gn : isConst r = false → (TextDataset (riiDataset (outDict r " n")) ∧ ∀ d',
        (riiDataset (outDict r " n")).Perm d' → ∃ out, processMatData1 o d' = .ok out ∧
          Pn out) := by
      intro hcr
      rw [riiDataset_out h.storeReal hcr (by decide)]
      refine ⟨(riiOut_text h.storeReal hcr (by decide)).1, fun d' hd' => ?_⟩
      obtain ⟨out, r', a1, a2, a3⟩ := rii_part_n ho h.storeReal hr hcr hd'
      exact ⟨out, a1, r', a2, a3⟩
    have gk : isConst i = false → (TextDataset (riiDataset (outDict i " k")) ∧ ∀ d',
        (riiDataset (outDict i " k")).Perm d' → ∃ out, processMatData1 o d' = .ok out ∧
          Pk out) := by
      intro hci
      obtain ⟨o1, ps, q, t0, u0, rfl⟩ := noModel_table h.storeImag him hci
      rw [riiDataset_out h.storeImag hci (by decide)]
      refine ⟨(riiOut_text h.storeImag hci (by decide)).1, fun d' hd' => ?_⟩
      obtain ⟨out, r', a1, a2, a3⟩ := rii_part_k ho h.storeImag hi hd'
      exact ⟨out, a1, r', a2, a3⟩
    cases hci : isConst i with
    | true =>
      have hcr : isConst r = false := by
        cases hcr : isConst r with
        | false => rfl
        | true => exact absurd ⟨hcr, hci⟩ hb
      have hict : ic = true := hic.resolve_right (by simp [hci])
      subst hict
      refine ⟨[Pn], ?_, ?_⟩
      · have : ([(r, " n"), (i, " k")].filter (fun p => !(true && isConst p.1))) = [(r, " n")] := by
          simp [hcr, hci]
        rw [this]
        exact .cons (gn hcr) .nil
      · intro outs ho b e1 e2 e3 e4 e5
        cases ho with
        | cons a b' =>
          cases b'
          obtain ⟨r', a1, a2⟩ := a
          refine ⟨{ b with name := "nk", real := some r' }, r', cdata (lit 0), by rw [List.foldlM_cons, a2 _ e1 e2]; rfl, rfl, rfl, ?_, e5,
            rfl, .separate a1 (reloadedAs_const _ _ hci)⟩
          simp [finish, e4]
    | false =>
      cases hcr : isConst r with
      | true =>
        have hict : ic = true := hic.resolve_right (by simp [hcr])
        subst hict
        refine ⟨[Pk], ?_, ?_⟩
        · have : ([(r, " n"), (i, " k")].filter
              (fun p => !(true && isConst p.1))) = [(i, " k")] := by
            simp [hcr, hci]
          rw [this]
          exact .cons (gk hci) .nil
        · intro outs ho b e1 e2 e3 e4 e5
          cases ho with
          | cons a b' =>
            cases b'
            obtain ⟨r', a1, a2⟩ := a
            refine ⟨{ b with name := "nk", imag := some r' }, cdata (lit 0), r', by rw [List.foldlM_cons, a2 _ e1 e2]; rfl, rfl, ?_, rfl, e5,
              rfl, .separate (reloadedAs_const _ _ hcr) a1⟩
            simp [finish, e3]
      | false =>
        refine ⟨[Pn, Pk], ?_, ?_⟩
        · have : ([(r, " n"), (i, " k")].filter
              (fun p => !(ic && isConst p.1))) = [(r, " n"), (i, " k")] := by
            simp [hcr, hci]
          rw [this]
          exact .cons (gn hcr) (.cons (gk hci) .nil)
        · intro outs ho b e1 e2 e3 e4 e5
          cases ho with
          | cons a b' =>
            cases b' with
            | cons b' e =>
              cases e
              obtain ⟨r', a1, a2⟩ := a
              obtain ⟨i', b1, b2⟩ := b'
              refine ⟨{ b with name := "nk", real := some r', imag := some i' }, r', i', by
                  rw [List.foldlM_cons, a2 _ e1 e2]
                  show (List.foldlM _ _ _ = _)
                  rw [List.foldlM_cons, b2 { b with name := "nk", real := some r' } e1 e2]; rfl,
                rfl, rfl, rfl, e5, rfl, .separate a1 b1⟩
  · subst er ei
    obtain ⟨l1, hg⟩ := hj _ _ _ _ _ _ _ _ rfl rfl hsame
    obtain ⟨a, ha⟩ := tableData_ok hg 1 hname
    obtain ⟨b, hb⟩ := tableData_ok hg 2 hname
    have hwid : ∀ r ∈ printed (rowsOf ps), r.length = 2 := printed_width rowsOf_length
    have hread : strTableToNumeric (.text (tableText 3 (joined (printed (rowsOf ps))
        (printed (rowsOf ps')))).toList) = .ok (.d2 3 .float
          (printed (joined (printed (rowsOf ps)) (printed (rowsOf ps'))))) := by
      refine tableText_read (by norm_num) (by norm_num) ?_ (joined_width hwid) ?_
      · intro he
        apply hg.nonempty
        rw [he]; rfl
      · have h1 := joined_size (k := printed (rowsOf ps')) hwid
        have h2 : (printed (rowsOf ps)).length = ps.length := by simp [printed, rowsOf]
        omega
    refine ⟨[fun out => dictGet out "DataType" = .ok (.str "tabulated nk") ∧
      dictGet out "Data" = .ok (.str (tableText 3 (joined (printed (rowsOf ps)) (printed (rowsOf ps'))))) ∧
      dictGet out "SpectrumType" = .ok (.str "") ∧ dictGet out "Unit" = .ok (.str "")], ?_, ?_⟩
    · rw [List.map_cons, List.map_nil, riiDataset_nk]
      exact .cons ⟨(riiNk_text _).1, fun d' hd' => rii_part_nk ho _ hd'⟩ .nil
    · intro outs ho x0 e1 e2 e3 e4 e5
      cases ho with
      | cons x e =>
        cases e
        obtain ⟨x1, x2, x3, x4⟩ := x
        subst e1 e2
        refine ⟨{ x0 with name := "nk", real := some a, imag := some b }, a, b, by
          rw [List.foldlM_cons, load_nk_as _ x1 x2 hread hg.width x3 x4 ha hb]; rfl,
          rfl, rfl, rfl, e5, rfl, .joined rfl rfl hsame ha hb⟩

/-! ## Properties -/

omit [LawfulCmp F] [PrintingLaws F] [YamlLaws F] in
/-- The material is written with `use_rii_aliases=True`, and a new material is made of the file
with the arguments `kw`. -/
def RiiCycle (o : KeyOrder) (kw : Kwargs F) (m m' : Material F) : Prop :=
  ∃ (w w' : Writer F) (ic : Bool) (text : List Char) (fd : FileDict F) (r' : Reader F),
    Writer.new ".yml" m = .ok w ∧ w.writeFile ic true = (.ok text, w') ∧
    (Reader.fresh o : Reader F).readFile o ".yml" text = (.ok fd, r') ∧
    Material.new (fun _ => .ok fd) kw = .ok m'

omit [LawfulCmp F] [PrintingLaws F] [YamlLaws F] in
/-- C79 (full statement, refuted below): a table that was written under the names of
refractiveindex.info is loaded with its spectrum type and unit. -/
def C79_statement (F : Type) [PyFloat F] [SciPy F] [NumText F] [Printing F] [YamlIO F] : Prop :=
  ∀ (o : KeyOrder), o.Valid → ∀ (rd : String → Res (FileDict F)) (kw : Kwargs F)
    (m m' : Material F) (p : String) (r : RealData F), Material.new rd kw = .ok m →
    m.real = some r → isConst r = false → RiiCycle o (fileKw F p) m m' →
    ∃ r', m'.real = some r' ∧ r'.stype = r.stype ∧ r'.unit = r.unit

/-- The table of a material, written under these names and loaded with any arguments. -/
theorem rii_table (rd : String → Res (FileDict F)) (kw : Kwargs F)
    (hnd : (kw.map Prod.fst).Nodup) (hp : PlainOptions kw) {c : String}
    (hc : (lower (defaultsOf kw).1, lower (defaultsOf kw).2, c) ∈ names)
    (rows : List (List F)) (hk : Only kw "tabulated_n" (.table 2) (.arr (.d2 2 .float rows)))
    (hg : GoodTable 2 rows) (h2 : 2 ≤ rows.length) (h500 : rows.length ≤ 500)
    (hgp : GoodTable 2 (printed rows))
    (kw' : Kwargs F) (p : String) (hnd' : (kw'.map Prod.fst).Nodup)
    (hpl : PlainOptions kw') (hkw : Only kw' "file_path" .text (.str p))
    {t u c0 : String} (ht : (defaultsOf kw').1 = t) (hu : (defaultsOf kw').2 = u)
    (hname : (lower t, lower u, c0) ∈ names) :
    ∃ m r0, Material.new rd kw = .ok m ∧ m.real = some r0 ∧ isConst r0 = false ∧
      r0.stype = (defaultsOf kw).1 ∧ r0.unit = (defaultsOf kw).2 ∧
      ∀ o : KeyOrder, o.Valid → ∃ m' r, RiiCycle o kw' m m' ∧
      tableData .float (pairsOf (printed rows) 1) t u = .ok r ∧
      m'.name = "nk" ∧ m'.real = some r ∧ m'.imag = some (cdata (lit 0)) ∧
      m'.cplx = Option.none := by
  obtain ⟨r0, hr0, hm0⟩ := (C24_table_partial rd kw hnd hp hc rows).1 hk hg
  have hl : (pairsOf rows 1).length = rows.length := by simp [pairsOf]
  obtain ⟨⟨s0, rfl⟩, hs0, hc0⟩ := tableData_storable (by rw [hl]; exact h2) hr0
  refine ⟨_, _, hm0, rfl, rfl, rfl, rfl, fun o ho => ?_⟩
  have hro := rowsOf_pairsOf hg.width
  obtain ⟨w, w', text, fd, r1, m', md', r', i', a1, a2, a3, a4, a5, a6, a7, a8, a9, _⟩ :=
    rii_reload (m := { blankMaterial (parsedOf kw) with
      name := "nk", real := some (.interp 1 (pairsOf rows 1) s0 (defaultsOf kw).1 (defaultsOf kw).2),
      imag := some (cdata (lit 0)) }) (md := blankMeta) (i := cdata (lit 0))
      ⟨rfl, blankMeta_ok, .inl rfl, rfl, rfl, rfl, hs0, cdata_storable _⟩ rfl blankMeta_plain
      ⟨fun o ps s t u e => by
          have : ps = pairsOf rows 1 := by cases e; rfl
          subst this
          refine ⟨?_, by rw [hl]; exact h500⟩
          intro he
          rw [he] at hl
          simp at hl; omega,
        by rintro _ _ _ _ _ ⟨⟩, by rintro _ _ _ _ _ _ _ _ _ _ _ ⟨⟩⟩
      hnd' hpl hkw ht hu hname
      (.table hname (by rw [hl]; exact h500) (by rw [hro]; exact hgp)) (.constant _ _ _ _)
      (by rintro _ _ _ _ _ ⟨⟩) (by rintro _ _ _ _ _ _ _ _ _ ⟨⟩) true (.inl rfl) (by rintro ⟨⟨⟩, _⟩) ho
  refine ⟨m', r', ⟨w, w', true, text, fd, r1, a1, a2, a3, a4⟩, ?_, a5, a6, ?_, a8⟩
  · cases a9 with
    | separate b1 b2 =>
      cases b1 with
      | table b => rw [hro] at b; exact b
    | joined _ e => cases e
  · rw [a7]
    cases a9 with
    | separate b1 b2 => cases b2; rfl
    | joined _ e => cases e

/-- The arguments of a call with a path only. -/
theorem fileKw_good (p : String) : ((fileKw F p).map Prod.fst).Nodup ∧ PlainOptions (fileKw F p) ∧
    Only (fileKw F p) "file_path" .text (.str p) ∧
    defaultsOf (fileKw F p) = ("wavelength", "nanometer") := by
  have hs : ("file_path", DocType.text) ∈ sources := by decide
  obtain ⟨h1, h2⟩ := only_single (F := F) hs (v := .str p) (by simp)
  exact ⟨h1, plain_single (by decide) (by decide), h2, rfl⟩

/-- C79 for tables of the refractive index with 2 to 500 rows: whatever the spectrum type and unit
of the table, its numbers are loaded as wavelengths in nanometres. So the statement holds for
tables in nanometres. Missing: all others, for which it is false. -/
theorem C79_table_partial (rd : String → Res (FileDict F)) (kw : Kwargs F)
    (hnd : (kw.map Prod.fst).Nodup) (hp : PlainOptions kw) {c : String}
    (hc : (lower (defaultsOf kw).1, lower (defaultsOf kw).2, c) ∈ names)
    (rows : List (List F)) (hk : Only kw "tabulated_n" (.table 2) (.arr (.d2 2 .float rows)))
    (hg : GoodTable 2 rows) (h2 : 2 ≤ rows.length) (h500 : rows.length ≤ 500)
    (hgp : GoodTable 2 (printed rows)) (p : String) :
    ∃ m r0, Material.new rd kw = .ok m ∧ m.real = some r0 ∧ isConst r0 = false ∧
      r0.stype = (defaultsOf kw).1 ∧ r0.unit = (defaultsOf kw).2 ∧
      ∀ o : KeyOrder, o.Valid → ∃ m' r, RiiCycle o (fileKw F p) m m' ∧
      tableData .float (pairsOf (printed rows) 1) "wavelength" "nanometer" = .ok r ∧
      m'.name = "nk" ∧ m'.real = some r ∧ m'.imag = some (cdata (lit 0)) ∧
      m'.cplx = Option.none ∧ r.stype = "wavelength" ∧ r.unit = "nanometer" := by
  obtain ⟨f1, f2, f3, f4⟩ := fileKw_good (F := F) p
  obtain ⟨m, r0, h1, h3, h4, h5, h6, h7⟩ := rii_table rd kw hnd hp hc rows hk hg h2 h500 hgp
    (fileKw F p) p f1 f2 f3 (t := "wavelength") (u := "nanometer") (c0 := "nm") (by rw [f4])
    (by rw [f4]) (by decide +kernel)
  refine ⟨m, r0, h1, h3, h4, h5, h6, fun o ho => ?_⟩
  obtain ⟨m', r, a1, a2, a3, a4, a5, a6⟩ := h7 o ho
  obtain ⟨⟨s0, rfl⟩, -, -⟩ := tableData_storable (by simpa [pairsOf, printed] using h2) a2
  exact ⟨m', _, a1, a2, a3, a4, a5, a6, rfl, rfl⟩

/-- C80 for tables: if the file is loaded with the spectrum type and the unit of the material, its
table is restored as printed. -/
theorem C80_rii_table (rd : String → Res (FileDict F)) (kw : Kwargs F)
    (hnd : (kw.map Prod.fst).Nodup) (hp : PlainOptions kw) {c : String}
    (hc : (lower (defaultsOf kw).1, lower (defaultsOf kw).2, c) ∈ names)
    (rows : List (List F)) (hk : Only kw "tabulated_n" (.table 2) (.arr (.d2 2 .float rows)))
    (hg : GoodTable 2 rows) (h2 : 2 ≤ rows.length) (h500 : rows.length ≤ 500)
    (hgp : GoodTable 2 (printed rows)) (p : String) :
    ∃ m, Material.new rd kw = .ok m ∧ ∀ o : KeyOrder, o.Valid → ∃ m' r,
      RiiCycle o (rowKw p (.str (defaultsOf kw).1) (.str (defaultsOf kw).2)) m m' ∧
      tableData .float (pairsOf (printed rows) 1) (defaultsOf kw).1 (defaultsOf kw).2 = .ok r ∧
      m'.name = "nk" ∧ m'.real = some r ∧ m'.imag = some (cdata (lit 0)) ∧
      m'.cplx = Option.none := by
  obtain ⟨f1, f2, f3⟩ := rowKw_good (F := F) p (defaultsOf kw).1 (defaultsOf kw).2
  obtain ⟨m, r0, h1, _, _, _, _, h7⟩ := rii_table rd kw hnd hp hc rows hk hg h2 h500 hgp
    _ p f1 f2 f3 rfl rfl hc
  exact ⟨m, h1, h7⟩

/-- C80 for models of the refractive index: if the file is loaded with the spectrum type and the
unit of the model, the model is restored with its parameters and range as printed. -/
theorem C80_rii_model (rd : String → Res (FileDict F)) (kw : Kwargs F)
    (hnd : (kw.map Prod.fst).Nodup) (hp : PlainOptions kw) (d : ModelKw F)
    (h : Only kw "model_kw" .model (.dict d)) (k : String) (hk : d.name = some k)
    (p : List F) (hpar : d.params = some p) (xs : List F)
    (hr : d.validRange = some (.list .float xs))
    (t u : String) (ht : d.stype = some t) (hu : d.unit = some u) (hki : k ∈ indexModels)
    (hlt : lower t = "wavelength") (hlu : lower u ∈ ["um", "micrometer", "micrometre"])
    (hp1 : p.length ≤ 1000) (hx0 : xs ≠ []) (hx1 : xs.length ≤ 1000) (path : String) :
    ∃ m f, Material.new rd kw = .ok m ∧ classRef k = .real f ∧ ∀ o : KeyOrder, o.Valid →
      ∃ m' r, RiiCycle o (rowKw path (.str t) (.str u)) m m' ∧
        RealData.newModel f (p.map (Printing.shown p)) (.list .float (xs.map (Printing.shown xs)))
          t u = .ok r ∧
        m'.name = "nk" ∧ m'.real = some r ∧ m'.imag = some (cdata (lit 0)) ∧
        m'.cplx = Option.none := by
  obtain ⟨f, md, hmd, hf, hm⟩ := ((C24_model_partial rd kw hnd hp d h k hk p hpar _ hr (by trivial)
    t u ht hu).1 hki).1 ⟨hlt, hlu⟩
  obtain ⟨f', hf', hff, _⟩ := indexModel_class k hki
  have e : f' = f := by rw [hf] at hf'; cases hf'; rfl
  subst e
  have hc : (lower t, lower u, "um") ∈ names := by
    rw [hlt]
    simp only [List.mem_cons, List.not_mem_nil, or_false] at hlu
    rcases hlu with lu | lu | lu <;> rw [lu] <;> decide +kernel
  obtain ⟨s, rfl, hs⟩ : ∃ s, md = .model f' p s t u ∧ s.values = .array .float xs := by
    unfold RealData.newModel at hmd
    obtain ⟨s, hs, hmd⟩ := except_bind_ok hmd
    obtain ⟨_, _, hmd⟩ := except_bind_ok hmd
    refine ⟨s, by cases hmd; rfl, ?_⟩
    rw [Spectrum.new_eq] at hs
    cases hl : specLookup (lower t) (lower u) with
    | error e => rw [hl] at hs; cases hs
    | ok c =>
      rw [hl] at hs
      obtain ⟨v, hv, hs⟩ := except_bind_ok hs
      obtain ⟨std, _, hs⟩ := except_bind_ok hs
      have e : v = .array .float xs := by cases hv; rfl
      cases hs
      exact e
  refine ⟨_, f', hm, hf, fun o ho => ?_⟩
  obtain ⟨f1, f2, f3⟩ := rowKw_good (F := F) path t u
  obtain ⟨w, w', text, fd, r1, m', md', r', i', a1, a2, a3, a4, a5, a6, a7, a8, a9, _⟩ :=
    rii_reload (m := { blankMaterial (parsedOf kw) with
      name := "nk", real := some (.model f' p s t u), imag := some (cdata (lit 0)), defType := t,
      defUnit := u }) (md := blankMeta) (i := cdata (lit 0))
      ⟨rfl, blankMeta_ok, .inl rfl, rfl, rfl, rfl, ⟨⟨_, _, hs⟩, by rintro _ _ _ _ _ _ ⟨⟩⟩,
        cdata_storable _⟩ rfl blankMeta_plain
      ⟨by rintro _ _ _ _ _ ⟨⟩, by rintro _ _ _ _ _ ⟨⟩, by rintro _ _ _ _ _ _ _ _ _ _ ⟨⟩⟩
      f1 f2 f3 rfl rfl hc
      (.model hff hlt hlu hs hx0 hx1 hp1) (.constant _ _ _ _)
      (by rintro _ _ _ _ _ ⟨⟩) (by rintro _ _ _ _ _ _ _ _ ⟨⟩) true (.inl rfl) (by rintro ⟨⟨⟩, _⟩) ho
  refine ⟨m', r', ⟨w, w', true, text, fd, r1, a1, a2, a3, a4⟩, ?_, a5, a6, ?_, a8⟩
  · cases a9 with
    | separate b1 b2 =>
      cases b1 with
      | model b b' =>
        rename_i xs' dt
        have e : xs' = xs := by rw [hs] at b; cases b; rfl
        rw [e] at b'; exact b'
    | joined e => cases e
  · rw [a7]
    cases a9 with
    | separate b1 b2 => cases b2; rfl
    | joined e => cases e

/-- C80 for materials with two parts of the same type and unit, with any arguments for the
metadata: parts and metadata are restored as they are from a file with the package's own names. -/
theorem C80_rii_parts {m : Material F} {md : List (String × MetaVal)}
    {r i : RealData F} (h : HasParts m md r i) (hn : m.name = "nk") (hp : PlainMeta md)
    (hf : Fits r i) {t u : String} (htr : isConst r = false → r.stype = t ∧ r.unit = u)
    (hti : isConst i = false → i.stype = t ∧ i.unit = u)
    (hr : Loadable r) (hi : Loadable i) (him : NoModel i) (hj : JoinOk r i)
    (hb : ¬ (isConst r = true ∧ isConst i = true)) {o : KeyOrder} (ho : o.Valid) (p : String) :
    ∃ m' md' r' i', RiiCycle o (rowKw p (.str t) (.str u)) m m' ∧ m'.name = "nk" ∧
      m'.real = some r' ∧ m'.imag = some i' ∧ m'.cplx = Option.none ∧
      ReloadedParts r i r' i' ∧ m'.metaData = some md' ∧ YamlMeta md md' := by
  have conv : ∀ {d : RealData F}, Loadable d → (isConst d = false → d.stype = t ∧ d.unit = u) →
      LoadableAs t u d := by
    intro d hd hd'
    cases hd with
    | constant c s t' u' => exact .constant c s t' u'
    | table a b c e f =>
      obtain ⟨rfl, rfl⟩ := hd' rfl
      exact .table a e f
    | model a b c _ _ f g g' g'' =>
      obtain ⟨rfl, rfl⟩ := hd' rfl
      exact .model a b c f g g' g''
  have back : ∀ {d d' : RealData F}, (isConst d = false → d.stype = t ∧ d.unit = u) →
      ReloadedAs t u d d' → Reloaded d d' := by
    intro d d' hd hd'
    cases hd' with
    | constant c s t' u' => exact .constant c s t' u'
    | table a =>
      obtain ⟨rfl, rfl⟩ := hd rfl
      exact .table a
    | model a b =>
      obtain ⟨rfl, rfl⟩ := hd rfl
      exact .model a b
  have named : ∀ {d : RealData F}, Loadable d → isConst d = false →
      (isConst d = false → d.stype = t ∧ d.unit = u) → ∃ c, (lower t, lower u, c) ∈ names := by
    intro d hd hc hd'
    cases hd with
    | constant => cases hc
    | table a =>
      obtain ⟨rfl, rfl⟩ := hd' rfl
      exact ⟨_, a⟩
    | model _ b c =>
      obtain ⟨rfl, rfl⟩ := hd' rfl
      refine ⟨"um", ?_⟩
      show (lower _, lower _, "um") ∈ names
      simp only [RealData.stype, RealData.unit] at b c ⊢
      rw [b]
      simp only [List.mem_cons, List.not_mem_nil, or_false] at c
      rcases c with lu | lu | lu <;> rw [lu] <;> decide +kernel
  obtain ⟨c, hc⟩ : ∃ c, (lower t, lower u, c) ∈ names := by
    cases hcr : isConst r with
    | false => exact named hr hcr htr
    | true =>
      cases hci : isConst i with
      | false => exact named hi hci hti
      | true => exact absurd ⟨hcr, hci⟩ hb
  obtain ⟨f1, f2, f3⟩ := rowKw_good (F := F) p t u
  obtain ⟨w, w', text, fd, r1, m', md', r', i', a1, a2, a3, a4, a5, a6, a7, a8, a9, a10, a11⟩ :=
    rii_reload h hn hp hf f1 f2 f3 (t := t) (u := u) rfl rfl hc (conv hr htr) (conv hi hti) him hj
      true (.inl rfl) hb ho
  refine ⟨m', md', r', i', ⟨w, w', true, text, fd, r1, a1, a2, a3, a4⟩, a5, a6, a7, a8, ?_, a10, a11⟩
  cases a9 with
  | separate b1 b2 => exact .separate (back htr b1) (back hti b2)
  | joined er ei hs ha hb =>
    subst er ei
    obtain ⟨rfl, rfl⟩ := htr rfl
    exact .joined rfl rfl hs ha hb

/-! ## Demonstration -/

/-- The arguments of the table of a glass in micrometres. -/
def microKw : Kwargs XR := [("tabulated_n", .arr (.d2 2 .float demoRows)), ("unit", .str "um")]

theorem microKw_good : (microKw.map Prod.fst).Nodup ∧ PlainOptions microKw ∧
    Only microKw "tabulated_n" (.table 2) (.arr (.d2 2 .float demoRows)) ∧
    defaultsOf microKw = ("wavelength", "um") := by
  refine ⟨by simp [microKw], ⟨?_, ?_⟩, ⟨by decide, by simp [microKw], by simp, ?_⟩, rfl⟩
  · intro m hm w hw
    simp only [microKw, List.mem_cons, List.not_mem_nil, or_false, Prod.mk.injEq] at hw
    rcases hw with ⟨rfl, rfl⟩ | ⟨rfl, rfl⟩
    · exact absurd hm (by decide)
    · exact .inr ⟨_, rfl⟩
  · rintro ⟨w, hw, -⟩
    simp [microKw] at hw
  · rintro m ty hm ⟨w, hw, -⟩
    simp only [microKw, List.mem_cons, List.not_mem_nil, or_false, Prod.mk.injEq] at hw
    rcases hw with ⟨rfl, rfl⟩ | ⟨rfl, rfl⟩
    · rfl
    · exact absurd hm (by simp [sources])

/-- C79, the full statement, is wrong: a table in micrometres is loaded in nanometres. -/
theorem C79_refuted [SciPy XR] : letI := demoNumText; letI := demoPrinting
    letI := demoYaml (F := XR); ¬ C79_statement XR := by
  letI := demoNumText
  letI := demoPrinting
  letI := demoYaml (F := XR)
  haveI := demoPrintingLaws
  haveI := demoYamlLaws (F := XR)
  intro h
  obtain ⟨h1, h2, h3, hd⟩ := microKw_good
  obtain ⟨m, r0, hm, e1, e2, e3, e4, hcyc⟩ := C79_table_partial (fun _ => .error .os) microKw h1 h2
    (c := "um") (by rw [hd]; decide +kernel) demoRows h3 demoRows_good (by simp [demoRows])
    (by simp [demoRows]) (by rw [demoRows_printed]; exact demoRows_good) "f.yml"
  have ho : KeyOrder.Valid ⟨fileMetaKeys, datasetMetaKeys⟩ := ⟨.refl _, .refl _⟩
  obtain ⟨m', r, a1, _, _, a4, _, _, a7, a8⟩ := hcyc _ ho
  obtain ⟨r', b1, _, b3⟩ := h _ ho _ _ _ _ _ _ hm e1 e2 a1
  have : r' = r := by rw [a4] at b1; cases b1; rfl
  subst this
  rw [a8, e4, hd] at b3
  exact absurd b3 (by decide)

/-- Concrete case for `C80_rii_table`: the table in micrometres is restored if the arguments say
so. -/
example [SciPy XR] : letI := demoNumText; letI := demoPrinting; letI := demoYaml (F := XR)
    ∃ m m' r, Material.new (fun _ => .error .os) microKw = .ok m ∧
      RiiCycle ⟨fileMetaKeys, datasetMetaKeys⟩ (rowKw "f.yml" (.str "wavelength") (.str "um")) m m' ∧
      tableData .float (pairsOf demoRows 1) "wavelength" "um" = .ok r ∧ m'.real = some r := by
  letI := demoNumText
  letI := demoPrinting
  letI := demoYaml (F := XR)
  haveI := demoPrintingLaws
  haveI := demoYamlLaws (F := XR)
  obtain ⟨h1, h2, h3, hd⟩ := microKw_good
  obtain ⟨m, hm, hcyc⟩ := C80_rii_table (fun _ => .error .os) microKw h1 h2
    (c := "um") (by rw [hd]; decide +kernel) demoRows h3 demoRows_good (by simp [demoRows])
    (by simp [demoRows]) (by rw [demoRows_printed]; exact demoRows_good) "f.yml"
  obtain ⟨m', r, a1, a2, _, a4, _⟩ := hcyc ⟨fileMetaKeys, datasetMetaKeys⟩ ⟨.refl _, .refl _⟩
  rw [demoRows_printed] at a2
  exact ⟨m, m', r, hm, a1, a2, a4⟩

/-- Concrete case for `C80_rii_model`: a Sellmeier model with range and parameters. -/
example [SciPy XR] (rd : String → Res (FileDict XR)) (a b c : XR) :
    letI := demoNumText; letI := demoPrinting; letI := demoYaml (F := XR)
    ∃ m m' r, Material.new rd [("model_kw", .dict (demoSellmeier a b c))] = .ok m ∧
      RiiCycle ⟨fileMetaKeys, datasetMetaKeys⟩ (rowKw "f.yml" (.str "wavelength") (.str "um")) m m' ∧
      m'.real = some r := by
  letI := demoNumText
  letI := demoPrinting
  letI := demoYaml (F := XR)
  haveI := demoPrintingLaws
  haveI := demoYamlLaws (F := XR)
  have hs : ("model_kw", DocType.model) ∈ sources := by decide
  obtain ⟨h1, h2⟩ := only_single (F := XR) hs (v := .dict (demoSellmeier a b c)) (by simp)
  obtain ⟨m, f, hm, _, hcyc⟩ := C80_rii_model rd _ h1 (plain_single (by decide) (by decide)) _
    h2 "Sellmeier" rfl _ rfl _ rfl _ _ rfl rfl (by decide) (by decide) (by decide) (by simp)
    (by simp) (by simp) "f.yml"
  obtain ⟨m', r, x1, _, _, x2, _⟩ := hcyc ⟨fileMetaKeys, datasetMetaKeys⟩ ⟨.refl _, .refl _⟩
  exact ⟨m, m', r, hm, x1, x2⟩

end Disp

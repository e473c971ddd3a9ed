import Verif.Props.VectorText
import Verif.Props.Reload
import Verif.Props.YamlRead
/-!
# C50: materials made of the YAML files that were written
-/

namespace Disp

open Spec

section entries
variable {F : Type}

/-! ## Reading one dataset -/

theorem perm_get {α : Type} {d d' : List (String × α)} (hk : Keys d) (h : d.Perm d') (k : String) :
    dictGet d' k = dictGet d k := by
  have hk' : Keys d' := (h.map Prod.fst).nodup_iff.1 hk
  cases h1 : dictGet d k with
  | ok v => exact dictGet_of_mem hk' (h.mem_iff.1 (dictGet_mem h1))
  | error e =>
    cases h2 : dictGet d' k with
    | ok v =>
      have := dictGet_of_mem hk (h.mem_iff.2 (dictGet_mem h2))
      rw [h1] at this; cases this
    | error e' => rw [(dictGet_error h1).1, (dictGet_error h2).1]

/-- The keys of the datasets that are written, without values of constants. -/
def knownKeys : List String :=
  ["DataType", "ValidRange", "SpectrumType", "Unit", "Data", "Yields", "Parameters"]

/-- The keys that the reader takes over. -/
def fieldKeys : List String := ["ValidRange", "SpectrumType", "Unit", "Yields"]

theorem known_key {o : KeyOrder} (ho : o.Valid) : ∀ k ∈ knownKeys,
    datasetKey o k = if k ∈ fieldKeys then some k else Option.none := by
  have hv : KeyOrder.Valid ⟨fileMetaKeys, datasetMetaKeys⟩ := ⟨.refl _, .refl _⟩
  intro k hk
  rw [datasetKey_same ho hv]
  revert k
  decide +kernel

theorem fill_known {o : KeyOrder} (ho : o.Valid) : ∀ (d : Dataset F), Keys d →
    (∀ p ∈ d, p.1 ∈ knownKeys) → ∀ (out : Dataset F) (k : String),
    dictGet (fillFields o d out) k = (match dictGet d k with
      | .ok v => if k ∈ fieldKeys then .ok v else dictGet out k
      | .error _ => dictGet out k) := by
  intro d
  induction d with
  | nil => intro _ _ out k; rfl
  | cons p d ih =>
    intro hk hkn out k
    have hk' : Keys d := (List.nodup_cons.1 hk).2
    have hnot : p.1 ∉ d.map Prod.fst := (List.nodup_cons.1 hk).1
    have step : fillFields o (p :: d) out = fillFields o d (match datasetKey o p.1 with
      | some key => dictSet out key p.2
      | Option.none => out) := rfl
    rw [step, ih hk' (fun q hq => hkn q (List.mem_cons_of_mem _ hq)),
      known_key ho p.1 (hkn p (List.mem_cons_self ..))]
    by_cases he : p.1 = k
    · have h1 : dictGet (p :: d) k = .ok p.2 := dictGet_of_mem hk (by rw [← he]; simp)
      have h2 : ∃ e, dictGet d k = .error e := by
        cases hd : dictGet d k with
        | error e => exact ⟨e, rfl⟩
        | ok v =>
          have := List.mem_map_of_mem (f := Prod.fst) (dictGet_mem hd)
          rw [← he] at this
          exact absurd this hnot
      obtain ⟨e, h2⟩ := h2
      rw [h1, h2]
      subst he
      by_cases hf : p.1 ∈ fieldKeys
      · simp only [if_pos hf, dictGet_set]; simp
      · simp only [if_neg hf]
    · have h1 : dictGet (p :: d) k = dictGet d k := by
        cases hd : dictGet d k with
        | ok v => exact dictGet_of_mem hk (List.mem_cons_of_mem _ (dictGet_mem hd))
        | error e =>
          cases hd' : dictGet (p :: d) k with
          | error e' => rw [(dictGet_error hd).1, (dictGet_error hd').1]
          | ok v =>
            rcases List.mem_cons.1 (dictGet_mem hd') with h | h
            · exact absurd (by rw [← h]) he
            · rw [dictGet_of_mem hk' h] at hd; cases hd
      rw [h1]
      have h3 : dictGet (match (if p.1 ∈ fieldKeys then some p.1 else Option.none) with
          | some key => dictSet out key p.2
          | Option.none => out) k = dictGet out k := by
        by_cases hf : p.1 ∈ fieldKeys
        · simp only [if_pos hf, dictGet_set, if_neg he]
        · simp only [if_neg hf]
      rw [h3]

theorem known_missing {d : Dataset F} (hkn : ∀ p ∈ d, p.1 ∈ knownKeys) {k : String}
    (h : k ∉ knownKeys) : dictGet d k = .error .key := by
  cases hd : dictGet d k with
  | error e => rw [(dictGet_error hd).1]
  | ok v => exact absurd (hkn _ (dictGet_mem hd)) h

/-- Reading one dataset of a file. -/
theorem read_entry {o : KeyOrder} (ho : o.Valid) {d : Dataset F} (hk : Keys d)
    (hkn : ∀ p ∈ d, p.1 ∈ knownKeys) {t : String} (ht : dictGet d "DataType" = .ok (.str t))
    (hl : lstrip t.toList = t.toList) {v : DVal F} (hv : entryData d t.toList = .ok v) :
    ∃ out, processMatData1 o d = .ok out ∧ dictGet out "DataType" = .ok (.str t) ∧
      dictGet out "Data" = .ok v ∧
      ∀ k ∈ fieldKeys, ∀ w, dictGet d k = .ok w → dictGet out k = .ok w := by
  have he : entryType d = .ok t.toList := by
    rw [entryType, getEither, known_missing hkn (by decide)]
    simp only [ht, hl]
  have hpr : processMatData1 o d = .ok (fillFields o d (dictSet (dictSet (defaultDataset o)
      "DataType" (.str (String.ofList t.toList))) "Data" v)) := by
    rw [processMatData1, he]
    simp only [bind, Except.bind, hv]
  refine ⟨_, hpr, ?_, ?_, ?_⟩
  · rw [fill_known ho d hk hkn, ht]
    simp only [show ¬ ("DataType" ∈ fieldKeys) from by decide, if_false, dictGet_set,
      show ¬ ("Data" = "DataType") from by decide, if_true, String.ofList_toList]
  · rw [fill_known ho d hk hkn]
    have : dictGet (dictSet (dictSet (defaultDataset o) "DataType" (.str (String.ofList t.toList)))
        "Data" v) "Data" = .ok v := by rw [dictGet_set, if_pos rfl]
    rw [this]
    split
    · rw [if_neg (by decide)]
    · rfl
  · intro k hkf w hw
    rw [fill_known ho d hk hkn, hw]
    simp only [if_pos hkf]

/-- A constant cannot be read from a file. -/
theorem constant_unreadable (o : KeyOrder) {d : Dataset F} {t : String}
    (h0 : dictHas d "type" = false) (ht : dictGet d "DataType" = .ok (.str t))
    (hc : "constant".toList.isPrefixOf t.toList = true) : processMatData1 o d = .error .key := by
  have h1 : dictGet d "type" = .error .key := by
    cases hd : dictGet d "type" with
    | error e => rw [(dictGet_error hd).1]
    | ok v =>
      have := dictGet_mem hd
      have hh : dictHas d "type" = true := by
        rw [dictHas]
        exact List.any_eq_true.2 ⟨_, this, by simp⟩
      rw [h0] at hh; cases hh
  obtain ⟨rest, hr⟩ := List.isPrefixOf_iff_prefix.1 hc
  have hl : lstrip t.toList = t.toList := by
    rw [← hr]
    exact lstrip_word (t := "constant".toList) (b := rest) ⟨by decide, by decide⟩
  have he : entryType d = .ok t.toList := by
    rw [entryType, getEither, h1]
    simp only [ht, hl]
  have hd : entryData d t.toList = .error .key := by
    rw [← hr]
    rfl
  rw [processMatData1, he]
  simp only [bind, Except.bind, hd]

end entries

variable {F : Type} [PyFloat F] [SciPy F] [NumText F] [Printing F]

/-! ## The datasets of a refractive index -/

/-- Processing a table of the extinction coefficient. -/
theorem load_k (m : Material F) {d : Dataset F} {v : DVal F} {rows : List (List F)} {t u : String}
    (hd : dictGet d "DataType" = .ok (.str "tabulated k")) (hv : dictGet d "Data" = .ok v)
    (hs : strTableToNumeric v.asTable = .ok (.d2 2 .float rows)) (hw : ∀ r ∈ rows, r.length = 2)
    (ht : dictGet d "SpectrumType" = .ok (.str t)) (hu : dictGet d "Unit" = .ok (.str u))
    (ht0 : t ≠ "") (hu0 : u ≠ "") :
    processDataset m d = (tableData .float (pairsOf rows 1) t u).map
      (fun r => { m with defType := t, defUnit := u, name := "nk", imag := some r }) := by
  unfold processDataset
  simp only [Dataset.getStr, hd, bind, Except.bind,
    show splitTwo "tabulated k" = .ok ("tabulated", "k") from by decide +kernel, if_true, hv, hs]
  unfold processTable
  simp only [get_str ht ht0, get_str hu hu0, specData_eq hw (show 1 < 2 by omega),
    show ¬ ("k" = "nk") from by decide, show ¬ ("k" = "n_alpha") from by decide,
    show ¬ ("k" = "n") from by decide, if_false, if_true, bind, Except.bind]
  cases tableData DType.float (pairsOf rows 1) t u <;> rfl

theorem model_split (k : Formula) : splitTwo ("model " ++ k.className) = .ok ("model", k.className) := by
  cases k <;> decide +kernel

theorem model_class (k : Formula) : classRef k.className = .real k := by
  cases k <;> decide +kernel

theorem model_output {k : Formula} (h : k ≠ .fano) : k.output = some "n" := by
  cases k <;> first | rfl | exact absurd rfl h

/-- Processing a model of the refractive index. -/
theorem load_model (m : Material F) {d : Dataset F} {k : Formula} (hk : k ≠ .fano)
    {x y t u : String} {ps rs : List F}
    (hd : dictGet d "DataType" = .ok (.str ("model " ++ k.className)))
    (hv : dictGet d "Data" = .ok (.str x)) (hr : dictGet d "ValidRange" = .ok (.str y))
    (hx : (splitSpaces x.toList).mapM NumText.parseFloat = .ok ps)
    (hy : (splitSpaces y.toList).mapM NumText.parseFloat = .ok rs) (hy0 : y ≠ "")
    (ht : dictGet d "SpectrumType" = .ok (.str t)) (hu : dictGet d "Unit" = .ok (.str u))
    (ht0 : t ≠ "") (hu0 : u ≠ "") :
    processDataset m d = (RealData.newModel k ps (.list .float rs) t u).map
      (fun r => { m with defType := t, defUnit := u, name := "nk", real := some r }) := by
  unfold processDataset
  simp only [Dataset.getStr, hd, bind, Except.bind, model_split,
    show ¬ ("model" = "tabulated") from by decide, if_false, or_true, if_true]
  unfold processFormulaData
  have e1 : ∀ z, ((DVal.str t : DVal F).nonEmptyStr).getD z = t := by
    intro z
    show (if t = "" then Option.none else some t).getD z = t
    rw [if_neg ht0]; rfl
  have e2 : ∀ z, ((DVal.str u : DVal F).nonEmptyStr).getD z = u := by
    intro z
    show (if u = "" then Option.none else some u).getD z = u
    rw [if_neg hu0]; rfl
  simp only [Dataset.getStr, hd, hv, bind, Except.bind, model_split, or_true, not_true, if_false,
    show ¬ ("model" = "formula") from by decide, false_and, parseRange, hr, if_neg hy0, hy, hx,
    ht, hu, e1, e2, formulaName]
  unfold processModelDict
  simp only [model_class, Option.getD_some, bind, Except.bind]
  cases RealData.newModel k ps (.list .float rs) t u with
  | error e => rfl
  | ok r =>
    simp only [model_output hk]
    rfl

/-- What a part is after a cycle: a table or a model has its numbers as printed, and a constant
is gone. -/
inductive Spec.Reloaded : RealData F → RealData F → Prop
  | constant (c : F) (s : Spectrum F) (t u : String) : Reloaded (.constant c s t u) (cdata (lit 0))
  | table {o : ℕ} {ps : List (F × F)} {s : Spectrum F} {t u : String} {d : RealData F} :
      tableData .float (pairsOf (printed (rowsOf ps)) 1) t u = .ok d →
      Reloaded (.interp o ps s t u) d
  | model {k : Formula} {ps xs : List F} {s : Spectrum F} {dt : DType} {t u : String}
      {d : RealData F} : s.values = .array dt xs →
      RealData.newModel k (ps.map (Printing.shown ps)) (.list .float (xs.map (Printing.shown xs)))
        t u = .ok d →
      Reloaded (.model k ps s t u) d

/-- A part that can be read back: a table of up to 500 rows whose printed abscissae are distinct, or
a model of the refractive index with up to 1000 parameters. -/
inductive Spec.Loadable : RealData F → Prop
  | constant (c : F) (s : Spectrum F) (t u : String) : Loadable (.constant c s t u)
  | table {o : ℕ} {ps : List (F × F)} {s : Spectrum F} {t u c : String} :
      (lower t, lower u, c) ∈ names → PlainText t → PlainText u → ps.length ≤ 500 →
      GoodTable 2 (printed (rowsOf ps)) → Loadable (.interp o ps s t u)
  | model {k : Formula} {ps xs : List F} {s : Spectrum F} {dt : DType} {t u : String} :
      k ≠ .fano → lower t = "wavelength" → lower u ∈ ["um", "micrometer", "micrometre"] →
      PlainText t → PlainText u →
      s.values = .array dt xs → xs ≠ [] → xs.length ≤ 1000 → ps.length ≤ 1000 →
      Loadable (.model k ps s t u)

omit [SciPy F] [PyFloat F] in
theorem plainText_array [PrintingLaws F] (a : NDArr F) :
    PlainText (String.ofList (numericToString a)) := by
  intro c hc
  rw [String.toList_ofList] at hc
  exact (arrayText_plain a c hc).imp_right (fun h => ⟨h.1, h.2.1⟩)

theorem plainText_list {s : String} (h : ∀ c ∈ s.toList, 32 ≤ c.toNat ∧ c.toNat ≤ 126) : PlainText s :=
  fun c hc => .inr (h c hc)

theorem rangeOf_plain [PrintingLaws F] {s : Spectrum F} {dt : DType} {xs : List F}
    (h : s.values = .array dt xs) : ∃ x, rangeOf s = .str x ∧ PlainText x := by
  refine ⟨_, by rw [rangeOf, h], plainText_array _⟩

theorem known_plain : ∀ k ∈ knownKeys, PlainText k := by
  intro k hk
  refine plainText_list ?_
  revert k
  decide +kernel

theorem tabulated_plain : ∀ s ∈ suffixes, PlainText ("tabulated" ++ s) := by
  intro s hs
  refine plainText_list ?_
  revert s
  decide +kernel

theorem model_plain (k : Formula) : PlainText ("model " ++ k.className) :=
  plainText_list (by cases k <;> decide +kernel)

/-- The datasets of tables and models consist of text. -/
theorem outDict_text [PrintingLaws F] {d : RealData F} (hs : Storable d) (hc : isConst d = false)
    {s : String} (hsx : s ∈ suffixes) (hp : PlainText d.stype ∧ PlainText d.unit) :
    TextDataset (outDict d s) ∧ ∀ p ∈ outDict d s, p.1 ∈ knownKeys := by
  obtain ⟨⟨dt, xs, hr⟩, hne⟩ := hs
  cases d with
  | constant c r t u => cases hc
  | extrap b o s r t u => exact (hne _ _ _ _ _ _ rfl).elim
  | interp o ps r t u =>
    obtain ⟨x, hx, hxp⟩ := rangeOf_plain hr
    have hkn : ∀ p ∈ outDict (.interp o ps r t u) s, p.1 ∈ knownKeys := by
      intro p hp
      simp only [outDict, List.mem_cons, List.not_mem_nil, or_false] at hp
      rcases hp with rfl | rfl | rfl | rfl | rfl <;> simp [knownKeys]
    refine ⟨⟨by simp [Distinct, outDict], fun p hp' => ⟨known_plain _ (hkn p hp'), .inr ?_⟩⟩, hkn⟩
    have hx : rangeOf r = .str x := hx
    simp only [outDict, hx, List.mem_cons, List.not_mem_nil, or_false] at hp'
    rcases hp' with rfl | rfl | rfl | rfl | rfl
    · exact ⟨_, rfl, tabulated_plain s hsx⟩
    · exact ⟨_, rfl, hxp⟩
    · exact ⟨_, rfl, hp.1⟩
    · exact ⟨_, rfl, hp.2⟩
    · exact ⟨_, rfl, plainText_array _⟩
  | model k ps r t u =>
    obtain ⟨x, hx, hxp⟩ := rangeOf_plain hr
    have hkn : ∀ p ∈ outDict (.model k ps r t u) s, p.1 ∈ knownKeys := by
      intro p hp
      simp only [outDict, List.mem_cons, List.not_mem_nil, or_false] at hp
      rcases hp with rfl | rfl | rfl | rfl | rfl | rfl <;> simp [knownKeys]
    refine ⟨⟨by simp [Distinct, outDict], fun p hp' => ⟨known_plain _ (hkn p hp'), ?_⟩⟩, hkn⟩
    have hx : rangeOf r = .str x := hx
    simp only [outDict, hx, List.mem_cons, List.not_mem_nil, or_false] at hp'
    rcases hp' with rfl | rfl | rfl | rfl | rfl | rfl
    · exact .inr ⟨_, rfl, model_plain k⟩
    · exact .inr ⟨_, rfl, hxp⟩
    · exact .inr ⟨_, rfl, hp.1⟩
    · exact .inr ⟨_, rfl, hp.2⟩
    · cases k with
      | fano => exact .inl rfl
      | _ => exact .inr ⟨"n", rfl, plainText_list (by decide)⟩
    · exact .inr ⟨_, rfl, plainText_array _⟩

variable [LawfulCmp F] [PrintingLaws F]

omit [LawfulCmp F] in
theorem newModel_shown {k : Formula} (hk : k ≠ .fano) {t u : String} (ht : lower t = "wavelength")
    (hu : lower u ∈ ["um", "micrometer", "micrometre"]) (ps rs : List F) :
    ∃ d, RealData.newModel k ps (.list .float rs) t u = .ok d := by
  obtain ⟨d, h, _⟩ := (C19_index_models k hk ps (.list .float rs) (by trivial) t u).1 ⟨ht, hu⟩
  exact ⟨d, h⟩

theorem table_loaded {ps : List (F × F)} {t u c : String} (hc : (lower t, lower u, c) ∈ names)
    (h500 : ps.length ≤ 500) (hg : GoodTable 2 (printed (rowsOf ps))) :
    (∃ d, tableData .float (pairsOf (printed (rowsOf ps)) 1) t u = .ok d) ∧
    strTableToNumeric (.text (tableText 2 (rowsOf ps)).toList) =
      .ok (.d2 2 .float (printed (rowsOf ps))) := by
  have hne : ps ≠ [] := by
    rintro rfl; exact hg.nonempty rfl
  exact ⟨tableData_ok hg 1 hc, table_reads hne h500⟩

/-- Reading the dataset of a refractive index. -/
theorem part_read {o : KeyOrder} (ho : o.Valid) {d : RealData F} (hs : Storable d)
    (hl : Loadable d) (hc : isConst d = false) {d' : Dataset F} (hp : (outDict d " n").Perm d') :
    ∃ out r', processMatData1 o d' = .ok out ∧ Reloaded d r' ∧ ∀ m : Material F,
      processDataset m out = .ok { m with
        defType := d.stype, defUnit := d.unit, name := "nk", real := some r' } := by
  cases hl with
  | constant c s t u => cases hc
  | table hn pt pu h5 hg =>
    rename_i o' ps s t u c
    obtain ⟨ht, hkn⟩ := outDict_text (s := " n") hs hc (by decide) ⟨pt, pu⟩
    have hk := ht.1
    have hg' := perm_get hk hp
    obtain ⟨⟨r', hr'⟩, hrd⟩ := table_loaded hn h5 hg
    obtain ⟨n1, n2⟩ := nonEmpty_of_name hn
    obtain ⟨out, e1, e2, e3, e4⟩ := read_entry ho ((hp.map Prod.fst).nodup_iff.1 hk)
      (fun p hq => hkn p (hp.mem_iff.2 hq)) (t := "tabulated n") (by rw [hg']; rfl) (by decide +kernel)
      (v := .str (tableText 2 (rowsOf ps))) (by
        show getEither d' "data" "Data" = _
        rw [getEither, known_missing (fun p hq => hkn p (hp.mem_iff.2 hq)) (by decide)]
        simp only [hg']; rfl)
    refine ⟨out, r', e1, .table hr', fun m => ?_⟩
    rw [load_n m e2 e3 hrd hg.width (e4 "SpectrumType" (by decide) (.str t) (by rw [hg']; rfl))
      (e4 "Unit" (by decide) (.str u) (by rw [hg']; rfl)) n1 n2, hr']
    rfl
  | model hf lt lu pt pu hv hx0 hx1 hp1 =>
    rename_i k ps xs s dt t u
    obtain ⟨ht, hkn⟩ := outDict_text (s := " n") hs hc (by decide) ⟨pt, pu⟩
    have hk := ht.1
    have hg' := perm_get hk hp
    have hn : (lower t, lower u, "um") ∈ names := by
      rw [lt]
      simp only [List.mem_cons, List.not_mem_nil, or_false] at lu
      rcases lu with lu | lu | lu <;> rw [lu] <;> decide +kernel
    obtain ⟨n1, n2⟩ := nonEmpty_of_name hn
    have hty : dictGet d' "DataType" = .ok (.str ("model " ++ k.className)) := by rw [hg']; rfl
    obtain ⟨out, e1, e2, e3, e4⟩ := read_entry ho ((hp.map Prod.fst).nodup_iff.1 hk)
      (fun p hq => hkn p (hp.mem_iff.2 hq)) hty (by cases k <;> decide +kernel)
      (v := .str (String.ofList (numericToString (.d1 .float ps)))) (by
        have : entryData d' ("model " ++ k.className).toList = getEither d' "coefficients" "Parameters" := by
          cases k <;> rfl
        rw [this, getEither, known_missing (fun p hq => hkn p (hp.mem_iff.2 hq)) (by decide)]
        simp only [hg']; rfl)
    obtain ⟨r', hr'⟩ := newModel_shown hf lt lu (ps.map (Printing.shown ps))
      (xs.map (Printing.shown xs))
    have hrange : dictGet d' "ValidRange" = .ok (.str (String.ofList (numericToString (.d1 dt xs)))) := by
      rw [hg']
      show Except.ok (rangeOf s) = _
      rw [rangeOf, hv]
    refine ⟨out, r', e1, .model hv hr', fun m => ?_⟩
    rw [load_model m hf e2 e3 (e4 "ValidRange" (by decide) _ hrange)
      (by rw [String.toList_ofList]; exact vectorText_read .float hp1)
      (by rw [String.toList_ofList]; exact vectorText_read dt hx1) ?_
      (e4 "SpectrumType" (by decide) (.str t) (by rw [hg']; rfl))
      (e4 "Unit" (by decide) (.str u) (by rw [hg']; rfl)) n1 n2, hr']
    · rfl
    · intro he
      obtain ⟨ts, w1, w2, _⟩ := vectorText_words (F := F) dt hx1
      have he2 : numericToString (.d1 dt xs) = [] := by
        have := congrArg String.toList he
        rwa [String.toList_ofList] at this
      rw [he2, splitSpaces_nil] at w1
      subst w1
      exact hx0 (List.length_eq_zero_iff.1 w2.symm)

/-- Reading the dataset of an extinction coefficient. -/
theorem part_read_k {o : KeyOrder} (ho : o.Valid) {o' : ℕ} {ps : List (F × F)} {s : Spectrum F}
    {t u : String} (hs : Storable (.interp o' ps s t u)) (hl : Loadable (.interp o' ps s t u))
    {d' : Dataset F} (hp : (outDict (.interp o' ps s t u) " k").Perm d') :
    ∃ out r', processMatData1 o d' = .ok out ∧ Reloaded (.interp o' ps s t u) r' ∧
      ∀ m : Material F, processDataset m out = .ok { m with
        defType := t, defUnit := u, name := "nk", imag := some r' } := by
  cases hl with
  | table hn pt pu h5 hg =>
    rename_i c
    obtain ⟨ht, hkn⟩ := outDict_text (s := " k") hs rfl (by decide) ⟨pt, pu⟩
    have hk := ht.1
    have hg' := perm_get hk hp
    obtain ⟨⟨r', hr'⟩, hrd⟩ := table_loaded hn h5 hg
    obtain ⟨n1, n2⟩ := nonEmpty_of_name hn
    obtain ⟨out, e1, e2, e3, e4⟩ := read_entry ho ((hp.map Prod.fst).nodup_iff.1 hk)
      (fun p hq => hkn p (hp.mem_iff.2 hq)) (t := "tabulated k") (by rw [hg']; rfl) (by decide +kernel)
      (v := .str (tableText 2 (rowsOf ps))) (by
        show getEither d' "data" "Data" = _
        rw [getEither, known_missing (fun p hq => hkn p (hp.mem_iff.2 hq)) (by decide)]
        simp only [hg']; rfl)
    refine ⟨out, r', e1, .table hr', fun m => ?_⟩
    rw [load_k m e2 e3 hrd hg.width (e4 "SpectrumType" (by decide) (.str t) (by rw [hg']; rfl))
      (e4 "Unit" (by decide) (.str u) (by rw [hg']; rfl)) n1 n2, hr']
    rfl

omit [PyFloat F] [SciPy F] [LawfulCmp F] in
theorem nkDataset_text {t u : String} (pt : PlainText t) (pu : PlainText u) (rows : List (List F)) :
    TextDataset (nkDataset t u rows) ∧ ∀ p ∈ nkDataset t u rows, p.1 ∈ knownKeys := by
  have hkn : ∀ p ∈ nkDataset t u rows, p.1 ∈ knownKeys := by
    intro p hp
    simp only [nkDataset, List.mem_cons, List.not_mem_nil, or_false] at hp
    rcases hp with rfl | rfl | rfl | rfl <;> simp [knownKeys]
  refine ⟨⟨by simp [Distinct, nkDataset], fun p hp' => ⟨known_plain _ (hkn p hp'), .inr ?_⟩⟩, hkn⟩
  simp only [nkDataset, List.mem_cons, List.not_mem_nil, or_false] at hp'
  rcases hp' with rfl | rfl | rfl | rfl
  · exact ⟨_, rfl, pu⟩
  · exact ⟨_, rfl, pt⟩
  · exact ⟨_, rfl, plainText_list (by decide +kernel)⟩
  · exact ⟨_, rfl, plainText_array _⟩

omit [LawfulCmp F] in
/-- Reading the dataset of both. -/
theorem nk_entry {o : KeyOrder} (ho : o.Valid) {t u : String} (pt : PlainText t) (pu : PlainText u)
    (rows : List (List F)) {d' : Dataset F} (hp : (nkDataset t u rows).Perm d') :
    ∃ out, processMatData1 o d' = .ok out ∧ dictGet out "DataType" = .ok (.str "tabulated nk") ∧
      dictGet out "Data" = .ok (.str (tableText 3 rows)) ∧
      dictGet out "SpectrumType" = .ok (.str t) ∧ dictGet out "Unit" = .ok (.str u) := by
  obtain ⟨ht, hkn⟩ := nkDataset_text pt pu rows
  have hg' := perm_get ht.1 hp
  obtain ⟨out, e1, e2, e3, e4⟩ := read_entry ho ((hp.map Prod.fst).nodup_iff.1 ht.1)
    (fun p hq => hkn p (hp.mem_iff.2 hq)) (t := "tabulated nk") (by rw [hg']; rfl) (by decide +kernel)
    (v := .str (tableText 3 rows)) (by
      show getEither d' "data" "Data" = _
      rw [getEither, known_missing (fun p hq => hkn p (hp.mem_iff.2 hq)) (by decide)]
      simp only [hg']; rfl)
  exact ⟨out, e1, e2, e3, e4 "SpectrumType" (by decide) (.str t) (by rw [hg']; rfl),
    e4 "Unit" (by decide) (.str u) (by rw [hg']; rfl)⟩

end Disp

import Verif.Props.Reload
/-!
# C49: materials written to YAML files
-/

namespace Disp

open Spec

variable {F : Type} [PyFloat F] [SciPy F] [NumText F] [Printing F]

/-- The part is a constant. -/
def Spec.isConst : RealData F → Bool
  | .constant .. => true
  | _ => false

/-- The dataset of a refractive index and an extinction coefficient with common abscissae. -/
def nkDataset (t u : String) (rows : List (List F)) : Dataset F :=
  [("Unit", .str u), ("SpectrumType", .str t), ("DataType", .str "tabulated nk"),
    ("Data", .str (tableText 3 rows))]

/-- The tables of a refractive index can be handled: none has more than 500 rows, and two have
the same number of rows. -/
structure Spec.Fits (r i : RealData F) : Prop where
  real : ∀ o ps s t u, r = .interp o ps s t u → ps ≠ [] ∧ ps.length ≤ 500
  imag : ∀ o ps s t u, i = .interp o ps s t u → ps ≠ [] ∧ ps.length ≤ 500
  both : ∀ o ps s t u o' ps' s' t' u', r = .interp o ps s t u → i = .interp o' ps' s' t' u' →
    ps.length = ps'.length

theorem table_reads [PrintingLaws F] {ps : List (F × F)} (hp : ps ≠ []) (h : ps.length ≤ 500) :
    strTableToNumeric (.text (tableText 2 (rowsOf ps)).toList) =
      .ok (.d2 2 .float (printed (rowsOf ps))) := by
  refine tableText_read (by norm_num) (by norm_num) (by simpa [rowsOf] using hp) rowsOf_length ?_
  rw [rowsOf_flatten]; omega

/-- The datasets of a material: one per part, or one table of both. -/
theorem datasets_ok [PrintingLaws F] {name : String} (hn : name = "nk" ∨ name = "eps")
    {r i : RealData F} (sr : Storable r) (si : Storable i) (hf : name = "nk" → Fits r i) :
    ∃ ds, collapseDatasets (outDict r (sfx name true)) (outDict i (sfx name false)) = .ok ds ∧
      (ds = [outDict r (sfx name true), outDict i (sfx name false)] ∨
       (name = "nk" ∧ ∃ o ps s o' ps' s' t u, r = .interp o ps s t u ∧ i = .interp o' ps' s' t u ∧
        SameAbscissae (printed (rowsOf ps)) (printed (rowsOf ps')) ∧
        ds = [nkDataset t u (joined (printed (rowsOf ps)) (printed (rowsOf ps')))])) := by
  rcases hn with rfl | rfl
  · have hf := hf rfl
    by_cases hb : IsTable r ∧ IsTable i
    · obtain ⟨⟨o, ps, s, t, u, rfl⟩, ⟨o', ps', s', t', u', rfl⟩⟩ := hb
      obtain ⟨h1, h2⟩ := hf.real _ _ _ _ _ rfl
      obtain ⟨h3, h4⟩ := hf.imag _ _ _ _ _ rfl
      obtain ⟨c1, c2⟩ := collapse_tables (o := o) (o' := o') (s := s) (s' := s') (t := t) (t' := t')
        (u := u) (u' := u') h1 h3 h2 h4 (hf.both _ _ _ _ _ _ _ _ _ _ rfl rfl)
      by_cases hs : SameAbscissae (printed (rowsOf ps)) (printed (rowsOf ps')) ∧ t = t' ∧ u = u'
      · obtain ⟨hs, rfl, rfl⟩ := hs
        exact ⟨_, c1 hs rfl rfl, .inr ⟨rfl, _, _, _, _, _, _, _, _, rfl, rfl, hs, rfl⟩⟩
      · exact ⟨_, c2 hs, .inl rfl⟩
    · refine ⟨_, collapse_nk sr si (not_and_or.1 hb) ?_ ?_, .inl rfl⟩
      · intro o ps s t u e
        obtain ⟨h1, h2⟩ := hf.real _ _ _ _ _ e
        exact ⟨_, table_reads h1 h2⟩
      · intro o ps s t u e
        obtain ⟨h1, h2⟩ := hf.imag _ _ _ _ _ e
        exact ⟨_, table_reads h1 h2⟩
  · exact ⟨_, collapse_eps sr si, .inl rfl⟩

def suffixes : List String := [" n", " k", " eps_r", " eps_k"]

theorem sfx_mem {name : String} (hn : name = "nk" ∨ name = "eps") (b : Bool) :
    sfx name b ∈ suffixes := by
  rcases hn with rfl | rfl <;> cases b <;> decide

omit [NumText F] in
theorem const_flag {d : RealData F} (hd : Storable d) {s : String} (hs : s ∈ suffixes) :
    ∃ t, (outDict d s).getStr "DataType" = .ok t ∧
      hasSub "constant".toList t.toList = isConst d := by
  cases d with
  | constant c r t u =>
    refine ⟨_, rfl, ?_⟩
    revert s; show ∀ s ∈ suffixes, hasSub "constant".toList ("constant" ++ s).toList = true
    decide +kernel
  | interp o ps r t u =>
    refine ⟨_, rfl, ?_⟩
    revert s; show ∀ s ∈ suffixes, hasSub "constant".toList ("tabulated" ++ s).toList = false
    decide +kernel
  | model k p r t u =>
    refine ⟨_, rfl, ?_⟩
    show hasSub "constant".toList ("model " ++ k.className).toList = false
    cases k <;> decide +kernel
  | extrap base o s r t u => exact absurd rfl (hd.2 _ _ _ _ _ _)

omit [NumText F] in
theorem constantIds_two {r i : RealData F} (sr : Storable r) (si : Storable i) {s s' : String}
    (hs : s ∈ suffixes) (hs' : s' ∈ suffixes) :
    constantIds [outDict r s, outDict i s'] =
      .ok ((if isConst r then [0] else []) ++ (if isConst i then [1] else [])) := by
  obtain ⟨t, h1, h2⟩ := const_flag sr hs
  obtain ⟨t', h3, h4⟩ := const_flag si hs'
  rw [constantIds]
  simp only [List.mapM_cons, List.mapM_nil, h1, h3, bind, Except.bind, pure, Except.pure, h2, h4]
  cases isConst r <;> cases isConst i <;> rfl

omit [NumText F] in
/-- What the removal of constants leaves of the datasets of two parts. -/
theorem popAll_two {r i : RealData F} (sr : Storable r) (si : Storable i) {s s' : String}
    (hs : s ∈ suffixes) (hs' : s' ∈ suffixes) (ic : Bool)
    (hb : ¬ (ic = true ∧ isConst r = true ∧ isConst i = true)) :
    ∃ ids, constantIds [outDict r s, outDict i s'] = .ok ids ∧
      popAll (if ic then ids else []) [outDict r s, outDict i s'] =
        (.ok (), ([(r, s), (i, s')].filter (fun p => !(ic && isConst p.1))).map
          (fun p => outDict p.1 p.2)) := by
  refine ⟨_, constantIds_two sr si hs hs', ?_⟩
  cases ic with
  | false => rfl
  | true =>
    cases h1 : isConst r <;> cases h2 : isConst i <;> simp [h1, h2, popAll] <;>
      exact hb ⟨rfl, h1, h2⟩

/-- The metadata are those of a constructed material. -/
structure Spec.MetaOk (md : List (String × MetaVal)) : Prop where
  good : GoodMeta md
  noData : ∀ p ∈ md, p.1 ≠ "Datasets"

/-- The metadata that remain for the mapping. -/
def yamlMeta (md : List (String × MetaVal)) : List (String × MetaVal) :=
  (handed md).filter (fun p => p.1 ≠ "MetaComment")

theorem keys_filter {α : Type} {d : List (String × α)} (h : Keys d) (p : String × α → Bool) :
    Keys (d.filter p) :=
  List.Nodup.sublist (List.Sublist.map _ List.filter_sublist) h

theorem yamlMeta_ok {md : List (String × MetaVal)} (h : MetaOk md) :
    Keys (yamlMeta md) ∧
    (∀ p ∈ yamlMeta md, ∃ al, dictGet keyAliases p.1 = .ok al ∧ p.1 ≠ "Datasets") ∧
    (∀ k, k ≠ "Alias" → k ≠ "MetaComment" → dictGet (yamlMeta md) k = dictGet md k) := by
  refine ⟨keys_filter (keys_filter h.good.keys _) _, ?_, ?_⟩
  · intro p hp
    obtain ⟨h1, h2⟩ := List.mem_filter.1 hp
    obtain ⟨h3, h4⟩ := List.mem_filter.1 h1
    rcases h.good.known p h3 with e | e | ⟨al, ha⟩
    · simp [e] at h4
    · simp [e] at h2
    · exact ⟨al, ha, h.noData p h3⟩
  · intro k h1 h2
    rw [yamlMeta, dictGet_filter _ h2, handed, dictGet_filter _ h1]

/-- The mapping of the file. -/
def yamlOf (md : List (String × MetaVal)) (s : List (String × String)) (ds : List (Dataset F)) :
    YDict F :=
  metaEntries (yamlMeta md) ++ [("DATA", .data ds)] ++ specEntry s

/-- The text of the file. -/
def yamlText [YamlIO F] (c : String) (yd : YDict F) : List Char :=
  if c = "" then YamlIO.dump yd else prependText c.toList true (YamlIO.dump yd)

/-- A call of `write_file` for YAML. -/
theorem writeYaml_ok [YamlIO F] {md : List (String × MetaVal)} (hm : MetaOk md)
    {c : String} (hc : dictGet md "MetaComment" = .ok (.str c))
    {s : List (String × String)} (hs : dictGet md "Specification" = .ok (.dict s))
    {ds ds' : List (Dataset F)} {ids : List Nat} (h1 : constantIds ds = .ok ids) (ic rii : Bool)
    (h2 : popAll (if ic then ids else []) ds = (.ok (), ds')) :
    ∃ w', Writer.writeFile { ext := ".yml", metaData := handed md, datasets := ds } ic rii =
      (.ok (yamlText c (yamlOf md s (if rii then ds'.map riiDataset else ds'))), w') := by
  obtain ⟨k1, k2, k3⟩ := yamlMeta_ok hm
  have hc' : dictGet (handed md) "MetaComment" = .ok (.str c) := by
    rw [handed, dictGet_filter _ (by decide)]; exact hc
  have hp : dictPop (handed md) "MetaComment" = .ok (.str c, yamlMeta md) := by
    rw [dictPop, hc']; rfl
  have hy := yamlDict_ok (w := { ext := ".yml", metaData := yamlMeta md, datasets := ds' }) k1 k2
    (s := s) (by rw [k3 _ (by decide) (by decide)]; exact hs) rii
  have hw : Writer.writeYaml { ext := ".yml", metaData := yamlMeta md, datasets := ds } ic rii =
      (.ok (YamlIO.dump (yamlOf md s (if rii then ds'.map riiDataset else ds'))),
        { ext := ".yml", metaData := yamlMeta md, datasets := ds' }) := by
    rw [Writer.writeYaml]
    simp only [h1, h2, hy]
    rfl
  unfold Writer.writeFile
  simp only [hp, show textFormat ".yml" = Option.none from by decide, if_true, hw]
  refine ⟨{ ext := ".yml", metaData := yamlMeta md, datasets := ds' }, ?_⟩
  unfold Writer.writeFile.finish yamlText
  simp only
  split <;> rfl

/-- A material as it is constructed with real data. -/
structure Spec.HasParts (m : Material F) (md : List (String × MetaVal)) (r i : RealData F) :
    Prop where
  metaData : m.metaData = some md
  ok : MetaOk md
  name : m.name = "nk" ∨ m.name = "eps"
  cplx : m.cplx = Option.none
  real : m.real = some r
  imag : m.imag = some i
  storeReal : Storable r
  storeImag : Storable i

/-- C49 for every mix of constants, tables and models that are not extrapolated, if not both parts
are constants that are left out: the file is written; its datasets are those of the parts, without
constants if they are left out, or one table of both parts. Missing: complex models, extrapolated
data, pairs of constants, and tables of a refractive index with more than 500 rows or with
different numbers of rows, for which it is false. -/
theorem C49_written_partial [YamlIO F] [PrintingLaws F] {m : Material F}
    {md : List (String × MetaVal)} {r i : RealData F} (h : HasParts m md r i)
    (hf : m.name = "nk" → Fits r i) (ic rii : Bool)
    (hb : ¬ (ic = true ∧ isConst r = true ∧ isConst i = true)) :
    ∃ w w' c s ds, Writer.new ".yml" m = .ok w ∧ dictGet md "MetaComment" = .ok (.str c) ∧
      dictGet md "Specification" = .ok (.dict s) ∧
      w.writeFile ic rii =
        (.ok (yamlText c (yamlOf md s (if rii then ds.map riiDataset else ds))), w') ∧
      (ds = ([(r, sfx m.name true), (i, sfx m.name false)].filter
          (fun p => !(ic && isConst p.1))).map (fun p => outDict p.1 p.2) ∨
       (m.name = "nk" ∧ ∃ o ps q o' ps' q' t u, r = .interp o ps q t u ∧ i = .interp o' ps' q' t u ∧
        SameAbscissae (printed (rowsOf ps)) (printed (rowsOf ps')) ∧
        ds = [nkDataset t u (joined (printed (rowsOf ps)) (printed (rowsOf ps')))])) := by
  obtain ⟨c, hc⟩ := h.ok.good.comment
  obtain ⟨s, hs⟩ := h.ok.good.spec
  obtain ⟨ds, hd, hcase⟩ := datasets_ok h.name h.storeReal h.storeImag hf
  have hw := writer_ok ".yml" h.metaData h.cplx h.name h.real h.imag h.storeReal h.storeImag hd
  rcases hcase with rfl | ⟨e, o, ps, q, o', ps', q', t, u, hr, hi, hsame, rfl⟩
  · obtain ⟨ids, p1, p2⟩ := popAll_two h.storeReal h.storeImag (sfx_mem h.name true)
      (sfx_mem h.name false) ic hb
    obtain ⟨w', g⟩ := writeYaml_ok h.ok hc hs p1 ic rii p2
    exact ⟨_, w', c, s, _, hw, hc, hs, g, .inl rfl⟩
  · have p1 : constantIds [nkDataset t u (joined (printed (rowsOf ps)) (printed (rowsOf ps')))] =
        .ok [] := by
      rw [constantIds]
      simp only [List.mapM_cons, List.mapM_nil, bind, Except.bind, pure, Except.pure,
        show (nkDataset t u (joined (printed (rowsOf ps)) (printed (rowsOf ps')))).getStr "DataType" =
          .ok "tabulated nk" from rfl,
        show hasSub "constant".toList "tabulated nk".toList = false from by decide +kernel]
      rfl
    obtain ⟨w', g⟩ := writeYaml_ok (ds' := [nkDataset t u (joined (printed (rowsOf ps))
      (printed (rowsOf ps')))]) h.ok hc hs p1 ic rii (by cases ic <;> rfl)
    exact ⟨_, w', c, s, _, hw, hc, hs, g, .inr ⟨e, o, ps, q, o', ps', q', t, u, hr, hi, hsame, rfl⟩⟩

/-- C49: two constants cannot be written with `ignore_constant` (the default). -/
theorem C49_constants [YamlIO F] [PrintingLaws F] {m : Material F}
    {md : List (String × MetaVal)} {r i : RealData F} (h : HasParts m md r i)
    (hr : isConst r = true) (hi : isConst i = true) (rii : Bool) :
    ∃ w, Writer.new ".yml" m = .ok w ∧ (w.writeFile true rii).1 = .error .index := by
  have hnt : ∀ {d : RealData F}, isConst d = true → ∀ o ps s t u, d ≠ .interp o ps s t u := by
    rintro d hd o ps s t u rfl; cases hd
  obtain ⟨ds, hd, hcase⟩ := datasets_ok h.name h.storeReal h.storeImag (fun _ =>
    ⟨fun _ _ _ _ _ e => absurd e (hnt hr _ _ _ _ _), fun _ _ _ _ _ e => absurd e (hnt hi _ _ _ _ _),
      fun _ _ _ _ _ _ _ _ _ _ e _ => absurd e (hnt hr _ _ _ _ _)⟩)
  have hw := writer_ok ".yml" h.metaData h.cplx h.name h.real h.imag h.storeReal h.storeImag hd
  rcases hcase with rfl | ⟨e, o, ps, q, o', ps', q', t, u, hr', _⟩
  · obtain ⟨c, hc⟩ := h.ok.good.comment
    have hc' : dictGet (handed md) "MetaComment" = .ok (.str c) := by
      rw [handed, dictGet_filter _ (by decide)]; exact hc
    have hp : dictPop (handed md) "MetaComment" = .ok (.str c, yamlMeta md) := by
      rw [dictPop, hc']; rfl
    refine ⟨_, hw, ?_⟩
    have hid := constantIds_two h.storeReal h.storeImag (sfx_mem h.name true) (sfx_mem h.name false)
    unfold Writer.writeFile
    simp only [hp, show textFormat ".yml" = Option.none from by decide, if_true]
    unfold Writer.writeYaml
    simp only [hid, hr, hi, if_true]
    rfl
  · exact absurd hr' (hnt hr _ _ _ _ _)

/-- C49: a material with complex data cannot be handed to a `Writer`. -/
theorem C49_complex (ext : String) {m : Material F} {md : List (String × MetaVal)}
    (hm : m.metaData = some md) {d : CplxData F} (h : m.cplx = some d) :
    Writer.new ext m = .error .key := by
  have : m.datasetToDict = .error .key := by rw [Material.datasetToDict, h]
  unfold Writer.new
  simp only [hm, this]
  rfl

/-- C49: a material with extrapolated data cannot be handed to a `Writer`. -/
theorem C49_extrapolated (ext : String) {m : Material F} {md : List (String × MetaVal)}
    (hm : m.metaData = some md) (hc : m.cplx = Option.none) {b : RealData F} {o : ℕ}
    {s : SciPy.Spl F} {r : Spectrum F} {t u : String}
    (h : m.real = some (.extrap b o s r t u) ∨
      m.imag = some (.extrap b o s r t u) ∧ ∃ q, m.real = some q ∧ Storable q) :
    (m.name = "nk" ∨ m.name = "eps") → Writer.new ext m = .error .attribute := by
  intro hn
  have he : ∀ x, partToDict m.name (some (.extrap b o s r t u)) x = .error .attribute := by
    intro x; rfl
  have : m.datasetToDict = .error .attribute := by
    rw [Material.datasetToDict, hc]
    simp only
    rcases h with h | ⟨h, q, hq, hs⟩
    · rw [h, he]; rfl
    · rw [h, hq, he, partToDict_ok hn hs]; rfl
  unfold Writer.new
  simp only [hm, this]
  rfl

/-- C49: a table of the refractive index or the extinction coefficient with more than 500 rows
cannot be handed to a `Writer`. -/
theorem C49_long [PrintingLaws F] (ext : String) {m : Material F}
    {md : List (String × MetaVal)} {r i : RealData F} (h : HasParts m md r i) (hn : m.name = "nk")
    {o : ℕ} {ps : List (F × F)} {s : Spectrum F} {t u : String} (h5 : 500 < ps.length)
    (hp : r = .interp o ps s t u ∨ i = .interp o ps s t u) : ∃ e, Writer.new ext m = .error e := by
  suffices hs : ∃ e, collapseDatasets (outDict r (sfx "nk" true)) (outDict i (sfx "nk" false)) =
      .error e by
    obtain ⟨e, he⟩ := hs
    exact ⟨e, writer_error ext h.metaData h.cplx h.name h.real h.imag h.storeReal h.storeImag
      (by rw [hn]; exact he)⟩
  rcases hp with rfl | rfl
  · exact ⟨_, collapse_long h5 _⟩
  · have e : tableIf (outDict (.interp o ps s t u) " k") "tabulated k" = .error .value := by
      have := tableIf_table o ps s t u " k"
      rw [tableText_long (by norm_num) (by norm_num) rowsOf_length
        (by rw [rowsOf_flatten]; omega)] at this
      exact this
    rw [sfx_n, sfx_k, collapseDatasets,
      tableIf_out h.storeReal (by decide) (by decide) (dtype := "tabulated k") (fun _ => by decide),
      tableIf_out h.storeImag (by decide) (by decide) (dtype := "tabulated n") (fun _ => by decide),
      e]
    cases tableIf (outDict r " n") "tabulated n" with
    | error e => exact ⟨e, rfl⟩
    | ok a => exact ⟨_, rfl⟩

/-- C49: tables of the refractive index and the extinction coefficient with different numbers of
rows cannot be handed to a `Writer`. -/
theorem C49_lengths [PrintingLaws F] (ext : String) {m : Material F}
    {md : List (String × MetaVal)} {r i : RealData F} (h : HasParts m md r i) (hn : m.name = "nk")
    {o o' : ℕ} {ps qs : List (F × F)} {s s' : Spectrum F} {t u t' u' : String}
    (hr : r = .interp o ps s t u) (hi : i = .interp o' qs s' t' u')
    (h1 : 2 ≤ ps.length) (h2 : 2 ≤ qs.length) (hne : ps.length ≠ qs.length) :
    ∃ e, Writer.new ext m = .error e := by
  by_cases l1 : 500 < ps.length
  · exact C49_long ext h hn l1 (.inl hr)
  by_cases l2 : 500 < qs.length
  · exact C49_long ext h hn l2 (.inr hi)
  subst hr hi
  have hps : ps ≠ [] := by rintro rfl; simp at h1
  have hqs : qs ≠ [] := by rintro rfl; simp at h2
  have e1 : tableIf (outDict (.interp o ps s t u) " n") "tabulated n" =
      .ok (some (.d2 2 .float (printed (rowsOf ps)))) := by
    have := tableIf_table o ps s t u " n"
    rw [table_reads hps (by omega)] at this
    exact this
  have e4 : tableIf (outDict (.interp o' qs s' t' u') " k") "tabulated k" =
      .ok (some (.d2 2 .float (printed (rowsOf qs)))) := by
    have := tableIf_table o' qs s' t' u' " k"
    rw [table_reads hqs (by omega)] at this
    exact this
  have w1 := printed_width (rowsOf_length (ps := ps))
  have w2 := printed_width (rowsOf_length (ps := qs))
  have n1 : (printed (rowsOf ps)).length = ps.length := by simp [printed, rowsOf]
  have n2 : (printed (rowsOf qs)).length = qs.length := by simp [printed, rowsOf]
  have ha : (allEqual ((printed (rowsOf ps)).map rowX) ((printed (rowsOf qs)).map rowX)) =
      .error .value := by
    have m1 : ((printed (rowsOf ps)).map rowX).length = ps.length := by rw [List.length_map, n1]
    have m2 : ((printed (rowsOf qs)).map rowX).length = qs.length := by rw [List.length_map, n2]
    generalize (printed (rowsOf ps)).map rowX = a at m1
    generalize (printed (rowsOf qs)).map rowX = b at m2
    unfold allEqual
    rw [if_neg (by omega)]
    split
    · simp at m1; omega
    · simp at m2; omega
    · rfl
  refine ⟨.value, writer_error ext h.metaData h.cplx h.name h.real h.imag h.storeReal h.storeImag ?_⟩
  rw [hn, sfx_n, sfx_k, collapseDatasets, e1, e4,
    tableIf_out h.storeReal (by decide) (by decide) (dtype := "tabulated k") (fun _ => by decide),
    tableIf_out h.storeImag (by decide) (by decide) (dtype := "tabulated n") (fun _ => by decide)]
  simp only [bind, Except.bind, Option.none_or, Option.or_none,
    show NDArr.col (.d2 2 .float (printed (rowsOf ps))) 0 = .ok ((printed (rowsOf ps)).map rowX) from
      col_eq w1 (by norm_num),
    show NDArr.col (.d2 2 .float (printed (rowsOf qs))) 0 = .ok ((printed (rowsOf qs)).map rowX) from
      col_eq w2 (by norm_num), ha]

omit [NumText F] [Printing F] in
theorem blankMeta_ok : MetaOk blankMeta :=
  ⟨blankMeta_good.1, by decide⟩

/-- C49 for materials of a constant: with `ignore_constant` they cannot be written, without it
they can. -/
theorem C49_fixed [YamlIO F] [PrintingLaws F] (rd : String → Res (FileDict F)) (kw : Kwargs F)
    (hnd : (kw.map Prod.fst).Nodup) (hp : PlainOptions kw) {n : String} {t : DocType} {v : PyVal F}
    (h : Only kw n t v) (ht : HasType t v) (hn : t = .real ∨ t = .complex) :
    ∃ m w, Material.new rd kw = .ok m ∧ Writer.new ".yml" m = .ok w ∧ ∀ rii,
      (w.writeFile true rii).1 = .error .index ∧ ∃ text, (w.writeFile false rii).1 = .ok text := by
  have key : ∀ {m : Material F} {x y : F}, m.metaData = some blankMeta → m.cplx = Option.none →
      (m.name = "nk" ∨ m.name = "eps") → m.real = some (cdata x) → m.imag = some (cdata y) →
      ∃ w, Writer.new ".yml" m = .ok w ∧ ∀ rii, (w.writeFile true rii).1 = .error .index ∧
        ∃ text, (w.writeFile false rii).1 = .ok text := by
    intro m x y h1 h2 h3 h4 h5
    have hh : HasParts m blankMeta (cdata x) (cdata y) :=
      ⟨h1, blankMeta_ok, h3, h2, h4, h5, cdata_storable _, cdata_storable _⟩
    have hf : Fits (cdata x) (cdata y) :=
      ⟨by rintro _ _ _ _ _ ⟨⟩, by rintro _ _ _ _ _ ⟨⟩, by rintro _ _ _ _ _ _ _ _ _ _ ⟨⟩⟩
    obtain ⟨w, hw, _⟩ := C49_constants hh rfl rfl true
    refine ⟨w, hw, fun rii => ⟨?_, ?_⟩⟩
    · obtain ⟨w2, hw2, h6⟩ := C49_constants hh rfl rfl rii
      rw [hw] at hw2; cases hw2; exact h6
    · obtain ⟨w2, w', c, s, ds, hw2, _, _, h6, _⟩ := C49_written_partial hh (fun _ => hf) false rii
        (by simp)
      rw [hw] at hw2; cases hw2
      exact ⟨_, by rw [h6]⟩
  obtain ⟨f1, f2, f3, f4⟩ := C24_fixed_partial rd kw hnd hp
  have hs := h.source
  have hcase : n = "fixed_n" ∧ t = .real ∨ n = "fixed_nk" ∧ t = .complex ∨
      n = "fixed_eps_r" ∧ t = .real ∨ n = "fixed_eps" ∧ t = .complex := by
    have : ∀ p ∈ sources, p.2 = .real ∨ p.2 = .complex → p.1 = "fixed_n" ∧ p.2 = .real ∨
        p.1 = "fixed_nk" ∧ p.2 = .complex ∨ p.1 = "fixed_eps_r" ∧ p.2 = .real ∨
        p.1 = "fixed_eps" ∧ p.2 = .complex := by decide
    exact this _ hs hn
  rcases hcase with ⟨rfl, rfl⟩ | ⟨rfl, rfl⟩ | ⟨rfl, rfl⟩ | ⟨rfl, rfl⟩
  · obtain ⟨x, rfl⟩ := ht
    obtain ⟨w, g⟩ := key (m := { blankMaterial (parsedOf kw) with
      name := "nk", real := some (cdata x), imag := some (cdata (lit 0)) }) rfl rfl (.inl rfl) rfl rfl
    exact ⟨_, w, f1 x h, g⟩
  · obtain ⟨z, rfl⟩ := ht
    obtain ⟨w, g⟩ := key (m := { blankMaterial (parsedOf kw) with
      name := "nk", real := some (cdata z.re), imag := some (cdata z.im) }) rfl rfl (.inl rfl) rfl rfl
    exact ⟨_, w, f2 z h, g⟩
  · obtain ⟨x, rfl⟩ := ht
    obtain ⟨w, g⟩ := key (m := { blankMaterial (parsedOf kw) with
      name := "eps", real := some (cdata x), imag := some (cdata (lit 0)) }) rfl rfl (.inr rfl) rfl rfl
    exact ⟨_, w, f3 x h, g⟩
  · obtain ⟨z, rfl⟩ := ht
    obtain ⟨w, g⟩ := key (m := { blankMaterial (parsedOf kw) with
      name := "eps", real := some (cdata z.re), imag := some (cdata z.im) }) rfl rfl (.inr rfl) rfl rfl
    exact ⟨_, w, f4 z h, g⟩

/-- A table with at least two rows is stored as an interpolation with these rows. -/
theorem tableData_storable {ps : List (F × F)} {t u : String} {r : RealData F} (h2 : 2 ≤ ps.length)
    (h : tableData .float ps t u = .ok r) :
    (∃ s, r = .interp 1 ps s t u) ∧ Storable r ∧ isConst r = false := by
  obtain ⟨s, rfl, hs⟩ := tableData_interp h2 h
  exact ⟨⟨s, rfl⟩, hs, rfl⟩

/-- C49 for materials of a table with at least two rows, up to 500 for a refractive index: they
can be written with every setting. -/
theorem C49_tabulated_partial [YamlIO F] [PrintingLaws F] [LawfulCmp F]
    (rd : String → Res (FileDict F)) (kw : Kwargs F)
    (hnd : (kw.map Prod.fst).Nodup) (hp : PlainOptions kw) {c : String}
    (hc : (lower (defaultsOf kw).1, lower (defaultsOf kw).2, c) ∈ names) {n : String} {k : ℕ}
    {rows : List (List F)} (h : Only kw n (.table k) (.arr (.d2 k .float rows)))
    (hna : n ≠ "tabulated_n_alpha") (hg : GoodTable k rows) (h2 : 2 ≤ rows.length)
    (h500 : n ≠ "tabulated_eps" → rows.length ≤ 500) (ic rii : Bool) :
    ∃ m w text, Material.new rd kw = .ok m ∧ Writer.new ".yml" m = .ok w ∧
      (w.writeFile ic rii).1 = .ok text := by
  have key : ∀ {m : Material F} {r i : RealData F}, HasParts m blankMeta r i →
      (m.name = "nk" → Fits r i) → isConst r = false →
      ∃ w text, Writer.new ".yml" m = .ok w ∧ (w.writeFile ic rii).1 = .ok text := by
    intro m r i hh hf hr
    obtain ⟨w, w', c, s, ds, hw, _, _, h6, _⟩ := C49_written_partial hh hf ic rii (by simp [hr])
    exact ⟨w, _, hw, by rw [h6]⟩
  have hl : ∀ j, (pairsOf rows j).length = rows.length := by simp [pairsOf]
  have hfit : ∀ {j : ℕ} {r : RealData F} {s : Spectrum F}, rows.length ≤ 500 →
      r = .interp 1 (pairsOf rows j) s (defaultsOf kw).1 (defaultsOf kw).2 →
      ∀ o ps s' t u, r = .interp o ps s' t u → ps = pairsOf rows j ∧ ps ≠ [] ∧ ps.length ≤ 500 := by
    intro j r s h5 e o ps s' t u e'
    rw [e] at e'
    have : ps = pairsOf rows j := by cases e'; rfl
    refine ⟨this, ?_, ?_⟩
    · rintro rfl
      have := congrArg List.length this
      rw [hl] at this
      simp at this
      omega
    · rw [this, hl]; exact h5
  obtain ⟨f1, f2, f3⟩ := C24_table_partial rd kw hnd hp hc rows
  have hcase : n = "tabulated_n" ∧ k = 2 ∨ n = "tabulated_nk" ∧ k = 3 ∨
      n = "tabulated_eps" ∧ k = 3 := by
    have hs := h.source
    simp only [sources, List.mem_cons, Prod.mk.injEq, reduceCtorEq, and_false, DocType.table.injEq,
      List.not_mem_nil, or_false, false_or] at hs
    rcases hs with e | e | e | e
    · exact .inl e
    · exact .inr (.inl e)
    · exact absurd e.1 hna
    · exact .inr (.inr e)
  rcases hcase with ⟨rfl, rfl⟩ | ⟨rfl, rfl⟩ | ⟨rfl, rfl⟩
  · obtain ⟨r, hr, hm⟩ := f1 h hg
    obtain ⟨⟨s, e⟩, hs, hcr⟩ := tableData_storable (by rw [hl]; exact h2) hr
    obtain ⟨w, text, g⟩ := key (m := { blankMaterial (parsedOf kw) with
      name := "nk", real := some r, imag := some (cdata (lit 0)) })
      ⟨rfl, blankMeta_ok, .inl rfl, rfl, rfl, rfl, hs, cdata_storable _⟩
      (fun _ => ⟨fun o ps s t u e' => (hfit (h500 (by decide)) e _ _ _ _ _ e').2,
        by rintro _ _ _ _ _ ⟨⟩, by rintro _ _ _ _ _ _ _ _ _ _ _ ⟨⟩⟩) hcr
    exact ⟨_, w, text, hm, g⟩
  · obtain ⟨r, i, hr, hi, hm⟩ := f2 h hg
    obtain ⟨⟨s, e⟩, hs, hcr⟩ := tableData_storable (by rw [hl]; exact h2) hr
    obtain ⟨⟨s', ei⟩, hs', _⟩ := tableData_storable (by rw [hl]; exact h2) hi
    obtain ⟨w, text, g⟩ := key (m := { blankMaterial (parsedOf kw) with
      name := "nk", real := some r, imag := some i })
      ⟨rfl, blankMeta_ok, .inl rfl, rfl, rfl, rfl, hs, hs'⟩
      (fun _ => ⟨fun o ps s t u e' => (hfit (h500 (by decide)) e _ _ _ _ _ e').2,
        fun o ps s t u e' => (hfit (h500 (by decide)) ei _ _ _ _ _ e').2,
        fun o ps s t u o' ps' s' t' u' e1 e2 => by
          rw [(hfit (h500 (by decide)) e _ _ _ _ _ e1).1,
            (hfit (h500 (by decide)) ei _ _ _ _ _ e2).1, hl, hl]⟩) hcr
    exact ⟨_, w, text, hm, g⟩
  · obtain ⟨r, i, hr, hi, hm⟩ := f3 h hg
    obtain ⟨⟨s, e⟩, hs, hcr⟩ := tableData_storable (by rw [hl]; exact h2) hr
    obtain ⟨⟨s', ei⟩, hs', _⟩ := tableData_storable (by rw [hl]; exact h2) hi
    obtain ⟨w, text, g⟩ := key (m := { blankMaterial (parsedOf kw) with
      name := "eps", real := some r, imag := some i })
      ⟨rfl, blankMeta_ok, .inr rfl, rfl, rfl, rfl, hs, hs'⟩
      (fun hx => absurd hx (by simp)) hcr
    exact ⟨_, w, text, hm, g⟩

/-- C49 (full statement, refuted below): every constructed material can be written. -/
def C49_statement (F : Type) [PyFloat F] [SciPy F] [NumText F] [Printing F] [YamlIO F] : Prop :=
  ∀ (rd : String → Res (FileDict F)) (kw : Kwargs F) (m : Material F), Material.new rd kw = .ok m →
    ∀ ic rii, ∃ w text, Writer.new ".yml" m = .ok w ∧ (w.writeFile ic rii).1 = .ok text

/-- C49 is false in every arithmetic: a material of a constant refractive index. -/
theorem C49_refuted [YamlIO F] [PrintingLaws F] (x : F) : ¬ C49_statement F := by
  intro h
  obtain ⟨h1, h2⟩ := only_single (F := F) (n := "fixed_n") (t := .real) (v := .float x) (by decide)
    (by simp)
  obtain ⟨m, w, hm, hw, hx⟩ := C49_fixed (fun _ => .error .os) _ h1
    (plain_single (by decide) (by decide)) h2 ⟨x, rfl⟩ (.inl rfl)
  obtain ⟨w', text, hw', ht⟩ := h _ _ m hm true false
  have : w' = w := by rw [hw] at hw'; cases hw'; rfl
  subst this
  rw [(hx false).1] at ht
  cases ht

end Disp

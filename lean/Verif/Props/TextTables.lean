import Verif.Props.WriterData
import Verif.Lemmas.PrintingIdeal
/-!
# C46: tables written to text files
-/

namespace Disp

open Spec

variable {F : Type} [PyFloat F] [SciPy F] [NumText F] [Printing F]

/-- The metadata of a material as the constructor makes them: texts, a meta comment, and a
specification. -/
structure GoodMeta (md : List (String × MetaVal)) : Prop where
  text : ∀ k ∈ Spec.textFields, ∃ s, dictGet md k = .ok (.str s)
  comment : ∃ c, dictGet md "MetaComment" = .ok (.str c)
  spec : ∃ s, dictGet md "Specification" = .ok (.dict s)
  known : ∀ p ∈ md, p.1 = "Alias" ∨ p.1 = "MetaComment" ∨ ∃ al, dictGet keyAliases p.1 = .ok al
  keys : Keys md

theorem metaHeader_ok {md : List (String × MetaVal)} : ∀ {keys : List String},
    (∀ k ∈ keys, ∀ v, dictGet md k = .ok v → ∃ s, v = .str s) →
    (∀ k ∈ keys, ∃ al, dictGet keyAliases k = .ok al) → ∃ h, metaHeader md keys = .ok h
  | [], _, _ => ⟨_, rfl⟩
  | k :: ks, h1, h2 => by
    obtain ⟨rest, hr⟩ := metaHeader_ok (md := md) (keys := ks)
      (fun k hk => h1 k (List.mem_cons_of_mem _ hk)) (fun k hk => h2 k (List.mem_cons_of_mem _ hk))
    rw [metaHeader, hr]
    simp only [bind, Except.bind]
    cases hk : dictGet md k with
    | error e => exact ⟨_, rfl⟩
    | ok v =>
      obtain ⟨s, rfl⟩ := h1 k (List.mem_cons_self ..) v hk
      obtain ⟨al, ha⟩ := h2 k (List.mem_cons_self ..)
      simp only [ha]
      exact ⟨_, rfl⟩

omit [PyFloat F] [SciPy F] [NumText F] [Printing F] in
theorem multiKey_ok {d : Dataset F} {k : String} {v : DVal F} (h : dictGet d k = .ok v)
    (ks : List String) : multiKey d (k :: ks) = .ok v := by
  have hh : dictHas d k = true := by
    rw [dictHas_iff]; exact ⟨_, dictGet_mem h⟩
  rw [multiKey, if_pos hh, h]

omit [SciPy F] in
/-- A writer whose first dataset is a table writes a text file. -/
theorem writeFile_text_ok [YamlIO F] {w : Writer F} {delim : Char} {rd : Option Char}
    (he : ExtSep w.ext delim rd)
    (hm : ∀ k ∈ writtenKeys, ∀ v, dictGet w.metaData k = .ok v → ∃ s, v = .str s)
    {c : String} (hc : dictGet w.metaData "MetaComment" = .ok (.str c))
    {d : Dataset F} {ds : List (Dataset F)} (hds : w.datasets = d :: ds) {st un dt s : String}
    (h1 : dictGet d "SpectrumType" = .ok (.str st)) (h2 : dictGet d "Unit" = .ok (.str un))
    (h3 : dictGet d "DataType" = .ok (.str dt)) (h4 : dictGet d "Data" = .ok (.str s))
    {n : ℕ} {dtp : DType} {rows : List (List F)}
    (ht : strTableToNumeric (.text s.toList) = .ok (.d2 n dtp rows)) (ic rii : Bool) :
    ∃ text w', w.writeFile ic rii = (.ok text, w') := by
  have hpop : dictPop w.metaData "MetaComment" =
      .ok (.str c, w.metaData.filter (fun p => p.1 ≠ "MetaComment")) := by
    rw [dictPop, hc]; rfl
  rw [Writer.writeFile, hpop]
  simp only [he.format]
  obtain ⟨hd, hhd⟩ := metaHeader_ok (md := w.metaData.filter (fun p => p.1 ≠ "MetaComment"))
    (keys := writtenKeys) (by
      intro k hk v hv
      rw [dictGet_filter _ (by rintro rfl; exact absurd hk (by decide))] at hv
      exact hm k hk v hv) (fun k hk => by
        obtain ⟨_, al, ha, _⟩ := written_aliases k hk
        exact ⟨al, ha⟩)
  have hdel : ∃ dl, delimiterOf w.ext = .ok dl := by
    rcases he with ⟨hx, _, _⟩ | ⟨hx, _, _⟩
    · exact ⟨_, by rw [delimiterOf, if_pos hx]⟩
    · exact ⟨_, by rw [delimiterOf, if_neg (by rw [hx]; decide), if_pos hx]⟩
  obtain ⟨dl, hdl⟩ := hdel
  have : ∃ t, ({ w with metaData := w.metaData.filter (fun p => p.1 ≠ "MetaComment") } :
      Writer F).writeText = .ok t := by
    rw [Writer.writeText]
    simp only [hhd, bind, Except.bind, hds, firstDataset, multiKey_ok h1, multiKey_ok h2,
      multiKey_ok h3, multiKey_ok h4, DVal.text, DVal.asTable, ht, hdl]
    exact ⟨_, rfl⟩
  obtain ⟨t, htx⟩ := this
  rw [htx]
  simp only [Writer.writeFile.finish]
  split
  · exact ⟨_, _, rfl⟩
  · exact ⟨_, _, rfl⟩

/-- Writing and reading back a material whose first dataset is a known table. -/
theorem text_table [YamlIO F] [PrintingLaws F] {ext : String} {delim : Char} {rsep : Option Char}
    (he : ExtSep ext delim rsep) {m : Material F} {w : Writer F} (hn : Writer.new ext m = .ok w)
    {md : List (String × MetaVal)} (hmd : m.metaData = some md) (gm : GoodMeta md)
    {rd : RealData F} (hrd : m.real = some rd)
    (hcc : ∀ c, dictGet md "MetaComment" = .ok (.str c) → PlainComment c.toList)
    (hm : CleanMeta md) (h1 : Clean rd.stype.toList) (h2 : Clean rd.unit.toList)
    {o : KeyOrder} (ho : o.Valid)
    {d0 : Dataset F} {ds0 : List (Dataset F)} (hd0 : w.datasets = d0 :: ds0) {dt s : String}
    (hdt : dictGet d0 "DataType" = .ok (.str dt))
    (hs : dictGet d0 "Data" = .ok (.str s)) {n : ℕ} {rows : List (List F)}
    (ht : strTableToNumeric (.text s.toList) = .ok (.d2 n .float rows)) (h2n : 2 ≤ n)
    (h2r : 2 ≤ rows.length) (ic rii : Bool) :
    ∃ (text : List Char) (w' : Writer F) (fd : FileDict F) (d : Dataset F) (r' : Reader F),
      w.writeFile ic rii = (.ok text, w') ∧
      (Reader.fresh o : Reader F).readFile o ext text = (.ok fd, r') ∧ fd.datasets = [d] ∧
      dictGet d "SpectrumType" = .ok (.str rd.stype) ∧ dictGet d "Unit" = .ok (.str rd.unit) ∧
      dictGet d "DataType" = .ok (.str dt) ∧
      dictGet d "Data" = .ok (.arr (.d2 n .float (rows.map (fun r => r.map Printing.shown8)))) := by
  obtain ⟨rd', md', d0', ds0', r1, r2, r3, r4, r5, r6, r7, _⟩ := first_dataset hn
  have e1 : rd' = rd := by rw [hrd] at r1; cases r1; rfl
  have e2 : md' = md := by rw [hmd] at r2; cases r2; rfl
  have e3 : d0' = d0 := by rw [hd0] at r3; cases r3; rfl
  subst e1 e2 e3
  obtain ⟨c, hc⟩ := gm.comment
  have hget : ∀ k, k ≠ "Alias" → dictGet w.metaData k = dictGet md' k := by
    intro k hk; rw [r5]; exact dictGet_filter _ hk
  obtain ⟨text, w', hw⟩ := writeFile_text_ok (w := w) (by rw [r4]; exact he) (by
      intro k hk v hv
      rw [hget k (by rintro rfl; exact absurd hk (by decide))] at hv
      obtain ⟨s, hs⟩ := gm.text k hk
      rw [hs] at hv
      cases hv; exact ⟨s, rfl⟩) ((hget _ (by decide)).trans hc) hd0 r6 r7 hdt hs ht ic rii
  obtain ⟨d1, ds1, t, s', n', rows', a, fd, d, r', p1, p2, p3, p4, p5, p6, p7, p8, p9, p10, p11, p12,
    p13, p14, p15, p16⟩ := text_cycle he hn hmd hrd hc (hcc c hc) hm h1 h2 hw ho
  have f1 : d1 = d0' := by rw [hd0] at p1; cases p1; rfl
  subst f1
  have f2 : s' = s := by rw [multiKey_ok hs] at p3; cases p3; rfl
  subst f2
  have f3 : n' = n := by rw [ht] at p4; cases p4; rfl
  have f4 : rows' = rows := by rw [ht] at p4; cases p4; rfl
  have f5 : t = dt := by rw [hdt] at p2; cases p2; rfl
  subst f3 f4 f5
  refine ⟨text, w', fd, d, r', hw, p9, p10, p12, p13, p14, ?_⟩
  obtain ⟨a', q1, q2⟩ := squeezeRows_ok (m := n')
    (rows := rows'.map (fun r => r.map Printing.shown8)) (by
      intro r hr
      obtain ⟨p, hp, rfl⟩ := List.mem_map.1 hr
      rw [List.length_map]; exact p7 p hp)
  have : a' = a := by rw [p8] at q1; cases q1; rfl
  subst this
  rw [p11, q2 (by rw [List.length_map]; exact h2r) h2n]

/-- The material can be written to a text file that holds one table, of the given type and with
the given rows, and with the spectrum type and unit of the real part. -/
def WritesTable [YamlIO F] (m : Material F) (dt : String) (rows : List (List F)) (n : ℕ) : Prop :=
  ∀ (ext : String), ext = ".txt" ∨ ext = ".csv" → ∀ ic rii : Bool, ∀ o : KeyOrder, o.Valid →
    ∃ (w w' : Writer F) (text : List Char) (fd : FileDict F) (d : Dataset F) (r' : Reader F),
      Writer.new ext m = .ok w ∧ w.writeFile ic rii = (.ok text, w') ∧
      (Reader.fresh o : Reader F).readFile o ext text = (.ok fd, r') ∧ fd.datasets = [d] ∧
      dictGet d "DataType" = .ok (.str dt) ∧ dictGet d "Data" = .ok (.arr (.d2 n .float rows)) ∧
      ∀ rd, m.real = some rd → dictGet d "SpectrumType" = .ok (.str rd.stype) ∧
        dictGet d "Unit" = .ok (.str rd.unit)

theorem ext_sep {ext : String} (h : ext = ".txt" ∨ ext = ".csv") : ∃ delim rsep,
    ExtSep ext delim rsep := by
  rcases h with h | h
  · exact ⟨_, _, .inl ⟨h, rfl, rfl⟩⟩
  · exact ⟨_, _, .inr ⟨h, rfl, rfl⟩⟩

/-- The texts of a material can stand in a header: single lines without leading blanks, and
comments whose lines end with line feeds. -/
structure CleanTexts (m : Material F) : Prop where
  intro ::
  ex : ∃ md rd, m.metaData = some md ∧ m.real = some rd ∧ GoodMeta md ∧ CleanMeta md ∧
    (∀ c, dictGet md "MetaComment" = .ok (.str c) → PlainComment c.toList) ∧
    Clean rd.stype.toList ∧ Clean rd.unit.toList

/-- C46 for a table of the refractive index of at most 500 rows, with an extinction coefficient
that is not a table: what is read back are the numbers as NumPy prints them in an array, with
eight decimals. Missing: longer tables, for which it is false. -/
theorem C46_index_partial [YamlIO F] [PrintingLaws F] {m : Material F} (hx : CleanTexts m)
    (hc : m.cplx = Option.none) (hn : m.name = "nk") {o : ℕ} {ps : List (F × F)} {s : Spectrum F}
    {t u : String} {i : RealData F} (hr : m.real = some (.interp o ps s t u))
    (hi : m.imag = some i) (sr : Storable (.interp o ps s t u)) (si : Storable i)
    (hni : ¬ IsTable i) (h2 : 2 ≤ ps.length) (h500 : ps.length ≤ 500) :
    WritesTable m "tabulated n"
      ((printed (rowsOf ps)).map (fun r => r.map Printing.shown8)) 2 := by
  obtain ⟨md, rd, hmd, hrd, gm, cm, cc, c1, c2⟩ := hx.ex
  have e : rd = .interp o ps s t u := by rw [hr] at hrd; cases hrd; rfl
  subst e
  have hread : strTableToNumeric (.text (tableText 2 (rowsOf ps)).toList) =
      .ok (.d2 2 .float (printed (rowsOf ps))) := by
    refine tableText_read (by norm_num) (by norm_num) ?_ rowsOf_length
      (by rw [rowsOf_flatten]; omega)
    intro h0
    have : ps = [] := by simpa [rowsOf] using h0
    rw [this] at h2; simp at h2
  intro ext hext ic rii ko hko
  obtain ⟨delim, rsep, he⟩ := ext_sep hext
  have hcol := collapse_nk sr si (.inr hni) (by
      intro o' ps' s' t' u' he'
      cases he'
      exact ⟨_, hread⟩) (fun o' ps' s' t' u' he' => absurd ⟨_, _, _, _, _, he'⟩ hni)
  have hw := writer_ok ext hmd hc (.inl hn) hr hi sr si (by rw [hn]; exact hcol)
  obtain ⟨text, w', fd, d, r', q1, q2, q3, q4, q5, q6, q7⟩ := text_table he hw hmd gm hr cc cm c1 c2
    hko (d0 := outDict (.interp o ps s t u) " n") (ds0 := [outDict i " k"]) rfl
    (dt := "tabulated n") rfl (s := tableText 2 (rowsOf ps)) rfl hread (by norm_num)
    (by simpa [printed, rowsOf] using h2) ic rii
  exact ⟨_, _, text, fd, d, r', hw, q1, q2, q3, q6, q7,
    fun rd h' => by rw [hr] at h'; cases h'; exact ⟨q4, q5⟩⟩

/-- C46 for two tables of at most 333 rows whose abscissae are printed alike: the file holds a
table with three columns. -/
theorem C46_index_extinction_partial [YamlIO F] [PrintingLaws F] {m : Material F}
    (hx : CleanTexts m)
    (hc : m.cplx = Option.none) (hn : m.name = "nk") {o o' : ℕ} {ps qs : List (F × F)}
    {s s' : Spectrum F} {t u : String} (hr : m.real = some (.interp o ps s t u))
    (hi : m.imag = some (.interp o' qs s' t u)) (sr : Storable (.interp o ps s t u))
    (si : Storable (.interp o' qs s' t u))
    (hsame : SameAbscissae (printed (rowsOf ps)) (printed (rowsOf qs)))
    (hlen : ps.length = qs.length) (h2 : 2 ≤ ps.length) (h333 : ps.length ≤ 333) :
    WritesTable m "tabulated nk"
      ((printed (joined (printed (rowsOf ps)) (printed (rowsOf qs)))).map
        (fun r => r.map Printing.shown8)) 3 := by
  obtain ⟨md, rd, hmd, hrd, gm, cm, cc, c1, c2⟩ := hx.ex
  have e : rd = .interp o ps s t u := by rw [hr] at hrd; cases hrd; rfl
  subst e
  have hne : ∀ ps : List (F × F), 2 ≤ ps.length → ps ≠ [] := by rintro ps h rfl; simp at h
  have hcol := (collapse_tables (o := o) (o' := o') (s := s) (s' := s') (t := t) (t' := t) (u := u)
    (u' := u) (hne ps h2) (hne qs (by omega)) (by omega) (by omega) hlen).1 hsame rfl rfl
  have hjl : (joined (printed (rowsOf ps)) (printed (rowsOf qs))).length = ps.length := by
    simp [joined, printed, rowsOf, hlen]
  have hjw : ∀ r ∈ joined (printed (rowsOf ps)) (printed (rowsOf qs)), r.length = 3 := by
    intro r hr
    rw [joined] at hr
    obtain ⟨i, hi, rfl⟩ := List.mem_iff_getElem.1 hr
    rw [List.getElem_zipWith, List.length_append]
    have := printed_width (rowsOf_length (ps := ps)) _
      (List.getElem_mem (l := printed (rowsOf ps)) (n := i) (by simp at hi; omega))
    simp [this]
  have hread : strTableToNumeric (.text (tableText 3
      (joined (printed (rowsOf ps)) (printed (rowsOf qs)))).toList) =
      .ok (.d2 3 .float (printed (joined (printed (rowsOf ps)) (printed (rowsOf qs))))) := by
    refine tableText_read (by norm_num) (by norm_num) ?_ hjw ?_
    · intro h0
      rw [h0] at hjl
      simp at hjl; omega
    · rw [List.length_flatten, List.map_congr_left (g := fun _ => 3) (fun r hr => hjw r hr)]
      simp [hjl]; omega
  intro ext hext ic rii ko hko
  obtain ⟨delim, rsep, he⟩ := ext_sep hext
  have hw := writer_ok ext hmd hc (.inl hn) hr hi sr si (by rw [hn]; exact hcol)
  obtain ⟨text, w', fd, d, r', q1, q2, q3, q4, q5, q6, q7⟩ := text_table he hw hmd gm hr cc cm c1 c2
    hko rfl (dt := "tabulated nk") rfl (s := tableText 3
      (joined (printed (rowsOf ps)) (printed (rowsOf qs)))) rfl hread (by norm_num)
    (by rw [printed, List.length_map, hjl]; exact h2) ic rii
  exact ⟨_, _, text, fd, d, r', hw, q1, q2, q3, q6, q7,
    fun rd h' => by rw [hr] at h'; cases h'; exact ⟨q4, q5⟩⟩

/-- The extinction coefficient is silently left out of a text file if its table and that of the
refractive index have the same length but different printed abscissae, units or spectrum types:
the file is the one of the index alone. -/
theorem C46_extinction_dropped [YamlIO F] [PrintingLaws F] {m : Material F} (hx : CleanTexts m)
    (hc : m.cplx = Option.none) (hn : m.name = "nk") {o o' : ℕ} {ps qs : List (F × F)}
    {s s' : Spectrum F} {t u t' u' : String} (hr : m.real = some (.interp o ps s t u))
    (hi : m.imag = some (.interp o' qs s' t' u')) (sr : Storable (.interp o ps s t u))
    (si : Storable (.interp o' qs s' t' u'))
    (hdiff : ¬ (SameAbscissae (printed (rowsOf ps)) (printed (rowsOf qs)) ∧ t = t' ∧ u = u'))
    (hlen : ps.length = qs.length) (h2 : 2 ≤ ps.length) (h500 : ps.length ≤ 500) :
    WritesTable m "tabulated n"
      ((printed (rowsOf ps)).map (fun r => r.map Printing.shown8)) 2 := by
  obtain ⟨md, rd, hmd, hrd, gm, cm, cc, c1, c2⟩ := hx.ex
  have e : rd = .interp o ps s t u := by rw [hr] at hrd; cases hrd; rfl
  subst e
  have hne : ∀ ps : List (F × F), 2 ≤ ps.length → ps ≠ [] := by rintro ps h rfl; simp at h
  have hread : strTableToNumeric (.text (tableText 2 (rowsOf ps)).toList) =
      .ok (.d2 2 .float (printed (rowsOf ps))) := by
    refine tableText_read (by norm_num) (by norm_num) ?_ rowsOf_length
      (by rw [rowsOf_flatten]; omega)
    intro h0
    exact hne ps h2 (by simpa [rowsOf] using h0)
  intro ext hext ic rii ko hko
  obtain ⟨delim, rsep, he⟩ := ext_sep hext
  have hcol := (collapse_tables (o := o) (o' := o') (s := s) (s' := s') (t := t) (t' := t') (u := u)
    (u' := u') (hne ps h2) (hne qs (by omega)) (by omega) (by omega) hlen).2 hdiff
  have hw := writer_ok ext hmd hc (.inl hn) hr hi sr si (by rw [hn]; exact hcol)
  obtain ⟨text, w', fd, d, r', q1, q2, q3, q4, q5, q6, q7⟩ := text_table he hw hmd gm hr cc cm c1 c2
    hko (d0 := outDict (.interp o ps s t u) " n") (ds0 := [outDict (.interp o' qs s' t' u') " k"]) rfl
    (dt := "tabulated n") rfl (s := tableText 2 (rowsOf ps)) rfl hread (by norm_num)
    (by simpa [printed, rowsOf] using h2) ic rii
  exact ⟨_, _, text, fd, d, r', hw, q1, q2, q3, q6, q7,
    fun rd h' => by rw [hr] at h'; cases h'; exact ⟨q4, q5⟩⟩

/-- A table of the refractive index with more than 500 rows cannot be written: `ValueError`. -/
theorem C46_long [PrintingLaws F] (ext : String) {m : Material F} {md : List (String × MetaVal)}
    (hmd : m.metaData = some md) (hc : m.cplx = Option.none) (hn : m.name = "nk") {o : ℕ}
    {ps : List (F × F)} {s : Spectrum F} {t u : String} {i : RealData F}
    (hr : m.real = some (.interp o ps s t u)) (hi : m.imag = some i)
    (sr : Storable (.interp o ps s t u)) (si : Storable i) (h : 500 < ps.length) :
    Writer.new ext m = .error .value :=
  writer_error ext hmd hc (.inl hn) hr hi sr si (by rw [hn]; exact collapse_long h _)

/-! ## Constructed materials -/

omit [Printing F] [SciPy F] [NumText F] in
theorem newList_values {dt : DType} {xs : List F} {t u : String} {s : Spectrum F}
    (h : Spectrum.new (.list dt xs) t u = .ok s) : s.values = .array dt xs := by
  unfold Spectrum.new at h
  simp only at h
  split at h
  · obtain ⟨p, _, h⟩ := except_bind_ok h
    obtain ⟨v, hv, h⟩ := except_bind_ok h
    obtain ⟨st, _, h⟩ := except_bind_ok h
    have e : v = .array dt xs := by cases hv; rfl
    cases h; exact e
  · cases h

omit [Printing F] [NumText F] in
/-- A table of at least two rows is stored as it is. -/
theorem tableData_interp {ps : List (F × F)} {t u : String} {d : RealData F} (h2 : 2 ≤ ps.length)
    (h : tableData .float ps t u = .ok d) :
    ∃ s, d = .interp 1 ps s t u ∧ Storable d := by
  have hd : RealData.newInterp .float ps t u 1 = .ok d := by
    match ps, h2 with
    | _ :: _ :: _, _ => exact h
  unfold RealData.newInterp at hd
  obtain ⟨lo, _, hd⟩ := except_bind_ok hd
  obtain ⟨hi, _, hd⟩ := except_bind_ok hd
  obtain ⟨r, hr, hd⟩ := except_bind_ok hd
  obtain ⟨_, _, hd⟩ := except_bind_ok hd
  have e : d = .interp 1 ps r t u := by cases hd; rfl
  subst e
  exact ⟨r, rfl, ⟨_, _, newList_values hr⟩, by intros; simp⟩

omit [Printing F] [NumText F] in
theorem cdata_storable (x : F) : Storable (cdata x) := ⟨⟨_, _, rfl⟩, by intros; simp [cdata]⟩

omit [Printing F] [NumText F] in
theorem cdata_not_table (x : F) : ¬ IsTable (cdata x) := by
  rintro ⟨o, ps, r, t, u, h⟩
  cases h

theorem names_clean : ∀ p ∈ names, (∀ c ∈ p.1.toList, isLineEnd c = false) ∧
    (∀ c ∈ p.1.toList.head?, pySpace c = false) ∧
    (∀ c ∈ p.2.1.toList, isLineEnd c = false) ∧ ∀ c ∈ p.2.1.toList.head?, pySpace c = false := by
  decide

theorem toLower_space {c : Char} (h : pySpace c = true) : c.toLower = c := by
  have : ∀ d ∈ pySpaces, d.toLower = d := by decide
  exact this c (by simpa [pySpace] using h)

theorem toLower_lineEnd {c : Char} (h : isLineEnd c = true) : c.toLower = c := by
  have : ∀ d ∈ isLineEnd.lineEnds, d.toLower = d := by decide
  exact this c (by simpa [isLineEnd] using h)

/-- A text is a single line without leading blanks if its lower case is. -/
theorem clean_of_lower {t : String} (h1 : ∀ c ∈ (lower t).toList, isLineEnd c = false)
    (h2 : ∀ c ∈ (lower t).toList.head?, pySpace c = false) : Clean t.toList := by
  rw [lower, String.toList_ofList] at h1 h2
  constructor
  · intro c hc
    by_contra hh
    have hh : isLineEnd c = true := by simpa using hh
    have := h1 _ (List.mem_map.2 ⟨c, hc, rfl⟩)
    rw [toLower_lineEnd hh, hh] at this
    cases this
  · intro c hc
    by_contra hh
    have hh : pySpace c = true := by simpa using hh
    have := h2 c.toLower (by rw [List.head?_map, hc]; rfl)
    rw [toLower_space hh, hh] at this
    cases this

theorem clean_names {t u c : String} (h : (lower t, lower u, c) ∈ names) :
    Clean t.toList ∧ Clean u.toList := by
  obtain ⟨h1, h2, h3, h4⟩ := names_clean _ h
  exact ⟨clean_of_lower h1 h2, clean_of_lower h3 h4⟩

/-- The metadata of a new material. -/
theorem blankMeta_good : GoodMeta blankMeta ∧ CleanMeta blankMeta ∧
    ∀ c, dictGet blankMeta "MetaComment" = .ok (.str c) → PlainComment c.toList := by
  have hs : ∀ k ∈ writtenKeys, dictGet blankMeta k = .ok (.str "") := by
    intro k hk
    simp only [writtenKeys, List.mem_cons, List.not_mem_nil, or_false] at hk
    rcases hk with rfl | rfl | rfl | rfl | rfl <;> rfl
  refine ⟨⟨?_, ⟨"", rfl⟩, ⟨[], rfl⟩, ?_, ?_⟩, ?_, ?_⟩
  · intro k hk
    exact ⟨_, hs k hk⟩
  · intro p hp
    simp only [blankMeta, List.mem_cons, List.not_mem_nil, or_false] at hp
    rcases hp with rfl | rfl | rfl | rfl | rfl | rfl | rfl | rfl
    · exact .inr (.inr ⟨_, rfl⟩)
    · exact .inr (.inr ⟨_, rfl⟩)
    · exact .inr (.inr ⟨_, rfl⟩)
    · exact .inr (.inr ⟨_, rfl⟩)
    · exact .inr (.inr ⟨_, rfl⟩)
    · exact .inl rfl
    · exact .inr (.inl rfl)
    · exact .inr (.inr ⟨_, rfl⟩)
  · show (blankMeta.map Prod.fst).Nodup
    decide
  · intro k hk s hv
    rw [hs k hk] at hv
    cases hv
    constructor
    · intro c hc; cases hc
    · intro c hc; cases hc
  · intro c hc
    have : c = "" := by cases hc; rfl
    subst this
    intro x hx; cases hx

omit [SciPy F] [NumText F] [Printing F] in
theorem rowsOf_pairsOf {rows : List (List F)} (h : ∀ r ∈ rows, r.length = 2) :
    rowsOf (pairsOf rows 1) = rows := by
  rw [rowsOf, pairsOf, List.map_map]
  conv_rhs => rw [← List.map_id rows]
  apply List.map_congr_left
  intro r hr
  have := h r hr
  match r, this with
  | [a, b], _ => rfl

/-- C46 for a material made from a table of the refractive index with at most 500 rows. -/
theorem C46_material_partial [LawfulCmp F] [YamlIO F] [PrintingLaws F]
    (rd : String → Res (FileDict F)) (kw : Kwargs F) (hnd : (kw.map Prod.fst).Nodup)
    (hp : PlainOptions kw) {c : String}
    (hc : (lower (defaultsOf kw).1, lower (defaultsOf kw).2, c) ∈ names)
    (rows : List (List F)) (hk : Only kw "tabulated_n" (.table 2) (.arr (.d2 2 .float rows)))
    (hg : GoodTable 2 rows) (h2 : 2 ≤ rows.length) (h500 : rows.length ≤ 500) :
    ∃ m, Material.new rd kw = .ok m ∧
      WritesTable m "tabulated n" ((printed rows).map (fun r => r.map Printing.shown8)) 2 := by
  obtain ⟨r, hr, hm⟩ := (C24_table_partial rd kw hnd hp hc rows).1 hk hg
  refine ⟨_, hm, ?_⟩
  have hl : (pairsOf rows 1).length = rows.length := by simp [pairsOf]
  obtain ⟨s, rfl, hs⟩ := tableData_interp (by rw [hl]; exact h2) hr
  have := C46_index_partial (m := { blankMaterial (parsedOf kw) with
    name := "nk", real := some (.interp 1 (pairsOf rows 1) s (defaultsOf kw).1 (defaultsOf kw).2),
    imag := some (cdata (lit 0)) })
    ⟨⟨blankMeta, _, rfl, rfl, blankMeta_good.1, blankMeta_good.2.1, blankMeta_good.2.2,
      (clean_names hc).1, (clean_names hc).2⟩⟩ rfl rfl rfl rfl hs (cdata_storable _)
    (cdata_not_table _) (by rw [hl]; exact h2) (by rw [hl]; exact h500)
  rw [rowsOf_pairsOf hg.width] at this
  exact this

/-- C46 for such a material if NumPy's array format shows its numbers exactly: reading back gives
the table with eight decimals. -/
theorem C46_shown_partial [LawfulCmp F] [YamlIO F] [PrintingLaws F]
    (rd : String → Res (FileDict F)) (kw : Kwargs F) (hnd : (kw.map Prod.fst).Nodup)
    (hp : PlainOptions kw) {c : String}
    (hc : (lower (defaultsOf kw).1, lower (defaultsOf kw).2, c) ∈ names)
    (rows : List (List F)) (hk : Only kw "tabulated_n" (.table 2) (.arr (.d2 2 .float rows)))
    (hg : GoodTable 2 rows) (h2 : 2 ≤ rows.length) (h500 : rows.length ≤ 500)
    (hx : ∀ r ∈ rows, ∀ x ∈ r, Printing.shown rows.flatten x = x) :
    ∃ m, Material.new rd kw = .ok m ∧
      WritesTable m "tabulated n" (rows.map (fun r => r.map Printing.shown8)) 2 := by
  have e : printed rows = rows := by
    rw [printed]
    conv_rhs => rw [← List.map_id rows]
    apply List.map_congr_left
    intro r hr
    show r.map _ = r
    conv_rhs => rw [← List.map_id r]
    exact List.map_congr_left (fun x hxr => hx r hr x hxr)
  obtain ⟨m, hm, hw⟩ := C46_material_partial rd kw hnd hp hc rows hk hg h2 h500
  rw [e] at hw
  exact ⟨m, hm, hw⟩

/-- C46 (full statement, refuted below): a material made from a table of the refractive index is
written, and reading back gives the table with every number as written with eight decimals. -/
def C46_statement (F : Type) [PyFloat F] [SciPy F] [NumText F] [Printing F] [YamlIO F] : Prop :=
  ∀ (rd : String → Res (FileDict F)) (kw : Kwargs F) (c : String) (rows : List (List F)),
    (kw.map Prod.fst).Nodup → PlainOptions kw →
    (lower (defaultsOf kw).1, lower (defaultsOf kw).2, c) ∈ names →
    Only kw "tabulated_n" (.table 2) (.arr (.d2 2 .float rows)) → GoodTable 2 rows →
    2 ≤ rows.length → ∀ m, Material.new rd kw = .ok m →
      WritesTable m "tabulated n" (rows.map (fun r => r.map Printing.shown8)) 2

/-- C46 is false: no table of more than 500 rows can be written. -/
theorem C46_refuted [SciPy XR] [NumText XR] [Printing XR] [YamlIO XR] [PrintingLaws XR] :
    ¬ C46_statement XR := by
  intro h
  obtain ⟨N, hN⟩ : ∃ N : ℕ, 500 < N := ⟨501, by norm_num⟩
  let rows : List (List XR) := (List.range N).map (fun i : ℕ => [XR.fin (i : ℝ), XR.fin 1])
  have hlen : rows.length = N := by simp [rows]
  have hg : GoodTable 2 rows := by
    refine ⟨?_, ?_, ?_, ?_⟩
    · intro h0
      have := congrArg List.length h0
      rw [hlen] at this
      simp at this; omega
    · intro r hr
      obtain ⟨i, _, rfl⟩ := List.mem_map.1 hr
      rfl
    · intro r hr
      obtain ⟨i, _, rfl⟩ := List.mem_map.1 hr
      rfl
    · refine List.pairwise_map.2 (List.Pairwise.imp ?_ List.pairwise_lt_range)
      intro i j hij
      show PyFloat.eq (XR.fin (i : ℝ)) (XR.fin (j : ℝ)) = false
      have : (i : ℝ) ≠ (j : ℝ) := by exact_mod_cast hij.ne
      rw [XR.eq_fin]
      exact decide_eq_false this
  let v : PyVal XR := .arr (.d2 2 .float rows)
  have hs : ("tabulated_n", DocType.table 2) ∈ sources := by decide
  have hv : v ≠ .none := by simp [v]
  obtain ⟨h1, h2⟩ := only_single hs hv
  have hp : PlainOptions [("tabulated_n", v)] := plain_single (by decide) (by decide)
  have hnm : (lower (defaultsOf [("tabulated_n", v)]).1, lower (defaultsOf [("tabulated_n", v)]).2,
      "nm") ∈ names := by
    rw [defaults_single (by decide)]; decide +kernel
  obtain ⟨r, hr, hm⟩ := (C24_table_partial (fun _ => .error .os) [("tabulated_n", v)] h1 hp hnm
    rows).1 h2 hg
  have hw := h (fun _ => .error .os) [("tabulated_n", v)] "nm" rows h1 hp hnm h2 hg
    (by rw [hlen]; omega) _ hm ".txt" (.inl rfl) true false ⟨fileMetaKeys, datasetMetaKeys⟩
    ⟨.refl _, .refl _⟩
  obtain ⟨w, _, _, _, _, _, hw, _⟩ := hw
  have hl : (pairsOf rows 1).length = N := by simp [pairsOf, hlen]
  obtain ⟨s, rfl, hs⟩ := tableData_interp (by rw [hl]; omega) hr
  rw [C46_long ".txt" rfl rfl rfl rfl rfl hs (cdata_storable _) (by rw [hl]; exact hN)] at hw
  cases hw

/-- The table of a glass. -/
def demoRows : List (List XR) := [[XR.fin 400, XR.fin 1.5], [XR.fin 500, XR.fin 1.25]]

theorem demoRows_good : GoodTable 2 demoRows :=
  ⟨by simp [demoRows], by simp [demoRows], by simp [demoRows, rowX, PyFloat.isNaN, XR.isNaN],
    by simp [demoRows, rowX]⟩

theorem demoRows_shown : (∀ r ∈ demoRows, ∀ x ∈ r, demoShown x = x) ∧
    demoRows.map (fun r => r.map (XR.round 8)) = demoRows := by
  have hr : ∀ k : ℤ, XR.roundDec 8 ((k : ℝ) / 4) = (k : ℝ) / 4 ∧
      XR.rint ((k : ℝ) / 4 * 10 ^ 8) = k * 25000000 := by
    intro k
    have e : (k : ℝ) / 4 * 10 ^ 8 = ((k * 25000000 : ℤ) : ℝ) := by push_cast; ring
    refine ⟨?_, by rw [e, rint_int]⟩
    rw [XR.roundDec, e, rint_int]; push_cast; ring
  have key : ∀ k : ℤ, k.natAbs ≤ 2000 → ∀ x : ℝ, x = (k : ℝ) / 4 →
      demoShown (.fin x) = .fin x ∧ XR.round 8 (.fin x) = .fin x := by
    rintro k hk x rfl
    refine ⟨?_, ?_⟩
    · rw [demoShown, (hr k).2, if_pos (by omega), (hr k).1]
    · show XR.fin (XR.roundDec 8 _) = _
      rw [(hr k).1]
  have k1 := key 1600 (by norm_num) 400 (by norm_num)
  have k2 := key 6 (by norm_num) 1.5 (by norm_num)
  have k3 := key 2000 (by norm_num) 500 (by norm_num)
  have k4 := key 5 (by norm_num) 1.25 (by norm_num)
  refine ⟨?_, ?_⟩
  · intro r hr x hx
    simp only [demoRows, List.mem_cons, List.not_mem_nil, or_false] at hr
    rcases hr with rfl | rfl <;> simp only [List.mem_cons, List.not_mem_nil, or_false] at hx <;>
      rcases hx with rfl | rfl
    · exact k1.1
    · exact k2.1
    · exact k3.1
    · exact k4.1
  · show [[XR.round 8 _, XR.round 8 _], [XR.round 8 _, XR.round 8 _]] = _
    rw [k1.2, k2.2, k3.2, k4.2]
    rfl

/-- Concrete case for `C46_shown_partial` and what leads to it, in the demonstration format: the
table of a glass is read back as it was. -/
example [SciPy XR] [YamlIO XR] (rd : String → Res (FileDict XR)) :
    letI := demoNumText
    letI := demoPrinting
    ∃ m, Material.new rd [("tabulated_n", .arr (.d2 2 .float demoRows))] = .ok m ∧
      WritesTable m "tabulated n" demoRows 2 := by
  letI := demoNumText
  letI := demoPrinting
  haveI := demoPrintingLaws
  have hs : ("tabulated_n", DocType.table 2) ∈ sources := by decide
  obtain ⟨h1, h2⟩ := only_single (F := XR) hs (v := .arr (.d2 2 .float demoRows)) (by simp)
  have hw := C46_shown_partial rd [("tabulated_n", .arr (.d2 2 .float demoRows))] h1
    (plain_single (by decide) (by decide)) (c := "nm")
    (by rw [defaults_single (by decide)]; decide +kernel) _ h2 demoRows_good (by simp [demoRows])
    (by simp [demoRows]) demoRows_shown.1
  rw [show demoRows.map (fun r => r.map Printing.shown8) = demoRows from demoRows_shown.2] at hw
  exact hw

end Disp

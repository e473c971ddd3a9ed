import Verif.Props.TextRoundTrip
import Verif.Props.MaterialFiles
/-!
# The datasets that are written
-/

namespace Disp

variable {F : Type} [PyFloat F] [SciPy F] [NumText F] [Printing F]

/-- A table of pairs as a table of rows. -/
def rowsOf (ps : List (F × F)) : List (List F) := ps.map (fun p => [p.1, p.2])

/-- What remains of a table after printing it as an array and reading the text: every number as
shown. -/
def printed (rows : List (List F)) : List (List F) :=
  rows.map (fun r => r.map (Printing.shown rows.flatten))

/-- A table in text form. -/
def tableText (m : ℕ) (rows : List (List F)) : String :=
  String.ofList (numericToString (.d2 m .float rows))

/-- The valid range as it is written. -/
def rangeOf (s : Spectrum F) : DVal F :=
  match s.values with
  | .array dt xs => .str (String.ofList (numericToString (.d1 dt xs)))
  | .scalar _ => .none

/-- The dataset of one part. -/
def outDict (d : RealData F) (suffix : String) : Dataset F :=
  match d with
  | .constant c r t u => [("DataType", .str ("constant" ++ suffix)), ("ValidRange", rangeOf r),
      ("SpectrumType", .str t), ("Unit", .str u), ("Value", .num c)]
  | .interp _ ps r t u => [("DataType", .str ("tabulated" ++ suffix)), ("ValidRange", rangeOf r),
      ("SpectrumType", .str t), ("Unit", .str u), ("Data", .str (tableText 2 (rowsOf ps)))]
  | .model k p r t u => [("DataType", .str ("model " ++ k.className)), ("ValidRange", rangeOf r),
      ("SpectrumType", .str t), ("Unit", .str u),
      ("Yields", match k.output with | some s => .str s | Option.none => .none),
      ("Parameters", .str (String.ofList (numericToString (.d1 .float p))))]
  | .extrap .. => []

/-- The suffix of a part. -/
def sfx (name : String) (isReal : Bool) : String :=
  if name = "nk" then (if isReal then " n" else " k")
  else (if isReal then " eps_r" else " eps_k")

/-- The part has a `dict_repr`: it is not extrapolated, and its range is an array. -/
def Storable (d : RealData F) : Prop :=
  (∃ dt xs, d.range.values = .array dt xs) ∧ ∀ b o s r t u, d ≠ .extrap b o s r t u

omit [PyFloat F] [SciPy F] [NumText F] in
theorem rangeText_ok {s : Spectrum F} {dt : DType} {xs : List F} (h : s.values = .array dt xs) :
    rangeText s = .ok (rangeOf s) := by
  unfold rangeText rangeOf
  rw [h]

omit [NumText F] in
/-- The dataset of a part that can be stored. -/
theorem partToDict_ok {name : String} (hn : name = "nk" ∨ name = "eps") {d : RealData F}
    (hd : Storable d) (b : Bool) :
    partToDict name (some d) b = .ok (outDict d (sfx name b)) := by
  have hs : ∀ t : String, addDtypeSuffix name t b = .ok (t ++ sfx name b) := by
    intro t
    unfold addDtypeSuffix sfx
    rcases hn with rfl | rfl
    · simp
    · simp
  obtain ⟨⟨dt, xs, hr⟩, hne⟩ := hd
  cases d with
  | constant c r t u =>
    have hr' : r.values = .array dt xs := hr
    rw [partToDict, RealData.dictRepr, rangeText_ok hr']
    simp only [bind, Except.bind, RealData.isPlain, if_true, Dataset.getStr, dictGet, hs]
    simp [dictSet, outDict]
  | interp o ps r t u =>
    have hr' : r.values = .array dt xs := hr
    rw [partToDict, RealData.dictRepr, rangeText_ok hr']
    simp only [bind, Except.bind, RealData.isPlain, if_true, Dataset.getStr, dictGet, hs]
    simp [dictSet, outDict, tableText, rowsOf]
  | model k p r t u =>
    have hr' : r.values = .array dt xs := hr
    rw [partToDict, RealData.dictRepr, rangeText_ok hr']
    simp [bind, Except.bind, RealData.isPlain, outDict]
    cases k.output <;> rfl
  | extrap base o s r t u => exact absurd rfl (hne _ _ _ _ _ _)

omit [SciPy F] [NumText F] [Printing F] in
theorem rowsOf_length {ps : List (F × F)} : ∀ r ∈ rowsOf ps, r.length = 2 := by
  intro r hr
  obtain ⟨p, _, rfl⟩ := List.mem_map.1 hr
  rfl

omit [SciPy F] [NumText F] [Printing F] in
theorem rowsOf_flatten (ps : List (F × F)) : (rowsOf ps).flatten.length = 2 * ps.length := by
  induction ps with
  | nil => rfl
  | cons p ps ih =>
    have : rowsOf (p :: ps) = [p.1, p.2] :: rowsOf ps := rfl
    rw [this, List.flatten_cons, List.length_append, ih]
    simp; omega

/-- Reading the table of a dataset. -/
theorem tableText_read [PrintingLaws F] {m : ℕ} {rows : List (List F)} (h0 : 0 < m) (h3 : m ≤ 3)
    (hne : rows ≠ []) (hm : ∀ q ∈ rows, q.length = m) (hsize : rows.flatten.length ≤ 1000) :
    strTableToNumeric (.text (tableText m rows).toList) = .ok (.d2 m .float (printed rows)) := by
  rw [tableText, String.toList_ofList]
  exact C43_round_trip_partial h0 h3 hne hm hsize

theorem tableText_long [PrintingLaws F] {m : ℕ} {rows : List (List F)} (h0 : 0 < m) (h3 : m ≤ 3)
    (hm : ∀ q ∈ rows, q.length = m) (hsize : 1000 < rows.flatten.length) :
    (strTableToNumeric (.text (tableText m rows).toList) : Res (NDArr F)) = .error .value := by
  rw [tableText, String.toList_ofList]
  exact C43_abbreviated h0 h3 hm hsize

/-- The type of the dataset of one part. -/
theorem outDict_type (d : RealData F) (hd : Storable d) (s : String) :
    ∃ t, (outDict d s).getStr "DataType" = .ok t ∧
      ((∃ c r t' u, d = .constant c r t' u ∧ t = "constant" ++ s) ∨
       (∃ o ps r t' u, d = .interp o ps r t' u ∧ t = "tabulated" ++ s) ∨
       (∃ k p r t' u, d = .model k p r t' u ∧ t = "model " ++ k.className)) := by
  cases d with
  | constant c r t u => exact ⟨_, rfl, .inl ⟨_, _, _, _, rfl, rfl⟩⟩
  | interp o ps r t u => exact ⟨_, rfl, .inr (.inl ⟨_, _, _, _, _, rfl, rfl⟩)⟩
  | model k p r t u => exact ⟨_, rfl, .inr (.inr ⟨_, _, _, _, _, rfl, rfl⟩)⟩
  | extrap base o s r t u => exact absurd rfl (hd.2 _ _ _ _ _ _)

theorem tableIf_other {d : Dataset F} {t dtype : String} (h : d.getStr "DataType" = .ok t)
    (hne : t ≠ dtype) : tableIf d dtype = .ok Option.none := by
  rw [tableIf, h]
  simp only [bind, Except.bind, if_neg hne]

theorem className_ne (k : Formula) : ∀ t ∈ tableTypes, "model " ++ k.className ≠ t := by
  cases k <;> decide

/-- The part is a table. -/
def IsTable (d : RealData F) : Prop := ∃ o ps r t u, d = .interp o ps r t u

omit [NumText F] in
theorem tableIf_out {d : RealData F} (hd : Storable d) {s dtype : String}
    (h1 : dtype ∈ ["tabulated n", "tabulated k"])
    (h2 : s ∈ [" n", " k", " eps_r", " eps_k"]) (h : IsTable d → "tabulated" ++ s ≠ dtype)
    [NumText F] : tableIf (outDict d s) dtype = .ok Option.none := by
  obtain ⟨t, ht, hc⟩ := outDict_type d hd s
  refine tableIf_other ht ?_
  rcases hc with ⟨c, r, t', u, rfl, rfl⟩ | ⟨o, ps, r, t', u, rfl, rfl⟩ | ⟨k, p, r, t', u, rfl, rfl⟩
  · revert h1 h2
    simp only [List.mem_cons, List.not_mem_nil, or_false]
    rintro (rfl | rfl) (rfl | rfl | rfl | rfl) <;> decide
  · exact h ⟨_, _, _, _, _, rfl⟩
  · exact className_ne k _ (by
      simp only [List.mem_cons, List.not_mem_nil, or_false] at h1
      rcases h1 with rfl | rfl <;> decide)

theorem tableIf_table (o : ℕ) (ps : List (F × F)) (r : Spectrum F) (t u s : String) :
    tableIf (outDict (.interp o ps r t u) s) ("tabulated" ++ s) =
      (strTableToNumeric (.text (tableText 2 (rowsOf ps)).toList)).map some := by
  have h1 : (outDict (.interp o ps r t u) s).getStr "DataType" = .ok ("tabulated" ++ s) := rfl
  have h2 : dictGet (outDict (.interp o ps r t u) s) "Data" =
    .ok (.str (tableText 2 (rowsOf ps))) := rfl
  rw [tableIf, h1]
  simp only [bind, Except.bind, if_true, h2, DVal.asTable]
  cases strTableToNumeric (F := F) (.text (tableText 2 (rowsOf ps)).toList) <;> rfl

/-- Parts of a permittivity are written one after the other. -/
theorem collapse_eps {r i : RealData F} (hr : Storable r) (hi : Storable i) :
    collapseDatasets (outDict r (sfx "eps" true)) (outDict i (sfx "eps" false)) =
      .ok [outDict r " eps_r", outDict i " eps_k"] := by
  have e1 : sfx "eps" true = " eps_r" := by decide
  have e2 : sfx "eps" false = " eps_k" := by decide
  rw [e1, e2, collapseDatasets, tableIf_out hr (by decide) (by decide) (fun _ => by decide),
    tableIf_out hr (by decide) (by decide) (fun _ => by decide),
    tableIf_out hi (by decide) (by decide) (fun _ => by decide),
    tableIf_out hi (by decide) (by decide) (fun _ => by decide)]
  rfl

theorem sfx_n : sfx "nk" true = " n" := by decide
theorem sfx_k : sfx "nk" false = " k" := by decide

/-- The parts of a refractive index, one of which is not a table. -/
theorem collapse_nk {r i : RealData F} (hr : Storable r) (hi : Storable i)
    (h : ¬ IsTable r ∨ ¬ IsTable i)
    (hrt : ∀ o ps s t u, r = .interp o ps s t u → ∃ a,
      strTableToNumeric (F := F) (.text (tableText 2 (rowsOf ps)).toList) = .ok a)
    (hit : ∀ o ps s t u, i = .interp o ps s t u → ∃ a,
      strTableToNumeric (F := F) (.text (tableText 2 (rowsOf ps)).toList) = .ok a) :
    collapseDatasets (outDict r (sfx "nk" true)) (outDict i (sfx "nk" false)) =
      .ok [outDict r " n", outDict i " k"] := by
  rw [sfx_n, sfx_k, collapseDatasets]
  have g2 : tableIf (outDict r " n") "tabulated k" = .ok Option.none :=
    tableIf_out hr (by decide) (by decide) (fun _ => by decide)
  have g3 : tableIf (outDict i " k") "tabulated n" = .ok Option.none :=
    tableIf_out hi (by decide) (by decide) (fun _ => by decide)
  have g1 : ∃ n, tableIf (outDict r " n") "tabulated n" = .ok n ∧ (¬ IsTable r → n = Option.none) := by
    by_cases ht : IsTable r
    · obtain ⟨o, ps, s, t, u, rfl⟩ := ht
      obtain ⟨a, ha⟩ := hrt _ _ _ _ _ rfl
      refine ⟨some a, ?_, fun hh => absurd ⟨_, _, _, _, _, rfl⟩ hh⟩
      have := tableIf_table o ps s t u " n"
      rw [ha] at this
      exact this
    · exact ⟨_, tableIf_out hr (by decide) (by decide) (fun hh => absurd hh ht), fun _ => rfl⟩
  have g4 : ∃ n, tableIf (outDict i " k") "tabulated k" = .ok n ∧ (¬ IsTable i → n = Option.none) := by
    by_cases ht : IsTable i
    · obtain ⟨o, ps, s, t, u, rfl⟩ := ht
      obtain ⟨a, ha⟩ := hit _ _ _ _ _ rfl
      refine ⟨some a, ?_, fun hh => absurd ⟨_, _, _, _, _, rfl⟩ hh⟩
      have := tableIf_table o ps s t u " k"
      rw [ha] at this
      exact this
    · exact ⟨_, tableIf_out hi (by decide) (by decide) (fun hh => absurd hh ht), fun _ => rfl⟩
  obtain ⟨n, hn, hn'⟩ := g1
  obtain ⟨k, hk, hk'⟩ := g4
  rw [g2, g3, hn, hk]
  simp only [bind, Except.bind]
  rcases h with h | h
  · rw [hn' h]; cases k <;> rfl
  · rw [hk' h]; cases n <;> rfl

/-- The common abscissae of two printed tables agree. -/
def SameAbscissae (n k : List (List F)) : Prop :=
  ((n.map rowX).zip (k.map rowX)).all (fun p => PyFloat.eq p.1 p.2) = true

/-- The column with the extinction coefficient appended. -/
def joined (n k : List (List F)) : List (List F) :=
  List.zipWith (fun r q => r ++ [q.getD 1 (lit 0)]) n k

omit [SciPy F] [NumText F] in
theorem printed_width {m : ℕ} {rows : List (List F)} (h : ∀ r ∈ rows, r.length = m) :
    ∀ r ∈ printed rows, r.length = m := by
  intro r hr
  obtain ⟨q, hq, rfl⟩ := List.mem_map.1 hr
  rw [List.length_map]; exact h q hq

/-- Two tables of the refractive index: one dataset with three columns if the printed abscissae,
the units and the spectrum types agree, two datasets otherwise, and an error if the lengths
differ. -/
theorem collapse_tables [PrintingLaws F] {o o' : ℕ} {ps qs : List (F × F)} {s s' : Spectrum F}
    {t t' u u' : String} (hp : ps ≠ []) (hq : qs ≠ []) (h1 : ps.length ≤ 500)
    (h2 : qs.length ≤ 500) (hlen : ps.length = qs.length) :
    (SameAbscissae (printed (rowsOf ps)) (printed (rowsOf qs)) → t = t' → u = u' →
      collapseDatasets (outDict (.interp o ps s t u) (sfx "nk" true))
        (outDict (.interp o' qs s' t' u') (sfx "nk" false)) =
      .ok [[("Unit", .str u), ("SpectrumType", .str t), ("DataType", .str "tabulated nk"),
        ("Data", .str (tableText 3 (joined (printed (rowsOf ps)) (printed (rowsOf qs)))))]]) ∧
    (¬ (SameAbscissae (printed (rowsOf ps)) (printed (rowsOf qs)) ∧ t = t' ∧ u = u') →
      collapseDatasets (outDict (.interp o ps s t u) (sfx "nk" true))
        (outDict (.interp o' qs s' t' u') (sfx "nk" false)) =
      .ok [outDict (.interp o ps s t u) " n", outDict (.interp o' qs s' t' u') " k"]) := by
  have rd : ∀ ps : List (F × F), ps ≠ [] → ps.length ≤ 500 →
      strTableToNumeric (.text (tableText 2 (rowsOf ps)).toList) =
        .ok (.d2 2 .float (printed (rowsOf ps))) := by
    intro ps hp h
    refine tableText_read (by norm_num) (by norm_num) (by simpa [rowsOf] using hp) rowsOf_length ?_
    rw [rowsOf_flatten]; omega
  have e1 : tableIf (outDict (.interp o ps s t u) " n") "tabulated n" =
      .ok (some (.d2 2 .float (printed (rowsOf ps)))) := by
    have := tableIf_table o ps s t u " n"
    rw [rd ps hp h1] at this
    exact this
  have e2 : tableIf (outDict (.interp o ps s t u) " n") "tabulated k" = .ok Option.none :=
    tableIf_other (t := "tabulated n") rfl (by decide)
  have e3 : tableIf (outDict (.interp o' qs s' t' u') " k") "tabulated n" = .ok Option.none :=
    tableIf_other (t := "tabulated k") rfl (by decide)
  have e4 : tableIf (outDict (.interp o' qs s' t' u') " k") "tabulated k" =
      .ok (some (.d2 2 .float (printed (rowsOf qs)))) := by
    have := tableIf_table o' qs s' t' u' " k"
    rw [rd qs hq h2] at this
    exact this
  have w1 := printed_width (rowsOf_length (ps := ps))
  have w2 := printed_width (rowsOf_length (ps := qs))
  have l1 : (printed (rowsOf ps)).length = ps.length := by simp [printed, rowsOf]
  have l2 : (printed (rowsOf qs)).length = qs.length := by simp [printed, rowsOf]
  generalize hP : printed (rowsOf ps) = P at e1 w1 l1
  generalize hQ : printed (rowsOf qs) = Q at e4 w2 l2
  have c1 : NDArr.col (.d2 2 .float P) 0 = .ok (P.map rowX) := col_eq w1 (by norm_num)
  have c2 : NDArr.col (.d2 2 .float Q) 0 = .ok (Q.map rowX) := col_eq w2 (by norm_num)
  have c3 : NDArr.col (.d2 2 .float Q) 1 = .ok (Q.map (fun r => r.getD 1 (lit 0))) :=
    col_eq w2 (by norm_num)
  have ha : allEqual (P.map rowX) (Q.map rowX) =
      .ok (((P.map rowX).zip (Q.map rowX)).all (fun p => PyFloat.eq p.1 p.2)) := by
    unfold allEqual
    exact if_pos (by simp [l1, l2, hlen])
  have hj : joinColumns (.d2 2 .float P) (.d2 2 .float Q) = .ok (.d2 3 .float (joined P Q)) := by
    rw [joinColumns, c3]
    simp only [bind, Except.bind]
    rw [if_pos (by simp [l1, l2, hlen]), joined, List.zipWith_map_right]
  have hu1 : dictGet (outDict (.interp o ps s t u) " n") "Unit" = .ok (.str u) := rfl
  have hu2 : dictGet (outDict (.interp o' qs s' t' u') " k") "Unit" = .ok (.str u') := rfl
  have ht1 : dictGet (outDict (.interp o ps s t u) " n") "SpectrumType" = .ok (.str t) := rfl
  have ht2 : dictGet (outDict (.interp o' qs s' t' u') " k") "SpectrumType" = .ok (.str t') := rfl
  have key : collapseDatasets (outDict (.interp o ps s t u) (sfx "nk" true))
      (outDict (.interp o' qs s' t' u') (sfx "nk" false)) =
      if (((P.map rowX).zip (Q.map rowX)).all (fun p => PyFloat.eq p.1 p.2)
          && decide (u = u') && decide (t = t')) = true then
        .ok [[("Unit", .str u), ("SpectrumType", .str t), ("DataType", .str "tabulated nk"),
          ("Data", .str (tableText 3 (joined P Q)))]]
      else .ok [outDict (.interp o ps s t u) " n", outDict (.interp o' qs s' t' u') " k"] := by
    rw [sfx_n, sfx_k, collapseDatasets, e1, e2, e3, e4]
    simp only [bind, Except.bind, Option.none_or, Option.or_none, c1, c2, ha, hu1, hu2, ht1, ht2, hj,
      DVal.strEq]
    rfl
  constructor
  · intro hs ht hu
    rw [key, if_pos]
    have hs' : ((P.map rowX).zip (Q.map rowX)).all (fun p => PyFloat.eq p.1 p.2) = true := hs
    simp [hs', ht, hu]
  · intro hn
    rw [key, if_neg]
    intro hc
    simp only [Bool.and_eq_true, decide_eq_true_eq] at hc
    exact hn ⟨hc.1.1, hc.2, hc.1.2⟩

/-- The metadata that are handed to a `Writer`. -/
def handed (md : List (String × MetaVal)) : List (String × MetaVal) :=
  md.filter (fun p => p.1 ≠ "Alias")

/-- A `Writer` for a material whose datasets are known. -/
theorem writer_ok (ext : String) {m : Material F} {md : List (String × MetaVal)}
    (hmd : m.metaData = some md) (hc : m.cplx = Option.none)
    (hn : m.name = "nk" ∨ m.name = "eps") {r i : RealData F} (hr : m.real = some r)
    (hi : m.imag = some i) (sr : Storable r) (si : Storable i) {ds : List (Dataset F)}
    (h : collapseDatasets (outDict r (sfx m.name true)) (outDict i (sfx m.name false)) = .ok ds) :
    Writer.new ext m = .ok { ext := ext, metaData := handed md, datasets := ds } := by
  have hd : m.datasetToDict = .ok ds := by
    rw [Material.datasetToDict, hc]
    simp only
    rw [hr, hi, partToDict_ok hn sr, partToDict_ok hn si]
    exact h
  rw [Writer.new, hmd]
  simp only
  rw [hd]
  rfl

/-- The failure to build the datasets is the failure to build a `Writer`. -/
theorem writer_error (ext : String) {m : Material F} {md : List (String × MetaVal)}
    (hmd : m.metaData = some md) (hc : m.cplx = Option.none)
    (hn : m.name = "nk" ∨ m.name = "eps") {r i : RealData F} (hr : m.real = some r)
    (hi : m.imag = some i) (sr : Storable r) (si : Storable i) {e : PyErr}
    (h : collapseDatasets (outDict r (sfx m.name true)) (outDict i (sfx m.name false)) = .error e) :
    Writer.new ext m = .error e := by
  have hd : m.datasetToDict = .error e := by
    rw [Material.datasetToDict, hc]
    simp only
    rw [hr, hi, partToDict_ok hn sr, partToDict_ok hn si]
    exact h
  rw [Writer.new, hmd]
  simp only
  rw [hd]
  rfl

/-- A table of the refractive index with more than 500 rows cannot be handed to a `Writer`. -/
theorem collapse_long [PrintingLaws F] {o : ℕ} {ps : List (F × F)} {s : Spectrum F} {t u : String}
    (h : 500 < ps.length) (d1 : Dataset F) :
    collapseDatasets (outDict (.interp o ps s t u) (sfx "nk" true)) d1 = .error .value := by
  have e1 : tableIf (outDict (.interp o ps s t u) " n") "tabulated n" = .error .value := by
    have := tableIf_table o ps s t u " n"
    rw [tableText_long (by norm_num) (by norm_num) rowsOf_length
      (by rw [rowsOf_flatten]; omega)] at this
    exact this
  rw [sfx_n, collapseDatasets, e1]
  rfl

end Disp

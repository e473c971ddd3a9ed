import Verif.Props.YamlReload
/-!
# C92: materials that are saved to text files and loaded again
-/

namespace Disp

open Spec

variable {F : Type} [PyFloat F] [SciPy F] [NumText F] [Printing F] [YamlIO F]

/-- The metadata after a text file: the five texts are the same, the comment consists of its kept
lines and one blank line, and the specification is empty. -/
structure Spec.TextMeta (md md' : List (String × MetaVal)) : Prop where
  text : ∀ k ∈ ["Reference", "Author", "FullName", "Name", "Comment"], dictGet md' k = dictGet md k
  comment : ∀ c, dictGet md "MetaComment" = .ok (.str c) → dictGet md' "MetaComment" =
    .ok (.str (String.ofList (closeLines (keptLines c.toList ++ [[' ']]))))
  spec : dictGet md' "Specification" = .ok (.dict [])

/-- What a text file does to the metadata. -/
theorem text_meta [PrintingLaws F] {o : KeyOrder} (ho : o.Valid) {ext : String} (he : IsText ext)
    {ic rii : Bool} {m m' : Material F} (hx : CleanTexts m)
    (h : SavedAndLoaded o ext ic rii m m') :
    ∃ md md', m.metaData = some md ∧ m'.metaData = some md' ∧ md'.map Prod.fst = fileKeys ∧
      TextMeta md md' := by
  obtain ⟨md, rd, hmd, hrd, gm, cm, pc, c1, c2⟩ := hx.ex
  obtain ⟨c, hcc⟩ := gm.comment
  obtain ⟨w, w', text, fd, r', h1, h2, h3, h4⟩ := h
  obtain ⟨delim, rsep, hes⟩ := ext_sep he
  obtain ⟨d0, ds0, t, s, n, rows, a, fd', d, r2, p1, p2, p3, p4, p5, p6, p7, p8, p9, p10, p11, p12,
    p13, p14, p15, p16⟩ := text_cycle hes h1 hmd hrd hcc (pc _ hcc) cm c1 c2 h2 ho
  have e : fd' = fd := by rw [p9] at h3; cases h3; rfl
  subst e
  rw [← keptLines_eq ho] at p16
  have e16 : closeLines (keptLines c.toList) ++ [' ', '\n'] =
      closeLines (keptLines c.toList ++ [[' ']]) := by
    rw [closeLines_append]; rfl
  rw [show (keptLines c.toList).flatMap (fun l => l ++ ['\n']) = closeLines (keptLines c.toList)
    from rfl, e16] at p16
  obtain ⟨md', q1, q2, q3⟩ := file_meta h4
  have hspec : dictGet fd'.metaData "Specification" = .ok (.dict []) := by
    have hov := C54_text_partial (F := F) ho [] (hes.format) text
    have hf : (Reader.after o [] : Reader F) = Reader.fresh o := rfl
    rw [hf, p9] at hov
    have := hov.2.2 "Specification" (by
      rintro (⟨_, _, _, h, _⟩ | ⟨h, _⟩)
      · exact absurd h (by decide)
      · exact absurd h (by decide))
    rw [this]
    show dictGet (defaultMeta o) "Specification" = _
    rw [defaultMeta, dictGet_const, if_neg (by rw [ho.1.mem_iff]; decide)]
    rfl
  have hw : ∀ k ∈ writtenKeys, k ∈ fileKeys := by decide
  refine ⟨md, md', hmd, q1, q2, ⟨?_, ?_, ?_⟩⟩
  · intro k hk
    obtain ⟨y, hy⟩ := gm.text k hk
    rw [q3 k (hw k hk), hy]; exact p15 k hk y hy
  · intro c' hc'
    have : c' = c := by rw [hcc] at hc'; cases hc'; rfl
    subst this
    rw [q3 _ (by decide)]; exact p16
  · rw [q3 _ (by decide)]; exact hspec

/-- C92 for a material with a table of the refractive index of at most 500 rows and an extinction
coefficient that is not a table. -/
theorem C92_index [LawfulCmp F] [PrintingLaws F] {m : Material F} (hx : CleanTexts m)
    (hc : m.cplx = Option.none) (hn : m.name = "nk") {o' : ℕ} {ps : List (F × F)} {s : Spectrum F}
    {t u cl : String} {i : RealData F} (hr : m.real = some (.interp o' ps s t u))
    (hi : m.imag = some i) (sr : Storable (.interp o' ps s t u)) (si : Storable i)
    (hni : ¬ IsTable i) (hnm : (lower t, lower u, cl) ∈ names) (h2 : 2 ≤ ps.length)
    (h500 : ps.length ≤ 500)
    (hg : GoodTable 2 ((printed (rowsOf ps)).map (fun r => r.map Printing.shown8)))
    {o : KeyOrder} (ho : o.Valid) {ext : String} (he : IsText ext) (ic rii : Bool) :
    ∃ m' r md md', SavedAndLoaded o ext ic rii m m' ∧
      tableData .float (pairsOf ((printed (rowsOf ps)).map (fun r => r.map Printing.shown8)) 1) t u =
        .ok r ∧
      m'.name = "nk" ∧ m'.real = some r ∧ m'.imag = some (cdata (lit 0)) ∧ m'.cplx = Option.none ∧
      m'.defType = t ∧ m'.defUnit = u ∧
      m.metaData = some md ∧ m'.metaData = some md' ∧ TextMeta md md' := by
  obtain ⟨w, w', text, fd, d, r', g1, g2, g3, g4, g5, g6, g7⟩ :=
    C46_index_partial hx hc hn hr hi sr si hni h2 h500 ext he ic rii o ho
  obtain ⟨g8, g9⟩ := g7 _ hr
  replace g8 : dictGet d "SpectrumType" = .ok (.str t) := g8
  replace g9 : dictGet d "Unit" = .ok (.str u) := g9
  obtain ⟨r, hr⟩ := tableData_ok hg 1 hnm
  obtain ⟨n1, n2⟩ := nonEmpty_of_name hnm
  obtain ⟨delim, rsep, hes⟩ := ext_sep he
  obtain ⟨mdx, hnew⟩ := new_file_ok (F := F) (p := "") (text_hasMeta ho hes.format g3)
    (m1 := { fileBlank F "" [] with
      defType := t, defUnit := u, name := "nk", real := some r }) (by
    intro md
    rw [g4, List.foldlM_cons, load_n _ g5 g6 (validate_ok (by norm_num) hg.width) hg.width g8 g9
      n1 n2, hr]
    rfl)
  have hs : SavedAndLoaded o ext ic rii m _ := ⟨w, w', text, fd, r', g1, g2, g3, hnew⟩
  obtain ⟨md, md', e1, e2, -, e3⟩ := text_meta ho he hx hs
  exact ⟨_, r, md, md', hs, hr, rfl, rfl, rfl, rfl, rfl, rfl, e1, e2, e3⟩

/-- C92 for a material with tables of the refractive index and of the extinction coefficient, of
at most 333 rows, whose abscissae are printed alike. -/
theorem C92_index_extinction [LawfulCmp F] [PrintingLaws F] {m : Material F} (hx : CleanTexts m)
    (hc : m.cplx = Option.none) (hn : m.name = "nk") {o1 o2 : ℕ} {ps qs : List (F × F)}
    {s s' : Spectrum F} {t u cl : String} (hr : m.real = some (.interp o1 ps s t u))
    (hi : m.imag = some (.interp o2 qs s' t u)) (sr : Storable (.interp o1 ps s t u))
    (si : Storable (.interp o2 qs s' t u)) (hnm : (lower t, lower u, cl) ∈ names)
    (hsame : SameAbscissae (printed (rowsOf ps)) (printed (rowsOf qs)))
    (hlen : ps.length = qs.length) (h2 : 2 ≤ ps.length) (h333 : ps.length ≤ 333)
    (hg : GoodTable 3 ((printed (joined (printed (rowsOf ps)) (printed (rowsOf qs)))).map
      (fun r => r.map Printing.shown8)))
    {o : KeyOrder} (ho : o.Valid) {ext : String} (he : IsText ext) (ic rii : Bool) :
    ∃ m' r i md md', SavedAndLoaded o ext ic rii m m' ∧
      tableData .float (pairsOf ((printed (joined (printed (rowsOf ps)) (printed (rowsOf qs)))).map
        (fun r => r.map Printing.shown8)) 1) t u = .ok r ∧
      tableData .float (pairsOf ((printed (joined (printed (rowsOf ps)) (printed (rowsOf qs)))).map
        (fun r => r.map Printing.shown8)) 2) t u = .ok i ∧
      m'.name = "nk" ∧ m'.real = some r ∧ m'.imag = some i ∧ m'.cplx = Option.none ∧
      m'.defType = t ∧ m'.defUnit = u ∧
      m.metaData = some md ∧ m'.metaData = some md' ∧ TextMeta md md' := by
  obtain ⟨w, w', text, fd, d, r', g1, g2, g3, g4, g5, g6, g7⟩ :=
    C46_index_extinction_partial hx hc hn hr hi sr si hsame hlen h2 h333 ext he ic rii o ho
  obtain ⟨g8, g9⟩ := g7 _ hr
  replace g8 : dictGet d "SpectrumType" = .ok (.str t) := g8
  replace g9 : dictGet d "Unit" = .ok (.str u) := g9
  obtain ⟨r, hr⟩ := tableData_ok hg 1 hnm
  obtain ⟨i, hi⟩ := tableData_ok hg 2 hnm
  obtain ⟨n1, n2⟩ := nonEmpty_of_name hnm
  obtain ⟨delim, rsep, hes⟩ := ext_sep he
  obtain ⟨mdx, hnew⟩ := new_file_ok (F := F) (p := "") (text_hasMeta ho hes.format g3)
    (m1 := { fileBlank F "" [] with
      defType := t, defUnit := u, name := "nk", real := some r, imag := some i }) (by
    intro md
    rw [g4, List.foldlM_cons, load_nk _ g5 g6 (validate_ok (by norm_num) hg.width) hg.width g8 g9
      n1 n2 hr hi]
    rfl)
  have hs : SavedAndLoaded o ext ic rii m _ := ⟨w, w', text, fd, r', g1, g2, g3, hnew⟩
  obtain ⟨md, md', e1, e2, -, e3⟩ := text_meta ho he hx hs
  exact ⟨_, r, i, md, md', hs, hr, hi, rfl, rfl, rfl, rfl, rfl, rfl, e1, e2, e3⟩

/-! ## Tables that are printed exactly -/

/-- The numbers are shown exactly in an array of some of them, and with eight decimals. -/
structure Spec.ShownExactly (xs : List F) : Prop where
  array : ∀ ys : List F, (∀ y ∈ ys, y ∈ xs) → ∀ y ∈ ys, Printing.shown ys y = y
  decimals : ∀ x ∈ xs, Printing.shown8 x = x

theorem Spec.ShownExactly.table {rows : List (List F)} {xs : List F} (h : ShownExactly xs)
    (hs : ∀ x ∈ rows.flatten, x ∈ xs) :
    printed rows = rows ∧ rows.map (fun r => r.map Printing.shown8) = rows := by
  refine ⟨?_, ?_⟩
  · conv_rhs => rw [← List.map_id rows]
    refine List.map_congr_left (fun r hr => ?_)
    show r.map _ = r
    conv_rhs => rw [← List.map_id r]
    exact List.map_congr_left (fun x hx => h.array _ hs x (List.mem_flatten.2 ⟨r, hr, hx⟩))
  · conv_rhs => rw [← List.map_id rows]
    refine List.map_congr_left (fun r hr => ?_)
    show r.map _ = r
    conv_rhs => rw [← List.map_id r]
    exact List.map_congr_left (fun x hx => h.decimals x (hs x (List.mem_flatten.2 ⟨r, hr, hx⟩)))

theorem rowsOf_pairs {n : ℕ} {rows : List (List F)} (hw : ∀ r ∈ rows, r.length = n) {j : ℕ}
    (hn : 0 < n) (hj : j < n) : ∀ x ∈ (rowsOf (pairsOf rows j)).flatten, x ∈ rows.flatten := by
  intro x hx
  obtain ⟨q, hq, hx⟩ := List.mem_flatten.1 hx
  obtain ⟨p, hp, rfl⟩ := List.mem_map.1 hq
  obtain ⟨r, hr, rfl⟩ := List.mem_map.1 hp
  refine List.mem_flatten.2 ⟨r, hr, ?_⟩
  have h := hw r hr
  simp only [List.mem_cons, List.not_mem_nil, or_false] at hx
  have hget : ∀ i, i < n → r.getD i (lit 0) ∈ r := by
    intro i hi
    rw [← h] at hi
    simp [List.getD, List.getElem?_eq_getElem hi]
  rcases hx with rfl | rfl
  · exact hget 0 hn
  · exact hget j hj

theorem joined_pairs {rows : List (List F)} (hw : ∀ r ∈ rows, r.length = 3) :
    joined (rowsOf (pairsOf rows 1)) (rowsOf (pairsOf rows 2)) = rows := by
  induction rows with
  | nil => rfl
  | cons r rows ih =>
    have := ih (fun r hr => hw r (List.mem_cons_of_mem _ hr))
    have h3 := hw r (List.mem_cons_self ..)
    match r, h3 with
    | [a, b, c], _ =>
      show [a, b, c] :: joined (rowsOf (pairsOf rows 1)) (rowsOf (pairsOf rows 2)) = _
      rw [this]

theorem rowsOf_pairs_two {rows : List (List F)} (hw : ∀ r ∈ rows, r.length = 2) :
    rowsOf (pairsOf rows 1) = rows := by
  induction rows with
  | nil => rfl
  | cons r rows ih =>
    have := ih (fun r hr => hw r (List.mem_cons_of_mem _ hr))
    have h2 := hw r (List.mem_cons_self ..)
    match r, h2 with
    | [a, b], _ =>
      show [a, b] :: rowsOf (pairsOf rows 1) = _
      rw [this]

/-- Metadata whose texts can stand in the header of a text file. -/
structure Spec.HeaderMeta (md : List (String × MetaVal)) : Prop where
  good : GoodMeta md
  clean : CleanMeta md
  plain : ∀ c, dictGet md "MetaComment" = .ok (.str c) → PlainComment c.toList

theorem cleanTexts_of {m : Material F} {md : List (String × MetaVal)} (h : HeaderMeta md)
    (hm : m.metaData = some md) {r : RealData F} (hr : m.real = some r) {c : String}
    (hc : (lower r.stype, lower r.unit, c) ∈ names) : CleanTexts m :=
  ⟨⟨md, r, hm, hr, h.good, h.clean, h.plain, (clean_names hc).1, (clean_names hc).2⟩⟩

/-- C92 for the material of a table of the refractive index with 2 to 500 rows whose numbers are
shown exactly, after its metadata were edited: saved to a text file with any settings and loaded,
it has the same data, spectrum type and unit, and the same texts. -/
theorem C92_built_index [LawfulCmp F] [PrintingLaws F] (rd : String → Res (FileDict F))
    (kw : Kwargs F) (hnd : (kw.map Prod.fst).Nodup) (hp : PlainOptions kw) {c : String}
    (hc : (lower (defaultsOf kw).1, lower (defaultsOf kw).2, c) ∈ names)
    (rows : List (List F)) (hk : Only kw "tabulated_n" (.table 2) (.arr (.d2 2 .float rows)))
    (hg : GoodTable 2 rows) (h2 : 2 ≤ rows.length) (h500 : rows.length ≤ 500)
    (hs : ShownExactly rows.flatten) {md : List (String × MetaVal)} (hm : HeaderMeta md) :
    ∃ m, Material.new rd kw = .ok m ∧ ∀ o : KeyOrder, o.Valid → ∀ ext, IsText ext →
      ∀ ic rii, ∃ m' md', SavedAndLoaded o ext ic rii { m with metaData := some md } m' ∧
        m'.name = m.name ∧ m'.real = m.real ∧ m'.imag = m.imag ∧ m'.cplx = m.cplx ∧
        m'.defType = m.defType ∧ m'.defUnit = m.defUnit ∧
        m'.metaData = some md' ∧ TextMeta md md' := by
  obtain ⟨r, hr, hm0⟩ := (C24_table_partial rd kw hnd hp hc rows).1 hk hg
  refine ⟨_, hm0, fun o ho ext he ic rii => ?_⟩
  have hl : (pairsOf rows 1).length = rows.length := by simp [pairsOf]
  obtain ⟨s, rfl, hst⟩ := tableData_interp (by rw [hl]; exact h2) hr
  have hrows := rowsOf_pairs_two hg.width
  have hpr : (printed (rowsOf (pairsOf rows 1))).map (fun r => r.map Printing.shown8) = rows := by
    rw [hrows, (hs.table (fun x hx => hx)).1, (hs.table (fun x hx => hx)).2]
  obtain ⟨m', r', md0, md', e1, e2, e3, e4, e5, e6, e7, e8, e9, e10, e11⟩ :=
    C92_index (m := { blankMaterial (parsedOf kw) with
      name := "nk", real := some (.interp 1 (pairsOf rows 1) s (defaultsOf kw).1 (defaultsOf kw).2),
      imag := some (cdata (lit 0)), metaData := some md })
    (cleanTexts_of hm rfl rfl hc) rfl rfl rfl rfl hst (cdata_storable _) (cdata_not_table _) hc
    (by rw [hl]; exact h2) (by rw [hl]; exact h500) (by rw [hpr]; exact hg) ho he ic rii
  have em : md0 = md := by cases e9; rfl
  subst em
  rw [hpr, hr] at e2
  have er : r' = .interp 1 (pairsOf rows 1) s (defaultsOf kw).1 (defaultsOf kw).2 := by
    cases e2; rfl
  exact ⟨m', md', e1, e3, by rw [e4, er], e5, e6, e7, e8, e10, e11⟩

/-- C92 for the material of a table of both parts with 2 to 333 rows whose numbers are shown
exactly. -/
theorem C92_built_index_extinction [LawfulCmp F] [PrintingLaws F] (rd : String → Res (FileDict F))
    (kw : Kwargs F) (hnd : (kw.map Prod.fst).Nodup) (hp : PlainOptions kw) {c : String}
    (hc : (lower (defaultsOf kw).1, lower (defaultsOf kw).2, c) ∈ names)
    (rows : List (List F)) (hk : Only kw "tabulated_nk" (.table 3) (.arr (.d2 3 .float rows)))
    (hg : GoodTable 3 rows) (h2 : 2 ≤ rows.length) (h333 : rows.length ≤ 333)
    (hs : ShownExactly rows.flatten) {md : List (String × MetaVal)} (hm : HeaderMeta md) :
    ∃ m, Material.new rd kw = .ok m ∧ ∀ o : KeyOrder, o.Valid → ∀ ext, IsText ext →
      ∀ ic rii, ∃ m' md', SavedAndLoaded o ext ic rii { m with metaData := some md } m' ∧
        m'.name = m.name ∧ m'.real = m.real ∧ m'.imag = m.imag ∧ m'.cplx = m.cplx ∧
        m'.defType = m.defType ∧ m'.defUnit = m.defUnit ∧
        m'.metaData = some md' ∧ TextMeta md md' := by
  obtain ⟨r, i, hr, hi, hm0⟩ := (C24_table_partial rd kw hnd hp hc rows).2.1 hk hg
  refine ⟨_, hm0, fun o ho ext he ic rii => ?_⟩
  have hl : ∀ j, (pairsOf rows j).length = rows.length := by simp [pairsOf]
  obtain ⟨s, rfl, hst⟩ := tableData_interp (by rw [hl]; exact h2) hr
  obtain ⟨s', rfl, hst'⟩ := tableData_interp (by rw [hl]; exact h2) hi
  have p1 := (hs.table (rowsOf_pairs hg.width (j := 1) (by omega) (by omega))).1
  have p2 := (hs.table (rowsOf_pairs hg.width (j := 2) (by omega) (by omega))).1
  have hpr : (printed (joined (printed (rowsOf (pairsOf rows 1))) (printed (rowsOf (pairsOf rows 2))))).map
      (fun r => r.map Printing.shown8) = rows := by
    rw [p1, p2, joined_pairs hg.width, (hs.table (fun x hx => hx)).1, (hs.table (fun x hx => hx)).2]
  have hsame : SameAbscissae (printed (rowsOf (pairsOf rows 1))) (printed (rowsOf (pairsOf rows 2))) := by
    rw [p1, p2]
    have : ∀ j, (rowsOf (pairsOf rows j)).map rowX = rows.map rowX := by
      intro j; simp [rowsOf, pairsOf, rowX]
    rw [SameAbscissae, this, this, List.all_eq_true]
    intro p hp
    have hz : ∀ (l : List F) (p : F × F), p ∈ l.zip l → p.1 = p.2 ∧ p.1 ∈ l := by
      intro l
      induction l with
      | nil => simp
      | cons x l ih =>
        intro p hp
        rw [List.zip_cons_cons] at hp
        rcases List.mem_cons.1 hp with rfl | hp
        · exact ⟨rfl, List.mem_cons_self ..⟩
        · exact ⟨(ih p hp).1, List.mem_cons_of_mem _ (ih p hp).2⟩
    obtain ⟨z1, z2⟩ := hz _ p hp
    obtain ⟨q, hq, hqx⟩ := List.mem_map.1 z2
    rw [← z1, ← hqx]
    have hq' := hg.noNaN q hq
    rw [LawfulCmp.eq_iff, LawfulCmp.le_eq_not_lt _ _ hq' hq', LawfulCmp.lt_irrefl]; rfl
  obtain ⟨m', r', i', md0, md', e1, e2, e2', e3, e4, e5, e6, e7, e8, e9, e10, e11⟩ :=
    C92_index_extinction (m := { blankMaterial (parsedOf kw) with
      name := "nk", real := some (.interp 1 (pairsOf rows 1) s (defaultsOf kw).1 (defaultsOf kw).2),
      imag := some (.interp 1 (pairsOf rows 2) s' (defaultsOf kw).1 (defaultsOf kw).2),
      metaData := some md })
    (cleanTexts_of hm rfl rfl hc) rfl rfl rfl rfl hst hst' hc hsame (by rw [hl, hl])
    (by rw [hl]; exact h2) (by rw [hl]; exact h333) (by rw [hpr]; exact hg) ho he ic rii
  have em : md0 = md := by cases e9; rfl
  subst em
  rw [hpr, hr] at e2
  rw [hpr, hi] at e2'
  have er : r' = .interp 1 (pairsOf rows 1) s (defaultsOf kw).1 (defaultsOf kw).2 := by
    cases e2; rfl
  have ei : i' = .interp 1 (pairsOf rows 2) s' (defaultsOf kw).1 (defaultsOf kw).2 := by
    cases e2'; rfl
  exact ⟨m', md', e1, e3, by rw [e4, er], by rw [e5, ei], e6, e7, e8, e10, e11⟩

end Disp

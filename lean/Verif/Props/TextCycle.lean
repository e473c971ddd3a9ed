import Verif.Props.TextFiles
import Verif.Lemmas.Spectrum
/-!
# Writing and reading a text file
-/

namespace Disp

variable {F : Type}

/-! ## The loop over the header lines -/

theorem fold_meta_keep {o : KeyOrder} {key : String} (ls : List (List Char)) :
    ∀ s : TextState F, (∀ l ∈ ls, ∀ arg, lineRole o l ≠ .file key arg) →
      dictGet (ls.foldl (textStep o) s).metaData key = dictGet s.metaData key := by
  induction ls with
  | nil => intro s _; rfl
  | cons l ls ih =>
    intro s h
    rw [List.foldl_cons, ih _ (fun m hm => h m (List.mem_cons_of_mem _ hm))]
    have hl := h l (List.mem_cons_self ..)
    unfold textStep
    cases hr : lineRole o l with
    | comment => rfl
    | dataset k a => rfl
    | file k a =>
      have : k ≠ key := by rintro rfl; exact hl a hr
      show dictGet (dictSet s.metaData k _) key = _
      rw [dictGet_set, if_neg this]

theorem fold_meta_set {o : KeyOrder} {key : String} {arg : List Char} (as : List (List Char))
    {l : List Char} (bs : List (List Char)) (s : TextState F) (hl : lineRole o l = .file key arg)
    (h : ∀ m ∈ bs, ∀ arg, lineRole o m ≠ .file key arg) :
    dictGet ((as ++ l :: bs).foldl (textStep o) s).metaData key =
      .ok (.str (String.ofList arg)) := by
  rw [List.foldl_append, List.foldl_cons, fold_meta_keep bs _ h]
  unfold textStep
  rw [hl]
  show dictGet (dictSet _ key _) key = _
  rw [dictGet_set, if_pos rfl]

theorem fold_data_keep {o : KeyOrder} {key : String} (ls : List (List Char)) :
    ∀ s : TextState F, (∀ l ∈ ls, ∀ arg, lineRole o l ≠ .dataset key arg) →
      dictGet (ls.foldl (textStep o) s).dataset key = dictGet s.dataset key := by
  induction ls with
  | nil => intro s _; rfl
  | cons l ls ih =>
    intro s h
    rw [List.foldl_cons, ih _ (fun m hm => h m (List.mem_cons_of_mem _ hm))]
    have hl := h l (List.mem_cons_self ..)
    unfold textStep
    cases hr : lineRole o l with
    | comment => rfl
    | file k a => rfl
    | dataset k a =>
      have : k ≠ key := by rintro rfl; exact hl a hr
      show dictGet (dictSet s.dataset k _) key = _
      rw [dictGet_set, if_neg this]

theorem fold_data_set {o : KeyOrder} {key : String} {arg : List Char} (as : List (List Char))
    {l : List Char} (bs : List (List Char)) (s : TextState F) (hl : lineRole o l = .dataset key arg)
    (h : ∀ m ∈ bs, ∀ arg, lineRole o m ≠ .dataset key arg) :
    dictGet ((as ++ l :: bs).foldl (textStep o) s).dataset key =
      .ok (.str (String.ofList arg)) := by
  rw [List.foldl_append, List.foldl_cons, fold_data_keep bs _ h]
  unfold textStep
  rw [hl]
  show dictGet (dictSet _ key _) key = _
  rw [dictGet_set, if_pos rfl]

/-- The comment is made of the lines that fill no field. -/
theorem fold_multi {o : KeyOrder} (ls : List (List Char)) : ∀ s : TextState F,
    (ls.foldl (textStep o) s).multi =
      s.multi ++ (ls.filter (fun l => lineRole o l = .comment)).flatMap (fun l => l ++ ['\n']) := by
  induction ls with
  | nil => intro s; simp
  | cons l ls ih =>
    intro s
    rw [List.foldl_cons, ih]
    unfold textStep
    cases hr : lineRole o l with
    | comment =>
      rw [List.filter_cons_of_pos (by simp [hr])]
      simp
    | file k a => rw [List.filter_cons_of_neg (by simp [hr])]
    | dataset k a => rw [List.filter_cons_of_neg (by simp [hr])]

/-! ## The roles of the written lines -/

theorem pair_fills {key al : String}
    (h1 : (al.toList.take key.toList.length).map Char.toUpper = key.toList.map Char.toUpper)
    (h2 : ':' ∉ al.toList) {v : List Char} (hv : Clean v) :
    Spec.Fills key.toList (' ' :: pairLine (al, v)) v := by
  refine ⟨[' '], al.toList.take key.toList.length, al.toList.drop key.toList.length, ' ' :: v, [],
    [' '], ?_, by decide, ?_, h1, by simp, by decide, by simp, hv.2, ?_⟩
  · simp [pairLine]
  · rw [List.append_assoc, List.take_append_drop]
    intro hm
    rcases List.mem_append.1 hm with hm | hm
    · exact absurd hm (by decide)
    · exact h2 hm
  · intro c hc
    have hm := List.mem_of_getLast? hc
    rcases List.mem_append.1 hm with hm | hm
    · have : c = ' ' := by simpa using hm
      subst this; exact ⟨by decide, by decide⟩
    · exact ⟨by rintro rfl; exact hv.1.nl hm, by rintro rfl; exact hv.1.cr hm⟩

theorem written_aliases : ∀ k ∈ writtenKeys, k ∈ fileMetaKeys ∧ ∃ al, dictGet keyAliases k = .ok al ∧
    (al.toList.take k.toList.length).map Char.toUpper = k.toList.map Char.toUpper ∧
    ':' ∉ al.toList ∧ ∀ c ∈ al.toList, isLineEnd c = false := by
  intro k hk
  simp only [writtenKeys, List.mem_cons, List.not_mem_nil, or_false] at hk
  rcases hk with rfl | rfl | rfl | rfl | rfl
  · exact ⟨by decide, "REFERENCES", rfl, by decide, by decide, by decide⟩
  · exact ⟨by decide, "AUTHOR", rfl, by decide, by decide, by decide⟩
  · exact ⟨by decide, "FULLNAME", rfl, by decide, by decide, by decide⟩
  · exact ⟨by decide, "NAME", rfl, by decide, by decide, by decide⟩
  · exact ⟨by decide, "COMMENTS", rfl, by decide, by decide, by decide⟩

theorem metaPairs_mem {md : List (String × MetaVal)} {keys : List String} {p : String × List Char}
    (h : p ∈ metaPairs md keys) : ∃ k ∈ keys, ∃ s, dictGet md k = .ok (.str s) ∧
      dictGet keyAliases k = .ok p.1 ∧ p.2 = s.toList := by
  obtain ⟨k, hk, he⟩ := List.mem_filterMap.1 h
  cases hd : dictGet md k with
  | error e => rw [hd] at he; cases he
  | ok v =>
    rw [hd] at he
    cases v with
    | dict d => cases he
    | str s =>
      simp only at he
      cases ha : dictGet keyAliases k with
      | error e => rw [ha] at he; cases he
      | ok al =>
        rw [ha] at he
        cases he
        exact ⟨k, hk, s, hd, ha, rfl⟩

theorem pair_role {o : KeyOrder} (ho : o.Valid) {k al : String} (hk : k ∈ writtenKeys)
    (ha : dictGet keyAliases k = .ok al) {v : List Char} (hv : Clean v) :
    lineRole o (' ' :: pairLine (al, v)) = .file k v := by
  obtain ⟨h1, al', h2, h3, h4, _⟩ := written_aliases k hk
  have : al' = al := by rw [ha] at h2; cases h2; rfl
  subst this
  exact (C44_file_field ho _ _ _).2 ⟨h1, pair_fills h3 h4 hv⟩

theorem type_role {o : KeyOrder} (ho : o.Valid) {v : List Char} (hv : Clean v) :
    lineRole o (' ' :: pairLine ("SPECTRUMTYPE", v)) = .dataset "SpectrumType" v ∧
    lineRole o (' ' :: pairLine ("UNIT", v)) = .dataset "Unit" v ∧
    lineRole o (' ' :: pairLine ("DATATYPE", v)) = .dataset "DataType" v :=
  ⟨(C44_dataset_field ho _ _ _).2 ⟨by decide, pair_fills (by decide) (by decide) hv⟩,
   (C44_dataset_field ho _ _ _).2 ⟨by decide, pair_fills (by decide) (by decide) hv⟩,
   (C44_dataset_field ho _ _ _).2 ⟨by decide, pair_fills (by decide) (by decide) hv⟩⟩

theorem blank_role (o : KeyOrder) : lineRole o [' '] = .comment := by
  have : splitOnChar ':' [' '] = [[' ']] := by decide
  rw [lineRole, this]

/-- The lines of a comment. -/
def commentBodies (c : List Char) : List (List Char) :=
  if c = [] then [] else splitOnChar '\n' (rstripNl c)

/-- A comment whose lines end with line feeds. -/
def PlainComment (c : List Char) : Prop := ∀ x ∈ c, isLineEnd x = true → x = '\n'

theorem splitOnChar_mem {d : Char} : ∀ {l w : List Char}, w ∈ splitOnChar d l →
    (∀ c ∈ w, c ∈ l ∧ c ≠ d)
  | [], w, h => by
    have : w = [] := by simpa [splitOnChar] using h
    subst this; simp
  | x :: xs, w, h => by
    rw [splitOnChar] at h
    by_cases hx : x = d
    · rw [if_pos hx] at h
      rcases List.mem_cons.1 h with rfl | h
      · simp
      · exact fun c hc => ⟨List.mem_cons_of_mem _ (splitOnChar_mem h c hc).1,
          (splitOnChar_mem h c hc).2⟩
    · rw [if_neg hx] at h
      cases hs : splitOnChar d xs with
      | nil => exact absurd hs (splitOnChar_ne_nil _ _)
      | cons v vs =>
        rw [hs] at h
        rcases List.mem_cons.1 h with rfl | h
        · intro c hc
          rcases List.mem_cons.1 hc with rfl | hc
          · exact ⟨List.mem_cons_self .., hx⟩
          · have := splitOnChar_mem (d := d) (l := xs) (w := v) (by rw [hs]; exact List.mem_cons_self ..) c hc
            exact ⟨List.mem_cons_of_mem _ this.1, this.2⟩
        · intro c hc
          have := splitOnChar_mem (d := d) (l := xs) (w := w)
            (by rw [hs]; exact List.mem_cons_of_mem _ h) c hc
          exact ⟨List.mem_cons_of_mem _ this.1, this.2⟩

theorem rstripNl_mem {l : List Char} {c : Char} (h : c ∈ rstripNl l) : c ∈ l := by
  obtain ⟨s, hs, _⟩ := rstripNl_split l
  rw [hs]; exact List.mem_append_left _ h

theorem commentBodies_one {c : List Char} (h : PlainComment c) :
    ∀ b ∈ commentBodies c, OneLine b := by
  intro b hb x hx
  rw [commentBodies] at hb
  split at hb
  · cases hb
  · have := splitOnChar_mem hb x hx
    by_contra hc
    exact this.2 (h x (rstripNl_mem this.1) (by simpa using hc))

/-! ## Reading what was written -/

/-- The lines of the header of a written file. -/
def headerBodies (md : List (String × MetaVal)) (st un dt : List Char) : List (List Char) :=
  (metaPairs md writtenKeys ++ [("SPECTRUMTYPE", st), ("UNIT", un), ("DATATYPE", dt)]).map
    (fun p => ' ' :: pairLine p) ++ [[' ']]

/-- All values are single lines without leading blanks. -/
def CleanMeta (md : List (String × MetaVal)) : Prop :=
  ∀ k ∈ Spec.textFields, ∀ s, dictGet md k = .ok (.str s) → Clean s.toList

theorem pairLine_one {p : String × List Char} (h1 : OneLine p.1.toList) (h2 : OneLine p.2) :
    OneLine (' ' :: pairLine p) := by
  intro c hc
  rcases List.mem_cons.1 hc with rfl | hc
  · decide
  · rcases List.mem_append.1 hc with hc | hc
    · exact h1 c hc
    · rcases List.mem_cons.1 hc with rfl | hc
      · decide
      · rcases List.mem_cons.1 hc with rfl | hc
        · decide
        · exact h2 c hc

theorem headerBodies_one {md : List (String × MetaVal)} {st un dt : List Char} (hm : CleanMeta md)
    (h1 : Clean st) (h2 : Clean un) (h3 : Clean dt) :
    ∀ b ∈ headerBodies md st un dt, OneLine b := by
  intro b hb
  rcases List.mem_append.1 hb with hb | hb
  · obtain ⟨p, hp, rfl⟩ := List.mem_map.1 hb
    rcases List.mem_append.1 hp with hp | hp
    · obtain ⟨k, hk, s, e1, e2, e3⟩ := metaPairs_mem hp
      obtain ⟨_, al, a1, _, _, a4⟩ := written_aliases k hk
      have : al = p.1 := by rw [e2] at a1; cases a1; rfl
      rw [this] at a4
      exact pairLine_one a4 (by rw [e3]; exact (hm k hk s e1).1)
    · have : p = ("SPECTRUMTYPE", st) ∨ p = ("UNIT", un) ∨ p = ("DATATYPE", dt) := by simpa using hp
      rcases this with rfl | rfl | rfl
      · exact pairLine_one (by show ∀ c ∈ "SPECTRUMTYPE".toList, isLineEnd c = false; decide) h1.1
      · exact pairLine_one (by show ∀ c ∈ "UNIT".toList, isLineEnd c = false; decide) h2.1
      · exact pairLine_one (by show ∀ c ∈ "DATATYPE".toList, isLineEnd c = false; decide) h3.1
  · have : b = [' '] := by simpa using hb
    subst this; unfold OneLine; decide

section cycle
variable [PyFloat F] [NumText F] [Printing F]

/-- The text that `np.savetxt` writes. -/
theorem savetxt_eq {md : List (String × MetaVal)} {st un dt header : List Char} {delim : Char}
    (hm : CleanMeta md) (h1 : Clean st) (h2 : Clean un) (h3 : Clean dt)
    (hh : metaHeader md writtenKeys = .ok header) (rows : List (List F)) :
    savetxt delim (header ++ headerLine "SPECTRUMTYPE" st ++ headerLine "UNIT" un
      ++ headerLine "DATATYPE" dt) rows =
    hashLines (headerBodies md st un dt) ++ savetxtRows delim rows := by
  have e := metaHeader_eq md writtenKeys header hh
  have e2 : header ++ headerLine "SPECTRUMTYPE" st ++ headerLine "UNIT" un
      ++ headerLine "DATATYPE" dt =
      ((metaPairs md writtenKeys ++ [("SPECTRUMTYPE", st), ("UNIT", un), ("DATATYPE", dt)]).map
        pairLine).flatMap (fun l => l ++ ['\n']) := by
    rw [e, List.map_append, List.flatMap_append]
    simp [headerLine, pairLine]
  rw [savetxt, e2, header_lines, headerBodies, List.map_map]
  · rfl
  · intro l hl hn
    obtain ⟨p, hp, rfl⟩ := List.mem_map.1 hl
    have := headerBodies_one hm h1 h2 h3 (' ' :: pairLine p)
      (List.mem_append_left _ (List.mem_map.2 ⟨p, hp, rfl⟩))
    exact this.nl (List.mem_cons_of_mem _ hn)

/-- What was written: the comment, the header and the rows of the table in the first dataset. -/
theorem written_text [YamlIO F] {w w' : Writer F} {ic rii : Bool} {text : List Char} {c : String}
    {delim : Char} {rd : Option Char} (he : ExtSep w.ext delim rd)
    (hc : dictGet w.metaData "MetaComment" = .ok (.str c))
    {d : Dataset F} {ds : List (Dataset F)} (hds : w.datasets = d :: ds) {st un dt : String}
    (h1 : dictGet d "SpectrumType" = .ok (.str st)) (h2 : dictGet d "Unit" = .ok (.str un))
    (h3 : dictGet d "DataType" = .ok (.str dt))
    (hm : CleanMeta w.metaData) (c1 : Clean st.toList) (c2 : Clean un.toList)
    (c3 : Clean dt.toList) [PrintingLaws F]
    (hw : w.writeFile ic rii = (.ok text, w')) :
    ∃ (v : DVal F) (m : ℕ) (dtp : DType) (rows : List (List F)),
      multiKey d ["Data", "data"] = .ok v ∧ strTableToNumeric v.asTable = .ok (.d2 m dtp rows) ∧
      text = hashLines (commentBodies c.toList ++
        headerBodies (w.metaData.filter (fun p => p.1 ≠ "MetaComment")) st.toList un.toList
          dt.toList) ++ savetxtRows delim rows := by
  have hpop : dictPop w.metaData "MetaComment" =
      .ok (.str c, w.metaData.filter (fun p => p.1 ≠ "MetaComment")) := by
    rw [dictPop, hc]; rfl
  rw [Writer.writeFile, hpop] at hw
  simp only [he.format] at hw
  set w1 : Writer F := { w with metaData := w.metaData.filter (fun p => p.1 ≠ "MetaComment") }
    with hw1
  cases ht : w1.writeText with
  | error e => rw [ht] at hw; cases hw
  | ok t =>
    rw [ht] at hw
    have hfin : Writer.writeFile.finish (.str c) false t = .ok text := by
      have := congrArg Prod.fst hw; exact this
    obtain ⟨d', ds', st', un', dt', v, cs, cu, cd, m, dtp, rows, header, q1, q2, q3, q4, q5, q6, q7,
      q8, q9, q10, q11⟩ := (writeText_parts (w := w1) he ht).ex
    have ed : d' = d := by
      have : d' :: ds' = d :: ds := q1.symm.trans hds
      cases this; rfl
    subst ed
    have mk : ∀ {a b : String} {s : String} {x : DVal F}, dictGet d' a = .ok (.str s) →
        multiKey d' [a, b] = .ok x → x = .str s := by
      intro a b s x ha hx
      have hh : dictHas d' a = true := by
        rw [dictHas_iff]
        exact ⟨_, dictGet_mem ha⟩
      rw [multiKey, if_pos hh, ha] at hx
      cases hx; rfl
    have e1 := mk h1 q2
    have e2 := mk h2 q4
    have e3 := mk h3 q6
    have f1 : cs = st.toList := by rw [e1] at q3; cases q3; rfl
    have f2 : cu = un.toList := by rw [e2] at q5; cases q5; rfl
    have f3 : cd = dt.toList := by rw [e3] at q7; cases q7; rfl
    have hm' : CleanMeta w1.metaData := by
      intro k hk s hs
      refine hm k hk s ?_
      rw [← hs]
      refine (dictGet_filter _ ?_).symm
      rintro rfl
      exact absurd hk (by decide)
    refine ⟨v, m, dtp, rows, q8, q9, ?_⟩
    rw [f1, f2, f3, savetxt_eq hm' c1 c2 c3 q10] at q11
    rw [hashLines_append, List.append_assoc, ← q11]
    rw [Writer.writeFile.finish] at hfin
    by_cases hcn : c = ""
    · rw [if_pos hcn] at hfin
      have : t = text := by cases hfin; rfl
      rw [← this, commentBodies, if_pos (by rw [hcn]; rfl)]
      rfl
    · rw [if_neg hcn] at hfin
      have : prependText c.toList false t = text := by cases hfin; rfl
      have hne : c.toList ≠ [] := by
        intro h0
        exact hcn (by rw [← String.ofList_toList (s := c), h0])
      rw [← this, prependText, commentBlock_eq, commentBodies, if_neg hne, universal_id]
      rw [q11]
      intro hcr
      rcases List.mem_append.1 hcr with hcr | hcr
      · exact hashLines_cr (headerBodies_one hm' c1 c2 c3) hcr
      · exact savetxtRows_cr he.sep rows hcr

omit [PyFloat F] [NumText F] [Printing F] in
theorem squeezeRows_ok {m : ℕ} {rows : List (List F)} (h : ∀ r ∈ rows, r.length = m) :
    ∃ a, squeezeRows rows = .ok a ∧
      (2 ≤ rows.length → 2 ≤ m → a = .d2 m .float rows) := by
  match rows, h with
  | [], _ => exact ⟨_, rfl, by simp⟩
  | [r], _ =>
    match r with
    | [] => exact ⟨_, rfl, by simp⟩
    | [_] => exact ⟨_, rfl, by simp⟩
    | _ :: _ :: _ => exact ⟨_, rfl, by simp⟩
  | r :: q :: rs, h =>
    have hr := h r (by simp)
    have hall : (q :: rs).all (fun p => p.length = r.length) = true := by
      rw [List.all_eq_true]
      intro p hp
      have := h p (List.mem_cons_of_mem _ hp)
      simp [this, hr]
    by_cases h1 : r.length = 1
    · refine ⟨.d1 .float (r :: q :: rs).flatten, ?_, fun _ h2 => by omega⟩
      rw [squeezeRows]
      · rw [if_pos hall, if_pos h1]
      · simp
      · simp
    · refine ⟨.d2 r.length .float (r :: q :: rs), ?_, fun _ _ => by rw [hr]⟩
      rw [squeezeRows]
      · rw [if_pos hall, if_neg h1]
      · simp
      · simp

/-- Reading a file that consists of comment lines and rows. -/
theorem read_written [YamlIO F] [PrintingLaws F] {ext : String} {delim : Char} {rd : Option Char}
    (he : ExtSep ext delim rd) {bs : List (List Char)} (hb : ∀ b ∈ bs, OneLine b)
    {rows : List (List F)} (hr : ∀ r ∈ rows, r ≠ []) {a : NDArr F}
    (ha : squeezeRows (rows.map (fun r => r.map Printing.shown8)) = .ok a) (r : Reader F)
    (o : KeyOrder) :
    r.readFile o ext (hashLines bs ++ savetxtRows delim rows) =
      r.textResult (bs.foldl (textStep o) (r.textStart o a)) := by
  rw [Reader.readFile, he.format]
  simp only [Reader.readText]
  rw [loadtxt_hash he.sep hb rows hr, ha]
  simp only
  rw [readComment_hash hb (savetxtRows_head rows hr)]

omit [PyFloat F] [NumText F] [Printing F] in
/-- What the header lines leave behind. -/
theorem cycle_fields {o : KeyOrder} (ho : o.Valid) {md : List (String × MetaVal)}
    {st un dt : String} (hm : CleanMeta md) (c1 : Clean st.toList) (c2 : Clean un.toList)
    (c3 : Clean dt.toList) (cb : List (List Char)) (s : TextState F) :
    (∀ k ∈ writtenKeys, ∀ x, dictGet md k = .ok (.str x) →
      dictGet ((cb ++ headerBodies md st.toList un.toList dt.toList).foldl (textStep o) s).metaData k
        = .ok (.str x)) ∧
    dictGet ((cb ++ headerBodies md st.toList un.toList dt.toList).foldl (textStep o) s).dataset
      "SpectrumType" = .ok (.str st) ∧
    dictGet ((cb ++ headerBodies md st.toList un.toList dt.toList).foldl (textStep o) s).dataset
      "Unit" = .ok (.str un) ∧
    dictGet ((cb ++ headerBodies md st.toList un.toList dt.toList).foldl (textStep o) s).dataset
      "DataType" = .ok (.str dt) ∧
    dictGet ((cb ++ headerBodies md st.toList un.toList dt.toList).foldl (textStep o) s).dataset
      "Data" = dictGet s.dataset "Data" ∧
    ((cb ++ headerBodies md st.toList un.toList dt.toList).foldl (textStep o) s).multi =
      s.multi ++ (cb.filter (fun l => lineRole o l = .comment)).flatMap (fun l => l ++ ['\n']) ++
        [' ', '\n'] := by
  -- the roles of the lines of a part of the metadata
  have hroles : ∀ keys ⊆ writtenKeys, ∀ l ∈ (metaPairs md keys).map (fun p => ' ' :: pairLine p),
      ∃ k ∈ keys, ∃ v, lineRole o l = .file k v := by
    intro keys hk l hl
    obtain ⟨p, hp, rfl⟩ := List.mem_map.1 hl
    obtain ⟨k, hkk, x, e1, e2, e3⟩ := metaPairs_mem hp
    exact ⟨k, hkk, p.2, pair_role ho (hk hkk) e2 (by rw [e3]; exact hm k (hk hkk) x e1)⟩
  obtain ⟨t1, _, _⟩ := type_role ho c1
  obtain ⟨_, t2, _⟩ := type_role ho c2
  obtain ⟨_, _, t3⟩ := type_role ho c3
  have hform : cb ++ headerBodies md st.toList un.toList dt.toList =
      cb ++ (metaPairs md writtenKeys).map (fun p => ' ' :: pairLine p) ++
        [' ' :: pairLine ("SPECTRUMTYPE", st.toList), ' ' :: pairLine ("UNIT", un.toList),
          ' ' :: pairLine ("DATATYPE", dt.toList), [' ']] := by
    rw [headerBodies]; simp
  have htail : ∀ l ∈ [' ' :: pairLine ("SPECTRUMTYPE", st.toList),
      ' ' :: pairLine ("UNIT", un.toList), ' ' :: pairLine ("DATATYPE", dt.toList), [' ']],
      ∀ k v, lineRole o l ≠ .file k v := by
    intro l hl k v
    simp only [List.mem_cons, List.not_mem_nil, or_false] at hl
    rcases hl with rfl | rfl | rfl | rfl
    · rw [t1]; simp
    · rw [t2]; simp
    · rw [t3]; simp
    · rw [blank_role]; simp
  refine ⟨?_, ?_, ?_, ?_, ?_, ?_⟩
  · intro k hk x hx
    obtain ⟨pre, post, hsplit, hpre⟩ := List.eq_append_cons_of_mem hk
    have hnd : writtenKeys.Nodup := by decide
    obtain ⟨al, ha⟩ : ∃ al, dictGet keyAliases k = .ok al := by
      obtain ⟨_, al, ha, _⟩ := written_aliases k hk
      exact ⟨al, ha⟩
    have hp : metaPairs md writtenKeys =
        metaPairs md pre ++ (al, x.toList) :: metaPairs md post := by
      rw [hsplit, metaPairs, List.filterMap_append, List.filterMap_cons]
      simp only [hx, ha]
      rfl
    have hb : cb ++ headerBodies md st.toList un.toList dt.toList =
        (cb ++ (metaPairs md pre).map (fun p => ' ' :: pairLine p)) ++
          (' ' :: pairLine (al, x.toList)) ::
          ((metaPairs md post).map (fun p => ' ' :: pairLine p) ++
          [' ' :: pairLine ("SPECTRUMTYPE", st.toList), ' ' :: pairLine ("UNIT", un.toList),
          ' ' :: pairLine ("DATATYPE", dt.toList), [' ']]) := by
      rw [hform, hp]; simp
    rw [hb, fold_meta_set _ _ _ (pair_role ho hk ha (hm k hk x hx)), String.ofList_toList]
    intro l hl arg
    rcases List.mem_append.1 hl with hl | hl
    · obtain ⟨k', hk', v, hv⟩ := hroles post (by
        rw [hsplit]; exact fun z hz => List.mem_append_right _ (List.mem_cons_of_mem _ hz)) l hl
      rw [hv]
      intro he
      have : k' = k := by cases he; rfl
      subst this
      rw [hsplit, List.nodup_append] at hnd
      exact (List.nodup_cons.1 hnd.2.1).1 hk'
    · exact htail l hl k arg
  · have hb : cb ++ headerBodies md st.toList un.toList dt.toList =
        (cb ++ (metaPairs md writtenKeys).map (fun p => ' ' :: pairLine p)) ++
          (' ' :: pairLine ("SPECTRUMTYPE", st.toList)) :: [' ' :: pairLine ("UNIT", un.toList),
          ' ' :: pairLine ("DATATYPE", dt.toList), [' ']] := by
      rw [hform]
    rw [hb, fold_data_set _ _ _ t1, String.ofList_toList]
    intro l hl arg
    simp only [List.mem_cons, List.not_mem_nil, or_false] at hl
    rcases hl with rfl | rfl | rfl
    · rw [t2]; simp
    · rw [t3]; simp
    · rw [blank_role]; simp
  · have hb : cb ++ headerBodies md st.toList un.toList dt.toList =
        (cb ++ (metaPairs md writtenKeys).map (fun p => ' ' :: pairLine p) ++
          [' ' :: pairLine ("SPECTRUMTYPE", st.toList)]) ++ (' ' :: pairLine ("UNIT", un.toList)) ::
          [' ' :: pairLine ("DATATYPE", dt.toList), [' ']] := by
      rw [hform]; simp
    rw [hb, fold_data_set _ _ _ t2, String.ofList_toList]
    intro l hl arg
    simp only [List.mem_cons, List.not_mem_nil, or_false] at hl
    rcases hl with rfl | rfl
    · rw [t3]; simp
    · rw [blank_role]; simp
  · have hb : cb ++ headerBodies md st.toList un.toList dt.toList =
        (cb ++ (metaPairs md writtenKeys).map (fun p => ' ' :: pairLine p) ++
          [' ' :: pairLine ("SPECTRUMTYPE", st.toList), ' ' :: pairLine ("UNIT", un.toList)]) ++
          (' ' :: pairLine ("DATATYPE", dt.toList)) :: [[' ']] := by
      rw [hform]; simp
    rw [hb, fold_data_set _ _ _ t3, String.ofList_toList]
    intro l hl arg
    simp only [List.mem_cons, List.not_mem_nil, or_false] at hl
    rw [hl, blank_role]; simp
  · refine fold_data_keep _ _ ?_
    intro l _ arg hr
    have := ((C44_dataset_field ho _ _ _).1 hr).1
    exact absurd this (by decide)
  · rw [fold_multi, hform, List.filter_append, List.filter_append, List.flatMap_append,
      List.flatMap_append]
    have e1 : (List.map (fun p => ' ' :: pairLine p) (metaPairs md writtenKeys)).filter
        (fun l => decide (lineRole o l = .comment)) = [] := by
      rw [List.filter_eq_nil_iff]
      intro l hl
      obtain ⟨k, _, v, hv⟩ := hroles writtenKeys (fun _ h => h) l hl
      simp [hv]
    have e2 : [' ' :: pairLine ("SPECTRUMTYPE", st.toList), ' ' :: pairLine ("UNIT", un.toList),
        ' ' :: pairLine ("DATATYPE", dt.toList), [' ']].filter
        (fun l => decide (lineRole o l = .comment)) = [[' ']] := by
      simp [t1, t2, t3, blank_role]
    rw [e1, e2]
    simp

end cycle

end Disp

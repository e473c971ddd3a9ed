import Verif.Props.ReaderReuse
/-!
# C47: the meta comment of a material that is written to text files and read back
-/

namespace Disp

open Spec

variable {F : Type} [PyFloat F] [SciPy F] [NumText F]

/-! ## Materials from files -/

/-- `Material(file_path=p)` processes the file and completes the material. -/
theorem new_file_eq (p : String) (fd : FileDict F) :
    Material.new (fun _ => .ok fd) (fileKw F p) =
      (processFileData (blankMaterial (parsedOf (fileKw F p))) fd).map finish := by
  have hs : ("file_path", DocType.text) ∈ sources := by decide
  obtain ⟨h1, h2⟩ := only_single (F := F) hs (v := .str p) (by simp)
  unfold fileKw
  rw [new_eq_dispatch _ h1 (plain_single (by decide) (by decide)) h2 ⟨_, rfl⟩ trivial (by decide),
    dispatch_eq _ _ h1 h2 ⟨_, rfl⟩]
  simp only [dispatchOn, bind, Except.bind]
  cases processFileData (blankMaterial (parsedOf [("file_path", .str p)])) fd with
  | error e => rfl
  | ok m => exact complete_eq m

omit [NumText F] in
theorem newConstant_names {c : F} {raw : Raw F} {t u : String} {d : RealData F}
    (h : RealData.newConstant c raw t u = .ok d) : d.stype = t ∧ d.unit = u := by
  unfold RealData.newConstant at h
  obtain ⟨_, _, h⟩ := except_bind_ok h
  cases h; exact ⟨rfl, rfl⟩

omit [NumText F] in
theorem specData_names {t u : String} {a : NDArr F} {i j : ℕ} {d : RealData F}
    (h : specDataFromTable t u a i j = .ok d) : d.stype = t ∧ d.unit = u := by
  unfold specDataFromTable at h
  obtain ⟨rows, _, h⟩ := except_bind_ok h
  split at h
  · exact newConstant_names h
  · unfold RealData.newInterp at h
    obtain ⟨_, _, h⟩ := except_bind_ok h
    repeat (first | obtain ⟨_, _, h⟩ := except_bind_ok h | split at h)
    all_goals first | (cases h; exact ⟨rfl, rfl⟩) | cases h

omit [NumText F] in
theorem newModel_names {k : Formula} {ps : List F} {raw : Raw F} {t u : String} {d : RealData F}
    (h : RealData.newModel k ps raw t u = .ok d) : d.stype = t ∧ d.unit = u := by
  unfold RealData.newModel at h
  obtain ⟨_, _, h⟩ := except_bind_ok h
  repeat (first | obtain ⟨_, _, h⟩ := except_bind_ok h | split at h)
  all_goals first | (cases h; exact ⟨rfl, rfl⟩) | cases h

/-- The spectrum type and the unit of a dataset, or the defaults of the material. -/
def ownType (m : Material F) (d : Dataset F) : String :=
  ((d.get "SpectrumType").nonEmptyStr).getD m.defType

/-- See `ownType`. -/
def ownUnit (m : Material F) (d : Dataset F) : String :=
  ((d.get "Unit").nonEmptyStr).getD m.defUnit

/-- Processing a dataset keeps the metadata; the real part is kept or gets the type and unit of the
dataset. -/
def SameMeta (m m' : Material F) (d : Dataset F) : Prop :=
  m'.metaData = m.metaData ∧ (m'.real = m.real ∨
    ∃ r, m'.real = some r ∧ r.stype = ownType m d ∧ r.unit = ownUnit m d)

omit [NumText F] in
theorem processTable_sameMeta {m m' : Material F} {a : NDArr F} {id : String} {d : Dataset F}
    (h : processTable m a id d = .ok m') : SameMeta m m' d := by
  unfold processTable at h
  simp only at h
  split at h
  · obtain ⟨r, hr, h⟩ := except_bind_ok h
    obtain ⟨i, _, h⟩ := except_bind_ok h
    cases h
    exact ⟨rfl, .inr ⟨r, rfl, specData_names hr⟩⟩
  split at h
  · obtain ⟨r, hr, h⟩ := except_bind_ok h
    obtain ⟨t, _, h⟩ := except_bind_ok h
    obtain ⟨i, _, h⟩ := except_bind_ok h
    cases h
    exact ⟨rfl, .inr ⟨r, rfl, specData_names hr⟩⟩
  split at h
  · obtain ⟨r, hr, h⟩ := except_bind_ok h
    cases h
    exact ⟨rfl, .inr ⟨r, rfl, specData_names hr⟩⟩
  split at h
  · obtain ⟨i, _, h⟩ := except_bind_ok h
    cases h
    exact ⟨rfl, .inl rfl⟩
  split at h
  · obtain ⟨r, hr, h⟩ := except_bind_ok h
    obtain ⟨i, _, h⟩ := except_bind_ok h
    cases h
    exact ⟨rfl, .inr ⟨r, rfl, specData_names hr⟩⟩
  · cases h
    exact ⟨rfl, .inl rfl⟩

omit [NumText F] in
theorem storeReal_sameMeta {m m' : Material F} {o : Option String} {d : RealData F}
    (h : storeReal m o d = .ok m') : m'.metaData = m.metaData ∧
      (m'.real = m.real ∨ m'.real = some d) := by
  unfold storeReal at h
  split at h
  all_goals first
    | (cases h; exact ⟨rfl, .inr rfl⟩)
    | (cases h; exact ⟨rfl, .inl rfl⟩)
    | cases h

theorem processDataset_sameMeta {m m' : Material F} {d : Dataset F}
    (h : processDataset m d = .ok m') : SameMeta m m' d := by
  unfold processDataset at h
  obtain ⟨dt, _, h⟩ := except_bind_ok h
  obtain ⟨q, _, h⟩ := except_bind_ok h
  simp only at h
  split at h
  · obtain ⟨v, _, h⟩ := except_bind_ok h
    obtain ⟨a, _, h⟩ := except_bind_ok h
    exact processTable_sameMeta h
  split at h
  · unfold processFormulaData at h
    obtain ⟨dt', _, h⟩ := except_bind_ok h
    obtain ⟨q', _, h⟩ := except_bind_ok h
    simp only at h
    split at h
    · cases h
    · split at h
      · cases h
      obtain ⟨_, _, h⟩ := except_bind_ok h
      obtain ⟨vr, _, h⟩ := except_bind_ok h
      obtain ⟨tx, _, h⟩ := except_bind_ok h
      obtain ⟨co, _, h⟩ := except_bind_ok h
      obtain ⟨st, hst, h⟩ := except_bind_ok h
      obtain ⟨un, hun, h⟩ := except_bind_ok h
      obtain ⟨nm, _, h⟩ := except_bind_ok h
      have e1 : st.nonEmptyStr.getD m.defType = ownType m d := by
        rw [ownType, Dataset.get, hst]
      have e2 : un.nonEmptyStr.getD m.defUnit = ownUnit m d := by
        rw [ownUnit, Dataset.get, hun]
      simp only [e1, e2] at h
      unfold processModelDict at h
      simp only [Option.getD_some] at h
      obtain ⟨nm', _, h⟩ := except_bind_ok h
      split at h
      · cases h
      · cases h
      · obtain ⟨ps, _, h⟩ := except_bind_ok h
        obtain ⟨vr', _, h⟩ := except_bind_ok h
        split at h
        · obtain ⟨r, hr, h⟩ := except_bind_ok h
          obtain ⟨g1, g2⟩ := storeReal_sameMeta h
          refine ⟨g1, ?_⟩
          rcases g2 with g2 | g2
          · exact .inl g2
          · exact .inr ⟨r, g2, newModel_names hr⟩
        · obtain ⟨r, hr, h⟩ := except_bind_ok h
          cases h
          exact ⟨rfl, .inl rfl⟩
        · obtain ⟨_, _, h⟩ := except_bind_ok h
          cases h
        · cases h
  · cases h

/-- The material of a file with one dataset. -/
theorem new_file_single {p : String} {fd : FileDict F} {d : Dataset F} (hd : fd.datasets = [d])
    {m' : Material F} (h : Material.new (fun _ => .ok fd) (fileKw F p) = .ok m') :
    ∃ md', m'.metaData = some md' ∧ md'.map Prod.fst = fileKeys ∧
      (∀ k ∈ fileKeys, dictGet md' k = dictGet fd.metaData k) ∧
      ∃ r, m'.real = some r ∧
        ((r.stype = "wavelength" ∧ r.unit = "m") ∨
          (r.stype = ownType (blankMaterial (parsedOf (fileKw F p))) d ∧
            r.unit = ownUnit (blankMaterial (parsedOf (fileKw F p))) d)) := by
  rw [new_file_eq] at h
  cases hp : processFileData (blankMaterial (parsedOf (fileKw F p))) fd with
  | error e => rw [hp] at h; cases h
  | ok m1 =>
    rw [hp] at h
    have e : finish m1 = m' := by cases h; rfl
    subst e
    unfold processFileData at hp
    obtain ⟨md', hmd, hp⟩ := except_bind_ok hp
    rw [hd] at hp
    simp only [List.foldlM_cons, List.foldlM_nil] at hp
    obtain ⟨m2, h2, hp⟩ := except_bind_ok hp
    have e : m2 = m1 := by cases hp; rfl
    subst e
    obtain ⟨g1, g2⟩ := processDataset_sameMeta h2
    have hkeys : ∀ (ks : List String) (l : List (String × MetaVal)),
        ks.mapM (fun k => (do .ok (k, ← dictGet fd.metaData k) : Res (String × MetaVal))) = .ok l →
        l.map Prod.fst = ks ∧ (∀ p ∈ l, dictGet fd.metaData p.1 = .ok p.2) := by
      intro ks
      induction ks with
      | nil => intro l hl; cases hl; simp
      | cons k ks ih =>
        intro l hl
        rw [List.mapM_cons] at hl
        obtain ⟨q, hq, hl⟩ := except_bind_ok hl
        obtain ⟨l', hl', hl⟩ := except_bind_ok hl
        obtain ⟨v, hv, hq⟩ := except_bind_ok hq
        cases hq; cases hl
        obtain ⟨i1, i2⟩ := ih l' hl'
        refine ⟨by simp [i1], ?_⟩
        intro p hp
        rcases List.mem_cons.1 hp with rfl | hp
        · exact hv
        · exact i2 p hp
    obtain ⟨k1, k2⟩ := hkeys _ _ hmd
    have hkk : Keys md' := by
      show (md'.map Prod.fst).Nodup
      rw [k1]; decide
    refine ⟨md', g1, k1, ?_, ?_⟩
    · intro k hk
      have : k ∈ md'.map Prod.fst := by rw [k1]; exact hk
      obtain ⟨q, hq, rfl⟩ := List.mem_map.1 this
      rw [k2 q hq]
      exact dictGet_of_mem hkk hq
    · show ∃ r, some (m2.real.getD (cdata (lit 0))) = some r ∧ _
      refine ⟨_, rfl, ?_⟩
      rcases g2 with g2 | ⟨r, hr, hn⟩
      · rw [g2]
        exact .inl ⟨rfl, rfl⟩
      · rw [hr]
        exact .inr hn

/-! ## The lines of a comment -/

/-- The lines, each closed by a line feed. -/
def Spec.closeLines (ls : List (List Char)) : List Char := ls.flatMap (fun l => l ++ ['\n'])

theorem closeLines_append (as bs : List (List Char)) :
    closeLines (as ++ bs) = closeLines as ++ closeLines bs := by simp [closeLines]

theorem splitOnChar_close (ls : List (List Char)) (h : ∀ l ∈ ls, '\n' ∉ l) (last : List Char)
    (hl : '\n' ∉ last) : splitOnChar '\n' (closeLines ls ++ last) = ls ++ [last] := by
  have one : ∀ (l : List Char), '\n' ∉ l → ∀ rest, splitOnChar '\n' (l ++ '\n' :: rest) =
      l :: splitOnChar '\n' rest := by
    intro l
    induction l with
    | nil => intro _ rest; rw [List.nil_append, splitOnChar, if_pos rfl]
    | cons c l ih =>
      intro hn rest
      rw [List.cons_append, splitOnChar, if_neg (by rintro rfl; exact hn (List.mem_cons_self ..)),
        ih (fun hm => hn (List.mem_cons_of_mem _ hm))]
  have end_ : ∀ (l : List Char), '\n' ∉ l → splitOnChar '\n' l = [l] := by
    intro l
    induction l with
    | nil => intro _; rfl
    | cons c l ih =>
      intro hn
      rw [splitOnChar, if_neg (by rintro rfl; exact hn (List.mem_cons_self ..)),
        ih (fun hm => hn (List.mem_cons_of_mem _ hm))]
  induction ls with
  | nil => exact end_ last hl
  | cons l ls ih =>
    have e : closeLines (l :: ls) ++ last = l ++ '\n' :: (closeLines ls ++ last) := by
      simp [closeLines]
    rw [e, one l (h l (List.mem_cons_self ..)),
      ih (fun m hm => h m (List.mem_cons_of_mem _ hm))]
    rfl

/-- The comment made of lines the last of which is a blank consists of these lines. -/
theorem commentBodies_close (ls : List (List Char)) (h : ∀ l ∈ ls, '\n' ∉ l) :
    commentBodies (closeLines (ls ++ [[' ']])) = ls ++ [[' ']] := by
  have e : closeLines (ls ++ [[' ']]) = closeLines ls ++ [' ', '\n'] := by
    rw [closeLines_append]; rfl
  have e2 : rstripNl (closeLines ls ++ [' ', '\n']) = closeLines ls ++ [' '] := by
    simp [rstripNl]
  rw [e, commentBodies, if_neg (by simp), e2, splitOnChar_close ls h [' '] (by decide)]

/-! ## Cycles of writing and reading -/

variable [Printing F] [YamlIO F]

/-- The material is written to a file, and a new material is made of the file. -/
def Cycle (o : KeyOrder) (ext : String) (m m' : Material F) : Prop :=
  ∃ (w w' : Writer F) (ic rii : Bool) (text : List Char) (fd : FileDict F) (r' : Reader F)
    (p : String), Writer.new ext m = .ok w ∧ w.writeFile ic rii = (.ok text, w') ∧
    (Reader.fresh o : Reader F).readFile o ext text = (.ok fd, r') ∧
    Material.new (fun _ => .ok fd) (fileKw F p) = .ok m'

/-- The meta comment of a material. -/
def HasComment (m : Material F) (c : List Char) : Prop :=
  ∃ md, m.metaData = some md ∧ dictGet md "MetaComment" = .ok (.str (String.ofList c))

/-- A text format. -/
def IsText (ext : String) : Prop := ext = ".txt" ∨ ext = ".csv"

/-- The lines of a comment that fill no field. -/
noncomputable def Spec.keptLines (c : List Char) : List (List Char) :=
  open Classical in (commentBodies c).filter (fun l => decide (∀ key ∈ fileFields ++ datasetFields,
    ∀ arg, ¬ Spec.Fills key.toList l arg))

theorem keptLines_eq {o : KeyOrder} (ho : o.Valid) (c : List Char) :
    keptLines c = (commentBodies c).filter (fun l => lineRole o l = .comment) := by
  unfold keptLines
  refine List.filter_congr (fun l _ => ?_)
  rw [decide_eq_decide]
  exact (role_comment ho l).symm

theorem clean_blank : Clean "wavelength".toList ∧ Clean "m".toList ∧ Clean "nanometer".toList :=
  ⟨⟨by unfold OneLine; decide, by decide⟩, ⟨by unfold OneLine; decide, by decide⟩,
    ⟨by unfold OneLine; decide, by decide⟩⟩

theorem fileKw_defaults (p : String) : (blankMaterial (parsedOf (fileKw F p))).defType = "wavelength" ∧
    (blankMaterial (parsedOf (fileKw F p))).defUnit = "nanometer" := ⟨rfl, rfl⟩

theorem own_clean {m : Material F} {d : Dataset F} {t : String} (k : String) {dflt : String}
    (hd : dictGet d k = .ok (.str t)) (ht : Clean t.toList) (h : Clean dflt.toList) :
    Clean (((d.get k).nonEmptyStr).getD dflt).toList := by
  rw [Dataset.get, hd]
  show Clean ((if t = "" then Option.none else some t).getD dflt).toList
  split
  · exact h
  · exact ht

/-- One cycle through a text file: the new material can be written again, and its comment consists
of the kept lines and one blank line. -/
theorem text_step [PrintingLaws F] {o : KeyOrder} (ho : o.Valid) {ext : String} (he : IsText ext)
    {m m' : Material F} (hx : CleanTexts m) {c : List Char} (hc : HasComment m c)
    (h : Cycle o ext m m') :
    CleanTexts m' ∧ HasComment m' (closeLines (keptLines c ++ [[' ']])) := by
  obtain ⟨md, rd, hmd, hrd, gm, cm, pc, c1, c2⟩ := hx.ex
  obtain ⟨md2, hmd2, hcc⟩ := hc
  have : md2 = md := by rw [hmd] at hmd2; cases hmd2; rfl
  subst this
  obtain ⟨w, w', ic, rii, text, fd, r', p, h1, h2, h3, h4⟩ := h
  obtain ⟨delim, rsep, hes⟩ := ext_sep he
  obtain ⟨d0, ds0, t, s, n, rows, a, fd', d, r2, p1, p2, p3, p4, p5, p6, p7, p8, p9, p10, p11, p12,
    p13, p14, p15, p16⟩ := text_cycle hes h1 hmd hrd hcc (pc _ hcc) cm c1 c2 h2 ho
  have e : fd' = fd := by rw [p9] at h3; cases h3; rfl
  subst e
  rw [String.toList_ofList, ← keptLines_eq ho] at p16
  have e16 : closeLines (keptLines c) ++ [' ', '\n'] = closeLines (keptLines c ++ [[' ']]) := by
    rw [closeLines_append]; rfl
  rw [show (keptLines c).flatMap (fun l => l ++ ['\n']) = closeLines (keptLines c) from rfl, e16] at p16
  obtain ⟨md', q1, q2, q3, r, q4, q5⟩ := new_file_single p10 h4
  have hspec : dictGet fd'.metaData "Specification" = .ok (.dict []) := by
    have hov := C54_text_partial (F := F) ho [] (hes.format) text
    have hf : (Reader.after o [] : Reader F) = Reader.fresh o := rfl
    rw [hf, p9] at hov
    have := hov.2.2 "Specification" (by
      rintro (⟨_, _, _, h, _⟩ | ⟨h, _⟩)
      · exact absurd h (by decide)
      · exact absurd h (by decide))
    rw [this]
    show dictGet (defaultMeta o) "Specification" = _
    rw [defaultMeta, dictGet_const, if_neg (by rw [ho.1.mem_iff]; decide)]
    rfl
  have hcm' : dictGet md' "MetaComment" = .ok (.str (String.ofList
      (closeLines (keptLines c ++ [[' ']])))) := by
    rw [q3 _ (by decide)]; exact p16
  have hpc : PlainComment c := by
    have := pc _ hcc
    rwa [String.toList_ofList] at this
  have hw : ∀ k ∈ writtenKeys, k ∈ fileKeys := by decide
  have hval : ∀ k ∈ writtenKeys, ∀ x, dictGet md' k = .ok (.str x) →
      dictGet md2 k = .ok (.str x) := by
    intro k hk x hv
    obtain ⟨y, hy⟩ := gm.text k hk
    rw [q3 k (hw k hk), p15 k hk y hy] at hv
    have : x = y := by cases hv; rfl
    rw [this]; exact hy
  refine ⟨⟨⟨md', r, q1, q4, ⟨?_, ⟨_, hcm'⟩, ⟨[], ?_⟩, ?_, ?_⟩, ?_, ?_, ?_⟩⟩, md', q1, hcm'⟩
  · intro k hk
    obtain ⟨y, hy⟩ := gm.text k hk
    exact ⟨y, by rw [q3 k (hw k hk)]; exact p15 k hk y hy⟩
  · rw [q3 _ (by decide)]; exact hspec
  · intro q hq
    have : q.1 ∈ fileKeys := by rw [← q2]; exact List.mem_map_of_mem hq
    have hall : ∀ k ∈ fileKeys, k = "Alias" ∨ k = "MetaComment" ∨ ∃ al, (k, al) ∈ keyAliases := by
      intro k hk
      simp only [fileKeys, List.mem_cons, List.not_mem_nil, or_false] at hk
      rcases hk with rfl | rfl | rfl | rfl | rfl | rfl | rfl
      · exact .inr (.inr ⟨"REFERENCES", by decide⟩)
      · exact .inr (.inr ⟨"COMMENTS", by decide⟩)
      · exact .inr (.inr ⟨"NAME", by decide⟩)
      · exact .inr (.inr ⟨"FULLNAME", by decide⟩)
      · exact .inr (.inr ⟨"AUTHOR", by decide⟩)
      · exact .inr (.inl rfl)
      · exact .inr (.inr ⟨"SPECS", by decide⟩)
    rcases hall _ this with h | h | ⟨al, h⟩
    · exact .inl h
    · exact .inr (.inl h)
    · exact .inr (.inr ⟨al, dictGet_of_mem (show (keyAliases.map Prod.fst).Nodup by decide) h⟩)
  · show (md'.map Prod.fst).Nodup
    rw [q2]; decide
  · intro k hk x hv
    exact cm k hk x (hval k hk x hv)
  · intro c' hc'
    rw [hcm'] at hc'
    have : c'.toList = closeLines (keptLines c ++ [[' ']]) := by
      cases hc'; rw [String.toList_ofList]
    rw [this]
    intro x hx hl
    simp only [closeLines, List.mem_flatMap, List.mem_append, List.mem_singleton] at hx
    obtain ⟨l, hl', hx⟩ := hx
    rcases hx with hx | hx
    · rcases hl' with hl' | rfl
      · have := commentBodies_one hpc l (List.mem_of_mem_filter hl') x hx
        rw [this] at hl; cases hl
      · have : x = ' ' := by simpa using hx
        rw [this] at hl; exact absurd hl (by decide)
    · exact hx
  · rcases q5 with ⟨g1, g2⟩ | ⟨g1, g2⟩
    · rw [g1, g2]; exact ⟨clean_blank.1, clean_blank.2.1⟩
    · rw [g1, g2]
      exact ⟨own_clean (m := m) "SpectrumType" p12 c1 clean_blank.1,
        own_clean (m := m) "Unit" p13 c2 clean_blank.2.2⟩

/-- Some number of cycles, each through a text file. -/
inductive TextCycles (o : KeyOrder) : ℕ → Material F → Material F → Prop
  | none (m : Material F) : TextCycles o 0 m m
  | step {k : ℕ} {m m' m'' : Material F} {ext : String} (he : IsText ext) (h : TextCycles o k m m')
      (h' : Cycle o ext m' m'') : TextCycles o (k + 1) m m''

theorem keptLines_close {o : KeyOrder} (ho : o.Valid) (c : List Char) (k : ℕ) :
    keptLines (closeLines (keptLines c ++ List.replicate (k + 1) [' '])) =
      keptLines c ++ List.replicate (k + 1) [' '] := by
  have hsplit : keptLines c ++ List.replicate (k + 1) [' '] =
      (keptLines c ++ List.replicate k [' ']) ++ [[' ']] := by
    rw [List.replicate_succ', List.append_assoc]
  have hfree : ∀ l ∈ keptLines c ++ List.replicate k [' '], '\n' ∉ l := by
    intro l hl
    rcases List.mem_append.1 hl with hl | hl
    · have hm := List.mem_of_mem_filter hl
      rw [commentBodies] at hm
      split at hm
      · cases hm
      · exact splitOnChar_free _ l hm
    · rw [List.eq_of_mem_replicate hl]; decide
  rw [keptLines_eq ho, hsplit, commentBodies_close _ hfree, ← hsplit]
  refine List.filter_eq_self.2 ?_
  intro l hl
  rcases List.mem_append.1 hl with hl | hl
  · rw [keptLines_eq ho] at hl
    exact (List.mem_filter.1 hl).2
  · rw [List.eq_of_mem_replicate hl, blank_role]; rfl

/-- C47 for text files: after one or more cycles the comment consists of the lines of the first
comment that fill no field, each closed by a line feed, and one blank line per cycle. Lines such as
`Author: …` are gone. The claim itself is false for every comment. -/
theorem C47_text [PrintingLaws F] {o : KeyOrder} (ho : o.Valid) {k : ℕ} {m m' : Material F}
    (hx : CleanTexts m) {c : List Char} (hc : HasComment m c) (h : TextCycles o (k + 1) m m') :
    HasComment m' (closeLines (keptLines c ++ List.replicate (k + 1) [' '])) := by
  have key : ∀ k m', TextCycles o k m m' → CleanTexts m' ∧
      HasComment m' (if k = 0 then c else closeLines (keptLines c ++ List.replicate k [' '])) := by
    intro k m' h
    clear ‹TextCycles o (_ + 1) m _›
    induction h with
    | none => exact ⟨hx, hc⟩
    | @step k m1 m2 m3 ext he h1 h2 ih =>
      obtain ⟨i1, i2⟩ := ih hx hc
      obtain ⟨g1, g2⟩ := text_step ho he i1 i2 h2
      refine ⟨g1, ?_⟩
      rw [if_neg (Nat.succ_ne_zero k)]
      by_cases hk : k = 0
      · subst hk
        exact g2
      · rw [if_neg hk] at g2
        obtain ⟨j, rfl⟩ := Nat.exists_eq_succ_of_ne_zero hk
        rw [keptLines_close ho, List.append_assoc, ← List.replicate_succ'] at g2
        exact g2
  have := (key (k + 1) m' h).2
  rwa [if_neg (Nat.succ_ne_zero k)] at this

end Disp

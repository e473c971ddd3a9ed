import Verif.Props.CutNumbers
import Verif.Props.TextExtinction
/-!
# C125: what an interrupted save can leave
-/

namespace Disp

open Spec

section files
variable {F : Type} [PyFloat F] [SciPy F] [NumText F] [Printing F] [YamlIO F]

/-- The material loaded from a file with the given text. -/
def Spec.LoadsAs (o : KeyOrder) (ext : String) (text : List Char) (m : Material F) : Prop :=
  ∃ (fd : FileDict F) (r' : Reader F),
    (Reader.fresh o : Reader F).readFile o ext text = (.ok fd, r') ∧
    Material.new (fun _ => .ok fd) (fileKw F "") = .ok m

/-- Every beginning of the new text can be left. -/
theorem prefix_state {w w' : Writer F} {ic rii : Bool} {text : List Char}
    (h : w.writeFile ic rii = (.ok text, w')) {s : List Char} (hs : s <+: text) (old : List Char) :
    s ∈ w.writeStates ic rii old := by
  have fin : ∀ {c : MetaVal} {extra : Bool} {t : List Char},
      Writer.writeFile.finish c extra t = .ok text → s ∈ textStates c extra t := by
    intro c extra t h
    cases c with
    | str c =>
      simp only [Writer.writeFile.finish] at h
      simp only [textStates]
      split at h
      · cases h
        exact List.mem_append_left _ (mem_beginnings.2 hs)
      · rename_i hc
        cases h
        rw [if_neg hc]
        exact List.mem_append_right _ (mem_beginnings.2 hs)
    | dict d => cases h
  unfold Writer.writeFile at h
  unfold Writer.writeStates
  cases hp : dictPop w.metaData "MetaComment" with
  | error e => rw [hp] at h; cases h
  | ok p =>
    obtain ⟨c, md⟩ := p
    rw [hp] at h
    simp only at h ⊢
    split at h
    · rename_i hf
      rw [hf]
      split at h
      · cases h
      · rename_i ht
        rw [ht]
        exact List.mem_cons_of_mem _ (fin (congrArg Prod.fst h))
    · rename_i hf
      rw [hf]
      split at h
      · rename_i he
        simp only [if_pos he]
        split at h
        · cases h
        · rename_i ht
          rw [ht]
          exact List.mem_cons_of_mem _ (fin (congrArg Prod.fst h))
      · cases h

variable [PrintingLaws F]

omit [PyFloat F] [SciPy F] [NumText F] [YamlIO F] [PrintingLaws F] in
theorem savetxt_take (delim : Char) (rows : List (List F)) (k : ℕ) :
    savetxtRows delim (rows.take k) <+: savetxtRows delim rows := by
  conv_rhs => rw [← List.take_append_drop k rows]
  simp only [savetxtRows, List.flatMap_append]
  exact List.prefix_append _ _

/-- A file with the first rows. -/
theorem short_file {m : Material F} (hx : CleanTexts m) {ext : String} (he : IsText ext)
    {w w' : Writer F} (hn : Writer.new ext m = .ok w) {ic rii : Bool} {text : List Char}
    (hw : w.writeFile ic rii = (.ok text, w')) {o : KeyOrder} (ho : o.Valid)
    {fd0 : FileDict F} {r0 : Reader F} {d0 : Dataset F} {n : ℕ} {full : List (List F)}
    (hfull : (Reader.fresh o : Reader F).readFile o ext text = (.ok fd0, r0))
    (hfd : fd0.datasets = [d0]) (hd0 : dictGet d0 "Data" = .ok (.arr (.d2 n .float full)))
    (hn2 : 2 ≤ n) {k : ℕ} (hk : 2 ≤ k) :
    ∃ s fd r' d, s <+: text ∧ (Reader.fresh o : Reader F).readFile o ext s = (.ok fd, r') ∧
      fd.datasets = [d] ∧ dictGet d "Data" = .ok (.arr (.d2 n .float (full.take k))) ∧
      ∀ k ∈ ["SpectrumType", "Unit", "DataType"], dictGet d k = dictGet d0 k := by
  obtain ⟨md, rd, hmd, hrd, gm, cm, pc, c1, c2⟩ := hx.ex
  obtain ⟨c, hcc⟩ := gm.comment
  obtain ⟨delim, rsep, hes⟩ := ext_sep he
  obtain ⟨d1, ds1, t, sx, n', rows, a, fd', d, r2, p1, p2, p3, p4, p5, p6, p7, p8, p9, p10, p11, p12,
    p13, p14, p15, p16⟩ := text_cycle hes hn hmd hrd hcc (pc _ hcc) cm c1 c2 hw ho
  have e1 : fd' = fd0 := by rw [p9] at hfull; cases hfull; rfl
  subst e1
  have e2 : d = d0 := by rw [p10] at hfd; cases hfd; rfl
  subst e2
  have e3 : a = .d2 n .float full := by rw [p11] at hd0; cases hd0; rfl
  subst e3
  obtain ⟨e4, -, h2, hwid⟩ := squeeze_d2 p8
  have e5 : n' = n := by
    cases rows with
    | nil => exact absurd rfl p6
    | cons r rows =>
      have h1 := hwid (r.map Printing.shown8) (by simp)
      have h2 := p7 r (by simp)
      rw [List.length_map] at h1
      omega
  subst e5
  obtain ⟨rd', md', d1', ds1', r1, r2', r3, r4, r5, r6, r7, r8⟩ := first_dataset hn
  have e1 : rd' = rd := by rw [hrd] at r1; cases r1; rfl
  have e2 : md' = md := by rw [hmd] at r2'; cases r2'; rfl
  have e3 : d1' = d1 := by rw [p1] at r3; cases r3; rfl
  subst e1 e2 e3
  have hget : ∀ k, k ≠ "Alias" → dictGet w.metaData k = dictGet md' k := by
    intro k hk; rw [r5]; exact dictGet_filter _ hk
  have hmw : CleanMeta w.metaData := by
    intro k hk s hs
    refine cm k hk s ?_
    rw [← hs]
    refine (hget k ?_).symm
    rintro rfl; exact absurd hk (by decide)
  obtain ⟨-, t', ht', hdt'⟩ := r8 _ p3
  have e6 : t' = t := by rw [p2] at hdt'; cases hdt'; rfl
  subst e6
  have hclean : Clean t'.toList := by
    have : ∀ t ∈ tableTypes, (∀ c ∈ t.toList, isLineEnd c = false) ∧
        ∀ c ∈ t.toList.head?, pySpace c = false := by decide
    exact this t' ht'
  have htne : t' ≠ "" := by
    have : ∀ t ∈ tableTypes, t ≠ "" := by decide
    exact this t' ht'
  obtain ⟨v, n2, dtp, rows', q1, q2, q3⟩ := written_text (w := w) (by rw [r4]; exact hes)
    ((hget _ (by decide)).trans hcc) r3 r6 r7 p2 hmw c1 c2 hclean hw
  have ev : v = .str sx := by rw [p3] at q1; cases q1; rfl
  subst ev
  have e7 : rows' = rows := by
    have : (.ok (.d2 n' .float rows) : Res (NDArr F)) = .ok (.d2 n2 dtp rows') := p4.symm.trans q2
    cases this; rfl
  subst e7
  set md1 := w.metaData.filter (fun p => p.1 ≠ "MetaComment") with hmd1
  have hm1 : CleanMeta md1 := by
    intro k hk x hx
    refine hmw k hk x ?_
    rw [← hx, hmd1]
    refine (dictGet_filter _ ?_).symm
    rintro rfl; exact absurd hk (by decide)
  have hbod : ∀ b ∈ commentBodies c.toList ++
      headerBodies md1 rd'.stype.toList rd'.unit.toList t'.toList, OneLine b := by
    intro b hb
    rcases List.mem_append.1 hb with hb | hb
    · exact commentBodies_one (pc _ hcc) b hb
    · exact headerBodies_one hm1 c1 c2 hclean b hb
  have hne' : ∀ r ∈ rows'.take k, r ≠ [] := by
    rintro r hr rfl
    have := p7 [] (List.mem_of_mem_take hr)
    simp at this; omega
  obtain ⟨a, ha, ha2⟩ := squeezeRows_ok (m := n')
    (rows := (rows'.take k).map (fun r => r.map Printing.shown8)) (by
      intro r hr
      obtain ⟨p, hp, rfl⟩ := List.mem_map.1 hr
      rw [List.length_map]; exact p7 p (List.mem_of_mem_take hp))
  have ea : a = .d2 n' .float (full.take k) := by
    rw [ha2 (by simp at h2 ⊢; omega) hn2, List.map_take, e4]
  subst ea
  have hread := read_written hes hbod hne' ha (Reader.fresh o) o
  obtain ⟨g1, g2, g3, g4, g5, g6⟩ := cycle_fields ho hm1 c1 c2 hclean (commentBodies c.toList)
    ((Reader.fresh o : Reader F).textStart o (.d2 n' .float (full.take k)))
  generalize List.foldl (textStep o) _ _ = S at hread g1 g2 g3 g4 g5 g6
  have hinf : inferType S.dataset = .ok S.dataset := by
    rw [inferType, g4]
    simp only [if_neg htne]
  rw [Reader.textResult, hinf] at hread
  refine ⟨_, _, _, S.dataset, ?_, hread, rfl, ?_, ?_⟩
  · rw [q3]
    exact (List.prefix_append_right_inj _).2 (savetxt_take _ _ _)
  · rw [g5]
    show dictGet (dictSet (defaultDataset o) "Data" _) "Data" = _
    rw [dictGet_set, if_pos rfl]
  · intro key hk
    simp only [List.mem_cons, List.not_mem_nil, or_false] at hk
    rcases hk with rfl | rfl | rfl
    · rw [g2, p12]
    · rw [g3, p13]
    · rw [g4, p14]

end files

noncomputable section doubles

variable [SciPy Dbl] [YamlIO Dbl]

/-- C125 as far as it holds, for doubles: the number that is cut lies between zero and the true one.
Missing: that nothing can be read unless the new file is complete, which is false. -/
theorem C125_numbers_partial {m : Material Dbl} (hx : CleanTexts m) {ext : String} (he : IsText ext)
    {w w' : Writer Dbl} (hn : Writer.new ext m = .ok w) {ic rii : Bool} {text : List Char}
    (hw : w.writeFile ic rii = (.ok text, w')) {o : KeyOrder} (ho : o.Valid)
    {fd0 : FileDict Dbl} {r0 : Reader Dbl} {d0 : Dataset Dbl} {n : ℕ} {full : List (List Dbl)}
    (hfull : (Reader.fresh o : Reader Dbl).readFile o ext text = (.ok fd0, r0))
    (hfd : fd0.datasets = [d0]) (hd0 : dictGet d0 "Data" = .ok (.arr (.d2 n .float full)))
    {old s : List Char} (hs : s ∈ w.writeStates ic rii old) :
    s = old ∨ ∀ fd r', (Reader.fresh o : Reader Dbl).readFile o ext s = (.ok fd, r') →
      ∃ d a, fd.datasets = [d] ∧ dictGet d "Data" = .ok (.arr a) ∧
        ∀ c dt left, a = .d2 c dt left → c = n ∧ dt = .float ∧ CutOff Shortened full left ∧
          ∀ k ∈ ["SpectrumType", "Unit", "DataType"], dictGet d k = dictGet d0 k :=
  C125_left_partial cutNumbers_double hx he hn hw ho hfull hfd hd0 hs

theorem GoodTable.take {n : ℕ} {rows : List (List Dbl)} (h : GoodTable n rows) {k : ℕ} (hk : 0 < k) :
    GoodTable n (rows.take k) where
  nonempty := by
    intro h0
    rcases List.take_eq_nil_iff.1 h0 with h1 | h1
    · omega
    · exact h.nonempty h1
  width r hr := h.width r (List.mem_of_mem_take hr)
  noNaN r hr := h.noNaN r (List.mem_of_mem_take hr)
  distinct := h.distinct.sublist (List.take_sublist _ _)

/-- An interrupted save loses rows without any error: for every number of rows from two there is a
moment at which the file on the disk loads as a material with that many rows only. -/
theorem C125_lost_partial {m : Material Dbl} (hx : CleanTexts m) {rows : List (List Dbl)}
    {t u cl : String} (hnm : (lower t, lower u, cl) ∈ names) (hm : HasIndex m rows t u)
    (hl : ∀ r ∈ rows, r.length = 2) (h2 : 2 ≤ rows.length) (h500 : rows.length ≤ 500)
    (hg : GoodTable 2 (fileTable rows)) {o : KeyOrder} (ho : o.Valid) {ext : String}
    (he : IsText ext) (ic rii : Bool) (old : List Char) {k : ℕ} (hk : 2 ≤ k) :
    ∃ w w' text s m', Writer.new ext m = .ok w ∧ w.writeFile ic rii = (.ok text, w') ∧
      s <+: text ∧ s ∈ w.writeStates ic rii old ∧ LoadsAs o ext s m' ∧
      HasIndex m' ((fileTable rows).take k) t u := by
  obtain ⟨r, q1, q2, q3, q4, q5, q6, q7⟩ := hm.ex
  have hlp : (pairsOf rows 1).length = rows.length := by simp [pairsOf]
  obtain ⟨s, rfl, st⟩ := tableData_interp (by rw [hlp]; exact h2) q1
  have hw : WritesTable m "tabulated n" (fileTable rows) 2 := by
    have := C46_index_partial hx q5 q2 q3 q4 st (cdata_storable _) (cdata_not_table _)
      (by rw [hlp]; exact h2) (by rw [hlp]; exact h500)
    rw [rowsOf_pairs_two hl] at this
    exact this
  obtain ⟨w, w', text, fd, d, r', g1, g2, g3, g4, g5, g6, g7⟩ := hw ext he ic rii o ho
  obtain ⟨g8, g9⟩ := g7 _ q3
  replace g8 : dictGet d "SpectrumType" = .ok (.str t) := g8
  replace g9 : dictGet d "Unit" = .ok (.str u) := g9
  obtain ⟨sx, fd2, r2, d2, k1, k2, k3, k4, k5⟩ := short_file hx he g1 g2 ho g3 g4 g6 (by norm_num) hk
  have hg' := hg.take (k := k) (by omega)
  obtain ⟨rr, hr⟩ := tableData_ok hg' 1 hnm
  obtain ⟨n1, n2⟩ := nonEmpty_of_name hnm
  obtain ⟨delim, rsep, hes⟩ := ext_sep he
  obtain ⟨mdx, hnew⟩ := new_file_ok (F := Dbl) (p := "") (text_hasMeta ho hes.format k2)
    (m1 := { fileBlank Dbl "" [] with
      defType := t, defUnit := u, name := "nk", real := some rr }) (by
    intro md
    rw [k3, List.foldlM_cons, load_n _ ((k5 _ (by simp)).trans g5) k4
      (validate_ok (by norm_num) hg'.width) hg'.width ((k5 _ (by simp)).trans g8)
      ((k5 _ (by simp)).trans g9) n1 n2, hr]
    rfl)
  exact ⟨w, w', text, sx, _, g1, g2, k1, prefix_state g2 k1 old, ⟨fd2, r2, k2, hnew⟩,
    ⟨rr, hr, rfl, rfl, rfl, rfl, rfl, rfl⟩⟩

/-- C125 as stated: if saving is interrupted, the file can be loaded only if it is the previous one or
if it holds the same data as the complete one. -/
def C125_statement : Prop := ∀ (o : KeyOrder), o.Valid → ∀ (m : Material Dbl), Tabulated m →
  ∀ ext, IsText ext → ∀ (ic rii : Bool) (w w' : Writer Dbl) (text : List Char),
  Writer.new ext m = .ok w → w.writeFile ic rii = (.ok text, w') →
  ∀ old s, s ∈ w.writeStates ic rii old → ∀ m' : Material Dbl, LoadsAs o ext s m' →
    s = old ∨ ∀ m'' : Material Dbl, LoadsAs o ext text m'' → SameTables m'' m'

/-- 400, 500 and 600 nm. -/
def threeRows : List (List Dbl) :=
  [[intDbl 400, intDbl 2], [intDbl 500, intDbl 1], [intDbl 600, intDbl 3]]

theorem threeRows_file : fileTable threeRows = threeRows := by
  have h : ∀ n : ℤ, |n| < 10 ^ 9 → ∀ b, cellShown false (cellShown b (intDbl n)) = intDbl n := by
    intro n hn b
    rw [(short_int hn).shown, (short_int hn).shown]
  rw [fileTable_eq]
  simp only [threeRows, List.map_cons, List.map_nil]
  rw [h 400 (by norm_num), h 500 (by norm_num), h 600 (by norm_num), h 2 (by norm_num),
    h 1 (by norm_num), h 3 (by norm_num)]

theorem threeRows_good : GoodTable 2 threeRows := by
  have e4 := intDbl_val (n := 400) (by norm_num)
  have e5 := intDbl_val (n := 500) (by norm_num)
  have e6 := intDbl_val (n := 600) (by norm_num)
  refine ⟨by simp [threeRows], ?_, ?_, ?_⟩
  · intro r hr
    simp only [threeRows, List.mem_cons, List.not_mem_nil, or_false] at hr
    rcases hr with rfl | rfl | rfl <;> rfl
  · intro r hr
    simp only [threeRows, List.mem_cons, List.not_mem_nil, or_false] at hr
    rcases hr with rfl | rfl | rfl
    · exact (short_int (n := 400) (by norm_num)).noNaN
    · exact (short_int (n := 500) (by norm_num)).noNaN
    · exact (short_int (n := 600) (by norm_num)).noNaN
  · simp only [threeRows, List.pairwise_cons, List.mem_cons, List.not_mem_nil, or_false,
      forall_eq_or_imp, forall_eq, List.Pairwise.nil, and_true, IsEmpty.forall_iff, implies_true]
    exact ⟨⟨dbl_ne e4 e5 (by norm_num), dbl_ne e4 e6 (by norm_num)⟩, dbl_ne e5 e6 (by norm_num)⟩

/-- Beside the theorems: three rows are saved, and an interruption leaves two of them. -/
theorem three_lost : ∃ (o : KeyOrder) (m m' m'' : Material Dbl) (w w' : Writer Dbl)
    (text s : List Char), o.Valid ∧ Tabulated m ∧ Writer.new ".txt" m = .ok w ∧
    w.writeFile false false = (.ok text, w') ∧ s <+: text ∧ s ∈ w.writeStates false false (s ++ ['x']) ∧
    LoadsAs o ".txt" s m' ∧ LoadsAs o ".txt" text m'' ∧
    HasIndex m' (threeRows.take 2) "wavelength" "nanometer" ∧
    HasIndex m'' threeRows "wavelength" "nanometer" := by
  have hc : (lower "wavelength", lower "nanometer", "nm") ∈ names := by decide +kernel
  have ho : (⟨fileMetaKeys, datasetMetaKeys⟩ : KeyOrder).Valid := ⟨.refl _, .refl _⟩
  obtain ⟨m, hm, h0⟩ := drift_material hc threeRows_good (by simp [threeRows]) (by simp [threeRows])
  have hg : GoodTable 2 (fileTable threeRows) := by rw [threeRows_file]; exact threeRows_good
  obtain ⟨m'', h1, -, h3⟩ := table_saved hm.texts hc h0 threeRows_good.width (by simp [threeRows])
    (by simp [threeRows]) hg ho (ext := ".txt") (.inl rfl) false false
  obtain ⟨w, w', text, s, m', k1, k2, k3, -, k5, k6⟩ := C125_lost_partial hm.texts hc h0
    threeRows_good.width (by simp [threeRows]) (by simp [threeRows]) hg ho (ext := ".txt") (.inl rfl)
    false false [] (k := 2) le_rfl
  rw [threeRows_file] at h3 k6
  obtain ⟨v, v', text', fd, r', a1, a2, a3, a4⟩ := h1
  rw [k1] at a1
  cases a1
  rw [k2] at a2
  cases a2
  exact ⟨_, m, m', m'', _, _, _, s, ho, hm, k1, k2, k3, prefix_state k2 k3 _, k5, ⟨fd, r', a3, a4⟩,
    k6, h3⟩

/-- C125 is false: an interrupted save of three rows can leave a file that loads as a material with
two. -/
theorem C125_refuted : ¬ C125_statement := by
  intro h
  obtain ⟨o, m, m', m'', w, w', text, s, ho, hm, k1, k2, -, k4, k5, k6, k7, k8⟩ := three_lost
  rcases h o ho m hm ".txt" (.inl rfl) false false w w' text k1 k2 _ s k4 m' k5 with h0 | h0
  · have := congrArg List.length h0
    simp at this
  · have hr := (h0 m'' k6).real
    obtain ⟨r, q1, -, q3, -⟩ := k7.ex
    obtain ⟨r2, p1, -, p3, -⟩ := k8.ex
    obtain ⟨s1, rfl, -⟩ := tableData_interp (by simp [pairsOf, threeRows]) q1
    obtain ⟨s2, rfl, -⟩ := tableData_interp (by simp [pairsOf, threeRows]) p1
    rw [q3, p3] at hr
    cases hr

end doubles

end Disp

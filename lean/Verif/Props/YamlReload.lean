import Verif.Props.YamlCycle
/-!
# C47, C50, C68: cycles through YAML files
-/

namespace Disp

open Spec

variable {F : Type} [PyFloat F] [SciPy F] [NumText F]

/-! ## The metadata of a material from a file -/

/-- The metadata of a material are those of its file. -/
theorem file_meta {fd : FileDict F} {p : String} {m' : Material F}
    (h : Material.new (fun _ => .ok fd) (fileKw F p) = .ok m') :
    ∃ md', m'.metaData = some md' ∧ md'.map Prod.fst = fileKeys ∧
      ∀ k ∈ fileKeys, dictGet md' k = dictGet fd.metaData k := by
  rw [new_file_eq] at h
  cases hp : processFileData (blankMaterial (parsedOf (fileKw F p))) fd with
  | error e => rw [hp] at h; cases h
  | ok m1 =>
    rw [hp] at h
    have e : finish m1 = m' := by cases h; rfl
    subst e
    unfold processFileData at hp
    obtain ⟨md', hmd, hp⟩ := except_bind_ok hp
    have hfold : ∀ (ds : List (Dataset F)) (a b : Material F),
        ds.foldlM processDataset a = .ok b → b.metaData = a.metaData := by
      intro ds
      induction ds with
      | nil => intro a b h; cases h; rfl
      | cons d ds ih =>
        intro a b h
        rw [List.foldlM_cons] at h
        obtain ⟨c, h1, h2⟩ := except_bind_ok h
        rw [ih _ _ h2, (processDataset_sameMeta h1).1]
    have hkeys : ∀ (ks : List String) (l : List (String × MetaVal)),
        ks.mapM (fun k => (do .ok (k, ← dictGet fd.metaData k) : Res (String × MetaVal))) = .ok l →
        l.map Prod.fst = ks ∧ (∀ p ∈ l, dictGet fd.metaData p.1 = .ok p.2) := by
      intro ks
      induction ks with
      | nil => intro l hl; cases hl; simp
      | cons k ks ih =>
        intro l hl
        rw [List.mapM_cons] at hl
        obtain ⟨q, hq, hl⟩ := except_bind_ok hl
        obtain ⟨l', hl', hl⟩ := except_bind_ok hl
        obtain ⟨v, hv, hq⟩ := except_bind_ok hq
        cases hq; cases hl
        obtain ⟨i1, i2⟩ := ih l' hl'
        refine ⟨by simp [i1], ?_⟩
        intro p hp
        rcases List.mem_cons.1 hp with rfl | hp
        · exact hv
        · exact i2 p hp
    obtain ⟨k1, k2⟩ := hkeys _ _ hmd
    have hkk : Keys md' := by
      show (md'.map Prod.fst).Nodup
      rw [k1]; decide
    refine ⟨md', hfold _ _ _ hp, k1, ?_⟩
    intro k hk
    have : k ∈ md'.map Prod.fst := by rw [k1]; exact hk
    obtain ⟨q, hq, rfl⟩ := List.mem_map.1 this
    rw [k2 q hq]
    exact dictGet_of_mem hkk hq

theorem joinLines_split : ∀ l : List Char, Reader.readYaml.joinLines (splitOnChar '\n' l) = l
  | [] => rfl
  | c :: l => by
    have ih := joinLines_split l
    rw [splitOnChar]
    split
    · rename_i h
      subst h
      cases hs : splitOnChar '\n' l with
      | nil => exact absurd hs (splitOnChar_ne_nil _ _)
      | cons w ws =>
        rw [hs] at ih
        rw [Reader.readYaml.joinLines, ih]; rfl
    · cases hs : splitOnChar '\n' l with
      | nil => rw [hs] at ih; rw [← ih]; rfl
      | cons w ws =>
        rw [hs] at ih
        cases ws with
        | nil => rw [← ih]; rfl
        | cons v ws => rw [← ih]; rfl

/-- The text between the first and the last line of a comment, without line feeds at its end. -/
theorem joinLines_bodies (c : List Char) :
    Reader.readYaml.joinLines (commentBodies c) = rstripNl c := by
  rw [commentBodies]
  split
  · rename_i h; subst h; rfl
  · exact joinLines_split _

/-- The metadata after a cycle: the documented texts are the same, the comment has lost its line
feeds at the end and then its last character, and the specification has the same documented
entries. -/
structure Spec.YamlMeta (md md' : List (String × MetaVal)) : Prop where
  text : ∀ k ∈ ["Reference", "Author", "FullName", "Name", "Comment"], dictGet md' k = dictGet md k
  comment : ∀ c, dictGet md "MetaComment" = .ok (.str c) →
    dictGet md' "MetaComment" = .ok (.str (String.ofList (rstripNl c.toList).dropLast))
  spec : ∀ s, dictGet md "Specification" = .ok (.dict s) → ∃ s',
    dictGet md' "Specification" = .ok (.dict s') ∧
      s'.Perm (s.filter (fun p => documentedSpecs.contains p.1))

variable [YamlIO F] [YamlLaws F]

/-- Reading a file that was written, dataset by dataset. -/
theorem reload_list {o : KeyOrder} (ho : o.Valid)
    {md : List (String × MetaVal)} (hm : MetaOk md) (hp : PlainMeta md)
    {c : String} (hc : dictGet md "MetaComment" = .ok (.str c))
    {s : List (String × String)} (hs : dictGet md "Specification" = .ok (.dict s))
    {ds : List (Dataset F)} {Ps : List (Dataset F → Prop)}
    (h : List.Forall₂ (fun d P => TextDataset d ∧ ∀ d', d.Perm d' →
      ∃ out, processMatData1 o d' = .ok out ∧ P out) ds Ps) :
    ∃ fd r', (Reader.fresh o : Reader F).readFile o ".yml" (yamlText c (yamlOf md s ds)) =
        (.ok fd, r') ∧
      List.Forall₂ (fun P out => P out) Ps fd.datasets ∧ YamlMeta md fd.metaData ∧
      HasMeta fd.metaData := by
  have hl : ∀ d ∈ ds, TextDataset d ∧ ∀ d', d.Perm d' → ∃ out, processMatData1 o d' = .ok out := by
    intro d hd
    obtain ⟨P, _, h1, h2⟩ := forall₂_left h d hd
    exact ⟨h1, fun d' hd' => by obtain ⟨out, e, _⟩ := h2 d' hd'; exact ⟨out, e⟩⟩
  obtain ⟨fd, r', ds', e1, e2, e3, e4, e5, s', e6, e7⟩ := yaml_read (F := F) ho hm hp hc hs
    (fun d hd => (hl d hd).1) (fun d hd => (hl d hd).2)
  refine ⟨fd, r', e1, ?_, ⟨e4, ?_, ?_⟩, ?_⟩
  · clear e1 e4 e5 e6 e7 hl
    generalize fd.datasets = outs at e3
    induction h generalizing ds' outs with
    | nil => cases e2; cases e3; exact .nil
    | cons h1 _ ih =>
      cases e2 with
      | cons p1 p2 =>
        obtain ⟨out, q1, q2⟩ := h1.2 _ p1
        rw [List.mapM_cons, q1] at e3
        obtain ⟨out', q0, e3⟩ := except_bind_ok e3
        cases q0
        obtain ⟨outs', q3, q4⟩ := except_bind_ok e3
        cases q4
        exact .cons q2 (ih _ p2 _ q3)
  · intro c' hc'
    rw [hc] at hc'
    have : c = c' := by cases hc'; rfl
    subst this
    rw [e5, joinLines_bodies]
  · intro t ht
    rw [hs] at ht
    have : s = t := by cases ht; rfl
    subst this
    exact ⟨s', e6, e7.trans (C52_documented (hp.spec _ _ hs).1).1⟩
  · intro k hk
    have : ∀ k ∈ fileKeys, k ∈ writtenKeys ∨ k = "MetaComment" ∨ k = "Specification" := by decide
    rcases this k hk with hw | rfl | rfl
    · obtain ⟨x, hx⟩ := hm.good.text k hw
      exact ⟨_, by rw [e4 k hw]; exact hx⟩
    · exact ⟨_, e5⟩
    · exact ⟨_, e6⟩

/-! ## Cycles -/

variable [Printing F] [PrintingLaws F]

/-- The part is not a model. -/
def Spec.NoModel (d : RealData F) : Prop := ∀ k ps s t u, d ≠ .model k ps s t u

/-- Two tables with the same printed abscissae, type and unit can be read back from the table in
which they are joined: it has at most 333 rows, and the abscissae remain distinct when they are
printed again. -/
def Spec.JoinOk (r i : RealData F) : Prop :=
  ∀ o ps s o' ps' s' t u, r = .interp o ps s t u → i = .interp o' ps' s' t u →
    SameAbscissae (printed (rowsOf ps)) (printed (rowsOf ps')) →
    ps.length ≤ 333 ∧ GoodTable 3 (printed (joined (printed (rowsOf ps)) (printed (rowsOf ps'))))

/-- The parts after a cycle. -/
inductive Spec.ReloadedParts (r i r' i' : RealData F) : Prop
  | separate : Reloaded r r' → Reloaded i i' → ReloadedParts r i r' i'
  | joined {o ps s o' ps' s' t u} : r = .interp o ps s t u → i = .interp o' ps' s' t u →
      SameAbscissae (printed (rowsOf ps)) (printed (rowsOf ps')) →
      tableData .float (pairsOf (printed (joined (printed (rowsOf ps)) (printed (rowsOf ps')))) 1)
        t u = .ok r' →
      tableData .float (pairsOf (printed (joined (printed (rowsOf ps)) (printed (rowsOf ps')))) 2)
        t u = .ok i' →
      ReloadedParts r i r' i'

omit [NumText F] [YamlIO F] [YamlLaws F] [Printing F] [PrintingLaws F] in
theorem noModel_table {i : RealData F} (hs : Storable i) (hn : NoModel i) (hc : isConst i = false) :
    ∃ o ps s t u, i = .interp o ps s t u := by
  cases i with
  | constant => cases hc
  | interp o ps s t u => exact ⟨o, ps, s, t, u, rfl⟩
  | model k ps s t u => exact (hn _ _ _ _ _ rfl).elim
  | extrap b o s r t u => exact (hs.2 _ _ _ _ _ _ rfl).elim

theorem loadable_plain {d : RealData F} (h : Loadable d) (hc : isConst d = false) :
    PlainText d.stype ∧ PlainText d.unit := by
  cases h with
  | constant => cases hc
  | table _ h1 h2 => exact ⟨h1, h2⟩
  | model _ _ _ h1 h2 => exact ⟨h1, h2⟩

theorem reloaded_const {d : RealData F} (hc : isConst d = true) : Reloaded d (cdata (lit 0)) := by
  cases d with
  | constant c s t u => exact .constant c s t u
  | interp => cases hc
  | model => cases hc
  | extrap => cases hc

omit [YamlIO F] [YamlLaws F] in
theorem joined_size {n k : List (List F)} (hn : ∀ r ∈ n, r.length = 2) :
    (joined n k).flatten.length ≤ 3 * n.length := by
  induction n generalizing k with
  | nil => simp [joined]
  | cons r n ih =>
    cases k with
    | nil => simp [joined]
    | cons q k =>
      have := ih (k := k) (fun r hr => hn r (List.mem_cons_of_mem _ hr))
      have h2 := hn r (List.mem_cons_self ..)
      rw [joined] at this ⊢
      rw [List.zipWith_cons_cons, List.flatten_cons, List.length_append, List.length_append,
        List.length_cons, h2]
      simp only [List.length_cons, List.length_nil]
      omega

omit [YamlIO F] [YamlLaws F] in
theorem joined_width {n k : List (List F)} (hn : ∀ r ∈ n, r.length = 2) :
    ∀ r ∈ joined n k, r.length = 3 := by
  induction n generalizing k with
  | nil => simp [joined]
  | cons r n ih =>
    cases k with
    | nil => simp [joined]
    | cons q k =>
      intro x hx
      rw [joined, List.zipWith_cons_cons] at hx
      rcases List.mem_cons.1 hx with rfl | hx
      · simp [hn r (List.mem_cons_self ..)]
      · exact ih (k := k) (fun r hr => hn r (List.mem_cons_of_mem _ hr)) x hx

/-- C50 for materials with a refractive index whose parts can be read back: tables of up to 500
rows, or 333 if both parts share one table, and models of the refractive index. If the file was
written without constants, the new material has the tables and models with their numbers as
printed, the same types and units, and the documented metadata.
Missing: the constants themselves (`C50_constants_unreadable`), longer tables
(`C50_long`), and permittivities (`C50_permittivity`). -/
theorem C50_reload_partial [LawfulCmp F] {m : Material F} {md : List (String × MetaVal)}
    {r i : RealData F} (h : HasParts m md r i) (hn : m.name = "nk") (hp : PlainMeta md)
    (hf : Fits r i) (hr : Loadable r) (hi : Loadable i) (him : NoModel i) (hj : JoinOk r i)
    (ic : Bool) (hic : ic = true ∨ (isConst r = false ∧ isConst i = false))
    (hb : ¬ (isConst r = true ∧ isConst i = true)) {o : KeyOrder} (ho : o.Valid) :
    ∃ w w' text fd r1 m' md' r' i', Writer.new ".yml" m = .ok w ∧
      w.writeFile ic false = (.ok text, w') ∧
      (Reader.fresh o : Reader F).readFile o ".yml" text = (.ok fd, r1) ∧
      Material.new (fun _ => .ok fd) (fileKw F "") = .ok m' ∧
      m'.name = "nk" ∧ m'.real = some r' ∧ m'.imag = some i' ∧ m'.cplx = Option.none ∧
      ReloadedParts r i r' i' ∧ m'.metaData = some md' ∧ YamlMeta md md' := by
  obtain ⟨w, w', c, s, ds, h1, h2, h3, h4, h5⟩ := C49_written_partial h (fun _ => hf) ic false
    (fun ⟨_, a, b⟩ => hb ⟨a, b⟩)
  simp only [Bool.false_eq_true, if_false] at h4
  rw [hn] at h5
  -- it suffices to process the datasets
  suffices hmain : ∃ Ps : List (Dataset F → Prop),
      List.Forall₂ (fun d P => TextDataset d ∧ ∀ d', d.Perm d' →
        ∃ out, processMatData1 o d' = .ok out ∧ P out) ds Ps ∧
      (∀ outs, List.Forall₂ (fun P out => P out) Ps outs → ∀ mdx, ∃ (x : Material F)
        (r' i' : RealData F), outs.foldlM processDataset (fileBlank F "" mdx) = .ok x ∧
        (finish x).name = "nk" ∧ (finish x).real = some r' ∧ (finish x).imag = some i' ∧
        x.cplx = Option.none ∧ ReloadedParts r i r' i') by
    obtain ⟨Ps, k1, k2⟩ := hmain
    obtain ⟨fd, r1, g1, g2, g3, g4⟩ := reload_list ho h.ok hp h2 h3 k1
    obtain ⟨mdx, hnew⟩ := new_file (F := F) "" g4
    obtain ⟨x, r', i', x1, x3, x4, x5, x6, k3⟩ := k2 _ g2 mdx
    have hnew' : Material.new (fun _ => .ok fd) (fileKw F "") = .ok (finish x) := by
      have := hnew fd.datasets
      rw [x1] at this
      exact this
    obtain ⟨md', y1, y2, y3⟩ := file_meta hnew'
    refine ⟨w, w', _, fd, r1, finish x, md', r', i', h1, h4, g1, hnew', x3, x4, x5, x6, k3, y1, ?_⟩
    have hw : ∀ k ∈ writtenKeys, k ∈ fileKeys := by decide
    refine ⟨fun k hk => by rw [y3 k (hw k hk)]; exact g3.text k hk, fun c hc => ?_, fun s hs => ?_⟩
    · rw [y3 _ (by decide)]; exact g3.comment c hc
    · obtain ⟨s', z1, z2⟩ := g3.spec s hs
      exact ⟨s', by rw [y3 _ (by decide)]; exact z1, z2⟩
  have sn : sfx "nk" true = " n" := rfl
  have sk : sfx "nk" false = " k" := rfl
  have textOf : ∀ {d : RealData F} {x : String}, Storable d → Loadable d → isConst d = false →
      x ∈ suffixes → TextDataset (outDict d x) := by
    intro d x a b e f
    exact (outDict_text a e f (loadable_plain b e)).1
  rcases h5 with rfl | ⟨_, o1, ps, q, o2, ps', q', t, u, er, ei, hsame, rfl⟩
  · rw [sn, sk]
    cases hci : isConst i with
    | true =>
      have hcr : isConst r = false := by
        cases hcr : isConst r with
        | false => rfl
        | true => exact absurd ⟨hcr, hci⟩ hb
      have hict : ic = true := hic.resolve_right (by simp [hci])
      subst hict
      refine ⟨[fun out => ∃ r', Reloaded r r' ∧ ∀ m : Material F, processDataset m out = .ok { m with
          defType := r.stype, defUnit := r.unit, name := "nk", real := some r' }], ?_, ?_⟩
      · have : ([(r, " n"), (i, " k")].filter (fun p => !(true && isConst p.1))) = [(r, " n")] := by
          simp [hcr, hci]
        rw [this]
        refine .cons ⟨textOf (x := " n") h.storeReal hr hcr (by decide), fun d' hd' => ?_⟩ .nil
        obtain ⟨out, r', a1, a2, a3⟩ := part_read ho h.storeReal hr hcr hd'
        exact ⟨out, a1, r', a2, a3⟩
      · intro outs ho mdx
        cases ho with
        | cons a b =>
          cases b
          obtain ⟨r', a1, a2⟩ := a
          refine ⟨_, r', cdata (lit 0), by rw [List.foldlM_cons, a2]; rfl, rfl, rfl, rfl, rfl,
            .separate a1 (reloaded_const hci)⟩
    | false =>
      obtain ⟨o1, ps, q, t, u, rfl⟩ := noModel_table h.storeImag him hci
      have hk : ∀ d', (outDict (.interp o1 ps q t u) " k").Perm d' → ∃ out,
          processMatData1 o d' = .ok out ∧ ∃ r', Reloaded (.interp o1 ps q t u) r' ∧
          ∀ m : Material F, processDataset m out = .ok { m with
            defType := t, defUnit := u, name := "nk", imag := some r' } := by
        intro d' hd'
        obtain ⟨out, r', a1, a2, a3⟩ := part_read_k ho h.storeImag hi hd'
        exact ⟨out, a1, r', a2, a3⟩
      have hkt := textOf (x := " k") h.storeImag hi hci (by decide)
      cases hcr : isConst r with
      | true =>
        have hict : ic = true := hic.resolve_right (by simp [hcr])
        subst hict
        refine ⟨[fun out => ∃ r', Reloaded (.interp o1 ps q t u) r' ∧
          ∀ m : Material F, processDataset m out = .ok { m with
            defType := t, defUnit := u, name := "nk", imag := some r' }], ?_, ?_⟩
        · have : ([(r, " n"), ((.interp o1 ps q t u : RealData F), " k")].filter
              (fun p => !(true && isConst p.1))) = [(.interp o1 ps q t u, " k")] := by
            simp [hcr, hci]
          rw [this]
          exact .cons ⟨hkt, hk⟩ .nil
        · intro outs ho mdx
          cases ho with
          | cons a b =>
            cases b
            obtain ⟨r', a1, a2⟩ := a
            refine ⟨_, cdata (lit 0), r', by rw [List.foldlM_cons, a2]; rfl, rfl, rfl, rfl, rfl,
              .separate (reloaded_const hcr) a1⟩
      | false =>
        refine ⟨[fun out => ∃ r', Reloaded r r' ∧ ∀ m : Material F, processDataset m out = .ok { m with
            defType := r.stype, defUnit := r.unit, name := "nk", real := some r' },
          fun out => ∃ r', Reloaded (.interp o1 ps q t u) r' ∧
          ∀ m : Material F, processDataset m out = .ok { m with
            defType := t, defUnit := u, name := "nk", imag := some r' }], ?_, ?_⟩
        · have : ([(r, " n"), ((.interp o1 ps q t u : RealData F), " k")].filter
              (fun p => !(ic && isConst p.1))) = [(r, " n"), (.interp o1 ps q t u, " k")] := by
            simp [hcr, hci]
          rw [this]
          refine .cons ⟨textOf (x := " n") h.storeReal hr hcr (by decide), fun d' hd' => ?_⟩ (.cons ⟨hkt, hk⟩ .nil)
          obtain ⟨out, r', a1, a2, a3⟩ := part_read ho h.storeReal hr hcr hd'
          exact ⟨out, a1, r', a2, a3⟩
        · intro outs ho mdx
          cases ho with
          | cons a b =>
            cases b with
            | cons b e =>
              cases e
              obtain ⟨r', a1, a2⟩ := a
              obtain ⟨i', b1, b2⟩ := b
              refine ⟨_, r', i', by rw [List.foldlM_cons, a2]; show (List.foldlM _ _ _ = _); rw [List.foldlM_cons, b2]; rfl,
                rfl, rfl, rfl, rfl, .separate a1 b1⟩
  · subst er ei
    obtain ⟨p1, p2⟩ := loadable_plain hr rfl
    obtain ⟨l1, hg⟩ := hj _ _ _ _ _ _ _ _ rfl rfl hsame
    have hc : ∃ c, (lower t, lower u, c) ∈ names := by
      cases hr with
      | table hn => exact ⟨_, hn⟩
    obtain ⟨c, hc⟩ := hc
    obtain ⟨n1, n2⟩ := nonEmpty_of_name hc
    obtain ⟨a, ha⟩ := tableData_ok hg 1 hc
    obtain ⟨b, hb⟩ := tableData_ok hg 2 hc
    have hwid : ∀ r ∈ printed (rowsOf ps), r.length = 2 := printed_width rowsOf_length
    have hread : strTableToNumeric (.text (tableText 3 (joined (printed (rowsOf ps))
        (printed (rowsOf ps')))).toList) = .ok (.d2 3 .float
          (printed (joined (printed (rowsOf ps)) (printed (rowsOf ps'))))) := by
      refine tableText_read (by norm_num) (by norm_num) ?_ (joined_width hwid) ?_
      · intro he
        apply hg.nonempty
        rw [he]; rfl
      · have h1 := joined_size (k := printed (rowsOf ps')) hwid
        have h2 : (printed (rowsOf ps)).length = ps.length := by simp [printed, rowsOf]
        omega
    refine ⟨[fun out => dictGet out "DataType" = .ok (.str "tabulated nk") ∧
      dictGet out "Data" = .ok (.str (tableText 3 (joined (printed (rowsOf ps)) (printed (rowsOf ps'))))) ∧
      dictGet out "SpectrumType" = .ok (.str t) ∧ dictGet out "Unit" = .ok (.str u)], ?_, ?_⟩
    · exact .cons ⟨(nkDataset_text p1 p2 _).1, fun d' hd' => nk_entry ho p1 p2 _ hd'⟩ .nil
    · intro outs ho mdx
      cases ho with
      | cons x e =>
        cases e
        obtain ⟨x1, x2, x3, x4⟩ := x
        refine ⟨_, a, b, by
          rw [List.foldlM_cons, load_nk _ x1 x2 hread hg.width x3 x4 n1 n2 ha hb]; rfl,
          rfl, rfl, rfl, rfl, .joined rfl rfl hsame ha hb⟩

/-! ## What is not restored -/

omit [YamlIO F] [YamlLaws F] [Printing F] [PrintingLaws F] in
/-- Processing a table of a permittivity as it is written: only the default type and unit
change. -/
theorem load_eps (m : Material F) {d : Dataset F} {v : DVal F} {a : NDArr F} {x t u : String}
    (hx : x = "eps_r" ∨ x = "eps_k") (hd : dictGet d "DataType" = .ok (.str ("tabulated " ++ x)))
    (hv : dictGet d "Data" = .ok v) (hs : strTableToNumeric v.asTable = .ok a)
    (ht : dictGet d "SpectrumType" = .ok (.str t)) (hu : dictGet d "Unit" = .ok (.str u))
    (ht0 : t ≠ "") (hu0 : u ≠ "") :
    processDataset m d = .ok { m with defType := t, defUnit := u } := by
  have hsp : splitTwo ("tabulated " ++ x) = .ok ("tabulated", x) := by
    rcases hx with rfl | rfl <;> decide +kernel
  unfold processDataset
  simp only [Dataset.getStr, hd, bind, Except.bind, hsp, if_true, hv, hs]
  unfold processTable
  simp only [get_str ht ht0, get_str hu hu0]
  rcases hx with rfl | rfl <;> rfl

/-- Reading a dataset of a permittivity. -/
theorem part_read_eps {o : KeyOrder} (ho : o.Valid) {x : String} (hx : x = "eps_r" ∨ x = "eps_k")
    {o' : ℕ} {ps : List (F × F)} {s : Spectrum F} {t u : String}
    (hs : Storable (.interp o' ps s t u)) (hl : Loadable (.interp o' ps s t u))
    {d' : Dataset F} (hp : (outDict (.interp o' ps s t u) (" " ++ x)).Perm d') :
    ∃ out, processMatData1 o d' = .ok out ∧
      ∀ m : Material F, processDataset m out = .ok { m with defType := t, defUnit := u } := by
  cases hl with
  | table hn pt pu h5 hg =>
    rename_i c
    have hsx : " " ++ x ∈ suffixes := by rcases hx with rfl | rfl <;> decide +kernel
    obtain ⟨ht, hkn⟩ := outDict_text (s := " " ++ x) hs rfl hsx ⟨pt, pu⟩
    have hk := ht.1
    have hg' := perm_get hk hp
    have hne : ps ≠ [] := by rintro rfl; exact hg.nonempty rfl
    obtain ⟨n1, n2⟩ := nonEmpty_of_name hn
    have e0 : "tabulated" ++ (" " ++ x) = "tabulated " ++ x := by
      rcases hx with rfl | rfl <;> decide +kernel
    obtain ⟨out, e1, e2, e3, e4⟩ := read_entry ho ((hp.map Prod.fst).nodup_iff.1 hk)
      (fun p hq => hkn p (hp.mem_iff.2 hq)) (t := "tabulated " ++ x) (by rw [hg', ← e0]; rfl)
      (by rcases hx with rfl | rfl <;> decide +kernel)
      (v := .str (tableText 2 (rowsOf ps))) (by
        have : entryData d' ("tabulated " ++ x).toList = getEither d' "data" "Data" := by
          rcases hx with rfl | rfl <;> rfl
        rw [this, getEither, known_missing (fun p hq => hkn p (hp.mem_iff.2 hq)) (by decide)]
        simp only [hg']; rfl)
    exact ⟨out, e1, fun m => load_eps m hx e2 e3 (table_reads hne h5)
      (e4 "SpectrumType" (by decide) (.str t) (by rw [hg']; rfl))
      (e4 "Unit" (by decide) (.str u) (by rw [hg']; rfl)) n1 n2⟩

/-- C50 fails for tables of a permittivity: the file can be written, read and loaded, but the new
material has no data, and every evaluation raises an error. -/
theorem C50_permittivity {m : Material F} {md : List (String × MetaVal)}
    {r i : RealData F} (h : HasParts m md r i) (hn : m.name = "eps") (hp : PlainMeta md)
    (hr : Loadable r) (hi : Loadable i) (hmr : NoModel r) (him : NoModel i)
    (hcr : isConst r = false) (hci : isConst i = false) {o : KeyOrder} (ho : o.Valid) :
    ∃ m', Cycle o ".yml" m m' ∧ m'.name = "" ∧ m'.real = some (cdata (lit 0)) ∧
      m'.imag = some (cdata (lit 0)) ∧ m'.cplx = Option.none ∧
      ∀ s, (m'.getPermittivity s).1 = .error .value ∧ ∃ e, (m'.getNk s).1 = .error e := by
  have hb : ¬ (true = true ∧ isConst r = true ∧ isConst i = true) := by simp [hcr]
  obtain ⟨w, w', c, s, ds, h1, h2, h3, h4, h5⟩ := C49_written_partial h
    (fun e => absurd (hn.symm.trans e) (by decide)) true false hb
  simp only [Bool.false_eq_true, if_false] at h4
  rcases h5 with rfl | ⟨e, _⟩
  · obtain ⟨o1, ps, q, t, u, rfl⟩ := noModel_table h.storeReal hmr hcr
    obtain ⟨o2, ps', q', t', u', rfl⟩ := noModel_table h.storeImag him hci
    have hds : (([((.interp o1 ps q t u : RealData F), sfx m.name true),
        (.interp o2 ps' q' t' u', sfx m.name false)].filter
          (fun p => !(true && isConst p.1))).map (fun p => outDict p.1 p.2)) =
        [outDict (.interp o1 ps q t u) (" " ++ "eps_r"),
          outDict (.interp o2 ps' q' t' u') (" " ++ "eps_k")] := by
      rw [hn]; rfl
    rw [hds] at h4
    have hl : List.Forall₂ (fun d (P : Dataset F → Prop) => TextDataset d ∧ ∀ d', d.Perm d' →
        ∃ out, processMatData1 o d' = .ok out ∧ P out)
        [outDict (.interp o1 ps q t u) (" " ++ "eps_r"),
          outDict (.interp o2 ps' q' t' u') (" " ++ "eps_k")]
        [fun out => ∀ m : Material F, processDataset m out = .ok { m with defType := t, defUnit := u },
         fun out => ∀ m : Material F, processDataset m out =
           .ok { m with defType := t', defUnit := u' }] := by
      refine .cons ⟨(outDict_text h.storeReal hcr (by decide +kernel) (loadable_plain hr hcr)).1, ?_⟩
        (.cons ⟨(outDict_text h.storeImag hci (by decide +kernel) (loadable_plain hi hci)).1, ?_⟩ .nil)
      · exact fun d' hd' => part_read_eps ho (.inl rfl) h.storeReal hr hd'
      · exact fun d' hd' => part_read_eps ho (.inr rfl) h.storeImag hi hd'
    obtain ⟨fd, r1, g1, g2, g3, g4⟩ := reload_list ho h.ok hp h2 h3 hl
    obtain ⟨mdx, hnew⟩ := new_file (F := F) "" g4
    have hnew' : Material.new (fun _ => .ok fd) (fileKw F "") =
        .ok (finish { fileBlank F "" mdx with defType := t', defUnit := u' }) := by
      have h' := hnew fd.datasets
      have : (⟨fd.metaData, fd.datasets⟩ : FileDict F) = fd := rfl
      rw [this] at h'
      rw [h']
      revert g2
      generalize fd.datasets = outs
      intro g2
      cases g2 with
      | cons a b =>
        cases b with
        | cons b e =>
          cases e
          rw [List.foldlM_cons, a]
          simp only [bind, Except.bind]
          rw [List.foldlM_cons, b]
          rfl
    refine ⟨_, ⟨w, w', true, false, _, fd, r1, "", h1, h4, g1, hnew'⟩, rfl, rfl, rfl, rfl, ?_⟩
    intro sp
    refine ⟨rfl, ?_⟩
    show ∃ e, Material.nkCore _ _ _ _ = .error e
    unfold Material.nkCore
    cases Spectrum.new sp.values.toRaw sp.stype sp.unit with
    | error e => exact ⟨e, rfl⟩
    | ok v => exact ⟨.value, rfl⟩
  · exact absurd (hn.symm.trans e) (by decide)

/-- C50 fails for two tables of 334 to 500 rows with the same abscissae: the file can be written
and read, but loading it raises `ValueError`. -/
theorem C50_long {m : Material F} {md : List (String × MetaVal)}
    {o1 o2 : ℕ} {ps ps' : List (F × F)} {q q' : Spectrum F} {t u : String}
    (h : HasParts m md (.interp o1 ps q t u) (.interp o2 ps' q' t u)) (hn : m.name = "nk")
    (hp : PlainMeta md) (pt : PlainText t) (pu : PlainText u)
    (hsame : SameAbscissae (printed (rowsOf ps)) (printed (rowsOf ps')))
    (hlen : ps.length = ps'.length) (h334 : 334 ≤ ps.length) (h500 : ps.length ≤ 500)
    (ic : Bool) {o : KeyOrder} (ho : o.Valid) :
    ∃ w w' text fd r1, Writer.new ".yml" m = .ok w ∧ w.writeFile ic false = (.ok text, w') ∧
      (Reader.fresh o : Reader F).readFile o ".yml" text = (.ok fd, r1) ∧
      Material.new (fun _ => .ok fd) (fileKw F "") = .error .value := by
  have hne : ps ≠ [] := by rintro rfl; simp at h334
  have hne' : ps' ≠ [] := by rintro rfl; rw [List.length_nil] at hlen; omega
  have hw := writer_ok ".yml" h.metaData h.cplx h.name h.real h.imag h.storeReal h.storeImag (by
    rw [hn]
    exact (collapse_tables hne hne' h500 (by omega) hlen).1 hsame rfl rfl)
  obtain ⟨c, hc⟩ := h.ok.good.comment
  obtain ⟨s, hs⟩ := h.ok.good.spec
  have p1 : constantIds [nkDataset t u (joined (printed (rowsOf ps)) (printed (rowsOf ps')))] =
      .ok [] := by
    rw [constantIds]
    simp only [List.mapM_cons, List.mapM_nil, bind, Except.bind, pure, Except.pure,
      show (nkDataset t u (joined (printed (rowsOf ps)) (printed (rowsOf ps')))).getStr "DataType" =
        .ok "tabulated nk" from rfl,
      show hasSub "constant".toList "tabulated nk".toList = false from by decide +kernel]
    rfl
  obtain ⟨w', g⟩ := writeYaml_ok (ds' := [nkDataset t u (joined (printed (rowsOf ps))
    (printed (rowsOf ps')))]) h.ok hc hs p1 ic false (by cases ic <;> rfl)
  obtain ⟨fd, r1, g1, g2, g3, g4⟩ := reload_list ho h.ok hp hc hs (Ps := [fun out =>
      dictGet out "DataType" = .ok (.str "tabulated nk") ∧
      dictGet out "Data" = .ok (.str (tableText 3 (joined (printed (rowsOf ps)) (printed (rowsOf ps'))))) ∧
      dictGet out "SpectrumType" = .ok (.str t) ∧ dictGet out "Unit" = .ok (.str u)])
    (.cons ⟨(nkDataset_text pt pu _).1, fun d' hd' => nk_entry ho pt pu _ hd'⟩ .nil)
  obtain ⟨mdx, hnew⟩ := new_file (F := F) "" g4
  refine ⟨_, w', _, fd, r1, hw, g, g1, ?_⟩
  have h' := hnew fd.datasets
  have : (⟨fd.metaData, fd.datasets⟩ : FileDict F) = fd := rfl
  rw [this] at h'
  rw [h']
  have hwid : ∀ r ∈ printed (rowsOf ps), r.length = 2 := printed_width rowsOf_length
  have hjl : (joined (printed (rowsOf ps)) (printed (rowsOf ps'))).length = ps.length := by
    simp [joined, printed, rowsOf, hlen]
  have hjw := joined_width (k := printed (rowsOf ps')) hwid
  have hsize : 1000 < (joined (printed (rowsOf ps)) (printed (rowsOf ps'))).flatten.length := by
    have : ∀ l : List (List F), (∀ r ∈ l, r.length = 3) → l.flatten.length = 3 * l.length := by
      intro l
      induction l with
      | nil => intro _; rfl
      | cons a l ih =>
        intro hl
        rw [List.flatten_cons, List.length_append, ih (fun r hr => hl r (List.mem_cons_of_mem _ hr)),
          hl a (List.mem_cons_self ..), List.length_cons]
        omega
    rw [this _ hjw, hjl]; omega
  have key : ∀ d : Dataset F, dictGet d "DataType" = .ok (.str "tabulated nk") →
      dictGet d "Data" = .ok (.str (tableText 3 (joined (printed (rowsOf ps)) (printed (rowsOf ps'))))) →
      ∀ m : Material F, processDataset m d = .error .value := by
    intro d x1 x2 m
    unfold processDataset
    simp only [Dataset.getStr, x1, x2, bind, Except.bind,
      show splitTwo "tabulated nk" = .ok ("tabulated", "nk") from by decide +kernel, if_true]
    have := tableText_long (F := F) (by norm_num) (by norm_num) hjw hsize
    simp only [DVal.asTable, this]
  revert g2
  generalize fd.datasets = outs
  intro g2
  cases g2 with
  | cons a b =>
    cases b
    obtain ⟨x1, x2, x3, x4⟩ := a
    rw [List.foldlM_cons, key _ x1 x2]
    rfl

omit [YamlLaws F] [PyFloat F] [SciPy F] [Printing F] [PrintingLaws F] in
theorem matLoop_error {o : KeyOrder} {yd : YDict F} {k : String}
    (h : ∀ st, ∃ e, matStep o yd k st = .error e) : ∀ (ks : List String), k ∈ ks → ∀ st,
    ∃ e st', matLoop o yd ks st = (.error e, st') := by
  intro ks
  induction ks with
  | nil => intro hk; cases hk
  | cons a ks ih =>
    intro hk st
    rw [matLoop]
    cases hm : matStep o yd a st with
    | error e => exact ⟨e, st, rfl⟩
    | ok st' =>
      rcases List.mem_cons.1 hk with rfl | hk
      · obtain ⟨e, he⟩ := h st
        rw [hm] at he; cases he
      · exact ih hk st'

omit [YamlLaws F] [Printing F] [PrintingLaws F] [PyFloat F] [SciPy F] in
/-- C50 fails for constants: a file with the dataset of a constant, as it is written with
`ignore_constant=False`, cannot be read. -/
theorem C50_constants_unreadable [PyFloat F] [SciPy F] [Printing F] (r : Reader F) (o : KeyOrder)
    (text : List Char) {yd : YDict F}
    (hl : YamlIO.load (universal text) = .ok yd) {ds : List (Dataset F)}
    (hd : dictGet yd "DATA" = .ok (.data ds)) {d : Dataset F} (hm : d ∈ ds) {c : F}
    {s : Spectrum F} {t u x : String} (hp : (outDict (.constant c s t u) x).Perm d) :
    ∃ e, (r.readFile o ".yml" text).1 = .error e := by
  have hk : Keys (outDict (.constant c s t u) x) := by simp [Keys, outDict]
  have hg := perm_get hk hp
  have hun : processMatData1 o d = .error .key := by
    refine constant_unreadable o (t := "constant" ++ x) ?_ (by rw [hg]; rfl) ?_
    · cases hb : dictHas d "type" with
      | false => rfl
      | true =>
        rw [dictHas] at hb
        obtain ⟨p, hp1, hp2⟩ := List.any_eq_true.1 hb
        have hp2 : p.1 = "type" := by simpa using hp2
        have := hp.mem_iff.2 hp1
        simp only [outDict, List.mem_cons, List.not_mem_nil, or_false] at this
        rcases this with rfl | rfl | rfl | rfl | rfl <;> simp at hp2
    · rw [String.toList_append]
      exact List.isPrefixOf_iff_prefix.2 ⟨_, rfl⟩
  have hmap : ∃ e, ds.mapM (processMatData1 o) = .error e := by
    revert hm
    clear hd
    induction ds with
    | nil => intro h; cases h
    | cons a ds ih =>
      intro h
      rw [List.mapM_cons]
      cases ha : processMatData1 o a with
      | error e => exact ⟨e, rfl⟩
      | ok b =>
        rcases List.mem_cons.1 h with rfl | h
        · rw [hun] at ha; cases ha
        · obtain ⟨e, he⟩ := ih h
          rw [he]; exact ⟨e, rfl⟩
  obtain ⟨e, he⟩ := hmap
  have hstep : ∀ st, ∃ e, matStep o yd "DATA" st = .error e := by
    intro st
    refine ⟨e, ?_⟩
    have h1 : upper "DATA".toList = "DATA".toList := by decide
    unfold matStep
    simp only [h1, String.ofList_toList, hd, bind, Except.bind, if_true, processMatData, he]
  have hin : "DATA" ∈ yd.map (·.1) := List.mem_map_of_mem (f := fun p => p.1) (dictGet_mem hd)
  obtain ⟨e', st', hloop⟩ := matLoop_error hstep _ hin (r.metaData, r.datasets)
  refine ⟨e', ?_⟩
  have ht : textFormat ".yml" = Option.none := by decide
  unfold Reader.readFile
  simp only [ht, if_true]
  unfold Reader.readYaml
  simp only [hl, hloop]

section savedAndLoaded
variable {F : Type} [PyFloat F] [SciPy F] [NumText F] [Printing F] [YamlIO F]

/-- The material is written to a file with the given settings, and a new material is made of the
file. -/
def SavedAndLoaded (o : KeyOrder) (ext : String) (ic rii : Bool) (m m' : Material F) : Prop :=
  ∃ (w w' : Writer F) (text : List Char) (fd : FileDict F) (r' : Reader F),
    Writer.new ext m = .ok w ∧ w.writeFile ic rii = (.ok text, w') ∧
    (Reader.fresh o : Reader F).readFile o ext text = (.ok fd, r') ∧
    Material.new (fun _ => .ok fd) (fileKw F "") = .ok m'

theorem SavedAndLoaded.cycle {o : KeyOrder} {ext : String} {ic rii : Bool}
    {m m' : Material F} (h : SavedAndLoaded o ext ic rii m m') : Cycle o ext m m' := by
  obtain ⟨w, w', text, fd, r', h1, h2, h3, h4⟩ := h
  exact ⟨w, w', ic, rii, text, fd, r', "", h1, h2, h3, h4⟩

/-- There is at most one such material. -/
theorem SavedAndLoaded.unique {o : KeyOrder} {ext : String} {ic rii : Bool}
    {m m' m'' : Material F} (h : SavedAndLoaded o ext ic rii m m')
    (h' : SavedAndLoaded o ext ic rii m m'') : m' = m'' := by
  obtain ⟨w, w', text, fd, r, h1, h2, h3, h4⟩ := h
  obtain ⟨v, v', text', fd', r', g1, g2, g3, g4⟩ := h'
  rw [h1] at g1; cases g1
  rw [h2] at g2
  have e : text = text' := by injection g2 with a b; injection a
  subst e
  rw [h3] at g3
  have e : fd = fd' := by injection g3 with a b; injection a
  subst e
  rw [h4] at g4
  injection g4

end savedAndLoaded

end Disp

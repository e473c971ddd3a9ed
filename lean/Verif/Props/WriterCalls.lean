import Verif.Props.TextTables
import Mathlib.Data.List.Infix
/-!
# C48, C51, C52: prepending comments, repeated calls, specifications
-/

namespace Disp

open Spec

/-! ## C48: prepending a comment -/

namespace Spec

/-- Lines joined by line feeds. -/
def joinLf : List (List Char) → List Char
  | [] => []
  | [l] => l
  | l :: m :: ls => l ++ '\n' :: joinLf (m :: ls)

/-- The block shows the text: its lines, each behind a `#`, without the line ends that close the
text; then possibly an empty line. -/
def HashBlock (block text : List Char) : Prop :=
  ∃ ls ends blank, (∀ l ∈ ls, '\n' ∉ l) ∧ text = joinLf ls ++ ends ∧
    (∀ c ∈ ends, c = '\n' ∨ c = '\r') ∧ (blank = [] ∨ blank = ['\n']) ∧
    block = ls.flatMap (fun l => '#' :: l ++ ['\n']) ++ blank

end Spec

theorem splitOnChar_join : ∀ t : List Char, joinLf (splitOnChar '\n' t) = t
  | [] => rfl
  | c :: cs => by
    have ih := splitOnChar_join cs
    rw [splitOnChar]
    cases hs : splitOnChar '\n' cs with
    | nil => exact absurd hs (splitOnChar_ne_nil _ _)
    | cons w ws =>
      rw [hs] at ih
      by_cases h : c = '\n'
      · rw [if_pos h, joinLf, ih, h]; rfl
      · rw [if_neg h]
        show joinLf ((c :: w) :: ws) = _
        cases ws with
        | nil => rw [joinLf] at ih ⊢; rw [ih]
        | cons v vs => rw [joinLf] at ih ⊢; rw [List.cons_append, ih]

theorem splitOnChar_free {d : Char} : ∀ (l : List Char), ∀ w ∈ splitOnChar d l, d ∉ w
  | [] => by
    intro w hw
    have : w = [] := by simpa [splitOnChar] using hw
    rw [this]; exact List.not_mem_nil
  | c :: cs => by
    intro w hw
    have ih := splitOnChar_free (d := d) cs
    rw [splitOnChar] at hw
    by_cases h : c = d
    · rw [if_pos h] at hw
      rcases List.mem_cons.1 hw with rfl | hw
      · exact List.not_mem_nil
      · exact ih w hw
    · rw [if_neg h] at hw
      cases hs : splitOnChar d cs with
      | nil => exact absurd hs (splitOnChar_ne_nil _ _)
      | cons v vs =>
        rw [hs] at hw ih
        rcases List.mem_cons.1 hw with rfl | hw
        · intro hm
          rcases List.mem_cons.1 hm with e | hm
          · exact h e.symm
          · exact ih v (List.mem_cons_self ..) hm
        · exact ih w (List.mem_cons_of_mem _ hw)

theorem commentBlock_shows (text : List Char) (extra : Bool) :
    HashBlock (commentBlock text extra) text := by
  obtain ⟨ends, h1, h2⟩ := rstripNl_split text
  refine ⟨splitOnChar '\n' (rstripNl text), ends, if extra then ['\n'] else [],
    splitOnChar_free _, ?_, h2, ?_, ?_⟩
  · rw [splitOnChar_join]; exact h1
  · cases extra
    · exact .inl rfl
    · exact .inr rfl
  · have : commentBlock text extra = commentBlock text false ++ (if extra then ['\n'] else []) := by
      cases extra <;> simp [commentBlock]
    rw [this, commentBlock_eq]; rfl

theorem universal_no_cr : ∀ cs : List Char, '\r' ∉ universal cs
  | [] => List.not_mem_nil
  | c :: cs => by
    have ih := universal_no_cr cs
    rw [universal]
    by_cases h : c = '\r'
    · rw [if_pos h]
      split
      · exact ih
      · intro hm
        rcases List.mem_cons.1 hm with e | hm
        · exact absurd e (by decide)
        · exact ih hm
    · rw [if_neg h]
      intro hm
      rcases List.mem_cons.1 hm with e | hm
      · exact h e.symm
      · exact ih hm

/-- C48 for a file without carriage returns and a call that is not interrupted: a block of
comment lines is put in front and the previous content follows as it was. Missing: carriage
returns and interruptions, for which it is false. -/
theorem C48_prepended_partial (text : List Char) (extra : Bool) (content : List Char)
    (h : '\r' ∉ content) :
    ∃ block, HashBlock block text ∧ prependText text extra content = block ++ content :=
  ⟨_, commentBlock_shows text extra, by rw [prependText, universal_id h]⟩

/-- C48: a file with a carriage return is always changed behind the block. -/
theorem C48_carriage_return (text : List Char) (extra : Bool) (content : List Char)
    (h : '\r' ∈ content) :
    ∃ block rest, HashBlock block text ∧ prependText text extra content = block ++ rest ∧
      rest ≠ content :=
  ⟨_, universal content, commentBlock_shows text extra, rfl,
    fun e => universal_no_cr content (by rw [e]; exact h)⟩

/-- C48: the contents of the file at an interruption: as before, or some beginning of the
new content. -/
theorem C48_interrupted (text : List Char) (extra : Bool) (content s : List Char) :
    s ∈ prependStates text extra content ↔ s = content ∨ s <+: prependText text extra content := by
  rw [prependStates, List.mem_cons]
  refine or_congr_right ⟨?_, ?_⟩
  · intro h
    obtain ⟨i, _, rfl⟩ := List.mem_map.1 h
    exact List.take_prefix _ _
  · intro h
    refine List.mem_map.2 ⟨s.length, ?_, ?_⟩
    · rw [List.mem_range]
      have := h.length_le
      omega
    · exact (List.prefix_iff_eq_take.1 h).symm

/-- C48 (full statement, refuted below). -/
def C48_statement : Prop :=
  ∀ (text : List Char) (extra : Bool) (content : List Char),
    (∃ block, HashBlock block text ∧ prependText text extra content = block ++ content) ∧
      ∀ s ∈ prependStates text extra content, content <:+: s

/-- C48 is false in its second half: whatever was in the file, there is a moment at which it is
empty. -/
theorem C48_lost (text : List Char) (extra : Bool) (content : List Char) :
    [] ∈ prependStates text extra content :=
  (C48_interrupted ..).2 (.inr (List.nil_prefix))

theorem C48_refuted : ¬ C48_statement := by
  intro h
  have := (h [] false ['a']).2 [] (C48_lost ..)
  simp at this

/-- C48 is false in its first half too: line ends of other systems are rewritten. -/
example : prependText "x".toList false "a\r\nb".toList = "#x\na\nb".toList := by decide +kernel

/-- Concrete case for `C48_prepended_partial`. -/
example : prependText "two\nlines\n".toList true "1 2\n".toList = "#two\n#lines\n\n1 2\n".toList := by
  decide +kernel

/-! ## C51: all extensions, repeated calls -/

variable {F : Type}

theorem dictGet_removed {α : Type} (d : List (String × α)) (k : String) :
    dictGet (d.filter (fun p => p.1 ≠ k)) k = .error .key := by
  induction d with
  | nil => rfl
  | cons p d ih =>
    obtain ⟨a, b⟩ := p
    by_cases ha : a = k
    · rw [List.filter_cons_of_neg (by simp [ha])]; exact ih
    · rw [List.filter_cons_of_pos (by simp [ha]), dictGet, if_neg ha]; exact ih

section
variable [PyFloat F] [SciPy F] [NumText F] [Printing F] [YamlIO F]

omit [SciPy F] in
theorem writeYaml_meta (w : Writer F) (ic rii : Bool) :
    (w.writeYaml ic rii).2.metaData = w.metaData := by
  unfold Writer.writeYaml
  split
  · rfl
  · split
    · rfl
    · dsimp only
      split <;> rfl

omit [SciPy F] in
/-- After a call the writer has no meta comment. -/
theorem writeFile_meta (w : Writer F) (ic rii : Bool) :
    dictGet (w.writeFile ic rii).2.metaData "MetaComment" = .error .key := by
  unfold Writer.writeFile
  cases hp : dictPop w.metaData "MetaComment" with
  | error e =>
    simp only
    cases hg : dictGet w.metaData "MetaComment" with
    | error e' => rw [(dictGet_error hg).1]
    | ok v => rw [dictPop, hg] at hp; cases hp
  | ok q =>
    obtain ⟨cm, md⟩ := q
    have hmd : md = w.metaData.filter (fun p => p.1 ≠ "MetaComment") := by
      cases hg : dictGet w.metaData "MetaComment" with
      | error e' => rw [dictPop, hg] at hp; cases hp
      | ok v => rw [dictPop, hg] at hp; cases hp; rfl
    subst hmd
    simp only
    have h0 := dictGet_removed w.metaData "MetaComment"
    split
    · split <;> exact h0
    · split
      · have hm := writeYaml_meta { w with
          metaData := w.metaData.filter (fun p => p.1 ≠ "MetaComment") } ic rii
        split
        · rename_i e w' hw
          rw [hw] at hm
          show dictGet w'.metaData _ = _
          rw [hm]; exact h0
        · rename_i t w' hw
          rw [hw] at hm
          show dictGet w'.metaData _ = _
          rw [hm]; exact h0
      · exact h0

omit [SciPy F] in
/-- C51: no writer can be used twice; the second call raises `KeyError`, whatever the extension
and the arguments. -/
theorem C51_second (w : Writer F) (ic rii ic' rii' : Bool) :
    ((w.writeFile ic rii).2.writeFile ic' rii').1 = .error .key := by
  have h := writeFile_meta w ic rii
  generalize (w.writeFile ic rii).2 = w' at h
  rw [Writer.writeFile, dictPop, h]
  rfl

omit [SciPy F] in
/-- C51: a file `.nk` is never written. -/
theorem C51_nk (w : Writer F) (hx : w.ext = ".nk") (ic rii : Bool) (text : List Char) :
    (w.writeFile ic rii).1 ≠ .ok text := by
  intro h
  unfold Writer.writeFile at h
  split at h
  · cases h
  · rename_i cm md hp
    simp only at h
    have e1 : textFormat w.ext = some (';', Option.none) := by rw [hx]; decide
    rw [e1] at h
    simp only at h
    split at h
    · cases h
    · rename_i t ht
      unfold Writer.writeText at ht
      obtain ⟨_, _, ht⟩ := except_bind_ok ht
      obtain ⟨_, _, ht⟩ := except_bind_ok ht
      obtain ⟨_, _, ht⟩ := except_bind_ok ht
      obtain ⟨_, _, ht⟩ := except_bind_ok ht
      obtain ⟨_, _, ht⟩ := except_bind_ok ht
      obtain ⟨_, _, ht⟩ := except_bind_ok ht
      obtain ⟨_, _, ht⟩ := except_bind_ok ht
      obtain ⟨_, _, ht⟩ := except_bind_ok ht
      simp only at ht
      obtain ⟨_, _, ht⟩ := except_bind_ok ht
      obtain ⟨_, _, ht⟩ := except_bind_ok ht
      obtain ⟨_, hd, _⟩ := except_bind_ok ht
      have e2 : delimiterOf w.ext = .error .unboundLocal := by rw [hx]; rfl
      rw [show delimiterOf _ = _ from e2] at hd
      cases hd

end

/-- C51 for the first call, for the material of a table of the refractive index with at most 500
rows and the extensions `.txt` and `.csv`. Missing: further calls and `.nk`, for which it is
false, and `.yml`, for which see C49. -/
theorem C51_first_partial [PyFloat F] [SciPy F] [NumText F] [Printing F] [YamlIO F] [LawfulCmp F]
    [PrintingLaws F]
    (rd : String → Res (FileDict F)) (kw : Kwargs F) (hnd : (kw.map Prod.fst).Nodup)
    (hp : PlainOptions kw) {c : String}
    (hc : (lower (defaultsOf kw).1, lower (defaultsOf kw).2, c) ∈ names)
    (rows : List (List F)) (hk : Only kw "tabulated_n" (.table 2) (.arr (.d2 2 .float rows)))
    (hg : GoodTable 2 rows) (h2 : 2 ≤ rows.length) (h500 : rows.length ≤ 500) :
    ∃ m, Material.new rd kw = .ok m ∧ ∀ ext, ext = ".txt" ∨ ext = ".csv" → ∀ ic rii,
      ∃ w text, Writer.new ext m = .ok w ∧ (w.writeFile ic rii).1 = .ok text := by
  obtain ⟨m, hm, hw⟩ := C46_material_partial rd kw hnd hp hc rows hk hg h2 h500
  refine ⟨m, hm, fun ext he ic rii => ?_⟩
  obtain ⟨w, w', text, _, _, _, h1, h2, _⟩ := hw ext he ic rii ⟨fileMetaKeys, datasetMetaKeys⟩
    ⟨.refl _, .refl _⟩
  exact ⟨w, text, h1, by rw [h2]⟩

/-- C51 (full statement, refuted below): the writers of the material of a short table succeed in
all calls, with the same text. -/
def C51_statement (F : Type) [PyFloat F] [SciPy F] [NumText F] [Printing F] [YamlIO F] : Prop :=
  ∀ (rd : String → Res (FileDict F)) (kw : Kwargs F) (c : String) (rows : List (List F)),
    (kw.map Prod.fst).Nodup → PlainOptions kw →
    (lower (defaultsOf kw).1, lower (defaultsOf kw).2, c) ∈ names →
    Only kw "tabulated_n" (.table 2) (.arr (.d2 2 .float rows)) → GoodTable 2 rows →
    2 ≤ rows.length → rows.length ≤ 500 → ∀ m, Material.new rd kw = .ok m →
    ∀ ext ∈ [".txt", ".csv", ".nk", ".yml"], ∃ w text, Writer.new ext m = .ok w ∧
      ∀ n : ℕ, (((fun w => (w.writeFile true false).2)^[n] w).writeFile true false).1 = .ok text

/-- C51 is false: the second call raises `KeyError`. -/
theorem C51_refuted [SciPy XR] [NumText XR] [Printing XR] [YamlIO XR] [PrintingLaws XR] :
    ¬ C51_statement XR := by
  intro h
  let rows : List (List XR) := [[XR.fin 1, XR.fin 1], [XR.fin 2, XR.fin 1]]
  have hg : GoodTable 2 rows := by
    refine ⟨by simp [rows], ?_, ?_, ?_⟩
    · intro r hr
      simp only [rows, List.mem_cons, List.not_mem_nil, or_false] at hr
      rcases hr with rfl | rfl <;> rfl
    · intro r hr
      simp only [rows, List.mem_cons, List.not_mem_nil, or_false] at hr
      rcases hr with rfl | rfl <;> rfl
    · refine .cons ?_ (.cons (fun a ha => by cases ha) .nil)
      intro a ha
      have : a = [XR.fin 2, XR.fin 1] := by simpa using ha
      subst this
      show PyFloat.eq (XR.fin 1) (XR.fin 2) = false
      rw [XR.eq_fin]
      exact decide_eq_false (by norm_num)
  let v : PyVal XR := .arr (.d2 2 .float rows)
  have hs : ("tabulated_n", DocType.table 2) ∈ sources := by decide
  obtain ⟨h1, h2⟩ := only_single hs (v := v) (by simp [v])
  have hp : PlainOptions [("tabulated_n", v)] := plain_single (by decide) (by decide)
  have hnm : (lower (defaultsOf [("tabulated_n", v)]).1, lower (defaultsOf [("tabulated_n", v)]).2,
      "nm") ∈ names := by
    rw [defaults_single (by decide)]; decide +kernel
  obtain ⟨m, hm, _⟩ := C51_first_partial (fun _ => .error .os) [("tabulated_n", v)] h1 hp hnm rows h2
    hg (by simp [rows]) (by simp [rows])
  obtain ⟨w, text, _, hw⟩ := h _ _ _ rows h1 hp hnm h2 hg (by simp [rows]) (by simp [rows]) m hm ".txt"
    (by simp)
  have := hw 1
  rw [Function.iterate_one, C51_second] at this
  cases this

/-! ## C52: the order of the specification -/

/-- The specification keys in the order of the documentation. -/
def Spec.documentedSpecs : List String :=
  ["n_absolute", "wavelength_vacuum", "film_thickness", "substrate", "temperature", "pressure",
   "deposition_temperature", "direction"]

/-- C52: what `SPECS` contains are the entries with documented keys, each with its value and in
the documented order. -/
theorem C52_documented {specs : List (String × String)} (hk : (specs.map Prod.fst).Nodup) :
    (orderSpecs specs).Perm (specs.filter (fun p => documentedSpecs.contains p.1)) ∧
      ((orderSpecs specs).map Prod.fst).Sublist documentedSpecs := by
  have hmem : ∀ p, p ∈ orderSpecs specs ↔ p ∈ specs ∧ p.1 ∈ documentedSpecs := by
    intro p
    rw [orderSpecs, List.mem_filterMap]
    constructor
    · rintro ⟨k, hkm, hf⟩
      obtain ⟨q, hq, rfl⟩ := Option.map_eq_some_iff.1 hf
      have h1 := List.mem_of_find?_eq_some hq
      have h2 := List.find?_some hq
      have h3 : q.1 = k := by simpa using h2
      subst h3
      exact ⟨h1, hkm⟩
    · rintro ⟨h1, h2⟩
      refine ⟨p.1, h2, ?_⟩
      cases hf : specs.find? (fun q => q.1 = p.1) with
      | none =>
        have := List.find?_eq_none.1 hf p h1
        simp at this
      | some q =>
        have e1 := List.mem_of_find?_eq_some hf
        have e2 : q.1 = p.1 := by simpa using List.find?_some hf
        have : q = p := List.inj_on_of_nodup_map hk e1 h1 e2
        rw [this]; rfl
  have hsub : ((orderSpecs specs).map Prod.fst).Sublist documentedSpecs := by
    have : ∀ ks : List String, ((ks.filterMap (fun k => (specs.find? (fun p => p.1 = k)).map
        (fun p => (k, p.2)))).map Prod.fst).Sublist ks := by
      intro ks
      induction ks with
      | nil => exact .slnil
      | cons k ks ih =>
        cases hf : specs.find? (fun p => p.1 = k) with
        | none =>
          rw [List.filterMap_cons_none (by rw [hf]; rfl)]
          exact ih.cons _
        | some q =>
          rw [List.filterMap_cons_some (b := (k, q.2)) (by rw [hf]; rfl)]
          exact ih.cons₂ _
    exact this specOrder
  refine ⟨(List.perm_ext_iff_of_nodup ?_ ?_).2 ?_, hsub⟩
  · exact List.Nodup.of_map _ (hsub.nodup (by decide))
  · exact (List.Nodup.of_map _ hk).filter _
  · intro p
    rw [hmem, List.mem_filter]
    simp

/-- The name under which a metadata key is written. -/
def aliasOf (k : String) : String :=
  match dictGet keyAliases k with
  | .ok al => al
  | .error _ => k

theorem dictSet_new {α : Type} : ∀ {d : List (String × α)} {k : String} (v : α),
    k ∉ d.map Prod.fst → dictSet d k v = d ++ [(k, v)]
  | [], _, _, _ => rfl
  | (a, b) :: d, k, v, h => by
    have h1 : ¬ a = k := fun e => h (by simp [e])
    rw [dictSet, if_neg h1, dictSet_new v (fun hm => h (by simp [List.mem_map.1 hm]))]
    rfl

theorem keyAliases_inj : ∀ p ∈ keyAliases, ∀ q ∈ keyAliases, p.2 = q.2 → p.1 = q.1 := by decide

theorem aliasOf_known {k al : String} (h : dictGet keyAliases k = .ok al) :
    aliasOf k = al ∧ (k, al) ∈ keyAliases := ⟨by rw [aliasOf, h], dictGet_mem h⟩

theorem aliasMeta_ok : ∀ (md : List (String × MetaVal)) (last : Option MetaVal) (yd : YDict F),
    (∀ p ∈ md, ∃ al, dictGet keyAliases p.1 = .ok al) → Keys md →
    (∀ p ∈ md, aliasOf p.1 ∉ yd.map Prod.fst) →
    aliasMeta md last yd = .ok (yd ++ md.map (fun p => (aliasOf p.1, .entry p.2)))
  | [], _, yd, _, _, _ => by rw [aliasMeta.eq_def]; simp
  | (k, v) :: md, last, yd, h, hk, hd => by
    obtain ⟨al, ha⟩ := h (k, v) (List.mem_cons_self ..)
    have e := (aliasOf_known ha).1
    rw [aliasMeta.eq_def]
    simp only [ha]
    have h0 : al ∉ yd.map Prod.fst := by
      have := hd (k, v) (List.mem_cons_self ..)
      simp only [e] at this
      exact this
    have hk' : (k :: md.map Prod.fst).Nodup := hk
    rw [dictSet_new _ h0, aliasMeta_ok md _ _ (fun p hp => h p (List.mem_cons_of_mem _ hp))
      (List.nodup_cons.1 hk').2]
    · rw [List.map_cons, e]
      simp
    · intro p hp hm
      rw [List.map_append, List.mem_append] at hm
      rcases hm with hm | hm
      · exact hd p (List.mem_cons_of_mem _ hp) hm
      · obtain ⟨al', ha'⟩ := h p (List.mem_cons_of_mem _ hp)
        have e' := (aliasOf_known ha').1
        have : aliasOf p.1 = al := by simpa using hm
        rw [e'] at this
        have : p.1 = k := keyAliases_inj _ (aliasOf_known ha').2 _ (aliasOf_known ha).2 this
        exact (List.nodup_cons.1 hk').1 (List.mem_map.2 ⟨p, hp, this⟩)

/-- What is written under `SPECS`. -/
def specEntry (s : List (String × String)) : YDict F :=
  if 0 < s.length then [("SPECS", .entry (.dict (orderSpecs s)))] else []

/-- The metadata of the mapping that is written. -/
def metaEntries (md : List (String × MetaVal)) : YDict F :=
  (md.filter (fun p => p.1 ≠ "Specification")).map (fun p => (aliasOf p.1, .entry p.2))

/-- The mapping that is written. -/
theorem yamlDict_ok {w : Writer F} (hk : Keys w.metaData)
    (hn : ∀ p ∈ w.metaData, ∃ al, dictGet keyAliases p.1 = .ok al ∧ p.1 ≠ "Datasets")
    {s : List (String × String)} (hs : dictGet w.metaData "Specification" = .ok (.dict s))
    (rii : Bool) :
    w.yamlDict rii = .ok (metaEntries w.metaData ++
      [("DATA", .data (if rii then w.datasets.map riiDataset else w.datasets))] ++ specEntry s) := by
  rw [Writer.yamlDict, aliasMeta_ok _ _ _ (fun p hp => by
    obtain ⟨al, ha, _⟩ := hn p hp; exact ⟨al, ha⟩) hk (by simp)]
  simp only [bind, Except.bind, List.nil_append]
  have hal : ∀ p ∈ w.metaData, (aliasOf p.1 = "SPECS" ↔ p.1 = "Specification") ∧
      aliasOf p.1 ≠ "DATA" := by
    intro p hp
    obtain ⟨al, ha, hne⟩ := hn p hp
    obtain ⟨e, hm⟩ := aliasOf_known ha
    rw [e]
    refine ⟨⟨fun h => ?_, fun h => ?_⟩, fun h => ?_⟩
    · exact keyAliases_inj _ hm ("Specification", "SPECS") (by decide) h
    · rw [h] at ha; cases ha; rfl
    · exact hne (keyAliases_inj _ hm ("Datasets", "DATA") (by decide) h)
  rw [dictSet_new _ (by
    intro hm
    simp only [List.map_map, List.mem_map] at hm
    obtain ⟨p, hp, h⟩ := hm
    exact (hal p hp).2 h)]
  set D : YVal F := .data (if rii then w.datasets.map riiDataset else w.datasets) with hD
  have hks : Keys (w.metaData.map (fun p => (aliasOf p.1, (.entry p.2 : YVal F))) ++
      [("DATA", D)]) := by
    show (List.map Prod.fst _).Nodup
    rw [List.map_append, List.map_map, List.nodup_append']
    refine ⟨?_, by simp, ?_⟩
    · refine List.Nodup.map_on ?_ (List.Nodup.of_map _ hk)
      intro p hp q hq h
      obtain ⟨al, ha, _⟩ := hn p hp
      obtain ⟨al', ha', _⟩ := hn q hq
      have h' : aliasOf p.1 = aliasOf q.1 := h
      rw [(aliasOf_known ha).1, (aliasOf_known ha').1] at h'
      exact List.inj_on_of_nodup_map hk hp hq
        (keyAliases_inj _ (aliasOf_known ha).2 _ (aliasOf_known ha').2 h')
    · intro x hx hy
      obtain ⟨p, hp, rfl⟩ := List.mem_map.1 hx
      have : aliasOf p.1 = "DATA" := by simpa using hy
      exact (hal p hp).2 this
  have hget : dictGet (w.metaData.map (fun p => (aliasOf p.1, (.entry p.2 : YVal F))) ++
      [("DATA", D)]) "SPECS" = .ok (.entry (.dict s)) := by
    refine dictGet_of_mem hks (List.mem_append_left _ (List.mem_map.2 ⟨_, dictGet_mem hs, ?_⟩))
    rfl
  have hfil : (w.metaData.map (fun p => (aliasOf p.1, (.entry p.2 : YVal F))) ++
      [("DATA", D)]).filter (fun p => p.1 ≠ "SPECS") = metaEntries w.metaData ++ [("DATA", D)] := by
    rw [List.filter_append, metaEntries, List.filter_map]
    congr 2
    refine List.filter_congr (fun p hp => ?_)
    have := (hal p hp).1
    simp [this]
  rw [dictPop, hget]
  simp only [bind, Except.bind, hfil]
  rw [specEntry]
  split
  · rw [dictSet_new]
    intro hm
    simp only [metaEntries, List.map_append, List.map_map, List.mem_append, List.mem_map] at hm
    rcases hm with ⟨p, hp, h⟩ | hm
    · have := List.mem_filter.1 hp
      have h1 := ((hal p this.1).1).1 h
      simp [h1] at this
    · revert hm; simp
  · rw [List.append_nil]

theorem no_specs {w : Writer F}
    (hn : ∀ p ∈ w.metaData, ∃ al, dictGet keyAliases p.1 = .ok al ∧ p.1 ≠ "Datasets") (D : YVal F) :
    ∀ p ∈ (metaEntries w.metaData ++ [("DATA", D)] : YDict F), p.1 ≠ "SPECS" := by
  intro p hp
  rcases List.mem_append.1 hp with hp | hp
  · obtain ⟨q, hq, rfl⟩ := List.mem_map.1 hp
    have hq' := List.mem_filter.1 hq
    obtain ⟨al, ha, _⟩ := hn q hq'.1
    intro h
    have h' : al = "SPECS" := (aliasOf_known ha).1.symm.trans h
    have : q.1 = "Specification" :=
      keyAliases_inj _ (aliasOf_known ha).2 ("Specification", "SPECS") (by decide) h'
    exact (by simpa using hq'.2 : ¬ q.1 = "Specification") this
  · have : p = _ := List.mem_singleton.1 hp
    rw [this]
    exact (by decide : "DATA" ≠ "SPECS")

/-- C52: the mapping written to YAML has under `SPECS` the specification's entries with documented
keys, in the documented order; without a specification there is no such section. Missing: entries
with other keys, which are dropped. -/
theorem C52_written_partial {w : Writer F} (hk : Keys w.metaData)
    (hn : ∀ p ∈ w.metaData, ∃ al, dictGet keyAliases p.1 = .ok al ∧ p.1 ≠ "Datasets")
    {s : List (String × String)} (hs : dictGet w.metaData "Specification" = .ok (.dict s))
    (hks : Keys s) (hd : ∀ p ∈ s, p.1 ∈ documentedSpecs) (rii : Bool) :
    ∃ yd, w.yamlDict rii = .ok yd ∧
      (s = [] → dictGet yd "SPECS" = .error .key) ∧
      (s ≠ [] → ∃ out, dictGet yd "SPECS" = .ok (.entry (.dict out)) ∧ out.Perm s ∧
        (out.map Prod.fst).Sublist documentedSpecs) := by
  have hnot := no_specs hn (.data (if rii then w.datasets.map riiDataset else w.datasets))
  refine ⟨_, yamlDict_ok hk hn hs rii, ?_, ?_⟩
  · rintro rfl
    rw [show (specEntry [] : YDict F) = [] from rfl, List.append_nil]
    generalize (metaEntries w.metaData ++ [("DATA", _)] : YDict F) = L at hnot ⊢
    cases hg : dictGet L "SPECS" with
    | error e => rw [(dictGet_error hg).1]
    | ok v => exact absurd rfl (hnot _ (dictGet_mem hg))
  · intro hne
    obtain ⟨h1, h2⟩ := C52_documented hks
    refine ⟨orderSpecs s, ?_, ?_, h2⟩
    · have hlen : 0 < s.length := List.length_pos_iff.2 hne
      rw [specEntry, if_pos hlen]
      generalize (metaEntries w.metaData ++ [("DATA", _)] : YDict F) = L at hnot ⊢
      induction L with
      | nil => rfl
      | cons p L ih =>
        obtain ⟨a, b⟩ := p
        rw [List.cons_append, dictGet, if_neg (hnot (a, b) (List.mem_cons_self ..))]
        exact ih (fun q hq => hnot q (List.mem_cons_of_mem _ hq))
    · rwa [List.filter_eq_self.2 (by intro p hp; simpa using hd p hp)] at h1

/-- C52 (full statement, refuted below): the specification is written with all its entries. -/
def C52_statement (F : Type) : Prop :=
  ∀ (w : Writer F) (s : List (String × String)) (rii : Bool), Keys w.metaData →
    (∀ p ∈ w.metaData, ∃ al, dictGet keyAliases p.1 = .ok al ∧ p.1 ≠ "Datasets") →
    dictGet w.metaData "Specification" = .ok (.dict s) → Keys s → s ≠ [] →
    ∃ yd out, w.yamlDict rii = .ok yd ∧ dictGet yd "SPECS" = .ok (.entry (.dict out)) ∧ out.Perm s

/-- C52 is false: an entry with another key is dropped. -/
theorem C52_refuted (F : Type) : ¬ C52_statement F := by
  intro h
  obtain ⟨yd, out, h1, h2, h3⟩ := h
    { ext := ".yml", metaData := [("Specification", .dict [("grain", "fine")])], datasets := [] }
    [("grain", "fine")] false (by simp [Keys]) (by
      intro p hp
      have : p = _ := List.mem_singleton.1 hp
      subst this
      exact ⟨"SPECS", rfl, by decide⟩) rfl (by simp [Keys]) (by simp)
  have e : yd = [("DATA", .data []), ("SPECS", .entry (.dict []))] := by
    have : (Except.ok yd : Res (YDict F)) = .ok [("DATA", .data []), ("SPECS", .entry (.dict []))] :=
      h1.symm.trans rfl
    cases this; rfl
  subst e
  have : out = [] := by cases h2; rfl
  subst this
  exact absurd h3.length_eq (by decide)

/-- Concrete case for `C52_written_partial`. -/
example : orderSpecs [("direction", "o"), ("temperature", "20 C"), ("n_absolute", "true")] =
    [("n_absolute", "true"), ("temperature", "20 C"), ("direction", "o")] := by decide +kernel

end Disp

import Verif.Props.YamlWrite
import Verif.Lemmas.YamlIdeal
/-!
# Reading the YAML files that were written
-/

namespace Disp

open Spec

variable {F : Type}

/-! ## Mappings up to the order of keys -/

theorem forall₂_keys {p b : YDict F}
    (h : List.Forall₂ (fun x y => x.1 = y.1 ∧ SameValue x.2 y.2) p b) :
    p.map Prod.fst = b.map Prod.fst := by
  induction h with
  | nil => rfl
  | cons h _ ih => rw [List.map_cons, List.map_cons, h.1, ih]

theorem forall₂_left {α β : Type} {R : α → β → Prop} {p : List α} {b : List β}
    (h : List.Forall₂ R p b) : ∀ x ∈ p, ∃ y ∈ b, R x y := by
  induction h with
  | nil => intro x hx; cases hx
  | cons h _ ih =>
    intro x hx
    rcases List.mem_cons.1 hx with rfl | hx
    · exact ⟨_, List.mem_cons_self .., h⟩
    · obtain ⟨y, hy, hr⟩ := ih x hx
      exact ⟨y, List.mem_cons_of_mem _ hy, hr⟩

theorem forall₂_right {α β : Type} {R : α → β → Prop} {p : List α} {b : List β}
    (h : List.Forall₂ R p b) : ∀ y ∈ b, ∃ x ∈ p, R x y := by
  induction h with
  | nil => intro x hx; cases hx
  | cons h _ ih =>
    intro x hx
    rcases List.mem_cons.1 hx with rfl | hx
    · exact ⟨_, List.mem_cons_self .., h⟩
    · obtain ⟨y, hy, hr⟩ := ih x hx
      exact ⟨y, List.mem_cons_of_mem _ hy, hr⟩

theorem same_keys {a b : YDict F} (h : SameMapping a b) : (a.map Prod.fst).Perm (b.map Prod.fst) := by
  obtain ⟨p, h1, h2⟩ := h
  rw [← forall₂_keys h2]
  exact h1.map _

theorem same_get {a b : YDict F} (h : SameMapping a b) (ha : Keys a) {k : String} {v : YVal F}
    (hv : dictGet a k = .ok v) : ∃ v', dictGet b k = .ok v' ∧ SameValue v v' := by
  have hb : Keys b := (same_keys h).nodup_iff.1 ha
  obtain ⟨p, h1, h2⟩ := h
  obtain ⟨y, hy, e, hs⟩ := forall₂_left h2 (k, v) (h1.mem_iff.1 (dictGet_mem hv))
  refine ⟨y.2, dictGet_of_mem hb ?_, hs⟩
  have e : k = y.1 := e
  rw [e]; exact hy

theorem same_mem {a b : YDict F} (h : SameMapping a b) {y : String × YVal F} (hy : y ∈ b) :
    ∃ x ∈ a, x.1 = y.1 ∧ SameValue x.2 y.2 := by
  obtain ⟨p, h1, h2⟩ := h
  obtain ⟨x, hx, hr⟩ := forall₂_right h2 y hy
  exact ⟨x, h1.mem_iff.2 hx, hr⟩

theorem same_entry {x v : YVal F} {w : MetaVal} (hx : x = .entry w) (h : SameValue x v) :
    ∃ w', v = .entry w' := by
  cases h with
  | text s => exact ⟨_, rfl⟩
  | dict h => exact ⟨_, rfl⟩
  | data h => cases hx

/-! ## The mapping of a material -/

/-- The keys that occur. -/
def yamlKeyList : List String :=
  ["REFERENCES", "AUTHOR", "FULLNAME", "NAME", "COMMENTS", "DATA", "SPECS"]

theorem yamlOf_keys {md : List (String × MetaVal)} (hm : MetaOk md) (s : List (String × String))
    (ds : List (Dataset F)) :
    Keys (yamlOf md s ds) ∧ ∀ p ∈ yamlOf md s ds, p.1 ∈ yamlKeyList := by
  obtain ⟨k1, k2, _⟩ := yamlMeta_ok hm
  have hal : ∀ p ∈ yamlMeta md, (aliasOf p.1 = "SPECS" → p.1 = "Specification") ∧
      aliasOf p.1 ≠ "DATA" ∧ aliasOf p.1 ∈ yamlKeyList ∧ (p.1, aliasOf p.1) ∈ keyAliases := by
    intro p hp
    obtain ⟨al, ha, hne⟩ := k2 p hp
    obtain ⟨e, hm⟩ := aliasOf_known ha
    rw [e]
    refine ⟨fun h => ?_, fun h => ?_, ?_, hm⟩
    · exact keyAliases_inj _ hm ("Specification", "SPECS") (by decide) h
    · exact hne (keyAliases_inj _ hm ("Datasets", "DATA") (by decide) h)
    · have : ∀ q ∈ keyAliases, q.2 ∈ yamlKeyList := by decide
      exact this _ hm
  have hspec : ∀ p ∈ (specEntry s : YDict F), p.1 = "SPECS" := by
    intro p hp
    unfold specEntry at hp
    split at hp
    · have : p = _ := List.mem_singleton.1 hp
      rw [this]
    · cases hp
  have hsk : Keys (specEntry s : YDict F) := by
    unfold specEntry Keys
    split <;> simp
  have hmem : ∀ x ∈ (metaEntries (yamlMeta md) : YDict F).map Prod.fst,
      ∃ p ∈ yamlMeta md, p.1 ≠ "Specification" ∧ x = aliasOf p.1 := by
    intro x hx
    obtain ⟨q, hq, rfl⟩ := List.mem_map.1 hx
    obtain ⟨p, hp, rfl⟩ := List.mem_map.1 hq
    obtain ⟨h1, h2⟩ := List.mem_filter.1 hp
    exact ⟨p, h1, by simpa using h2, rfl⟩
  refine ⟨?_, ?_⟩
  · show (List.map Prod.fst _).Nodup
    rw [yamlOf, List.map_append, List.map_append, List.nodup_append', List.nodup_append']
    refine ⟨⟨?_, by simp, ?_⟩, hsk, ?_⟩
    · rw [metaEntries, List.map_map]
      refine List.Nodup.map_on ?_ (List.Nodup.of_map _ (keys_filter k1 _))
      intro p hp q hq h
      obtain ⟨hp, _⟩ := List.mem_filter.1 hp
      obtain ⟨hq, _⟩ := List.mem_filter.1 hq
      exact List.inj_on_of_nodup_map k1 hp hq
        (keyAliases_inj _ (hal p hp).2.2.2 _ (hal q hq).2.2.2 h)
    · intro x hx hy
      obtain ⟨p, hp, _, rfl⟩ := hmem x hx
      exact (hal p hp).2.1 (by simpa using hy)
    · intro x hx hy
      obtain ⟨q, hq, rfl⟩ := List.mem_map.1 hy
      rw [hspec q hq] at hx
      rcases List.mem_append.1 hx with hx | hx
      · obtain ⟨p, hp, h1, h2⟩ := hmem _ hx
        exact h1 ((hal p hp).1 h2.symm)
      · revert hx; simp
  · intro p hp
    rw [yamlOf] at hp
    rcases List.mem_append.1 hp with hp | hp
    · rcases List.mem_append.1 hp with hp | hp
      · obtain ⟨q, hq, _, e⟩ := hmem p.1 (List.mem_map_of_mem hp)
        rw [e]; exact (hal q hq).2.2.1
      · have : p = _ := List.mem_singleton.1 hp
        rw [this]; exact (by decide : "DATA" ∈ yamlKeyList)
    · rw [hspec p hp]; decide

/-- The entries of the mapping. -/
theorem yamlOf_get {md : List (String × MetaVal)} (hm : MetaOk md) (s : List (String × String))
    (ds : List (Dataset F)) :
    (∀ k ∈ writtenKeys, ∀ v, dictGet md k = .ok v →
      dictGet (yamlOf md s ds) (aliasOf k) = .ok (.entry v)) ∧
    dictGet (yamlOf md s ds) "DATA" = .ok (.data ds) ∧
    (s ≠ [] → dictGet (yamlOf md s ds) "SPECS" = .ok (.entry (.dict (orderSpecs s)))) ∧
    (s = [] → "SPECS" ∉ (yamlOf md s ds).map Prod.fst) := by
  obtain ⟨k1, k2, k3⟩ := yamlMeta_ok hm
  have hk := (yamlOf_keys hm s ds).1
  refine ⟨?_, ?_, ?_, ?_⟩
  · intro k hkm v hv
    refine dictGet_of_mem hk ?_
    rw [yamlOf, List.append_assoc]
    refine List.mem_append_left _ (List.mem_map.2 ⟨(k, v), List.mem_filter.2 ⟨?_, ?_⟩, rfl⟩)
    · have : k ≠ "Alias" ∧ k ≠ "MetaComment" := by
        have : ∀ k ∈ writtenKeys, k ≠ "Alias" ∧ k ≠ "MetaComment" := by decide
        exact this k hkm
      exact dictGet_mem ((k3 k this.1 this.2).trans hv)
    · have : ∀ k ∈ writtenKeys, k ≠ "Specification" := by decide
      simpa using this k hkm
  · refine dictGet_of_mem hk ?_
    rw [yamlOf]
    exact List.mem_append_left _ (List.mem_append_right _ (List.mem_singleton.2 rfl))
  · intro hs
    refine dictGet_of_mem hk ?_
    rw [yamlOf]
    refine List.mem_append_right _ ?_
    rw [specEntry, if_pos (List.length_pos_iff.2 hs)]
    exact List.mem_singleton.2 rfl
  · rintro rfl hx
    rw [yamlOf, show (specEntry [] : YDict F) = [] from rfl, List.append_nil] at hx
    obtain ⟨p, hp, e⟩ := List.mem_map.1 hx
    exact no_specs (w := { ext := ".yml", metaData := yamlMeta md, datasets := ds }) k2 _ p hp e

/-- The texts of the metadata are printable. -/
structure Spec.PlainMeta (md : List (String × MetaVal)) : Prop where
  text : ∀ k s, dictGet md k = .ok (.str s) → PlainText s
  spec : ∀ k s, dictGet md k = .ok (.dict s) → Distinct s ∧ ∀ p ∈ s, PlainText p.1 ∧ PlainText p.2

theorem orderSpecs_sub {s : List (String × String)} (h : Distinct s) :
    Distinct (orderSpecs s) ∧ ∀ p ∈ orderSpecs s, p ∈ s := by
  obtain ⟨h1, _⟩ := C52_documented h
  refine ⟨?_, fun p hp => (List.mem_filter.1 (h1.mem_iff.1 hp)).1⟩
  exact ((h1.map Prod.fst).nodup_iff).2 (keys_filter h _)

theorem yamlKeyList_plain : ∀ k ∈ yamlKeyList, PlainText k := by
  unfold PlainText; decide

theorem yamlOf_text {md : List (String × MetaVal)} (hm : MetaOk md) (hp : PlainMeta md)
    {s : List (String × String)} (hs : dictGet md "Specification" = .ok (.dict s))
    {ds : List (Dataset F)} (hd : ∀ d ∈ ds, TextDataset d) : TextMapping (yamlOf md s ds) := by
  obtain ⟨k1, k2⟩ := yamlOf_keys hm s ds
  refine ⟨by simp [yamlOf], k1, fun p hq => yamlKeyList_plain _ (k2 p hq), ?_⟩
  intro p hq
  rw [yamlOf] at hq
  rcases List.mem_append.1 hq with hq | hq
  · rcases List.mem_append.1 hq with hq | hq
    · obtain ⟨q, hq', rfl⟩ := List.mem_map.1 hq
      clear hq
      obtain ⟨hq, _⟩ := List.mem_filter.1 hq'
      obtain ⟨hq, _⟩ := List.mem_filter.1 hq
      obtain ⟨hq, _⟩ := List.mem_filter.1 hq
      obtain ⟨k, v⟩ := q
      have hg := dictGet_of_mem hm.good.keys hq
      cases v with
      | str t => exact hp.text _ _ hg
      | dict t => exact hp.spec _ _ hg
    · have : p = _ := List.mem_singleton.1 hq
      rw [this]; exact hd
  · unfold specEntry at hq
    split at hq
    · have : p = _ := List.mem_singleton.1 hq
      rw [this]
      obtain ⟨h1, h2⟩ := hp.spec _ _ hs
      obtain ⟨g1, g2⟩ := orderSpecs_sub h1
      exact ⟨g1, fun p hp => h2 p (g2 p hp)⟩
    · cases hq

/-! ## The text -/

theorem plain_one {c : Char} (h : c = '\n' ∨ (32 ≤ c.toNat ∧ c.toNat ≤ 126))
    (he : isLineEnd c = true) : c = '\n' := by
  rcases h with h | ⟨h1, h2⟩
  · exact h
  · exfalso
    have : ∀ d ∈ isLineEnd.lineEnds, ¬ (32 ≤ d.toNat ∧ d.toNat ≤ 126) := by decide
    exact this c (List.contains_iff_mem.1 he) ⟨h1, h2⟩

theorem plain_comment {c : String} (h : PlainText c) : PlainComment c.toList :=
  fun x hx he => plain_one (h x hx) he

theorem commentBlock_extra (t : List Char) :
    commentBlock t true = hashLines (splitOnChar '\n' (rstripNl t)) ++ ['\n'] := by
  rw [← commentBlock_eq]
  simp [commentBlock]

/-- The text of a YAML file is a comment and the mapping. -/
theorem yamlText_read [YamlIO F] [YamlLaws F] {c : String} (hc : PlainText c) {yd : YDict F}
    (hy : TextMapping yd) :
    readComment (yamlText c yd) = commentBodies c.toList ∧
    ∃ yd', YamlIO.load (universal (yamlText c yd)) = .ok yd' ∧ SameMapping yd yd' := by
  have hcr := YamlLaws.noCr yd hy
  unfold yamlText
  split
  · rename_i e
    subst e
    refine ⟨?_, ?_⟩
    · have := readComment_hash (bs := []) (rest := YamlIO.dump yd) (by simp) (YamlLaws.head yd hy)
      rw [show hashLines [] = [] from rfl, List.nil_append] at this
      rw [this]; rfl
    · rw [universal_id hcr]
      exact YamlLaws.load yd hy
  · rename_i hne
    have hne' : c.toList ≠ [] := fun h => hne (String.toList_inj.1 h)
    have hb : commentBodies c.toList = splitOnChar '\n' (rstripNl c.toList) := by
      rw [commentBodies, if_neg hne']
    have h1 := commentBodies_one (plain_comment hc)
    rw [prependText, universal_id hcr, commentBlock_extra, ← hb, List.append_assoc]
    refine ⟨readComment_hash h1 ?_, ?_⟩
    · intro x hx
      have : some '\n' = some x := hx
      rw [← Option.some.inj this]; decide
    · rw [universal_id]
      · refine YamlLaws.comment yd hy _ (fun b hb' => ?_)
        rw [hb] at hb'
        have hm := fun x hx => splitOnChar_mem hb' x hx
        refine ⟨fun x hx => ?_, fun hx => (hm _ hx).2 rfl⟩
        rw [String.toList_ofList] at hx
        exact hc x (rstripNl_mem (hm x hx).1)
      · intro hx
        rcases List.mem_append.1 hx with hx | hx
        · exact hashLines_cr h1 hx
        · rcases List.mem_append.1 hx with hx | hx
          · exact absurd hx (by decide)
          · exact hcr hx

theorem names_list {k f : String} (hk : k ∈ yamlKeyList) (h : Names k f) : (k, f) ∈ yamlKeys := by
  simp only [yamlKeyList, List.mem_cons, List.not_mem_nil, or_false] at hk
  have key : ∀ k ∈ yamlKeyList, (upper k.toList = "SPECS".toList → (k, "Specification") ∈ yamlKeys) ∧
      (upper k.toList ≠ "SPECS".toList ∧ upper k.toList ≠ "DATA".toList → ∀ f ∈ fileMetaKeys,
        upper f.toList <+: upper k.toList → (k, f) ∈ yamlKeys) := by
    decide +kernel
  have hk' : k ∈ yamlKeyList := by simpa [yamlKeyList] using hk
  rcases h with ⟨h1, rfl⟩ | ⟨h1, h2, h3, h4⟩
  · exact (key k hk').1 h1
  · exact (key k hk').2 ⟨h1, h2⟩ f h3 h4

theorem yamlKeys_inj : ∀ p ∈ yamlKeys, ∀ q ∈ yamlKeys, p.2 = q.2 → p.1 = q.1 := by decide

theorem alias_yaml : ∀ k ∈ writtenKeys, (aliasOf k, k) ∈ yamlKeys := by decide

/-- Reading a file that was written: the metadata come back, the datasets up to the order of their
keys, the specification's documented entries, and the comment without its last character. -/
theorem yaml_read [NumText F] [YamlIO F] [YamlLaws F] {o : KeyOrder} (ho : o.Valid)
    {md : List (String × MetaVal)} (hm : MetaOk md) (hp : PlainMeta md)
    {c : String} (hc : dictGet md "MetaComment" = .ok (.str c))
    {s : List (String × String)} (hs : dictGet md "Specification" = .ok (.dict s))
    {ds : List (Dataset F)} (hd : ∀ d ∈ ds, TextDataset d)
    (hproc : ∀ d ∈ ds, ∀ d', d.Perm d' → ∃ out, processMatData1 o d' = .ok out) :
    ∃ fd r' ds', (Reader.fresh o : Reader F).readFile o ".yml" (yamlText c (yamlOf md s ds)) =
        (.ok fd, r') ∧
      List.Forall₂ List.Perm ds ds' ∧ ds'.mapM (processMatData1 o) = .ok fd.datasets ∧
      (∀ k ∈ writtenKeys, dictGet fd.metaData k = dictGet md k) ∧
      dictGet fd.metaData "MetaComment" = .ok (.str (String.ofList
        (Reader.readYaml.joinLines (commentBodies c.toList)).dropLast)) ∧
      (∃ s', dictGet fd.metaData "Specification" = .ok (.dict s') ∧ s'.Perm (orderSpecs s)) := by
  have hty := yamlOf_text hm hp hs hd
  obtain ⟨hrc, yd', hl, hsame⟩ := yamlText_read (hp.text _ _ hc) hty
  obtain ⟨k1, k2⟩ := yamlOf_keys hm s ds
  obtain ⟨g1, g2, g3, g4⟩ := yamlOf_get hm s ds
  have hk' : Keys yd' := (same_keys hsame).nodup_iff.1 k1
  have hkl : ∀ k ∈ yd'.map Prod.fst, k ∈ yamlKeyList := by
    intro k hk
    obtain ⟨p, hp, rfl⟩ := List.mem_map.1 ((same_keys hsame).mem_iff.2 hk)
    exact k2 p hp
  have hmapM : ∀ {ds ds' : List (Dataset F)}, List.Forall₂ List.Perm ds ds' →
      (∀ d ∈ ds, ∀ d', d.Perm d' → ∃ out, processMatData1 o d' = .ok out) →
      ∃ out, ds'.mapM (processMatData1 o) = .ok out := by
    intro ds ds' h
    induction h with
    | nil => intro _; exact ⟨[], rfl⟩
    | cons h1 _ ih =>
      intro hpr
      obtain ⟨a, ha⟩ := hpr _ (List.mem_cons_self ..) _ h1
      obtain ⟨as, has⟩ := ih (fun d hd => hpr d (List.mem_cons_of_mem _ hd))
      exact ⟨a :: as, by rw [List.mapM_cons, ha, has]; rfl⟩
  obtain ⟨v', hv1, hv2⟩ := same_get hsame k1 g2
  obtain ⟨ds', rfl, hperm⟩ : ∃ ds', v' = .data ds' ∧ List.Forall₂ List.Perm ds ds' := by
    cases hv2 with
    | data h => exact ⟨_, rfl, h⟩
  obtain ⟨out, hout⟩ := hmapM hperm hproc
  have hup : UpperKeys yd' := by
    intro p hp
    have : ∀ k ∈ yamlKeyList, upper k.toList = k.toList := by decide
    exact this _ (hkl _ (List.mem_map_of_mem hp))
  have huse : Spec.Usable o yd' := by
    intro p hp
    obtain ⟨k, v⟩ := p
    refine ⟨fun e => ?_, fun e => ?_⟩
    · have e : k = "DATA" := e
      subst e
      have : v = .data ds' := by
        have := dictGet_of_mem hk' hp
        rw [hv1] at this; cases this; rfl
      subst this
      exact ⟨out, hout⟩
    · obtain ⟨x, hx, e1, e2⟩ := same_mem hsame hp
      have : ∃ w, x.2 = .entry w := by
        rw [yamlOf] at hx
        rcases List.mem_append.1 hx with hx | hx
        · rcases List.mem_append.1 hx with hx | hx
          · obtain ⟨q, _, rfl⟩ := List.mem_map.1 hx
            exact ⟨_, rfl⟩
          · have : x = _ := List.mem_singleton.1 hx
            rw [this] at e1
            exact absurd e1.symm e
        · unfold specEntry at hx
          split at hx
          · have : x = _ := List.mem_singleton.1 hx
            exact ⟨_, by rw [this]⟩
          · cases hx
      obtain ⟨w, hw⟩ := this
      exact same_entry hw e2
  obtain ⟨fd, r', h1, h2, h3, h4, h5, _⟩ := readYaml_upper ho hl hk' hup huse (Reader.fresh o)
  have huniq : ∀ p ∈ yamlKeys, ∀ k' ∈ yd'.map Prod.fst, Names k' p.2 → k' = p.1 := by
    intro p hp k' hk' hn
    exact yamlKeys_inj _ (names_list (hkl k' hk') hn) p hp rfl
  refine ⟨fd, r', ds', ?_, hperm, ?_, ?_, ?_, ?_⟩
  · unfold Reader.readFile
    simp only [show textFormat ".yml" = Option.none from by decide, if_true, h1]
  · rw [h5 _ out hv1 hout]; exact hout
  · intro k hk
    obtain ⟨t, ht⟩ := hm.good.text k hk
    obtain ⟨w, hw1, hw2⟩ := same_get hsame k1 (g1 k hk _ ht)
    have : w = .entry (.str t) := by cases hw2; rfl
    subst this
    have hy := alias_yaml k hk
    rw [ht]
    refine h2 (aliasOf k) k _ ?_ hw1 (yamlKeys_names _ hy) (huniq _ hy)
    have : ∀ k ∈ writtenKeys, k ≠ "MetaComment" := by decide
    exact this k hk
  · rw [h4, hrc]
  · by_cases hs0 : s = []
    · subst hs0
      refine ⟨[], ?_, .refl _⟩
      rw [h3 "Specification" (by decide)]
      · show dictGet (defaultMeta o) "Specification" = _
        rw [defaultMeta, dictGet_const, if_neg (by rw [ho.1.mem_iff]; decide)]
        rfl
      · intro k hk hn
        have : (k, "Specification") ∈ yamlKeys := names_list (hkl k hk) hn
        have e : k = "SPECS" := by
          have hh : ∀ p ∈ yamlKeys, p.2 = "Specification" → p.1 = "SPECS" := by decide
          exact hh _ this rfl
        subst e
        exact g4 rfl ((same_keys hsame).mem_iff.2 hk)
    · obtain ⟨w, hw1, hw2⟩ := same_get hsame k1 (g3 hs0)
      obtain ⟨s', rfl, hsp⟩ : ∃ s', w = .entry (.dict s') ∧ (orderSpecs s).Perm s' := by
        cases hw2 with
        | dict h => exact ⟨_, rfl, h⟩
      have hy : ("SPECS", "Specification") ∈ yamlKeys := by decide
      exact ⟨s', h2 "SPECS" "Specification" _ (by decide) hw1 (yamlKeys_names _ hy) (huniq _ hy),
        hsp.symm⟩

end Disp

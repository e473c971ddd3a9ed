import Verif.Props.WriterCalls
/-!
# C53, C54: keys of YAML files, and readers that are used again
-/

namespace Disp

open Spec

variable {F : Type}

/-! ## The effect of one key of a YAML file -/

/-- The field of the metadata that a top-level key names: the key in upper case begins with the
name of the field in upper case; `SPECS` is the specification. -/
def Spec.Names (kwd field : String) : Prop :=
  (upper kwd.toList = "SPECS".toList ∧ field = "Specification") ∨
  (upper kwd.toList ≠ "SPECS".toList ∧ upper kwd.toList ≠ "DATA".toList ∧ field ∈ fileFields ∧
    upper field.toList <+: upper kwd.toList)

/-- One key: an error, or a change of one field of the metadata or of the datasets. -/
theorem matStep_effect {o : KeyOrder} (ho : o.Valid) (yd : YDict F) (kwd : String) :
    (∃ e, ∀ st, matStep o yd kwd st = .error e) ∨
    (∃ key v, Spec.Names kwd key ∧
      dictGet yd (String.ofList (upper kwd.toList)) = .ok (.entry v) ∧
      ∀ st, matStep o yd kwd st = .ok (dictSet st.1 key v, st.2)) ∨
    (∃ arg ds, upper kwd.toList = "DATA".toList ∧
      dictGet yd (String.ofList (upper kwd.toList)) = .ok arg ∧ processMatData o arg = .ok ds ∧
      ∀ st, matStep o yd kwd st = .ok (st.1, ds)) ∨
    ((∀ key, ¬ Spec.Names kwd key) ∧ upper kwd.toList ≠ "DATA".toList ∧
      ∀ st, matStep o yd kwd st = .ok st) := by
  have hnone : matchKey o.file (upper kwd.toList) = Option.none →
      ¬ upper kwd.toList = "SPECS".toList → ∀ key, ¬ Spec.Names kwd key := by
    intro hm hs key hn
    rcases hn with ⟨h, _⟩ | ⟨_, _, h3, h4⟩
    · exact hs h
    · have := (matchKey_iff ho.file_sub (kwd := upper kwd.toList) (key := key)).2
        ⟨ho.1.mem_iff.2 h3, h4⟩
      rw [hm] at this; cases this
  unfold matStep
  cases hg : dictGet yd (String.ofList (upper kwd.toList)) with
  | error e => exact .inl ⟨e, fun _ => by simp only [hg]; rfl⟩
  | ok arg =>
    simp only [hg, bind, Except.bind]
    by_cases hd : upper kwd.toList = "DATA".toList
    · simp only [if_pos hd]
      cases hp : processMatData o arg with
      | error e => exact .inl ⟨e, fun _ => rfl⟩
      | ok ds => exact .inr (.inr (.inl ⟨arg, ds, hd, rfl, hp, fun _ => rfl⟩))
    · simp only [if_neg hd]
      cases arg with
      | data ds =>
        simp only
        by_cases hs : upper kwd.toList = "SPECS".toList
        · simp only [if_pos hs]; exact .inl ⟨_, fun _ => rfl⟩
        · simp only [if_neg hs]
          cases hm : matchKey o.file (upper kwd.toList) with
          | some k => exact .inl ⟨_, fun _ => rfl⟩
          | none => exact .inr (.inr (.inr ⟨hnone hm hs, hd, fun _ => rfl⟩))
      | entry v =>
        simp only
        by_cases hs : upper kwd.toList = "SPECS".toList
        · simp only [if_pos hs]
          exact .inr (.inl ⟨"Specification", v, .inl ⟨hs, rfl⟩, rfl, fun _ => rfl⟩)
        · simp only [if_neg hs]
          cases hm : matchKey o.file (upper kwd.toList) with
          | some k =>
            have := (matchKey_iff ho.file_sub).1 hm
            exact .inr (.inl ⟨k, v, .inr ⟨hs, hd, ho.1.mem_iff.1 this.1, this.2⟩, rfl, fun _ => rfl⟩)
          | none => exact .inr (.inr (.inr ⟨hnone hm hs, hd, fun _ => rfl⟩))

theorem names_unique {kwd a b : String} (ha : Spec.Names kwd a) (hb : Spec.Names kwd b) : a = b := by
  rcases ha with ⟨h1, rfl⟩ | ⟨h1, _, h3, h4⟩
  · rcases hb with ⟨_, rfl⟩ | ⟨g, _⟩
    · rfl
    · exact absurd h1 g
  · rcases hb with ⟨g, _⟩ | ⟨_, _, g3, g4⟩
    · exact absurd g h1
    · exact keys_unique all_keys_unique (upper kwd.toList) a (List.mem_append_left _ h3) b
        (List.mem_append_left _ g3) (List.isPrefixOf_iff_prefix.2 h4)
        (List.isPrefixOf_iff_prefix.2 g4)

/-- The loop over the keys, on two states: the same outcome; fields that are named by a key are
the same afterwards, the others as before. -/
theorem matLoop_two {o : KeyOrder} (ho : o.Valid) (yd : YDict F) : ∀ (ks : List String)
    (s s' : List (String × MetaVal) × List (Dataset F)),
    (∃ e t t', matLoop o yd ks s = (.error e, t) ∧ matLoop o yd ks s' = (.error e, t')) ∨
    ∃ t t', matLoop o yd ks s = (.ok (), t) ∧ matLoop o yd ks s' = (.ok (), t') ∧
      (∀ f, (∃ k ∈ ks, Spec.Names k f) → dictGet t.1 f = dictGet t'.1 f) ∧
      (∀ f, (∀ k ∈ ks, ¬ Spec.Names k f) → dictGet t.1 f = dictGet s.1 f ∧
        dictGet t'.1 f = dictGet s'.1 f) ∧
      ((∃ k ∈ ks, upper k.toList = "DATA".toList) → t.2 = t'.2) ∧
      ((∀ k ∈ ks, upper k.toList ≠ "DATA".toList) → t.2 = s.2 ∧ t'.2 = s'.2) := by
  intro ks
  induction ks with
  | nil =>
    intro s s'
    refine .inr ⟨s, s', rfl, rfl, ?_, fun _ _ => ⟨rfl, rfl⟩, ?_, fun _ => ⟨rfl, rfl⟩⟩
    · rintro f ⟨k, hk, _⟩; cases hk
    · rintro ⟨k, hk, _⟩; cases hk
  | cons k ks ih =>
    intro s s'
    rcases matStep_effect ho yd k with ⟨e, h⟩ | ⟨key, v, hn, hv, h⟩ | ⟨arg, ds, hd, hg, hp, h⟩ | ⟨hn, hd, h⟩
    · refine .inl ⟨e, s, s', ?_, ?_⟩ <;> rw [matLoop, h]
    · rcases ih (dictSet s.1 key v, s.2) (dictSet s'.1 key v, s'.2) with
        ⟨e, t, t', e1, e2⟩ | ⟨t, t', e1, e2, h1, h2, h3, h4⟩
      · refine .inl ⟨e, t, t', ?_, ?_⟩ <;> rw [matLoop, h] <;> assumption
      · have hnd : upper k.toList ≠ "DATA".toList := by
          rcases hn with ⟨h, _⟩ | ⟨_, h, _⟩
          · rw [h]; decide
          · exact h
        refine .inr ⟨t, t', ?_, ?_, ?_, ?_, ?_, ?_⟩
        · rw [matLoop, h]; exact e1
        · rw [matLoop, h]; exact e2
        · rintro f ⟨k', hk', hf⟩
          by_cases hx : ∃ k ∈ ks, Spec.Names k f
          · exact h1 f hx
          · have hx' : ∀ k ∈ ks, ¬ Spec.Names k f := fun k hk hf => hx ⟨k, hk, hf⟩
            rw [(h2 f hx').1, (h2 f hx').2]
            rcases List.mem_cons.1 hk' with rfl | hk'
            · have := names_unique hn hf
              subst this
              rw [dictGet_set, dictGet_set, if_pos rfl, if_pos rfl]
            · exact absurd hf (hx' k' hk')
        · intro f hf
          have hne : key ≠ f := by
            rintro rfl
            exact hf k (List.mem_cons_self ..) hn
          have := h2 f (fun k' hk' => hf k' (List.mem_cons_of_mem _ hk'))
          rw [this.1, this.2, dictGet_set, dictGet_set, if_neg hne, if_neg hne]
          exact ⟨rfl, rfl⟩
        · rintro ⟨k', hk', hf⟩
          rcases List.mem_cons.1 hk' with rfl | hk'
          · exact absurd hf hnd
          · exact h3 ⟨k', hk', hf⟩
        · intro hf
          exact h4 (fun k' hk' => hf k' (List.mem_cons_of_mem _ hk'))
    · rcases ih (s.1, ds) (s'.1, ds) with
        ⟨e, t, t', e1, e2⟩ | ⟨t, t', e1, e2, h1, h2, h3, h4⟩
      · refine .inl ⟨e, t, t', ?_, ?_⟩ <;> rw [matLoop, h] <;> assumption
      · have hnn : ∀ f, ¬ Spec.Names k f := by
          rintro f (⟨h, _⟩ | ⟨_, h, _⟩)
          · rw [hd] at h; exact absurd h (by decide)
          · exact h hd
        refine .inr ⟨t, t', ?_, ?_, ?_, ?_, ?_, ?_⟩
        · rw [matLoop, h]; exact e1
        · rw [matLoop, h]; exact e2
        · rintro f ⟨k', hk', hf⟩
          rcases List.mem_cons.1 hk' with rfl | hk'
          · exact absurd hf (hnn f)
          · exact h1 f ⟨k', hk', hf⟩
        · intro f hf
          exact h2 f (fun k' hk' => hf k' (List.mem_cons_of_mem _ hk'))
        · intro _
          by_cases hx : ∃ k ∈ ks, upper k.toList = "DATA".toList
          · exact h3 hx
          · have := h4 (fun k hk hf => hx ⟨k, hk, hf⟩)
            rw [this.1, this.2]
        · intro hf
          exact absurd hd (hf k (List.mem_cons_self ..))
    · rcases ih s s' with ⟨e, t, t', e1, e2⟩ | ⟨t, t', e1, e2, h1, h2, h3, h4⟩
      · refine .inl ⟨e, t, t', ?_, ?_⟩ <;> rw [matLoop, h] <;> assumption
      · refine .inr ⟨t, t', ?_, ?_, ?_, ?_, ?_, ?_⟩
        · rw [matLoop, h]; exact e1
        · rw [matLoop, h]; exact e2
        · rintro f ⟨k', hk', hf⟩
          rcases List.mem_cons.1 hk' with rfl | hk'
          · exact absurd hf (hn f)
          · exact h1 f ⟨k', hk', hf⟩
        · intro f hf
          exact h2 f (fun k' hk' => hf k' (List.mem_cons_of_mem _ hk'))
        · rintro ⟨k', hk', hf⟩
          rcases List.mem_cons.1 hk' with rfl | hk'
          · exact absurd hf hd
          · exact h3 ⟨k', hk', hf⟩
        · intro hf
          exact h4 (fun k' hk' => hf k' (List.mem_cons_of_mem _ hk'))

/-! ## C53: the case of the keys -/

/-- The keys of a YAML file are in upper case. -/
def Spec.UpperKeys (yd : YDict F) : Prop := ∀ p ∈ yd, upper p.1.toList = p.1.toList

/-- The values of the mapping can be used: texts and specifications, and under `DATA` datasets
that can be processed. -/
def Spec.Usable (o : KeyOrder) (yd : YDict F) : Prop :=
  ∀ p ∈ yd, (p.1 = "DATA" → ∃ ds, processMatData o p.2 = .ok ds) ∧
    (p.1 ≠ "DATA" → ∃ v, p.2 = .entry v)

theorem matLoop_ok {o : KeyOrder} (ho : o.Valid) {yd : YDict F} (hk : Keys yd)
    (hu : Spec.UpperKeys yd) (hv : Spec.Usable o yd) : ∀ (ks : List String),
    (∀ k ∈ ks, k ∈ yd.map Prod.fst) → ks.Nodup → ∀ s,
    ∃ t, matLoop o yd ks s = (.ok (), t) ∧
      (∀ k ∈ ks, ∀ f v, Spec.Names k f → (∀ k' ∈ ks, Spec.Names k' f → k' = k) →
        dictGet yd k = .ok (.entry v) → dictGet t.1 f = .ok v) ∧
      (∀ f, (∀ k ∈ ks, ¬ Spec.Names k f) → dictGet t.1 f = dictGet s.1 f) ∧
      (∀ arg ds, "DATA" ∈ ks → dictGet yd "DATA" = .ok arg → processMatData o arg = .ok ds →
        t.2 = ds) ∧ ("DATA" ∉ ks → t.2 = s.2) := by
  intro ks
  induction ks with
  | nil =>
    intro _ _ s
    exact ⟨s, rfl, by simp, by simp, by simp, by simp⟩
  | cons k ks ih =>
    intro hks hnd s
    have hnd' := List.nodup_cons.1 hnd
    obtain ⟨p, hp, rfl⟩ := List.mem_map.1 (hks k (List.mem_cons_self ..))
    have hup : String.ofList (upper p.1.toList) = p.1 := by rw [hu p hp]; simp
    have hget : dictGet yd p.1 = .ok p.2 := dictGet_of_mem hk hp
    have hdata : upper p.1.toList = "DATA".toList ↔ p.1 = "DATA" := by
      rw [hu p hp]
      exact ⟨fun h => String.toList_inj.1 h, fun h => by rw [h]⟩
    have IH := ih (fun k' hk' => hks k' (List.mem_cons_of_mem _ hk')) hnd'.2
    rcases matStep_effect ho yd p.1 with ⟨e, h⟩ | ⟨key, v, hn, hvv, h⟩ | ⟨arg, ds, hd, hg, hpp, h⟩ |
      ⟨hn, hd, h⟩
    · exfalso
      have := h s
      unfold matStep at this
      simp only [hup, hget, bind, Except.bind] at this
      by_cases hd : p.1 = "DATA"
      · rw [if_pos (hdata.2 hd)] at this
        obtain ⟨ds, hds⟩ := (hv p hp).1 hd
        rw [hds] at this
        cases this
      · rw [if_neg (fun e => hd (hdata.1 e))] at this
        obtain ⟨v, hvv⟩ := (hv p hp).2 hd
        rw [hvv] at this
        simp only at this
        split at this
        · cases this
        · split at this <;> cases this
    · rw [hup, hget] at hvv
      have hv2 : p.2 = .entry v := by injection hvv
      have hnd : p.1 ≠ "DATA" := by
        intro e
        rcases hn with ⟨h, _⟩ | ⟨_, h, _⟩
        · rw [hdata.2 e] at h; exact absurd h (by decide)
        · exact h (hdata.2 e)
      obtain ⟨t, e1, h1, h2, h3, h4⟩ := IH (dictSet s.1 key v, s.2)
      refine ⟨t, by rw [matLoop, h]; exact e1, ?_, ?_, ?_, ?_⟩
      · intro k' hk' f v' hf huq hg'
        by_cases hkk : k' = p.1
        · subst hkk
          have hkf := names_unique hn hf
          subst hkf
          rw [hget] at hg'
          rw [h2 key (fun k' hk' hf' => by
            have := huq k' (List.mem_cons_of_mem _ hk') hf'
            exact hnd'.1 (this ▸ hk')), dictGet_set, if_pos rfl]
          have : v' = v := by rw [hv2] at hg'; cases hg'; rfl
          rw [this]
        · have hk'' : k' ∈ ks := by
            rcases List.mem_cons.1 hk' with e | h
            · exact absurd e hkk
            · exact h
          exact h1 k' hk'' f v' hf (fun k2 hk2 hf2 => huq k2 (List.mem_cons_of_mem _ hk2) hf2) hg'
      · intro f hf
        rw [h2 f (fun k' hk' => hf k' (List.mem_cons_of_mem _ hk')), dictGet_set, if_neg]
        rintro rfl
        exact hf p.1 (List.mem_cons_self ..) hn
      · intro arg ds hm
        refine h3 arg ds ?_
        rcases List.mem_cons.1 hm with e | h
        · exact absurd e.symm hnd
        · exact h
      · intro hm
        exact h4 (fun h => hm (List.mem_cons_of_mem _ h))
    · have hd' := hdata.1 hd
      obtain ⟨t, e1, h1, h2, h3, h4⟩ := IH (s.1, ds)
      have hnn : ∀ f, ¬ Spec.Names p.1 f := by
        rintro f (⟨h, _⟩ | ⟨_, h, _⟩)
        · rw [hd] at h; exact absurd h (by decide)
        · exact h hd
      refine ⟨t, by rw [matLoop, h]; exact e1, ?_, ?_, ?_, ?_⟩
      · intro k' hk' f v' hf huq hg'
        rcases List.mem_cons.1 hk' with rfl | hk''
        · exact absurd hf (hnn f)
        · exact h1 k' hk'' f v' hf (fun k2 hk2 hf2 => huq k2 (List.mem_cons_of_mem _ hk2) hf2) hg'
      · intro f hf
        exact h2 f (fun k' hk' => hf k' (List.mem_cons_of_mem _ hk'))
      · intro arg' ds' _ ha hds
        rw [h4 (by rw [← hd']; exact hnd'.1)]
        rw [hup, hget] at hg
        rw [← hd', hget] at ha
        have e1 : arg = p.2 := by cases hg; rfl
        have e2 : arg' = p.2 := by cases ha; rfl
        rw [e1] at hpp
        rw [e2, hpp] at hds
        cases hds; rfl
      · intro hm
        exact absurd (by rw [← hd']; exact List.mem_cons_self ..) hm
    · obtain ⟨t, e1, h1, h2, h3, h4⟩ := IH s
      refine ⟨t, by rw [matLoop, h]; exact e1, ?_, ?_, ?_, ?_⟩
      · intro k' hk' f v' hf huq hg'
        rcases List.mem_cons.1 hk' with rfl | hk''
        · exact absurd hf (hn f)
        · exact h1 k' hk'' f v' hf (fun k2 hk2 hf2 => huq k2 (List.mem_cons_of_mem _ hk2) hf2) hg'
      · intro f hf
        exact h2 f (fun k' hk' => hf k' (List.mem_cons_of_mem _ hk'))
      · intro arg ds hm
        refine h3 arg ds ?_
        rcases List.mem_cons.1 hm with e | h
        · exact absurd (hdata.2 e.symm) hd
        · exact h
      · intro hm
        exact h4 (fun h => hm (List.mem_cons_of_mem _ h))

/-- The documented keys of a YAML file and the fields they fill. -/
def Spec.yamlKeys : List (String × String) :=
  [("REFERENCES", "Reference"), ("AUTHOR", "Author"), ("FULLNAME", "FullName"), ("NAME", "Name"),
   ("COMMENTS", "Comment"), ("SPECS", "Specification")]

theorem yamlKeys_names : ∀ p ∈ Spec.yamlKeys, Spec.Names p.1 p.2 := by
  intro p hp
  simp only [Spec.yamlKeys, List.mem_cons, List.not_mem_nil, or_false] at hp
  rcases hp with rfl | rfl | rfl | rfl | rfl | rfl
  · exact .inr ⟨by decide, by decide, by decide, by decide⟩
  · exact .inr ⟨by decide, by decide, by decide, by decide⟩
  · exact .inr ⟨by decide, by decide, by decide, by decide⟩
  · exact .inr ⟨by decide, by decide, by decide, by decide⟩
  · exact .inr ⟨by decide, by decide, by decide, by decide⟩
  · exact .inl ⟨by decide, rfl⟩

/-- Reading a mapping whose keys are in upper case. -/
theorem readYaml_upper [YamlIO F] {o : KeyOrder} (ho : o.Valid) {text : List Char} {yd : YDict F}
    (hl : YamlIO.load (universal text) = .ok yd) (hk : Keys yd) (hu : Spec.UpperKeys yd)
    (hv : Spec.Usable o yd) (r : Reader F) :
    ∃ fd r', r.readYaml o text = (.ok fd, r') ∧
      (∀ k f v, f ≠ "MetaComment" → dictGet yd k = .ok (.entry v) → Spec.Names k f →
        (∀ k' ∈ yd.map Prod.fst, Spec.Names k' f → k' = k) → dictGet fd.metaData f = .ok v) ∧
      (∀ f, f ≠ "MetaComment" → (∀ k ∈ yd.map Prod.fst, ¬ Spec.Names k f) →
        dictGet fd.metaData f = dictGet r.metaData f) ∧
      dictGet fd.metaData "MetaComment" =
        .ok (.str (String.ofList (Reader.readYaml.joinLines (readComment text)).dropLast)) ∧
      (∀ arg ds, dictGet yd "DATA" = .ok arg → processMatData o arg = .ok ds → fd.datasets = ds) ∧
      r'.metaData = fd.metaData := by
  obtain ⟨t, e1, h1, h2, h3, _⟩ := matLoop_ok ho hk hu hv (yd.map Prod.fst) (fun _ h => h) hk
    (r.metaData, r.datasets)
  rw [Reader.readYaml, hl]
  simp only [e1]
  refine ⟨_, _, rfl, ?_, ?_, ?_, ?_, rfl⟩
  · intro k f v hf hg hn hq
    show dictGet (dictSet t.1 "MetaComment" _) f = _
    rw [dictGet_set, if_neg (Ne.symm hf)]
    exact h1 k (List.mem_map.2 ⟨_, dictGet_mem hg, rfl⟩) f v hn hq hg
  · intro f hf hn
    show dictGet (dictSet t.1 "MetaComment" _) f = _
    rw [dictGet_set, if_neg (Ne.symm hf)]
    exact h2 f hn
  · show dictGet (dictSet t.1 "MetaComment" _) "MetaComment" = _
    rw [dictGet_set, if_pos rfl]
  · intro arg ds ha hds
    exact h3 arg ds (List.mem_map.2 ⟨_, dictGet_mem ha, rfl⟩) ha hds

/-- C53 for mappings whose keys are in upper case: reading succeeds, every documented key fills its
field and keys that name no field do not matter. Missing: keys in lower case, for which it is
false. -/
theorem C53_upper_partial [NumText F] [YamlIO F] {o : KeyOrder} (ho : o.Valid) {text : List Char}
    {yd : YDict F} (hl : YamlIO.load (universal text) = .ok yd) (hk : Keys yd)
    (hu : Spec.UpperKeys yd) (hv : Spec.Usable o yd) :
    ∃ fd r', (Reader.fresh o : Reader F).readFile o ".yml" text = (.ok fd, r') ∧
      (∀ p ∈ Spec.yamlKeys, ∀ v, dictGet yd p.1 = .ok (.entry v) →
        (∀ k ∈ yd.map Prod.fst, Spec.Names k p.2 → k = p.1) → dictGet fd.metaData p.2 = .ok v) ∧
      (∀ p ∈ Spec.yamlKeys, (∀ k ∈ yd.map Prod.fst, ¬ Spec.Names k p.2) →
        dictGet fd.metaData p.2 = .ok (if p.1 = "SPECS" then .dict [] else .str "")) ∧
      (∀ arg ds, dictGet yd "DATA" = .ok arg → processMatData o arg = .ok ds → fd.datasets = ds) := by
  obtain ⟨fd, r', h1, h2, h3, _, h5, _⟩ := readYaml_upper ho hl hk hu hv (Reader.fresh o)
  have hr : (Reader.fresh o : Reader F).readFile o ".yml" text = (.ok fd, r') := by
    rw [Reader.readFile]
    simp only [show textFormat ".yml" = Option.none from by decide, if_true]
    exact h1
  have hnm : ∀ p ∈ Spec.yamlKeys, p.2 ≠ "MetaComment" := by decide
  refine ⟨fd, r', hr, ?_, ?_, h5⟩
  · intro p hp v hg hq
    exact h2 p.1 p.2 v (hnm p hp) hg (yamlKeys_names p hp) hq
  · intro p hp hq
    rw [h3 p.2 (hnm p hp) hq]
    show dictGet (defaultMeta o) p.2 = _
    rw [defaultMeta, dictGet_const]
    have : ∀ p ∈ Spec.yamlKeys, (p.2 ∈ fileMetaKeys ↔ p.1 ≠ "SPECS") ∧
        (p.1 = "SPECS" → p.2 = "Specification") := by decide
    obtain ⟨g1, g2⟩ := this p hp
    by_cases hs : p.1 = "SPECS"
    · rw [if_pos hs, if_neg (by rw [ho.1.mem_iff, g1]; simp [hs]), g2 hs]; rfl
    · rw [if_neg hs, if_pos (by rw [ho.1.mem_iff, g1]; exact hs)]

/-- C53: a key that does not also occur in upper case makes reading fail, whatever it is. -/
theorem C53_lower [YamlIO F] [NumText F] {o : KeyOrder} (r : Reader F) {text : List Char}
    {yd : YDict F} (hl : YamlIO.load (universal text) = .ok yd) {k : String}
    (hk : k ∈ yd.map Prod.fst) (hn : String.ofList (upper k.toList) ∉ yd.map Prod.fst) :
    ∃ e r', r.readFile o ".yml" text = (.error e, r') := by
  have key : ∀ ks : List String, k ∈ ks → ∀ s, ∃ e t, matLoop o yd ks s = (.error e, t) := by
    intro ks
    induction ks with
    | nil => intro h; cases h
    | cons k' ks ih =>
      intro hm s
      rw [matLoop]
      cases hs : matStep o yd k' s with
      | error e => exact ⟨e, s, rfl⟩
      | ok s' =>
        rcases List.mem_cons.1 hm with rfl | hm
        · exfalso
          unfold matStep at hs
          obtain ⟨v, hv, _⟩ := except_bind_ok hs
          exact hn (List.mem_map.2 ⟨_, dictGet_mem hv, rfl⟩)
        · exact ih hm s'
  obtain ⟨e, t, h⟩ := key (yd.map Prod.fst) hk (r.metaData, r.datasets)
  refine ⟨e, { r with metaData := t.1 }, ?_⟩
  rw [Reader.readFile]
  simp only [show textFormat ".yml" = Option.none from by decide, if_true]
  rw [Reader.readYaml, hl]
  simp only [h]

/-- C53 (full statement, refuted below): a mapping of texts is read, whatever its keys. -/
def C53_statement (F : Type) [NumText F] : Prop :=
  ∀ (_ : YamlIO F) (o : KeyOrder), o.Valid → ∀ (text : List Char) (yd : YDict F),
    YamlIO.load (universal text) = .ok yd → Keys yd → (∀ p ∈ yd, ∃ s, p.2 = .entry (.str s)) →
    ∃ fd r', (Reader.fresh o : Reader F).readFile o ".yml" text = (.ok fd, r')

/-- C53 is false: the key `Author` is not found under its name in upper case. -/
theorem C53_refuted (F : Type) [NumText F] : ¬ C53_statement F := by
  intro h
  let Y : YamlIO F := { load := fun _ => .ok [("Author", .entry (.str "X"))], dump := fun _ => [] }
  obtain ⟨fd, r', h1⟩ := h Y ⟨fileMetaKeys, datasetMetaKeys⟩ ⟨.refl _, .refl _⟩ []
    [("Author", .entry (.str "X"))] rfl (by simp [Keys]) (by
      intro p hp
      have : p = _ := List.mem_singleton.1 hp
      subst this
      exact ⟨"X", rfl⟩)
  obtain ⟨e, r2, h2⟩ := C53_lower (o := ⟨fileMetaKeys, datasetMetaKeys⟩)
    (Reader.fresh ⟨fileMetaKeys, datasetMetaKeys⟩ : Reader F) (text := [])
    (yd := [("Author", .entry (.str "X"))]) rfl (k := "Author") (by simp) (by
      show _ ∉ ["Author"]
      decide +kernel)
  rw [h1] at h2
  cases h2

/-- Concrete case for `C53_upper_partial`: a file with an author, an unknown key and no data. -/
example [NumText F] : letI : YamlIO F :=
      { load := fun _ => .ok [("AUTHOR", .entry (.str "X")), ("INFO", .entry (.str "y"))],
        dump := fun _ => [] }
    ∃ fd r', (Reader.fresh ⟨fileMetaKeys, datasetMetaKeys⟩ : Reader F).readFile
      ⟨fileMetaKeys, datasetMetaKeys⟩ ".yml" [] = (.ok fd, r') ∧
      dictGet fd.metaData "Author" = .ok (.str "X") ∧ dictGet fd.metaData "Name" = .ok (.str "") := by
  letI : YamlIO F :=
      { load := fun _ => .ok [("AUTHOR", .entry (.str "X")), ("INFO", .entry (.str "y"))],
        dump := fun _ => [] }
  have two : ∀ p ∈ ([("AUTHOR", .entry (.str "X")), ("INFO", .entry (.str "y"))] : YDict F),
      p = ("AUTHOR", .entry (.str "X")) ∨ p = ("INFO", .entry (.str "y")) := by
    intro p hp; simpa using hp
  have hinfo : ∀ f, ¬ Spec.Names "INFO" f := by
    rintro f (⟨h, _⟩ | ⟨_, _, h3, h4⟩)
    · exact absurd h (by decide)
    · revert h4 h3
      revert f
      decide +kernel
  obtain ⟨fd, r', h1, h2, h3, _⟩ := C53_upper_partial (F := F) (o := ⟨fileMetaKeys, datasetMetaKeys⟩)
    ⟨.refl _, .refl _⟩ (text := [])
    (yd := [("AUTHOR", .entry (.str "X")), ("INFO", .entry (.str "y"))]) rfl (by simp [Keys])
    (by intro p hp; rcases two p hp with rfl | rfl
        · show upper "AUTHOR".toList = "AUTHOR".toList; decide
        · show upper "INFO".toList = "INFO".toList; decide)
    (by
      intro p hp
      rcases two p hp with rfl | rfl
      · exact ⟨fun h => absurd h (by simp), fun _ => ⟨_, rfl⟩⟩
      · exact ⟨fun h => absurd h (by simp), fun _ => ⟨_, rfl⟩⟩)
  refine ⟨fd, r', h1, h2 ("AUTHOR", "Author") (by decide) _ rfl ?_,
    (h3 ("NAME", "Name") (by decide) ?_).trans rfl⟩
  · intro k hk hn
    have : k = "AUTHOR" ∨ k = "INFO" := by simpa using hk
    rcases this with rfl | rfl
    · rfl
    · exact absurd hn (hinfo _)
  · intro k hk hn
    have : k = "AUTHOR" ∨ k = "INFO" := by simpa using hk
    rcases this with rfl | rfl
    · rcases hn with ⟨h, _⟩ | ⟨_, _, _, h⟩
      · exact absurd h (by decide)
      · exact absurd h (by decide)
    · exact absurd hn (hinfo _)

/-! ## C54: using a reader again -/

/-- The reader after some calls of `read_file`. -/
def Reader.after [NumText F] [YamlIO F] (o : KeyOrder) (files : List (String × List Char)) :
    Reader F :=
  files.foldl (fun r f => (r.readFile o f.1 f.2).2) (Reader.fresh o)

theorem readFile_length [NumText F] [YamlIO F] {r : Reader F} (h : r.datasets.length = 1)
    (o : KeyOrder) (ext : String) (text : List Char) :
    (r.readFile o ext text).2.datasets.length = 1 := by
  have hd : r.datasets.drop 1 = [] := List.drop_eq_nil_of_le (by omega)
  unfold Reader.readFile
  split
  · unfold Reader.readText
    split
    · exact h
    · unfold Reader.textResult
      simp only
      split <;> simp [hd]
  · split
    · unfold Reader.readYaml
      split
      · exact h
      · split
        · exact h
        · exact h
    · exact h

theorem after_length [NumText F] [YamlIO F] (o : KeyOrder) (files : List (String × List Char)) :
    (Reader.after o files : Reader F).datasets.length = 1 := by
  unfold Reader.after
  have : ∀ (fs : List (String × List Char)) (r : Reader F), r.datasets.length = 1 →
      (fs.foldl (fun r f => (r.readFile o f.1 f.2).2) r).datasets.length = 1 := by
    intro fs
    induction fs with
    | nil => exact fun _ h => h
    | cons f fs ih => exact fun r h => ih _ (readFile_length h o f.1 f.2)
  exact this files _ rfl

/-- The file states the field: a header line fills it, or, for the meta comment, some header line
fills no field. -/
def Spec.Stated (text : List Char) (field : String) : Prop :=
  (∃ line ∈ readComment text, ∃ arg, field ∈ fileFields ∧ Spec.Fills field.toList line arg) ∨
  (field = "MetaComment" ∧ ∃ line ∈ readComment text, ∀ key ∈ fileFields ++ datasetFields,
    ∀ arg, ¬ Spec.Fills key.toList line arg)

theorem role_comment {o : KeyOrder} (ho : o.Valid) (line : List Char) :
    lineRole o line = .comment ↔ ∀ key ∈ fileFields ++ datasetFields, ∀ arg,
      ¬ Spec.Fills key.toList line arg := by
  constructor
  · intro h key hk arg hf
    rcases List.mem_append.1 hk with hk | hk
    · rw [(C44_file_field ho line key arg).2 ⟨hk, hf⟩] at h; cases h
    · rw [(C44_dataset_field ho line key arg).2 ⟨hk, hf⟩] at h; cases h
  · intro h
    cases hr : lineRole o line with
    | comment => rfl
    | file key arg =>
      have := (C44_file_field ho line key arg).1 hr
      exact absurd this.2 (h key (List.mem_append_left _ this.1) arg)
    | dataset key arg =>
      have := (C44_dataset_field ho line key arg).1 hr
      exact absurd this.2 (h key (List.mem_append_right _ this.1) arg)

theorem fold_two {o : KeyOrder} (ls : List (List Char)) : ∀ s s' : TextState F,
    s.dataset = s'.dataset → s.multi = s'.multi →
    (ls.foldl (textStep o) s).dataset = (ls.foldl (textStep o) s').dataset ∧
    (ls.foldl (textStep o) s).multi = (ls.foldl (textStep o) s').multi ∧
    (∀ f, (∃ l ∈ ls, ∃ arg, lineRole o l = .file f arg) →
      dictGet (ls.foldl (textStep o) s).metaData f = dictGet (ls.foldl (textStep o) s').metaData f) ∧
    (∀ f, (∀ l ∈ ls, ∀ arg, lineRole o l ≠ .file f arg) →
      dictGet (ls.foldl (textStep o) s).metaData f = dictGet s.metaData f) := by
  induction ls with
  | nil =>
    intro s s' h1 h2
    refine ⟨h1, h2, ?_, fun _ _ => rfl⟩
    rintro f ⟨l, hl, _⟩; cases hl
  | cons l ls ih =>
    intro s s' h1 h2
    rw [List.foldl_cons, List.foldl_cons]
    have hs : (textStep o s l).dataset = (textStep o s' l).dataset := by
      unfold textStep
      cases lineRole o l with
      | comment => exact h1
      | file k a => exact h1
      | dataset k a => show dictSet _ _ _ = dictSet _ _ _; rw [h1]
    have hm : (textStep o s l).multi = (textStep o s' l).multi := by
      unfold textStep
      cases lineRole o l with
      | comment => show _ ++ _ ++ _ = _; rw [h2]
      | file k a => exact h2
      | dataset k a => exact h2
    obtain ⟨g1, g2, g3, g4⟩ := ih _ _ hs hm
    have g4' := (ih _ _ hs.symm hm.symm).2.2.2
    refine ⟨g1, g2, ?_, ?_⟩
    · rintro f ⟨l', hl', arg, ha⟩
      by_cases hx : ∃ l ∈ ls, ∃ arg, lineRole o l = .file f arg
      · exact g3 f hx
      · have hx' : ∀ l ∈ ls, ∀ arg, lineRole o l ≠ .file f arg :=
          fun l hl arg h => hx ⟨l, hl, arg, h⟩
        rw [g4 f hx', g4' f hx']
        rcases List.mem_cons.1 hl' with rfl | hl'
        · unfold textStep
          simp only [ha]
          rw [dictGet_set, dictGet_set, if_pos rfl, if_pos rfl]
        · exact absurd ha (hx' l' hl' arg)
    · intro f hf
      rw [g4 f (fun l' hl' => hf l' (List.mem_cons_of_mem _ hl'))]
      have h0 := hf l (List.mem_cons_self ..)
      unfold textStep
      cases hr : lineRole o l with
      | comment => rfl
      | dataset k a => rfl
      | file k a =>
        show dictGet (dictSet _ _ _) f = _
        rw [dictGet_set, if_neg]
        rintro rfl
        exact h0 a hr

theorem multi_empty {o : KeyOrder} (ls : List (List Char)) : ∀ s : TextState F, s.multi = [] →
    ((ls.foldl (textStep o) s).multi = [] ↔ ∀ l ∈ ls, lineRole o l ≠ .comment) := by
  have keep : ∀ (ls : List (List Char)) (s : TextState F), s.multi ≠ [] →
      (ls.foldl (textStep o) s).multi ≠ [] := by
    intro ls
    induction ls with
    | nil => exact fun _ h => h
    | cons l ls ih =>
      intro s h
      refine ih _ ?_
      unfold textStep
      cases lineRole o l with
      | comment => simp
      | file k a => exact h
      | dataset k a => exact h
  induction ls with
  | nil => intro s h; simp [h]
  | cons l ls ih =>
    intro s h
    rw [List.foldl_cons]
    cases hr : lineRole o l with
    | comment =>
      have : (textStep o s l).multi ≠ [] := by unfold textStep; rw [hr]; simp
      constructor
      · intro h'; exact absurd h' (keep ls _ this)
      · intro h'; exact absurd hr (h' l (List.mem_cons_self ..))
    | file k a =>
      rw [ih _ (by unfold textStep; rw [hr]; exact h)]
      simp [hr]
    | dataset k a =>
      rw [ih _ (by unfold textStep; rw [hr]; exact h)]
      simp [hr]

/-- Two calls return files with the same datasets, and metadata that agree in the stated fields;
the other fields are those of the reader. -/
def Overlay (r : Reader F) (stated : String → Prop) : Res (FileDict F) → Res (FileDict F) → Prop
  | .ok fd, .ok fd0 => fd.datasets = fd0.datasets ∧
      (∀ f, stated f → dictGet fd.metaData f = dictGet fd0.metaData f) ∧
      (∀ f, ¬ stated f → dictGet fd.metaData f = dictGet r.metaData f)
  | .error e, .error e0 => e = e0
  | _, _ => False

/-- C54 for text files: a reader that has been used returns what a fresh one returns, except for
the metadata that the file does not state; those are the ones of the file before. -/
theorem C54_text_partial [NumText F] [YamlIO F] {o : KeyOrder} (ho : o.Valid)
    (files : List (String × List Char)) {ext : String} {fmt : Char × Option Char}
    (hx : textFormat ext = some fmt) (text : List Char) :
    Overlay (Reader.after o files : Reader F) (Spec.Stated text)
      ((Reader.after o files).readFile o ext text).1 ((Reader.fresh o).readFile o ext text).1 := by
  have hlen := after_length (F := F) o files
  generalize (Reader.after o files : Reader F) = r at hlen
  have hd : r.datasets.drop 1 = [] := List.drop_eq_nil_of_le (by omega)
  unfold Reader.readFile
  simp only [hx]
  unfold Reader.readText
  cases hl : (loadtxt fmt.1 fmt.2 text : Res (NDArr F)) with
  | error e => exact (rfl : e = e)
  | ok a =>
    simp only
    obtain ⟨g1, g2, g3, g4⟩ := fold_two (o := o) (readComment text) (r.textStart o a)
      ((Reader.fresh o : Reader F).textStart o a) rfl rfl
    have hme := multi_empty (o := o) (readComment text) (r.textStart o a) rfl
    unfold Reader.textResult
    simp only [← g1, ← g2]
    generalize hS : (readComment text).foldl (textStep o) (r.textStart o a) = S at *
    generalize hS0 : (readComment text).foldl (textStep o) ((Reader.fresh o : Reader F).textStart o a) =
      S0 at *
    cases hi : inferType S.dataset with
    | error e => exact (rfl : e = e)
    | ok d =>
      refine ⟨?_, ?_, ?_⟩
      · show d :: r.datasets.drop 1 = d :: (Reader.fresh o : Reader F).datasets.drop 1
        rw [hd]; rfl
      · intro f hf
        show dictGet (if S.multi = [] then _ else _) f = dictGet (if S.multi = [] then _ else _) f
        rcases hf with ⟨l, hl', arg, hm, hf⟩ | ⟨rfl, l, hl', hf⟩
        · have := g3 f ⟨l, hl', arg, (C44_file_field ho l f arg).2 ⟨hm, hf⟩⟩
          split
          · exact this
          · rw [dictGet_set, dictGet_set, this]
        · have : S.multi ≠ [] := by
            intro e
            exact hme.1 e l hl' ((role_comment ho l).2 hf)
          rw [if_neg this, if_neg this, dictGet_set, dictGet_set, if_pos rfl, if_pos rfl]
      · intro f hf
        show dictGet (if S.multi = [] then _ else _) f = _
        have hno : dictGet S.metaData f = dictGet r.metaData f := by
          refine g4 f (fun l hl' arg hr => hf (.inl ⟨l, hl', arg, ?_⟩))
          exact (C44_file_field ho l f arg).1 hr
        split
        · exact hno
        · rename_i hmul
          rw [dictGet_set, if_neg, hno]
          rintro rfl
          refine hmul (hme.2 (fun l hl' hr => hf (.inr ⟨rfl, l, hl', (role_comment ho l).1 hr⟩)))

/-- C54 for YAML files with datasets: as for text files; the meta comment is always stated. -/
theorem C54_yaml_partial [NumText F] [YamlIO F] {o : KeyOrder} (ho : o.Valid)
    (files : List (String × List Char)) {text : List Char} {yd : YDict F}
    (hl : YamlIO.load (universal text) = .ok yd)
    (hd : ∃ k ∈ yd.map Prod.fst, upper k.toList = "DATA".toList) :
    Overlay (Reader.after o files : Reader F)
      (fun f => f = "MetaComment" ∨ ∃ k ∈ yd.map Prod.fst, Spec.Names k f)
      ((Reader.after o files).readFile o ".yml" text).1
      ((Reader.fresh o).readFile o ".yml" text).1 := by
  generalize (Reader.after o files : Reader F) = r
  unfold Reader.readFile
  simp only [show textFormat ".yml" = Option.none from by decide, if_true]
  unfold Reader.readYaml
  simp only [hl]
  rcases matLoop_two ho yd (yd.map Prod.fst) (r.metaData, r.datasets)
    ((Reader.fresh o : Reader F).metaData, (Reader.fresh o : Reader F).datasets) with
    ⟨e, t, t', e1, e2⟩ | ⟨t, t', e1, e2, h1, h2, h3, h4⟩
  · simp only [e1, e2]
    exact (rfl : e = e)
  · simp only [e1, e2]
    refine ⟨h3 hd, ?_, ?_⟩
    · intro f hf
      show dictGet (dictSet t.1 "MetaComment" _) f = dictGet (dictSet t'.1 "MetaComment" _) f
      rw [dictGet_set, dictGet_set]
      by_cases hm : "MetaComment" = f
      · rw [if_pos hm, if_pos hm]
      · rw [if_neg hm, if_neg hm]
        rcases hf with rfl | hf
        · exact absurd rfl hm
        · exact h1 f hf
    · intro f hf
      show dictGet (dictSet t.1 "MetaComment" _) f = _
      rw [dictGet_set, if_neg (fun e => hf (.inl e.symm))]
      exact (h2 f (fun k hk hn => hf (.inr ⟨k, hk, hn⟩))).1

/-- C54: a YAML file without datasets gets the datasets that the reader read before from a text
file. -/
theorem C54_yaml_datasets [NumText F] [YamlIO F] {o : KeyOrder} (ho : o.Valid) (r : Reader F)
    {text : List Char} {yd : YDict F} (hl : YamlIO.load (universal text) = .ok yd)
    (hd : ∀ k ∈ yd.map Prod.fst, upper k.toList ≠ "DATA".toList) {fd : FileDict F} {r' : Reader F}
    (h : r.readFile o ".yml" text = (.ok fd, r')) : fd.datasets = r.datasets := by
  unfold Reader.readFile at h
  simp only [show textFormat ".yml" = Option.none from by decide, if_true] at h
  unfold Reader.readYaml at h
  simp only [hl] at h
  rcases matLoop_two ho yd (yd.map Prod.fst) (r.metaData, r.datasets) (r.metaData, r.datasets) with
    ⟨e, t, t', e1, e2⟩ | ⟨t, t', e1, e2, h1, h2, h3, h4⟩
  · simp only [e1] at h
    cases h
  · simp only [e1] at h
    have : fd.datasets = t.2 := by cases h; rfl
    rw [this]
    exact (h4 hd).1

/-- C54 (full statement, refuted below). -/
def C54_statement (F : Type) [NumText F] [YamlIO F] : Prop :=
  ∀ (o : KeyOrder), o.Valid → ∀ (files : List (String × List Char)) (ext : String)
    (text : List Char),
    ((Reader.after o files : Reader F).readFile o ext text).1 =
      ((Reader.fresh o : Reader F).readFile o ext text).1

/-- C54 is false: the author of one file is reported for the next one. -/
theorem C54_refuted (F : Type) [NumText F] [YamlIO F] : ¬ C54_statement F := by
  intro h
  have := h ⟨fileMetaKeys, datasetMetaKeys⟩ ⟨.refl _, .refl _⟩
    [(".txt", "#AUTHOR: A\n#DATATYPE: tabulated n\n".toList)] ".txt"
    "#DATATYPE: tabulated n\n".toList
  have e := congrArg (fun x : Res (FileDict F) => match x with
    | .ok fd => (match dictGet fd.metaData "Author" with
      | .ok (.str s) => s
      | _ => "none")
    | .error _ => "error") this
  revert e
  have e1 : (match ((Reader.after ⟨fileMetaKeys, datasetMetaKeys⟩
      [(".txt", "#AUTHOR: A\n#DATATYPE: tabulated n\n".toList)] : Reader F).readFile
        ⟨fileMetaKeys, datasetMetaKeys⟩ ".txt" "#DATATYPE: tabulated n\n".toList).1 with
    | .ok fd => (match dictGet fd.metaData "Author" with
      | .ok (.str s) => s
      | _ => "none")
    | .error _ => "error") = "A" := by rfl
  have e2 : (match ((Reader.fresh ⟨fileMetaKeys, datasetMetaKeys⟩ : Reader F).readFile
        ⟨fileMetaKeys, datasetMetaKeys⟩ ".txt" "#DATATYPE: tabulated n\n".toList).1 with
    | .ok fd => (match dictGet fd.metaData "Author" with
      | .ok (.str s) => s
      | _ => "none")
    | .error _ => "error") = "" := by rfl
  intro e
  have e' := e1.symm.trans (e.trans e2)
  exact absurd e' (by decide)

end Disp

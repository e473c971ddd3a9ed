import Verif.Spec.Header
import Verif.Lemmas.Files
/-!
# C44: header lines do not depend on the order of the key sets
-/

namespace Disp

/-! ## Dictionaries -/

theorem dictGet_set {α : Type} (d : List (String × α)) (k x : String) (v : α) :
    dictGet (dictSet d k v) x = if k = x then .ok v else dictGet d x := by
  induction d with
  | nil => simp [dictSet, dictGet]
  | cons p d ih =>
    obtain ⟨a, b⟩ := p
    rw [dictSet]
    by_cases h : a = k
    · subst h
      rw [if_pos rfl, dictGet, dictGet]
      by_cases hx : a = x
      · rw [if_pos hx, if_pos hx]
      · rw [if_neg hx, if_neg hx, if_neg hx]
    · rw [if_neg h, dictGet, ih, dictGet]
      by_cases hx : a = x
      · have : ¬ k = x := fun hk => h (hx.trans hk.symm)
        rw [if_pos hx, if_neg this, if_pos hx]
      · rw [if_neg hx, if_neg hx]

/-- The dictionaries have the same entries. -/
def SameDict {α : Type} (d d' : List (String × α)) : Prop := ∀ k, dictGet d k = dictGet d' k

theorem SameDict.set {α : Type} {d d' : List (String × α)} (h : SameDict d d') (k : String) (v : α) :
    SameDict (dictSet d k v) (dictSet d' k v) := by
  intro x
  rw [dictGet_set, dictGet_set, h x]

theorem SameDict.refl {α : Type} (d : List (String × α)) : SameDict d d := fun _ => rfl

theorem dictGet_const {α : Type} (ks : List String) (v : α) (x : String) (rest : List (String × α)) :
    dictGet (ks.map (fun k => (k, v)) ++ rest) x = if x ∈ ks then .ok v else dictGet rest x := by
  induction ks with
  | nil => simp
  | cons k ks ih =>
    rw [List.map_cons, List.cons_append, dictGet, ih]
    by_cases h : k = x
    · simp [h]
    · have : ¬ x = k := fun e => h e.symm
      simp [h, this]

/-! ## Keys -/

theorem find?_perm {α : Type} {p : α → Bool} {l l' : List α} (h : l.Perm l')
    (hu : ∀ a ∈ l, ∀ b ∈ l, p a = true → p b = true → a = b) : l.find? p = l'.find? p := by
  cases hl : l.find? p with
  | none =>
    rw [List.find?_eq_none] at hl
    symm
    rw [List.find?_eq_none]
    exact fun x hx => hl x (h.mem_iff.2 hx)
  | some a =>
    have ha := List.find?_some hl
    have hm := List.mem_of_find?_eq_some hl
    cases hl' : l'.find? p with
    | none =>
      rw [List.find?_eq_none] at hl'
      exact absurd ha (hl' a (h.mem_iff.1 hm))
    | some b =>
      have hb := List.find?_some hl'
      have hmb := h.mem_iff.2 (List.mem_of_find?_eq_some hl')
      rw [hu a hm b hmb ha hb]

theorem find?_some_iff {α : Type} {p : α → Bool} {l : List α} {a : α}
    (hu : ∀ a ∈ l, ∀ b ∈ l, p a = true → p b = true → a = b) :
    l.find? p = some a ↔ a ∈ l ∧ p a = true := by
  constructor
  · intro h
    exact ⟨List.mem_of_find?_eq_some h, List.find?_some h⟩
  · rintro ⟨hm, hp⟩
    cases hl : l.find? p with
    | none => rw [List.find?_eq_none] at hl; exact absurd hp (hl a hm)
    | some b =>
      rw [hu b (List.mem_of_find?_eq_some hl) a hm (List.find?_some hl) hp]

/-- No key is the beginning of another one, so that a word begins with at most one key. -/
theorem keys_unique {keys : List String}
    (hk : ∀ a ∈ keys, ∀ b ∈ keys, (upper a.toList).isPrefixOf (upper b.toList) = true → a = b)
    (kwd : List Char) (a : String) (ha : a ∈ keys) (b : String) (hb : b ∈ keys)
    (h1 : (upper a.toList).isPrefixOf kwd = true) (h2 : (upper b.toList).isPrefixOf kwd = true) :
    a = b := by
  rw [List.isPrefixOf_iff_prefix] at h1 h2
  rcases List.prefix_or_prefix_of_prefix h1 h2 with h | h
  · exact hk a ha b hb (List.isPrefixOf_iff_prefix.2 h)
  · exact (hk b hb a ha (List.isPrefixOf_iff_prefix.2 h)).symm

theorem all_keys_unique : ∀ a ∈ fileMetaKeys ++ datasetMetaKeys, ∀ b ∈ fileMetaKeys ++ datasetMetaKeys,
    (upper a.toList).isPrefixOf (upper b.toList) = true → a = b := by decide +kernel

theorem matchKey_perm {keys keys' : List String} (h : keys.Perm keys')
    (hs : keys ⊆ fileMetaKeys ++ datasetMetaKeys) (kwd : List Char) :
    matchKey keys kwd = matchKey keys' kwd :=
  find?_perm h (fun a ha b hb => keys_unique all_keys_unique kwd a (hs ha) b (hs hb))

theorem KeyOrder.Valid.file_sub {o : KeyOrder} (h : o.Valid) :
    o.file ⊆ fileMetaKeys ++ datasetMetaKeys :=
  fun _ hx => List.mem_append_left _ (h.1.mem_iff.1 hx)

theorem KeyOrder.Valid.dataset_sub {o : KeyOrder} (h : o.Valid) :
    o.dataset ⊆ fileMetaKeys ++ datasetMetaKeys :=
  fun _ hx => List.mem_append_right _ (h.2.mem_iff.1 hx)

theorem matchKey_iff {keys : List String} (hs : keys ⊆ fileMetaKeys ++ datasetMetaKeys)
    {kwd : List Char} {key : String} :
    matchKey keys kwd = some key ↔ key ∈ keys ∧ upper key.toList <+: kwd := by
  rw [matchKey, find?_some_iff
    (fun a ha b hb => keys_unique all_keys_unique kwd a (hs ha) b (hs hb)),
    List.isPrefixOf_iff_prefix]

/-- The two orders in which the sets may be iterated. -/
theorem C44_line {o o' : KeyOrder} (h : o.Valid) (h' : o'.Valid) (line : List Char) :
    lineRole o line = lineRole o' line := by
  have e1 := matchKey_perm (h.1.trans h'.1.symm) h.file_sub
  have e2 := matchKey_perm (h.2.trans h'.2.symm) h.dataset_sub
  unfold lineRole
  simp only [e1, e2]

/-! ## Which field a line fills -/

theorem joinColon_split (l : List Char) : joinColon (splitOnChar ':' l) = l := by
  induction l with
  | nil => rfl
  | cons c cs ih =>
    rw [splitOnChar]
    split
    · rename_i h
      cases hs : splitOnChar ':' cs with
      | nil => exact absurd hs (splitOnChar_ne_nil _ _)
      | cons w ws =>
        rw [joinColon, ← hs, ih, h]; rfl
    · cases hs : splitOnChar ':' cs with
      | nil => exact absurd hs (splitOnChar_ne_nil _ _)
      | cons w ws =>
        rw [hs] at ih
        simp only
        cases ws with
        | nil => rw [joinColon] at ih ⊢; rw [ih]
        | cons v vs => rw [joinColon] at ih ⊢; rw [← ih]; rfl

theorem split_colon (line : List Char) : (∃ p, splitOnChar ':' line = [p] ∧ ':' ∉ line) ∨
    ∃ k rest, line = k ++ ':' :: rest ∧ ':' ∉ k ∧
      splitOnChar ':' line = k :: splitOnChar ':' rest := by
  by_cases h : ':' ∈ line
  · right
    obtain ⟨k, rest, rfl, hk⟩ : ∃ k rest, line = k ++ ':' :: rest ∧ ':' ∉ k := by
      obtain ⟨as, bs, he, hn⟩ := List.eq_append_cons_of_mem h
      exact ⟨as, bs, he, hn⟩
    exact ⟨k, rest, rfl, hk, splitOnChar_append hk⟩
  · left
    exact ⟨line, splitOnChar_none h, h⟩

theorem lineRole_colon (o : KeyOrder) {k : List Char} (hk : ':' ∉ k) (rest : List Char) :
    lineRole o (k ++ ':' :: rest) =
      match matchKey o.file (lstrip (upper k)) with
      | some key => .file key (lstrip (rstripNl rest))
      | none =>
        match matchKey o.dataset (lstrip (upper k)) with
        | some key => .dataset key (lstrip (rstripNl rest))
        | none => .comment := by
  have hj := joinColon_split rest
  rw [lineRole, splitOnChar_append hk]
  cases hs : splitOnChar ':' rest with
  | nil => exact absurd hs (splitOnChar_ne_nil _ _)
  | cons w ws =>
    rw [hs] at hj
    simp only [hj]
    cases matchKey o.file (lstrip (upper k)) <;> cases matchKey o.dataset (lstrip (upper k)) <;> rfl

theorem upper_space (c : Char) : pySpace c.toUpper = pySpace c := by
  by_cases h : c.toUpper = c
  · rw [h]
  · have hl : c.val ≥ 97 ∧ c.val ≤ 122 := by
      by_contra hc
      apply h
      rw [Char.toUpper]
      exact dif_neg hc
    have key : ∀ n ∈ List.range 26, pySpace (Char.ofNat (n + 97)).toUpper =
        pySpace (Char.ofNat (n + 97)) := by decide +kernel
    have hn : c.toNat - 97 < 26 ∧ 97 ≤ c.toNat := by
      have h1 : (97 : ℕ) ≤ c.val.toNat := by
        have := hl.1; rw [ge_iff_le, UInt32.le_iff_toNat_le] at this; simpa using this
      have h2 : c.val.toNat ≤ 122 := by
        have := hl.2; rw [UInt32.le_iff_toNat_le] at this; simpa using this
      have : c.toNat = c.val.toNat := rfl
      omega
    have := key (c.toNat - 97) (List.mem_range.2 hn.1)
    rwa [Nat.sub_add_cancel hn.2, Char.ofNat_toNat] at this

theorem lstrip_upper (k : List Char) : lstrip (upper k) = upper (lstrip k) := by
  induction k with
  | nil => rfl
  | cons c k ih =>
    rw [upper, List.map_cons, lstrip, List.dropWhile_cons, upper_space, lstrip, List.dropWhile_cons]
    by_cases h : pySpace c = true
    · rw [if_pos h, if_pos h]; exact ih
    · rw [if_neg h, if_neg h]; rfl

theorem lstrip_split (l : List Char) : ∃ b, l = b ++ lstrip l ∧ ∀ c ∈ b, pySpace c = true := by
  refine ⟨l.takeWhile pySpace, ?_, fun c hc => mem_takeWhile_imp' hc⟩
  exact (List.takeWhile_append_dropWhile (p := pySpace) (l := l)).symm

theorem lstrip_head (l : List Char) : ∀ c ∈ (lstrip l).head?, pySpace c = false := by
  intro c hc
  have := List.head?_dropWhile_not pySpace l
  rw [lstrip] at hc
  rw [hc] at this
  simpa using this

theorem lstrip_of_head {l : List Char} (h : ∀ c ∈ l.head?, pySpace c = false) : lstrip l = l := by
  cases l with
  | nil => rfl
  | cons c l =>
    rw [lstrip, List.dropWhile_cons, if_neg]
    rw [h c rfl]; simp

theorem lstrip_blanks {a b : List Char} (h : ∀ c ∈ a, pySpace c = true) :
    lstrip (a ++ b) = lstrip b := by
  induction a with
  | nil => rfl
  | cons c a ih =>
    rw [List.cons_append, lstrip, List.dropWhile_cons, if_pos (h c (List.mem_cons_self ..))]
    exact ih (fun d hd => h d (List.mem_cons_of_mem _ hd))

theorem rstripNl_split (l : List Char) : ∃ s, l = rstripNl l ++ s ∧ ∀ c ∈ s, c = '\n' ∨ c = '\r' := by
  refine ⟨(l.reverse.takeWhile (fun c => c = '\n' || c = '\r')).reverse, ?_, ?_⟩
  · rw [rstripNl, ← List.reverse_append, List.takeWhile_append_dropWhile, List.reverse_reverse]
  · intro c hc
    have := mem_takeWhile_imp' (List.mem_reverse.1 hc)
    simpa using this

theorem rstripNl_last (l : List Char) : ∀ c ∈ (rstripNl l).getLast?, c ≠ '\n' ∧ c ≠ '\r' := by
  intro c hc
  rw [rstripNl, List.getLast?_reverse] at hc
  have := List.head?_dropWhile_not (fun c => decide (c = '\n') || decide (c = '\r')) l.reverse
  rw [hc] at this
  simpa using this

theorem rstripNl_append {a s : List Char} (h : ∀ c ∈ s, c = '\n' ∨ c = '\r') :
    rstripNl (a ++ s) = rstripNl a := by
  rw [rstripNl, List.reverse_append]
  have : ∀ s : List Char, (∀ c ∈ s, c = '\n' ∨ c = '\r') →
      (s ++ a.reverse).dropWhile (fun c => c = '\n' || c = '\r') =
        a.reverse.dropWhile (fun c => c = '\n' || c = '\r') := by
    intro s
    induction s with
    | nil => intro _; rfl
    | cons c s ih =>
      intro h
      rw [List.cons_append, List.dropWhile_cons, if_pos (by simpa using h c (by simp))]
      exact ih (fun d hd => h d (by simp [hd]))
  rw [this s.reverse (fun c hc => h c (List.mem_reverse.1 hc))]
  rfl

/-- The keyword of a line begins with the key exactly if the line fills the field. -/
theorem fills_iff {key : String} (hc : ':' ∉ upper key.toList)
    (hb : ∀ c ∈ (upper key.toList).head?, pySpace c = false) (hne : upper key.toList ≠ [])
    (line arg : List Char) : Spec.Fills key.toList line arg ↔
      ∃ k rest, line = k ++ ':' :: rest ∧ ':' ∉ k ∧ upper key.toList <+: lstrip (upper k) ∧
        arg = lstrip (rstripNl rest) := by
  constructor
  · rintro ⟨bl, w, more, rest, nls, pad, rfl, h1, h2, h3, rfl, h4, h5, h6, h7⟩
    refine ⟨_, _, rfl, h2, ?_, ?_⟩
    · rw [lstrip_upper, List.append_assoc, lstrip_blanks h1]
      have hw : ∀ c ∈ (w ++ more).head?, pySpace c = false := by
        intro c hc
        cases w with
        | nil => exact absurd h3.symm hne
        | cons d w =>
          have e : d = c := by simpa using hc
          subst e
          rw [← upper_space]
          refine hb _ ?_
          rw [upper, ← h3]; rfl
      rw [lstrip_of_head hw]
      refine ⟨upper more, ?_⟩
      rw [upper, ← h3]
      simp [upper]
    · rw [rstripNl_append h5, rstripNl_of h7, lstrip_blanks h4, lstrip_of_head h6]
  · rintro ⟨k, rest, rfl, h1, ⟨t, ht⟩, rfl⟩
    obtain ⟨bl, hk, hbl⟩ := lstrip_split k
    obtain ⟨pad, hpad, hp⟩ := lstrip_split (rstripNl rest)
    obtain ⟨nls, hn, hns⟩ := rstripNl_split rest
    rw [lstrip_upper] at ht
    have hw : lstrip k = (lstrip k).take key.toList.length ++ (lstrip k).drop key.toList.length :=
      (List.take_append_drop _ _).symm
    refine ⟨bl, (lstrip k).take key.toList.length, (lstrip k).drop key.toList.length, rest, nls, pad,
      ?_, hbl, ?_, ?_, ?_, hp, hns, lstrip_head _, ?_⟩
    · conv_lhs => rw [hk]
      simp
    · rw [List.append_assoc, List.take_append_drop, ← hk]; exact h1
    · have : (upper (lstrip k)).take key.toList.length = upper key.toList := by
        rw [← ht, List.take_left' (by simp [upper])]
      rw [upper, ← List.map_take] at this
      exact this
    · rw [← hpad, ← hn]
    · rw [← hpad]; exact rstripNl_last rest

theorem keys_shape : ∀ key ∈ fileMetaKeys ++ datasetMetaKeys, ':' ∉ upper key.toList ∧
    (∀ c ∈ (upper key.toList).head?, pySpace c = false) ∧ upper key.toList ≠ [] := by
  decide +kernel

/-- C44: a header line fills a field of the file exactly if it begins with its name, whatever the
order in which the keys are tried. -/
theorem C44_file_field {o : KeyOrder} (h : o.Valid) (line : List Char) (key : String)
    (arg : List Char) : lineRole o line = .file key arg ↔
      key ∈ Spec.fileFields ∧ Spec.Fills key.toList line arg := by
  constructor
  · intro hr
    rcases split_colon line with ⟨p, hp, _⟩ | ⟨k, rest, rfl, hk, _⟩
    · rw [lineRole, hp] at hr; cases hr
    · rw [lineRole_colon o hk] at hr
      cases hm : matchKey o.file (lstrip (upper k)) with
      | none =>
        rw [hm] at hr
        cases hd : matchKey o.dataset (lstrip (upper k)) with
        | none => rw [hd] at hr; cases hr
        | some b => rw [hd] at hr; cases hr
      | some b =>
        rw [hm] at hr
        have e1 : b = key := by cases hr; rfl
        have e2 : arg = lstrip (rstripNl rest) := by cases hr; rfl
        subst e1
        rw [matchKey_iff h.file_sub] at hm
        have hs := keys_shape b (h.file_sub hm.1)
        refine ⟨h.1.mem_iff.1 hm.1, (fills_iff hs.1 hs.2.1 hs.2.2 _ _).2 ⟨k, rest, rfl, hk, hm.2, e2⟩⟩
  · rintro ⟨hm, hf⟩
    have hs := keys_shape key (List.mem_append_left _ hm)
    obtain ⟨k, rest, rfl, hk, hp, rfl⟩ := (fills_iff hs.1 hs.2.1 hs.2.2 _ _).1 hf
    rw [lineRole_colon o hk, (matchKey_iff h.file_sub).2 ⟨h.1.mem_iff.2 hm, hp⟩]

/-- C44: likewise for the fields of the dataset. -/
theorem C44_dataset_field {o : KeyOrder} (h : o.Valid) (line : List Char) (key : String)
    (arg : List Char) : lineRole o line = .dataset key arg ↔
      key ∈ Spec.datasetFields ∧ Spec.Fills key.toList line arg := by
  constructor
  · intro hr
    rcases split_colon line with ⟨p, hp, _⟩ | ⟨k, rest, rfl, hk, _⟩
    · rw [lineRole, hp] at hr; cases hr
    · rw [lineRole_colon o hk] at hr
      cases hm : matchKey o.file (lstrip (upper k)) with
      | some b => rw [hm] at hr; cases hr
      | none =>
        rw [hm] at hr
        cases hd : matchKey o.dataset (lstrip (upper k)) with
        | none => rw [hd] at hr; cases hr
        | some b =>
          rw [hd] at hr
          have e1 : b = key := by cases hr; rfl
          have e2 : arg = lstrip (rstripNl rest) := by cases hr; rfl
          subst e1
          rw [matchKey_iff h.dataset_sub] at hd
          have hs := keys_shape b (h.dataset_sub hd.1)
          exact ⟨h.2.mem_iff.1 hd.1,
            (fills_iff hs.1 hs.2.1 hs.2.2 _ _).2 ⟨k, rest, rfl, hk, hd.2, e2⟩⟩
  · rintro ⟨hm, hf⟩
    have hs := keys_shape key (List.mem_append_right _ hm)
    obtain ⟨k, rest, rfl, hk, hp, rfl⟩ := (fills_iff hs.1 hs.2.1 hs.2.2 _ _).1 hf
    have hnone : matchKey o.file (lstrip (upper k)) = none := by
      cases hq : matchKey o.file (lstrip (upper k)) with
      | none => rfl
      | some b =>
        rw [matchKey_iff h.file_sub] at hq
        have : b = key := keys_unique all_keys_unique _ b (h.file_sub hq.1) key
          (List.mem_append_right _ hm) (List.isPrefixOf_iff_prefix.2 hq.2)
          (List.isPrefixOf_iff_prefix.2 hp)
        subst this
        have hdis : ∀ b ∈ fileMetaKeys, b ∉ datasetMetaKeys := by decide
        exact absurd hm (hdis b (h.1.mem_iff.1 hq.1))
    rw [lineRole_colon o hk, hnone]
    simp only
    rw [(matchKey_iff h.dataset_sub).2 ⟨h.2.mem_iff.2 hm, hp⟩]

/-- C44: a line fills at most one field. -/
theorem C44_unique {key key' : String} (h : key ∈ Spec.fileFields ++ Spec.datasetFields)
    (h' : key' ∈ Spec.fileFields ++ Spec.datasetFields) {line arg arg' : List Char}
    (hf : Spec.Fills key.toList line arg) (hf' : Spec.Fills key'.toList line arg') :
    key = key' ∧ arg = arg' := by
  have hv : KeyOrder.Valid ⟨fileMetaKeys, datasetMetaKeys⟩ := ⟨.refl _, .refl _⟩
  rcases List.mem_append.1 h with h | h <;> rcases List.mem_append.1 h' with h' | h'
  · have e1 := (C44_file_field hv _ _ _).2 ⟨h, hf⟩
    have e2 := (C44_file_field hv _ _ _).2 ⟨h', hf'⟩
    rw [e1] at e2; cases e2; exact ⟨rfl, rfl⟩
  · have e1 := (C44_file_field hv _ _ _).2 ⟨h, hf⟩
    have e2 := (C44_dataset_field hv _ _ _).2 ⟨h', hf'⟩
    rw [e1] at e2; cases e2
  · have e1 := (C44_dataset_field hv _ _ _).2 ⟨h, hf⟩
    have e2 := (C44_file_field hv _ _ _).2 ⟨h', hf'⟩
    rw [e1] at e2; cases e2
  · have e1 := (C44_dataset_field hv _ _ _).2 ⟨h, hf⟩
    have e2 := (C44_dataset_field hv _ _ _).2 ⟨h', hf'⟩
    rw [e1] at e2; cases e2; exact ⟨rfl, rfl⟩

/-- A line with blanks, mixed case, more text behind the key and two colons. -/
example : Spec.Fills "Reference".toList "  ReFerences: doi:10".toList "doi:10".toList :=
  ⟨"  ".toList, "ReFerence".toList, "s".toList, " doi:10".toList, [], " ".toList, by decide,
    by decide, by decide, by decide, by decide, by decide, by decide, by decide, by decide⟩

end Disp

import Verif.Props.HeaderLines
/-!
# C44: reading a file does not depend on the order of the key sets
-/

namespace Disp

variable {F : Type}

/-- The files have the same entries, in the metadata and in every dataset. -/
def SameFile (a b : FileDict F) : Prop :=
  SameDict a.metaData b.metaData ∧ List.Forall₂ SameDict a.datasets b.datasets

/-- Both calls raise the same exception or return files with the same entries. -/
def SameRes : Res (FileDict F) → Res (FileDict F) → Prop
  | .ok a, .ok b => SameFile a b
  | .error e, .error e' => e = e'
  | _, _ => False

/-- The readers hold the same entries. -/
def SameReader (r r' : Reader F) : Prop :=
  SameDict r.metaData r'.metaData ∧ List.Forall₂ SameDict r.datasets r'.datasets

theorem defaultDataset_same {o o' : KeyOrder} (h : o.Valid) (h' : o'.Valid) :
    SameDict (defaultDataset o : Dataset F) (defaultDataset o') := by
  intro k
  rw [defaultDataset, defaultDataset, dictGet_const, dictGet_const]
  simp only [(h.2.trans h'.2.symm).mem_iff]

theorem fresh_same {o o' : KeyOrder} (h : o.Valid) (h' : o'.Valid) :
    SameReader (Reader.fresh o : Reader F) (Reader.fresh o') := by
  refine ⟨?_, .cons (defaultDataset_same h h') .nil⟩
  intro k
  show dictGet (defaultMeta o) k = dictGet (defaultMeta o') k
  rw [defaultMeta, defaultMeta, dictGet_const, dictGet_const]
  simp only [(h.1.trans h'.1.symm).mem_iff]

/-- The loop over the header lines keeps the entries the same. -/
def SameState (s s' : TextState F) : Prop :=
  SameDict s.metaData s'.metaData ∧ SameDict s.dataset s'.dataset ∧ s.multi = s'.multi

theorem textStep_same {o o' : KeyOrder} (h : o.Valid) (h' : o'.Valid) {s s' : TextState F}
    (hs : SameState s s') (line : List Char) :
    SameState (textStep o s line) (textStep o' s' line) := by
  unfold textStep
  rw [C44_line h h']
  cases lineRole o' line with
  | comment => exact ⟨hs.1, hs.2.1, by show _ ++ _ ++ _ = _; rw [hs.2.2]⟩
  | file key arg => exact ⟨hs.1.set _ _, hs.2.1, hs.2.2⟩
  | dataset key arg => exact ⟨hs.1, hs.2.1.set _ _, hs.2.2⟩

theorem fold_same {o o' : KeyOrder} (h : o.Valid) (h' : o'.Valid) (lines : List (List Char)) :
    ∀ {s s' : TextState F}, SameState s s' →
      SameState (lines.foldl (textStep o) s) (lines.foldl (textStep o') s') := by
  induction lines with
  | nil => exact fun hs => hs
  | cons l ls ih => exact fun hs => ih (textStep_same h h' hs l)

theorem SameDict.get {d d' : Dataset F} (h : SameDict d d') (k : String) : d.get k = d'.get k := by
  rw [Dataset.get, Dataset.get, h k]

theorem inferType_same {d d' : Dataset F} (h : SameDict d d') :
    (∃ e, inferType d = .error e ∧ inferType d' = .error e) ∨
    ∃ a b, inferType d = .ok a ∧ inferType d' = .ok b ∧ SameDict a b := by
  unfold inferType
  rw [h "DataType", h.get "Data"]
  cases dictGet d' "DataType" with
  | error e => exact Or.inl ⟨e, rfl, rfl⟩
  | ok v =>
    cases v with
    | str s =>
      by_cases hs : s = ""
      · simp only [if_pos hs]
        cases d'.get "Data" with
        | arr a =>
          cases a with
          | d2 m dt rows =>
            simp only
            by_cases h3 : m = 3
            · rw [if_pos h3, if_pos h3]; exact Or.inr ⟨_, _, rfl, rfl, h.set _ _⟩
            · rw [if_neg h3, if_neg h3]
              by_cases h2 : m = 2
              · rw [if_pos h2, if_pos h2]; exact Or.inr ⟨_, _, rfl, rfl, h.set _ _⟩
              · rw [if_neg h2, if_neg h2]; exact Or.inr ⟨_, _, rfl, rfl, h⟩
          | _ => exact Or.inl ⟨_, rfl, rfl⟩
        | _ => exact Or.inl ⟨_, rfl, rfl⟩
      · simp only [if_neg hs]
        exact Or.inr ⟨_, _, rfl, rfl, h⟩
    | _ => exact Or.inr ⟨_, _, rfl, rfl, h⟩

theorem textResult_same {r r' : Reader F} (hr : SameReader r r') {s s' : TextState F}
    (hf : SameState s s') :
    SameRes (r.textResult s).1 (r'.textResult s').1 ∧
    SameReader (r.textResult s).2 (r'.textResult s').2 := by
  have hmd : SameDict
      (if s.multi = [] then s.metaData
        else dictSet s.metaData "MetaComment" (.str (String.ofList s.multi)))
      (if s'.multi = [] then s'.metaData
        else dictSet s'.metaData "MetaComment" (.str (String.ofList s'.multi))) := by
    rw [hf.2.2]
    by_cases hm : s'.multi = []
    · rw [if_pos hm, if_pos hm]; exact hf.1
    · rw [if_neg hm, if_neg hm]; exact hf.1.set _ _
  have hdrop : List.Forall₂ SameDict (r.datasets.drop 1) (r'.datasets.drop 1) := by
    obtain ⟨md, ds⟩ := r
    obtain ⟨md', ds'⟩ := r'
    have := hr.2
    cases this with
    | nil => exact .nil
    | cons _ h => exact h
  unfold Reader.textResult
  rcases inferType_same hf.2.1 with ⟨e, e1, e2⟩ | ⟨a, b, e1, e2, hab⟩
  · simp only [e1, e2]
    exact ⟨rfl, hmd, .cons hf.2.1 hdrop⟩
  · simp only [e1, e2]
    exact ⟨⟨hmd, .cons hab hdrop⟩, hmd, .cons hab hdrop⟩

/-- C44: reading a text file gives the same entries in every process. -/
theorem C44_text [NumText F] {o o' : KeyOrder} (h : o.Valid) (h' : o'.Valid) {r r' : Reader F}
    (hr : SameReader r r') (fmt : Char × Option Char) (text : List Char) :
    SameRes (r.readText o fmt text).1 (r'.readText o' fmt text).1 ∧
    SameReader (r.readText o fmt text).2 (r'.readText o' fmt text).2 := by
  unfold Reader.readText
  cases (loadtxt fmt.1 fmt.2 text : Res (NDArr F)) with
  | error e => exact ⟨rfl, hr⟩
  | ok a =>
    exact textResult_same hr (fold_same h h' (readComment text)
      ⟨hr.1, (defaultDataset_same h h').set _ _, rfl⟩)

/-! ## YAML -/

theorem aliases_disjoint : ∀ a ∈ datasetMetaKeys, ∀ b ∈ datasetMetaKeys, a ≠ b →
    ∀ x ∈ (datasetAliases a).map (fun s => upper s.toList),
      x ∉ (datasetAliases b).map (fun s => upper s.toList) := by decide +kernel

theorem datasetKey_unique (kwd : String) (a : String) (ha : a ∈ datasetMetaKeys) (b : String)
    (hb : b ∈ datasetMetaKeys)
    (h1 : (datasetAliases a).any (fun s => upper kwd.toList = upper s.toList) = true)
    (h2 : (datasetAliases b).any (fun s => upper kwd.toList = upper s.toList) = true) : a = b := by
  by_contra hne
  simp only [List.any_eq_true, decide_eq_true_eq] at h1 h2
  obtain ⟨x, hx, ex⟩ := h1
  obtain ⟨y, hy, ey⟩ := h2
  exact aliases_disjoint a ha b hb hne (upper kwd.toList)
    (List.mem_map.2 ⟨x, hx, ex.symm⟩) (List.mem_map.2 ⟨y, hy, ey.symm⟩)

/-- C44: which field an entry of a YAML dataset fills. -/
theorem C44_yaml_field {o : KeyOrder} (h : o.Valid) (kwd key : String) :
    datasetKey o kwd = some key ↔ key ∈ Spec.datasetFields ∧
      ∃ a ∈ Spec.fieldNames key, upper kwd.toList = upper a.toList := by
  show _ ↔ key ∈ datasetMetaKeys ∧ ∃ a ∈ datasetAliases key, _
  rw [datasetKey, find?_some_iff (fun a ha b hb =>
    datasetKey_unique kwd a (h.2.mem_iff.1 ha) b (h.2.mem_iff.1 hb)), h.2.mem_iff]
  simp

theorem datasetKey_same {o o' : KeyOrder} (h : o.Valid) (h' : o'.Valid) (kwd : String) :
    datasetKey o kwd = datasetKey o' kwd :=
  find?_perm (h.2.trans h'.2.symm) (fun a ha b hb =>
    datasetKey_unique kwd a (h.2.mem_iff.1 ha) b (h.2.mem_iff.1 hb))

/-- Two calls with the same outcome up to a relation. -/
def RelRes {α : Type} (R : α → α → Prop) : Res α → Res α → Prop
  | .ok a, .ok b => R a b
  | .error e, .error e' => e = e'
  | _, _ => False

theorem RelRes.bind {α β : Type} {R : β → β → Prop} (x : Res α) {f g : α → Res β}
    (h : ∀ a, RelRes R (f a) (g a)) :
    RelRes R (x >>= f) (x >>= g) := by
  cases x with
  | error e => exact (rfl : e = e)
  | ok a => exact h a

theorem fields_same {o o' : KeyOrder} (h : o.Valid) (h' : o'.Valid) (d : Dataset F) :
    ∀ {out out' : Dataset F}, SameDict out out' →
    SameDict (d.foldl (fun out kv => match datasetKey o kv.1 with
      | some key => dictSet out key kv.2
      | none => out) out)
      (d.foldl (fun out kv => match datasetKey o' kv.1 with
      | some key => dictSet out key kv.2
      | none => out) out') := by
  induction d with
  | nil => exact fun hs => hs
  | cons kv d ih =>
    intro out out' hs
    refine ih ?_
    show SameDict (match datasetKey o kv.1 with
      | some key => dictSet out key kv.2
      | none => out) (match datasetKey o' kv.1 with
      | some key => dictSet out' key kv.2
      | none => out')
    rw [datasetKey_same h h']
    cases datasetKey o' kv.1 with
    | none => exact hs
    | some key => exact hs.set _ _

theorem processMatData1_same {o o' : KeyOrder} (h : o.Valid) (h' : o'.Valid) (d : Dataset F) :
    RelRes SameDict (processMatData1 o d) (processMatData1 o' d) := by
  unfold processMatData1
  refine RelRes.bind _ (fun t => ?_)
  refine RelRes.bind _ (fun v => ?_)
  exact fields_same h h' d (((defaultDataset_same h h').set _ _).set _ _)

theorem mapM_rel {α β : Type} {R : β → β → Prop} {f g : α → Res β}
    (h : ∀ a, RelRes R (f a) (g a)) (xs : List α) :
    RelRes (List.Forall₂ R) (xs.mapM f) (xs.mapM g) := by
  induction xs with
  | nil => exact List.Forall₂.nil
  | cons x xs ih =>
    rw [List.mapM_cons, List.mapM_cons]
    have hx := h x
    cases hf : f x with
    | error e =>
      cases hg : g x with
      | error e' => rw [hf, hg] at hx; exact hx
      | ok b => rw [hf, hg] at hx; exact hx.elim
    | ok a =>
      cases hg : g x with
      | error e' => rw [hf, hg] at hx; exact hx.elim
      | ok b =>
        rw [hf, hg] at hx
        cases hm : xs.mapM f with
        | error e =>
          cases hn : xs.mapM g with
          | error e' => rw [hm, hn] at ih; exact ih
          | ok bs => rw [hm, hn] at ih; exact ih.elim
        | ok as =>
          cases hn : xs.mapM g with
          | error e' => rw [hm, hn] at ih; exact ih.elim
          | ok bs => rw [hm, hn] at ih; exact List.Forall₂.cons hx ih

/-- The state of the loop over the keys of a YAML mapping. -/
def SameMat (s s' : List (String × MetaVal) × List (Dataset F)) : Prop :=
  SameDict s.1 s'.1 ∧ List.Forall₂ SameDict s.2 s'.2

theorem matStep_same {o o' : KeyOrder} (h : o.Valid) (h' : o'.Valid) (yd : YDict F) (kwd : String)
    {s s' : List (String × MetaVal) × List (Dataset F)} (hs : SameMat s s') :
    RelRes SameMat (matStep o yd kwd s) (matStep o' yd kwd s') := by
  unfold matStep
  refine RelRes.bind _ (fun arg => ?_)
  rw [matchKey_perm (h.1.trans h'.1.symm) h.file_sub]
  by_cases hd : upper kwd.toList = "DATA".toList
  · rw [if_pos hd, if_pos hd]
    have key : RelRes (List.Forall₂ SameDict) (processMatData o arg) (processMatData o' arg) := by
      cases arg with
      | data ds => exact mapM_rel (processMatData1_same h h') ds
      | entry v => exact (rfl : PyErr.type = PyErr.type)
    cases h1 : processMatData o arg with
    | error e =>
      cases h2 : processMatData o' arg with
      | error e' => rw [h1, h2] at key; exact key
      | ok b => rw [h1, h2] at key; exact key.elim
    | ok a =>
      cases h2 : processMatData o' arg with
      | error e' => rw [h1, h2] at key; exact key.elim
      | ok b => rw [h1, h2] at key; exact ⟨hs.1, key⟩
  · rw [if_neg hd, if_neg hd]
    cases arg with
    | data ds =>
      dsimp only
      by_cases hsp : upper kwd.toList = "SPECS".toList
      · rw [if_pos hsp, if_pos hsp]; exact (rfl : PyErr.type = PyErr.type)
      · rw [if_neg hsp, if_neg hsp]
        cases matchKey o'.file (upper kwd.toList) with
        | none => exact hs
        | some key => exact (rfl : PyErr.type = PyErr.type)
    | entry v =>
      dsimp only
      by_cases hsp : upper kwd.toList = "SPECS".toList
      · rw [if_pos hsp, if_pos hsp]; exact ⟨hs.1.set _ _, hs.2⟩
      · rw [if_neg hsp, if_neg hsp]
        cases matchKey o'.file (upper kwd.toList) with
        | none => exact hs
        | some key => exact ⟨hs.1.set _ _, hs.2⟩

theorem matLoop_same {o o' : KeyOrder} (h : o.Valid) (h' : o'.Valid) (yd : YDict F)
    (ks : List String) : ∀ {s s' : List (String × MetaVal) × List (Dataset F)}, SameMat s s' →
    (matLoop o yd ks s).1 = (matLoop o' yd ks s').1 ∧
      SameMat (matLoop o yd ks s).2 (matLoop o' yd ks s').2 := by
  induction ks with
  | nil => exact fun hs => ⟨rfl, hs⟩
  | cons k ks ih =>
    intro s s' hs
    have := matStep_same h h' yd k hs
    rw [matLoop, matLoop]
    cases h1 : matStep o yd k s with
    | error e =>
      cases h2 : matStep o' yd k s' with
      | error e' => rw [h1, h2] at this; exact ⟨congrArg Except.error this, hs⟩
      | ok b => rw [h1, h2] at this; exact this.elim
    | ok a =>
      cases h2 : matStep o' yd k s' with
      | error e' => rw [h1, h2] at this; exact this.elim
      | ok b => rw [h1, h2] at this; exact ih this

/-- C44: reading a YAML file gives the same entries in every process. -/
theorem C44_yaml [YamlIO F] {o o' : KeyOrder} (h : o.Valid) (h' : o'.Valid) {r r' : Reader F}
    (hr : SameReader r r') (text : List Char) :
    SameRes (r.readYaml o text).1 (r'.readYaml o' text).1 ∧
    SameReader (r.readYaml o text).2 (r'.readYaml o' text).2 := by
  unfold Reader.readYaml
  cases (YamlIO.load (universal text) : Res (YDict F)) with
  | error e => exact ⟨rfl, hr⟩
  | ok yd =>
    dsimp only
    obtain ⟨e1, e2⟩ := matLoop_same h h' yd (yd.map (·.1)) (s := (r.metaData, r.datasets))
      (s' := (r'.metaData, r'.datasets)) hr
    generalize matLoop o yd (yd.map (·.1)) (r.metaData, r.datasets) = p at e1 e2
    generalize matLoop o' yd (yd.map (·.1)) (r'.metaData, r'.datasets) = p' at e1 e2
    obtain ⟨a, s⟩ := p
    obtain ⟨a', s'⟩ := p'
    dsimp only at e1 e2
    subst e1
    cases a with
    | error e => exact ⟨rfl, e2.1, hr.2⟩
    | ok u => exact ⟨⟨e2.1.set _ _, e2.2⟩, e2.1.set _ _, hr.2⟩

/-- C44: what a new `Reader` returns for a file does not depend on the iteration order of the key
sets. -/
theorem C44_read [NumText F] [YamlIO F] {o o' : KeyOrder} (h : o.Valid) (h' : o'.Valid)
    (ext : String) (text : List Char) :
    SameRes ((Reader.fresh o : Reader F).readFile o ext text).1
      ((Reader.fresh o').readFile o' ext text).1 := by
  unfold Reader.readFile
  cases textFormat ext with
  | some fmt => exact (C44_text h h' (fresh_same h h') fmt text).1
  | none =>
    dsimp only
    by_cases he : ext = ".yml"
    · rw [if_pos he, if_pos he]; exact (C44_yaml h h' (fresh_same h h') text).1
    · rw [if_neg he, if_neg he]; exact (rfl : PyErr.value = PyErr.value)

/-- Two orders of the sets. -/
example : KeyOrder.Valid ⟨fileMetaKeys.reverse, datasetMetaKeys⟩ ∧
    KeyOrder.Valid ⟨fileMetaKeys, datasetMetaKeys.reverse⟩ :=
  ⟨⟨List.reverse_perm _, .refl _⟩, ⟨.refl _, List.reverse_perm _⟩⟩

end Disp

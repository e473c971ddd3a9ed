import Verif.Props.MaterialRange
/-!
# C34: equality of materials
-/

namespace Disp

open Spec

section generic
variable {F : Type} [PyFloat F] [SciPy F] [NumText F]

/-! ## The metadata of a constructed material -/

omit [NumText F] in
theorem processTable_meta {m m0 : Material F} {a : NDArr F} {i : String} {d : Dataset F}
    (h : processTable m a i d = .ok m0) : m0.metaData = m.metaData := by
  unfold processTable at h
  simp only [bind, Except.bind] at h
  repeat' split at h
  all_goals first | rfl | (cases h; rfl) | cases h

omit [NumText F] in
theorem storeReal_meta {m m0 : Material F} {o : Option String} {d : RealData F}
    (h : storeReal m o d = .ok m0) : m0.metaData = m.metaData := by
  unfold storeReal at h
  split at h <;> first | (cases h; rfl) | cases h

omit [NumText F] in
theorem processModelDict_meta {m m0 : Material F} {d : ModelKw F}
    (h : processModelDict m d = .ok m0) : m0.metaData = m.metaData := by
  unfold processModelDict at h
  simp only [bind, Except.bind] at h
  repeat' split at h
  all_goals first | (cases h; done) | (cases h; rfl) | (have h := storeReal_meta h; exact h)

theorem processDataset_meta {m m0 : Material F} {d : Dataset F}
    (h : processDataset m d = .ok m0) : m0.metaData = m.metaData := by
  unfold processDataset processFormulaData at h
  simp only [bind, Except.bind] at h
  repeat' split at h
  all_goals first
    | (cases h; done) | exact processTable_meta h | exact processModelDict_meta h

theorem processDatasets_meta : ∀ (ds : List (Dataset F)) {m m0 : Material F},
    ds.foldlM processDataset m = .ok m0 → m0.metaData = m.metaData
  | [], m, m0, h => by cases h; rfl
  | d :: ds, m, m0, h => by
    simp only [List.foldlM_cons, bind, Except.bind] at h
    split at h
    · cases h
    · rename_i m' hm'
      rw [processDatasets_meta ds h, processDataset_meta hm']

omit [NumText F] in
theorem processFixedValue_meta {m m0 : Material F} {kw : Kwargs F}
    (h : processFixedValue m kw = .ok m0) : m0.metaData = m.metaData := by
  unfold processFixedValue at h
  simp only [bind, Except.bind] at h
  repeat' split at h
  all_goals first | (cases h; done) | (cases h; rfl)

/-- The material is read from a file. -/
def FromFile (kw : Kwargs F) : Prop := ∃ p, kw.get "file_path" = .str p

theorem mapM_pairs {md : List (String × MetaVal)} : ∀ {ks : List String} {l},
    ks.mapM (fun k => (do
      let v ← dictGet md k
      .ok (k, v) : Res (String × MetaVal))) = .ok l →
    l.map Prod.fst = ks ∧ ∀ k v, (k, v) ∈ l → dictGet md k = .ok v
  | [], l, h => by
    cases h
    simp
  | k :: ks, l, h => by
    rw [List.mapM_cons] at h
    simp only [bind, Except.bind, pure, Except.pure] at h
    split at h
    · cases h
    · rename_i p hp
      split at h
      · cases h
      · rename_i l' hl'
        cases h
        cases hd : dictGet md k with
        | error e => rw [hd] at hp; cases hp
        | ok v =>
          rw [hd] at hp
          cases hp
          obtain ⟨h1, h2⟩ := mapM_pairs (ks := ks) (l := l') (by
            simp only [bind, Except.bind]; exact hl')
          refine ⟨by simp [h1], ?_⟩
          intro k' v' hm
          rcases List.mem_cons.1 hm with hm | hm
          · cases hm; exact hd
          · exact h2 _ _ hm

/-- A material built from arguments has the eight blank entries, a material read from a file the
seven entries of the file. -/
theorem new_meta (rd : String → Res (FileDict F)) {kw : Kwargs F} {m : Material F}
    (h : Material.new rd kw = .ok m) :
    (¬ FromFile kw ∧ m.metaData = some blankMeta) ∨
    (∃ p fd md, kw.get "file_path" = .str p ∧ rd p = .ok fd ∧ m.metaData = some md ∧
      md.map Prod.fst = fileKeys ∧ ∀ k v, (k, v) ∈ md → dictGet fd.metaData k = .ok v) := by
  obtain ⟨p, m0, -, hd, rfl⟩ := new_ok rd h
  show (_ ∧ m0.metaData = _) ∨ (∃ p fd md, _ ∧ _ ∧ m0.metaData = _ ∧ _)
  unfold dispatch at hd
  cases hf : kw.get "file_path" with
  | str path =>
    right
    rw [hf] at hd
    simp only [bind, Except.bind] at hd
    split at hd
    · cases hd
    · rename_i fd hfd
      unfold processFileData at hd
      simp only [bind, Except.bind] at hd
      split at hd
      · cases hd
      · rename_i md hmd
        have := processDatasets_meta _ hd
        obtain ⟨h1, h2⟩ := mapM_pairs (md := fd.metaData) (ks := fileKeys) (l := md) (by
          simp only [bind, Except.bind, fileKeys]; exact hmd)
        exact ⟨path, fd, md, rfl, hfd, this, h1, h2⟩
  | _ =>
    left
    refine ⟨?_, ?_⟩
    · rintro ⟨q, hq⟩
      rw [hf] at hq
      cases hq
    · simp only [hf] at hd
      have hb : (blankMaterial (F := F) p).metaData = some blankMeta := rfl
      rw [← hb]
      repeat' split at hd
      all_goals first
        | exact processModelDict_meta hd
        | exact processTable_meta hd
        | exact processFixedValue_meta hd

/-! ## Specification -/

/-- The same text, or dictionaries with the same entries in whatever order. -/
inductive SameEntry : MetaVal → MetaVal → Prop
  | str (s : String) : SameEntry (.str s) (.str s)
  | dict (a b : List (String × String)) : (∀ p, p ∈ a ↔ p ∈ b) → SameEntry (.dict a) (.dict b)

theorem SameEntry.refl : ∀ v, SameEntry v v
  | .str s => .str s
  | .dict a => .dict a a fun _ => Iff.rfl

theorem SameEntry.symm {v w : MetaVal} (h : SameEntry v w) : SameEntry w v := by
  cases h with
  | str s => exact .str s
  | dict a b h => exact .dict b a fun p => (h p).symm

theorem SameEntry.trans {u v w : MetaVal} (h : SameEntry u v) (h' : SameEntry v w) :
    SameEntry u w := by
  cases h with
  | str s => exact h'
  | dict a b h =>
    cases h' with
    | dict _ c h' => exact .dict a c fun p => (h p).trans (h' p)

/-- The keys of the inner dictionaries are distinct (they are Python dictionaries). -/
def InnerKeys (md : List (String × MetaVal)) : Prop := ∀ k a, (k, MetaVal.dict a) ∈ md → Keys a

theorem Keys.nodup {α : Type} {d : List (String × α)} (h : Keys d) : d.Nodup := List.Nodup.of_map _ h

theorem dictEq_iff {a b : List (String × String)} (ha : Keys a) (hb : Keys b) :
    dictEq a b = true ↔ ∀ p, p ∈ a ↔ p ∈ b := by
  unfold dictEq
  rw [Bool.and_eq_true, decide_eq_true_eq, List.all_eq_true]
  constructor
  · rintro ⟨hl, hall⟩
    have hsub : a ⊆ b := by
      rintro ⟨k, v⟩ hp
      have := hall _ hp
      simp only at this
      cases hd : dictGet b k with
      | error e => rw [hd] at this; cases this
      | ok w =>
        rw [hd] at this
        have hw : w = v := by simpa using this
        subst hw
        exact dictGet_mem hd
    have hperm := (List.subperm_of_subset ha.nodup hsub).perm_of_length_le hl.ge
    exact fun p => hperm.mem_iff
  · intro h
    have hperm : a.Perm b := (List.perm_ext_iff_of_nodup ha.nodup hb.nodup).2 h
    refine ⟨hperm.length_eq, ?_⟩
    rintro ⟨k, v⟩ hp
    simp only
    rw [dictGet_of_mem hb ((h _).1 hp)]
    simp

theorem pyEq_iff {v w : MetaVal} (hv : ∀ a, v = .dict a → Keys a) (hw : ∀ a, w = .dict a → Keys a) :
    v.pyEq w = true ↔ SameEntry v w := by
  cases v with
  | str s =>
    cases w with
    | str t =>
      simp only [MetaVal.pyEq, decide_eq_true_eq]
      constructor
      · rintro rfl; exact .str _
      · intro h; cases h; rfl
    | dict b => constructor <;> intro h <;> cases h
  | dict a =>
    cases w with
    | str t => constructor <;> intro h <;> cases h
    | dict b =>
      simp only [MetaVal.pyEq]
      rw [dictEq_iff (hv _ rfl) (hw _ rfl)]
      constructor
      · exact fun h => .dict _ _ h
      · intro h
        cases h with
        | dict _ _ h => exact h

/-- The loop compares the entries key by key, and raises `KeyError` only at a missing key. -/
theorem metaLoop_ok {mb : List (String × MetaVal)} (hib : InnerKeys mb) (hkb : Keys mb) :
    ∀ {ma : List (String × MetaVal)}, InnerKeys ma → (∀ k v, (k, v) ∈ ma → ∃ w, (k, w) ∈ mb) →
    ∃ b, metaLoop ma mb = .ok b ∧
      (b = true ↔ ∀ k v, (k, v) ∈ ma → ∃ w, (k, w) ∈ mb ∧ SameEntry v w)
  | [], _, _ => ⟨true, rfl, by simp⟩
  | (k, v) :: ma, hia, hk => by
    obtain ⟨w, hw⟩ := hk k v (by simp)
    obtain ⟨b, h1, h2⟩ := metaLoop_ok hib hkb (ma := ma)
      (fun k' a h => hia k' a (by simp [h])) (fun k' v' h => hk k' v' (by simp [h]))
    have hpe := pyEq_iff (v := v) (w := w) (fun a h => hia k a (by simp [h]))
      (fun a h => hib k a (h ▸ hw))
    unfold metaLoop
    rw [dictGet_of_mem hkb hw]
    simp only [bind, Except.bind]
    by_cases he : v.pyEq w = true
    · rw [if_pos he]
      refine ⟨b, h1, h2.trans ⟨fun h k' v' hm => ?_, fun h k' v' hm => h k' v' (by simp [hm])⟩⟩
      rcases List.mem_cons.1 hm with hm | hm
      · cases hm
        exact ⟨w, hw, hpe.1 he⟩
      · exact h _ _ hm
    · rw [if_neg he]
      refine ⟨false, rfl, iff_of_false (by simp) fun h => he ?_⟩
      obtain ⟨w', hw', hs⟩ := h k v (by simp)
      have : w' = w := by
        have := (dictGet_of_mem hkb hw').symm.trans (dictGet_of_mem hkb hw)
        exact Except.ok.inj this
      exact hpe.2 (this ▸ hs)

/-- Two materials carry the same information: the entries of their metadata and the kind of data. -/
def SameInfo (a b : Material F) : Prop :=
  ∃ ma mb, a.metaData = some ma ∧ b.metaData = some mb ∧ a.name = b.name ∧
    ∀ k v w, (k, v) ∈ ma → (k, w) ∈ mb → SameEntry v w

/-- The metadata of `a` and `b` have the same keys. -/
def SameKeys (a b : Material F) : Prop :=
  ∃ ma mb, a.metaData = some ma ∧ b.metaData = some mb ∧ Keys ma ∧ Keys mb ∧ InnerKeys ma ∧
    InnerKeys mb ∧ ∀ k, k ∈ ma.map Prod.fst ↔ k ∈ mb.map Prod.fst

omit [NumText F] in
/-- `==` of materials with the same metadata keys never raises and compares the information. -/
theorem C34_compare (a b : Material F) (h : SameKeys a b) :
    ∃ r, a.pyEq b = .ok r ∧ (r = true ↔ SameInfo a b) := by
  obtain ⟨ma, mb, hma, hmb, ka, kb, ia, ib, hk⟩ := h
  have hk' : ∀ k v, (k, v) ∈ ma → ∃ w, (k, w) ∈ mb := by
    intro k v hm
    have := (hk k).1 (List.mem_map.2 ⟨_, hm, rfl⟩)
    obtain ⟨⟨k', w⟩, h1, h2⟩ := List.mem_map.1 this
    have h2' : k' = k := h2
    subst h2'
    exact ⟨w, h1⟩
  obtain ⟨r, h1, h2⟩ := metaLoop_ok ib kb ia hk'
  have hloop : (match ma with
      | [] => (Except.ok true : Res Bool)
      | _ => match b.metaData with
        | some mb => metaLoop ma mb
        | none => .error .attribute) = .ok r := by
    rw [hmb]
    cases ma with
    | nil => exact h1
    | cons p l => exact h1
  have heq : a.pyEq b = if r = true then .ok (decide (a.name = b.name)) else .ok false := by
    unfold Material.pyEq
    rw [hma]
    simp only [bind, Except.bind]
    have := hloop
    rw [hmb] at this ⊢
    simp only at this ⊢
    cases ma with
    | nil => cases this; rfl
    | cons p l => simp only at this ⊢; rw [this]
  have hsame : (∀ k v, (k, v) ∈ ma → ∃ w, (k, w) ∈ mb ∧ SameEntry v w) ↔
      ∀ k v w, (k, v) ∈ ma → (k, w) ∈ mb → SameEntry v w := by
    constructor
    · intro h k v w hv hw
      obtain ⟨w', hw', hs⟩ := h k v hv
      have : w' = w :=
        Except.ok.inj ((dictGet_of_mem kb hw').symm.trans (dictGet_of_mem kb hw))
      exact this ▸ hs
    · intro h k v hv
      obtain ⟨w, hw⟩ := hk' k v hv
      exact ⟨w, hw, h k v w hv hw⟩
  rw [heq]
  by_cases hr : r = true
  · rw [if_pos hr]
    refine ⟨_, rfl, ?_⟩
    rw [decide_eq_true_eq]
    constructor
    · exact fun hn => ⟨ma, mb, hma, hmb, hn, hsame.1 (h2.1 hr)⟩
    · rintro ⟨-, -, -, -, hn, -⟩; exact hn
  · rw [if_neg hr]
    refine ⟨_, rfl, iff_of_false (by simp) ?_⟩
    rintro ⟨ma', mb', e1, e2, -, h⟩
    have e1' := Option.some.inj (e1.symm.trans hma)
    have e2' := Option.some.inj (e2.symm.trans hmb)
    subst e1' e2'
    exact hr (h2.2 (hsame.2 h))

/-- The materials that can be compared with each other: all built from arguments, or all read
from files, whose `Specification` has distinct keys (it is a Python dictionary). -/
def Comparable (rds : List (String → Res (FileDict F))) (kws : List (Kwargs F))
    (ms : List (Material F)) : Prop :=
  (∃ b : Bool, ∀ kw ∈ kws, FromFile kw ↔ b = true) ∧
  (∀ rd ∈ rds, ∀ p fd, rd p = .ok fd → InnerKeys fd.metaData) ∧
  ∀ m ∈ ms, ∃ rd ∈ rds, ∃ kw ∈ kws, Material.new rd kw = .ok m

theorem comparable_keys {rds : List (String → Res (FileDict F))} {kws : List (Kwargs F)}
    {ms : List (Material F)} (h : Comparable rds kws ms) : ∀ a ∈ ms, ∀ b ∈ ms, SameKeys a b := by
  obtain ⟨⟨fl, hfl⟩, hin, hms⟩ := h
  have key : ∀ m ∈ ms, ∃ md, m.metaData = some md ∧ InnerKeys md ∧
      md.map Prod.fst = if fl then fileKeys else blankMeta.map Prod.fst := by
    intro m hm
    obtain ⟨rd, hrd, kw, hkw, hnew⟩ := hms m hm
    rcases new_meta rd hnew with ⟨h1, h2⟩ | ⟨p, fd, md, h1, h2, h3, h4, h5⟩
    · refine ⟨blankMeta, h2, ?_, ?_⟩
      · intro k a ha
        simp only [blankMeta, List.mem_cons, List.not_mem_nil, or_false, Prod.mk.injEq,
          reduceCtorEq, and_false, false_or, MetaVal.dict.injEq] at ha
        rw [ha.2]
        simp [Keys]
      · have : fl = false := by
          cases fl
          · rfl
          · exact absurd ((hfl kw hkw).2 rfl) h1
        rw [this]
        rfl
    · refine ⟨md, h3, ?_, ?_⟩
      · intro k a ha
        exact hin rd hrd p fd h2 k a (dictGet_mem (h5 k _ ha))
      · rw [(hfl kw hkw).1 ⟨p, h1⟩]
        exact h4
  intro a ha b hb
  obtain ⟨ma, a1, a2, a3⟩ := key a ha
  obtain ⟨mb, b1, b2, b3⟩ := key b hb
  have hnd : (if fl then fileKeys else blankMeta.map Prod.fst).Nodup := by
    cases fl <;> decide
  refine ⟨ma, mb, a1, b1, ?_, ?_, a2, b2, ?_⟩
  · unfold Keys; rw [a3]; exact hnd
  · unfold Keys; rw [b3]; exact hnd
  · intro k; rw [a3, b3]

/-- C34 (full statement, refuted below). -/
def C34_statement (F : Type) [PyFloat F] [SciPy F] [NumText F] : Prop :=
  ∀ (rds : List (String → Res (FileDict F))) (kws : List (Kwargs F)) (ms : List (Material F)),
    (∀ rd ∈ rds, ∀ p fd, rd p = .ok fd → InnerKeys fd.metaData) →
    (∀ m ∈ ms, ∃ rd ∈ rds, ∃ kw ∈ kws, Material.new rd kw = .ok m) →
    (∀ a ∈ ms, ∀ b ∈ ms, ∃ r, a.pyEq b = .ok r) ∧
    (∀ a ∈ ms, a.pyEq a = .ok true) ∧
    (∀ a ∈ ms, ∀ b ∈ ms, a.pyEq b = .ok true → b.pyEq a = .ok true) ∧
    (∀ a ∈ ms, ∀ b ∈ ms, ∀ c ∈ ms, a.pyEq b = .ok true → b.pyEq c = .ok true →
      a.pyEq c = .ok true)

/-- C34 among materials that are all built from arguments, or all read from files: `==` never
raises and is an equivalence relation. Missing for the full claim: comparing the two sorts with
each other, where it is false. -/
theorem C34_equivalence_partial (rds : List (String → Res (FileDict F))) (kws : List (Kwargs F))
    (ms : List (Material F)) (h : Comparable rds kws ms) :
    (∀ a ∈ ms, ∀ b ∈ ms, ∃ r, a.pyEq b = .ok r) ∧
    (∀ a ∈ ms, a.pyEq a = .ok true) ∧
    (∀ a ∈ ms, ∀ b ∈ ms, a.pyEq b = .ok true → b.pyEq a = .ok true) ∧
    (∀ a ∈ ms, ∀ b ∈ ms, ∀ c ∈ ms, a.pyEq b = .ok true → b.pyEq c = .ok true →
      a.pyEq c = .ok true) := by
  have hk := comparable_keys h
  have key : ∀ a ∈ ms, ∀ b ∈ ms, (a.pyEq b = .ok true ↔ SameInfo a b) := by
    intro a ha b hb
    obtain ⟨r, h1, h2⟩ := C34_compare a b (hk a ha b hb)
    rw [h1, ← h2]
    constructor
    · exact fun h => Except.ok.inj h
    · rintro rfl; rfl
  refine ⟨?_, ?_, ?_, ?_⟩
  · intro a ha b hb
    obtain ⟨r, h1, -⟩ := C34_compare a b (hk a ha b hb)
    exact ⟨r, h1⟩
  · intro a ha
    rw [key a ha a ha]
    obtain ⟨ma, mb, h1, h2, k1, -⟩ := hk a ha a ha
    refine ⟨ma, ma, h1, h1, rfl, ?_⟩
    intro k v w hv hw
    have : v = w := Except.ok.inj ((dictGet_of_mem k1 hv).symm.trans (dictGet_of_mem k1 hw))
    exact this ▸ SameEntry.refl v
  · intro a ha b hb hab
    rw [key a ha b hb] at hab
    rw [key b hb a ha]
    obtain ⟨ma, mb, h1, h2, h3, h4⟩ := hab
    exact ⟨mb, ma, h2, h1, h3.symm, fun k v w hv hw => (h4 k w v hw hv).symm⟩
  · intro a ha b hb c hc hab hbc
    rw [key a ha b hb] at hab
    rw [key b hb c hc] at hbc
    rw [key a ha c hc]
    obtain ⟨ma, mb, h1, h2, h3, h4⟩ := hab
    obtain ⟨mb', mc, h1', h2', h3', h4'⟩ := hbc
    have e := Option.some.inj (h2.symm.trans h1')
    subst e
    refine ⟨ma, mc, h1, h2', h3.trans h3', ?_⟩
    intro k v w hv hw
    obtain ⟨ma', mb', g1, g2, -, -, -, -, g3⟩ := hk a ha b hb
    have e1 := Option.some.inj (g1.symm.trans h1)
    have e2 := Option.some.inj (g2.symm.trans h2)
    subst e1 e2
    have := (g3 k).1 (List.mem_map.2 ⟨_, hv, rfl⟩)
    obtain ⟨⟨k', u⟩, hu, hk'⟩ := List.mem_map.1 this
    have hk'' : k' = k := hk'
    subst hk''
    exact (h4 _ _ _ hv hu).trans (h4' _ _ _ hu hw)

/-- C34: two materials built from arguments are equal exactly if both store an index or both a
permittivity; their data play no role. -/
theorem C34_arguments (rd rd' : String → Res (FileDict F)) (kw kw' : Kwargs F) (a b : Material F)
    (ha : Material.new rd kw = .ok a) (hb : Material.new rd' kw' = .ok b) (hf : ¬ FromFile kw)
    (hf' : ¬ FromFile kw') : a.pyEq b = .ok (decide (a.name = b.name)) := by
  have h1 : a.metaData = some blankMeta := by
    rcases new_meta rd ha with ⟨-, h⟩ | ⟨p, -, -, h, -⟩
    · exact h
    · exact absurd ⟨p, h⟩ hf
  have h2 : b.metaData = some blankMeta := by
    rcases new_meta rd' hb with ⟨-, h⟩ | ⟨p, -, -, h, -⟩
    · exact h
    · exact absurd ⟨p, h⟩ hf'
  have h3 : metaLoop blankMeta blankMeta = .ok true := by decide
  unfold Material.pyEq
  rw [h1, h2]
  show (do
    let same ← metaLoop blankMeta blankMeta
    if same = true then Except.ok (decide (a.name = b.name)) else .ok false) = _
  rw [h3]
  rfl

/-- `Material(fixed_n=x)`. -/
theorem fixed_n_new (rd : String → Res (FileDict F)) (x : F) : ∃ m : Material F,
    Material.new rd [("fixed_n", .float x)] = .ok m ∧ m.name = "nk" ∧ ¬ FromFile [("fixed_n", PyVal.float x)] := by
  have hs : ("fixed_n", DocType.real) ∈ sources := by decide
  obtain ⟨h1, h2⟩ := only_single (F := F) hs (v := .float x) (by simp)
  obtain ⟨h3, -⟩ := C24_fixed_partial rd [("fixed_n", PyVal.float x)] h1
    (plain_single (by decide) (by decide))
  refine ⟨_, h3 _ h2, rfl, ?_⟩
  rintro ⟨p, hp⟩
  simp [Kwargs.get, dictGet] at hp

/-- C34 is false: comparing `Material(fixed_n=x)` with a material read from a file raises
`KeyError`, since files carry no `Alias`. -/
theorem C34_refuted (x : F) : ¬ C34_statement F := by
  intro hst
  obtain ⟨md', hl⟩ := new_file (F := F) "file" blankFileMeta_ok
  let rd : String → Res (FileDict F) := fun _ => .ok { metaData := blankFileMeta, datasets := [] }
  have hnew : Material.new rd (fileKw F "file") = .ok (finish (fileBlank F "file" md')) := by
    rw [hl]; rfl
  obtain ⟨m, hm, hn, hnf⟩ := fixed_n_new rd x
  have hin : InnerKeys blankFileMeta := by
    intro k a ha
    simp only [blankFileMeta, List.mem_cons, List.not_mem_nil, or_false, Prod.mk.injEq,
      reduceCtorEq, and_false, false_or, MetaVal.dict.injEq] at ha
    rw [ha.2]
    simp [Keys]
  obtain ⟨h1, -⟩ := hst [rd] [fileKw F "file", [("fixed_n", .float x)]]
    [finish (fileBlank F "file" md'), m] (by
      intro rd' hrd p fd hfd
      rw [List.mem_singleton.1 hrd] at hfd
      cases hfd
      exact hin) (by
      intro m' hm'
      rcases List.mem_cons.1 hm' with rfl | hm'
      · exact ⟨rd, by simp, _, by simp, hnew⟩
      · rw [List.mem_singleton.1 hm']
        exact ⟨rd, by simp, _, by simp, hm⟩)
  obtain ⟨r, hr⟩ := h1 m (by simp) _ (by simp : finish (fileBlank F "file" md') ∈ _)
  have hmm : m.metaData = some blankMeta := by
    rcases new_meta rd hm with ⟨-, h⟩ | ⟨p, -, -, h, -⟩
    · exact h
    · exact absurd ⟨p, h⟩ hnf
  have hmd : md' = blankFileMeta := by
    rcases new_meta rd hnew with ⟨h, -⟩ | ⟨p, fd, md, -, h2, h3, h4, h5⟩
    · exact absurd ⟨"file", rfl⟩ h
    · have e : md' = md := Option.some.inj h3
      subst e
      have e : fd = { metaData := blankFileMeta, datasets := [] } := (Except.ok.inj h2).symm
      subst e
      have : ∀ p ∈ md', p = (p.1, (blankFileMeta.lookup p.1).getD (.str "")) := by
        rintro ⟨k, v⟩ hp
        have h6 := h5 k v hp
        have hk : k ∈ fileKeys := by
          rw [← h4]; exact List.mem_map.2 ⟨_, hp, rfl⟩
        simp only [fileKeys, List.mem_cons, List.not_mem_nil, or_false] at hk
        rcases hk with rfl | rfl | rfl | rfl | rfl | rfl | rfl <;> (cases h6; rfl)
      have e2 : md' = (md'.map Prod.fst).map
          (fun k => (k, (blankFileMeta.lookup k).getD (.str ""))) := by
        rw [List.map_map]
        conv_lhs => rw [← List.map_id md']
        exact List.map_congr_left fun p hp => this p hp
      rw [e2, h4]
      decide
  have hloop : metaLoop blankMeta blankFileMeta = .error .key := by decide
  unfold Material.pyEq at hr
  rw [hmm] at hr
  have hr' : (do
      let same ← metaLoop blankMeta md'
      if same = true then Except.ok (decide (m.name = (finish (fileBlank F "file" md')).name))
      else .ok false) = Except.ok (ε := PyErr) r := hr
  rw [hmd, hloop] at hr'
  cases hr'

/-- Concrete case for `C34_equivalence_partial` and `C34_arguments`: materials of index `x` and
`y`. -/
example (rd : String → Res (FileDict F)) (hrd : ∀ p fd, rd p = .ok fd → InnerKeys fd.metaData)
    (x y : F) : ∃ a b : Material F,
    Comparable [rd] [[("fixed_n", .float x)], [("fixed_n", .float y)]] [a, b] ∧
    a.pyEq b = .ok true := by
  obtain ⟨a, h1, h2, h3⟩ := fixed_n_new rd x
  obtain ⟨b, g1, g2, g3⟩ := fixed_n_new rd y
  refine ⟨a, b, ⟨⟨false, ?_⟩, ?_, ?_⟩, ?_⟩
  · intro kw hkw
    rcases List.mem_cons.1 hkw with rfl | hkw
    · exact iff_of_false h3 (by simp)
    · rw [List.mem_singleton.1 hkw]
      exact iff_of_false g3 (by simp)
  · intro rd' hr
    rw [List.mem_singleton.1 hr]
    exact hrd
  · intro m hm
    rcases List.mem_cons.1 hm with rfl | hm
    · exact ⟨rd, by simp, _, by simp, h1⟩
    · rw [List.mem_singleton.1 hm]
      exact ⟨rd, by simp, _, by simp, g1⟩
  · rw [C34_arguments rd rd _ _ a b h1 g1 h3 g3, h2, g2]
    rfl

end generic

end Disp

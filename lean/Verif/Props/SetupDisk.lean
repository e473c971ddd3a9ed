import Verif.Model.SetupDisk
import Verif.Props.FileNames
/-!
# What the setup script changes on the disk (C137)

The script may end normally, with an exception, or because there is no more input.
-/

namespace Disp

open Spec

namespace Spec

/-- Wherever the temporary files of the machine are: if a name is found for a new directory, it is
unused, and everything is allowed in that directory. -/
def TempLaw (m : Machine) : Prop :=
  (∀ c ∈ m.temp, FileName c) ∧
  ∀ d t, DiskTree d → m.fresh d = some t →
    FileName t ∧ d (m.temp ++ [t]) = none ∧ ∀ x, m.temp ++ [t] <+: x → m.writable x = true

/-- What is assumed of `git clone`: only what is in the directory changes, and nothing that was
there is removed. -/
def GitLaw (m : Machine) (clone : String → Disk → Res Unit × Disk) : Prop :=
  ∀ p d, DiskTree d →
    DiskTree (clone p d).2 ∧
    (∀ l, ¬ target m.cwd p <+: l → (clone p d).2 l = d l) ∧
    (∀ l, d l ≠ none → (clone p d).2 l = d l)

/-- The places of the modules below the root directory: the folder `UserData` with the two
examples, and what is in the folder `RefractiveIndexInfo`. -/
inductive ModulePlace (m : Machine) (root : String) : Loc → Prop
  | userData : ModulePlace m root (target m.cwd root ++ ["UserData".toList])
  | example1 : ModulePlace m root
      (target m.cwd root ++ ["UserData".toList, "example_file.txt".toList])
  | example2 : ModulePlace m root
      (target m.cwd root ++ ["UserData".toList, "example_file2.yml".toList])
  | rii (l : Loc) (h : target m.cwd root ++ ["RefractiveIndexInfo".toList] <+: l) :
      ModulePlace m root l

/-- The user's directory. -/
def userPlace (m : Machine) (home : String) : Loc :=
  target m.cwd home ++ [".config".toList, "dispersion".toList]

/-- The places that belong to the script: the user's directory and the configuration in it, the
modules, and the catalogue. -/
inductive SetupPlace (m : Machine) (home root name : String) : Loc → Prop
  | userDir : SetupPlace m home root name (userPlace m home)
  | config : SetupPlace m home root name (userPlace m home ++ ["config.yaml".toList])
  | module (l : Loc) (h : ModulePlace m root l) : SetupPlace m home root name l
  | catalogue : SetupPlace m home root name (target m.cwd (joinPath root name))

/-- A place that a line with a slash in it names, when looked up in some temporary directory. -/
def Typed (m : Machine) (lines : List String) (l : Loc) : Prop :=
  ∃ x ∈ lines, '/' ∈ x.toList ∧
    ∃ t, l = target m.cwd (joinPath (placeText (m.temp ++ [t])) x)

/-- The change of a disk: only places in `own` change, and empty files may appear where `typed`
says. -/
def Changed (m : Machine) (own typed : Loc → Prop) (d d' : Disk) : Prop :=
  ∀ l, d' l = d l ∨ own l ∨
    (typed l ∧ d' l = some (.file []) ∧ (d l = none ∨ m.readable l = false))

/-- Nothing is removed: directories stay directories, files stay files. -/
def NothingLost (d d' : Disk) : Prop :=
  (∀ l, d l = some .dir → d' l = some .dir) ∧ ∀ l t, d l = some (.file t) → ∃ t', d' l = some (.file t')

end Spec

/-! ## Rules -/

/-- The state stays sound, changes are as allowed, and results have a property. -/
def Does (m : Machine) (own typed : Loc → Prop) (lines : List String) {α : Type} (sc : Script α)
    (Q : α → Prop) : Prop :=
  ∀ s : Disk × List String, DiskTree s.1 → s.1 m.temp = some .dir → (∀ x ∈ s.2, x ∈ lines) →
    DiskTree (sc s).2.1 ∧ (∀ x ∈ (sc s).2.2, x ∈ lines) ∧ Changed m own typed s.1 (sc s).2.1 ∧
    NothingLost s.1 (sc s).2.1 ∧ ∀ a, (sc s).1 = .ok a → Q a

theorem Spec.Changed.refl {m : Machine} {own typed : Loc → Prop} (d : Disk) :
    Changed m own typed d d := fun _ => .inl rfl

theorem Spec.Changed.trans {m : Machine} {own typed : Loc → Prop} {d1 d2 d3 : Disk}
    (h1 : Changed m own typed d1 d2) (h2 : Changed m own typed d2 d3) :
    Changed m own typed d1 d3 := by
  intro l
  rcases h2 l with e | e | ⟨a, b, c⟩
  · rw [e]; exact h1 l
  · exact .inr (.inl e)
  · rcases h1 l with e | e | ⟨-, -, c'⟩
    · rw [e] at c; exact .inr (.inr ⟨a, b, c⟩)
    · exact .inr (.inl e)
    · exact .inr (.inr ⟨a, b, c'⟩)

theorem Spec.Changed.mono {m : Machine} {own own' typed : Loc → Prop} {d d' : Disk}
    (h : Changed m own typed d d') (ho : ∀ l, own l → own' l) : Changed m own' typed d d' := by
  intro l
  rcases h l with e | e | e
  · exact .inl e
  · exact .inr (.inl (ho l e))
  · exact .inr (.inr e)

theorem Spec.NothingLost.refl (d : Disk) : NothingLost d d := ⟨fun _ h => h, fun _ t h => ⟨t, h⟩⟩

theorem Spec.NothingLost.trans {d1 d2 d3 : Disk} (h1 : NothingLost d1 d2) (h2 : NothingLost d2 d3) : NothingLost d1 d3 := by
  refine ⟨fun l h => h2.1 l (h1.1 l h), fun l t h => ?_⟩
  obtain ⟨t', h'⟩ := h1.2 l t h
  exact h2.2 l t' h'

variable {m : Machine} {own typed : Loc → Prop} {lines : List String}

theorem Does.pure {α : Type} {a : α} {Q : α → Prop} (h : Q a) :
    Does m own typed lines (Pure.pure a : Script α) Q :=
  fun s h1 _ h3 => ⟨h1, h3, Spec.Changed.refl _, Spec.NothingLost.refl _, fun _ e => Except.ok.inj e ▸ h⟩

theorem Does.fail {α : Type} {e : PyErr} {Q : α → Prop} :
    Does m own typed lines (fun s => (.error e, s) : Script α) Q :=
  fun s h1 _ h3 => ⟨h1, h3, Spec.Changed.refl _, Spec.NothingLost.refl _, fun _ e => by cases e⟩

theorem script_bind {α β : Type} (x : Script α) (f : α → Script β) (s : Disk × List String) :
    (x >>= f) s = match x s with
      | (.error e, s') => (.error e, s')
      | (.ok a, s') => f a s' := rfl

theorem Does.bind {α β : Type} {x : Script α} {f : α → Script β} {Q : α → Prop} {Q' : β → Prop}
    (hx : Does m own typed lines x Q) (hf : ∀ a, Q a → Does m own typed lines (f a) Q') :
    Does m own typed lines (x >>= f) Q' := by
  intro s h1 h2 h3
  obtain ⟨a1, a2, a3, a4, a5⟩ := hx s h1 h2 h3
  have hb : (x >>= f) s = match x s with
    | (.error e, s') => (.error e, s')
    | (.ok a, s') => f a s' := rfl
  rw [hb]
  cases hxs : x s with
  | mk r s' =>
    rw [hxs] at a1 a2 a3 a4 a5
    cases r with
    | error e => exact ⟨a1, a2, a3, a4, fun _ e => by cases e⟩
    | ok a =>
      obtain ⟨b1, b2, b3, b4, b5⟩ := hf a (a5 a rfl) s' a1 (a4.1 _ h2) a2
      exact ⟨b1, b2, a3.trans b3, a4.trans b4, b5⟩

theorem Does.weaken {α : Type} {x : Script α} {Q Q' : α → Prop} (hx : Does m own typed lines x Q)
    (h : ∀ a, Q a → Q' a) : Does m own typed lines x Q' := by
  intro s h1 h2 h3
  obtain ⟨a1, a2, a3, a4, a5⟩ := hx s h1 h2 h3
  exact ⟨a1, a2, a3, a4, fun a e => h a (a5 a e)⟩

/-! ## Reading answers -/

theorem confirmation_mem {inputs rest : List String} {b : Bool}
    (h : getConfirmation inputs = .ok (b, rest)) : ∀ x ∈ rest, x ∈ inputs := by
  induction inputs with
  | nil => cases h
  | cons y inputs ih =>
    rw [getConfirmation] at h
    split at h
    · injection h with h; injection h with _ h
      intro x hx; rw [h]; exact List.mem_cons_of_mem _ hx
    · split at h
      · injection h with h; injection h with _ h
        intro x hx; rw [h]; exact List.mem_cons_of_mem _ hx
      · intro x hx; exact List.mem_cons_of_mem _ (ih h x hx)

theorem Does.confirm : Does m own typed lines confirm (fun _ => True) := by
  intro s h1 h2 h3
  unfold Disp.confirm
  cases h : getConfirmation s.2 with
  | error e => exact ⟨h1, by simp, Spec.Changed.refl _, Spec.NothingLost.refl _, fun _ _ => trivial⟩
  | ok p =>
    obtain ⟨b, rest⟩ := p
    exact ⟨h1, fun x hx => h3 x (confirmation_mem h x hx), Spec.Changed.refl _, Spec.NothingLost.refl _,
      fun _ _ => trivial⟩

/-- A check that may change the disk only as allowed. -/
def Checks (m : Machine) (own typed : Loc → Prop) (lines : List String) (dflt : String)
    (valid : String → Disk → Res Bool × Disk) : Prop :=
  ∀ x d, (x = dflt ∨ x ∈ lines) → DiskTree d → d m.temp = some .dir →
    DiskTree (valid x d).2 ∧ Changed m own typed d (valid x d).2 ∧ NothingLost d (valid x d).2

theorem Does.ask {valid : String → Disk → Res Bool × Disk} {dflt : String}
    (hv : Checks m own typed lines dflt valid) :
    Does m own typed lines (askD valid dflt) (fun a => a = dflt ∨ a ∈ lines) := by
  rintro ⟨d, inputs⟩ h1 h2 h3
  unfold askD
  simp only at h1 h2 h3 ⊢
  induction inputs generalizing d with
  | nil => exact ⟨h1, h3, Spec.Changed.refl _, Spec.NothingLost.refl _, fun _ e => by cases e⟩
  | cons x rest ih =>
    rw [askLoop]
    have hx : (if x = "" then dflt else x) = dflt ∨ (if x = "" then dflt else x) ∈ lines := by
      split
      · exact .inl rfl
      · exact .inr (h3 x (by simp))
    obtain ⟨a1, a2, a3⟩ := hv _ d hx h1 h2
    have hrest : ∀ y ∈ rest, y ∈ lines := fun y hy => h3 y (List.mem_cons_of_mem _ hy)
    split
    · rename_i d' hd
      rw [hd] at a1 a2 a3
      exact ⟨a1, hrest, a2, a3, fun a e => Except.ok.inj e ▸ hx⟩
    · rename_i d' hd
      rw [hd] at a1 a2 a3
      obtain ⟨b1, b2, b3, b4, b5⟩ := ih d' a1 (a3.1 _ h2) hrest
      exact ⟨b1, b2, a2.trans b3, a3.trans b4, b5⟩
    · rename_i e d' hd
      rw [hd] at a1 a2 a3
      exact ⟨a1, hrest, a2, a3, fun a e => by cases e⟩

theorem Does.askConfirm {valid : String → Disk → Res Bool × Disk} {dflt : String}
    (hv : Checks m own typed lines dflt valid) :
    Does m own typed lines (askConfirmD valid dflt) (fun a => a.1 = dflt ∨ a.1 ∈ lines) := by
  unfold askConfirmD
  exact (Does.ask hv).bind fun a ha => Does.confirm.bind fun b _ => Does.pure ha

theorem Does.until {valid : String → Disk → Res Bool × Disk} {dflt : String}
    (hv : Checks m own typed lines dflt valid) :
    Does m own typed lines (untilS valid dflt) (fun a => a = dflt ∨ a ∈ lines) := by
  intro s
  induction hn : s.2.length using Nat.strong_induction_on generalizing s with
  | _ n ih =>
    subst hn
    intro h1 h2 h3
    obtain ⟨a1, a2, a3, a4, a5⟩ := Does.askConfirm hv s h1 h2 h3
    rw [untilS, untilD]
    split
    · rename_i e s' h; rw [h] at a1 a2 a3 a4
      exact ⟨a1, a2, a3, a4, fun _ e => by cases e⟩
    · rename_i a s' h; rw [h] at a1 a2 a3 a4 a5
      exact ⟨a1, a2, a3, a4, fun b e => Except.ok.inj e ▸ a5 _ rfl⟩
    · rename_i a s' h; rw [h] at a1 a2 a3 a4 a5
      obtain ⟨b1, b2, b3, b4, b5⟩ := ih s'.2.length (askConfirmD_rest h) s' rfl a1 (a4.1 _ h2) a2
      exact ⟨b1, b2, a3.trans b3, a4.trans b4, b5⟩

/-! ## Acting on the disk -/

theorem put_changed {d : Disk} {l : Loc} {n : Node} (ho : own l) :
    Changed m own typed d (d.put l n) := by
  intro x
  by_cases hx : x = l
  · exact .inr (.inl (hx ▸ ho))
  · left; simp [Disk.put, hx]

theorem write_does {d : Disk} (hd : DiskTree d) {p : String} {text : List Char}
    (ho : own (target m.cwd p)) :
    DiskTree (m.write d p text).2 ∧ Changed m own typed d (m.write d p text).2 ∧
      NothingLost d (m.write d p text).2 := by
  unfold Machine.write
  cases hf : m.find d p with
  | error e => exact ⟨hd, Spec.Changed.refl _, Spec.NothingLost.refl _⟩
  | ok l =>
    simp only
    have hl := find_target hf
    split
    · exact ⟨hd, Spec.Changed.refl _, Spec.NothingLost.refl _⟩
    · rename_i h1
      split
      · have hne : l ≠ [] := by rintro rfl; exact h1 hd.1
        refine ⟨hd.put (.inl h1) hne ((find_parent hd hf).resolve_left hne),
          put_changed (hl ▸ ho), ?_, ?_⟩
        · intro x hx
          simp only [Disk.put]
          rw [if_neg (by rintro rfl; exact h1 hx)]
          exact hx
        · intro x t hx
          simp only [Disk.put]
          split
          · exact ⟨_, rfl⟩
          · exact ⟨t, hx⟩
      · exact ⟨hd, Spec.Changed.refl _, Spec.NothingLost.refl _⟩

theorem mkdir_does {d : Disk} (hd : DiskTree d) {p : String} (ho : own (target m.cwd p)) :
    DiskTree (m.mkdir d p).2 ∧ Changed m own typed d (m.mkdir d p).2 ∧ NothingLost d (m.mkdir d p).2 := by
  unfold Machine.mkdir
  cases hf : m.find d p with
  | error e => exact ⟨hd, Spec.Changed.refl _, Spec.NothingLost.refl _⟩
  | ok l =>
    simp only
    have hl := find_target hf
    split
    · exact ⟨hd, Spec.Changed.refl _, Spec.NothingLost.refl _⟩
    · rename_i h1
      have h1 : d l = none := by simpa using h1
      split
      · have hne : l ≠ [] := by rintro rfl; rw [hd.1] at h1; cases h1
        refine ⟨hd.put (.inr rfl) hne ((find_parent hd hf).resolve_left hne),
          put_changed (hl ▸ ho), ?_, ?_⟩
        · intro x hx
          simp only [Disk.put]
          split
          · rfl
          · exact hx
        · intro x t hx
          simp only [Disk.put]
          rw [if_neg (by rintro rfl; rw [h1] at hx; cases hx)]
          exact ⟨t, hx⟩
      · exact ⟨hd, Spec.Changed.refl _, Spec.NothingLost.refl _⟩

theorem Does.onDisk {α : Type} {f : Disk → Res α × Disk}
    (h : ∀ d, DiskTree d → d m.temp = some .dir →
      DiskTree (f d).2 ∧ Changed m own typed d (f d).2 ∧ NothingLost d (f d).2) :
    Does m own typed lines (onDisk f) (fun _ => True) := by
  intro s h1 h2 h3
  obtain ⟨a, b, c⟩ := h s.1 h1 h2
  exact ⟨a, h3, b, c, fun _ _ => trivial⟩

theorem Does.folder {p : String} (ho : own (target m.cwd p)) :
    Does m own typed lines (folder m p) (fun _ => True) := by
  refine Does.onDisk fun d hd _ => ?_
  split
  · exact ⟨hd, Spec.Changed.refl _, Spec.NothingLost.refl _⟩
  · exact mkdir_does hd ho

theorem Does.writeMade {p : String} {text : Res (List Char)} (ho : own (target m.cwd p)) :
    Does m own typed lines (writeMade m p text) (fun _ => True) := by
  cases text with
  | error e => exact Does.fail
  | ok t => exact Does.onDisk (f := fun d => m.write d p t) fun d hd _ => write_does hd ho

theorem target_userDir (m : Machine) (h : String) :
    target m.cwd (joinPath (joinPath h ".config") "dispersion") = userPlace m h := by
  rw [target_join _ _ (by decide) (by decide) (by decide) (by decide),
    target_join _ _ (by decide) (by decide) (by decide) (by decide), List.append_assoc]
  rfl

theorem target_config (m : Machine) (h : String) :
    target m.cwd (configFile (joinPath (joinPath h ".config") "dispersion"))
      = userPlace m h ++ ["config.yaml".toList] := by
  unfold configFile
  rw [target_join _ _ (by decide) (by decide) (by decide) (by decide), target_userDir]

theorem Does.userDir {h : String} (hh : m.home = some h)
    (ho : own (userPlace m h)) :
    Does m own typed lines (userDirD m)
      (fun a => a = joinPath (joinPath h ".config") "dispersion") := by
  intro s h1 h2 h3
  unfold userDirD
  rw [hh]
  simp only
  split
  · exact ⟨h1, h3, Spec.Changed.refl _, Spec.NothingLost.refl _, fun a e => (Except.ok.inj e).symm⟩
  · obtain ⟨a1, a2, a3⟩ := mkdir_does (m := m) (own := own) (typed := typed) h1
      (p := joinPath (joinPath h ".config") "dispersion") (by rw [target_userDir]; exact ho)
    split
    · rename_i e d' hd
      rw [hd] at a1 a2 a3
      exact ⟨a1, h3, a2, a3, fun _ e => by cases e⟩
    · rename_i u d' hd
      rw [hd] at a1 a2 a3
      exact ⟨a1, h3, a2, a3, fun a e => (Except.ok.inj e).symm⟩

/-! ## Checking names -/

theorem Spec.TempLaw.workable (hm : TempLaw m) {d : Disk} (hd : DiskTree d)
    (ht : d m.temp = some .dir) {t : List Char} (hc : m.fresh d = some t) : Workable m d t where
  tree := hd
  tempDir := ht
  tempNames := hm.1
  chosen := hc
  freshName := (hm.2 d t hd hc).1
  fresh := (hm.2 d t hd hc).2.1
  allowed := (hm.2 d t hd hc).2.2

theorem validFileName_none {d : Disk} (h : m.fresh d = none) (name : String) :
    m.validFileName d name = (.error .os, d) := by
  unfold Machine.validFileName Machine.mkTemp
  rw [h]

theorem tryName_keeps {d : Disk} (hd : DiskTree d) (dir : Loc) (name : String) :
    DiskTree (m.tryName d dir name).2 ∧ NothingLost d (m.tryName d dir name).2 := by
  unfold Machine.tryName
  split
  · exact ⟨hd, Spec.NothingLost.refl _⟩
  · split
    · obtain ⟨a, -, b⟩ := write_does (m := m) (own := fun _ => True) (typed := fun _ => True) hd
        (p := joinPath (placeText dir) name) (text := []) trivial
      change DiskTree (m.openW d (joinPath (placeText dir) name)).2 at a
      change NothingLost d (m.openW d (joinPath (placeText dir) name)).2 at b
      split
      · rename_i u d' h; rw [h] at a b; exact ⟨a, b⟩
      · rename_i e' d' h; rw [h] at a b
        split <;> exact ⟨a, b⟩
    · exact ⟨hd, Spec.NothingLost.refl _⟩

theorem validFileName_keeps (hm : TempLaw m) {d : Disk} (hd : DiskTree d)
    (ht : d m.temp = some .dir) (name : String) :
    DiskTree (m.validFileName d name).2 ∧ NothingLost d (m.validFileName d name).2 := by
  cases hf : m.fresh d with
  | none => rw [validFileName_none hf]; exact ⟨hd, Spec.NothingLost.refl _⟩
  | some t =>
  have h := hm.workable hd ht hf
  rw [validFileName_eq h]
  obtain ⟨a, b⟩ := tryName_keeps (m := m) (h.tree.put_dir h.tempDir h.fresh)
    (m.temp ++ [t]) name
  have hput : ∀ l, ¬ m.temp ++ [t] <+: l →
      (d.put (m.temp ++ [t]) .dir) l = d l := by
    intro l hl
    simp only [Disk.put]
    rw [if_neg]
    rintro rfl
    exact hl (List.prefix_refl _)
  have hnot : ∀ l, d l ≠ none → ¬ m.temp ++ [t] <+: l :=
    fun l hl hp => hl (h.tree.below h.fresh hp)
  refine ⟨⟨?_, ?_⟩, ?_, ?_⟩
  · simp only [Disk.rmTree]
    rw [if_neg (by simp), ]
    exact a.1
  · intro l c hl
    simp only [Disk.rmTree] at hl ⊢
    split at hl
    · exact absurd rfl hl
    · rename_i hp
      rw [if_neg (fun hp' => hp (hp'.trans (List.prefix_append _ _)))]
      exact a.2 l c hl
  · intro l hl
    have hp := hnot l (by rw [hl]; simp)
    simp only [Disk.rmTree]
    rw [if_neg hp]
    exact b.1 l (by rw [hput l hp]; exact hl)
  · intro l u hl
    have hp := hnot l (by rw [hl]; simp)
    simp only [Disk.rmTree]
    rw [if_neg hp]
    exact b.2 l u (by rw [hput l hp]; exact hl)

/-- Checking a name that was typed. -/
theorem validFileName_changed (hm : TempLaw m) {d : Disk} (hd : DiskTree d)
    (ht : d m.temp = some .dir) {x : String} (hx : '/' ∈ x.toList → x ∈ lines) :
    Changed m own (Typed m lines) d (m.validFileName d x).2 := by
  cases hf : m.fresh d with
  | none => rw [validFileName_none hf]; exact Spec.Changed.refl _
  | some t =>
  have h := hm.workable hd ht hf
  by_cases hs : '/' ∈ x.toList
  · intro l
    rcases C136_only_partial h x l with e | ⟨e1, e2, e3⟩
    · exact .inl e
    · exact .inr (.inr ⟨⟨x, hx hs, hs, _, e2⟩, e1, e3⟩)
  · by_cases h0 : '\x00' ∈ x.toList
    · rw [C136_nul_partial h h0]; exact Spec.Changed.refl _
    · rw [(C136_plain_partial h hs h0).1]; exact Spec.Changed.refl _

theorem checks_name (hm : TempLaw m) :
    Checks m own (Typed m lines) lines "catalogue.csv" (fun x d => m.validFileName d x) := by
  intro x d hx hd ht
  obtain ⟨a, b⟩ := validFileName_keeps hm hd ht x
  refine ⟨a, validFileName_changed hm hd ht (fun hs => ?_), b⟩
  rcases hx with rfl | hx
  · exact absurd hs (by decide)
  · exact hx

theorem checks_root {dflt : String} :
    Checks m own typed lines dflt (fun x d => (isAbs x, d)) :=
  fun _ d _ hd _ => ⟨hd, Spec.Changed.refl _, Spec.NothingLost.refl _⟩

/-! ## The script -/

variable {F : Type} [PyFloat F] [SciPy F] [NumText F] [Printing F] [YamlIO F] [CsvIO F]

theorem target_folder (cwd : Loc) (root : String) :
    target cwd (joinPath root "UserData") = target cwd root ++ ["UserData".toList] ∧
    target cwd (joinPath (joinPath root "UserData") "example_file.txt")
      = target cwd root ++ ["UserData".toList, "example_file.txt".toList] ∧
    target cwd (joinPath (joinPath root "UserData") "example_file2.yml")
      = target cwd root ++ ["UserData".toList, "example_file2.yml".toList] ∧
    target cwd (joinPath root "RefractiveIndexInfo")
      = target cwd root ++ ["RefractiveIndexInfo".toList] := by
  have h1 := target_join cwd root (b := "UserData") (by decide) (by decide) (by decide) (by decide)
  refine ⟨h1, ?_, ?_, target_join cwd root (by decide) (by decide) (by decide) (by decide)⟩
  · rw [target_join cwd _ (by decide) (by decide) (by decide) (by decide), h1, List.append_assoc]
    rfl
  · rw [target_join cwd _ (by decide) (by decide) (by decide) (by decide), h1, List.append_assoc]
    rfl

theorem installModules_does {tools : Tools F} (hg : GitLaw m tools.clone) (root : String)
    (hown : ∀ l, ModulePlace m root l → own l) :
    Does m own typed lines
      (installModulesD m tools root ["UserData", "RefractiveIndexInfo"])
      (fun l => ∃ b, l = [("UserData", true), ("RefractiveIndexInfo", b)]) := by
  obtain ⟨t1, t2, t3, t4⟩ := target_folder m.cwd root
  have o1 : own (target m.cwd (joinPath root "UserData")) := by
    rw [t1]; exact hown _ .userData
  have o2 : own (target m.cwd (joinPath (joinPath root "UserData") "example_file.txt")) := by
    rw [t2]; exact hown _ .example1
  have o3 : own (target m.cwd (joinPath (joinPath root "UserData") "example_file2.yml")) := by
    rw [t3]; exact hown _ .example2
  have o4 : own (target m.cwd (joinPath root "RefractiveIndexInfo")) :=
    hown _ (.rii _ (by rw [t4]))
  have hu : Does m own typed lines
      (setupModuleD m tools root "UserData") (fun b => b = true) := by
    unfold setupModuleD wantedD
    rw [if_pos rfl]
    refine Does.bind (Q := fun b => b = true) (Does.pure rfl) ?_
    rintro b rfl
    rw [if_pos rfl]
    refine (Does.folder o1).bind fun _ _ => ?_
    unfold installModuleD installUserD
    rw [if_pos rfl]
    exact (Does.writeMade o2).bind fun _ _ => (Does.writeMade o3).bind fun _ _ => Does.pure rfl
  have hr : Does m own typed lines
      (setupModuleD m tools root "RefractiveIndexInfo") (fun _ => True) := by
    unfold setupModuleD wantedD
    rw [if_neg (by decide)]
    refine Does.confirm.bind fun b _ => ?_
    split
    · refine (Does.folder o4).bind fun _ _ => ?_
      unfold installModuleD installRiiD
      simp only [String.reduceEq, ↓reduceIte]
      refine Does.confirm.bind fun b _ => ?_
      split
      · refine Does.bind (Q := fun _ => True) (Does.onDisk fun d hd ht => ?_) fun _ _ => Does.pure trivial
        obtain ⟨g1, g2, g3⟩ := hg (joinPath root "RefractiveIndexInfo") d hd
        refine ⟨g1, ?_, ?_, ?_⟩
        · intro l
          by_cases hl : target m.cwd (joinPath root "RefractiveIndexInfo") <+: l
          · exact .inr (.inl (hown l (.rii l (by rw [← t4]; exact hl))))
          · exact .inl (g2 l hl)
        · intro l hl; rw [g3 l (by rw [hl]; simp)]; exact hl
        · intro l t hl; exact ⟨t, by rw [g3 l (by rw [hl]; simp)]; exact hl⟩
      · exact Does.onDisk fun d hd _ => ⟨hd, Spec.Changed.refl _, Spec.NothingLost.refl _⟩
    · exact Does.pure trivial
  unfold installModulesD
  refine hu.bind fun b hb => ?_
  subst hb
  refine Does.bind (Q := fun l => ∃ b, l = [("RefractiveIndexInfo", b)]) ?_ ?_
  · unfold installModulesD
    refine hr.bind fun b _ => ?_
    refine Does.bind (Q := fun l => l = []) (Does.pure rfl) ?_
    rintro l rfl
    exact Does.pure ⟨b, rfl⟩
  · rintro l ⟨b, rfl⟩
    exact Does.pure ⟨b, rfl⟩

theorem setupConfig_file (path name : String) (mods : List (String × Bool)) :
    (setupConfig (F := F) path name mods).get "File" = .ok (.str name) := by
  simp [setupConfig, YamlVal.get, dictGet]

theorem validate_does (hm : TempLaw m) {root name : String}
    (hname : name = "catalogue.csv" ∨ name ∈ lines) (mods : List (String × Bool)) {d : Disk}
    (hd : DiskTree d) (ht : d m.temp = some .dir) :
    DiskTree (m.validate d (setupConfig (F := F) root name mods)).2 ∧
      Changed m own (Typed m lines) d (m.validate d (setupConfig (F := F) root name mods)).2 ∧
      NothingLost d (m.validate d (setupConfig (F := F) root name mods)).2 := by
  unfold Machine.validate
  cases hc : m.configName d (setupConfig (F := F) root name mods) with
  | error e => exact ⟨hd, Spec.Changed.refl _, Spec.NothingLost.refl _⟩
  | ok n =>
    have hn : n = name := by
      unfold Machine.configName at hc
      obtain ⟨v1, -, hc⟩ := except_bind_ok hc
      obtain ⟨v2, -, hc⟩ := except_bind_ok hc
      obtain ⟨v3, -, hc⟩ := except_bind_ok hc
      obtain ⟨v4, h4, hc⟩ := except_bind_ok hc
      rw [setupConfig_file] at h4
      rw [← Except.ok.inj h4] at hc
      exact (Except.ok.inj hc).symm
    subst hn
    obtain ⟨a, b⟩ := validFileName_keeps hm hd ht n
    have c := validFileName_changed (own := own) (lines := lines) hm hd ht (x := n)
      (fun hs => hname.elim (fun e => absurd (e ▸ hs) (by decide)) id)
    simp only
    split
    · rename_i e d' he; rw [he] at a b c; exact ⟨a, c, b⟩
    · rename_i u d' he; rw [he] at a b c; exact ⟨a, c, b⟩

theorem rebuild_does (hm : TempLaw m) {tools : Tools F} {root name : String}
    (hname : name = "catalogue.csv" ∨ name ∈ lines) (mods : List (String × Bool))
    (ho : own (target m.cwd (joinPath root name))) :
    Does m own (Typed m lines) lines
      (rebuildD m tools root name (setupConfig root name mods)) (fun _ => True) := by
  unfold rebuildD
  exact Does.bind (Q := fun _ => True)
    (Does.onDisk fun d hd ht => validate_does hm hname mods hd ht) fun _ _ =>
    Does.bind (Q := fun _ => True)
      (Does.onDisk fun d hd _ => ⟨hd, Spec.Changed.refl _, Spec.NothingLost.refl _⟩) fun f _ =>
        Does.writeMade ho

theorem finish_does (hm : TempLaw m) {tools : Tools F} {home root name : String}
    (hh : m.home = some home) (hname : name = "catalogue.csv" ∨ name ∈ lines)
    (mods : List (String × Bool)) :
    Does m (SetupPlace m home root name) (Typed m lines) lines
      (finishD m tools root name mods) (fun _ => True) := by
  unfold finishD
  refine (Does.userDir hh .userDir).bind fun dir hdir => ?_
  subst hdir
  refine (Does.writeMade (by rw [target_config]; exact .config)).bind fun _ _ => ?_
  refine Does.confirm.bind fun b _ => ?_
  split
  · exact (rebuild_does hm hname mods .catalogue).bind fun _ _ => Does.pure trivial
  · exact Does.pure trivial

/-- C137: whatever the user types and however the run ends, the script changes nothing on the disk
but its own places (`SetupPlace`), for a root directory and a file name that are defaults or were
typed; besides, checking typed names with a slash in them can make empty files there. Nothing is
removed. -/
theorem C137_only (hm : TempLaw m) {tools : Tools F} (hg : GitLaw m tools.clone) {home : String}
    (hh : m.home = some home) {d : Disk} (hd : DiskTree d) (ht : d m.temp = some .dir)
    (lines : List String) :
    NothingLost d (setupRun m tools (d, lines)).2.1 ∧ DiskTree (setupRun m tools (d, lines)).2.1 ∧
    ∃ root name,
      (root = plainScalar (joinPath (joinPath home ".config") "dispersion") ∨ root ∈ lines) ∧
      (name = "catalogue.csv" ∨ name ∈ lines) ∧
      Changed m (SetupPlace m home root name) (Typed m lines) d
        (setupRun m tools (d, lines)).2.1 := by
  have hown : ∀ root name l, l = userPlace m home →
      SetupPlace m home root name l := fun _ _ l e => e ▸ .userDir
  have s1 := Does.userDir (m := m) (typed := Typed m lines) (lines := lines)
    (own := (· = userPlace m home)) hh rfl
    (d, lines) hd ht (fun _ h => h)
  unfold setupRun
  rw [script_bind]
  cases e1 : userDirD m (d, lines) with
  | mk r1 t1 =>
  rw [e1] at s1
  obtain ⟨a1, a2, a3, a4, a5⟩ := s1
  cases r1 with
  | error e => exact ⟨a4, a1, _, _, .inl rfl, .inl rfl, a3.mono (hown _ _)⟩
  | ok dir =>
  have hdir := a5 dir rfl
  subst hdir
  have s2 := Does.until (m := m) (typed := Typed m lines) (lines := lines)
    (own := (· = userPlace m home))
    (dflt := plainScalar (joinPath (joinPath home ".config") "dispersion")) checks_root
    t1 a1 (a4.1 _ ht) a2
  simp only
  rw [script_bind]
  cases e2 : untilS (fun x d => (isAbs x, d))
    (plainScalar (joinPath (joinPath home ".config") "dispersion")) t1 with
  | mk r2 t2 =>
  rw [e2] at s2
  obtain ⟨b1, b2, b3, b4, b5⟩ := s2
  cases r2 with
  | error e => exact ⟨a4.trans b4, b1, _, _, .inl rfl, .inl rfl, (a3.trans b3).mono (hown _ _)⟩
  | ok root =>
  have hroot := b5 root rfl
  have s3 := Does.until (m := m) (typed := Typed m lines) (lines := lines)
    (own := (· = userPlace m home))
    (checks_name hm) t2 b1 (b4.1 _ (a4.1 _ ht)) b2
  simp only
  rw [script_bind]
  cases e3 : untilS (fun x d => m.validFileName d x) "catalogue.csv" t2 with
  | mk r3 t3 =>
  rw [e3] at s3
  obtain ⟨c1, c2, c3, c4, c5⟩ := s3
  cases r3 with
  | error e =>
    exact ⟨(a4.trans b4).trans c4, c1, root, _, hroot, .inl rfl,
      ((a3.trans b3).trans c3).mono (hown _ _)⟩
  | ok name =>
  have hname := c5 name rfl
  have s4 := ((installModules_does (typed := Typed m lines) (lines := lines)
    (own := SetupPlace m home root name) hg root (fun l h => .module l h)).bind
    (fun mods _ => (finish_does hm (tools := tools) hh hname mods).bind
      (fun b _ => Does.pure (a := SetupDone.mk root name mods b) (Q := fun _ => True) trivial)))
    t3 c1 (c4.1 _ (b4.1 _ (a4.1 _ ht))) c2
  obtain ⟨d1, d2, d3, d4, -⟩ := s4
  exact ⟨((a4.trans b4).trans c4).trans d4, d1, root, name, hroot, hname,
    (((a3.trans b3).trans c3).mono (hown _ _)).trans d3⟩

end Disp

import Verif.Lemmas.Disk
import Verif.Props.TextFiles
/-!
# Checking a file name leaves nothing behind (C136)

`valid_file_name` and `validate_config` open a file of the given name in a temporary directory.
-/

namespace Disp

open Spec

namespace Spec

/-- What a check of `name` may do to a disk: nothing but making an empty file at the place that the
name stands for, when it is looked up in the temporary directory `dir`; a file that exists is only
touched if it cannot be read. -/
def OnlyNamed (m : Machine) (dir : Loc) (name : String) (d d' : Disk) : Prop :=
  ∀ l, d' l = d l ∨ (d' l = some (.file []) ∧ l = target m.cwd (joinPath (placeText dir) name) ∧
    (d l = none ∨ m.readable l = false))

end Spec

/-! ## The temporary directory -/

theorem mkTemp_workable {m : Machine} {d : Disk} {t : List Char} (h : Workable m d t) :
    m.mkTemp d = (.ok (m.temp ++ [t]), d.put (m.temp ++ [t]) .dir) := by
  unfold Machine.mkTemp
  rw [h.chosen]
  simp only
  rw [if_pos h.tempDir, if_pos (h.allowed _ (List.prefix_refl _))]

theorem temp_names {m : Machine} {d : Disk} {t : List Char} (h : Workable m d t) :
    ∀ c ∈ m.temp ++ [t], FileName c := by
  intro c hc
  rcases List.mem_append.1 hc with hc | hc
  · exact h.tempNames c hc
  · rw [List.mem_singleton.1 hc]; exact h.freshName

theorem temp_find {m : Machine} {d : Disk} {t : List Char} (h : Workable m d t) {s : String}
    (hs : s.toList.head? ≠ some '/') (h0 : '\x00' ∉ s.toList) :
    m.find (d.put (m.temp ++ [t]) .dir) (joinPath (placeText (m.temp ++ [t])) s)
      = (d.put (m.temp ++ [t]) .dir).walk (m.temp ++ [t])
          (splitOnChar '/' s.toList) :=
  find_inside (h.tree.put_dir h.tempDir h.fresh) (by simp) (temp_names h) (by simp [Disk.put]) hs h0

/-- Removing the temporary directory restores what was there before. -/
theorem rmTree_put {d : Disk} (hd : DiskTree d) {l : Loc} (hl : d l = none) {n : Node} :
    (d.put l n).rmTree l = d := by
  funext x
  unfold Disk.rmTree Disk.put
  split
  · rename_i h; rw [hd.below hl h]
  · rename_i h
    rw [if_neg]
    rintro rfl
    exact h (List.prefix_refl _)

theorem rmTree_put_put {d : Disk} (hd : DiskTree d) {l x : Loc} (hl : d l = none) (hx : l <+: x)
    {n n' : Node} : ((d.put l n).put x n').rmTree l = d := by
  funext y
  unfold Disk.rmTree Disk.put
  split
  · rename_i h; rw [hd.below hl h]
  · rename_i h
    rw [if_neg, if_neg]
    · rintro rfl
      exact h (List.prefix_refl _)
    · rintro rfl
      exact h hx

/-- C136: the full claim. Asking whether a file name is valid leaves the disk as it was. -/
def C136_statement : Prop :=
  ∀ (m : Machine) (d : Disk) (t : List Char) (name : String), Workable m d t →
    (m.validFileName d name).2 = d

/-- A directory can neither be read nor written as a file. -/
theorem tryName_dir {m : Machine} {d : Disk} {dir l : Loc} {name : String}
    (hf : m.find d (joinPath (placeText dir) name) = .ok l) (hl : d l = some .dir) :
    m.tryName d dir name = (.ok false, d) := by
  simp [Machine.tryName, Machine.openR, Machine.openW, Machine.write, hf, hl, PyErr.isA]

/-- A path that leads nowhere. -/
theorem tryName_lost {m : Machine} {d : Disk} {dir : Loc} {name : String} {e : PyErr}
    (hf : m.find d (joinPath (placeText dir) name) = .error e) (he : e.isA .os = true) :
    m.tryName d dir name = (.ok false, d) := by
  simp [Machine.tryName, Machine.openR, Machine.openW, Machine.write, hf, he]

/-- A path to a file that can be made. -/
theorem tryName_new {m : Machine} {d : Disk} {dir l : Loc} {name : String}
    (hf : m.find d (joinPath (placeText dir) name) = .ok l) (hl : d l = none)
    (hw : m.writable l = true) :
    m.tryName d dir name = (.ok true, d.put l (.file [])) := by
  simp [Machine.tryName, Machine.openR, Machine.openW, Machine.write, hf, hl, hw, PyErr.isA]

theorem validFileName_eq {m : Machine} {d : Disk} {t : List Char} (h : Workable m d t) (name : String) :
    m.validFileName d name
      = ((m.tryName (d.put (m.temp ++ [t]) .dir) (m.temp ++ [t]) name).1,
         (m.tryName (d.put (m.temp ++ [t]) .dir) (m.temp ++ [t]) name).2.rmTree
           (m.temp ++ [t])) := by
  unfold Machine.validFileName
  rw [mkTemp_workable h]

/-- C136 for names without a slash: nothing is left behind, and the answer is whether a file can
have this name. -/
theorem C136_plain_partial {m : Machine} {d : Disk} {t : List Char} (h : Workable m d t) {name : String}
    (hs : '/' ∉ name.toList) (h0 : '\x00' ∉ name.toList) :
    (m.validFileName d name).2 = d ∧
      ((FileName name.toList ∧ (m.validFileName d name).1 = .ok true) ∨
       (¬ FileName name.toList ∧ (m.validFileName d name).1 = .ok false)) := by
  have hhead : name.toList.head? ≠ some '/' := fun e => hs (List.mem_of_head? e)
  have hf := temp_find h hhead h0
  rw [splitOnChar_none hs] at hf
  have hT : (d.put (m.temp ++ [t]) .dir) (m.temp ++ [t]) = some .dir := by
    simp [Disk.put]
  rw [Disk.walk, hT] at hf
  simp only [Disk.walk] at hf
  rw [validFileName_eq h]
  by_cases h1 : name.toList = [] ∨ name.toList = ['.']
  · rw [if_pos h1] at hf
    rw [tryName_dir hf hT]
    refine ⟨rmTree_put h.tree h.fresh, .inr ⟨?_, rfl⟩⟩
    rintro ⟨a, b, -⟩
    exact h1.elim a b
  rw [if_neg h1] at hf
  by_cases h2 : name.toList = ['.', '.']
  · rw [if_pos h2, List.dropLast_concat] at hf
    rw [tryName_dir hf (by
      unfold Disk.put
      rw [if_neg (by intro e; simpa using congrArg List.length e)]; exact h.tempDir)]
    exact ⟨rmTree_put h.tree h.fresh, .inr ⟨fun hn => hn.2.2.1 h2, rfl⟩⟩
  rw [if_neg h2] at hf
  by_cases h3 : fitsName name.toList = true
  · rw [if_pos h3] at hf
    have hnone : (d.put (m.temp ++ [t]) .dir) ((m.temp ++ [t]) ++ [name.toList])
        = none := by
      unfold Disk.put
      rw [if_neg (by intro e; simpa using congrArg List.length e)]
      exact h.tree.below h.fresh (List.prefix_append _ _)
    rw [tryName_new hf hnone (h.allowed _ (List.prefix_append _ _))]
    refine ⟨rmTree_put_put h.tree h.fresh (List.prefix_append _ _), .inl ⟨?_, rfl⟩⟩
    push Not at h1
    exact ⟨h1.1, h1.2, h2, hs, h0, of_decide_eq_true h3⟩
  · rw [if_neg h3] at hf
    rw [tryName_lost hf (by decide)]
    refine ⟨rmTree_put h.tree h.fresh, .inr ⟨fun hn => h3 (decide_eq_true hn.2.2.2.2.2), rfl⟩⟩

/-- A name with a NUL character is not refused but makes the check fail, again without a trace. -/
theorem C136_nul_partial {m : Machine} {d : Disk} {t : List Char} (h : Workable m d t) {name : String}
    (h0 : '\x00' ∈ name.toList) : m.validFileName d name = (.error .value, d) := by
  have hf : m.find (d.put (m.temp ++ [t]) .dir)
      (joinPath (placeText (m.temp ++ [t])) name) = .error .value := by
    unfold Machine.find
    rw [if_pos]
    unfold joinPath joinChars
    rw [String.toList_ofList]
    split
    · exact h0
    · split
      · exact List.mem_append_right _ h0
      · exact List.mem_append_right _ (List.mem_cons_of_mem _ h0)
  rw [validFileName_eq h]
  have : m.tryName (d.put (m.temp ++ [t]) .dir) (m.temp ++ [t]) name
      = (.error .value, d.put (m.temp ++ [t]) .dir) := by
    simp [Machine.tryName, Machine.openR, hf, PyErr.isA]
  rw [this, rmTree_put h.tree h.fresh]

/-- What trying a name does to the disk. -/
theorem tryName_only (m : Machine) (d : Disk) (dir : Loc) (name : String) :
    OnlyNamed m dir name d (m.tryName d dir name).2 := by
  intro l
  unfold Machine.tryName
  split
  · exact .inl rfl
  · rename_i e he
    split
    · have key : (m.openW d (joinPath (placeText dir) name)).2 l = d l ∨
          ((m.openW d (joinPath (placeText dir) name)).2 l = some (.file []) ∧
            l = target m.cwd (joinPath (placeText dir) name) ∧
            (d l = none ∨ m.readable l = false)) := by
        unfold Machine.openW Machine.write
        unfold Machine.openR at he
        cases hf : m.find d (joinPath (placeText dir) name) with
        | error e => exact .inl rfl
        | ok x =>
          simp only [hf] at he ⊢
          split
          · exact .inl rfl
          · rename_i hx
            split
            · by_cases hl : l = x
              · right
                subst hl
                refine ⟨by simp [Disk.put], find_target hf, ?_⟩
                cases hd : d l with
                | none => exact .inl rfl
                | some n =>
                  cases n with
                  | dir => exact absurd hd hx
                  | file t =>
                    right
                    simp only [hd] at he
                    split at he
                    · cases he
                    · rename_i hr; simpa using hr
              · left; simp [Disk.put, hl]
            · exact .inl rfl
      split
      · rename_i d' hd'; rw [hd'] at key; exact key
      · rename_i e' d' hd'
        rw [hd'] at key
        split <;> exact key
    · exact .inl rfl

/-- C136, what holds for every name: nothing changes but an empty file at the place that the name
stands for; no file that can be read is touched. -/
theorem C136_only_partial {m : Machine} {d : Disk} {t : List Char} (h : Workable m d t) (name : String) :
    OnlyNamed m (m.temp ++ [t]) name d (m.validFileName d name).2 := by
  rw [validFileName_eq h]
  intro l
  have key := tryName_only m (d.put (m.temp ++ [t]) .dir) (m.temp ++ [t]) name l
  simp only [Disk.rmTree]
  split
  · rename_i hl
    exact .inl (h.tree.below h.fresh hl).symm
  · rename_i hl
    have hput : (d.put (m.temp ++ [t]) .dir) l = d l := by
      unfold Disk.put
      rw [if_neg]
      rintro rfl
      exact hl (List.prefix_refl _)
    rw [hput] at key
    exact key

/-- C136 is false of absolute names: whatever file can be made at that place is made, and stays. -/
theorem C136_absolute {m : Machine} {d : Disk} {t : List Char} (h : Workable m d t) {name : String} {l : Loc}
    (ha : name.toList.head? = some '/') (hf : m.find d name = .ok l) (hl : d l = none)
    (hw : m.writable l = true) (ht : ¬ m.temp ++ [t] <+: l) :
    m.validFileName d name = (.ok true, d.put l (.file [])) := by
  have hj : joinPath (placeText (m.temp ++ [t])) name = name := by
    unfold joinPath joinChars
    rw [if_pos ha, String.ofList_toList]
  have hdd : ∀ x, d x = some .dir → (d.put (m.temp ++ [t]) .dir) x = some .dir := by
    intro x hx
    unfold Disk.put
    split
    · rfl
    · exact hx
  have hf' := find_mono hdd hf
  rw [← hj] at hf'
  have hl' : (d.put (m.temp ++ [t]) .dir) l = none := by
    unfold Disk.put
    rw [if_neg (by rintro rfl; exact ht (List.prefix_refl _))]
    exact hl
  rw [validFileName_eq h, tryName_new hf' hl' hw]
  refine Prod.ext rfl ?_
  funext x
  simp only [Disk.rmTree]
  by_cases hx : m.temp ++ [t] <+: x
  · rw [if_pos hx]
    unfold Disk.put
    rw [if_neg (by rintro rfl; exact ht hx)]
    exact (h.tree.below h.fresh hx).symm
  · rw [if_neg hx]
    unfold Disk.put
    by_cases hxl : x = l
    · rw [if_pos hxl, if_pos hxl]
    · rw [if_neg hxl, if_neg hxl, if_neg]
      rintro rfl
      exact hx (List.prefix_refl _)

/-! ## A machine -/

/-- A machine on which everything is allowed. -/
def demoMachine : Machine where
  cwd := []
  home := some "/home/user"
  temp := ["tmp".toList]
  fresh := fun d =>
    if d ["tmp".toList, "tmpx1".toList] = none then some "tmpx1".toList else none
  readable := fun _ => true
  writable := fun _ => true

/-- Its directories. -/
def demoDisk : Disk := fun l =>
  if l = [] ∨ l = ["tmp".toList] ∨ l = ["home".toList] ∨ l = ["home".toList, "user".toList] ∨
    l = ["home".toList, "user".toList, ".config".toList] ∨ l = ["data".toList] then some .dir
  else none

theorem demo_workable : Workable demoMachine demoDisk "tmpx1".toList where
  tree := by
    refine ⟨by simp [demoDisk], ?_⟩
    intro l c h
    by_contra hl
    apply h
    unfold demoDisk at hl ⊢
    rw [if_neg]
    rintro (e | e | e | e | e | e)
    · simp at e
    · have := List.append_inj' (s₁ := l) (s₂ := []) e rfl
      exact hl (by simp [this.1])
    · have := List.append_inj' (s₁ := l) (s₂ := []) e rfl
      exact hl (by simp [this.1])
    · have := List.append_inj' (s₁ := l) (s₂ := ["home".toList]) e rfl
      exact hl (by simp [this.1])
    · have := List.append_inj' (s₁ := l) (s₂ := ["home".toList, "user".toList]) e rfl
      exact hl (by simp [this.1])
    · have := List.append_inj' (s₁ := l) (s₂ := []) e rfl
      exact hl (by simp [this.1])
  tempDir := by simp [demoDisk, demoMachine]
  tempNames := by
    intro c hc
    rw [List.mem_singleton.1 hc]
    exact ⟨by decide, by decide, by decide, by decide, by decide, by decide⟩
  chosen := by decide
  freshName := ⟨by decide, by decide, by decide, by decide, by decide, by decide⟩
  fresh := by decide
  allowed := fun _ _ => rfl

/-- C136 is false of the code: checking the name `/data/x.csv` makes that file. -/
theorem C136_refuted : ¬ C136_statement := by
  intro h
  have h1 := h demoMachine demoDisk _ "/data/x.csv" demo_workable
  rw [C136_absolute demo_workable (l := ["data".toList, "x.csv".toList]) (by decide) (by decide)
    (by decide) rfl (by decide)] at h1
  have h2 := congrFun h1 ["data".toList, "x.csv".toList]
  revert h2
  decide

/-- A concrete case of `C136_plain_partial`. -/
example : (demoMachine.validFileName demoDisk "catalogue.csv").2 = demoDisk ∧
    (demoMachine.validFileName demoDisk "catalogue.csv").1 = .ok true := by
  obtain ⟨h1, h2 | h2⟩ := C136_plain_partial demo_workable (name := "catalogue.csv")
    (by decide) (by decide)
  · exact ⟨h1, h2.2⟩
  · exact absurd ⟨by decide, by decide, by decide, by decide, by decide, by decide⟩ h2.1

/-- And of its second case. -/
example : (demoMachine.validFileName demoDisk "..").1 = .ok false := by
  obtain ⟨-, h2 | h2⟩ := C136_plain_partial demo_workable (name := "..") (by decide) (by decide)
  · exact absurd rfl h2.1.2.2.1
  · exact h2.2

/-! ## Configurations -/

variable {F : Type} [PyFloat F]

/-- `validate_config` leaves the disk alone if the file name of the configuration has no slash. -/
theorem C136_config_partial {m : Machine} {d : Disk} {t : List Char} (h : Workable m d t) {c : YamlVal F}
    (hs : ∀ v : String, c.get "File" = .ok (.str v) → '/' ∉ v.toList) :
    (m.validate d c).2 = d := by
  unfold Machine.validate
  cases hn : m.configName d c with
  | error e => rfl
  | ok name =>
    have hname : c.get "File" = .ok (.str name) := by
      unfold Machine.configName at hn
      obtain ⟨v1, -, hn⟩ := except_bind_ok hn
      obtain ⟨v2, -, hn⟩ := except_bind_ok hn
      obtain ⟨v3, -, hn⟩ := except_bind_ok hn
      obtain ⟨v4, h4, hn⟩ := except_bind_ok hn
      cases v4 <;> simp only [YamlVal.asStr] at hn <;> first | cases hn | skip
      rw [h4]
    have hd : (m.validFileName d name).2 = d := by
      by_cases h0 : '\x00' ∈ name.toList
      · rw [C136_nul_partial h h0]
      · exact (C136_plain_partial h (hs name hname) h0).1
    simp only
    split
    · rename_i e d' he; rw [he] at hd; exact hd
    · rename_i b d' he; rw [he] at hd; exact hd

/-- The result of `valid_file_name` is the one of `Model/Config` on this machine. -/
theorem validFileName_sys {m : Machine} {d : Disk} {t : List Char} (h : Workable m d t)
    (load : List Char → Res (YamlVal F)) (package name : String) :
    (m.validFileName d name).1 = (m.asSys load package d).validName name := by
  unfold Machine.validFileName
  rw [mkTemp_workable h]
  simp only [Machine.asSys, CfgSys.validName, Machine.tryName, mkTemp_workable h, h.chosen, Option.toList]
  split
  · rename_i u hu; rw [hu]
  · rename_i e he
    rw [he]
    simp only
    split
    · cases hw : m.openW (d.put (m.temp ++ [t]) .dir)
        (joinPath (placeText (m.temp ++ [t])) name) with
      | mk r d' =>
        cases r with
        | ok u => rfl
        | error e' => simp only; split <;> rfl
    · rfl

/-- The result of `validate_config` is the one of `Model/Config` on this machine. -/
theorem validate_sys {m : Machine} {d : Disk} {t : List Char} (h : Workable m d t)
    (load : List Char → Res (YamlVal F)) (package : String) (c : YamlVal F) :
    (m.validate d c).1 = validateConfig (m.asSys load package d) c := by
  unfold Machine.validate Machine.configName validateConfig configRest
  cases h1 : c.get "Path" with
  | error e => rfl
  | ok v =>
    cases h2 : v.asStr with
    | error e => simp only [bind, Except.bind, h2]
    | ok path =>
      have hdir : (m.asSys load package d).isdir path = m.isDir d path := rfl
      simp only [bind, Except.bind, h2, hdir]
      cases h3 : orIOError (m.isDir d path) with
      | error e => rfl
      | ok u =>
        simp only
        cases h4 : c.get "File" with
        | error e => rfl
        | ok w =>
          simp only
          cases h5 : w.asStr with
          | error e => rfl
          | ok name =>
            simp only
            rw [← validFileName_sys h load package name]
            cases m.validFileName d name with
            | mk r d' => cases r <;> rfl

end Disp

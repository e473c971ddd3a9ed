import Verif.Props.SetupDisk
/-!
# What an unfinished run of the setup script leaves (C138)
-/

namespace Disp

open Spec

variable {m : Machine} {own typed : Loc → Prop} {lines : List String}
variable {F : Type} [PyFloat F] [SciPy F] [NumText F] [Printing F] [YamlIO F] [CsvIO F]

namespace Spec

/-- The configuration file of the user. -/
def configPlace (m : Machine) (home : String) : Loc := userPlace m home ++ ["config.yaml".toList]

/-- A root directory that the user can have confirmed. -/
def RootLine (home : String) (lines : List String) (root : String) : Prop :=
  root = plainScalar (joinPath (joinPath home ".config") "dispersion") ∨ root ∈ lines

/-- A file name that the user can have confirmed. -/
def NameLine (lines : List String) (name : String) : Prop :=
  name = "catalogue.csv" ∨ name ∈ lines

end Spec

theorem write_cases (d : Disk) (p : String) (text : List Char) :
    m.write d p text = (.ok (), d.put (target m.cwd p) (.file text)) ∨
      ∃ e, m.write d p text = (.error e, d) := by
  unfold Machine.write
  cases hf : m.find d p with
  | error e => exact .inr ⟨e, rfl⟩
  | ok l =>
    simp only
    split
    · exact .inr ⟨_, rfl⟩
    · split
      · left; rw [find_target hf]
      · exact .inr ⟨_, rfl⟩

/-- The end of the script after the configuration was written. -/
def closing (m : Machine) (tools : Tools F) (root name : String) (mods : List (String × Bool)) :
    Script Bool := do
  let b ← confirm
  if b then do
    rebuildD m tools root name (setupConfig root name mods)
    pure true
  else pure false

theorem finish_eq (tools : Tools F) (root name : String) (mods : List (String × Bool)) :
    finishD m tools root name mods = (do
      let dir ← userDirD m
      writeMade m (configFile dir) (.ok (tools.dump (setupConfig root name mods)))
      closing m tools root name mods) := rfl

theorem onDisk_bind {α β : Type} (f : Disk → Res α × Disk) (g : α → Script β)
    (s : Disk × List String) :
    (onDisk f >>= g) s = match f s.1 with
      | (.error e, d) => (.error e, (d, s.2))
      | (.ok a, d) => g a (d, s.2) := by
  rw [script_bind]
  unfold onDisk
  cases hf : f s.1 with
  | mk r d => cases r <;> rfl

theorem rebuild_outcome (hm : TempLaw m) {tools : Tools F} {root name : String}
    (hname : NameLine lines name) (mods : List (String × Bool)) {s : Disk × List String}
    (hd : DiskTree s.1) (ht : s.1 m.temp = some .dir) {l : Loc} (hl : ¬ Typed m lines l) :
    (rebuildD m tools root name (setupConfig root name mods) s).2.1 l = s.1 l ∨
      (l = target m.cwd (joinPath root name) ∧
        (rebuildD m tools root name (setupConfig root name mods) s).1 = .ok () ∧
        ∃ f : Frame F, (rebuildD m tools root name (setupConfig root name mods) s).2.1 l
          = some (.file (csvText f))) := by
  obtain ⟨-, hv, -⟩ := validate_does (F := F) (own := fun _ => False) hm hname mods hd ht
    (root := root)
  have hvl : (m.validate s.1 (setupConfig (F := F) root name mods)).2 l = s.1 l := by
    rcases hv l with e | e | e
    · exact e
    · exact e.elim
    · exact absurd e.1 hl
  unfold rebuildD
  rw [onDisk_bind]
  cases hval : m.validate s.1 (setupConfig (F := F) root name mods) with
  | mk r d1 =>
    rw [hval] at hvl
    cases r with
    | error e => exact .inl hvl
    | ok u =>
      simp only
      rw [onDisk_bind]
      simp only
      cases hb : tools.build (setupConfig root name mods) d1 with
      | error e => exact .inl hvl
      | ok f =>
        simp only [writeMade, onDisk]
        rcases write_cases (m := m) d1 (joinPath root name) (csvText f) with e | ⟨e', e⟩
        · rw [e]
          by_cases hx : l = target m.cwd (joinPath root name)
          · exact .inr ⟨hx, rfl, f, by simp [Disk.put, hx]⟩
          · left
            simp only [Disk.put]
            rw [if_neg hx]
            exact hvl
        · rw [e]; exact .inl hvl

theorem closing_outcome (hm : TempLaw m) {tools : Tools F} {root name : String}
    (hname : NameLine lines name) (mods : List (String × Bool)) {s : Disk × List String}
    (hd : DiskTree s.1) (ht : s.1 m.temp = some .dir) {l : Loc} (hl : ¬ Typed m lines l) :
    (closing m tools root name mods s).2.1 l = s.1 l ∨
      (l = target m.cwd (joinPath root name) ∧ (closing m tools root name mods s).1 = .ok true ∧
        ∃ f : Frame F, (closing m tools root name mods s).2.1 l = some (.file (csvText f))) := by
  unfold closing
  rw [script_bind]
  cases hc : confirm s with
  | mk r s1 =>
    have h1 : s1.1 = s.1 := by
      unfold confirm at hc
      split at hc <;> (injection hc with _ hc; rw [← hc])
    cases r with
    | error e => left; simp only [h1]
    | ok b =>
      cases b with
      | false => left; simp [pure, h1]
      | true =>
        simp only [if_true]
        rw [script_bind]
        have hr := rebuild_outcome hm (tools := tools) (root := root) hname mods (s := s1)
          (by rw [h1]; exact hd) (by rw [h1]; exact ht) hl
        cases hre : rebuildD m tools root name (setupConfig root name mods) s1 with
        | mk r2 s2 =>
          rw [hre, h1] at hr
          rcases hr with e | ⟨e1, e2, e3⟩
          · left
            cases r2 <;> exact e
          · right
            simp only at e2
            subst e2
            exact ⟨e1, rfl, e3⟩

theorem finish_outcome (hm : TempLaw m) {tools : Tools F} {home root name : String}
    (hh : m.home = some home) (hname : NameLine lines name) (mods : List (String × Bool))
    {s : Disk × List String} (hd : DiskTree s.1) (ht : s.1 m.temp = some .dir)
    (hx : ∀ x ∈ s.2, x ∈ lines) {l : Loc} (hl : ¬ Typed m lines l) (hu : l ≠ userPlace m home) :
    ((∃ e, (finishD m tools root name mods s).1 = .error e) ∧
      (finishD m tools root name mods s).2.1 l = s.1 l) ∨
    ∃ s' : Disk × List String,
      finishD m tools root name mods s = closing m tools root name mods s' ∧
      s'.1 l = (if l = configPlace m home then
        some (.file (tools.dump (setupConfig root name mods))) else s.1 l) ∧
      ((finishD m tools root name mods s).2.1 l = s'.1 l ∨
        (l = target m.cwd (joinPath root name) ∧ (finishD m tools root name mods s).1 = .ok true ∧
          ∃ f : Frame F, (finishD m tools root name mods s).2.1 l = some (.file (csvText f)))) := by
  have s1 := Does.userDir (m := m) (typed := fun _ => False) (lines := lines)
    (own := (· = userPlace m home)) hh rfl s hd ht hx
  rw [finish_eq, script_bind]
  cases e1 : userDirD m s with
  | mk r1 t1 =>
  rw [e1] at s1
  obtain ⟨a1, a2, a3, a4, a5⟩ := s1
  have hl1 : t1.1 l = s.1 l := by
    rcases a3 l with e | e | e
    · exact e
    · exact absurd e hu
    · exact e.1.elim
  cases r1 with
  | error e => exact .inl ⟨⟨e, rfl⟩, hl1⟩
  | ok dir =>
  have hdir := a5 dir rfl
  subst hdir
  simp only
  rw [script_bind]
  have hw : writeMade m (configFile (joinPath (joinPath home ".config") "dispersion"))
      (.ok (tools.dump (setupConfig root name mods))) t1
      = onDisk (fun d => m.write d (configFile (joinPath (joinPath home ".config") "dispersion"))
        (tools.dump (setupConfig root name mods))) t1 := rfl
  have hdoes := write_does (m := m) (own := fun _ => True) (typed := fun _ => False) a1
    (p := configFile (joinPath (joinPath home ".config") "dispersion"))
    (text := tools.dump (setupConfig root name mods)) trivial
  rw [hw]
  unfold onDisk
  simp only
  rcases write_cases (m := m) t1.1 (configFile (joinPath (joinPath home ".config") "dispersion"))
    (tools.dump (setupConfig root name mods)) with e | ⟨e', e⟩
  · rw [e] at hdoes ⊢
    obtain ⟨c1, -, c3⟩ := hdoes
    simp only at c1 c3 ⊢
    rw [target_config] at c1 c3 ⊢
    generalize hs' : (t1.1.put (userPlace m home ++ ["config.yaml".toList])
      (.file (tools.dump (setupConfig root name mods)))) = d2 at c1 c3 ⊢
    have hput : d2 l = (if l = configPlace m home then
        some (.file (tools.dump (setupConfig root name mods))) else s.1 l) := by
      rw [← hs', ← hl1]
      rfl
    have htemp : d2 m.temp = some .dir := c3.1 _ (a4.1 _ ht)
    have := closing_outcome hm (tools := tools) (root := root) hname mods (s := (d2, t1.2)) c1 htemp
      hl
    exact .inr ⟨(d2, t1.2), rfl, hput, this⟩
  · rw [e]
    exact .inl ⟨⟨e', rfl⟩, hl1⟩

/-- The script up to the point where the configuration is written. -/
def opening (m : Machine) (tools : Tools F) : Script (String × String × List (String × Bool)) := do
  let dir ← userDirD m
  let path ← untilS (fun x d => (isAbs x, d)) (plainScalar dir)
  let name ← untilS (fun x d => m.validFileName d x) "catalogue.csv"
  let modules ← installModulesD m tools path ["UserData", "RefractiveIndexInfo"]
  pure (path, name, modules)

theorem script_assoc {α β γ : Type} (x : Script α) (f : α → Script β) (g : β → Script γ) :
    (x >>= f) >>= g = x >>= fun a => f a >>= g := by
  funext s
  rw [script_bind, script_bind, script_bind]
  cases x s with
  | mk r t => cases r <;> rfl

theorem run_eq (tools : Tools F) :
    setupRun m tools = opening m tools >>= fun p => finishD m tools p.1 p.2.1 p.2.2 >>= fun b =>
      (pure { path := p.1, name := p.2.1, modules := p.2.2, rebuilt := b } : Script SetupDone) := by
  unfold opening
  rw [script_assoc]
  simp only [script_assoc]
  rfl

theorem opening_does (hm : TempLaw m) {tools : Tools F} (hg : GitLaw m tools.clone) {home : String}
    (hh : m.home = some home) (lines : List String) :
    Does m (fun l => l = userPlace m home ∨ ∃ root, RootLine home lines root ∧ ModulePlace m root l)
      (Typed m lines) lines (opening m tools)
      (fun p => RootLine home lines p.1 ∧ NameLine lines p.2.1) := by
  unfold opening
  refine (Does.userDir hh (.inl rfl)).bind fun dir hdir => ?_
  subst hdir
  refine (Does.until checks_root).bind fun root hroot => ?_
  refine (Does.until (checks_name hm)).bind fun name hname => ?_
  refine (installModules_does hg root (fun l h => .inr ⟨root, hroot, h⟩)).bind fun mods _ => ?_
  exact Does.pure ⟨hroot, hname⟩

/-- C138, the configuration: a run that ends early leaves the configuration file as it was, or
holding the complete new configuration; a run that ends normally leaves the configuration that it
reports. (The names typed must be apart from the configuration file: no check of a name with
slashes made it, no module folder is or holds it, and the catalogue is not saved over it.) -/
theorem C138_config (hm : TempLaw m) {tools : Tools F} (hg : GitLaw m tools.clone) {home : String}
    (hh : m.home = some home) {d : Disk} (hd : DiskTree d) (ht : d m.temp = some .dir)
    (lines : List String) (hty : ¬ Typed m lines (configPlace m home))
    (hmod : ∀ root, RootLine home lines root → ¬ ModulePlace m root (configPlace m home))
    (hcat : ∀ root name, RootLine home lines root → NameLine lines name →
      target m.cwd (joinPath root name) ≠ configPlace m home) :
    ((∃ e, (setupRun m tools (d, lines)).1 = .error e) ∧
      (setupRun m tools (d, lines)).2.1 (configPlace m home) = d (configPlace m home)) ∨
    ∃ root name mods, RootLine home lines root ∧ NameLine lines name ∧
      (setupRun m tools (d, lines)).2.1 (configPlace m home)
        = some (.file (tools.dump (setupConfig root name mods))) ∧
      ∀ r, (setupRun m tools (d, lines)).1 = .ok r →
        r.path = root ∧ r.name = name ∧ r.modules = mods := by
  have hu : configPlace m home ≠ userPlace m home := by
    intro e
    have := congrArg List.length e
    simp [configPlace] at this
  obtain ⟨a1, a2, a3, a4, a5⟩ := opening_does (m := m) hm hg hh lines (d, lines) hd ht
    (fun _ h => h)
  rw [run_eq, script_bind]
  cases e1 : opening m tools (d, lines) with
  | mk r1 t1 =>
  rw [e1] at a1 a2 a3 a4 a5
  have hl1 : t1.1 (configPlace m home) = d (configPlace m home) := by
    rcases a3 (configPlace m home) with e | e | e
    · exact e
    · rcases e with e | ⟨root, h1, h2⟩
      · exact absurd e hu
      · exact absurd h2 (hmod root h1)
    · exact absurd e.1 hty
  cases r1 with
  | error e => exact .inl ⟨⟨e, rfl⟩, hl1⟩
  | ok p =>
  obtain ⟨root, name, mods⟩ := p
  obtain ⟨hroot, hname⟩ := a5 _ rfl
  simp only at hroot hname ⊢
  have hf := finish_outcome hm (tools := tools) (root := root) hh hname mods a1 (a4.1 _ ht) a2
    hty hu
  rw [script_bind]
  cases e2 : finishD m tools root name mods t1 with
  | mk r2 t2 =>
  rw [e2] at hf
  rcases hf with ⟨⟨e, he⟩, h⟩ | ⟨s', -, h2, h3⟩
  · left
    simp only at he
    subst he
    exact ⟨⟨e, rfl⟩, h.trans hl1⟩
  · right
    rcases h3 with h3 | ⟨h3, -⟩
    · rw [if_pos rfl] at h2
      refine ⟨root, name, mods, hroot, hname, ?_, ?_⟩
      · cases r2 <;> exact h3.trans h2
      · intro r hr
        cases r2 with
        | error e => cases hr
        | ok b =>
          have := Except.ok.inj hr
          subst this
          exact ⟨rfl, rfl, rfl⟩
    · exact absurd h3.symm (hcat root name hroot hname)

/-- C138, other files, a catalogue among them: a file that is no folder of a module or in one, not
the configuration, and not made by the check of a typed name, is as before, or the run ended
normally, rebuilt the catalogue, and this is the catalogue file, complete. -/
theorem C138_catalogue (hm : TempLaw m) {tools : Tools F} (hg : GitLaw m tools.clone)
    {home : String} (hh : m.home = some home) {d : Disk} (hd : DiskTree d)
    (ht : d m.temp = some .dir) (lines : List String) {l : Loc} (hty : ¬ Typed m lines l)
    (hmod : ∀ root, RootLine home lines root → ¬ ModulePlace m root l)
    (hu : l ≠ userPlace m home) (hc : l ≠ configPlace m home) :
    (setupRun m tools (d, lines)).2.1 l = d l ∨
    ∃ r, (setupRun m tools (d, lines)).1 = .ok r ∧ r.rebuilt = true ∧
      l = target m.cwd (joinPath r.path r.name) ∧
      ∃ f : Frame F, (setupRun m tools (d, lines)).2.1 l = some (.file (csvText f)) := by
  obtain ⟨a1, a2, a3, a4, a5⟩ := opening_does (m := m) hm hg hh lines (d, lines) hd ht
    (fun _ h => h)
  rw [run_eq, script_bind]
  cases e1 : opening m tools (d, lines) with
  | mk r1 t1 =>
  rw [e1] at a1 a2 a3 a4 a5
  have hl1 : t1.1 l = d l := by
    rcases a3 l with e | e | e
    · exact e
    · rcases e with e | ⟨root, h1, h2⟩
      · exact absurd e hu
      · exact absurd h2 (hmod root h1)
    · exact absurd e.1 hty
  cases r1 with
  | error e => exact .inl hl1
  | ok p =>
  obtain ⟨root, name, mods⟩ := p
  obtain ⟨hroot, hname⟩ := a5 _ rfl
  simp only at hroot hname ⊢
  have hf := finish_outcome hm (tools := tools) (root := root) hh hname mods a1 (a4.1 _ ht) a2
    hty hu
  rw [script_bind]
  cases e2 : finishD m tools root name mods t1 with
  | mk r2 t2 =>
  rw [e2] at hf
  rcases hf with ⟨⟨e, he⟩, h⟩ | ⟨s', -, h2, h3⟩
  · left
    simp only at he
    subst he
    exact h.trans hl1
  · rw [if_neg hc] at h2
    rcases h3 with h3 | ⟨h3, h4, f, h5⟩
    · left
      cases r2 <;> exact (h3.trans h2).trans hl1
    · right
      simp only at h4
      subst h4
      exact ⟨_, rfl, rfl, h3, f, h5⟩

end Disp

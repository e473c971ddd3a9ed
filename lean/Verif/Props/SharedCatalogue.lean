import Verif.Model.Shared
import Verif.Props.Sessions
import Verif.Props.CatalogueCorrected
import Verif.Props.ConfigValid
/-!
# Several Catalogue objects with one file (C115, C116)
-/

namespace Disp

open Spec

variable {F : Type} [PyFloat F] [SciPy F] [NumText F] [CsvIO F] {ι : Type} [DecidableEq ι]

/-! ## Objects do not see each other -/

/-- The calls that one object gets. -/
def Spec.callsOf (i : ι) : List (Event ι F) → List (CatCall F)
  | [] => []
  | .opens _ :: es => callsOf i es
  | .call j c :: es => if j = i then c :: callsOf i es else callsOf i es

theorem step_other (P : Place F) (w : World ι F) (e : Event ι F) (i : ι)
    (h : e ≠ .opens i ∧ ∀ c, e ≠ .call i c) : (w.step P e).objs i = w.objs i := by
  cases e with
  | opens j =>
    have hj : i ≠ j := fun e => h.1 (by rw [e])
    unfold World.step
    simp only
    split
    · exact Function.update_of_ne hj _ _
    · rfl
  | call j c =>
    have hj : i ≠ j := fun e => h.2 c (by rw [e])
    unfold World.step
    simp only
    split
    · rfl
    · exact Function.update_of_ne hj _ _

/-- The file plays no role in what a call does to the object. -/
theorem step_forget (rd : String → Res (FileDict F)) (base : String) (s : CatState F)
    (x : Option (List Char)) (c : CatCall F) :
    (({ s with file := x } : CatState F).step rd base c).2.db = (s.step rd base c).2.db ∧
    (({ s with file := x } : CatState F).step rd base c).2.grid = (s.step rd base c).2.grid ∧
    (({ s with file := x } : CatState F).step rd base c).2.interactive =
      (s.step rd base c).2.interactive ∧
    (({ s with file := x } : CatState F).step rd base c).1 = (s.step rd base c).1 := by
  cases c with
  | registerAlias id al => simp only [CatState.step]; split <;> simp
  | getMaterial id => simp only [CatState.step]; split <;> simp
  | getDatabase => simp [CatState.step]
  | setDatabase f => simp [CatState.step]
  | viewInteractive => simp only [CatState.step, CatState.show]; split <;> simp
  | editInteractive => simp only [CatState.step, CatState.show]; split <;> simp
  | act a => simp only [CatState.step]; split <;> simp
  | saveInteractive =>
    simp only [CatState.step]
    split
    · split <;> simp
    · simp
  | saveToFile => simp [CatState.step]

/-- Two states of an object that differ at most in the file. -/
def SameObject (s s' : CatState F) : Prop :=
  s'.db = s.db ∧ s'.grid = s.grid ∧ s'.interactive = s.interactive

theorem SameObject.step {s s' : CatState F} (h : SameObject s s') (rd : String → Res (FileDict F))
    (base : String) (c : CatCall F) :
    SameObject (s.step rd base c).2 (s'.step rd base c).2 := by
  obtain ⟨h1, h2, h3⟩ := h
  have e : s' = { s with file := s'.file } := by
    cases s; cases s'; simp only at h1 h2 h3; subst h1 h2 h3; rfl
  rw [e]
  obtain ⟨a1, a2, a3, -⟩ := step_forget rd base s s'.file c
  exact ⟨a1, a2, a3⟩

/-- C116, isolation: after any interleaving, an object shows what it would show if it had been alone
since its construction. -/
theorem C116_isolated (P : Place F) (w : World ι F) (i : ι) (s : CatState F)
    (hs : w.objs i = some s) (es : List (Event ι F)) (h : .opens i ∉ es) :
    ∃ s', (w.after P es).objs i = some s' ∧
      s'.db = (s.after P.read P.base (callsOf i es)).db ∧
      s'.grid = (s.after P.read P.base (callsOf i es)).grid := by
  suffices ∀ (es : List (Event ι F)) (w : World ι F) (s t : CatState F), .opens i ∉ es →
      w.objs i = some t → SameObject s t → ∃ s', (w.after P es).objs i = some s' ∧
        SameObject (s.after P.read P.base (callsOf i es)) s' by
    obtain ⟨s', h1, h2, h3, -⟩ := this es w s s h hs ⟨rfl, rfl, rfl⟩
    exact ⟨s', h1, h2, h3⟩
  intro es
  induction es with
  | nil => intro w s t _ ht hst; exact ⟨t, ht, hst⟩
  | cons e es ih =>
    intro w s t hn ht hst
    simp only [List.mem_cons, not_or] at hn
    cases e with
    | opens j =>
      have hj : j ≠ i := fun e => hn.1 (by rw [e])
      refine ih (w.step P (.opens j)) s t hn.2 ?_ hst
      rw [step_other P w _ i ⟨fun e => hn.1 e.symm, fun c => by simp⟩]
      exact ht
    | call j c =>
      by_cases hj : j = i
      · subst hj
        have hst' : SameObject s ({ t with file := w.file } : CatState F) := hst
        have hc : callsOf j (.call j c :: es) = c :: callsOf j es := by simp [callsOf]
        rw [hc]
        refine ih (w.step P (.call j c)) (s.step P.read P.base c).2
          (({ t with file := w.file } : CatState F).step P.read P.base c).2 hn.2 ?_
          (hst'.step P.read P.base c)
        unfold World.step
        simp only [ht]
        exact Function.update_self _ _ _
      · have hc : callsOf i (.call j c :: es) = callsOf i es := by simp [callsOf, hj]
        rw [hc]
        refine ih (w.step P (.call j c)) s t hn.2 ?_ hst
        rw [step_other P w _ i ⟨by simp, fun c' e => hj (by cases e; rfl)⟩]
        exact ht

theorem step_keeps_file (P : Place F) (w : World ι F) (e : Event ι F)
    (h : ∀ j, e ≠ .call j .saveToFile) : (w.step P e).file = w.file := by
  cases e with
  | opens j => unfold World.step; simp only; split <;> rfl
  | call j c =>
    unfold World.step
    simp only
    split
    · rfl
    · rename_i s _
      exact step_file P.read P.base { s with file := w.file } c (fun e => h j (by rw [e]))

theorem after_keeps_file (P : Place F) (w : World ι F) (es : List (Event ι F))
    (h : ∀ j, .call j .saveToFile ∉ es) : (w.after P es).file = w.file := by
  induction es generalizing w with
  | nil => rfl
  | cons e es ih =>
    have h1 : ∀ j, e ≠ .call j .saveToFile := fun j he => h j (by rw [he]; exact List.mem_cons_self)
    have h2 : ∀ j, .call j .saveToFile ∉ es := fun j he => h j (List.mem_cons_of_mem _ he)
    exact (ih (w.step P e) h2).trans (step_keeps_file P w e h1)

theorem world_append (P : Place F) (w : World ι F) (es fs : List (Event ι F)) :
    w.after P (es ++ fs) = (w.after P es).after P fs := by
  simp [World.after, List.foldl_append]

/-- C116, the file: after any interleaving it holds the table of the object that saved last, and
this is the table that this object would have had if it had been alone. -/
theorem C116_last_save (P : Place F) (w : World ι F) (i : ι) (s : CatState F)
    (hs : w.objs i = some s) (es fs : List (Event ι F)) (h : .opens i ∉ es)
    (hf : ∀ j, .call j .saveToFile ∉ fs) :
    (w.after P (es ++ .call i .saveToFile :: fs)).file =
      some (csvText (s.after P.read P.base (callsOf i es)).db) := by
  obtain ⟨s', h1, h2, -⟩ := C116_isolated P w i s hs es h
  rw [world_append]
  show (((w.after P es).step P (.call i .saveToFile)).after P fs).file = _
  rw [after_keeps_file P _ fs hf]
  unfold World.step
  simp only [h1, CatState.step, h2]

/-! ## Naming materials in several sessions -/

namespace Spec

/-- What a session does: it opens the catalogue, gives the alias `a` to row `n`, asks for a material,
or saves. -/
inductive Deed (ι : Type)
  | opens (i : ι)
  | names (i : ι) (n : Nat) (a : String)
  | asks (i : ι) (id : Identifier)
  | saves (i : ι)

/-- The calls of a session. -/
def Deed.event {F : Type} : Deed ι → Event ι F
  | .opens i => .opens i
  | .names i n a => .call i (.registerAlias (.int n) a)
  | .asks i id => .call i (.getMaterial id)
  | .saves i => .call i .saveToFile

/-- The aliases in the file, and those in the memory of each session. -/
structure Notes (ι : Type) where
  file : List String
  objs : ι → Option (List String)

/-- What should happen to them. -/
def Notes.step (A : Notes ι) : Deed ι → Notes ι
  | .opens i => { A with objs := Function.update A.objs i (some A.file) }
  | .names i n a =>
    { A with objs := Function.update A.objs i ((A.objs i).map fun as => assign as (n, a)) }
  | .asks _ _ => A
  | .saves i => { A with file := (A.objs i).getD A.file }

def Notes.after (A : Notes ι) (ds : List (Deed ι)) : Notes ι := ds.foldl Notes.step A

/-- A row that leads to the same material and can be stored. -/
structure Keeps (r r' : Row F) : Prop where
  path : r'.path = r.path
  modl : r'.modl = r.modl
  stype : r'.stype = r.stype
  unit : r'.unit = r.unit
  stored : Storable r'

/-- The table `f` has the rows `rows`, numbered, with the aliases `as`. -/
def Holds (rows : List (Row F)) (as : List String) (f : Frame F) : Prop :=
  ∃ rows', List.Forall₂ Keeps rows rows' ∧ f = numbered (withAliases rows' as)

/-- The world is as the notes say. -/
structure Matches (rows : List (Row F)) (A : Notes ι) (w : World ι F) : Prop where
  size : A.file.length = rows.length
  sizes : ∀ i as, A.objs i = some as → as.length = rows.length
  safe : ∀ a ∈ A.file, CsvSafe (CsvIO.quotesCr F) a.toList
  safes : ∀ i as, A.objs i = some as → ∀ a ∈ as, CsvSafe (CsvIO.quotesCr F) a.toList
  file : ∃ f, Holds rows A.file f ∧ w.file = some (csvText f)
  absent : ∀ i, A.objs i = none → w.objs i = none
  obj : ∀ i as, A.objs i = some as → ∃ s, w.objs i = some s ∧ Holds rows as s.db

/-- The configuration is valid and its catalogue file is the shared one. -/
def Configured (P : Place F) : Prop :=
  validateConfig P.sys P.config = .ok () ∧
  ∃ cc ref, CatConfig.ofYaml P.config = .ok cc ∧
    Spectrum.new (.float cc.value) cc.stype cc.unit = .ok ref ∧ P.path = joinPath cc.path cc.file

/-- Numbers are not read back as NaN. -/
def NumbersStay (F : Type) [PyFloat F] [CsvIO F] : Prop :=
  ∀ x y : F, PyFloat.isNaN x = false → CsvIO.parse (CsvIO.num x) = .ok y → PyFloat.isNaN y = false

/-- A deed of the sessions considered: rows exist, aliases can be stored in a file. -/
def Deed.Fine (F : Type) [CsvIO F] (rows : List (Row F)) : Deed ι → Prop
  | .names _ n a => n < rows.length ∧ CsvSafe (CsvIO.quotesCr F) a.toList
  | _ => True

end Spec

theorem storable_reload (hn : NumbersStay F) {r r' : Row F} (h : Spec.Storable r)
    (hs : SameRow r r') : Spec.Storable r' := by
  obtain ⟨x, hx⟩ := h.nRef
  obtain ⟨y, hy⟩ := h.kRef
  obtain ⟨x', hx', -⟩ := hs.nRef x hx
  obtain ⟨y', hy', -⟩ := hs.kRef y hy
  exact ⟨hs.al ▸ h.al, hs.name ▸ h.name, hs.fullName ▸ h.fullName, hs.author ▸ h.author,
    hs.comment ▸ h.comment, hs.reference ▸ h.reference, hs.stype ▸ h.stype, hs.unit ▸ h.unit,
    hn _ _ h.lower hs.lower, hn _ _ h.upper hs.upper, ⟨x', hx'⟩, ⟨y', hy'⟩, hs.path ▸ h.path,
    hs.modl ▸ h.modl⟩

theorem storable_named {r : Row F} (h : Spec.Storable r) {a : String}
    (ha : CsvSafe (CsvIO.quotesCr F) a.toList) : Spec.Storable { r with al := .str a } :=
  { h with al := ⟨a, rfl, ha⟩ }

theorem withAliases_storable {rows rows' : List (Row F)} (hk : List.Forall₂ Keeps rows rows')
    {as : List String} (hsafe : ∀ a ∈ as, CsvSafe (CsvIO.quotesCr F) a.toList) :
    ∀ r ∈ withAliases rows' as, Spec.Storable r := by
  induction hk generalizing as with
  | nil => intro r hr; simp [withAliases] at hr
  | cons h _ ih =>
    cases as with
    | nil => intro r hr; simp [withAliases] at hr
    | cons a as =>
      intro r hr
      simp only [withAliases, List.zipWith_cons_cons, List.mem_cons] at hr
      rcases hr with rfl | hr
      · exact storable_named h.stored (hsafe a (by simp))
      · exact ih (fun b hb => hsafe b (by simp [hb])) r hr

theorem keeps_reload (hn : NumbersStay F) {rows rows' : List (Row F)}
    (hk : List.Forall₂ Keeps rows rows') {as : List String} (hl : as.length = rows.length)
    (hsafe : ∀ a ∈ as, CsvSafe (CsvIO.quotesCr F) a.toList) {rows₂ : List (Row F)}
    (h : List.Forall₂ SameRow (withAliases rows' as) rows₂) :
    List.Forall₂ Keeps rows rows₂ ∧ withAliases rows₂ as = rows₂ := by
  induction hk generalizing as rows₂ with
  | nil =>
    simp only [withAliases, List.zipWith_nil_left] at h
    cases h
    exact ⟨.nil, by simp [withAliases]⟩
  | cons hr _ ih =>
    cases as with
    | nil => simp at hl
    | cons a as =>
      simp only [withAliases, List.zipWith_cons_cons] at h
      cases h with
      | cons h1 h2 =>
        obtain ⟨i1, i2⟩ := ih (by simpa using hl) (fun b hb => hsafe b (by simp [hb])) h2
        refine ⟨.cons ⟨h1.path.trans hr.path, h1.modl.trans hr.modl, h1.stype.trans hr.stype,
          h1.unit.trans hr.unit, storable_reload hn
            (storable_named hr.stored (hsafe a (by simp))) h1⟩ i1, ?_⟩
        rw [withAliases, List.zipWith_cons_cons]
        congr 1
        rw [← show _ = (Cell.str a) from h1.al]

/-- What loading a saved table gives. -/
theorem holds_reload [CsvLaws F] (hn : NumbersStay F) {rows : List (Row F)} {as : List String}
    {f : Frame F} (hl : as.length = rows.length)
    (hsafe : ∀ a ∈ as, CsvSafe (CsvIO.quotesCr F) a.toList) (h : Holds rows as f) :
    ∃ g : Frame F, loadCsv (csvText f) = some (.ok g) ∧ Holds rows as g := by
  obtain ⟨rows', hk, rfl⟩ := h
  have hst : ∀ p ∈ numbered (withAliases rows' as), Spec.Storable p.2 := by
    intro p hp
    refine withAliases_storable hk hsafe p.2 ?_
    rw [← numbered_snd (withAliases rows' as)]
    exact List.mem_map_of_mem hp
  obtain ⟨g, hg, h1, h2⟩ := C62_roundtrip_partial _ hst
  rw [numbered_snd] at h2
  obtain ⟨k1, k2⟩ := keeps_reload hn hk hl hsafe h2
  refine ⟨g, hg, g.map Prod.snd, k1, ?_⟩
  rw [k2]
  have hlen : g.length = (numbered (withAliases rows' as)).length := by
    have := congrArg List.length h1
    simpa using this
  have h3 : g.map Prod.fst = (numbered (g.map Prod.snd)).map Prod.fst := by
    rw [h1, numbered_fst, List.length_map, ← hlen]
  have h4 : g.map Prod.snd = (numbered (g.map Prod.snd)).map Prod.snd := by rw [numbered_snd]
  clear hg h1 h2 k1 k2 hst hlen
  generalize numbered (g.map Prod.snd) = g' at h3 h4
  induction g generalizing g' with
  | nil => cases g' with
    | nil => rfl
    | cons q g' => simp at h3
  | cons p g ih => cases g' with
    | nil => simp at h3
    | cons q g' =>
      simp only [List.map_cons, List.cons.injEq] at h3 h4
      rw [ih g' h3.2 h4.2, Prod.ext h3.1 h4.1]

/-- A new object shows what is in the file. -/
theorem fresh_file [CsvLaws F] (hn : NumbersStay F) {P : Place F} (hP : Configured P)
    {rows : List (Row F)} {A : Notes ι} {w : World ι F} (h : Matches rows A w) :
    ∃ g : Frame F, w.fresh P = some (.ok g) ∧ Holds rows A.file g := by
  obtain ⟨hv, cc, ref, hc, hr, hp⟩ := hP
  obtain ⟨f, hf, hw⟩ := h.file
  obtain ⟨g, hg, hh⟩ := holds_reload hn h.size h.safe hf
  refine ⟨g, ?_, hh⟩
  rw [World.fresh, open_stored P.sys P.files (w.csv P) P.config cc ref (csvText f) hv hc hr
    (by rw [World.csv, if_pos hp.symm, hw]), hg]

theorem assign_safe {as : List String} {n : Nat} {a : String} {Q : String → Prop}
    (h : ∀ b ∈ as, Q b) (ha : Q a) : ∀ b ∈ assign as (n, a), Q b := by
  unfold assign
  split
  · exact h
  · intro b hb
    rcases List.mem_or_eq_of_mem_set hb with hb | rfl
    · exact h b hb
    · exact ha

theorem holds_names {rows : List (Row F)} {as : List String} {f : Frame F}
    (hl : as.length = rows.length) (h : Holds rows as f) {n : Nat} (hn : n < rows.length)
    (a : String) : Holds rows (assign as (n, a)) (afterCall f (.int n, a)) := by
  obtain ⟨rows', hk, rfl⟩ := h
  refine ⟨rows', hk, ?_⟩
  have := afterCalls_assign rows' (hl.trans hk.length_eq) [(n, a)] (by
    intro c hc
    rw [List.mem_singleton] at hc
    rw [hc, ← hk.length_eq]
    exact hn)
  simpa [afterCalls, assignAll] using this

/-- One deed. -/
theorem matches_step [CsvLaws F] (hn : NumbersStay F) {P : Place F} (hP : Configured P)
    {rows : List (Row F)} {A : Notes ι} {w : World ι F} (h : Matches rows A w) {d : Deed ι}
    (hd : d.Fine F rows) : Matches rows (A.step d) (w.step P d.event) := by
  cases d with
  | opens i =>
    obtain ⟨g, hg, hh⟩ := fresh_file hn hP h
    simp only [Deed.event, Notes.step, World.step, hg]
    refine ⟨h.size, ?_, h.safe, ?_, h.file, ?_, ?_⟩
    · intro j as hj
      simp only [Function.update_apply] at hj
      split at hj
      · cases hj; exact h.size
      · exact h.sizes j as hj
    · intro j as hj
      simp only [Function.update_apply] at hj
      split at hj
      · cases hj; exact h.safe
      · exact h.safes j as hj
    · intro j hj
      simp only [Function.update_apply] at hj ⊢
      split at hj
      · cases hj
      · rw [if_neg (by assumption)]; exact h.absent j hj
    · intro j as hj
      simp only [Function.update_apply] at hj ⊢
      split at hj
      · cases hj
        rw [if_pos (by assumption)]
        exact ⟨_, rfl, hh⟩
      · rw [if_neg (by assumption)]; exact h.obj j as hj
  | names i n a =>
    cases ha : A.objs i with
    | none =>
      have e : A.step (.names i n a) = A := by
        simp only [Notes.step, ha, Option.map_none]
        rw [← ha, Function.update_eq_self]
      have e2 : w.step P (Deed.event (.names i n a)) = w := by
        simp only [Deed.event, World.step, h.absent i ha]
      rw [e, e2]; exact h
    | some as =>
      obtain ⟨s, hs, hh⟩ := h.obj i as ha
      have hl := h.sizes i as ha
      have hdb : (({ s with file := w.file } : CatState F).step P.read P.base
          (.registerAlias (.int n) a)).2.db = afterCall s.db (.int n, a) := by
        simp only [CatState.step, afterCall]
        split <;> rename_i hx <;> simp [hx]
      have hfile : (({ s with file := w.file } : CatState F).step P.read P.base
          (.registerAlias (.int n) a)).2.file = w.file :=
        step_file _ _ _ _ (by simp)
      simp only [Deed.event, Notes.step, World.step, hs, ha, Option.map_some]
      generalize ({ s with file := w.file } : CatState F).step P.read P.base
          (.registerAlias (.int n) a) = x at hdb hfile
      refine ⟨h.size, ?_, h.safe, ?_, ?_, ?_, ?_⟩
      · intro j bs hj
        simp only [Function.update_apply] at hj
        split at hj
        · cases hj; exact (assign_length _ _).trans hl
        · exact h.sizes j bs hj
      · intro j bs hj
        simp only [Function.update_apply] at hj
        split at hj
        · cases hj; exact assign_safe (h.safes i as ha) hd.2
        · exact h.safes j bs hj
      · rw [hfile]; exact h.file
      · intro j hj
        simp only [Function.update_apply] at hj ⊢
        split at hj
        · cases hj
        · rw [if_neg (by assumption)]; exact h.absent j hj
      · intro j bs hj
        simp only [Function.update_apply] at hj ⊢
        split at hj
        · cases hj
          rw [if_pos (by assumption)]
          exact ⟨_, rfl, by rw [hdb]; exact holds_names hl hh hd.1 a⟩
        · rw [if_neg (by assumption)]; exact h.obj j bs hj
  | asks i id =>
    show Matches rows A _
    cases hs : w.objs i with
    | none =>
      have e2 : w.step P (Deed.event (.asks i id)) = w := by
        simp only [Deed.event, World.step, hs]
      rw [e2]; exact h
    | some s =>
      have e : (({ s with file := w.file } : CatState F).step P.read P.base (.getMaterial id)).2 =
          { s with file := w.file } := by
        simp only [CatState.step]; split <;> rfl
      simp only [Deed.event, World.step, hs, e]
      refine ⟨h.size, h.sizes, h.safe, h.safes, h.file, ?_, ?_⟩
      · intro j hj
        have := h.absent j hj
        simp only [Function.update_apply]
        rw [if_neg (by rintro rfl; rw [hs] at this; cases this)]
        exact this
      · intro j as hj
        obtain ⟨t, ht, hh⟩ := h.obj j as hj
        simp only [Function.update_apply]
        split
        · rename_i hji
          subst hji
          rw [hs] at ht
          cases ht
          exact ⟨_, rfl, hh⟩
        · exact ⟨t, ht, hh⟩
  | saves i =>
    cases ha : A.objs i with
    | none =>
      have e : A.step (.saves i) = A := by simp [Notes.step, ha]
      have e2 : w.step P (Deed.event (.saves i)) = w := by
        simp only [Deed.event, World.step, h.absent i ha]
      rw [e, e2]; exact h
    | some as =>
      obtain ⟨s, hs, hh⟩ := h.obj i as ha
      simp only [Deed.event, Notes.step, World.step, hs, ha, CatState.step, Option.getD_some]
      refine ⟨h.sizes i as ha, h.sizes, h.safes i as ha, h.safes, ⟨_, hh, rfl⟩, ?_, ?_⟩
      · intro j hj
        have := h.absent j hj
        simp only [Function.update_apply]
        rw [if_neg (by rintro rfl; rw [hs] at this; cases this)]
        exact this
      · intro j bs hj
        obtain ⟨t, ht, hh'⟩ := h.obj j bs hj
        simp only [Function.update_apply]
        split
        · rename_i hji
          subst hji
          rw [hs] at ht
          cases ht
          exact ⟨_, rfl, hh'⟩
        · exact ⟨t, ht, hh'⟩

/-- The world follows the notes through every interleaving of sessions. -/
theorem matches_after [CsvLaws F] (hn : NumbersStay F) {P : Place F} (hP : Configured P)
    {rows : List (Row F)} (ds : List (Deed ι)) (hd : ∀ d ∈ ds, d.Fine F rows) {A : Notes ι}
    {w : World ι F} (h : Matches rows A w) :
    Matches rows (A.after ds) (w.after P (ds.map Deed.event)) := by
  induction ds generalizing A w with
  | nil => exact h
  | cons d ds ih =>
    exact ih (fun e he => hd e (List.mem_cons_of_mem _ he))
      (matches_step hn hP h (hd d List.mem_cons_self))

namespace Spec

/-- No alias is used twice. -/
def DistinctNames (as : List String) : Prop :=
  ∀ i j : Nat, ∀ a, a ≠ "" → as[i]? = some a → as[j]? = some a → i = j

/-- In the beginning there is a saved table with the rows `rows` and the aliases `as`, and no
object. -/
structure Begins (rows : List (Row F)) (as : List String) (w : World ι F) : Prop where
  size : as.length = rows.length
  safe : ∀ a ∈ as, CsvSafe (CsvIO.quotesCr F) a.toList
  distinct : DistinctNames as
  stored : ∀ r ∈ rows, Storable r
  file : w.file = some (csvText (numbered (withAliases rows as)))
  objs : ∀ i, w.objs i = none

/-- In the table `f` an alias leads to the material of the row that has it according to `as`. -/
def LeadsTo (P : Place F) (rows : List (Row F)) (as : List String) (f : Frame F) : Prop :=
  ∀ a, a ≠ "" →
    (∀ (i : Nat) (hi : i < rows.length), as[i]? = some a →
      getMaterial P.read P.base f (.str a) = loadRow P.read P.base rows[i]) ∧
    (a ∉ as → getMaterial P.read P.base f (.str a) = .error .value)

end Spec

theorem Spec.Begins.matches {rows : List (Row F)} {as : List String} {w : World ι F}
    (h : Begins rows as w) : Matches rows ⟨as, fun _ => none⟩ w := by
  refine ⟨h.size, by simp, h.safe, by simp, ⟨_, ⟨rows, ?_, rfl⟩, h.file⟩, fun i _ => h.objs i, by simp⟩
  have := h.stored
  clear h
  induction rows with
  | nil => exact .nil
  | cons r rows ih =>
    exact .cons ⟨rfl, rfl, rfl, rfl, this r (by simp)⟩ (ih fun q hq => this q (by simp [hq]))

theorem keeps_load {r r' : Row F} (h : Keeps r r') (rd : String → Res (FileDict F)) (base : String) :
    loadRow rd base r' = loadRow rd base r := by
  simp only [loadRow, h.path, h.modl, h.stype, h.unit]

theorem keeps_get {rows rows' : List (Row F)} (h : List.Forall₂ Keeps rows rows') {i : Nat}
    (hi : i < rows.length) (hi' : i < rows'.length) : Keeps rows[i] rows'[i] := by
  induction h generalizing i with
  | nil => simp at hi
  | cons h _ ih =>
    cases i with
    | zero => exact h
    | succ i => simpa using ih (by simpa using hi) (by simpa using hi')

theorem holds_leads (P : Place F) {rows : List (Row F)} {as : List String} {f : Frame F}
    (hl : as.length = rows.length) (hu : DistinctNames as) (h : Holds rows as f) : LeadsTo P rows as f := by
  obtain ⟨rows', hk, rfl⟩ := h
  obtain ⟨bs, h1, h2, -, -, h5, h6⟩ := C77_aliases P.read P.base rows' (hl.trans hk.length_eq) hu []
    (by simp)
  have : bs = as := h2
  subst this
  intro a ha
  refine ⟨fun i hi hia => ?_, fun hna => h6 a ha hna⟩
  have hi' : i < rows'.length := by rw [← hk.length_eq]; exact hi
  rw [h5 a ha i hi' hia]
  exact keeps_load (keeps_get hk hi hi') _ _

/-- The lists of aliases stay free of repetitions. -/
theorem distinct_after {A : Notes ι} (hf : DistinctNames A.file)
    (ho : ∀ i as, A.objs i = some as → DistinctNames as) (ds : List (Deed ι)) :
    DistinctNames (A.after ds).file ∧ ∀ i as, (A.after ds).objs i = some as → DistinctNames as := by
  induction ds generalizing A with
  | nil => exact ⟨hf, ho⟩
  | cons d ds ih =>
    show DistinctNames ((A.step d).after ds).file ∧ ∀ i as, ((A.step d).after ds).objs i = some as →
      DistinctNames as
    apply ih
    · cases d with
      | opens i => exact hf
      | names i n a => exact hf
      | asks i id => exact hf
      | saves i =>
        simp only [Notes.step]
        cases h : A.objs i with
        | none => exact hf
        | some as => exact ho i as h
    · intro j as hj
      cases d with
      | opens i =>
        simp only [Notes.step, Function.update_apply] at hj
        split at hj
        · cases hj; exact hf
        · exact ho j as hj
      | names i n a =>
        simp only [Notes.step, Function.update_apply] at hj
        split at hj
        · cases h : A.objs i with
          | none => rw [h] at hj; cases hj
          | some bs =>
            rw [h] at hj
            cases hj
            exact assignAll_unique (ho i bs h) [(n, a)]
        · exact ho j as hj
      | asks i id => exact ho j as hj
      | saves i => exact ho j as hj

/-- C116, aliases in all sessions: after any interleaving of sessions, each object, and each object
constructed later, finds materials by the aliases that it should know. -/
theorem C116_sessions [CsvLaws F] (hn : NumbersStay F) {P : Place F} (hP : Configured P)
    {rows : List (Row F)} {as : List String} {w : World ι F} (h : Begins rows as w)
    (ds : List (Deed ι)) (hd : ∀ d ∈ ds, d.Fine F rows) :
    (∃ g, (w.after P (ds.map Deed.event)).fresh P = some (.ok g) ∧
      LeadsTo P rows (Notes.after ⟨as, fun _ => none⟩ ds).file g) ∧
    ∀ i bs, (Notes.after ⟨as, fun _ => none⟩ ds).objs i = some bs →
      ∃ s, (w.after P (ds.map Deed.event)).objs i = some s ∧ LeadsTo P rows bs s.db := by
  have hm := matches_after hn hP ds hd h.matches
  obtain ⟨u1, u2⟩ := distinct_after (A := ⟨as, fun _ : ι => none⟩) h.distinct (by simp) ds
  obtain ⟨g, hg, hh⟩ := fresh_file hn hP hm
  refine ⟨⟨g, hg, holds_leads P hm.size u1 hh⟩, fun i bs hi => ?_⟩
  obtain ⟨s, hs, hh⟩ := hm.obj i bs hi
  exact ⟨s, hs, holds_leads P (hm.sizes i bs hi) (u2 i bs hi) hh⟩

theorem notes_append (A : Notes ι) (ds es : List (Deed ι)) :
    A.after (ds ++ es) = (A.after ds).after es := by
  simp [Notes.after, List.foldl_append]

/-- A session on its own. -/
def Spec.visit (v : ι × List (Nat × String)) : List (Deed ι) :=
  .opens v.1 :: v.2.map (fun c => .names v.1 c.1 c.2) ++ [.saves v.1]

theorem names_many (A : Notes ι) (i : ι) {as : List String} (h : A.objs i = some as)
    (cs : List (Nat × String)) :
    (A.after (cs.map fun c => .names i c.1 c.2)).objs i = some (assignAll as cs) ∧
      (A.after (cs.map fun c => .names i c.1 c.2)).file = A.file := by
  induction cs generalizing A as with
  | nil => exact ⟨h, rfl⟩
  | cons c cs ih =>
    have := ih (A.step (.names i c.1 c.2)) (as := assign as c)
      (by simp [Notes.step, h])
    exact this

/-- What the file should hold after sessions one after the other. -/
theorem notes_turns (A : Notes ι) (vs : List (ι × List (Nat × String))) :
    (A.after (vs.flatMap visit)).file = assignAll A.file (vs.flatMap (·.2)) := by
  induction vs generalizing A with
  | nil => rfl
  | cons v vs ih =>
    rw [List.flatMap_cons, List.flatMap_cons, notes_append, ih, visit, notes_append]
    obtain ⟨h1, -⟩ := names_many (A.step (.opens v.1)) v.1 (as := A.file) (by simp [Notes.step]) v.2
    have e : (A.after (.opens v.1 :: v.2.map fun c => .names v.1 c.1 c.2)) =
        (A.step (.opens v.1)).after (v.2.map fun c => .names v.1 c.1 c.2) := rfl
    rw [e]
    show assignAll (((A.step (.opens v.1)).after (v.2.map fun c => .names v.1 c.1 c.2)).step
      (.saves v.1)).file _ = _
    simp only [Notes.step, h1, Option.getD_some]
    simp only [Notes.step] at h1
    rw [h1]
    simp [assignAll, List.foldl_append]

/-- C116, one session after the other: no alias is lost. A new object finds materials by the aliases
of all sessions together. -/
theorem C116_turns [CsvLaws F] (hn : NumbersStay F) {P : Place F} (hP : Configured P)
    {rows : List (Row F)} {as : List String} {w : World ι F} (h : Begins rows as w)
    (vs : List (ι × List (Nat × String)))
    (hv : ∀ v ∈ vs, ∀ c ∈ v.2, c.1 < rows.length ∧ CsvSafe (CsvIO.quotesCr F) c.2.toList) :
    ∃ g, (w.after P ((vs.flatMap visit).map Deed.event)).fresh P = some (.ok g) ∧
      LeadsTo P rows (assignAll as (vs.flatMap (·.2))) g := by
  have hd : ∀ d ∈ vs.flatMap visit, d.Fine F rows := by
    intro d hd
    obtain ⟨v, hv1, hv2⟩ := List.mem_flatMap.1 hd
    simp only [visit, List.cons_append, List.mem_cons, List.mem_append, List.mem_map,
      List.not_mem_nil, or_false] at hv2
    rcases hv2 with rfl | ⟨c, hc, rfl⟩ | rfl
    · trivial
    · exact hv v hv1 c hc
    · trivial
  obtain ⟨⟨g, hg, hl⟩, -⟩ := C116_sessions hn hP h _ hd
  rw [notes_turns] at hl
  exact ⟨g, hg, hl⟩

/-! ## C115: aliases that were saved -/

/-- The table has a row with the alias `a` for the file of the row `r`. -/
def Spec.Known (a : String) (r : Row F) (f : Frame F) : Prop :=
  ∃ p ∈ f, p.2.al = .str a ∧ p.2.path = r.path ∧ p.2.modl = r.modl

/-- What happens later does not concern row `n` and the alias `a`. -/
def Spec.Deed.Elsewhere (n : Nat) (a : String) : Deed ι → Prop
  | .names _ m b => m ≠ n ∧ b ≠ a
  | _ => True

/-- **C115** as stated: an alias that a session gave to a row and saved is known to every object
constructed later, if no one gives this row another alias or this alias to another row. -/
def C115_statement (F : Type) [PyFloat F] [SciPy F] [NumText F] [CsvIO F] : Prop :=
  ∀ (P : Place F), Configured P → ∀ (rows : List (Row F)) (as : List String) (w : World ℕ F),
    Begins rows as w → ∀ (ds es : List (Deed ℕ)), (∀ d ∈ ds ++ es, d.Fine F rows) →
    ∀ (i n : ℕ) (a : String) (_ : n < rows.length), CsvSafe (CsvIO.quotesCr F) a.toList → a ≠ "" →
    (∃ s f, (w.after P (ds.map Deed.event)).objs i = some s ∧
      registerAlias s.db (.int n) a = .ok f) →
    (∀ d ∈ es, d.Elsewhere n a) →
    ∃ g, (w.after P ((ds ++ .names i n a :: .saves i :: es).map Deed.event)).fresh P = some (.ok g) ∧
      Known a rows[n] g

/-- The alias `a` belongs to row `n` only. -/
def Spec.Owned (n : Nat) (a : String) (as : List String) : Prop :=
  as[n]? = some a ∧ ∀ m, as[m]? = some a → m = n

theorem owned_assign {n m : Nat} {a b : String} {as : List String} (h : Owned n a as)
    (hm : m ≠ n) (hb : b ≠ a) : Owned n a (assign as (m, b)) := by
  unfold assign
  split
  · exact h
  · constructor
    · rw [List.getElem?_set_ne hm]; exact h.1
    · intro k hk
      rw [List.getElem?_set] at hk
      split at hk
      · split at hk
        · cases hk; exact absurd rfl hb
        · cases hk
      · exact h.2 k hk

/-- A registration that does not raise gives the alias to this row only. -/
theorem register_owned (rows : List (Row F)) {as : List String} (h : as.length = rows.length)
    {n : Nat} (hn : n < rows.length) {a : String} (ha : a ≠ "") (hu : DistinctNames as) {f : Frame F}
    (hf : registerAlias (numbered (withAliases rows as)) (.int n) a = .ok f) :
    Owned n a (assign as (n, a)) := by
  have hn' : n < as.length := h ▸ hn
  have hfree : ∀ m, as[m]? = some a → m = n := by
    intro m hm
    have hmem := List.mem_of_getElem? hm
    have hg : (withAliases rows as)[n]? = some { rows[n] with al := .str as[n] } := by
      rw [withAliases_get rows h, List.getElem?_eq_getElem hn, List.getElem?_eq_getElem hn']; rfl
    have hs : sameAlias (numbered (withAliases rows as)) n a = .ok (decide (as[n] = a)) := by
      rw [sameAlias, filter_label _ hg]
      simp
    simp only [registerAlias] at hf
    rw [if_pos ((inUse_with rows h a).2 hmem), hs] at hf
    simp only [bind, Except.bind] at hf
    by_cases he : as[n] = a
    · exact hu m n a ha hm (by rw [List.getElem?_eq_getElem hn', he])
    · rw [if_neg (by simp [he])] at hf
      cases hf
  have hno : a ∉ as.eraseIdx n := by
    intro hm
    obtain ⟨m, hm1, hm2⟩ := List.mem_eraseIdx_iff_getElem?.1 hm
    exact hm1 (hfree m hm2)
  rw [assign, if_neg hno]
  refine ⟨List.getElem?_set_self hn', fun m hm => ?_⟩
  rw [List.getElem?_set] at hm
  split at hm
  · rename_i e; exact e.symm
  · exact hfree m hm

namespace Spec

/-- Those who save have seen the alias: the sessions in `seen`, and all that open the catalogue
later. -/
def SavedBy (seen : List ι) : List (Deed ι) → Prop
  | [] => True
  | .opens i :: ds => SavedBy (i :: seen) ds
  | .saves i :: ds => i ∈ seen ∧ SavedBy seen ds
  | _ :: ds => SavedBy seen ds

end Spec

theorem owned_after {n : Nat} {a : String} (ds : List (Deed ι)) (hel : ∀ d ∈ ds, d.Elsewhere n a)
    (seen : List ι) (hs : SavedBy seen ds) {A : Notes ι} (hf : Owned n a A.file)
    (ho : ∀ i ∈ seen, ∀ as, A.objs i = some as → Owned n a as) : Owned n a (A.after ds).file := by
  induction ds generalizing A seen with
  | nil => exact hf
  | cons d ds ih =>
    have hel' : ∀ d ∈ ds, d.Elsewhere n a := fun e he => hel e (by simp [he])
    show Owned n a ((A.step d).after ds).file
    cases d with
    | opens i =>
      refine ih hel' (i :: seen) hs hf ?_
      intro j hj as hja
      simp only [Notes.step, Function.update_apply] at hja
      split at hja
      · cases hja; exact hf
      · rename_i hji
        exact ho j ((List.mem_cons.1 hj).resolve_left hji) as hja
    | names i m b =>
      obtain ⟨hm, hb⟩ := hel _ List.mem_cons_self
      refine ih hel' seen hs hf ?_
      intro j hj as hja
      simp only [Notes.step, Function.update_apply] at hja
      split at hja
      · rename_i hji
        subst hji
        cases h : A.objs j with
        | none => rw [h] at hja; cases hja
        | some bs =>
          rw [h] at hja
          cases hja
          exact owned_assign (ho j hj bs h) hm hb
      · exact ho j hj as hja
    | asks i id => exact ih hel' seen hs hf ho
    | saves i =>
      refine ih hel' seen hs.2 ?_ ho
      simp only [Notes.step]
      cases h : A.objs i with
      | none => exact hf
      | some as => exact ho i hs.1 as h

/-- **C115**, what is true: the alias is known later, if everyone who saves later constructed their
object after the alias was saved (or is the session that saved it). -/
theorem C115_fresh_partial [CsvLaws F] (hnum : NumbersStay F) {P : Place F} (hP : Configured P)
    {rows : List (Row F)} {as : List String} {w : World ι F} (h : Begins rows as w)
    (ds es : List (Deed ι)) (hd : ∀ d ∈ ds ++ es, d.Fine F rows) (i : ι) (n : ℕ) (a : String)
    (hn : n < rows.length) (hsafe : CsvSafe (CsvIO.quotesCr F) a.toList) (ha : a ≠ "")
    (hreg : ∃ s f, (w.after P (ds.map Deed.event)).objs i = some s ∧
      registerAlias s.db (.int n) a = .ok f)
    (hel : ∀ d ∈ es, d.Elsewhere n a) (hseen : SavedBy [i] es) :
    ∃ g, (w.after P ((ds ++ .names i n a :: .saves i :: es).map Deed.event)).fresh P = some (.ok g) ∧
      Known a rows[n] g ∧
      getMaterial P.read P.base g (.str a) = loadRow P.read P.base rows[n] := by
  have hd1 : ∀ d ∈ ds, d.Fine F rows := fun d hm => hd d (by simp [hm])
  have hall : ∀ d ∈ ds ++ .names i n a :: .saves i :: es, d.Fine F rows := by
    intro d hm
    simp only [List.mem_append, List.mem_cons] at hm
    rcases hm with hm | rfl | rfl | hm
    · exact hd1 d hm
    · exact ⟨hn, hsafe⟩
    · trivial
    · exact hd d (by simp [hm])
  have hm := matches_after hnum hP ds hd1 h.matches
  obtain ⟨u1, u2⟩ := distinct_after (A := ⟨as, fun _ : ι => none⟩) h.distinct (by simp) ds
  have hm2 := matches_after hnum hP _ hall h.matches
  obtain ⟨v1, -⟩ := distinct_after (A := ⟨as, fun _ : ι => none⟩) h.distinct (by simp)
    (ds ++ .names i n a :: .saves i :: es)
  obtain ⟨s, f, hs, hf⟩ := hreg
  have hown : Owned n a (Notes.after ⟨as, fun _ : ι => none⟩
      (ds ++ .names i n a :: .saves i :: es)).file := by
    rw [notes_append]
    generalize Notes.after ⟨as, fun _ : ι => none⟩ ds = A at hm u1 u2
    cases hb : A.objs i with
    | none => rw [hm.absent i hb] at hs; cases hs
    | some bs =>
      obtain ⟨s', hs', hh⟩ := hm.obj i bs hb
      rw [hs] at hs'
      cases hs'
      have hl := hm.sizes i bs hb
      have hset : Owned n a (assign bs (n, a)) := by
        obtain ⟨rows', hk, e⟩ := hh
        rw [e] at hf
        exact register_owned rows' (hl.trans hk.length_eq) (by rw [← hk.length_eq]; exact hn) ha
          (u2 i bs hb) hf
      show Owned n a (((A.step (.names i n a)).step (.saves i)).after es).file
      have hobj : (A.step (.names i n a)).objs i = some (assign bs (n, a)) := by
        simp [Notes.step, hb]
      refine owned_after es hel [i] hseen ?_ ?_
      · show Owned n a (((A.step (.names i n a)).objs i).getD _)
        rw [hobj]; exact hset
      · intro j hj cs hc
        rw [List.mem_singleton] at hj
        subst hj
        have : (A.step (.names j n a)).objs j = some cs := hc
        rw [hobj] at this
        cases this
        exact hset
  obtain ⟨g, hg, hh⟩ := fresh_file hnum hP hm2
  have hlead := holds_leads P hm2.size v1 hh
  refine ⟨g, hg, ?_, (hlead a ha).1 n hn hown.1⟩
  obtain ⟨rows', hk, rfl⟩ := hh
  have hn' : n < rows'.length := by rw [← hk.length_eq]; exact hn
  have hk' := keeps_get hk hn hn'
  have hget : (numbered (withAliases rows' (Notes.after ⟨as, fun _ : ι => none⟩
      (ds ++ .names i n a :: .saves i :: es)).file))[n]? =
      some ((n : Int), { rows'[n] with al := .str a }) := by
    rw [numbered_get, withAliases_get rows' (hm2.size.trans hk.length_eq), hown.1,
      List.getElem?_eq_getElem hn']
    rfl
  exact ⟨_, List.mem_of_getElem? hget, rfl, hk'.path, hk'.modl⟩

/-! ## A lost alias -/

/-- A computer with the default configuration. -/
noncomputable def sharedPlace [SciPy XR] [NumText XR] [CsvIO XR] : Place XR :=
  { sys := demoSys
    files := { listdir := fun _ => .ok [], isfile := fun _ => false, isdir := fun _ => false,
               read := fun _ => .error .fileNotFound, library := fun _ => .error .fileNotFound }
    config := defaultFor "/home/user/.config/dispersion"
    path := "/home/user/.config/dispersion/catalogue.csv"
    base := "/home/user/.config/dispersion"
    interactive := false
    read := fun _ => .error .fileNotFound }

theorem sharedPlace_configured [SciPy XR] [NumText XR] [CsvIO XR] : Configured sharedPlace := by
  refine ⟨(C75_default_partial demoSys _ (by simp [demoSys]) ⟨by
    intro a b e
    have : ('#' : Char) ∈ "/home/user/.config/dispersion".toList := by rw [e]; simp
    exact absurd this (by decide), by decide⟩ demoSys_name).1, ?_⟩
  have hps : plainScalar "/home/user/.config/dispersion" = "/home/user/.config/dispersion" := by
    decide
  refine ⟨{ path := "/home/user/.config/dispersion", file := "catalogue.csv", modules := [("UserData", true), ("RefractiveIndexInfo", true)], value := PyFloat.lit (6328 / 10), stype := "wavelength", unit := "nanometer" }, _, ?_, new_scalar (c := "nm") (by decide +kernel) _, by simp only [sharedPlace]; decide +kernel⟩
  simp [sharedPlace, CatConfig.ofYaml, defaultFor, hps, YamlVal.get, YamlVal.asFloat, YamlVal.asStr,
    YamlVal.items, bind, Except.bind, checkModules, dictGet, YamlVal.asBool]
  rfl

/-- The saved catalogue with one material and no alias. -/
noncomputable def sharedStart [CsvIO XR] : World ℕ XR :=
  { file := some (csvText (numbered (withAliases [demoCsvRow] [""]))), objs := fun _ => none }

theorem sharedStart_begins [SciPy XR] [NumText XR] [io : CsvIO XR] :
    Begins [demoCsvRow] [""] sharedStart := by
  refine ⟨rfl, ?_, ?_, ?_, rfl, fun _ => rfl⟩
  · intro a ha
    rw [List.mem_singleton] at ha
    subst ha
    exact ⟨by decide, fun h => absurd h (by decide)⟩
  · intro i j a ha hi hj
    cases i <;> cases j <;> simp_all
  · intro r hr
    rw [List.mem_singleton] at hr
    subst hr
    exact demoCsvRow_storable io

/-- C115 is false: two sessions open the catalogue, the first names a material and saves, then the
second saves what it has read before. -/
theorem C115_refuted [SciPy XR] [NumText XR] [CsvIO XR] [CsvLaws XR] (hn : NumbersStay XR) :
    ¬ C115_statement XR := by
  intro h
  have hP := sharedPlace_configured
  have hfine : ∀ d ∈ ([.opens 0, .opens 1] : List (Deed ℕ)) ++ [.saves 1], d.Fine XR [demoCsvRow] := by
    intro d hd
    simp only [List.cons_append, List.nil_append, List.mem_cons, List.not_mem_nil, or_false] at hd
    rcases hd with rfl | rfl | rfl <;> trivial
  have hsafe : CsvSafe (CsvIO.quotesCr XR) "glass".toList :=
    ⟨by decide, fun h => absurd h (by decide)⟩
  have hm := matches_after hn hP ([.opens 0, .opens 1] : List (Deed ℕ))
    (fun d hd => hfine d (by simp only [List.mem_append]; exact .inl hd)) sharedStart_begins.matches
  obtain ⟨s, hs, hh⟩ := hm.obj 0 [""] (by simp [Notes.after, Notes.step, Function.update_apply])
  obtain ⟨g, hg, p, hp, hpa, -⟩ := h sharedPlace hP [demoCsvRow] [""] sharedStart sharedStart_begins
    [.opens 0, .opens 1] [.saves 1] hfine 0 0 "glass" (by simp) hsafe (by decide)
    (by
      obtain ⟨rows', hk, e⟩ := hh
      have hnot : ¬ inUse (numbered (withAliases rows' [""])) "glass" = true := by
        rw [inUse_with rows' hk.length_eq]
        decide
      have hreg : ∃ f, registerAlias (numbered (withAliases rows' [""])) (.int (0 : ℕ)) "glass" =
          .ok f := ⟨_, by simp only [registerAlias]; rw [if_neg hnot]⟩
      rw [← e] at hreg
      obtain ⟨f, hf⟩ := hreg
      exact ⟨s, f, hs, hf⟩)
    (by intro d hd; rw [List.mem_singleton] at hd; subst hd; trivial)
  have hall : ∀ d ∈ ([.opens 0, .opens 1, .names 0 0 "glass", .saves 0, .saves 1] : List (Deed ℕ)),
      d.Fine XR [demoCsvRow] := by
    intro d hd
    simp only [List.mem_cons, List.not_mem_nil, or_false] at hd
    rcases hd with rfl | rfl | rfl | rfl | rfl
    · trivial
    · trivial
    · exact ⟨by simp, hsafe⟩
    · trivial
    · trivial
  have hm2 := matches_after hn hP _ hall sharedStart_begins.matches
  obtain ⟨g', hg', hh'⟩ := fresh_file hn hP hm2
  have e : g = g' := by
    have : some (Except.ok g) = some (Except.ok g') := hg.symm.trans hg'
    simpa using this
  subst e
  have hfile : (Notes.after ⟨[""], fun _ : ℕ => none⟩
      ([.opens 0, .opens 1, .names 0 0 "glass", .saves 0, .saves 1] : List (Deed ℕ))).file = [""] := by
    simp [Notes.after, Notes.step, Function.update_apply]
  rw [hfile] at hh'
  obtain ⟨rows', hk, rfl⟩ := hh'
  have : inUse (numbered (withAliases rows' [""])) "glass" = true := by
    rw [inUse, List.any_eq_true]
    exact ⟨p, hp, by simp [hpa]⟩
  rw [inUse_with rows' hk.length_eq] at this
  exact absurd this (by decide)

/-- The two sessions one after the other: both aliases stay. -/
example : (Notes.after ⟨["", ""], fun _ : ℕ => none⟩
    ([(0, [(0, "glass")]), (1, [(1, "metal")])].flatMap visit)).file = ["glass", "metal"] := by
  rw [notes_turns]
  decide

/-- The hypothesis on numbers holds for the demonstration. -/
example (cr : Bool) : @NumbersStay XR _ (demoCsv cr) := by
  intro x y hx hy
  have : Except.ok (XR.round 8 x) = Except.ok y := (demoParse_text x).symm.trans hy
  cases this
  cases x <;> simp_all [XR.round, PyFloat.isNaN, XR.isNaN]

end Disp

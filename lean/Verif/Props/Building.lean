import Verif.Props.AliasLookup
/-!
# C58, C59: building the catalogue
-/

namespace Disp

variable {F : Type} [PyFloat F] [SciPy F] [NumText F]

/-! ## Specification -/

namespace Spec

/-- The modules that the package can read. -/
def moduleNames : List String := ["RefractiveIndexInfo", "Filmetrics", "UserData"]

/-- The modules that a request names. -/
def Wanted : Rebuild → String → Prop
  | .none, _ => False
  | .text s, m => s = "All" ∨ s = m
  | .list ss, m => m ∈ ss

/-- A request by the name of a module, by `'All'`, or by a list of names. -/
def Proper : Rebuild → Prop
  | .none => False
  | .text s => s = "All" ∨ s ∈ moduleNames
  | .list _ => True

/-- The rows of a module, in order. -/
def rowsOfModule (f : Frame F) (m : String) : List (Row F) :=
  (f.map Prod.snd).filter (fun r => r.modl = .str m)

/-- The modules of a configuration have different names, which the package knows. -/
def GoodModules (ms : List (String × Bool)) : Prop :=
  (ms.map Prod.fst).Nodup ∧ ∀ p ∈ ms, p.1 ∈ moduleNames

end Spec

open Spec

instance (rb : Rebuild) (m : String) : Decidable (Wanted rb m) := by
  cases rb <;> unfold Wanted <;> infer_instance

/-! ## Lists of results -/

theorem mapM_forall₂ {α β : Type} {f : α → Res β} {xs : List α} {ys : List β}
    (h : xs.mapM f = .ok ys) : List.Forall₂ (fun x y => f x = .ok y) xs ys := by
  induction xs generalizing ys with
  | nil =>
    have : ys = [] := by cases h; rfl
    subst this; exact .nil
  | cons x xs ih =>
    rw [List.mapM_cons] at h
    obtain ⟨y, hy, h⟩ := except_bind_ok h
    obtain ⟨zs, hz, h⟩ := except_bind_ok h
    have : ys = y :: zs := by cases h; rfl
    subst this
    exact .cons hy (ih hz)

theorem forall₂_mapM {α β : Type} {f : α → Res β} {xs : List α} {ys : List β}
    (h : List.Forall₂ (fun x y => f x = .ok y) xs ys) : xs.mapM f = .ok ys := by
  induction h with
  | nil => rfl
  | cons h _ ih => rw [List.mapM_cons, h, ih]; rfl

theorem mapM_error_mem {α β : Type} {f : α → Res β} {xs : List α} {e : PyErr}
    (h : xs.mapM f = .error e) : ∃ x ∈ xs, f x = .error e := by
  induction xs with
  | nil => cases h
  | cons x xs ih =>
    rw [List.mapM_cons] at h
    cases hx : f x with
    | error e' =>
      rw [hx] at h
      have : e' = e := by cases h; rfl
      subst this
      exact ⟨x, List.mem_cons_self .., hx⟩
    | ok y =>
      cases hy : xs.mapM f with
      | error e' =>
        rw [hx, hy] at h
        have : e' = e := by cases h; rfl
        subst this
        obtain ⟨z, hz, hfz⟩ := ih hy
        exact ⟨z, List.mem_cons_of_mem _ hz, hfz⟩
      | ok ys => rw [hx, hy] at h; cases h

theorem mapM_ok_mem {α β : Type} {f : α → Res β} {xs : List α} {ys : List β}
    (h : xs.mapM f = .ok ys) {y : β} (hy : y ∈ ys) : ∃ x ∈ xs, f x = .ok y := by
  have := mapM_forall₂ h
  clear h
  induction this with
  | nil => cases hy
  | cons h1 _ ih =>
    rcases List.mem_cons.1 hy with rfl | hy
    · exact ⟨_, List.mem_cons_self .., h1⟩
    · obtain ⟨x, hx, e⟩ := ih hy
      exact ⟨x, List.mem_cons_of_mem _ hx, e⟩

/-! ## Rows that were read -/

theorem textRow_cells {fs : FileSys F} {ref : Spectrum F} {dir m file : String} {r : Row F}
    (h : textRow fs ref dir m file = .ok r) : r.al = .str "" ∧ r.modl = .str m := by
  unfold textRow at h
  iterate 9 obtain ⟨_, _, h⟩ := except_bind_ok h
  cases h
  exact ⟨rfl, rfl⟩

theorem readTextDb_cells {fs : FileSys F} {ref : Spectrum F} {dir m : String} {rows : List (Row F)}
    (h : readTextDb fs ref dir m = .ok rows) : ∀ r ∈ rows, r.al = .str "" ∧ r.modl = .str m := by
  unfold readTextDb at h
  obtain ⟨_, _, h⟩ := except_bind_ok h
  intro r hr
  obtain ⟨f, _, hf⟩ := mapM_ok_mem h hr
  exact textRow_cells hf

theorem pageRow_cells {ref : Spectrum F} {b n p rel : String} {m : Material F} {r : Row F}
    (h : pageRow ref b n p rel m = .ok r) :
    r.al = .str "" ∧ r.modl = .str "RefractiveIndexInfo" := by
  unfold pageRow at h
  iterate 6 obtain ⟨_, _, h⟩ := except_bind_ok h
  cases h
  exact ⟨rfl, rfl⟩

theorem readPage_cells {fs : FileSys F} {ref : Spectrum F} {dir b n : String} {p : Page}
    {rows : List (Row F)} (h : readPage fs ref dir b n p = .ok rows) :
    ∀ r ∈ rows, r.al = .str "" ∧ r.modl = .str "RefractiveIndexInfo" := by
  cases p with
  | divider => cases h; simp
  | other => cases h; simp
  | page id data =>
    simp only [readPage] at h
    obtain ⟨_, _, h⟩ := except_bind_ok h
    split at h
    · split at h
      · cases h; simp
      · cases h
    · obtain ⟨r, hr, h⟩ := except_bind_ok h
      cases h
      intro r' hr'
      rw [List.mem_singleton.1 hr']
      exact pageRow_cells hr

theorem readBook_cells {fs : FileSys F} {ref : Spectrum F} {dir : String} {b : Book}
    {rows : List (Row F)} (h : readBook fs ref dir b = .ok rows) :
    ∀ r ∈ rows, r.al = .str "" ∧ r.modl = .str "RefractiveIndexInfo" := by
  cases b with
  | divider => cases h; simp
  | other => cases h; simp
  | book id name pages =>
    simp only [readBook] at h
    obtain ⟨parts, hp, h⟩ := except_bind_ok h
    have : rows = parts.flatten := by cases h; rfl
    subst this
    intro r hr
    obtain ⟨part, hm, hr⟩ := List.mem_flatten.1 hr
    obtain ⟨p, _, hp⟩ := mapM_ok_mem hp hm
    exact readPage_cells hp r hr

theorem readRii_cells {fs : FileSys F} {ref : Spectrum F} {dir : String} {rows : List (Row F)}
    (h : readRii fs ref dir = .ok rows) :
    ∀ r ∈ rows, r.al = .str "" ∧ r.modl = .str "RefractiveIndexInfo" := by
  unfold readRii at h
  obtain ⟨_, _, h⟩ := except_bind_ok h
  obtain ⟨parts, hp, h⟩ := except_bind_ok h
  have : rows = parts.flatten := by cases h; rfl
  subst this
  intro r hr
  obtain ⟨part, hm, hr⟩ := List.mem_flatten.1 hr
  obtain ⟨p, _, hp⟩ := mapM_ok_mem hp hm
  exact readBook_cells hp r hr

theorem readModule_cells {fs : FileSys F} {ref : Spectrum F} {base m : String} {rows : List (Row F)}
    (h : readModule fs ref base m = .ok rows) : ∀ r ∈ rows, r.al = .str "" ∧ r.modl = .str m := by
  unfold readModule at h
  split at h
  · rename_i e; subst e; exact readRii_cells h
  · split at h
    · rename_i e; subst e; exact readTextDb_cells h
    · split at h
      · rename_i e; subst e; exact readTextDb_cells h
      · cases h

/-! ## Requests -/

theorem asks_proper {rb : Rebuild} (hr : Proper rb) {m : String} (hm : m ∈ moduleNames) :
    rb.asks m = .ok (decide (Wanted rb m)) := by
  cases rb with
  | none => exact hr.elim
  | list ss => simp [Rebuild.asks, Wanted]
  | text s =>
    rcases hr with rfl | hs
    · simp [Rebuild.asks, Wanted]
    · revert m
      revert s
      decide +kernel

theorem numbered_rows (rows : List (Row F)) : (numbered rows).map Prod.snd = rows := by
  apply List.ext_getElem?
  intro i
  rw [List.getElem?_map, numbered_get]
  cases rows[i]? <;> rfl

/-- The part of a module. -/
theorem buildModule_eq {fs : FileSys F} {ref : Spectrum F} {base : String} {old : Frame F}
    {rb : Rebuild} (hr : Proper rb) {m : String} (hm : m ∈ moduleNames) (en : Bool) :
    buildModule fs ref base old rb m en =
      if en then
        if Wanted rb m then readModule fs ref base m else .ok (rowsOfModule old m)
      else if rb = .text m then .error .value else .ok [] := by
  unfold buildModule
  cases en with
  | false => rfl
  | true =>
    simp only [if_true, asks_proper hr hm, bind, Except.bind]
    by_cases h : Wanted rb m
    · simp [h]
    · simp only [h, decide_false, if_false, Bool.false_eq_true]
      congr 1
      rw [rowsOfModule, List.filter_map]
      rfl

/-- The rows of a module in a list of parts, each with the rows of its own module. -/
theorem filter_parts {ms : List (String × Bool)} (hn : (ms.map Prod.fst).Nodup)
    {parts : List (List (Row F))}
    (h : List.Forall₂ (fun p rows => ∀ r ∈ rows, r.modl = .str p.1) ms parts) {p : String × Bool}
    (hp : p ∈ ms) {rows : List (Row F)} (hrows : (p, rows) ∈ ms.zip parts) :
    parts.flatten.filter (fun r => r.modl = .str p.1) = rows := by
  induction h with
  | nil => cases hp
  | @cons q qs ms parts h1 h2 ih =>
    rw [List.flatten_cons, List.filter_append]
    rw [List.map_cons, List.nodup_cons] at hn
    have hother : ∀ (ms : List (String × Bool)) (parts : List (List (Row F))),
        List.Forall₂ (fun p rows => ∀ r ∈ rows, r.modl = .str p.1) ms parts →
        ∀ m, m ∉ ms.map Prod.fst → parts.flatten.filter (fun r => r.modl = .str m) = [] := by
      intro ms parts h m hm
      rw [List.filter_eq_nil_iff]
      intro r hr
      obtain ⟨part, hpart, hrp⟩ := List.mem_flatten.1 hr
      have : ∃ q ∈ ms, ∀ r ∈ part, r.modl = .str q.1 := by
        clear hm hr hrp
        induction h with
        | nil => cases hpart
        | cons h1 _ ih =>
          rcases List.mem_cons.1 hpart with rfl | hpart
          · exact ⟨_, List.mem_cons_self .., h1⟩
          · obtain ⟨q, hq, e⟩ := ih hpart
            exact ⟨q, List.mem_cons_of_mem _ hq, e⟩
      obtain ⟨q, hq, e⟩ := this
      rw [e r hrp]
      simp only [decide_eq_true_eq, Cell.str.injEq]
      rintro rfl
      exact hm (List.mem_map_of_mem hq)
    rw [List.zip_cons_cons] at hrows
    rcases List.mem_cons.1 hrows with e | hrows
    · obtain ⟨rfl, rfl⟩ : p = q ∧ rows = qs := by
        constructor
        · exact congrArg Prod.fst e
        · exact congrArg Prod.snd e
      rw [hother ms parts h2 p.1 hn.1, List.append_nil, List.filter_eq_self]
      intro r hr
      simp [h1 r hr]
    · have hpm : p ∈ ms := (List.of_mem_zip hrows).1
      have : qs.filter (fun r => r.modl = .str p.1) = [] := by
        rw [List.filter_eq_nil_iff]
        intro r hr
        rw [h1 r hr]
        simp only [decide_eq_true_eq, Cell.str.injEq]
        intro e
        exact hn.1 (e ▸ List.mem_map_of_mem hpm)
      rw [this, List.nil_append]
      exact ih hn.2 hpm hrows

/-- What building does, module by module. -/
theorem build_parts {fs : FileSys F} {ref : Spectrum F} {base : String}
    {ms : List (String × Bool)} (hm : GoodModules ms) {old g : Frame F} {rb : Rebuild}
    (hr : Proper rb) (h : buildCatalogue fs ref base ms old rb = .ok g) :
    ∃ parts, g = numbered parts.flatten ∧
      List.Forall₂ (fun p rows => buildModule fs ref base old rb p.1 p.2 = .ok rows) ms parts ∧
      List.Forall₂ (fun p rows => ∀ r ∈ rows, r.modl = .str p.1) ms parts := by
  unfold buildCatalogue at h
  obtain ⟨parts, hp, h⟩ := except_bind_ok h
  have : g = numbered parts.flatten := by cases h; rfl
  have hf := mapM_forall₂ hp
  refine ⟨parts, this, hf, ?_⟩
  have hmem := hm.2
  clear * - hf hmem hr
  induction hf with
  | nil => exact .nil
  | @cons p rows ms parts h1 h2 ih =>
    refine .cons ?_ (ih (fun q hq => hmem q (List.mem_cons_of_mem _ hq)))
    rw [buildModule_eq hr (hmem p (List.mem_cons_self ..))] at h1
    intro r hr
    split at h1
    · split at h1
      · exact (readModule_cells h1 r hr).2
      · have : rows = rowsOfModule old p.1 := by cases h1; rfl
        subst this
        simpa using (List.mem_filter.1 hr).2
    · split at h1
      · cases h1
      · have : rows = [] := by cases h1; rfl
        subst this; cases hr

/-- C58 for requests by name, by `'All'` or by a list: after building, the rows of a module are
those read from its files if it was requested, the old ones, in order, if it is enabled but was
not requested, and none if it is disabled or not in the configuration. The rows are numbered by
position.
Missing: a list with a disabled module raises no ValueError (`C58_refuted`); strings that are no
names (`C58_substring`). -/
theorem C58_rows_partial {fs : FileSys F} {ref : Spectrum F} {base : String}
    {ms : List (String × Bool)} (hm : GoodModules ms) {old g : Frame F} {rb : Rebuild}
    (hr : Proper rb) (h : buildCatalogue fs ref base ms old rb = .ok g) :
    (∀ m, (m, true) ∈ ms → Wanted rb m → readModule fs ref base m = .ok (rowsOfModule g m)) ∧
    (∀ m, (m, true) ∈ ms → ¬ Wanted rb m → rowsOfModule g m = rowsOfModule old m) ∧
    (∀ m, (m, true) ∉ ms → rowsOfModule g m = []) ∧
    g.map Prod.fst = (List.range g.length).map (fun i : Nat => (i : Int)) := by
  obtain ⟨parts, rfl, h1, h2⟩ := build_parts hm hr h
  have key : ∀ p ∈ ms, ∃ rows, buildModule fs ref base old rb p.1 p.2 = .ok rows ∧
      rowsOfModule (numbered parts.flatten) p.1 = rows := by
    intro p hp
    obtain ⟨i, hi⟩ := List.getElem?_of_mem hp
    have hlt := (List.getElem?_eq_some_iff.1 hi).1
    have hlt' : i < parts.length := h1.length_eq ▸ hlt
    have hz : (p, parts[i]) ∈ ms.zip parts := by
      refine List.mem_of_getElem? (i := i) ?_
      rw [List.getElem?_zip_eq_some]
      exact ⟨hi, List.getElem?_eq_getElem hlt'⟩
    refine ⟨parts[i], ?_, ?_⟩
    · have := List.forall₂_iff_get.1 h1
      have h3 := this.2 i hlt hlt'
      have e : ms.get ⟨i, hlt⟩ = p := (List.getElem?_eq_some_iff.1 hi).2
      rw [e] at h3
      exact h3
    · rw [rowsOfModule, numbered_rows]
      exact filter_parts hm.1 h2 hp hz
  refine ⟨?_, ?_, ?_, ?_⟩
  · intro m hmem hw
    obtain ⟨rows, k1, k2⟩ := key _ hmem
    rw [buildModule_eq hr (hm.2 _ hmem), if_pos rfl, if_pos hw] at k1
    rw [k2]; exact k1
  · intro m hmem hw
    obtain ⟨rows, k1, k2⟩ := key _ hmem
    rw [buildModule_eq hr (hm.2 _ hmem), if_pos rfl, if_neg hw] at k1
    rw [k2]; cases k1; rfl
  · intro m hno
    by_cases hf : (m, false) ∈ ms
    · obtain ⟨rows, k1, k2⟩ := key _ hf
      rw [buildModule_eq hr (hm.2 _ hf), if_neg (by simp)] at k1
      rw [k2]
      split at k1
      · cases k1
      · cases k1; rfl
    · rw [rowsOfModule, numbered_rows, List.filter_eq_nil_iff]
      intro r hrm
      obtain ⟨part, hpart, hrp⟩ := List.mem_flatten.1 hrm
      have : ∃ q ∈ ms, ∀ r ∈ part, r.modl = .str q.1 := by
        clear key hno hf h1 h hm hrm
        induction h2 with
        | nil => cases hpart
        | cons h1 _ ih =>
          rcases List.mem_cons.1 hpart with rfl | hpart
          · exact ⟨_, List.mem_cons_self .., h1⟩
          · obtain ⟨q, hq, e⟩ := ih hpart
            exact ⟨q, List.mem_cons_of_mem _ hq, e⟩
      obtain ⟨⟨q, b⟩, hq, e⟩ := this
      rw [e r hrp]
      simp only [decide_eq_true_eq, Cell.str.injEq]
      rintro rfl
      cases b with
      | true => exact hno hq
      | false => exact hf hq
  · apply List.ext_getElem?
    intro i
    have hlen : (numbered parts.flatten).length = parts.flatten.length := by simp [numbered]
    rw [List.getElem?_map, numbered_get, List.getElem?_map, hlen]
    by_cases hi : i < parts.flatten.length
    · rw [List.getElem?_eq_getElem hi, List.getElem?_range hi]; rfl
    · rw [List.getElem?_eq_none (by omega), List.getElem?_eq_none (by rw [List.length_range]; omega)]; rfl

/-- C58: building succeeds if all requested modules can be read and no disabled module is
requested by its name. -/
theorem C58_succeeds {fs : FileSys F} {ref : Spectrum F} {base : String}
    {ms : List (String × Bool)} (hm : GoodModules ms) {old : Frame F} {rb : Rebuild}
    (hr : Proper rb) (hd : ∀ m, rb = .text m → (m, false) ∉ ms)
    (h : ∀ m, (m, true) ∈ ms → Wanted rb m → ∃ rows, readModule fs ref base m = .ok rows) :
    ∃ g, buildCatalogue fs ref base ms old rb = .ok g := by
  cases hb : ms.mapM (fun p => buildModule fs ref base old rb p.1 p.2) with
  | ok parts => exact ⟨_, by rw [buildCatalogue, hb]; rfl⟩
  | error e =>
    obtain ⟨⟨m, b⟩, hp, he⟩ := mapM_error_mem hb
    rw [buildModule_eq hr (hm.2 _ hp)] at he
    cases b with
    | true =>
      rw [if_pos rfl] at he
      by_cases hw : Wanted rb m
      · obtain ⟨rows, hrows⟩ := h m hp hw
        rw [if_pos hw, hrows] at he; cases he
      · rw [if_neg hw] at he; cases he
    | false =>
      rw [if_neg (by simp)] at he
      split at he
      · rename_i e'
        exact absurd hp (hd m e')
      · cases he

/-- C58: an enabled module of the configuration for which the package has no reader raises KeyError
as soon as it is to be rebuilt, if the modules before it can be built. -/
theorem C58_unknown {fs : FileSys F} {ref : Spectrum F} {base : String}
    {pre post : List (String × Bool)} {old g : Frame F} {rb : Rebuild} {m : String}
    (hm : m ∉ moduleNames) (hw : rb = .text "All" ∨ ∃ ss, rb = .list ss ∧ m ∈ ss)
    (hpre : buildCatalogue fs ref base pre old rb = .ok g) :
    buildCatalogue fs ref base (pre ++ (m, true) :: post) old rb = .error .key := by
  have hask : rb.asks m = .ok true := by
    rcases hw with rfl | ⟨ss, rfl, hs⟩
    · simp [Rebuild.asks]
    · simp [Rebuild.asks, hs]
  have hread : readModule fs ref base m = .error .key := by
    unfold readModule
    rw [if_neg, if_neg, if_neg] <;> rintro rfl <;> exact hm (by decide +kernel)
  obtain ⟨parts, hp, -⟩ := except_bind_ok hpre
  unfold buildCatalogue
  rw [List.mapM_append, List.mapM_cons, hp]
  simp [buildModule, hask, hread, bind, Except.bind]

/-- A case of C58_unknown. -/
example {fs : FileSys F} {ref : Spectrum F} {old : Frame F} :
    buildCatalogue fs ref "d" [("UserData", false), ("Sopra", true)] old (.text "All") = .error .key :=
  C58_unknown (pre := [("UserData", false)]) (post := []) (g := []) (by decide +kernel) (.inl rfl)
    (by simp [buildCatalogue, buildModule, bind, Except.bind]; rfl)

/-- C58: requesting a disabled module by its name raises ValueError. -/
theorem C58_disabled {fs : FileSys F} {ref : Spectrum F} {base : String}
    {ms : List (String × Bool)} (hm : GoodModules ms) {old : Frame F} {m : String}
    (h : (m, false) ∈ ms) :
    buildCatalogue fs ref base ms old (.text m) = .error .value := by
  have hr : Proper (.text m) := .inr (hm.2 _ h)
  cases hb : ms.mapM (fun p => buildModule fs ref base old (.text m) p.1 p.2) with
  | ok parts =>
    have hf := mapM_forall₂ hb
    obtain ⟨i, hi⟩ := List.getElem?_of_mem h
    have hlt := (List.getElem?_eq_some_iff.1 hi).1
    have h3 := (List.forall₂_iff_get.1 hf).2 i hlt (hf.length_eq ▸ hlt)
    have e : ms.get ⟨i, hlt⟩ = (m, false) := (List.getElem?_eq_some_iff.1 hi).2
    rw [e, buildModule_eq hr (hm.2 _ h), if_neg (by simp), if_pos rfl] at h3
    cases h3
  | error e =>
    obtain ⟨⟨q, b⟩, hp, he⟩ := mapM_error_mem hb
    rw [buildModule_eq hr (hm.2 _ hp)] at he
    have hq : b = true → q ≠ m := by
      rintro rfl rfl
      have := List.inj_on_of_nodup_map hm.1 hp h rfl
      cases this
    have hnw : b = true → ¬ Wanted (.text m) q := by
      intro hb' hw
      rcases hw with hw | hw
      · have := hm.2 _ h
        rw [hw] at this
        exact absurd this (by decide)
      · exact hq hb' hw.symm
    have : e = .value := by
      cases b with
      | true => rw [if_pos rfl, if_neg (hnw rfl)] at he; cases he
      | false =>
        rw [if_neg (by simp)] at he
        split at he
        · cases he; rfl
        · cases he
    rw [buildCatalogue, hb, this]
    rfl

/-- C58: `rebuild=None`, which the documentation allows, raises TypeError as soon as a module is
enabled. -/
theorem C58_none (fs : FileSys F) (ref : Spectrum F) (base : String) (m : String)
    (ms : List (String × Bool)) (old : Frame F) :
    buildCatalogue fs ref base ((m, true) :: ms) old .none = .error .type := by
  rfl

/-- C58: in a string every substring counts as a request, so a string of several names, however
separated, rebuilds all of them, and a name in other letters none. -/
theorem C58_substring (s m : String) : (Rebuild.text s).asks m = .ok true ↔
    (∃ a b, s.toList = a ++ m.toList ++ b) ∨ s = "All" := by
  simp only [Rebuild.asks, Except.ok.injEq, Bool.or_eq_true, decide_eq_true_eq]
  refine or_congr ?_ Iff.rfl
  rw [hasSub, List.any_eq_true]
  constructor
  · rintro ⟨t, ht, hp⟩
    obtain ⟨a, ha⟩ := (List.mem_tails _ _).1 ht
    obtain ⟨b, hb⟩ := List.isPrefixOf_iff_prefix.1 hp
    exact ⟨a, b, by rw [← ha, ← hb, List.append_assoc]⟩
  · rintro ⟨a, b, hs⟩
    refine ⟨m.toList ++ b, (List.mem_tails _ _).2 ⟨a, ?_⟩, List.isPrefixOf_iff_prefix.2 ⟨b, rfl⟩⟩
    rw [hs, List.append_assoc]

/-- C58 (full statement, refuted below): requests of disabled modules are refused. -/
def C58_statement (F : Type) [PyFloat F] [SciPy F] [NumText F] : Prop :=
  ∀ (fs : FileSys F) (ref : Spectrum F) (base : String) (ms : List (String × Bool)) (old : Frame F)
    (rb : Rebuild) (m : String), GoodModules ms → (m, false) ∈ ms → Wanted rb m →
    rb ≠ .text "All" → buildCatalogue fs ref base ms old rb = .error .value

/-- C58 is false: `rebuild=['UserData']` with a disabled module is accepted, and its rows are
dropped. -/
theorem C58_refuted : ¬ C58_statement F := by
  intro h
  let fs : FileSys F := ⟨fun _ => .error .os, fun _ => false, fun _ => false, fun _ => .error .os,
    fun _ => .error .os⟩
  have h1 := h fs (defaultSpec) "/cat" [("UserData", false)] (exampleFrame "x" "y")
    (.list ["UserData"]) "UserData" ⟨by simp, by decide⟩ (by simp) (by simp [Wanted]) (by simp)
  cases h1

/-- Concrete case for `C58_rows_partial`: the library is not read, its row is kept with its alias,
the row of the disabled module is dropped. -/
example (fs : FileSys F) (ref : Spectrum F) (hfs : fs.listdir "/cat/UserData" = .ok []) :
    buildCatalogue fs ref "/cat" [("UserData", true), ("RefractiveIndexInfo", true),
      ("Filmetrics", false)]
      (numbered [{ exampleRow "x" "a.yml" with modl := .str "RefractiveIndexInfo" },
        exampleRow "y" "gone.txt", { exampleRow "z" "b.txt" with modl := .str "Filmetrics" }])
      (.text "UserData") =
    .ok (numbered [{ exampleRow "x" "a.yml" with modl := .str "RefractiveIndexInfo" }]) := by
  have h1 : (Rebuild.text "UserData").asks "UserData" = .ok true := by decide +kernel
  have h2 : (Rebuild.text "UserData").asks "RefractiveIndexInfo" = .ok false := by decide +kernel
  have h3 : joinPath "/cat" "UserData" = "/cat/UserData" := by decide +kernel
  simp [buildCatalogue, buildModule, List.mapM_cons, h1, h2, bind, Except.bind, readModule, h3,
    readTextDb, hfs, numbered, exampleRow, pure, Except.pure]

/-! ## Aliases -/

/-- C59 fails for every rebuilt module: no row that was read has an alias. -/
theorem C59_lost {fs : FileSys F} {ref : Spectrum F} {base : String}
    {ms : List (String × Bool)} (hm : GoodModules ms) {old g : Frame F} {rb : Rebuild}
    (hr : Proper rb) (h : buildCatalogue fs ref base ms old rb = .ok g) {m : String}
    (hmem : (m, true) ∈ ms) (hw : Wanted rb m) :
    ∀ p ∈ g, p.2.modl = .str m → p.2.al = .str "" := by
  have h1 := (C58_rows_partial hm hr h).1 m hmem hw
  intro p hp he
  refine (readModule_cells h1 p.2 ?_).1
  exact List.mem_filter.2 ⟨List.mem_map_of_mem hp, by simp [he]⟩

/-- C59: after rebuilding everything no alias names a material. -/
theorem C59_all {fs : FileSys F} {ref : Spectrum F} {base : String}
    {ms : List (String × Bool)} (hm : GoodModules ms) {old g : Frame F}
    (h : buildCatalogue fs ref base ms old (.text "All") = .ok g) (rd : String → Res (FileDict F))
    {a : String} (ha : a ≠ "") : getMaterial rd base g (.str a) = .error .value := by
  have hr : Proper (.text "All") := .inl rfl
  obtain ⟨parts, rfl, h1, h2⟩ := build_parts hm hr h
  have hno : (numbered parts.flatten).filter (fun p => p.2.al = .str a) = [] := by
    rw [List.filter_eq_nil_iff]
    intro p hp
    have hpm : p.2 ∈ parts.flatten := by
      have := List.mem_map_of_mem (f := Prod.snd) hp
      rwa [numbered_rows] at this
    have : p.2.al = .str "" := by
      obtain ⟨part, hpart, hr'⟩ := List.mem_flatten.1 hpm
      clear h2 h hp hpm
      have hmem := hm.2
      clear hm
      induction h1 with
      | nil => cases hpart
      | @cons q rows ms parts k1 k2 ih =>
        rcases List.mem_cons.1 hpart with rfl | hpart
        · rw [buildModule_eq hr (hmem q (List.mem_cons_self ..))] at k1
          split at k1
          · rw [if_pos (.inl rfl)] at k1
            exact (readModule_cells k1 _ hr').1
          · split at k1
            · cases k1
            · cases k1; cases hr'
        · exact ih hpart (fun q hq => hmem q (List.mem_cons_of_mem _ hq))
    rw [this]
    simpa using Ne.symm ha
  unfold getMaterial findRow
  simp only []
  rw [hno]
  rfl

/-- C59 for modules that are not rebuilt: their rows keep their aliases, in order.
Missing: rebuilt modules, see `C59_lost`. -/
theorem C59_kept_partial {fs : FileSys F} {ref : Spectrum F} {base : String}
    {ms : List (String × Bool)} (hm : GoodModules ms) {old g : Frame F} {rb : Rebuild}
    (hr : Proper rb) (h : buildCatalogue fs ref base ms old rb = .ok g) {m : String}
    (hmem : (m, true) ∈ ms) (hw : ¬ Wanted rb m) :
    (rowsOfModule g m).map Row.al = (rowsOfModule old m).map Row.al := by
  rw [(C58_rows_partial hm hr h).2.1 m hmem hw]

/-- C58: without a request the stored table is taken as it is. -/
theorem C58_no_request (fs : FileSys F) (ref : Spectrum F) (base : String)
    (ms : List (String × Bool)) (stored : Res (Frame F)) :
    startCatalogue fs ref base ms stored (.text "None") = stored := by
  unfold startCatalogue
  rw [if_neg (by decide)]
  cases stored <;> rfl

/-- C58: rebuilding everything does not need the catalogue file. -/
theorem C58_all (fs : FileSys F) (ref : Spectrum F) (base : String)
    (ms : List (String × Bool)) (stored : Res (Frame F)) :
    startCatalogue fs ref base ms stored (.text "All") =
      buildCatalogue fs ref base ms [] (.text "All") := by
  rfl

end Disp

import Verif.Props.MaterialBuild
import Verif.Props.ExampleFiles
import Verif.Spec.Copies

/-!
# C127: arrays handed over and arrays handed out

The code keeps some of the caller's arrays and hands out some of its own. `C127_refuted` shows
that a later change of such an array changes what an object returns. `C127_careful_partial` is
the strongest simple rule under which sharing cannot be seen: a program that never writes to an
array it has given away sees exactly what it would see if everything were copied.
-/

namespace Disp

open Spec

variable {F : Type} [PyFloat F] [SciPy F] [NumText F]

/-! ## What a material keeps -/

omit [NumText F] in
theorem newModel_params (k : Formula) (ps ps' : List F) (raw : Raw F) (t u : String) :
    RealData.newModel k ps' raw t u = (RealData.newModel k ps raw t u).map (·.withParams ps') := by
  unfold RealData.newModel
  cases Spectrum.new raw t u with
  | error e => rfl
  | ok r =>
    simp only [bind, Except.bind]
    cases validateSpectrumType (F := F) k.required t u <;> rfl

omit [NumText F] in
theorem storeReal_params (m : Material F) (hr : m.real = none) (hi : m.imag = none)
    (hc : m.cplx = none) (out : Option String) (d : RealData F) (ps : List F) :
    storeReal m out (d.withParams ps) = (storeReal m out d).map (·.withParams ps) := by
  unfold storeReal
  split <;> simp [Except.map, Material.withParams, hr, hi, hc]

omit [NumText F] in
/-- The parameters of a model are stored and not looked at. -/
theorem processModelDict_params (m : Material F) (hr : m.real = none) (hi : m.imag = none)
    (hc : m.cplx = none) (name t u : String) (ps ps' : List F) (raw : Raw F) :
    processModelDict m ⟨some name, some t, some u, some ps', some raw⟩ =
      (processModelDict m ⟨some name, some t, some u, some ps, some raw⟩).map
        (·.withParams ps') := by
  unfold processModelDict
  simp only [Option.getD_some, bind, Except.bind]
  cases classRef name with
  | real k =>
    simp only
    rw [newModel_params k ps ps' raw t u]
    cases RealData.newModel k ps raw t u with
    | error e => rfl
    | ok d =>
      exact storeReal_params { m with defType := t, defUnit := u } hr hi hc _ _ _
  | cplx k =>
    simp only [CplxData.new, bind, Except.bind]
    cases Spectrum.new raw t u with
    | error e => rfl
    | ok r =>
      simp only
      cases validateSpectrumType (F := F) (some ("energy", "ev")) t u with
      | error e => rfl
      | ok _ => simp [Except.map, Material.withParams, hr, hi]
  | baseModel =>
    simp only
    cases Spectrum.new raw t u <;> rfl
  | otherClass => rfl
  | notClass => rfl
  | missing => rfl

omit [NumText F] in
theorem parseArgs_model (name t u : String) (ps : List F) (raw : Raw F) :
    parseArgs (modelArgs name t u ps raw) = .ok ⟨modelArgs name t u ps raw, "wavelength",
      "nanometer", .int 1⟩ := by
  rfl

/-- `Material(model_kw=...)` in short. -/
theorem new_model (name t u : String) (ps : List F) (raw : Raw F) :
    Material.new noFiles (modelArgs name t u ps raw) = (do
      let m ← processModelDict (blankMaterial ⟨modelArgs name t u ps raw, "wavelength",
        "nanometer", .int 1⟩) ⟨some name, some t, some u, some ps, some raw⟩
      m.completePartialData) := by
  unfold Material.new
  rw [parseArgs_model]
  simp (discharger := decide) [dispatch, modelArgs, Kwargs.get, dictGet, bind, Except.bind]

theorem new_params (name t u : String) (ps ps' : List F) (raw : Raw F) :
    Material.new noFiles (modelArgs name t u ps' raw) =
      (Material.new noFiles (modelArgs name t u ps raw)).map (·.withParams ps') := by
  rw [new_model, new_model]
  rw [show blankMaterial ⟨modelArgs name t u ps' raw, "wavelength", "nanometer", .int 1⟩ =
    blankMaterial ⟨modelArgs name t u ps raw, "wavelength", "nanometer", .int 1⟩ from rfl,
    processModelDict_params _ rfl rfl rfl name t u ps ps' raw]
  cases processModelDict (blankMaterial ⟨modelArgs name t u ps raw, "wavelength", "nanometer",
    .int 1⟩) ⟨some name, some t, some u, some ps, some raw⟩ with
  | error e => rfl
  | ok m =>
    simp only [Except.map, bind, Except.bind, complete_eq]
    congr 1
    unfold Material.withParams
    simp only [Option.map_some]
    congr 2
    · cases m.real <;> rfl
    · cases m.imag <;> rfl

/-- A model is built with the parameters that it is given. -/
theorem withParams_self {name t u : String} {ps : List F} {raw : Raw F} {m : Material F}
    (h : Material.new noFiles (modelArgs name t u ps raw) = .ok m) : m.withParams ps = m := by
  have e := new_params name t u ps ps raw
  rw [h] at e
  exact (Except.ok.inj e).symm

omit [SciPy F] [NumText F] in
theorem withArray_self {dt : DType} {xs : List F} {t u : String} {r : Spectrum F}
    (h : Spectrum.new (.ndarray dt xs) t u = .ok r) : r.withArray (.array dt xs) = r := by
  unfold Spectrum.new at h
  dsimp only at h
  split at h
  · obtain ⟨u', -, h⟩ := except_bind_ok h
    obtain ⟨v, hv, h⟩ := except_bind_ok h
    obtain ⟨w, hw, h⟩ := except_bind_ok h
    cases h
    cases hv
    unfold Spectrum.withArray
    congr 1
    split
    · next hm =>
      rw [standardiseValues, if_neg (by simpa using hm)] at hw
      exact Except.ok.inj hw
    · rfl
  · cases h

/-- A model is built with the range that it is given. -/
theorem withRange_self {name t u : String} {ps : List F} {dt : DType} {xs : List F}
    {m : Material F} (h : Material.new noFiles (modelArgs name t u ps (.ndarray dt xs)) = .ok m) :
    m.withRange (.array dt xs) = m := by
  rw [new_model] at h
  obtain ⟨m0, h0, h⟩ := except_bind_ok h
  rw [complete_eq] at h
  cases h
  have key : m0.withRange (.array dt xs) = m0 := by
    unfold processModelDict at h0
    simp only [Option.getD_some, bind, Except.bind] at h0
    cases hc : classRef name with
    | real k =>
      rw [hc] at h0
      simp only at h0
      cases hd : RealData.newModel k ps (.ndarray dt xs) t u with
      | error e => rw [hd] at h0; cases h0
      | ok d =>
        rw [hd] at h0
        simp only at h0
        have hd' : d.withRange (.array dt xs) = d := by
          unfold RealData.newModel at hd
          obtain ⟨r, hr, hd⟩ := except_bind_ok hd
          obtain ⟨_, -, hd⟩ := except_bind_ok hd
          cases hd
          rw [RealData.withRange, withArray_self hr]
        unfold storeReal at h0
        split at h0 <;> cases h0 <;> simp [Material.withRange, hd', blankMaterial]
    | cplx k =>
      rw [hc] at h0
      simp only at h0
      cases hd : CplxData.new k ps (.ndarray dt xs) t u with
      | error e => rw [hd] at h0; cases h0
      | ok d =>
        rw [hd] at h0
        simp only at h0
        have hd' : { d with range := d.range.withArray (.array dt xs) } = d := by
          unfold CplxData.new at hd
          obtain ⟨r, hr, hd⟩ := except_bind_ok hd
          obtain ⟨_, -, hd⟩ := except_bind_ok hd
          cases hd
          simp [withArray_self hr]
        cases h0
        simp [Material.withRange, hd', blankMaterial]
    | baseModel =>
      rw [hc] at h0
      simp only at h0
      cases hs : Spectrum.new (.ndarray dt xs) t u with
      | error e => rw [hs] at h0; cases h0
      | ok r => rw [hs] at h0; cases h0
    | otherClass => rw [hc] at h0; cases h0
    | notClass => rw [hc] at h0; cases h0
    | missing => rw [hc] at h0; cases h0
  have hr : m0.real.map (·.withRange (.array dt xs)) = m0.real := congrArg Material.real key
  have hi : m0.imag.map (·.withRange (.array dt xs)) = m0.imag := congrArg Material.imag key
  have hc : m0.cplx.map (fun d => { d with range := d.range.withArray (.array dt xs) }) =
    m0.cplx := congrArg Material.cplx key
  unfold Material.withRange
  simp only [Option.map_some, hc]
  congr 2
  · cases hm : m0.real with
    | none => rfl
    | some d => rw [hm] at hr; simpa using hr
  · cases hm : m0.imag with
    | none => rfl
    | some d => rw [hm] at hi; simpa using hi

/-- An interpolation is built with the table that it is given. -/
theorem withTable_self {t u : String} {a : NDArr F} {m : Material F}
    (h : Material.new noFiles (tableArgs "tabulated_n" t u (.arr a)) = .ok m) :
    m.withTable a = m := by
  obtain ⟨p, m0, -, hd, rfl⟩ := new_ok noFiles h
  have hd' : processTable (blankMaterial p) a "n" [] = .ok m0 := hd
  have hd'' : (do
      let r ← specDataFromTable p.stype p.unit a 0 1
      .ok { blankMaterial p with name := "nk", real := some r }) = Except.ok m0 := hd'
  obtain ⟨r, hr, hd''⟩ := except_bind_ok hd''
  cases hd''
  unfold specDataFromTable at hr
  obtain ⟨rows, hrows, hr⟩ := except_bind_ok hr
  have key : r.withTable a = r := by
    split at hr
    · unfold RealData.newConstant at hr
      obtain ⟨_, -, hr⟩ := except_bind_ok hr
      cases hr
      rfl
    · unfold RealData.newInterp at hr
      obtain ⟨_, -, hr⟩ := except_bind_ok hr
      obtain ⟨_, -, hr⟩ := except_bind_ok hr
      obtain ⟨_, -, hr⟩ := except_bind_ok hr
      obtain ⟨_, -, hr⟩ := except_bind_ok hr
      cases hr
      simp [RealData.withTable, hrows]
  simp [Material.withTable, key]

/-! ## The two ways of running a program agree -/

/-- What a variable holds when its reference is followed. -/
def heldAt (h : Heap F) : Ref F → Held F
  | .num x => .num x
  | .addr a => .cell ((h[a]?).getD (.list .float []))

def HSpectrum.uses (s : HSpectrum F) (a : Nat) : Prop := s.values = .addr a ∨ s.std = .addr a

def HMaterial.uses (m : HMaterial F) (a : Nat) : Prop :=
  m.params = some a ∨ m.range = some a ∨ m.table = some a

def Box.isList : Box F → Bool
  | .list _ _ => true
  | .arr _ => false

/-- The invariant: everything reads as in the program without sharing, objects refer to arrays
that exist, and nothing else refers to an array that is the caller's own. -/
structure Agree (p : Proc F) (c : Copies F) (o : List Hold) : Prop where
  len : p.vars.length = o.length
  vars : c.vars = p.vars.map (Option.map (heldAt p.heap))
  specs : c.specs = p.specs.map (Option.map (HSpectrum.get p.heap))
  asked : c.mats = p.mats.map (Option.map (HMaterial.asked p.heap))
  stored : c.mats = p.mats.map (Option.map (HMaterial.stored p.heap))
  inV : ∀ a, some (Ref.addr a) ∈ p.vars → a < p.heap.length
  inS : ∀ s, some s ∈ p.specs → ∀ a, s.uses a → ∃ dt xs, p.heap[a]? = some (.arr (.d1 dt xs))
  inM : ∀ m, some m ∈ p.mats → ∀ a, m.uses a → a < p.heap.length
  own : ∀ (i : Nat) (b : Bool) (a : Nat), o[i]? = some (.own b) → p.vars[i]? = some (some (.addr a)) →
    (∀ j : Nat, p.vars[j]? = some (some (.addr a)) → j = i) ∧ (∀ s, some s ∈ p.specs → ¬ s.uses a) ∧
      (∀ m, some m ∈ p.mats → ¬ m.uses a)
  kind : ∀ (i : Nat) (b : Bool) (a : Nat), o[i]? = some (.own b) → p.vars[i]? = some (some (.addr a)) →
    ∃ c : Box F, p.heap[a]? = some c ∧ c.isList = b

omit [SciPy F] [NumText F] in
theorem vals_frame {h h' : Heap F} {r : Ref F} (e : ∀ a, r = .addr a → h'[a]? = h[a]?) :
    h'.vals r = h.vals r := by
  cases r with
  | num x => rfl
  | addr a => simp only [Heap.vals, e a rfl]

omit [SciPy F] [NumText F] in
theorem heldAt_frame {h h' : Heap F} {r : Ref F} (e : ∀ a, r = .addr a → h'[a]? = h[a]?) :
    heldAt h' r = heldAt h r := by
  cases r with
  | num x => rfl
  | addr a => simp only [heldAt, e a rfl]

omit [SciPy F] [NumText F] in
theorem get_frame {h h' : Heap F} {s : HSpectrum F} (e : ∀ a, s.uses a → h'[a]? = h[a]?) :
    s.get h' = s.get h := by
  unfold HSpectrum.get
  rw [vals_frame fun a ha => e a (.inl ha), vals_frame fun a ha => e a (.inr ha)]

omit [NumText F] in
theorem asked_frame {h h' : Heap F} {m : HMaterial F} (e : ∀ a, m.uses a → h'[a]? = h[a]?) :
    m.asked h' = m.asked h := by
  have h1 : ∀ a, m.params = some a → h'.params a = h.params a := by
    intro a ha
    simp only [Heap.params, e a (.inl ha)]
  have h2 : ∀ a, m.range = some a → h'.vals (.addr a) = h.vals (.addr a) := by
    intro a ha
    exact vals_frame fun b hb => by cases hb; exact e _ (.inr (.inl ha))
  unfold HMaterial.asked
  cases hp : m.params with
  | none =>
    cases hr : m.range with
    | none => rfl
    | some b => simp only [h2 b hr]
  | some a =>
    cases hr : m.range with
    | none => simp only [h1 a hp]
    | some b => simp only [h1 a hp, h2 b hr]

omit [NumText F] in
theorem stored_frame {h h' : Heap F} {m : HMaterial F} (e : ∀ a, m.uses a → h'[a]? = h[a]?) :
    m.stored h' = m.stored h := by
  unfold HMaterial.stored
  rw [asked_frame e]
  cases ht : m.table with
  | none => rfl
  | some a => simp only [Heap.table, e a (.inr (.inr ht))]

theorem map_opt_congr {α β : Type} {f g : α → β} {l : List (Option α)}
    (h : ∀ x, some x ∈ l → f x = g x) : l.map (Option.map f) = l.map (Option.map g) := by
  refine List.map_congr_left fun x hx => ?_
  cases x with
  | none => rfl
  | some y => simp [h y hx]

omit [NumText F] in
/-- New arrays do not disturb anything. -/
theorem Agree.grow {p : Proc F} {c : Copies F} {o : List Hold} (h : Agree p c o)
    (l : List (Box F)) : Agree { p with heap := p.heap ++ l } c o := by
  have e : ∀ a, a < p.heap.length → (p.heap ++ l)[a]? = p.heap[a]? := fun a ha =>
    List.getElem?_append_left ha
  have eS : ∀ s, some s ∈ p.specs → ∀ a, s.uses a → (p.heap ++ l)[a]? = p.heap[a]? := by
    intro s hs a ha
    obtain ⟨dt, xs, hx⟩ := h.inS s hs a ha
    exact e a (List.getElem?_eq_some_iff.1 hx).1
  constructor
  · exact h.len
  · rw [h.vars]
    refine map_opt_congr fun r hr => (heldAt_frame fun a ha => e a ?_).symm
    subst ha
    exact h.inV a hr
  · rw [h.specs]
    exact map_opt_congr fun s hs => (get_frame (eS s hs)).symm
  · rw [h.asked]
    exact map_opt_congr fun m hm => (asked_frame fun a ha => e a (h.inM m hm a ha)).symm
  · rw [h.stored]
    exact map_opt_congr fun m hm => (stored_frame fun a ha => e a (h.inM m hm a ha)).symm
  · intro a ha
    have := h.inV a ha
    simp only [List.length_append]
    omega
  · intro s hs a ha
    obtain ⟨dt, xs, hx⟩ := h.inS s hs a ha
    exact ⟨dt, xs, by rw [eS s hs a ha]; exact hx⟩
  · intro m hm a ha
    have := h.inM m hm a ha
    simp only [List.length_append]
    omega
  · exact h.own
  · intro i b a hi ha
    obtain ⟨x, hx, hk⟩ := h.kind i b a hi ha
    exact ⟨x, by rw [e a (List.getElem?_eq_some_iff.1 hx).1]; exact hx, hk⟩

omit [NumText F] in
/-- Less may be written to. -/
theorem Agree.weaken {p : Proc F} {c : Copies F} {o o' : List Hold} (h : Agree p c o)
    (hl : o'.length = o.length) (hs : ∀ (i : Nat) (b : Bool), o'[i]? = some (.own b) → o[i]? = some (.own b)) :
    Agree p c o' :=
  { h with
    len := h.len.trans hl.symm
    own := fun i b a hi => h.own i b a (hs i b hi)
    kind := fun i b a hi => h.kind i b a (hs i b hi) }

omit [NumText F] in
/-- A new variable. -/
theorem Agree.addVar {p : Proc F} {c : Copies F} {o : List Hold} (h : Agree p c o)
    (r : Option (Ref F)) (k : Hold) (hin : ∀ a, r = some (.addr a) → a < p.heap.length)
    (hold : ∀ (i : Nat) (b : Bool) (a : Nat), o[i]? = some (.own b) → p.vars[i]? = some (some (.addr a)) →
      r ≠ some (.addr a))
    (hnew : ∀ (b : Bool) (a : Nat), k = .own b → r = some (.addr a) →
      (some (Ref.addr a) ∉ p.vars ∧ (∀ s, some s ∈ p.specs → ¬ s.uses a) ∧
        (∀ m, some m ∈ p.mats → ¬ m.uses a)) ∧ ∃ c : Box F, p.heap[a]? = some c ∧ c.isList = b) :
    Agree { p with vars := p.vars ++ [r] }
      { c with vars := c.vars ++ [r.map (heldAt p.heap)] } (o ++ [k]) := by
  have last : ∀ {i : Nat} {b : Bool} {a : Nat}, (o ++ [k])[i]? = some (.own b) →
      (p.vars ++ [r])[i]? = some (some (.addr a)) →
      (i < o.length ∧ o[i]? = some (.own b) ∧ p.vars[i]? = some (some (.addr a))) ∨
        (i = o.length ∧ k = .own b ∧ r = some (.addr a)) := by
    intro i b a hi ha
    rcases lt_trichotomy i o.length with hlt | heq | hgt
    · rw [List.getElem?_append_left hlt] at hi
      rw [List.getElem?_append_left (h.len ▸ hlt)] at ha
      exact .inl ⟨hlt, hi, ha⟩
    · subst heq
      rw [List.getElem?_append_right le_rfl] at hi
      rw [← h.len, List.getElem?_append_right le_rfl] at ha
      simp only [Nat.sub_self, List.getElem?_cons_zero, Option.some.injEq] at hi ha
      exact .inr ⟨rfl, hi, ha⟩
    · rw [List.getElem?_eq_none (by simp; omega)] at hi
      cases hi
  constructor
  · simp [h.len]
  · simp [h.vars]
  · exact h.specs
  · exact h.asked
  · exact h.stored
  · intro a ha
    rcases List.mem_append.1 ha with ha | ha
    · exact h.inV a ha
    · exact hin a (List.mem_singleton.1 ha).symm
  · exact h.inS
  · exact h.inM
  · intro i b a hi ha
    rcases last hi ha with ⟨hlt, hi', ha'⟩ | ⟨rfl, hk, hr⟩
    · obtain ⟨h1, h2, h3⟩ := h.own i b a hi' ha'
      refine ⟨fun j hj => ?_, h2, h3⟩
      rcases lt_or_ge j p.vars.length with hjl | hjl
      · rw [List.getElem?_append_left hjl] at hj
        exact h1 j hj
      · rw [List.getElem?_append_right hjl] at hj
        obtain ⟨h4, h5⟩ := List.getElem?_eq_some_iff.1 hj
        simp only [List.length_singleton, Nat.lt_one_iff] at h4
        simp only [h4, List.getElem_cons_zero] at h5
        exact absurd h5 (hold i b a hi' ha')
    · obtain ⟨⟨h1, h2, h3⟩, -⟩ := hnew b a hk hr
      refine ⟨fun j hj => ?_, h2, h3⟩
      rcases lt_or_ge j p.vars.length with hjl | hjl
      · rw [List.getElem?_append_left hjl] at hj
        exact absurd (List.mem_of_getElem? hj) h1
      · have := (List.getElem?_eq_some_iff.1 hj).1
        simp only [List.length_append, List.length_singleton] at this
        rw [← h.len]
        omega
  · intro i b a hi ha
    rcases last hi ha with ⟨hlt, hi', ha'⟩ | ⟨rfl, hk, hr⟩
    · exact h.kind i b a hi' ha'
    · exact (hnew b a hk hr).2

omit [NumText F] in
/-- A new or changed Spectrum object: the list of objects is replaced by one whose members were
there before or are `x`. -/
theorem Agree.newSpecs {p : Proc F} {c : Copies F} {o : List Hold} (h : Agree p c o)
    (l : List (Option (HSpectrum F))) (x : Option (HSpectrum F))
    (hl : ∀ s, some s ∈ l → some s ∈ p.specs ∨ x = some s)
    (hin : ∀ s, x = some s → ∀ a, s.uses a → ∃ dt xs, p.heap[a]? = some (.arr (.d1 dt xs)))
    (hold : ∀ s, x = some s → ∀ a, s.uses a → ∀ (i : Nat) (b : Bool), o[i]? = some (.own b) →
      p.vars[i]? ≠ some (some (.addr a))) :
    Agree { p with specs := l }
      { c with specs := l.map (Option.map (HSpectrum.get p.heap)) } o :=
  { h with
    specs := rfl
    inS := fun s hs a ha => by
      rcases hl s hs with hs | hs
      · exact h.inS s hs a ha
      · exact hin s hs a ha
    own := fun i b a hi ha => by
      obtain ⟨h1, h2, h3⟩ := h.own i b a hi ha
      refine ⟨h1, fun s hs hu => ?_, h3⟩
      rcases hl s hs with hs | hs
      · exact h2 s hs hu
      · exact hold s hs a hu i b hi ha }

omit [NumText F] in
/-- A new material. -/
theorem Agree.addMat {p : Proc F} {c : Copies F} {o : List Hold} (h : Agree p c o)
    (x : Option (HMaterial F)) (y : Option (Material F))
    (ha : y = x.map (HMaterial.asked p.heap)) (hs : y = x.map (HMaterial.stored p.heap))
    (hin : ∀ m, x = some m → ∀ a, m.uses a → a < p.heap.length)
    (hold : ∀ m, x = some m → ∀ a, m.uses a → ∀ (i : Nat) (b : Bool), o[i]? = some (.own b) →
      p.vars[i]? ≠ some (some (.addr a))) :
    Agree { p with mats := p.mats ++ [x] } { c with mats := c.mats ++ [y] } o :=
  { h with
    asked := by simp [h.asked, ha]
    stored := by simp [h.stored, hs]
    inM := fun m hm a hu => by
      rcases List.mem_append.1 hm with hm | hm
      · exact h.inM m hm a hu
      · exact hin m (List.mem_singleton.1 hm).symm a hu
    own := fun i b a hi hv => by
      obtain ⟨h1, h2, h3⟩ := h.own i b a hi hv
      refine ⟨h1, h2, fun m hm hu => ?_⟩
      rcases List.mem_append.1 hm with hm | hm
      · exact h3 m hm hu
      · exact hold m (List.mem_singleton.1 hm).symm a hu i b hi hv }

omit [PyFloat F] [SciPy F] [NumText F] in
theorem accepts_isList {x y : Box F} (h : x.accepts y = true) : y.isList = x.isList := by
  unfold Box.accepts at h
  split at h <;> first | rfl | cases h

omit [NumText F] in
/-- A write to an own variable. -/
theorem Agree.write {p : Proc F} {c : Copies F} {o : List Hold} (h : Agree p c o) {i a : Nat}
    {b : Bool} (hi : o[i]? = some (.own b)) (hv : p.vars[i]? = some (some (.addr a)))
    {old new : Box F} (ho : p.heap[a]? = some old) (hacc : old.accepts new = true) :
    Agree { p with heap := p.heap.set a new }
      { c with vars := c.vars.set i (some (.cell new)) } o := by
  obtain ⟨h1, h2, h3⟩ := h.own i b a hi hv
  have hal : a < p.heap.length := (List.getElem?_eq_some_iff.1 ho).1
  have e : ∀ a', a' ≠ a → (p.heap.set a new)[a']? = p.heap[a']? := fun a' hne =>
    List.getElem?_set_ne (Ne.symm hne)
  have eS : ∀ s, some s ∈ p.specs → ∀ a', s.uses a' → (p.heap.set a new)[a']? = p.heap[a']? :=
    fun s hs a' ha' => e a' fun hh => h2 s hs (hh ▸ ha')
  have eM : ∀ m, some m ∈ p.mats → ∀ a', m.uses a' → (p.heap.set a new)[a']? = p.heap[a']? :=
    fun m hm a' ha' => e a' fun hh => h3 m hm (hh ▸ ha')
  constructor
  · exact h.len
  · rw [h.vars]
    apply List.ext_getElem?
    intro j
    rw [List.getElem?_set]
    split
    · next hj =>
      subst hj
      rw [if_pos (by rw [List.length_map]; exact (List.getElem?_eq_some_iff.1 hv).1),
        List.getElem?_map, hv]
      simp [heldAt, List.getElem?_set_self hal]
    · next hj =>
      rw [List.getElem?_map, List.getElem?_map]
      cases hx : p.vars[j]? with
      | none => rfl
      | some x =>
        cases x with
        | none => rfl
        | some r =>
          simp only [Option.map_some]
          rw [heldAt_frame fun a' ha' => e a' fun hh => hj (h1 j (by rw [hx, ha', hh])).symm]
  · rw [h.specs]
    exact map_opt_congr fun s hs => (get_frame (eS s hs)).symm
  · rw [h.asked]
    exact map_opt_congr fun m hm => (asked_frame (eM m hm)).symm
  · rw [h.stored]
    exact map_opt_congr fun m hm => (stored_frame (eM m hm)).symm
  · intro a' ha'
    simpa using h.inV a' ha'
  · intro s hs a' ha'
    obtain ⟨dt, xs, hx⟩ := h.inS s hs a' ha'
    exact ⟨dt, xs, (eS s hs a' ha').trans hx⟩
  · intro m hm a' ha'
    simpa using h.inM m hm a' ha'
  · exact h.own
  · intro j b' a' hj ha'
    obtain ⟨x, hx, hk⟩ := h.kind j b' a' hj ha'
    by_cases hne : a' = a
    · subst hne
      refine ⟨new, List.getElem?_set_self hal, ?_⟩
      rw [ho] at hx
      cases hx
      rw [accepts_isList hacc, hk]
    · exact ⟨x, (e a' hne).trans hx, hk⟩

/-! ### Reading arguments -/

theorem entry_some {α : Type} {l : List (Option α)} {i : Nat} {x : α} (h : entry l i = some x) :
    l[i]? = some (some x) := by
  unfold entry at h
  cases hl : l[i]? with
  | none => rw [hl] at h; cases h
  | some y =>
    rw [hl] at h
    cases y with
    | none => cases h
    | some z => cases h; rfl

theorem entry_mem {α : Type} {l : List (Option α)} {i : Nat} {x : α} (h : entry l i = some x) :
    some x ∈ l := List.mem_of_getElem? (entry_some h)

theorem join_map_opt {α β : Type} (f : α → β) (l : List (Option α)) (i : Nat) :
    ((l.map (Option.map f))[i]?).join = (entry l i).map f := by
  unfold entry
  rw [List.getElem?_map]
  cases l[i]? with
  | none => rfl
  | some y => cases y <;> rfl

omit [NumText F] in
/-- A variable in both programs. -/
theorem Agree.var {p : Proc F} {c : Copies F} {o : List Hold} (h : Agree p c o) (i : Nat) :
    (entry p.vars i = none ∧ p.cellOf (.var i) = none ∧ c.held (.var i) = none) ∨
    (∃ x, entry p.vars i = some (.num x) ∧ p.cellOf (.var i) = none ∧
      c.held (.var i) = some (.num x)) ∨
    (∃ a x, entry p.vars i = some (.addr a) ∧ p.heap[a]? = some x ∧
      p.cellOf (.var i) = some (a, x) ∧ c.held (.var i) = some (.cell x)) := by
  have hc : c.held (.var i) = (entry p.vars i).map (heldAt p.heap) := by
    show (c.vars[i]?).join = _
    rw [h.vars, join_map_opt]
  cases he : entry p.vars i with
  | none => exact .inl ⟨rfl, by simp [Proc.cellOf, he], by rw [hc, he]; rfl⟩
  | some r =>
    cases r with
    | num x => exact .inr (.inl ⟨x, rfl, by simp [Proc.cellOf, he], by rw [hc, he]; rfl⟩)
    | addr a =>
      have hlt := h.inV a (entry_mem he)
      have hx := List.getElem?_eq_getElem hlt
      exact .inr (.inr ⟨a, _, rfl, hx, by simp [Proc.cellOf, he, hx],
        by rw [hc, he]; simp [heldAt, hx]⟩)

omit [NumText F] in
theorem Agree.raw_eq {p : Proc F} {c : Copies F} {o : List Hold} (h : Agree p c o)
    (g : Given F) : c.raw g = p.raw g := by
  cases g with
  | num x => rfl
  | lit dt xs => rfl
  | var i =>
    rcases h.var i with ⟨h1, h2, h3⟩ | ⟨x, h1, h2, h3⟩ | ⟨a, x, h1, h2, h3, h4⟩
    · simp only [Copies.raw, Proc.raw, h1, h2, h3]
    · simp only [Copies.raw, Proc.raw, h1, h2, h3]
    · simp only [Copies.raw, Proc.raw, h3, h4]
      cases x with
      | list dt xs => rfl
      | arr t => cases t <;> rfl

omit [NumText F] in
theorem Agree.params_eq {p : Proc F} {c : Copies F} {o : List Hold} (h : Agree p c o)
    (g : Given F) : c.params g = (p.paramsOf g).map Prod.fst := by
  cases g with
  | num x => rfl
  | lit dt xs => rfl
  | var i =>
    rcases h.var i with ⟨h1, h2, h3⟩ | ⟨x, h1, h2, h3⟩ | ⟨a, x, h1, h2, h3, h4⟩
    · simp only [Copies.params, Proc.paramsOf, h2, h3]; rfl
    · simp only [Copies.params, Proc.paramsOf, h2, h3]; rfl
    · simp only [Copies.params, Proc.paramsOf, h3, h4]
      cases x with
      | list dt xs => rfl
      | arr t => cases t <;> rfl

omit [NumText F] in
theorem cellOf_var {p : Proc F} {g : Given F} {a : Nat} {x : Box F}
    (h : p.cellOf g = some (a, x)) : ∃ i, g = .var i ∧ p.vars[i]? = some (some (.addr a)) ∧
      p.heap[a]? = some x := by
  cases g with
  | num x => cases h
  | lit dt xs => cases h
  | var i =>
    unfold Proc.cellOf at h
    dsimp only at h
    split at h
    · next b hb =>
      cases hx : p.heap[b]? with
      | none => rw [hx] at h; cases h
      | some y =>
        rw [hx] at h
        cases h
        exact ⟨i, rfl, entry_some hb, hx⟩
    · cases h

omit [NumText F] in
/-- What is kept is an array of a variable. -/
theorem kept_some {p : Proc F} {g : Given F} {a : Nat} (h : p.kept g = some a) :
    ∃ i dt xs, g = .var i ∧ p.vars[i]? = some (some (.addr a)) ∧
      p.heap[a]? = some (.arr (.d1 dt xs)) ∧ p.raw g = .ndarray dt xs := by
  unfold Proc.kept at h
  split at h
  · next b dt xs hb =>
    cases h
    obtain ⟨i, rfl, h1, h2⟩ := cellOf_var hb
    exact ⟨i, dt, xs, rfl, h1, h2, by simp only [Proc.raw, hb]; rfl⟩
  · cases h

omit [NumText F] in
theorem paramsOf_some {p : Proc F} {g : Given F} {xs : List F} {a : Nat}
    (h : p.paramsOf g = some (xs, some a)) : ∃ i, g = .var i ∧
      p.vars[i]? = some (some (.addr a)) ∧ p.heap.params a = xs ∧ a < p.heap.length := by
  unfold Proc.paramsOf at h
  split at h
  · simp at h
  · next b c _ hb =>
    cases hc : c.params with
    | none => rw [hc] at h; cases h
    | some ys =>
      rw [hc] at h
      cases h
      obtain ⟨i, rfl, h1, h2⟩ := cellOf_var hb
      exact ⟨i, rfl, h1, by simp [Heap.params, h2, hc], (List.getElem?_eq_some_iff.1 h2).1⟩
  · cases h

/-! ### What is given away -/

omit [PyFloat F] [SciPy F] [NumText F] in
theorem give_length (o : List Hold) (g : Given F) : (give o g).length = o.length := by
  cases g <;> simp [give]

omit [PyFloat F] [SciPy F] [NumText F] in
theorem give_sub (o : List Hold) (g : Given F) (i : Nat) (b : Bool)
    (h : (give o g)[i]? = some (.own b)) : o[i]? = some (.own b) := by
  cases g with
  | num x => exact h
  | lit dt xs => exact h
  | var j =>
    simp only [give, List.getElem?_set] at h
    split_ifs at h <;> first | exact h | simp at h

omit [PyFloat F] [SciPy F] [NumText F] in
theorem giveArray_length (o : List Hold) (g : Given F) : (giveArray o g).length = o.length := by
  cases g with
  | num x => rfl
  | lit dt xs => rfl
  | var j => simp only [giveArray]; split_ifs <;> simp

omit [PyFloat F] [SciPy F] [NumText F] in
theorem giveArray_sub (o : List Hold) (g : Given F) (i : Nat) (b : Bool)
    (h : (giveArray o g)[i]? = some (.own b)) : o[i]? = some (.own b) := by
  cases g with
  | num x => exact h
  | lit dt xs => exact h
  | var j =>
    simp only [giveArray] at h
    split_ifs at h with hj
    · exact h
    · exact give_sub o (.var j : Given F) i b h

omit [NumText F] in
/-- After a variable has been given away, no own variable refers to its array. -/
theorem Agree.given {p : Proc F} {c : Copies F} {o : List Hold} (h : Agree p c o) {i a : Nat}
    (hv : p.vars[i]? = some (some (.addr a))) (j : Nat) (b : Bool)
    (hj : (o.set i .shared)[j]? = some (.own b)) : p.vars[j]? ≠ some (some (.addr a)) := by
  intro hja
  rw [List.getElem?_set] at hj
  split_ifs at hj with h1
  · simp at hj
  · exact h1 (((h.own j b a hj hja).1 i hv))

omit [NumText F] in
theorem Agree.givenArray {p : Proc F} {c : Copies F} {o : List Hold} (h : Agree p c o)
    {g : Given F} {a : Nat} (hk : p.kept g = some a) (j : Nat) (b : Bool)
    (hj : (giveArray o g)[j]? = some (.own b)) : p.vars[j]? ≠ some (some (.addr a)) := by
  obtain ⟨i, dt, xs, rfl, hv, hx, -⟩ := kept_some hk
  simp only [giveArray] at hj
  split_ifs at hj with h1
  · obtain ⟨x, hx', hl⟩ := h.kind i true a h1 hv
    rw [hx] at hx'
    cases hx'
    cases hl
  · exact h.given hv j b hj

omit [NumText F] in
theorem Agree.givenAny {p : Proc F} {c : Copies F} {o : List Hold} (h : Agree p c o)
    {g : Given F} {xs : List F} {a : Nat} (hk : p.paramsOf g = some (xs, some a)) (j : Nat)
    (b : Bool) (hj : (give o g)[j]? = some (.own b)) : p.vars[j]? ≠ some (some (.addr a)) := by
  obtain ⟨i, rfl, hv, -, -⟩ := paramsOf_some hk
  exact h.given hv j b hj

/-! ### New objects -/

omit [SciPy F] [NumText F] in
theorem put_spec (h : Heap F) (v : Vals F) : ∃ l, (h.put v).2 = h ++ l ∧
    Heap.vals (h.put v).2 (h.put v).1 = v ∧ heldAt (h.put v).2 (h.put v).1 = .ofVals v ∧
    ∀ a, (h.put v).1 = .addr a → h.length ≤ a ∧
      ∃ dt xs, (h.put v).2[a]? = some (.arr (.d1 dt xs)) := by
  cases v with
  | scalar x => exact ⟨[], by simp [Heap.put], rfl, rfl, fun a ha => by cases ha⟩
  | array dt xs =>
    have e : (h ++ [Box.arr (.d1 dt xs)])[h.length]? = some (.arr (.d1 dt xs)) := by simp
    refine ⟨[.arr (.d1 dt xs)], rfl, ?_, ?_, ?_⟩
    · simp only [Heap.put, Heap.vals, e, Box.vals]
    · simp only [Heap.put, heldAt, e]; rfl
    · intro a ha
      have : h.length = a := Ref.addr.inj ha
      subst this
      exact ⟨le_rfl, dt, xs, e⟩

omit [SciPy F] [NumText F] in
theorem new_metres {raw : Raw F} {t u : String} {s : Spectrum F}
    (h : Spectrum.new raw t u = .ok s) (hm : s.stype = "wavelength" ∧ s.unit = "m") :
    s.std = s.values := by
  unfold Spectrum.new at h
  dsimp only at h
  split at h
  · obtain ⟨u', -, h⟩ := except_bind_ok h
    obtain ⟨v, hv, h⟩ := except_bind_ok h
    obtain ⟨w, hw, h⟩ := except_bind_ok h
    cases h
    rw [standardiseValues, if_neg (by simpa using hm)] at hw
    exact (Except.ok.inj hw).symm
  · cases h

omit [SciPy F] [NumText F] in
theorem new_ndarray {dt : DType} {xs : List F} {t u : String} {s : Spectrum F}
    (h : Spectrum.new (.ndarray dt xs) t u = .ok s) : s.values = .array dt xs := by
  unfold Spectrum.new at h
  dsimp only at h
  split at h
  · obtain ⟨u', -, h⟩ := except_bind_ok h
    obtain ⟨v, hv, h⟩ := except_bind_ok h
    obtain ⟨w, hw, h⟩ := except_bind_ok h
    cases h
    exact (Except.ok.inj hv).symm
  · cases h

omit [SciPy F] [NumText F] in
/-- A new Spectrum object has the numbers that it should have and refers to new arrays, or to
the array that is kept. -/
theorem build_spec (h : Heap F) (keep : Option Nat) (s : Spectrum F)
    (hk : ∀ a, keep = some a → ∃ dt xs, h[a]? = some (.arr (.d1 dt xs)) ∧ s.values = .array dt xs)
    (hm : s.stype = "wavelength" ∧ s.unit = "m" → s.std = s.values) :
    ∃ l, (HSpectrum.build h keep s).2 = h ++ l ∧
      (HSpectrum.build h keep s).1.get (HSpectrum.build h keep s).2 = s ∧
      ∀ a, (HSpectrum.build h keep s).1.uses a → (keep = some a ∨ h.length ≤ a) ∧
        ∃ dt xs, (HSpectrum.build h keep s).2[a]? = some (.arr (.d1 dt xs)) := by
  -- the first reference
  obtain ⟨v, hv⟩ : ∃ v, v = h.keepOrPut keep s.values := ⟨_, rfl⟩
  have hv1 : ∃ l, v.2 = h ++ l ∧ Heap.vals v.2 v.1 = s.values ∧
      ∀ a, v.1 = .addr a → (keep = some a ∨ h.length ≤ a) ∧
        ∃ dt xs, v.2[a]? = some (.arr (.d1 dt xs)) := by
    cases keep with
    | some a =>
      obtain ⟨dt, xs, h1, h2⟩ := hk a rfl
      subst hv
      refine ⟨[], by simp [Heap.keepOrPut],
        by simp only [Heap.keepOrPut, Heap.vals, h1, h2, Box.vals], fun b hb => ?_⟩
      have : a = b := Ref.addr.inj hb
      subst this
      exact ⟨.inl rfl, dt, xs, h1⟩
    | none =>
      subst hv
      obtain ⟨l, h1, h2, -, h3⟩ := put_spec h s.values
      exact ⟨l, h1, h2, fun a ha => ⟨.inr (h3 a ha).1, (h3 a ha).2⟩⟩
  obtain ⟨l, hl, hval, huse⟩ := hv1
  have hb : HSpectrum.build h keep s =
      ({ values := v.1, stype := s.stype, unit := s.unit,
         std := (if s.stype = "wavelength" ∧ s.unit = "m" then v else v.2.put s.std).1 },
       (if s.stype = "wavelength" ∧ s.unit = "m" then v else v.2.put s.std).2) := by
    unfold HSpectrum.build
    rw [← hv]
  rw [hb]
  by_cases hme : s.stype = "wavelength" ∧ s.unit = "m"
  · simp only [if_pos hme]
    refine ⟨l, hl, ?_, ?_⟩
    · unfold HSpectrum.get
      simp only [hval]
      have e := hm hme
      cases s
      simp only at e
      subst e
      rfl
    · rintro a (ha | ha) <;> exact huse a ha
  · simp only [if_neg hme]
    obtain ⟨l', h1, h2, -, h3⟩ := put_spec v.2 s.std
    refine ⟨l ++ l', by rw [h1, hl, List.append_assoc], ?_, ?_⟩
    · unfold HSpectrum.get
      simp only [h2]
      have : Heap.vals (v.2.put s.std).2 v.1 = s.values := by
        rw [← hval]
        refine vals_frame fun a ha => ?_
        obtain ⟨-, dt, xs, hx⟩ := huse a ha
        rw [h1, List.getElem?_append_left (List.getElem?_eq_some_iff.1 hx).1]
      rw [this]
    · rintro a (ha | ha)
      · obtain ⟨h4, dt, xs, hx⟩ := huse a ha
        refine ⟨h4, dt, xs, ?_⟩
        show (v.2.put s.std).2[a]? = _
        rw [h1, List.getElem?_append_left (List.getElem?_eq_some_iff.1 hx).1]
        exact hx
      · obtain ⟨h4, h5⟩ := h3 a ha
        refine ⟨.inr (le_trans ?_ h4), h5⟩
        rw [hl]
        simp

theorem handsOut_eq (t u : String) : handsOut t u = inMetres t u := by
  unfold handsOut inMetres
  by_cases ht : lower t = "wavelength"
  · simp only [ht, decide_true, Bool.true_and]
    rw [Bool.eq_iff_iff]
    simp only [decide_eq_true_eq, standardiseUnit_ok_iff (show dictHas spectrumTypes "wavelength" = true
      by decide)]
    constructor
    · intro h
      simp [Spec.names] at h
      simpa using h
    · intro h
      simp at h
      rcases h with rfl | rfl | rfl <;> decide
  · simp [ht]

omit [SciPy F] [NumText F] in
/-- The conversion to wavelengths in metres returns `standard_rep`. -/
theorem convertCore_metres {t u : String} (h : handsOut t u = true) (s : Spectrum F) :
    s.convertCore t u = .ok ("wavelength", "m", s.std) := by
  unfold handsOut at h
  simp only [Bool.and_eq_true, decide_eq_true_eq] at h
  obtain ⟨h1, h2⟩ := h
  rw [h1] at h2
  unfold Spectrum.convertCore
  simp only [h1, h2, bind, Except.bind]
  rfl

omit [NumText F] in
/-- The array of a Spectrum object as a variable. -/
theorem Agree.heldSpec {p : Proc F} {c : Copies F} {o : List Hold} (h : Agree p c o)
    {s : HSpectrum F} (hs : some s ∈ p.specs) (r : Ref F) (hr : ∀ a, r = .addr a → s.uses a) :
    heldAt p.heap r = .ofVals (p.heap.vals r) := by
  cases r with
  | num x => rfl
  | addr a =>
    obtain ⟨dt, xs, hx⟩ := h.inS s hs a (hr a rfl)
    simp only [heldAt, Heap.vals, hx]
    rfl

/-! ### The simulation -/

omit [NumText F] in
theorem Agree.spec_entry {p : Proc F} {c : Copies F} {o : List Hold} (h : Agree p c o)
    (s : Nat) : (c.specs[s]?).join = (entry p.specs s).map (HSpectrum.get p.heap) := by
  rw [h.specs, join_map_opt]

omit [NumText F] in
theorem Agree.fresh {p : Proc F} {c : Copies F} {o : List Hold} (h : Agree p c o) {a : Nat}
    (ha : p.heap.length ≤ a) : some (Ref.addr a) ∉ p.vars ∧
      (∀ s, some s ∈ p.specs → ¬ s.uses a) ∧ (∀ m, some m ∈ p.mats → ¬ m.uses a) := by
  refine ⟨fun hv => ?_, fun s hs hu => ?_, fun m hm hu => ?_⟩
  · have := h.inV a hv; omega
  · obtain ⟨dt, xs, hx⟩ := h.inS s hs a hu
    have := (List.getElem?_eq_some_iff.1 hx).1
    omega
  · have := h.inM m hm a hu; omega

omit [NumText F] in
/-- A new array in a new variable. -/
theorem Agree.addPut {p : Proc F} {c : Copies F} {o : List Hold} (h : Agree p c o)
    (v : Vals F) : Agree { p with heap := (p.heap.put v).2,
                                  vars := p.vars ++ [some (p.heap.put v).1] }
      { c with vars := c.vars ++ [some (.ofVals v)] } (o ++ [.own false]) := by
  obtain ⟨l, h1, h2, h3, h4⟩ := put_spec p.heap v
  have hg := h.grow l
  rw [← h1] at hg
  have := hg.addVar (some (p.heap.put v).1) (.own false)
    (fun a ha => by
      obtain ⟨-, dt, xs, hx⟩ := h4 a (Option.some.inj ha)
      exact (List.getElem?_eq_some_iff.1 hx).1)
    (fun i b a hi ha hr => by
      have h5 := (h4 a (Option.some.inj hr)).1
      exact (h.fresh h5).1 (List.mem_of_getElem? ha))
    (fun b a hb hr => by
      obtain ⟨h5, dt, xs, hx⟩ := h4 a (Option.some.inj hr)
      cases hb
      exact ⟨h.fresh h5, _, hx, rfl⟩)
  simp only [Option.map_some, h3] at this
  exact this

omit [NumText F] in
/-- An array of an object in a new variable. -/
theorem Agree.addShared {p : Proc F} {c : Copies F} {o : List Hold} (h : Agree p c o)
    {s : HSpectrum F} (hs : some s ∈ p.specs) (r : Ref F) (hr : ∀ a, r = .addr a → s.uses a) :
    Agree { p with vars := p.vars ++ [some r] }
      { c with vars := c.vars ++ [some (.ofVals (p.heap.vals r))] } (o ++ [.shared]) := by
  have := h.addVar (some r) .shared
    (fun a ha => by
      obtain ⟨dt, xs, hx⟩ := h.inS s hs a (hr a (Option.some.inj ha))
      exact (List.getElem?_eq_some_iff.1 hx).1)
    (fun i b a hi ha he => (h.own i b a hi ha).2.1 s hs (hr a (Option.some.inj he)))
    (fun b a hb => by cases hb)
  simp only [Option.map_some, h.heldSpec hs r hr] at this
  exact this

omit [NumText F] in
/-- A variable that stays unset. -/
theorem Agree.addUnset {p : Proc F} {c : Copies F} {o : List Hold} (h : Agree p c o) (k : Hold) :
    Agree { p with vars := p.vars ++ [none] } { c with vars := c.vars ++ [none] } (o ++ [k]) :=
  h.addVar none k (fun a ha => by cases ha) (fun i b a hi ha he => by cases he)
    (fun b a hb he => by cases he)

omit [NumText F] in
theorem Agree.addNoMat {p : Proc F} {c : Copies F} {o : List Hold} (h : Agree p c o) :
    Agree { p with mats := p.mats ++ [none] } { c with mats := c.mats ++ [none] } o :=
  h.addMat none none rfl rfl (fun m hm => by cases hm) (fun m hm => by cases hm)

omit [NumText F] in
theorem Agree.addNoSpec {p : Proc F} {c : Copies F} {o : List Hold} (h : Agree p c o) :
    Agree { p with specs := p.specs ++ [none] } { c with specs := c.specs ++ [none] } o := by
  have := h.newSpecs (p.specs ++ [none]) none (fun s hs => by
    rcases List.mem_append.1 hs with hs | hs
    · exact .inl hs
    · simp at hs) (fun s hs => by cases hs) (fun s hs => by cases hs)
  simp only [List.map_append, ← h.specs] at this
  exact this

/-- One statement: the caller sees the same, and the invariant holds again. -/
theorem step_agree {p : Proc F} {c : Copies F} {o : List Hold} (h : Agree p c o) (x : Act F)
    (ha : Allowed o x) :
    (p.step x).1 = (c.step x).1 ∧ Agree (p.step x).2 (c.step x).2 (holds o x) := by
  cases x with
  | make y =>
    refine ⟨rfl, ?_⟩
    have hg := h.grow [y]
    have key : ∀ k, (∀ b, k = Hold.own b → y.isList = b) →
        Agree ((p.step (.make y)).2) ((c.step (.make y)).2) (o ++ [k]) := by
      intro k hk
      have := hg.addVar (some (.addr p.heap.length)) k
        (fun a ha => by cases ha; simp)
        (fun i b a hi hv hr => by cases hr; exact (h.fresh le_rfl).1 (List.mem_of_getElem? hv))
        (fun b a hb hr => by
          cases hr
          exact ⟨h.fresh le_rfl, y, by simp, hk b hb⟩)
      simp only [Option.map_some, heldAt] at this
      simpa [Proc.step, Copies.step] using this
    cases y with
    | list dt xs => exact key _ fun b hb => by cases hb; rfl
    | arr t => exact key _ fun b hb => by cases hb; rfl
  | write i y =>
    rcases h.var i with ⟨h1, h2, h3⟩ | ⟨z, h1, h2, h3⟩ | ⟨a, z, h1, h2, h3, h4⟩
    · simp only [Proc.step, Copies.step, h2, h3]
      exact ⟨trivial, h⟩
    · simp only [Proc.step, Copies.step, h2, h3]
      exact ⟨trivial, h⟩
    · simp only [Proc.step, Copies.step, h3, h4]
      by_cases hacc : z.accepts y = true
      · simp only [hacc, if_true]
        refine ⟨trivial, ?_⟩
        have hv := entry_some h1
        have hlt : i < o.length := h.len ▸ (List.getElem?_eq_some_iff.1 hv).1
        have hne : o[i]? ≠ some .shared := ha
        rw [List.getElem?_eq_getElem hlt] at hne
        cases hb : o[i] with
        | shared => exact absurd (congrArg some hb) hne
        | own b =>
          exact h.write (b := b) (by rw [List.getElem?_eq_getElem hlt, hb]) hv h2 hacc
      · simp only [hacc]
        exact ⟨rfl, h⟩
  | look i =>
    rcases h.var i with ⟨h1, h2, h3⟩ | ⟨z, h1, h2, h3⟩ | ⟨a, z, h1, h2, h3, h4⟩
    · simp only [Proc.step, Copies.step, h1, h3]
      exact ⟨trivial, h⟩
    · simp only [Proc.step, Copies.step, h1, h3]
      exact ⟨trivial, h⟩
    · simp only [Proc.step, Copies.step, h1, h2, h4]
      exact ⟨trivial, h⟩
  | spectrum g t u =>
    have hw := h.weaken (giveArray_length o g) (giveArray_sub o g)
    simp only [Proc.step, Copies.step, h.raw_eq]
    cases hs : Spectrum.new (p.raw g) t u with
    | error e => exact ⟨rfl, hw.addNoSpec⟩
    | ok s =>
      refine ⟨rfl, ?_⟩
      obtain ⟨l, h1, h2, h3⟩ := build_spec p.heap (p.kept g) s
        (fun a hk => by
          obtain ⟨i, dt, xs, -, -, hx, hr⟩ := kept_some hk
          rw [hr] at hs
          exact ⟨dt, xs, hx, new_ndarray hs⟩)
        (new_metres hs)
      have hg := hw.grow l
      rw [← h1] at hg
      have := hg.newSpecs (p.specs ++ [some (HSpectrum.build p.heap (p.kept g) s).1])
        (some (HSpectrum.build p.heap (p.kept g) s).1)
        (fun s' hs' => by
          rcases List.mem_append.1 hs' with hs' | hs'
          · exact .inl hs'
          · exact .inr (List.mem_singleton.1 hs').symm)
        (fun s' hs' a hu => by
          cases hs'
          exact (h3 a hu).2)
        (fun s' hs' a hu i b hi hv => by
          cases hs'
          rcases (h3 a hu).1 with hk | hk
          · exact h.givenArray hk i b hi hv
          · exact (h.fresh hk).1 (List.mem_of_getElem? hv))
      have e := hg.specs
      simp only [List.map_append, List.map_cons, List.map_nil, Option.map_some, h2] at this
      simp only at e
      rw [← e] at this
      exact this
  | convert s t u =>
    simp only [Proc.step, Copies.step, h.spec_entry]
    cases he : entry p.specs s with
    | none => exact ⟨rfl, h.addUnset _⟩
    | some w =>
      simp only [Option.map_some]
      cases hc : (w.get p.heap).convertTo t u with
      | error e => exact ⟨rfl, h.addUnset _⟩
      | ok v =>
        simp only [holds, ← handsOut_eq]
        cases hh : handsOut t u with
        | true =>
          refine ⟨rfl, ?_⟩
          have hv : v = p.heap.vals w.std := by
            unfold Spectrum.convertTo at hc
            rw [convertCore_metres hh] at hc
            exact (Except.ok.inj hc).symm
          rw [hv]
          exact h.addShared (entry_mem he) w.std fun a ha => .inr ha
        | false => exact ⟨rfl, h.addPut v⟩
  | convertIn s t u =>
    simp only [Proc.step, Copies.step, h.spec_entry]
    cases he : entry p.specs s with
    | none => exact ⟨rfl, h⟩
    | some w =>
      simp only [Option.map_some, Spectrum.convertInPlace]
      cases hc : (w.get p.heap).convertCore t u with
      | error e => exact ⟨rfl, h⟩
      | ok q =>
        obtain ⟨t', u', v⟩ := q
        have hmem : ∀ (w' : HSpectrum F) (s' : HSpectrum F), some s' ∈ p.specs.set s (some w') →
            some s' ∈ p.specs ∨ some w' = some s' := fun w' s' hs' =>
          (List.mem_or_eq_of_mem_set hs').imp id Eq.symm
        simp only
        cases hh : handsOut t u with
        | true =>
          refine ⟨rfl, ?_⟩
          rw [convertCore_metres hh] at hc
          obtain ⟨rfl, rfl, rfl⟩ : "wavelength" = t' ∧ "m" = u' ∧ (w.get p.heap).std = v := by
            simpa using hc
          have := h.newSpecs _ _ (hmem { w with values := w.std, stype := "wavelength", unit := "m" })
            (fun s' hs' a hu => by
              cases hs'
              exact h.inS w (entry_mem he) a (.inr (hu.elim id id)))
            (fun s' hs' a hu i b hi hv => by
              cases hs'
              exact (h.own i b a hi hv).2.1 w (entry_mem he) (.inr (hu.elim id id)))
          simp only [List.map_set, ← h.specs] at this
          exact this
        | false =>
          refine ⟨rfl, ?_⟩
          obtain ⟨l, h1, h2, -, h4⟩ := put_spec p.heap v
          have hg := h.grow l
          rw [← h1] at hg
          have := hg.newSpecs _ _ (hmem { w with values := (p.heap.put v).1, stype := t', unit := u' })
            (fun s' hs' a hu => by
              cases hs'
              rcases hu with hu | hu
              · exact (h4 a hu).2
              · exact hg.inS w (entry_mem he) a (.inr hu))
            (fun s' hs' a hu i b hi hv => by
              cases hs'
              rcases hu with hu | hu
              · exact (h.fresh (h4 a hu).1).1 (List.mem_of_getElem? hv)
              · exact (h.own i b a hi hv).2.1 w (entry_mem he) (.inr hu))
          have e := hg.specs
          have e2 : HSpectrum.get (p.heap.put v).2
              { w with values := (p.heap.put v).1, stype := t', unit := u' } =
              { w.get p.heap with values := v, stype := t', unit := u' } := by
            unfold HSpectrum.get
            simp only [h2]
            congr 1
            refine vals_frame fun a hu => ?_
            obtain ⟨dt, xs, hx⟩ := h.inS w (entry_mem he) a (.inr hu)
            rw [h1, List.getElem?_append_left (List.getElem?_eq_some_iff.1 hx).1]
          simp only [List.map_set, Option.map_some, e2] at this
          simp only at e
          rw [← e] at this
          exact this
  | values s =>
    simp only [Proc.step, Copies.step, h.spec_entry]
    cases he : entry p.specs s with
    | none => exact ⟨rfl, h.addUnset _⟩
    | some w => exact ⟨rfl, h.addShared (entry_mem he) w.values fun a ha => .inl ha⟩
  | contains s s' =>
    simp only [Proc.step, Copies.step, h.spec_entry]
    cases entry p.specs s <;> cases entry p.specs s' <;> exact ⟨rfl, h⟩
  | model name t u ps rg =>
    have hw1 := h.weaken (give_length o ps) (give_sub o ps)
    have hw := hw1.weaken (giveArray_length _ rg) (giveArray_sub _ rg)
    simp only [Proc.step, Copies.step, h.raw_eq, h.params_eq]
    cases hp : p.paramsOf ps with
    | none => exact ⟨rfl, hw.addNoMat⟩
    | some q =>
      obtain ⟨xs, a⟩ := q
      simp only [Option.map_some]
      cases hm : Material.new noFiles (modelArgs name t u xs (p.raw rg)) with
      | error e => exact ⟨rfl, hw.addNoMat⟩
      | ok m =>
        refine ⟨rfl, ?_⟩
        have e1 : ∀ b, a = some b → m.withParams (p.heap.params b) = m := by
          rintro b rfl
          obtain ⟨-, -, -, e, -⟩ := paramsOf_some hp
          rw [e]
          exact withParams_self hm
        have e2 : ∀ a, p.kept rg = some a → m.withRange (p.heap.vals (.addr a)) = m := by
          intro a hk
          obtain ⟨-, dt, ys, -, -, hx, hr⟩ := kept_some hk
          rw [hr] at hm
          simp only [Heap.vals, hx, Box.vals]
          exact withRange_self hm
        have e3 : HMaterial.asked p.heap ⟨m, a, p.kept rg, none⟩ = m := by
          unfold HMaterial.asked
          cases hk : p.kept rg with
          | none =>
            cases hb : a with
            | none => rfl
            | some b => exact e1 b hb
          | some b' =>
            cases hb : a with
            | none => exact e2 b' hk
            | some b => simp only [e1 b hb, e2 b' hk]
        refine hw.addMat (some ⟨m, a, p.kept rg, none⟩) (some m) (by simp [e3])
          (by simp [HMaterial.stored, e3]) ?_ ?_
        · rintro _ hx b (hu | hu | hu) <;> cases hx
          · dsimp only at hu
            subst hu
            exact (paramsOf_some hp).choose_spec.2.2.2
          · obtain ⟨_, _, _, _, _, hx, _⟩ := kept_some hu
            exact (List.getElem?_eq_some_iff.1 hx).1
          · cases hu
        · rintro _ hx b (hu | hu | hu) i b' hi <;> cases hx
          · dsimp only at hu
            subst hu
            exact h.givenAny hp i b' (giveArray_sub _ rg i b' hi)
          · exact hw1.givenArray hu i b' hi
          · cases hu
  | table arg i t u =>
    have hsub : (holds o (.table arg i t u : Act F)).length = o.length := by
      simp only [holds]; split_ifs <;> simp [give]
    have hw : Agree p c (holds o (.table arg i t u : Act F)) := by
      simp only [holds]
      split_ifs
      · exact h.weaken (give_length o _) (give_sub o _)
      · exact h
    rcases h.var i with ⟨h1, h2, h3⟩ | ⟨z, h1, h2, h3⟩ | ⟨a, z, h1, h2, h3, h4⟩
    · simp only [Proc.step, Copies.step, h2, h3]
      exact ⟨trivial, hw.addNoMat⟩
    · simp only [Proc.step, Copies.step, h2, h3]
      exact ⟨trivial, hw.addNoMat⟩
    · simp only [Proc.step, Copies.step, h3, h4]
      cases hm : Material.new noFiles (tableArgs arg t u z.table) with
      | error e => exact ⟨rfl, hw.addNoMat⟩
      | ok m =>
        refine ⟨rfl, ?_⟩
        by_cases hk : arg = "tabulated_n"
        · have hk' : keepsTable arg = true := by simp [keepsTable, hk]
          simp only [hk', if_true]
          refine hw.addMat (some ⟨m, none, none, some a⟩) (some m) rfl ?_ ?_ ?_
          · simp only [Option.map_some, HMaterial.stored, Option.some.injEq]
            subst hk
            cases z with
            | arr t' =>
              have : p.heap.table a = t' := by simp [Heap.table, h2]
              rw [this]
              exact (withTable_self hm).symm
            | list dt xs =>
              exfalso
              have : Material.new noFiles (tableArgs "tabulated_n" t u (.other : PyVal F)) =
                .error .type := rfl
              rw [show Box.table (Box.list dt xs) = .other from rfl, this] at hm
              cases hm
          · rintro _ hx b (hu | hu | hu) <;> cases hx <;> cases hu
            exact (List.getElem?_eq_some_iff.1 h2).1
          · rintro _ hx b (hu | hu | hu) j b' hj <;> cases hx <;> cases hu
            simp only [holds, hk, if_true, give] at hj
            exact h.given (entry_some h1) j b' hj
        · have hk' : keepsTable arg = false := by simp [keepsTable, hk]
          simp only [hk', Bool.false_eq_true, if_false]
          refine hw.addMat (some ⟨m, none, none, none⟩) (some m) rfl rfl ?_ ?_
          · rintro _ hx b (hu | hu | hu) <;> cases hx <;> cases hu
          · rintro _ hx b (hu | hu | hu) <;> cases hx <;> cases hu
  | nk m s =>
    simp only [Proc.step, Copies.step, h.spec_entry]
    rw [h.asked, join_map_opt]
    cases entry p.mats m <;> cases entry p.specs s <;> exact ⟨rfl, h⟩
  | eps m s =>
    simp only [Proc.step, Copies.step, h.spec_entry]
    rw [h.asked, join_map_opt]
    cases entry p.mats m <;> cases entry p.specs s <;> exact ⟨rfl, h⟩
  | save m =>
    simp only [Proc.step, Copies.step]
    rw [h.stored, join_map_opt]
    cases entry p.mats m <;> exact ⟨rfl, h⟩

theorem run_agree (l : List (Act F)) : ∀ {p : Proc F} {c : Copies F} {o : List Hold},
    Agree p c o → Careful o l → p.run l = c.run l := by
  induction l with
  | nil => intro p c o _ _; rfl
  | cons x l ih =>
    intro p c o h hl
    obtain ⟨h1, h2⟩ := step_agree h x hl.1
    rw [Proc.run, Copies.run, h1, ih h2 hl.2]

omit [NumText F] in
theorem agree_start : Agree (F := F) Proc.start Copies.start [] := by
  constructor <;> simp [Proc.start, Copies.start]

/-- C127 for careful callers: a program that writes only to arrays and lists that it has made
itself and not given away, or that a conversion to anything but wavelengths in metres has
returned, sees at every statement what it would see if every object owned its numbers. -/
theorem C127_careful_partial (l : List (Act F)) (h : Careful [] l) :
    Proc.start.run l = Copies.start.run l :=
  run_agree l agree_start h

/-! ## What sharing does -/

/-- C127 in full: whatever the caller writes to, every object behaves as if it owned its
numbers. -/
def C127_statement (F : Type) [PyFloat F] [SciPy F] [NumText F] : Prop :=
  ∀ l : List (Act F), Proc.start.run l = Copies.start.run l

/-- An array of one number. -/
def oneNumber (x : F) : Box F := .arr (.d1 .float [x])

/-- `a = np.array([x]); s = Spectrum(a, 'wavelength', 'm'); a[0] = y;
s.convert_to('wavelength', 'm')` -/
def writeAfter (x y : F) : List (Act F) :=
  [.make (oneNumber x), .spectrum (.var 0) "wavelength" "m", .write 0 (oneNumber y),
    .convert 0 "wavelength" "m", .look 1]

/-- `s = Spectrum([x], 'wavelength', 'm'); v = s.convert_to('wavelength', 'm'); v[0] = y;
s.convert_to('wavelength', 'm')` -/
def writeReturned (x y : F) : List (Act F) :=
  [.spectrum (.lit .float [x]) "wavelength" "m", .convert 0 "wavelength" "m",
    .write 0 (oneNumber y), .convert 0 "wavelength" "m", .look 1]

/-- `a = np.array([x]); s = Spectrum(a, 'wavelength', 'nm'); a[0] = y`; then `s.values` and
`s.convert_to('wavelength', 'm')` -/
def writeNanometres (x y : F) : List (Act F) :=
  [.make (oneNumber x), .spectrum (.var 0) "wavelength" "nm", .write 0 (oneNumber y),
    .values 0, .look 1, .convert 0 "wavelength" "m", .look 2]

/-- `p = [x]; m = Material(model_kw={'name': 'Cauchy', ..., 'parameters': p}); p[0] = y`; then
`m` is saved -/
def writeParameters (x y lo hi : F) : List (Act F) :=
  [.make (.list .float [x]),
    .model "Cauchy" "wavelength" "um" (.var 0) (.lit .float [lo, hi]),
    .write 0 (.list .float [y]), .save 0]

theorem C127_array (x y : F) :
    (Proc.start.run (writeAfter x y)).getLast? = some (.cell (oneNumber y)) ∧
    (Copies.start.run (writeAfter x y)).getLast? = some (.cell (oneNumber x)) := ⟨rfl, rfl⟩

theorem C127_returned (x y : F) :
    (Proc.start.run (writeReturned x y)).getLast? = some (.cell (oneNumber y)) ∧
    (Copies.start.run (writeReturned x y)).getLast? = some (.cell (oneNumber x)) := ⟨rfl, rfl⟩

theorem C127_nanometres (x y : F) :
    Proc.start.run (writeNanometres x y) = [.quiet, .quiet, .quiet, .quiet,
      .cell (oneNumber y), .quiet, .cell (oneNumber (x * lit 1e-9))] := rfl

/-- C127 is false: an array in metres is the Spectrum's own array, and so is the result of a
conversion to metres. -/
theorem C127_refuted [NumText XR] [SciPy XR] : ¬ C127_statement XR := by
  intro h
  have h1 := C127_array (F := XR) (XR.fin 1) (XR.fin 2)
  rw [h (writeAfter (XR.fin 1) (XR.fin 2)), h1.2] at h1
  have h2 := h1.1
  simp only [oneNumber, Option.some.injEq, Seen.cell.injEq, Box.arr.injEq, NDArr.d1.injEq,
    List.cons.injEq, XR.fin.injEq] at h2
  norm_num at h2

/-- The state after a program. -/
def Proc.after (p : Proc F) : List (Act F) → Proc F
  | [] => p
  | x :: l => (p.step x).2.after l

/-- The cell at an address after a change in place. -/
def Changed (h h' : Heap F) : Prop :=
  ∀ (a : Nat) (c : Box F), h[a]? = some c →
    ∃ c' : Box F, h'[a]? = some c' ∧ (c' = c ∨ c.accepts c' = true)

omit [PyFloat F] [SciPy F] [NumText F] in
theorem changed_refl (h : Heap F) : Changed h h := fun _ c hc => ⟨c, hc, .inl rfl⟩

omit [PyFloat F] [SciPy F] [NumText F] in
theorem changed_grow (h l : Heap F) : Changed h (h ++ l) := fun _ c hc =>
  ⟨c, by rw [List.getElem?_append_left (List.getElem?_eq_some_iff.1 hc).1]; exact hc, .inl rfl⟩

omit [SciPy F] [NumText F] in
theorem changed_put (h : Heap F) (v : Vals F) : Changed h (h.put v).2 := by
  obtain ⟨l, hl, -⟩ := put_spec h v
  rw [hl]
  exact changed_grow h l

omit [SciPy F] [NumText F] in
theorem changed_build (h : Heap F) (keep : Option Nat) (s : Spectrum F) :
    Changed h (HSpectrum.build h keep s).2 := by
  have h1 : ∃ l, (h.keepOrPut keep s.values).2 = h ++ l := by
    cases keep with
    | some a => exact ⟨[], by simp [Heap.keepOrPut]⟩
    | none =>
      obtain ⟨l, hl, -⟩ := put_spec h s.values
      exact ⟨l, hl⟩
  obtain ⟨l, hl⟩ := h1
  have h2 : ∃ l', (HSpectrum.build h keep s).2 = h ++ l' := by
    unfold HSpectrum.build
    dsimp only
    split
    · exact ⟨l, hl⟩
    · obtain ⟨l', hl', -⟩ := put_spec (h.keepOrPut keep s.values).2 s.std
      exact ⟨l ++ l', by rw [hl', hl, List.append_assoc]⟩
  obtain ⟨l', hl'⟩ := h2
  rw [hl']
  exact changed_grow h l'

/-- A statement changes arrays only in place, and keeps the variables and the materials that are
there. -/
theorem step_keeps (p : Proc F) (x : Act F) : Changed p.heap (p.step x).2.heap ∧
    p.vars <+: (p.step x).2.vars ∧ p.mats <+: (p.step x).2.mats := by
  have hr := changed_refl p.heap
  have pv : p.vars <+: p.vars := List.prefix_rfl
  have pm : p.mats <+: p.mats := List.prefix_rfl
  have av : ∀ y, p.vars <+: p.vars ++ [y] := fun y => List.prefix_append _ _
  have am : ∀ y, p.mats <+: p.mats ++ [y] := fun y => List.prefix_append _ _
  cases x with
  | make y => exact ⟨changed_grow _ _, av _, pm⟩
  | write i y =>
    simp only [Proc.step]
    split
    · next a old h1 =>
      split
      · next hacc =>
        refine ⟨fun b c hc => ?_, pv, pm⟩
        obtain ⟨_, _, _, hx⟩ := cellOf_var h1
        by_cases hb : b = a
        · subst hb
          refine ⟨y, List.getElem?_set_self (List.getElem?_eq_some_iff.1 hx).1, .inr ?_⟩
          rw [hx] at hc
          cases hc
          exact hacc
        · exact ⟨c, by rw [List.getElem?_set_ne (Ne.symm hb)]; exact hc, .inl rfl⟩
      · exact ⟨hr, pv, pm⟩
    · exact ⟨hr, pv, pm⟩
  | look i =>
    simp only [Proc.step]
    split
    · exact ⟨hr, pv, pm⟩
    · split <;> exact ⟨hr, pv, pm⟩
    · exact ⟨hr, pv, pm⟩
  | spectrum g t u =>
    simp only [Proc.step]
    split
    · exact ⟨changed_build _ _ _, pv, pm⟩
    · exact ⟨hr, pv, pm⟩
  | convert s t u =>
    simp only [Proc.step]
    split
    · exact ⟨hr, av _, pm⟩
    · split
      · exact ⟨hr, av _, pm⟩
      · split
        · exact ⟨hr, av _, pm⟩
        · exact ⟨changed_put _ _, av _, pm⟩
  | convertIn s t u =>
    simp only [Proc.step]
    split
    · exact ⟨hr, pv, pm⟩
    · split
      · exact ⟨hr, pv, pm⟩
      · split
        · exact ⟨hr, pv, pm⟩
        · exact ⟨changed_put _ _, pv, pm⟩
  | values s =>
    simp only [Proc.step]
    split <;> exact ⟨hr, av _, pm⟩
  | contains s s' =>
    simp only [Proc.step]
    split <;> exact ⟨hr, pv, pm⟩
  | model name t u ps rg =>
    simp only [Proc.step]
    split
    · exact ⟨hr, pv, am _⟩
    · split <;> exact ⟨hr, pv, am _⟩
  | table arg i t u =>
    simp only [Proc.step]
    split
    · exact ⟨hr, pv, am _⟩
    · split <;> exact ⟨hr, pv, am _⟩
  | nk m s =>
    simp only [Proc.step]
    split <;> exact ⟨hr, pv, pm⟩
  | eps m s =>
    simp only [Proc.step]
    split <;> exact ⟨hr, pv, pm⟩
  | save m =>
    simp only [Proc.step]
    split <;> exact ⟨hr, pv, pm⟩

theorem accepts_params {c c' : Box F} (h : c.accepts c' = true) :
    c'.params.isSome = c.params.isSome := by
  unfold Box.accepts at h
  split at h <;> first | rfl | cases h

theorem after_keeps (l : List (Act F)) : ∀ (p : Proc F), p.vars <+: (p.after l).vars ∧
    p.mats <+: (p.after l).mats ∧ ∀ (a : Nat) (c : Box F), p.heap[a]? = some c →
      ∃ c' : Box F, (p.after l).heap[a]? = some c' ∧ c'.params.isSome = c.params.isSome := by
  induction l with
  | nil => exact fun p => ⟨List.prefix_rfl, List.prefix_rfl, fun a c hc => ⟨c, hc, rfl⟩⟩
  | cons x l ih =>
    intro p
    obtain ⟨h1, h2, h3⟩ := step_keeps p x
    obtain ⟨k2, k3, k1⟩ := ih (p.step x).2
    refine ⟨h2.trans k2, h3.trans k3, fun a c hc => ?_⟩
    obtain ⟨c', hc', e⟩ := h1 a c hc
    obtain ⟨c'', hc'', e'⟩ := k1 a c' hc'
    refine ⟨c'', hc'', e'.trans ?_⟩
    rcases e with rfl | e
    · rfl
    · exact accepts_params e

theorem entry_prefix {α : Type} {l l' : List (Option α)} (h : l <+: l') {i : Nat} {x : α}
    (he : entry l i = some x) : entry l' i = some x := by
  have h1 := entry_some he
  obtain ⟨r, rfl⟩ := h
  unfold entry
  rw [List.getElem?_append_left (List.getElem?_eq_some_iff.1 h1).1, h1]
  rfl

/-- C127, parameters: a material that is built from a model with a list or an array of
parameters answers, at every later point of every program, with the parameters that the caller's
object holds at that point. (The range is given as a list or a number here.) -/
theorem C127_parameters (p : Proc F) (name t u : String) (i : Nat) (rg : Given F) (r : Raw F)
    (hrg : rg = .num x ∧ r = .float x ∨ rg = .lit dt xs ∧ r = .list dt xs)
    (hok : (p.step (.model name t u (.var i) rg)).1 = .quiet) (l : List (Act F)) :
    let q := (p.step (.model name t u (.var i) rg)).2.after l
    ∃ o a c ps, entry q.mats p.mats.length = some o ∧ entry q.vars i = some (.addr a) ∧
      q.heap[a]? = some c ∧ c.params = some ps ∧
      Material.new noFiles (modelArgs name t u ps r) = .ok (o.asked q.heap) := by
  intro q
  have hraw : p.raw rg = r := by
    rcases hrg with ⟨rfl, rfl⟩ | ⟨rfl, rfl⟩ <;> rfl
  have hkept : p.kept rg = none := by
    rcases hrg with ⟨rfl, rfl⟩ | ⟨rfl, rfl⟩ <;> rfl
  cases hp : p.paramsOf (.var i) with
  | none => simp only [Proc.step, hp] at hok; cases hok
  | some w =>
    obtain ⟨ps, a⟩ := w
    cases hm : Material.new noFiles (modelArgs name t u ps r) with
    | error e => simp only [Proc.step, hp, hraw, hm] at hok; cases hok
    | ok m =>
      have hstep : (p.step (.model name t u (.var i) rg)).2 =
          { p with mats := p.mats ++ [some ⟨m, a, none, none⟩] } := by
        simp only [Proc.step, hp, hraw, hm, hkept]
      obtain ⟨a', c, hcell, hps, ha'⟩ : ∃ a' c, p.cellOf (.var i) = some (a', c) ∧
          c.params = some ps ∧ a = some a' := by
        unfold Proc.paramsOf at hp
        split at hp
        · next h => cases h
        · next a' c hc _ =>
          cases hq : c.params with
          | none => rw [hq] at hp; cases hp
          | some ys => rw [hq] at hp; cases hp; exact ⟨a', c, hc, hq, rfl⟩
        · cases hp
      subst ha'
      obtain ⟨j, hj, hv, hx⟩ := cellOf_var hcell
      cases hj
      obtain ⟨k1, k2, k3⟩ := after_keeps l (p.step (.model name t u (.var i) rg)).2
      rw [hstep] at k1 k2 k3
      obtain ⟨c', hc', hiso⟩ := k3 a' c hx
      rw [hps] at hiso
      obtain ⟨ps', hps'⟩ := Option.isSome_iff_exists.1 hiso
      have hq : q = ({ p with mats := p.mats ++ [some ⟨m, some a', none, none⟩] } : Proc F).after
          l := by rw [← hstep]
      refine ⟨⟨m, some a', none, none⟩, a', c', ps', ?_, ?_, ?_, hps', ?_⟩
      · rw [hq]
        refine entry_prefix k2 ?_
        simp [entry]
      · rw [hq]
        refine entry_prefix k1 ?_
        simp [entry, hv]
      · rw [hq]; exact hc'
      · rw [new_params name t u ps ps' r, hm]
        show Except.ok (m.withParams ps') = _
        congr 1
        have : q.heap.params a' = ps' := by
          rw [hq]
          simp [Heap.params, hc', hps']
        simp only [HMaterial.asked, this]

/-- C127, tables: the answers of a material that is built from a table are fixed when it is
built; no later statement of any program changes them. Saving it writes these numbers too, except
after `tabulated_n`, where it writes what the caller's array holds at that point. -/
theorem C127_tables (p : Proc F) (arg t u : String) (i : Nat)
    (hok : (p.step (.table arg i t u)).1 = .quiet) (l : List (Act F)) :
    let q := (p.step (.table arg i t u)).2.after l
    ∃ o a c, p.cellOf (.var i) = some (a, c) ∧ entry q.mats p.mats.length = some o ∧
      Material.new noFiles (tableArgs arg t u c.table) = .ok (o.asked q.heap) ∧
      (arg ≠ "tabulated_n" → o.stored q.heap = o.asked q.heap) ∧
      (arg = "tabulated_n" → o.stored q.heap = (o.asked q.heap).withTable (q.heap.table a)) := by
  intro q
  cases hp : p.cellOf (.var i) with
  | none => simp only [Proc.step, hp] at hok; cases hok
  | some w =>
    obtain ⟨a, c⟩ := w
    cases hm : Material.new noFiles (tableArgs arg t u c.table) with
    | error e => simp only [Proc.step, hp, hm] at hok; cases hok
    | ok m =>
      have hstep : (p.step (.table arg i t u)).2 = { p with mats := p.mats ++
          [some ⟨m, none, none, if keepsTable arg then some a else none⟩] } := by
        simp only [Proc.step, hp, hm]
      obtain ⟨k1, k2, k3⟩ := after_keeps l (p.step (.table arg i t u)).2
      rw [hstep] at k2
      refine ⟨⟨m, none, none, if keepsTable arg then some a else none⟩, a, c, rfl, ?_, hm,
        fun h => ?_, fun h => ?_⟩
      · show entry (Proc.after _ l).mats _ = _
        rw [hstep]
        refine entry_prefix k2 ?_
        simp [entry]
      · simp [HMaterial.stored, keepsTable, h]
      · simp [HMaterial.stored, keepsTable, h]

/-! ### Concrete programs -/

theorem cauchy_material (x lo hi : F) :
    Material.new noFiles (modelArgs "Cauchy" "wavelength" "um" [x] (.list .float [lo, hi])) =
      .ok { metaData := some blankMeta, name := "nk",
            real := some (.model .cauchy [x] ⟨.array .float [lo, hi], "wavelength", "um",
              .array .float [lo * lit 1e-6, hi * lit 1e-6]⟩ "wavelength" "um"),
            imag := some (cdata (lit 0)), cplx := none, interpOrder := .int 1,
            defType := "wavelength", defUnit := "um" } := by
  rw [new_model]
  have h1 : RealData.newModel (F := F) .cauchy [x] (.list .float [lo, hi]) "wavelength" "um" =
    .ok (.model .cauchy [x] ⟨.array .float [lo, hi], "wavelength", "um",
      .array .float [lo * lit 1e-6, hi * lit 1e-6]⟩ "wavelength" "um") := rfl
  have h2 : classRef "Cauchy" = .real .cauchy := by decide
  simp only [processModelDict, h2, Option.getD_some, bind, Except.bind, h1]
  simp [Formula.output, storeReal, complete_eq, blankMaterial]

/-- Parameters in a list: the saved numbers follow the list. -/
theorem C127_parameters_concrete (x y lo hi : F) :
    Proc.start.run (writeParameters x y lo hi) =
      [.quiet, .quiet, .quiet, .numbers [y, lo, hi, lit 0, lit 0, PyFloat.inf]] ∧
    Copies.start.run (writeParameters x y lo hi) =
      [.quiet, .quiet, .quiet, .numbers [x, lo, hi, lit 0, lit 0, PyFloat.inf]] := by
  constructor
  · simp [writeParameters, Proc.start, Proc.run, Proc.step, Proc.paramsOf, Proc.cellOf, entry,
      Proc.raw, Proc.kept, Box.params, cauchy_material, Box.accepts, HMaterial.stored,
      HMaterial.asked, Heap.params, Material.withParams, RealData.withParams, Material.written,
      RealData.written, cdata, Vals.toList, defaultSpec]
  · simp [writeParameters, Copies.start, Copies.run, Copies.step, Copies.params, Copies.held,
      Copies.raw, cauchy_material, Box.accepts, Material.written, RealData.written, cdata,
      Vals.toList, defaultSpec]

/-- A careful program that writes to a list after a Spectrum was built from it, and to the result
of a conversion. -/
def carefulProgram (x y : F) : List (Act F) :=
  [.make (.list .float [x]), .spectrum (.var 0) "wavelength" "m", .write 0 (.list .float [y]),
    .convert 0 "wavelength" "nm", .write 1 (oneNumber y), .convert 0 "wavelength" "m", .look 2,
    .look 1]

theorem C127_careful_concrete (x y : F) :
    Careful [] (carefulProgram x y) ∧
    Proc.start.run (carefulProgram x y) = [.quiet, .quiet, .quiet, .quiet, .quiet, .quiet,
      .cell (oneNumber x), .cell (oneNumber y)] ∧
    ¬ Careful [] (writeAfter x y) ∧ ¬ Careful [] (writeReturned x y) ∧
    ¬ Careful [] (writeNanometres x y) := by
  have hc : Careful [] (carefulProgram x y) := by
    simp (decide := true) [Careful, carefulProgram, holds, Allowed, giveArray]
  refine ⟨hc, ?_, ?_, ?_, ?_⟩
  · rw [C127_careful_partial _ hc]
    rfl
  · simp (decide := true) [Careful, writeAfter, holds, Allowed, giveArray, oneNumber]
  · simp (decide := true) [Careful, writeReturned, holds, Allowed, giveArray]
  · simp (decide := true) [Careful, writeNanometres, holds, Allowed, giveArray, oneNumber]

/-- A table of two rows. -/
def twoRows (y : XR) : Box XR := .arr (.d2 2 .float [[XR.fin 400, XR.fin 1.5], [XR.fin 500, y]])

/-- A table in an array: a later write changes what is saved and not what the material answers. -/
theorem C127_tables_concrete [SciPy XR] [NumText XR] [Printing XR] [YamlIO XR] :
    ∃ (m : Material XR) (q : Proc XR) (o : HMaterial XR),
      (Proc.start.after [.make (twoRows (XR.fin 1.4)), .table "tabulated_n" 0 "wavelength" "nm",
        .write 0 (twoRows (XR.fin 3))]) = q ∧ entry q.mats 0 = some o ∧
      Material.new noFiles (tableArgs "tabulated_n" "wavelength" "nm"
        (twoRows (XR.fin 1.4)).table) = .ok m ∧ o.asked q.heap = m ∧
      o.stored q.heap = m.withTable (.d2 2 .float [[XR.fin 400, XR.fin 1.5],
        [XR.fin 500, XR.fin 3]]) := by
  have hs : ("tabulated_n", DocType.table 2) ∈ sources := by decide
  obtain ⟨h1, h2⟩ := only_three (F := XR) (t := "wavelength") (u := "nm") hs
    (v := (twoRows (XR.fin 1.4)).table) (by simp [twoRows, Box.table]) (by decide)
  have hp := options_three (F := XR) (n := "tabulated_n") (t := "wavelength") (u := "nm")
    (v := (twoRows (XR.fin 1.4)).table) (by decide) (by decide)
  obtain ⟨r, -, hr⟩ := (C24_table_partial noFiles _ h1 hp (c := "nm")
    (show (lower "wavelength", lower "nm", "nm") ∈ names by decide +kernel) _).1 h2
    ⟨by simp, by simp, by simp [rowX], by
      simp only [List.pairwise_cons, List.mem_singleton, forall_eq, List.not_mem_nil,
        IsEmpty.forall_iff, implies_true, List.Pairwise.nil, and_true, and_self, rowX]
      rw [LawfulCmp.eq_iff]
      simp
      norm_num⟩
  obtain ⟨m, hm⟩ : ∃ m, Material.new noFiles (tableArgs "tabulated_n" "wavelength" "nm"
      (twoRows (XR.fin 1.4)).table) = .ok m := ⟨_, hr⟩
  have hq : Proc.start.after [.make (twoRows (XR.fin 1.4)),
      .table "tabulated_n" 0 "wavelength" "nm", .write 0 (twoRows (XR.fin 3))] =
      { heap := [twoRows (XR.fin 3)], vars := [some (.addr 0)], specs := [],
        mats := [some ⟨m, none, none, some 0⟩] } := by
    have hacc : (twoRows (XR.fin 1.4)).accepts (twoRows (XR.fin 3)) = true := rfl
    simp [Proc.after, Proc.step, Proc.start, Proc.cellOf, entry, hm, keepsTable, hacc]
  exact ⟨m, _, ⟨m, none, none, some 0⟩, hq, rfl, hm, rfl, rfl⟩

end Disp

import Verif.Props.ModelRange
import Verif.Props.DoubleModels
/-!
# C155: numbers of parameters that do not fit the model

The parameters of a model are a list; each formula takes certain lengths.
-/

namespace Disp

open Spec

/-! ## Specification -/

/-- The numbers of parameters that the formulas have: a constant and pairs, up to two fractions of
four parameters and then pairs (formula 4), or a fixed number. -/
def Spec.fits : String → ℕ → Prop
  | "RefractiveIndexInfo", n => n = 1 ∨ n = 5 ∨ (9 ≤ n ∧ n % 2 = 1)
  | "Herzberger", n => n = 6
  | "Retro", n => n = 4
  | "Exotic", n => n = 6
  | "Drude", n => n = 2
  | "DrudeLorentz", n => n = 4
  | "TaucLorentz", n => n = 5
  | _, n => n % 2 = 1

/-- The models with a fixed number of parameters. -/
def Spec.fixedModels : List (String × ℕ) :=
  [("Herzberger", 6), ("Retro", 4), ("Exotic", 6), ("Drude", 2), ("DrudeLorentz", 4),
   ("TaucLorentz", 5)]

/-- Not too many parameters for a model of a fixed number, and not the number that the model has. -/
def Spec.tooFew (k : String) (n : ℕ) : Prop :=
  ¬ fits k n ∧ ∀ q ∈ fixedModels, q.1 = k → n < q.2

variable {F : Type} [PyFloat F] [SciPy F] [NumText F]

/-- `Material(model_kw={'name': k, 'parameters': p, 'valid_range': raw, 'spectrum_type': t,
'unit': u})`, a model with the spectrum type and unit that it needs. -/
structure Spec.ModelCall (kw : Kwargs F) (k : String) (p : List F) (raw : Raw F) (t u : String) :
    Prop where
  keys : (kw.map Prod.fst).Nodup
  options : PlainOptions kw
  only : ∃ d : ModelKw F, Only kw "model_kw" .model (.dict d) ∧ d.name = some k ∧
    d.params = some p ∧ d.validRange = some raw ∧ d.stype = some t ∧ d.unit = some u
  range : FloatInput raw
  names : (k ∈ indexModels ∧ lower t = "wavelength" ∧ lower u ∈ ["um", "micrometer", "micrometre"]) ∨
    (k ∈ permittivityModels ∧ lower t = "energy" ∧ lower u ∈ ["ev", "electronvolt"])

/-! ## Making the material -/

/-- What is made. -/
theorem Spec.ModelCall.made {kw : Kwargs F} {k : String} {p : List F} {raw : Raw F} {t u : String}
    (h : ModelCall kw k p raw t u) (rd : String → Res (FileDict F)) :
    (∃ f r m, k ∈ indexModels ∧ classRef k = .real f ∧ Spectrum.new raw t u = .ok r ∧
      Material.new rd kw = .ok m ∧ m.name = "nk" ∧ m.cplx = none ∧
      m.real = some (.model f p r t u) ∧ m.imag = some (cdata (lit 0))) ∨
    (∃ f r m, k ∈ permittivityModels ∧ classRef k = .cplx f ∧ Spectrum.new raw t u = .ok r ∧
      Material.new rd kw = .ok m ∧ m.name = "eps" ∧
      m.cplx = some ⟨f, p, r, t, u⟩) := by
  obtain ⟨hk, ho, ⟨d, hd, h1, h2, h3, h4, h5⟩, hraw, hn⟩ := h
  obtain ⟨a1, a2⟩ := C24_model_partial rd kw hk ho d hd k h1 p h2 raw h3 hraw t u h4 h5
  rcases hn with ⟨c1, c2⟩ | ⟨c1, c2⟩
  · left
    obtain ⟨f, md, e1, e2, e3⟩ := (a1 c1).1 c2
    unfold RealData.newModel at e1
    obtain ⟨r, hr, e1⟩ := except_bind_ok e1
    obtain ⟨_, -, e1⟩ := except_bind_ok e1
    cases e1
    exact ⟨f, r, _, c1, e2, hr, e3, rfl, rfl, rfl, rfl⟩
  · right
    obtain ⟨f, md, e1, e2, e3⟩ := (a2 c1).1 c2
    unfold CplxData.new at e1
    obtain ⟨r, hr, e1⟩ := except_bind_ok e1
    obtain ⟨_, -, e1⟩ := except_bind_ok e1
    cases e1
    exact ⟨f, r, _, c1, e2, hr, e3, rfl, rfl⟩

/-- C155, making: the number of parameters is not looked at when a material is made. -/
theorem C155_made {kw : Kwargs F} {k : String} {p : List F} {raw : Raw F} {t u : String}
    (h : ModelCall kw k p raw t u) (rd : String → Res (FileDict F)) :
    ∃ m, Material.new rd kw = .ok m := by
  rcases h.made rd with ⟨_, _, m, -, -, -, hm, -⟩ | ⟨_, _, m, -, -, -, hm, -⟩ <;> exact ⟨m, hm⟩

/-! ## Too few parameters -/

omit [SciPy F] [NumText F] in
theorem eps_too_few {k : String} {f : EpsFormula} (hk : k ∈ permittivityModels)
    (hf : classRef k = .cplx f) {p : List F} (hp : tooFew k p.length) (e : F) :
    f.at p e = .error .index := by
  simp only [permittivityModels, List.mem_cons, List.not_mem_nil, or_false] at hk
  have inj : ∀ {g : EpsFormula}, classRef k = .cplx g → f = g := by
    intro g hg
    rw [hf] at hg
    cases hg; rfl
  have hlt := hp.2
  rcases hk with rfl | rfl | rfl
  · obtain rfl := inj (g := .drude) (by decide +kernel)
    have := hlt ("Drude", 2) (by decide) rfl
    match p, this with
    | [], _ => rfl
    | [_], _ => rfl
  · obtain rfl := inj (g := .drudeLorentz) (by decide +kernel)
    have := hlt ("DrudeLorentz", 4) (by decide) rfl
    match p, this with
    | [], _ => rfl
    | [_], _ => rfl
    | [_, _], _ => rfl
    | [_, _, _], _ => rfl
  · obtain rfl := inj (g := .taucLorentz) (by decide +kernel)
    have := hlt ("TaucLorentz", 5) (by decide) rfl
    match p, this with
    | [], _ => rfl
    | [_], _ => rfl
    | [_, _], _ => rfl
    | [_, _, _], _ => rfl
    | [_, _, _, _], _ => rfl

theorem not_takes {k : String} (hk : k ∈ indexModels) {n : ℕ} (h : tooFew k n) : ¬ takes k n := by
  obtain ⟨h1, h2⟩ := h
  simp only [indexModels, List.mem_cons, List.not_mem_nil, or_false] at hk
  rcases hk with rfl | rfl | rfl | rfl | rfl | rfl | rfl | rfl | rfl
  all_goals first
    | exact h1
    | exact Nat.not_le.2 (h2 (_, _) (by decide) rfl)

omit [SciPy F] [NumText F] in
theorem mapM_first {α β : Type} {g : α → Res β} {e : PyErr} (h : ∀ x, g x = .error e) {xs : List α}
    (hx : xs ≠ []) : xs.mapM g = .error e := by
  cases xs with
  | nil => exact absurd rfl hx
  | cons x xs => rw [List.mapM_cons, h]; rfl

/-- A question with at least one value, in any spectrum type and unit. -/
def Spec.Question (s : Spectrum F) : Prop :=
  ∃ raw t u, FloatInput raw ∧ Spectrum.new raw t u = .ok s ∧ s.values.toList ≠ []

omit [SciPy F] [NumText F] in
theorem Spec.Question.convert {s : Spectrum F} (h : Question s) {t u : String} {v : Vals F}
    (hv : s.convertTo t u = .ok v) : v.toList ≠ [] := by
  obtain ⟨raw, t', u', h1, h2, h3⟩ := h
  have := (C02_shape raw h1 t' u' s h2 t u v hv).2
  intro h0
  rw [h0] at this
  exact h3 (List.length_eq_zero_iff.1 this.symm)

omit [NumText F] in
theorem model_no_answer {f : Formula} {p : List F} (hf : ∀ w, f.at p w = .error .index)
    {r : Spectrum F} {t u : String} {s : Spectrum F} (hs : Question s) :
    ∃ e, ((RealData.model f p r t u).evaluate s).1 = .error e := by
  simp only [RealData.evaluate]
  cases r.contains s with
  | error e => exact ⟨e, rfl⟩
  | ok b =>
    simp only [bind, Except.bind]
    cases hv : s.convertTo t u with
    | error e => exact ⟨e, rfl⟩
    | ok v =>
      have hne := hs.convert hv
      cases v with
      | scalar x => exact ⟨.index, by simp [Vals.mapRes, hf, bind, Except.bind]⟩
      | array dt xs =>
        refine ⟨.index, ?_⟩
        simp only [Vals.mapRes, bind, Except.bind]
        rw [mapM_first (xs := xs) hf hne]

omit [SciPy F] [NumText F] in
theorem eps_no_answer {f : EpsFormula} {p : List F} (hf : ∀ w, f.at p w = .error .index)
    {r : Spectrum F} {t u : String} {s : Spectrum F} (hs : Question s) :
    ∃ e, (CplxData.evaluate ⟨f, p, r, t, u⟩ s) = .error e := by
  simp only [CplxData.evaluate]
  cases r.contains s with
  | error e => exact ⟨e, rfl⟩
  | ok b =>
    simp only [bind, Except.bind]
    cases hv : s.convertTo t u with
    | error e => exact ⟨e, rfl⟩
    | ok v =>
      have hne := hs.convert hv
      cases v with
      | scalar x => exact ⟨.index, by simp [hf]⟩
      | array dt xs =>
        refine ⟨.index, ?_⟩
        simp only
        rw [mapM_first (xs := xs) hf hne]

omit [NumText F] in
theorem stored_error {m : Material F} {s : Spectrum F} (hs : Question s)
    (h : ∃ e, (m.evalStored s).1 = .error e) (hn : m.name = "nk" ∨ m.name = "eps") :
    (∃ e, (m.getNk s).1 = .error e) ∧ ∃ e, (m.getPermittivity s).1 = .error e := by
  obtain ⟨raw, t, u, -, h2, -⟩ := hs
  obtain ⟨e, he⟩ := h
  refine ⟨⟨e, ?_⟩, e, ?_⟩
  · rw [getNk_fresh m ⟨raw, t, u, h2⟩ hn, he]
    rfl
  · unfold Material.getPermittivity
    rw [if_neg (not_not.2 hn)]
    cases hx : m.evalStored s with
    | mk a b =>
      rw [hx] at he
      cases he
      rfl

/-- C155, too few parameters: a material with too few parameters, or with an incomplete pair of
them, answers no question at all. -/
theorem C155_few {kw : Kwargs F} {k : String} {p : List F} {raw : Raw F} {t u : String}
    (h : ModelCall kw k p raw t u) (hp : tooFew k p.length) {rd : String → Res (FileDict F)}
    {m : Material F} (hm : Material.new rd kw = .ok m) {s : Spectrum F} (hs : Question s) :
    (∃ e, (m.getNk s).1 = .error e) ∧ ∃ e, (m.getPermittivity s).1 = .error e := by
  rcases h.made rd with ⟨f, r, m', a1, a2, -, a3, a4, a5, a6, -⟩ | ⟨f, r, m', a1, a2, -, a3, a4, a5⟩
  · rw [hm] at a3
    cases a3
    refine stored_error hs ?_ (.inl a4)
    obtain ⟨e, he⟩ := model_no_answer (r := r) (t := t) (u := u)
      (formula_not_total a1 a2 (not_takes a1 hp)) hs
    unfold Material.evalStored evalPart
    rw [a5, a6]
    simp only
    cases hx : (RealData.model f p r t u).evaluate s with
    | mk a b =>
      rw [hx] at he
      cases he
      exact ⟨e, rfl⟩
  · rw [hm] at a3
    cases a3
    refine stored_error hs ?_ (.inr a4)
    unfold Material.evalStored
    rw [a5]
    exact eps_no_answer (eps_too_few a1 a2 hp) hs

/-! ## Too many parameters -/

omit [SciPy F] [NumText F] in
theorem real_further {q : String × ℕ} (hq : q ∈ fixedModels) {f : Formula}
    (hf : classRef q.1 = .real f) {p : List F} (hp : p.length = q.2) (p' : List F) (w : F) :
    f.at (p ++ p') w = f.at p w := by
  simp only [fixedModels, List.mem_cons, List.not_mem_nil, or_false] at hq
  have inj : ∀ {g : ClassRef}, classRef q.1 = g → ClassRef.real f = g := by
    intro g hg
    rw [← hf, hg]
  rcases hq with rfl | rfl | rfl | rfl | rfl | rfl
  · cases inj (g := .real .herzberger) (by decide +kernel)
    match p, hp with
    | [a, b, c, d, e, f], _ => rfl
  · cases inj (g := .real .retro) (by decide +kernel)
    match p, hp with
    | [a, b, c, d], _ => rfl
  · cases inj (g := .real .exotic) (by decide +kernel)
    match p, hp with
    | [a, b, c, d, e, f], _ => rfl
  · cases inj (g := .cplx .drude) (by decide +kernel)
  · cases inj (g := .cplx .drudeLorentz) (by decide +kernel)
  · cases inj (g := .cplx .taucLorentz) (by decide +kernel)

omit [SciPy F] [NumText F] in
theorem cplx_further {q : String × ℕ} (hq : q ∈ fixedModels) {f : EpsFormula}
    (hf : classRef q.1 = .cplx f) {p : List F} (hp : p.length = q.2) (p' : List F) (w : F) :
    f.at (p ++ p') w = f.at p w := by
  simp only [fixedModels, List.mem_cons, List.not_mem_nil, or_false] at hq
  have inj : ∀ {g : ClassRef}, classRef q.1 = g → ClassRef.cplx f = g := by
    intro g hg
    rw [← hf, hg]
  rcases hq with rfl | rfl | rfl | rfl | rfl | rfl
  · cases inj (g := .real .herzberger) (by decide +kernel)
  · cases inj (g := .real .retro) (by decide +kernel)
  · cases inj (g := .real .exotic) (by decide +kernel)
  · cases inj (g := .cplx .drude) (by decide +kernel)
    match p, hp with
    | [a, b], _ => rfl
  · cases inj (g := .cplx .drudeLorentz) (by decide +kernel)
    match p, hp with
    | [a, b, c, d], _ => rfl
  · cases inj (g := .cplx .taucLorentz) (by decide +kernel)
    match p, hp with
    | [a, b, c, d, e], _ => rfl

/-- C155, too many parameters: a model of a fixed number of parameters passes over further ones. -/
theorem C155_further {kw kw' : Kwargs F} {q : String × ℕ} (hq : q ∈ fixedModels) {p p' : List F}
    (hp : p.length = q.2) {raw : Raw F} {t u : String} (h : ModelCall kw q.1 p raw t u)
    (h' : ModelCall kw' q.1 (p ++ p') raw t u) {rd : String → Res (FileDict F)} {m m' : Material F}
    (hm : Material.new rd kw = .ok m) (hm' : Material.new rd kw' = .ok m') (s : Spectrum F) :
    m'.getNk s = m.getNk s ∧ m'.getPermittivity s = m.getPermittivity s := by
  have key : m'.name = m.name ∧ ∀ s, m'.evalStored s = m.evalStored s := by
    rcases h.made rd with ⟨f, r, m1, a1, a2, ar, a3, a4, a5, a6, a7⟩ | ⟨f, r, m1, a1, a2, ar, a3, a4, a5⟩ <;>
    rcases h'.made rd with ⟨g, r', m2, b1, b2, br, b3, b4, b5, b6, b7⟩ |
      ⟨g, r', m2, b1, b2, br, b3, b4, b5⟩ <;>
    rw [hm] at a3 <;> rw [hm'] at b3 <;> cases a3 <;> cases b3 <;>
    rw [a2] at b2 <;> cases b2 <;> rw [ar] at br <;> cases br
    · refine ⟨by rw [a4, b4], fun s => ?_⟩
      unfold Material.evalStored
      rw [a5, b5, a6, b6, a7, b7]
      simp only [evalPart, RealData.evaluate]
      rw [funext (real_further hq a2 hp p')]
    · refine ⟨by rw [a4, b4], fun s => ?_⟩
      unfold Material.evalStored
      rw [a5, b5]
      simp only [CplxData.evaluate]
      rw [funext (cplx_further hq a2 hp p')]
  constructor
  · unfold Material.getNk Material.nkCore
    rw [key.1, funext key.2]
  · unfold Material.getPermittivity
    rw [key.1, key.2]

/-! ## The full claim is false -/

/-- C155 (full statement, refuted below): a material whose number of parameters does not fit its
model is refused, or raises an exception whenever it is asked. -/
def C155_statement (F : Type) [PyFloat F] [SciPy F] [NumText F] : Prop :=
  ∀ (kw : Kwargs F) (k : String) (p : List F) (raw : Raw F) (t u : String)
    (rd : String → Res (FileDict F)) (m : Material F) (s : Spectrum F),
    ModelCall kw k p raw t u → ¬ fits k p.length → Material.new rd kw = .ok m → Question s →
    ∃ e, (m.getPermittivity s).1 = .error e

/-- The metal of `metal_case` with a third parameter, which might have been meant as the permittivity
of the background. -/
noncomputable def backgroundKw : ModelKw Dbl := { metalKw with params := some [intDbl 6, intDbl 1, intDbl 9] }

theorem metal_call [SciPy Dbl] : ModelCall [("model_kw", .dict metalKw)] "Drude"
    [intDbl 6, intDbl 1] (.list .float [lit 0, PyFloat.inf]) "energy" "ev" := by
  have hs : ("model_kw", DocType.model) ∈ sources := by decide
  obtain ⟨h1, h2⟩ := only_single (F := Dbl) hs (v := .dict metalKw) (by simp)
  exact ⟨h1, plain_single (by decide) (by decide), ⟨_, h2, rfl, rfl, rfl, rfl, rfl⟩, rfl,
    .inr ⟨by decide, by decide +kernel, by decide +kernel⟩⟩

theorem background_call [SciPy Dbl] : ModelCall [("model_kw", .dict backgroundKw)] "Drude"
    ([intDbl 6, intDbl 1] ++ [intDbl 9]) (.list .float [lit 0, PyFloat.inf]) "energy" "ev" := by
  have hs : ("model_kw", DocType.model) ∈ sources := by decide
  obtain ⟨h1, h2⟩ := only_single (F := Dbl) hs (v := .dict backgroundKw) (by simp)
  exact ⟨h1, plain_single (by decide) (by decide), ⟨_, h2, rfl, rfl, rfl, rfl, rfl⟩, rfl,
    .inr ⟨by decide, by decide +kernel, by decide +kernel⟩⟩

/-- The metal with a third parameter is made and answers as the metal without it. -/
theorem background_ignored [SciPy Dbl] [NumText Dbl] (rd : String → Res (FileDict Dbl)) :
    ∃ m m', Material.new rd [("model_kw", .dict metalKw)] = .ok m ∧
      Material.new rd [("model_kw", .dict backgroundKw)] = .ok m' ∧
      ∀ s, m'.getPermittivity s = m.getPermittivity s := by
  obtain ⟨m, hm⟩ := C155_made metal_call rd
  obtain ⟨m', hm'⟩ := C155_made background_call rd
  exact ⟨m, m', hm, hm', fun s => (C155_further (q := ("Drude", 2)) (by decide) rfl metal_call
    background_call hm hm' s).2⟩

/-- C155 is false, in doubles. -/
theorem C155_refuted [SciPy Dbl] [NumText Dbl] : ¬ C155_statement Dbl := by
  intro h
  let rd : String → Res (FileDict Dbl) := fun _ => .error .os
  obtain ⟨m, s, v, hm, hs, hv, e, z, r, j, -, hz, -⟩ := metal_case rd
  obtain ⟨m1, m', g1, g2, g3⟩ := background_ignored rd
  rw [hm] at g1
  cases g1
  obtain ⟨e, he⟩ := h _ _ _ _ _ _ rd m' s background_call (by simp [fits]) g2
    ⟨.list .float [intDbl 620], _, _, rfl, hs, by
      rw [Spectrum.new_eq] at hs
      split at hs
      · cases hs
      · simp only [Raw.check, bind, Except.bind] at hs
        split at hs
        · cases hs
        · cases hs
          simp [Vals.toList]⟩
  rw [g3, hv] at he
  cases he

/-- Concrete case for `C155_few`: a Sellmeier model with an incomplete pair is made, and answers
nothing. -/
example [SciPy Dbl] [NumText Dbl] (rd : String → Res (FileDict Dbl)) (s : Spectrum Dbl)
    (hs : Question s) : ∃ m, Material.new rd [("model_kw", .dict { metalKw with
      name := some "Sellmeier", params := some [intDbl 0, intDbl 1], stype := some "wavelength",
      unit := some "um" })] = .ok m ∧ ∃ e, (m.getNk s).1 = .error e := by
  have hk : ("model_kw", DocType.model) ∈ sources := by decide
  obtain ⟨h1, h2⟩ := only_single (F := Dbl) hk (v := .dict { metalKw with
      name := some "Sellmeier", params := some [intDbl 0, intDbl 1], stype := some "wavelength",
      unit := some "um" }) (by simp)
  have hc : ModelCall _ "Sellmeier" [intDbl 0, intDbl 1] (.list .float [lit 0, PyFloat.inf])
      "wavelength" "um" :=
    ⟨h1, plain_single (by decide) (by decide), ⟨_, h2, rfl, rfl, rfl, rfl, rfl⟩, rfl,
    .inl ⟨by decide, by decide +kernel, by decide +kernel⟩⟩
  obtain ⟨m, hm⟩ := C155_made hc rd
  exact ⟨m, hm, (C155_few hc ⟨by simp [fits], by decide⟩ hm hs).1⟩

end Disp

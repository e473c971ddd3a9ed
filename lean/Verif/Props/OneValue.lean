import Verif.Props.SpectrumPhysics
import Verif.Props.DataEval
import Verif.Model.Material
import Verif.Props.TextFiles
import Verif.Props.TaucAccuracy
import Verif.Props.DoubleInterpolation
/-!
# C152: a single number, or a list of one

`get_nk_data` and `get_permittivity` take a number as well as a list. A number should get the value
that a list of this one number gets.
-/

namespace Disp

open Spec

variable {F : Type} [PyFloat F] [SciPy F]

/-- One times a number is the number. -/
class OneTimes (F : Type) [PyFloat F] : Prop where
  mul_one : ∀ c : F, c * lit 1 = c

/-! ## Specification -/

/-- Neither does the length `y` in metres count as zero in lists where it does not as a number, if
it is converted to the type `t`. Lists take everything up to 1e-8 for zero (spectrum.py 27). -/
def Spec.Clear (y : F) (t : String) : Prop :=
  (lower t ≠ "wavelength" → lower t ≠ "wavenumber" → NotTiny y) ∧
    (lower t = "wavenumber" → NotTiny (y * lit 1e-2))

/-- The spectrum types in which the data are given. -/
def Spec.typesOf : RealData F → List String
  | .constant _ r _ _ => [r.stype]
  | .interp _ _ r t _ => [r.stype, t]
  | .model _ _ r t _ => [r.stype, t]
  | .extrap base _ _ r t _ => r.stype :: t :: (base.range.stype :: typesOf base)

/-- The spectrum types of a material. -/
def Spec.materialTypes (m : Material F) : List String :=
  (match m.cplx with
    | some d => [d.range.stype, d.stype]
    | none => []) ++ (m.real.toList ++ m.imag.toList).flatMap typesOf

/-- The same value for a number and a list of one, or the same exception. -/
inductive Spec.OneAlike : Res (CVals F) → Res (CVals F) → Prop
  | value (z : Cx F) : OneAlike (.ok (.scalar z)) (.ok (.array [z]))
  | error (e : PyErr) : OneAlike (.error e) (.error e)

/-! ## Pairs of spectra -/

/-- The same for real values. -/
inductive Twin : Res (Vals F) → Res (Vals F) → Prop
  | value (x : F) : Twin (.ok (.scalar x)) (.ok (.array .float [x]))
  | error (e : PyErr) : Twin (.error e) (.error e)

/-- A spectrum of a number and one of the list. -/
structure Paired (y : F) (s s' : Spectrum F) : Prop where
  stype : s'.stype = s.stype
  unit : s'.unit = s.unit
  values : ∃ x, s.values = .scalar x ∧ s'.values = .array .float [x]
  std : s.std = .scalar y ∧ s'.std = .array .float [y]

theorem safeInverse_twin {x : F} (h : NotTiny x) :
    safeInverse (.scalar x : Vals F) = .ok (.scalar (safeInverseScalar x)) ∧
      safeInverse (.array .float [x] : Vals F) = .ok (.array .float [safeInverseScalar x]) :=
  ⟨rfl, by simp [safeInverse, safeInverse_agree h]⟩

theorem convertVals_twin {t u : String} {y : F} (h : (t ≠ "wavelength" → t ≠ "wavenumber" → NotTiny y) ∧
    (t = "wavenumber" → NotTiny (y * lit 1e-2))) :
    Twin (convertVals t u (.scalar y)) (convertVals t u (.array .float [y])) := by
  unfold convertVals
  split
  · rename_i e
    obtain ⟨h1, h2⟩ := safeInverse_twin (h.1 (by rw [e]; decide) (by rw [e]; decide))
    unfold toFrequency
    split
    · rw [h1, h2]; exact .value _
    · exact .error _
  split
  · rename_i e
    obtain ⟨h1, h2⟩ := safeInverse_twin (h.1 (by rw [e]; decide) (by rw [e]; decide))
    unfold toEnergy
    split
    · rw [h1, h2]; exact .value _
    · exact .error _
  split
  · rename_i e
    obtain ⟨h1, h2⟩ := safeInverse_twin (h.1 (by rw [e]; decide) (by rw [e]; decide))
    unfold toAngFreq
    split
    · rw [h1, h2]; exact .value _
    · exact .error _
  split
  · rename_i e
    obtain ⟨h1, h2⟩ := safeInverse_twin (h.2 e)
    unfold toWavenumber
    split
    · simp only [Vals.map, List.map_cons, List.map_nil]
      rw [h1, h2]; exact .value _
    · exact .error _
  split
  · unfold toWavelength
    repeat' split
    all_goals first
      | exact .value _
      | exact .error _
  · exact .error _

/-- What a conversion gives for both. -/
theorem Paired.core {y : F} {s s' : Spectrum F} (h : Paired y s s') {t u : String} (hc : Clear y t) :
    (∃ t' u' x, s.convertCore t u = .ok (t', u', .scalar x) ∧
      s'.convertCore t u = .ok (t', u', .array .float [x])) ∨
    ∃ e, s.convertCore t u = .error e ∧ s'.convertCore t u = .error e := by
  unfold Spectrum.convertCore
  simp only [bind, Except.bind]
  split
  · cases standardiseUnit (lower t) u with
    | error e => exact .inr ⟨e, rfl, rfl⟩
    | ok u' =>
      simp only [h.std.1, h.std.2]
      have := convertVals_twin (u := u') hc
      cases hv : convertVals (lower t) u' (.scalar y) with
      | error e =>
        rw [hv] at this
        cases this' : convertVals (lower t) u' (.array .float [y]) with
        | error e' => rw [this'] at this; cases this; exact .inr ⟨e, rfl, rfl⟩
        | ok v => rw [this'] at this; cases this
      | ok v =>
        rw [hv] at this
        cases this' : convertVals (lower t) u' (.array .float [y]) with
        | error e' => rw [this'] at this; cases this
        | ok v' =>
          rw [this'] at this
          cases this
          exact .inl ⟨_, _, _, rfl, rfl⟩
  · exact .inr ⟨_, rfl, rfl⟩

theorem Paired.convertTo {y : F} {s s' : Spectrum F} (h : Paired y s s') {t u : String}
    (hc : Clear y t) : Twin (s.convertTo t u) (s'.convertTo t u) := by
  unfold Spectrum.convertTo
  rcases h.core (u := u) hc with ⟨t', u', x, h1, h2⟩ | ⟨e, h1, h2⟩ <;> rw [h1, h2]
  · exact .value x
  · exact .error e

theorem Paired.inPlace {y : F} {s s' : Spectrum F} (h : Paired y s s') {t u : String}
    (hc : Clear y t) : (s'.convertInPlace t u).1 = (s.convertInPlace t u).1 ∧
      Paired y (s.convertInPlace t u).2 (s'.convertInPlace t u).2 := by
  unfold Spectrum.convertInPlace
  rcases h.core (u := u) hc with ⟨t', u', x, h1, h2⟩ | ⟨e, h1, h2⟩ <;> rw [h1, h2]
  · exact ⟨rfl, rfl, rfl, ⟨x, rfl, rfl⟩, h.std⟩
  · exact ⟨rfl, h⟩

theorem Paired.contains {y : F} {s s' : Spectrum F} (h : Paired y s s') {r : Spectrum F}
    (hc : Clear y r.stype) : r.contains s' = r.contains s := by
  unfold Spectrum.contains
  have := h.convertTo (u := r.unit) hc
  cases h1 : s.convertTo r.stype r.unit with
  | error e =>
    rw [h1] at this
    cases h2 : s'.convertTo r.stype r.unit with
    | error e' => rw [h2] at this; cases this; rfl
    | ok v => rw [h2] at this; cases this
  | ok v =>
    rw [h1] at this
    cases h2 : s'.convertTo r.stype r.unit with
    | error e => rw [h2] at this; cases this
    | ok v' => rw [h2] at this; cases this; rfl

theorem mapRes_twin {a b : Res (Vals F)} (h : Twin a b) (f : F → Res F) :
    Twin (a >>= fun v => v.mapRes f) (b >>= fun v => v.mapRes f) := by
  cases h with
  | error e => exact .error e
  | value x =>
    simp only [bind, Except.bind, Vals.mapRes, List.mapM_cons, List.mapM_nil]
    cases f x with
    | error e => exact .error e
    | ok z => exact .value z

/-- What an extrapolation does where its base has failed. -/
def afterBase (spl : SciPy.Spl F) (r : Spectrum F) (t u : String) (e : PyErr) (s : Spectrum F) :
    Res (Vals F) × Spectrum F :=
  if e.isA .value then
    match s.convertInPlace t u with
    | (.error e', s'') => (.error e', s'')
    | (.ok _, s'') =>
      (do
        let _ ← r.contains s''
        .ok (s''.values.map (SciPy.splev spl)), s'')
  else (.error e, s)

theorem Paired.afterBase {y : F} {s s' : Spectrum F} (h : Paired y s s') (spl : SciPy.Spl F)
    {r : Spectrum F} {t u : String} (e : PyErr) (ht : Clear y t) (hr : Clear y r.stype) :
    Twin (afterBase spl r t u e s).1 (Disp.afterBase spl r t u e s').1 ∧
      Paired y (Disp.afterBase spl r t u e s).2 (Disp.afterBase spl r t u e s').2 := by
  unfold Disp.afterBase
  split
  · obtain ⟨p1, p2⟩ := h.inPlace (t := t) (u := u) ht
    revert p1 p2
    generalize s.convertInPlace t u = C
    generalize s'.convertInPlace t u = D
    obtain ⟨c, sc⟩ := C
    obtain ⟨d, sd⟩ := D
    intro p1 p2
    simp only at p1 p2
    subst p1
    cases d with
    | error e => exact ⟨.error e, p2⟩
    | ok _ =>
      refine ⟨?_, p2⟩
      simp only
      rw [p2.contains hr]
      obtain ⟨x, e1, e2⟩ := p2.values
      rw [e1, e2]
      cases r.contains sc with
      | error e => exact .error e
      | ok b => exact .value _
  · exact ⟨.error e, h⟩

theorem evaluate_extrap {base : RealData F} {k : ℕ} {spl : SciPy.Spl F} {r : Spectrum F}
    {t u : String} {s : Spectrum F} : (RealData.extrap base k spl r t u).evaluate s =
    match base.range.contains s with
    | .error e => afterBase spl r t u e s
    | .ok _ => match base.evaluate s with
      | (.ok v, s') => (.ok v, s')
      | (.error e, s') => afterBase spl r t u e s' := by
  simp only [RealData.evaluate, afterBase]
  cases base.range.contains s with
  | error e => rfl
  | ok b =>
    simp only
    cases base.evaluate s with
    | mk a s' => cases a <;> rfl

/-- The data objects. -/
theorem Paired.evaluate [OneTimes F] {y : F} (d : RealData F) : ∀ {s s' : Spectrum F},
    Paired y s s' → (∀ t ∈ typesOf d, Clear y t) →
    Twin (d.evaluate s).1 (d.evaluate s').1 ∧ Paired y (d.evaluate s).2 (d.evaluate s').2 := by
  induction d with
  | constant c r t u =>
    intro s s' h hc
    refine ⟨?_, h⟩
    simp only [RealData.evaluate]
    rw [h.contains (hc _ (by simp [typesOf]))]
    obtain ⟨x, h1, h2⟩ := h.values
    rw [h1, h2]
    cases r.contains s with
    | error e => exact .error e
    | ok b =>
      simp only [bind, Except.bind, List.map_cons, List.map_nil, OneTimes.mul_one]
      exact .value c
  | interp o rows r t u =>
    intro s s' h hc
    refine ⟨?_, h⟩
    simp only [RealData.evaluate]
    rw [h.contains (hc _ (by simp [typesOf]))]
    cases r.contains s with
    | error e => exact .error e
    | ok b => exact mapRes_twin (h.convertTo (hc t (by simp [typesOf]))) _
  | model k p r t u =>
    intro s s' h hc
    refine ⟨?_, h⟩
    simp only [RealData.evaluate]
    rw [h.contains (hc _ (by simp [typesOf]))]
    cases r.contains s with
    | error e => exact .error e
    | ok b => exact mapRes_twin (h.convertTo (hc t (by simp [typesOf]))) _
  | extrap base k spl r t u ih =>
    intro s s' h hc
    have hb : ∀ t ∈ typesOf base, Clear y t := fun t ht => hc t (by simp [typesOf, ht])
    rw [evaluate_extrap, evaluate_extrap, h.contains (hc base.range.stype (by simp [typesOf]))]
    have h1 := hc t (by simp [typesOf])
    have h2 := hc r.stype (by simp [typesOf])
    cases base.range.contains s with
    | error e => exact h.afterBase spl e h1 h2
    | ok _ =>
      obtain ⟨p1, p2⟩ := ih h hb
      simp only
      revert p1 p2
      generalize base.evaluate s = A
      generalize base.evaluate s' = B
      obtain ⟨a, sa⟩ := A
      obtain ⟨b, sb⟩ := B
      intro p1 p2
      simp only at p1 p2
      cases p1 with
      | value x => exact ⟨.value x, p2⟩
      | error e => exact p2.afterBase spl e h1 h2

theorem combine_one {a b : Vals F} {a' b' : Vals F} (h1 : Twin (.ok a) (.ok a'))
    (h2 : Twin (.ok b) (.ok b')) : OneAlike (combineParts a b) (combineParts a' b') := by
  cases h1
  cases h2
  exact .value _

/-- The complex models other than Tauc-Lorentz. -/
theorem Paired.complex {y : F} {d : CplxData F} {s s' : Spectrum F} (h : Paired y s s')
    (h1 : Clear y d.range.stype) (h2 : Clear y d.stype) (hk : d.kind ≠ .taucLorentz) :
    OneAlike (d.evaluate s) (d.evaluate s') := by
  unfold CplxData.evaluate
  rw [h.contains h1]
  cases d.range.contains s with
  | error e => exact .error e
  | ok b =>
    have := h.convertTo (u := d.unit) h2
    cases e1 : s.convertTo d.stype d.unit with
    | error e =>
      rw [e1] at this
      cases e2 : s'.convertTo d.stype d.unit with
      | error e' => rw [e2] at this; cases this; exact .error e
      | ok v => rw [e2] at this; cases this
    | ok v =>
      rw [e1] at this
      cases e2 : s'.convertTo d.stype d.unit with
      | error e => rw [e2] at this; cases this
      | ok v' =>
        rw [e2] at this
        cases this
        simp only [bind, Except.bind, List.mapM_cons, List.mapM_nil, if_neg hk]
        cases d.kind.at d.params _ with
        | error e => exact .error e
        | ok z => exact .value z

theorem Paired.stored [OneTimes F] {y : F} {m : Material F} {s s' : Spectrum F} (h : Paired y s s')
    (hc : ∀ t ∈ materialTypes m, Clear y t) (hk : ∀ d, m.cplx = some d → d.kind ≠ .taucLorentz) :
    OneAlike (m.evalStored s).1 (m.evalStored s').1 := by
  unfold Material.evalStored
  cases hcx : m.cplx with
  | some d =>
    exact h.complex (hc _ (by simp [materialTypes, hcx])) (hc _ (by simp [materialTypes, hcx]))
      (hk d hcx)
  | none =>
    simp only
    cases hr : m.real with
    | none => exact .error _
    | some r =>
      have hrc : ∀ t ∈ typesOf r, Clear y t := fun t ht => hc t (by
        simp only [materialTypes, hcx, hr, Option.toList]
        simp [ht])
      obtain ⟨p1, p2⟩ := h.evaluate r hrc
      simp only [evalPart]
      revert p1 p2
      generalize r.evaluate s = A
      generalize r.evaluate s' = B
      obtain ⟨a, sa⟩ := A
      obtain ⟨b, sb⟩ := B
      intro p1 p2
      simp only at p1 p2
      cases p1 with
      | error e => exact .error e
      | value x =>
        simp only
        cases hi : m.imag with
        | none => exact .error _
        | some i =>
          have hic : ∀ t ∈ typesOf i, Clear y t := fun t ht => hc t (by
            simp only [materialTypes, hcx, hi, Option.toList]
            simp [ht])
          obtain ⟨q1, q2⟩ := p2.evaluate i hic
          simp only
          revert q1 q2
          generalize i.evaluate sa = A
          generalize i.evaluate sb = B
          obtain ⟨a, sa'⟩ := A
          obtain ⟨b, sb'⟩ := B
          intro q1 q2
          simp only at q1 q2
          cases q1 with
          | error e => exact .error e
          | value z => exact combine_one (.value x) (.value z)

/-- The two spectra. -/
theorem paired_new {t u : String} {x : F} (hx : lower t ≠ "wavelength" → NotTiny x) :
    (∃ s s' y, Spectrum.new (.float x) t u = .ok s ∧ Spectrum.new (.list .float [x]) t u = .ok s' ∧
      convertScalar t u "wavelength" "m" x = .ok y ∧ Paired y s s') ∨
    ∃ e, Spectrum.new (.float x) t u = .error e ∧
      Spectrum.new (.list .float [x] : Raw F) t u = .error e := by
  by_cases hn : ∃ c, (lower t, lower u, c) ∈ names
  · obtain ⟨c, hc⟩ := hn
    have hw : ((lower "wavelength", "m", "m") : String × String × String) ∈ names := by
      decide +kernel
    refine .inl ⟨_, _, _, new_scalar hc x, new_list hc [x], convertScalar_eq hc hw x, rfl, rfl,
      ⟨x, rfl, rfl⟩, ?_, ?_⟩
    · simp [toElem, show lower "wavelength" = "wavelength" by decide +kernel]
    · simp [toElem, show lower "wavelength" = "wavelength" by decide +kernel,
        fromElem_agree hx (names_pairs _ hc)]
  · refine .inr ⟨.value, ?_, ?_⟩
    · cases h : Spectrum.new (.float x) t u with
      | ok s => exact absurd ((C01_accepts_iff (.float x) trivial t u).1 ⟨s, h⟩) hn
      | error e => rw [C01_rejects_value (.float x) (.inl trivial) t u e h]
    · cases h : Spectrum.new (.list .float [x] : Raw F) t u with
      | ok s => exact absurd ((C01_accepts_iff (.list .float [x]) rfl t u).1 ⟨s, h⟩) hn
      | error e => rw [C01_rejects_value (.list .float [x]) (.inl rfl) t u e h]

/-- The hypotheses on the number asked for: what lists take for zero is zero. -/
def Spec.Told (m : Material F) (t u : String) (x : F) : Prop :=
  (lower t ≠ "wavelength" → NotTiny x) ∧
    ∀ y, convertScalar t u "wavelength" "m" x = .ok y → ∀ t' ∈ materialTypes m, Clear y t'

/-- C152, what holds: the refractive index at a number is the one at the list of this number, for
all materials but those of Tauc-Lorentz models. -/
theorem C152_index_partial [OneTimes F] (m : Material F)
    (hk : ∀ d, m.cplx = some d → d.kind ≠ .taucLorentz) (t u : String) (x : F) (hx : Told m t u x) :
    OneAlike (m.getNkRaw (.float x) t u) (m.getNkRaw (.list .float [x]) t u) := by
  unfold Material.getNkRaw Material.nkCore
  rcases paired_new (u := u) hx.1 with ⟨s, s', y, h1, h2, h3, h⟩ | ⟨e, h1, h2⟩
  · rw [h1, h2]
    simp only [bind, Except.bind]
    split
    · exact .error _
    · have := h.stored (hx.2 y h3) hk
      revert this
      generalize (m.evalStored s).1 = A
      generalize (m.evalStored s').1 = B
      intro this
      cases this with
      | error e => exact .error e
      | value z => simp only; split <;> exact .value _
  · rw [h1, h2]; exact .error e

/-- C152, what holds, for the permittivity. -/
theorem C152_permittivity_partial [OneTimes F] (m : Material F)
    (hk : ∀ d, m.cplx = some d → d.kind ≠ .taucLorentz) (t u : String) (x : F) (hx : Told m t u x) :
    OneAlike (m.getPermittivityRaw (.float x) t u) (m.getPermittivityRaw (.list .float [x]) t u) := by
  unfold Material.getPermittivityRaw Material.getPermittivity
  rcases paired_new (u := u) hx.1 with ⟨s, s', y, h1, h2, h3, h⟩ | ⟨e, h1, h2⟩
  · rw [h1, h2]
    simp only [bind, Except.bind]
    split
    · exact .error _
    · have := h.stored (hx.2 y h3) hk
      revert this
      generalize m.evalStored s = A
      generalize m.evalStored s' = B
      obtain ⟨a, sa⟩ := A
      obtain ⟨b, sb⟩ := B
      intro this
      simp only at this
      cases this with
      | error e => exact .error e
      | value z => simp only; split <;> exact .value _
  · rw [h1, h2]; exact .error e

theorem convertVals_number {t u : String} {y : F} {v : Vals F}
    (h : convertVals t u (.scalar y) = .ok v) : ∃ x, v = .scalar x := by
  unfold convertVals toFrequency toEnergy toAngFreq toWavenumber toWavelength safeInverse at h
  simp only [bind, Except.bind, Vals.map] at h
  repeat' split at h
  all_goals first
    | cases h; done
    | (cases h; exact ⟨_, rfl⟩)

theorem convertTo_number {s : Spectrum F} {y : F} (hs : s.std = .scalar y) {t u : String}
    {v : Vals F} (h : s.convertTo t u = .ok v) : ∃ x, v = .scalar x := by
  unfold Spectrum.convertTo at h
  obtain ⟨⟨t', u', w⟩, h1, h2⟩ := except_bind_ok h
  cases h2
  unfold Spectrum.convertCore at h1
  simp only at h1
  split at h1
  · obtain ⟨u2, -, h1⟩ := except_bind_ok h1
    obtain ⟨w2, h3, h1⟩ := except_bind_ok h1
    cases h1
    rw [hs] at h3
    exact convertVals_number h3
  · cases h1

/-- A Tauc-Lorentz model and a number. -/
theorem tauc_number {d : CplxData F} (hk : d.kind = .taucLorentz) {s : Spectrum F} {y : F}
    (hs : s.std = .scalar y) : ∃ e, d.evaluate s = .error e := by
  unfold CplxData.evaluate
  cases d.range.contains s with
  | error e => exact ⟨e, rfl⟩
  | ok b =>
    cases hv : s.convertTo d.stype d.unit with
    | error e => exact ⟨e, rfl⟩
    | ok v =>
      obtain ⟨x, rfl⟩ := convertTo_number hs hv
      simp only [bind, Except.bind]
      cases d.kind.at d.params x with
      | error e => exact ⟨e, rfl⟩
      | ok z => simp only [if_pos hk]; exact ⟨_, rfl⟩

theorem Paired.tauc {y : F} {d : CplxData F} (hk : d.kind = .taucLorentz) {s s' : Spectrum F}
    (h : Paired y s s') (h1 : Clear y d.range.stype) (h2 : Clear y d.stype) {v : CVals F}
    (hv : d.evaluate s' = .ok v) : d.evaluate s = .error .type := by
  unfold CplxData.evaluate at hv ⊢
  rw [h.contains h1] at hv
  cases hr : d.range.contains s with
  | error e => rw [hr] at hv; cases hv
  | ok b =>
    rw [hr] at hv
    have := h.convertTo (u := d.unit) h2
    cases e2 : s'.convertTo d.stype d.unit with
    | error e' => rw [e2] at hv; cases hv
    | ok v' =>
      rw [e2] at this hv
      cases e1 : s.convertTo d.stype d.unit with
      | error e => rw [e1] at this; cases this
      | ok w =>
        rw [e1] at this
        cases this
        simp only [bind, Except.bind, List.mapM_cons, List.mapM_nil, if_pos hk] at hv ⊢
        cases hz : d.kind.at d.params _ with
        | error e => rw [hz] at hv; cases hv
        | ok z => rfl

/-- C152, the exception: a Tauc-Lorentz model answers no single number. Where it answers the list of
this number, it raises `TypeError`. -/
theorem C152_tauc (m : Material F) {d : CplxData F} (hd : m.cplx = some d)
    (hk : d.kind = .taucLorentz) (t u : String) (x : F) :
    (∃ e, m.getNkRaw (.float x) t u = .error e) ∧
    (∃ e, m.getPermittivityRaw (.float x) t u = .error e) ∧
    (Told m t u x →
      ((∃ v, m.getNkRaw (.list .float [x]) t u = .ok v) →
        m.getNkRaw (.float x) t u = .error .type) ∧
      ((∃ v, m.getPermittivityRaw (.list .float [x]) t u = .ok v) →
        m.getPermittivityRaw (.float x) t u = .error .type)) := by
  have num : ∀ s, Spectrum.new (.float x) t u = .ok s → ∃ e, d.evaluate s = .error e := by
    intro s hs
    obtain ⟨c, hc⟩ := (C01_accepts_iff (.float x) trivial t u).1 ⟨s, hs⟩
    rw [new_scalar hc] at hs
    cases hs
    exact tauc_number hk rfl
  refine ⟨?_, ?_, fun hx => ?_⟩
  · unfold Material.getNkRaw Material.nkCore
    cases hs : Spectrum.new (.float x) t u with
    | error e => exact ⟨e, rfl⟩
    | ok s =>
      simp only [bind, Except.bind]
      split
      · exact ⟨_, rfl⟩
      · obtain ⟨e, he⟩ := num s hs
        simp only [Material.evalStored, hd, he]
        exact ⟨e, rfl⟩
  · unfold Material.getPermittivityRaw Material.getPermittivity
    cases hs : Spectrum.new (.float x) t u with
    | error e => exact ⟨e, rfl⟩
    | ok s =>
      simp only [bind, Except.bind]
      split
      · exact ⟨_, rfl⟩
      · obtain ⟨e, he⟩ := num s hs
        simp only [Material.evalStored, hd, he]
        exact ⟨e, rfl⟩
  · rcases paired_new (u := u) hx.1 with ⟨s, s', y, h1, h2, h3, h⟩ | ⟨e, h1, h2⟩
    · have c1 : Clear y d.range.stype := hx.2 y h3 _ (by simp [materialTypes, hd])
      have c2 : Clear y d.stype := hx.2 y h3 _ (by simp [materialTypes, hd])
      constructor
      · rintro ⟨v, hv⟩
        unfold Material.getNkRaw Material.nkCore at hv ⊢
        rw [h2] at hv
        rw [h1]
        simp only [bind, Except.bind, Material.evalStored, hd] at hv ⊢
        split at hv
        · cases hv
        · rename_i hn
          rw [if_neg hn]
          cases hv' : d.evaluate s' with
          | error e => rw [hv'] at hv; cases hv
          | ok w => rw [h.tauc hk c1 c2 hv']
      · rintro ⟨v, hv⟩
        unfold Material.getPermittivityRaw Material.getPermittivity at hv ⊢
        rw [h2] at hv
        rw [h1]
        simp only [bind, Except.bind, Material.evalStored, hd] at hv ⊢
        split at hv
        · cases hv
        · rename_i hn
          rw [if_neg hn]
          cases hv' : d.evaluate s' with
          | error e => rw [hv'] at hv; cases hv
          | ok w => rw [h.tauc hk c1 c2 hv']
    · constructor
      · rintro ⟨v, hv⟩
        unfold Material.getNkRaw Material.nkCore at hv
        rw [h2] at hv; cases hv
      · rintro ⟨v, hv⟩
        unfold Material.getPermittivityRaw at hv
        rw [h2] at hv; cases hv

/-- C152 for wavelengths, without further conditions: a material whose data are given over
wavelengths and that is asked for a wavelength. -/
theorem C152_wavelengths [OneTimes F] (m : Material F) (hm : m.cplx = none)
    (ht : ∀ t ∈ materialTypes m, lower t = "wavelength") (t u : String) (hl : lower t = "wavelength")
    (x : F) :
    OneAlike (m.getNkRaw (.float x) t u) (m.getNkRaw (.list .float [x]) t u) ∧
    OneAlike (m.getPermittivityRaw (.float x) t u) (m.getPermittivityRaw (.list .float [x]) t u) := by
  have h : Told m t u x := ⟨fun h => absurd hl h, fun y _ t' ht' =>
    ⟨fun h => absurd (ht t' ht') h, fun h => by rw [ht t' ht'] at h; exact absurd h (by decide)⟩⟩
  have hk : ∀ d, m.cplx = some d → d.kind ≠ .taucLorentz := by rw [hm]; intro d h; cases h
  exact ⟨C152_index_partial m hk t u x h, C152_permittivity_partial m hk t u x h⟩

/-- Both arithmetics have this law: in real numbers with infinities, -/
instance : OneTimes XR where
  mul_one c := by
    have h1 : (lit 1 : XR) = XR.fin 1 := by
      show XR.fin _ = _
      norm_num
    rw [h1]
    cases c with
    | fin x => rw [XR.mul_fin, mul_one]
    | nan => rfl
    | pinf => show XR.mul _ _ = _; simp [XR.mul, XR.signInf]
    | ninf => show XR.mul _ _ = _; simp [XR.mul, XR.signInf]

/-- and in doubles, where the product with one is not rounded. -/
instance : OneTimes Dbl where
  mul_one c := by
    have h1 : (lit 1 : Dbl).val = .fin 1 := by exact_mod_cast Dbl.lit_int (n := 1) (by norm_num)
    refine Subtype.ext ?_
    show (c * lit 1).val = c.val
    have h2 : (lit 1 : XR) = XR.fin 1 := by
      show XR.fin _ = _
      norm_num
    cases hc : c.val with
    | fin x => exact Dbl.mul_one_val hc h1
    | nan => rw [Dbl.val_mul, hc, h1, ← h2, OneTimes.mul_one]; rfl
    | pinf => rw [Dbl.val_mul, hc, h1, ← h2, OneTimes.mul_one]; rfl
    | ninf => rw [Dbl.val_mul, hc, h1, ← h2, OneTimes.mul_one]; rfl

/-- C152, the full statement: materials from the constructor answer a number as the list of it. -/
def C152_statement [SciPy Dbl] [NumText Dbl] : Prop :=
  ∀ (rd : String → Res (FileDict Dbl)) (kw : Kwargs Dbl) (m : Material Dbl),
    Material.new rd kw = .ok m → ∀ (t u : String) (x : Dbl),
    OneAlike (m.getNkRaw (.float x) t u) (m.getNkRaw (.list .float [x]) t u) ∧
    OneAlike (m.getPermittivityRaw (.float x) t u) (m.getPermittivityRaw (.list .float [x]) t u)

/-- C152 is false: the amorphous semiconductor `glassyKw` has a permittivity at the list of 620 nm
and none at the number. -/
theorem C152_refuted [SciPy Dbl] [NumText Dbl] : ¬ C152_statement := by
  intro h
  obtain ⟨m, s, v, h1, h2, h3, -⟩ := glassy_case (fun _ => .error .fileNotFound)
  obtain ⟨-, h4⟩ := h _ _ m h1 "Wavelength" "nm" (intDbl 620)
  obtain ⟨g1, g2⟩ := only_single (F := Dbl) (show ("model_kw", DocType.model) ∈ sources by decide)
    (v := .dict glassyKw) (by simp)
  obtain ⟨-, hg⟩ := C24_model_partial (fun _ => .error .fileNotFound) [("model_kw", .dict glassyKw)]
    g1 (plain_single (by decide) (by decide)) _ g2 "TaucLorentz" rfl _ rfl _ rfl rfl "energy" "ev"
    rfl rfl
  obtain ⟨k, md, b1, b2, b3⟩ := (hg (by decide)).1 ⟨by decide +kernel, by decide +kernel⟩
  rw [show classRef "TaucLorentz" = .cplx .taucLorentz by decide] at b2
  cases b2
  rw [h1] at b3
  have hm : m.cplx = some md := by cases b3; rfl
  have hk : md.kind = .taucLorentz := by
    unfold CplxData.new at b1
    obtain ⟨r, -, b1⟩ := except_bind_ok b1
    obtain ⟨_, -, b1⟩ := except_bind_ok b1
    cases b1
    rfl
  obtain ⟨-, ⟨e, he⟩, -⟩ := C152_tauc m hm hk "Wavelength" "nm" (intDbl 620)
  have hl : m.getPermittivityRaw (.list .float [intDbl 620]) "Wavelength" "nm" = .ok v := by
    unfold Material.getPermittivityRaw
    rw [h2]
    exact h3
  rw [he, hl] at h4
  cases h4

/-- Beside `C152_wavelengths`: a material of fixed index asked for 5 nm. -/
example [SciPy XR] [NumText XR] (rd : String → Res (FileDict XR)) :
    ∃ m, Material.new rd [("fixed_n", .float (XR.fin (3 / 2)))] = .ok m ∧
      OneAlike (m.getNkRaw (.float (XR.fin 5)) "wavelength" "nm")
        (m.getNkRaw (.list .float [XR.fin 5]) "wavelength" "nm") := by
  obtain ⟨g1, g2⟩ := only_single (F := XR) (show ("fixed_n", DocType.real) ∈ sources by decide)
    (v := .float (XR.fin (3 / 2))) (by simp)
  obtain ⟨h, -⟩ := C24_fixed_partial rd [("fixed_n", .float (XR.fin (3 / 2)))] g1
    (plain_single (by decide) (by decide))
  refine ⟨_, h _ g2, (C152_wavelengths _ rfl ?_ _ _ (by decide +kernel) _).1⟩
  intro t ht
  simp [materialTypes, typesOf, cdata, blankMaterial] at ht
  subst ht
  decide +kernel

end Disp

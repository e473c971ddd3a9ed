import Verif.Props.MaterialFiles
import Verif.Props.Permittivity
/-!
# C27–C31: evaluation of a material
-/

namespace Disp

open Spec

section generic
variable {F : Type} [PyFloat F] [SciPy F]

omit [SciPy F] in
/-- A freshly constructed spectrum is reproduced from its own values, type and unit. -/
theorem new_again {raw : Raw F} {t u : String} {s : Spectrum F} (h : Spectrum.new raw t u = .ok s) :
    Spectrum.new s.values.toRaw s.stype s.unit = .ok s := by
  rw [Spectrum.new_eq] at h
  cases hl : specLookup (lower t) (lower u) with
  | error e => rw [hl] at h; cases h
  | ok c =>
    rw [hl] at h
    have hn := specLookup_ok_iff.1 hl
    have hp := names_pairs _ hn
    have h2 := pairs_names _ hp
    have hlow := names_lower _ h2
    simp only at h hlow
    cases hc : raw.check with
    | error e => rw [hc] at h; cases h
    | ok v =>
      rw [hc] at h
      simp only [bind, Except.bind] at h
      cases hv : standardiseValues (lower t) c v with
      | error e => rw [hv] at h; cases h
      | ok w =>
        rw [hv] at h
        have hs : s = { values := v, stype := lower t, unit := c, std := w } := by cases h; rfl
        subst hs
        rw [Spectrum.new_eq]
        simp only
        rw [hlow.1, hlow.2, specLookup_ok_iff.2 h2]
        have hck : v.toRaw.check = .ok v := by cases v <;> rfl
        simp only [hck, hv, bind, Except.bind]

/-- A spectrum as the constructor leaves it. -/
def Fresh (s : Spectrum F) : Prop := ∃ raw t u, Spectrum.new raw t u = .ok s

omit [SciPy F] in
theorem Fresh.again {s : Spectrum F} (h : Fresh s) :
    Spectrum.new s.values.toRaw s.stype s.unit = .ok s := by
  obtain ⟨raw, t, u, h⟩ := h
  exact new_again h

/-- On a fresh spectrum both functions evaluate the stored quantity once. -/
theorem getNk_fresh (m : Material F) {s : Spectrum F} (h : Fresh s)
    (hn : m.name = "nk" ∨ m.name = "eps") :
    (m.getNk s).1 = (m.evalStored s).1.map
      (fun v => if m.name = "eps" then v.map PyFloat.csqrt else v) := by
  unfold Material.getNk Material.nkCore
  rw [h.again]
  simp only [bind, Except.bind]
  rw [if_neg (not_not.2 hn)]
  cases (m.evalStored s).1 <;> rfl

theorem getPermittivity_eq (m : Material F) (s : Spectrum F) (hn : m.name = "nk" ∨ m.name = "eps") :
    (m.getPermittivity s).1 = (m.evalStored s).1.map
      (fun v => if m.name = "nk" then v.map Cx.sq else v) := by
  unfold Material.getPermittivity
  rw [if_neg (not_not.2 hn)]
  cases h : m.evalStored s with
  | mk r s' => cases r <;> rfl

/-- C27, for every arithmetic: on a fresh spectrum, the two functions raise the same exception
or none. Missing for the full claim: spectra converted in place (false, see `C27_refuted`). -/
theorem C27_fail_partial (m : Material F) (s : Spectrum F) (hs : Fresh s) (e : PyErr) :
    (m.getNk s).1 = .error e ↔ (m.getPermittivity s).1 = .error e := by
  by_cases hn : m.name = "nk" ∨ m.name = "eps"
  · rw [getNk_fresh m hs hn, getPermittivity_eq m s hn]
    cases (m.evalStored s).1 <;> simp [Except.map]
  · have h1 : (m.getNk s).1 = .error .value := by
      unfold Material.getNk Material.nkCore
      rw [hs.again]
      simp only [bind, Except.bind]
      rw [if_pos hn]
    have h2 : (m.getPermittivity s).1 = .error .value := by
      unfold Material.getPermittivity
      rw [if_pos hn]
    rw [h1, h2]

/-- C27, for every arithmetic, for a material defined by its index: the permittivity is the
product of the index with itself, element by element (and raises what the index raises). -/
theorem C27_index_partial (m : Material F) (s : Spectrum F) (hs : Fresh s) (hn : m.name = "nk") :
    (m.getPermittivity s).1 = (m.getNk s).1.map (fun v => v.map (fun z => z * z)) := by
  rw [getNk_fresh m hs (.inl hn), getPermittivity_eq m s (.inl hn), hn]
  cases (m.evalStored s).1 with
  | error e => rfl
  | ok v =>
    simp only [Except.map, if_true]
    rw [if_neg (by decide)]
    rfl

end generic

/-! ## The complex square root -/

/-- `csqrt` on finite values, against ℂ: the root with non-negative real part whose imaginary
part has the sign of that of the radicand. -/
theorem csqrt_toCx (z : ℂ) : ∃ w : ℂ, PyFloat.csqrt (toCx z) = toCx w ∧ w ^ 2 = z ∧ 0 ≤ w.re ∧
    (0 ≤ z.im → 0 ≤ w.im) ∧ (0 < z.im → 0 < w.im) ∧ (z.im < 0 → w.im < 0) := by
  obtain ⟨a, b⟩ := z
  set m := Real.sqrt (a ^ 2 + b ^ 2) with hm
  have hmsq : m ^ 2 = a ^ 2 + b ^ 2 := Real.sq_sqrt (by positivity)
  have hm0 : 0 ≤ m := Real.sqrt_nonneg _
  have hma : |a| ≤ m := by
    rw [hm, ← Real.sqrt_sq_eq_abs]
    exact Real.sqrt_le_sqrt (by nlinarith [sq_nonneg b])
  have h1 : 0 ≤ (m + a) / 2 := by have := neg_abs_le a; linarith
  have h2 : 0 ≤ (m - a) / 2 := by have := le_abs_self a; linarith
  have hp : Real.sqrt ((m + a) / 2) * Real.sqrt ((m - a) / 2) = |b| / 2 := by
    rw [← Real.sqrt_mul h1]
    have : (m + a) / 2 * ((m - a) / 2) = (|b| / 2) ^ 2 := by
      have := sq_abs b
      nlinarith
    rw [this, Real.sqrt_sq (by positivity)]
  have hs1 := Real.sq_sqrt h1
  have hs2 := Real.sq_sqrt h2
  have hpos : b ≠ 0 → 0 < Real.sqrt ((m - a) / 2) := by
    intro hb
    rcases (Real.sqrt_nonneg ((m - a) / 2)).lt_or_eq with h | h
    · exact h
    · rw [← h] at hp
      have : |b| = 0 := by linarith
      exact absurd (abs_eq_zero.1 this) hb
  refine ⟨⟨Real.sqrt ((m + a) / 2),
    if b < 0 then -Real.sqrt ((m - a) / 2) else Real.sqrt ((m - a) / 2)⟩, rfl, ?_,
    Real.sqrt_nonneg _, ?_, ?_, ?_⟩
  · apply Complex.ext
    · rw [pow_two, Complex.mul_re]
      show Real.sqrt ((m + a) / 2) * Real.sqrt ((m + a) / 2) -
        (if b < 0 then -Real.sqrt ((m - a) / 2) else Real.sqrt ((m - a) / 2)) *
        (if b < 0 then -Real.sqrt ((m - a) / 2) else Real.sqrt ((m - a) / 2)) = a
      split_ifs <;> nlinarith
    · rw [pow_two, Complex.mul_im]
      show Real.sqrt ((m + a) / 2) *
        (if b < 0 then -Real.sqrt ((m - a) / 2) else Real.sqrt ((m - a) / 2)) +
        (if b < 0 then -Real.sqrt ((m - a) / 2) else Real.sqrt ((m - a) / 2)) *
        Real.sqrt ((m + a) / 2) = b
      split_ifs with hb
      · rw [abs_of_neg hb] at hp; linarith
      · rw [abs_of_nonneg (not_lt.1 hb)] at hp; linarith
  · intro hb
    show 0 ≤ (if b < 0 then _ else _)
    rw [if_neg (not_lt.2 hb)]
    exact Real.sqrt_nonneg _
  · intro hb
    show 0 < (if b < 0 then _ else _)
    rw [if_neg (not_lt.2 (le_of_lt hb))]
    exact hpos (ne_of_gt hb)
  · intro hb
    show (if b < 0 then _ else _) < 0
    rw [if_pos hb]
    have := hpos (ne_of_lt hb)
    linarith

/-- The complex numbers of a result, if all of them are finite. -/
inductive Numbers : CVals XR → Bool → List ℂ → Prop
  | scalar (z : ℂ) : Numbers (.scalar (toCx z)) false [z]
  | array (zs : List ℂ) : Numbers (.array (zs.map toCx)) true zs

theorem csqrt_finite {z : Cx XR} {w : ℂ} (h : PyFloat.csqrt z = toCx w) : ∃ z', z = toCx z' := by
  obtain ⟨a, b⟩ := z
  cases a with
  | fin a => cases b with
    | fin b => exact ⟨⟨a, b⟩, rfl⟩
    | pinf => cases h
    | ninf => cases h
    | nan => cases h
  | pinf => cases b <;> cases congrArg Cx.re h
  | ninf => cases b with
    | fin b =>
      have h2 : (if b < 0 then XR.ninf else XR.pinf) = XR.fin w.im := congrArg Cx.im h
      split at h2 <;> cases h2
    | pinf => cases congrArg Cx.re h
    | ninf => cases congrArg Cx.re h
    | nan => cases congrArg Cx.re h
  | nan => cases b <;> cases congrArg Cx.re h

/-- The relation between the elements of the index and of the permittivity. -/
def RootOf (n e : ℂ) : Prop :=
  n ^ 2 = e ∧ 0 ≤ n.re ∧ (0 ≤ e.im → 0 ≤ n.im) ∧ (0 < e.im → 0 < n.im) ∧ (e.im < 0 → n.im < 0)

theorem csqrt_rootOf {z w : ℂ} (h : PyFloat.csqrt (toCx z) = toCx w) : RootOf w z := by
  obtain ⟨w', h1, h2⟩ := csqrt_toCx z
  rw [h1] at h
  obtain rfl := Cx.toCx_inj.1 h
  exact h2

theorem map_csqrt_numbers {v : CVals XR} {b : Bool} {ns : List ℂ}
    (h : Numbers (v.map PyFloat.csqrt) b ns) :
    ∃ es, Numbers v b es ∧ List.Forall₂ RootOf ns es := by
  cases v with
  | scalar z =>
    simp only [CVals.map] at h
    generalize hz : PyFloat.csqrt z = z' at h
    cases h with
    | scalar w =>
      obtain ⟨z0, rfl⟩ := csqrt_finite hz
      exact ⟨[z0], .scalar z0, .cons (csqrt_rootOf hz) .nil⟩
  | array zs =>
    simp only [CVals.map] at h
    generalize hz : zs.map PyFloat.csqrt = zs' at h
    cases h with
    | array ws =>
      have : ∀ (zs : List (Cx XR)) (ws : List ℂ), zs.map PyFloat.csqrt = ws.map toCx →
          ∃ es : List ℂ, zs = es.map toCx ∧ List.Forall₂ RootOf ws es := by
        intro zs
        induction zs with
        | nil =>
          intro ws h
          cases ws with
          | nil => exact ⟨[], rfl, .nil⟩
          | cons w ws => cases h
        | cons z zs ih =>
          intro ws h
          cases ws with
          | nil => cases h
          | cons w ws =>
            simp only [List.map_cons, List.cons.injEq] at h
            obtain ⟨es, h1, h2⟩ := ih ws h.2
            obtain ⟨z0, rfl⟩ := csqrt_finite h.1
            exact ⟨z0 :: es, by rw [h1]; rfl, .cons (csqrt_rootOf h.1) h2⟩
      obtain ⟨es, rfl, h2⟩ := this zs ns hz
      exact ⟨es, .array es, h2⟩

theorem map_sq_numbers {v : CVals XR} {b : Bool} {ns : List ℂ} (h : Numbers v b ns) :
    Numbers (v.map Cx.sq) b (ns.map (· ^ 2)) := by
  cases h with
  | scalar z =>
    simp only [CVals.map, List.map_cons, List.map_nil, Cx.sq_toCx]
    exact .scalar _
  | array zs =>
    simp only [CVals.map, List.map_map]
    have : (Cx.sq ∘ toCx) = toCx ∘ (fun z : ℂ => z ^ 2) := by
      funext z; exact Cx.sq_toCx z
    rw [this, ← List.map_map]
    exact .array _

section ideal
variable [SciPy XR]

/-- C27 (full statement, refuted below), for constructed materials and for spectra after any
history of in-place conversions: the calls fail together, and finite values are squares. -/
def C27_statement [NumText XR] : Prop :=
  ∀ (rd : String → Res (FileDict XR)) (kw : Kwargs XR) (m : Material XR),
    Material.new rd kw = .ok m → ∀ (raw : Raw XR) (t u : String) (s0 : Spectrum XR),
    Spectrum.new raw t u = .ok s0 → ∀ hist : List (String × String),
    let s := afterConversions s0 hist
    (∀ e, (m.getNk s).1 = .error e ↔ (m.getPermittivity s).1 = .error e) ∧
    ∀ n b ns, (m.getNk s).1 = .ok n → Numbers n b ns →
      ∃ v, (m.getPermittivity s).1 = .ok v ∧ Numbers v b (ns.map (· ^ 2))

/-- C27 on the ideal arithmetic, for every material and every fresh spectrum: where the index is
finite, the permittivity is its square, element by element and of the same shape, whichever of
the two is stored. Missing for the full claim: spectra that were converted in place. -/
theorem C27_square_partial (m : Material XR) (s : Spectrum XR) (hs : Fresh s) (n : CVals XR)
    (b : Bool) (ns : List ℂ) (hn : (m.getNk s).1 = .ok n) (hf : Numbers n b ns) :
    ∃ v, (m.getPermittivity s).1 = .ok v ∧ Numbers v b (ns.map (· ^ 2)) := by
  have hname : m.name = "nk" ∨ m.name = "eps" := by
    by_contra hc
    unfold Material.getNk Material.nkCore at hn
    rw [hs.again] at hn
    simp only [bind, Except.bind] at hn
    rw [if_pos hc] at hn
    cases hn
  rw [getNk_fresh m hs hname] at hn
  rw [getPermittivity_eq m s hname]
  cases he : (m.evalStored s).1 with
  | error e => rw [he] at hn; cases hn
  | ok v =>
    rw [he] at hn
    simp only [Except.map, Except.ok.injEq] at hn ⊢
    rcases hname with h | h
    · rw [h] at hn ⊢
      rw [if_neg (by decide)] at hn
      subst hn
      exact ⟨_, rfl, by rw [if_pos rfl]; exact map_sq_numbers hf⟩
    · rw [h] at hn ⊢
      rw [if_pos rfl] at hn
      subst hn
      obtain ⟨es, h1, h2⟩ := map_csqrt_numbers hf
      refine ⟨v, by rw [if_neg (by decide)], ?_⟩
      have : ns.map (· ^ 2) = es := by
        clear hf h1
        induction h2 with
        | nil => rfl
        | cons h _ ih => rw [List.map_cons, ih, h.1]
      rw [this]
      exact h1

/-- C28 on the ideal arithmetic (which has no signed zeros): for a material defined by its
permittivity, every finite index is the root with non-negative real part whose imaginary part has
the sign of the imaginary part of the permittivity; on the real axis it is non-negative. -/
theorem C28_branch (m : Material XR) (s : Spectrum XR) (hs : Fresh s) (hm : m.name = "eps")
    (n : CVals XR) (b : Bool) (ns : List ℂ) (hn : (m.getNk s).1 = .ok n) (hf : Numbers n b ns) :
    ∃ v es, (m.getPermittivity s).1 = .ok v ∧ Numbers v b es ∧
      List.Forall₂ (fun n e : ℂ => n ^ 2 = e ∧ 0 ≤ n.re ∧ (0 ≤ e.im → 0 ≤ n.im) ∧
        (0 < e.im → 0 < n.im) ∧ (e.im < 0 → n.im < 0)) ns es := by
  rw [getNk_fresh m hs (.inr hm)] at hn
  rw [getPermittivity_eq m s (.inr hm), hm]
  rw [hm] at hn
  cases he : (m.evalStored s).1 with
  | error e => rw [he] at hn; cases hn
  | ok v =>
    rw [he] at hn
    simp only [Except.map, Except.ok.injEq, if_true] at hn
    subst hn
    obtain ⟨es, h1, h2⟩ := map_csqrt_numbers hf
    exact ⟨v, es, by simp only [Except.map]; rw [if_neg (by decide)], h1, h2⟩

/-- C28, passive media: if the permittivity has no negative imaginary part, `k >= 0`. And the
index is finite wherever the permittivity is. -/
theorem C28_passive (m : Material XR) (s : Spectrum XR) (hs : Fresh s) (hm : m.name = "eps")
    (v : CVals XR) (b : Bool) (es : List ℂ) (hv : (m.getPermittivity s).1 = .ok v)
    (hf : Numbers v b es) :
    ∃ n ns, (m.getNk s).1 = .ok n ∧ Numbers n b ns ∧ ((∀ e ∈ es, 0 ≤ e.im) → ∀ z ∈ ns, 0 ≤ z.im) := by
  rw [getPermittivity_eq m s (.inr hm), hm] at hv
  rw [getNk_fresh m hs (.inr hm), hm]
  cases he : (m.evalStored s).1 with
  | error e => rw [he] at hv; cases hv
  | ok w =>
    rw [he] at hv
    have hwv : w = v := by
      simp only [Except.map, Except.ok.injEq] at hv
      rwa [if_neg (by decide)] at hv
    subst hwv
    choose f hf1 hf2 using csqrt_toCx
    simp only [Except.map, if_true]
    cases hf with
    | scalar z =>
      refine ⟨_, [f z], rfl, ?_, ?_⟩
      · simp only [CVals.map, hf1]; exact .scalar _
      · intro h x hx
        simp only [List.mem_singleton] at hx
        subst hx
        exact (hf2 z).2.2.1 (h z (by simp))
    | array =>
      refine ⟨_, es.map f, rfl, ?_, ?_⟩
      · have : (es.map toCx).map PyFloat.csqrt = (es.map f).map toCx := by
          simp [hf1]
        simp only [CVals.map, this]; exact .array _
      · intro h x hx
        obtain ⟨z, hz, rfl⟩ := List.mem_map.1 hx
        exact (hf2 z).2.2.1 (h z hz)

end ideal

/-- Concrete case for `C28_branch`: the root of 1 - 4i has a negative imaginary part. -/
example : ∃ w : ℂ, PyFloat.csqrt (toCx ⟨1, -4⟩) = toCx w ∧ w.im < 0 := by
  obtain ⟨w, h1, -, -, -, -, h2⟩ := csqrt_toCx ⟨1, -4⟩
  exact ⟨w, h1, h2 (by norm_num)⟩

/-! ## Evaluation and the wavelength reference -/

section generic
variable {F : Type} [PyFloat F] [SciPy F]

omit [SciPy F] in
/-- The range check and conversions see only the wavelengths. -/
theorem convertTo_congr {s s' : Spectrum F} (h : s'.std = s.std) (t u : String) :
    s'.convertTo t u = s.convertTo t u := by
  rw [Spectrum.convertTo_eq, Spectrum.convertTo_eq, h]

omit [SciPy F] in
theorem contains_congr {s s' : Spectrum F} (h : s'.std = s.std) (r : Spectrum F) :
    r.contains s' = r.contains s := by
  unfold Spectrum.contains
  rw [convertTo_congr h]

theorem interp_congr {s s' : Spectrum F} (h : s'.std = s.std) (o : ℕ) (rows : List (F × F))
    (r : Spectrum F) (t u : String) :
    ((RealData.interp o rows r t u).evaluate s').1 = ((RealData.interp o rows r t u).evaluate s).1 := by
  simp only [RealData.evaluate]
  rw [contains_congr h, convertTo_congr h]

omit [SciPy F] in
/-- In-place conversion is a history of length one. -/
theorem afterConversions_one (s : Spectrum F) (t u : String) :
    afterConversions s [(t, u)] = (s.convertInPlace t u).2 := rfl

omit [SciPy F] in
theorem afterConversions_append (s : Spectrum F) (h h' : List (String × String)) :
    afterConversions (afterConversions s h) h' = afterConversions s (h ++ h') := by
  simp only [afterConversions, List.foldl_append]

/-- Evaluating a data object at most re-expresses the caller's Spectrum. -/
theorem evaluate_history (d : RealData F) (s : Spectrum F) :
    ∃ hist, (d.evaluate s).2 = afterConversions s hist := by
  induction d generalizing s with
  | constant => exact ⟨[], rfl⟩
  | interp => exact ⟨[], rfl⟩
  | model => exact ⟨[], rfl⟩
  | extrap base order spl r t u ih =>
    have key : ∀ s1 h1, s1 = afterConversions s h1 → ∀ e : PyErr, ∃ hist,
        (if e.isA .value then
          match s1.convertInPlace t u with
          | (.error e', s'') => (.error e', s'')
          | (.ok _, s'') =>
            (do
              let _ ← r.contains s''
              .ok (s''.values.map (SciPy.splev spl)), s'')
         else (.error e, s1) : Res (Vals F) × Spectrum F).2 = afterConversions s hist := by
      intro s1 h1 hs1 e
      split
      · refine ⟨h1 ++ [(t, u)], ?_⟩
        rw [← afterConversions_append, ← hs1, afterConversions_one]
        cases s1.convertInPlace t u with
        | mk x s'' => cases x <;> rfl
      · exact ⟨h1, hs1⟩
    simp only [RealData.evaluate]
    cases hc : base.range.contains s with
    | error e =>
      simp only
      exact key s [] rfl e
    | ok b =>
      simp only
      obtain ⟨h1, hh⟩ := ih s
      cases hev : base.evaluate s with
      | mk x s1 =>
        rw [hev] at hh
        simp only at hh
        cases x with
        | ok v => exact ⟨h1, hh⟩
        | error e => exact key s1 h1 hh e

theorem evalPart_history (d : Option (RealData F)) (s : Spectrum F) :
    ∃ hist, (evalPart d s).2 = afterConversions s hist := by
  cases d with
  | none => exact ⟨[], rfl⟩
  | some d => exact evaluate_history d s

theorem evalStored_history (m : Material F) (s : Spectrum F) :
    ∃ hist, (m.evalStored s).2 = afterConversions s hist := by
  unfold Material.evalStored
  cases m.cplx with
  | some d => exact ⟨[], rfl⟩
  | none =>
    simp only
    obtain ⟨h1, hh1⟩ := evalPart_history m.real s
    cases he : evalPart m.real s with
    | mk x s1 =>
      rw [he] at hh1
      simp only at hh1
      cases x with
      | error e => exact ⟨h1, hh1⟩
      | ok r =>
        simp only
        obtain ⟨h2, hh2⟩ := evalPart_history m.imag s1
        rw [hh1, afterConversions_append, ← hh1] at hh2
        cases he2 : evalPart m.imag s1 with
        | mk y s2 =>
          rw [he2] at hh2
          cases y <;> exact ⟨_, hh2⟩

/-! ## C31 -/

/-- C31 (full statement, refuted below): neither call changes the Spectrum object, for materials
that were constructed and then possibly extrapolated. -/
def C31_statement (F : Type) [PyFloat F] [SciPy F] [NumText F] : Prop :=
  ∀ (rd : String → Res (FileDict F)) (kw : Kwargs F) (m : Material F),
    Material.new rd kw = .ok m → ∀ (es s : Spectrum F) (order : ℕ), Fresh es → Fresh s →
    (m.getNk s).2 = s ∧ (m.getPermittivity s).2 = s ∧
    ((m.extrapolate es order).2.1.getNk s).2 = s ∧
    ((m.extrapolate es order).2.1.getPermittivity s).2 = s

/-- C31, every arithmetic, every material, every Spectrum object, whether or not the call
succeeds: `get_nk_data` does not touch the object, and `get_permittivity` leaves an object that
is the caller's after in-place conversions, so it stands for the same wavelengths and converts to
every unit with the same result. -/
theorem C31_same_wavelengths_partial (m : Material F) (s : Spectrum F) :
    (m.getNk s).2 = s ∧
    (∃ hist, (m.getPermittivity s).2 = afterConversions s hist) ∧
    (m.getPermittivity s).2.std = s.std ∧
    ∀ t u, (m.getPermittivity s).2.convertTo t u = s.convertTo t u := by
  have h : ∃ hist, (m.getPermittivity s).2 = afterConversions s hist := by
    unfold Material.getPermittivity
    split
    · exact ⟨[], rfl⟩
    · obtain ⟨hist, hh⟩ := evalStored_history m s
      cases he : m.evalStored s with
      | mk x s' =>
        rw [he] at hh
        cases x <;> exact ⟨hist, hh⟩
  refine ⟨rfl, h, ?_, ?_⟩
  · obtain ⟨hist, hh⟩ := h
    rw [hh, C09_reference_fixed]
  · intro t u
    obtain ⟨hist, hh⟩ := h
    rw [hh, C09_no_drift]

/-- A part that is not an extrapolation. -/
def PlainPart : Option (RealData F) → Prop
  | some d => Plain d
  | none => True

theorem evalPart_plain {d : Option (RealData F)} (h : PlainPart d) (s : Spectrum F) :
    (evalPart d s).2 = s := by
  cases d with
  | none => rfl
  | some d => cases d <;> first | rfl | exact h.elim

/-- C31, every arithmetic: a material without extrapolated parts leaves the object as it is, and
so does a material stored as complex data. Missing for the full claim: extrapolated materials,
for which it is false. -/
theorem C31_unchanged_partial (m : Material F)
    (h : m.cplx.isSome ∨ PlainPart m.real ∧ PlainPart m.imag) (s : Spectrum F) :
    (m.getPermittivity s).2 = s := by
  have : (m.evalStored s).2 = s := by
    unfold Material.evalStored
    cases hc : m.cplx with
    | some d => rfl
    | none =>
      rw [hc] at h
      obtain ⟨h1, h2⟩ := h.resolve_left (by simp)
      have e1 := evalPart_plain h1 s
      simp only
      cases he : evalPart m.real s with
      | mk x s1 =>
        rw [he] at e1
        obtain rfl : s1 = s := e1
        cases x with
        | error e => rfl
        | ok r =>
          have e2 := evalPart_plain h2 s1
          simp only
          cases he2 : evalPart m.imag s1 with
          | mk y s2 =>
            rw [he2] at e2
            cases y <;> exact e2
  unfold Material.getPermittivity
  split
  · rfl
  · cases he : m.evalStored s with
    | mk x s' =>
      rw [he] at this
      cases x <;> exact this

end generic

section ideal
variable [SciPy XR]

/-- The metre spectrum `ys` after a conversion to nanometres. -/
noncomputable def inNm (ys : List ℝ) : Spectrum XR :=
  { values := .array .float (ys.map (fun y => XR.fin (XR.roundDec 12 (y * 10 ^ 9))))
    stype := "wavelength"
    unit := "nm"
    std := .array .float (ys.map XR.fin) }

omit [SciPy XR] in
theorem inNm_eq (ys : List ℝ) :
    afterConversions (metreSpectrum (ys.map XR.fin)) [("wavelength", "nm")] = inNm ys := by
  have hl : lower "wavelength" = "wavelength" := by decide +kernel
  rw [afterConversions_one]
  unfold Spectrum.convertInPlace
  rw [Spectrum.convertCore_eq, hl, show specLookup "wavelength" "nm" = .ok "nm" by decide +kernel]
  simp only [metreSpectrum]
  rw [convertVals_array (by decide +kernel)]
  simp only [inNm, List.map_map, bind, Except.bind]
  congr 2
  refine List.map_congr_left fun y _ => ?_
  simp only [Function.comp, toElem, String.reduceEq, if_false, if_true]
  rw [show (lit 1e9 : XR) = XR.fin (10 ^ 9) by
    show XR.fin _ = XR.fin _
    norm_num]
  rfl

/-- The wavelength zero in nanometres. -/
def zeroNm : Spectrum XR :=
  { values := .array .float [XR.fin 0]
    stype := "wavelength"
    unit := "nm"
    std := .array .float [XR.fin 0] }

/-- C27 is false: for a table of n and k from 1e-22 m to 1 m and the wavelength 1e-22 m converted
in place to nanometres (which rounds to 0 nm), `get_permittivity` returns a value and
`get_nk_data` raises `ValueError`. -/
theorem C27_refuted [NumText XR] : ¬ C27_statement := by
  intro hst
  have hab : (1e-22 : ℝ) < 1 := by norm_num
  obtain ⟨m, hm, hn, hc, hr, hi, -⟩ := two_tables (a := 1e-22) (b := 1) (ya := 1.5) (yb := 1.6)
    (a' := 1e-22) (b' := 1) (ya' := 0) (yb' := 1) hab hab
  have h := hst _ _ m hm _ _ _ _ (metreSpectrum_new (([1e-22] : List ℝ).map XR.fin))
    [("wavelength", "nm")]
  simp only [inNm_eq] at h
  have hstd : (inNm [1e-22]).std = (metreSpectrum (([1e-22] : List ℝ).map XR.fin)).std := rfl
  have hev : ∀ ya yb : ℝ, (lineData 1e-22 1 ya yb).evaluate (inNm [1e-22]) =
      (.ok (.array .float [XR.fin (lineAt 1e-22 1 ya yb 1e-22)]), inNm [1e-22]) := by
    intro ya yb
    have h1 := lineData_evaluate (ya := ya) (yb := yb) hab [1e-22] (by simp)
      (by intro y hy; simp only [List.mem_singleton] at hy; subst hy; norm_num)
    have h2 : ((lineData 1e-22 1 ya yb).evaluate (inNm [1e-22])).1 =
        ((lineData 1e-22 1 ya yb).evaluate (metreSpectrum (([1e-22] : List ℝ).map XR.fin))).1 :=
      interp_congr hstd _ _ _ _ _
    rw [h1] at h2
    exact Prod.ext h2 rfl
  have hperm : ∃ v, (m.getPermittivity (inNm [1e-22])).1 = .ok v := by
    rw [getPermittivity_eq m _ (.inl hn)]
    unfold Material.evalStored
    rw [hc, hr, hi]
    simp only [evalPart, hev, combineParts, List.length_cons, if_true, Except.map]
    exact ⟨_, rfl⟩
  have hnk : (m.getNk (inNm [1e-22])).1 = .error .value := by
    unfold Material.getNk Material.nkCore
    have hz : XR.roundDec 12 (1e-22 * 10 ^ 9) = 0 := by
      have := XR.roundDec_eq_of_near 12 (x := 1e-22 * 10 ^ 9) 0 (by norm_num)
      rw [this]; norm_num
    have hl : lower "wavelength" = "wavelength" := by decide +kernel
    have hnew : Spectrum.new (inNm [1e-22]).values.toRaw (inNm [1e-22]).stype (inNm [1e-22]).unit =
        .ok zeroNm := by
      have := new_list (F := XR) (t := "wavelength") (u := "nm") (c := "nm") (by decide +kernel)
        [XR.fin 0]
      simp only [inNm, List.map_cons, List.map_nil, hz, Vals.toRaw]
      refine Eq.trans this ?_
      rw [hl]
      simp only [zeroNm, List.map_cons, List.map_nil, fromElem, String.reduceEq, if_false, if_true]
      rw [show (lit 1e-9 : XR) = XR.fin ((1e-9 : ℚ) : ℝ) from rfl, XR.mul_fin, zero_mul]
    rw [hnew]
    simp only [bind, Except.bind]
    rw [if_neg (not_not.2 (.inl hn))]
    unfold Material.evalStored
    rw [hc, hr]
    have h1 := line_outside (a := 1e-22) (b := 1) (ya := 1.5) (yb := 1.6) (y := 0)
      (.inl ⟨by norm_num, by norm_num⟩)
    have h2 : ((lineData 1e-22 1 1.5 1.6).evaluate zeroNm).1 =
        ((lineData 1e-22 1 1.5 1.6).evaluate (metreSpectrum (([0] : List ℝ).map XR.fin))).1 :=
      interp_congr (by rfl) _ _ _ _ _
    rw [h1] at h2
    simp only [evalPart]
    generalize (lineData 1e-22 1 1.5 1.6).evaluate zeroNm = q at h2
    obtain ⟨q1, q2⟩ := q
    simp only at h2
    subst h2
    rfl
  obtain ⟨v, hv⟩ := hperm
  have := (h.1 .value).1 hnk
  rw [hv] at this
  cases this

end ideal

end Disp

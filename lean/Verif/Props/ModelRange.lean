import Verif.Props.UnitRange
/-!
# C32, C33 for dispersion formulas: refractive index models and permittivity models
-/

namespace Disp

open Spec

/-! ## Formulas have a value everywhere -/

/-- The numbers of coefficients with which a formula can be evaluated. -/
def Spec.takes : String → ℕ → Prop
  | "RefractiveIndexInfo", n => n = 1 ∨ n = 5 ∨ (9 ≤ n ∧ n % 2 = 1)
  | "Herzberger", n => 6 ≤ n
  | "Retro", n => 4 ≤ n
  | "Exotic", n => 6 ≤ n
  | _, n => n % 2 = 1

section arith
variable {F : Type} [PyFloat F]

omit [PyFloat F] in
theorem loop2_total (f : F → F → F → F) (p : List F) (start : ℕ) : ∀ (n : ℕ) (init : F),
    start + 2 * n ≤ p.length → ∃ r, loop2 p start n f init = .ok r := by
  intro n
  induction n with
  | zero => intro init _; exact ⟨_, rfl⟩
  | succ n ih =>
    intro init hlen
    have hstep : loop2 p start (n + 1) f init = (do
        let acc ← loop2 p start n f init
        let a ← pyIdx p (n * 2 + start)
        let b ← pyIdx p (n * 2 + (start + 1))
        .ok (f acc a b)) := by
      unfold loop2
      rw [List.range_succ, List.foldlM_append]
      congr 1
      funext acc
      rw [List.foldlM_cons]
      simp only [List.foldlM_nil, bind_pure]
    obtain ⟨r, hr⟩ := ih init (by omega)
    obtain ⟨a, ha⟩ := pyIdx_lt (p := p) (i := n * 2 + start) (by omega)
    obtain ⟨b, hb⟩ := pyIdx_lt (p := p) (i := n * 2 + (start + 1)) (by omega)
    rw [hstep]
    simp only [hr, ha, hb, bind, Except.bind]
    exact ⟨_, rfl⟩

theorem pairs_total (k : Formula) (hk : IsPairFormula k) (p : List F) (hp : p.length % 2 = 1)
    (w : F) : ∃ y, k.at p w = .ok y := by
  obtain ⟨e1, e2, e3, e4⟩ := pairFormula_eq p w
  obtain ⟨c0, h0⟩ := pyIdx_lt (p := p) (i := 0) (by omega)
  have hs : sliceLen p.length 1 p.length 2 = p.length / 2 := by
    unfold sliceLen
    rw [min_self]
    omega
  have hl : ∀ f (init : F), ∃ r, loop2 p 1 (sliceLen p.length 1 p.length 2) f init = .ok r := by
    intro f init
    rw [hs]
    exact loop2_total f p 1 _ init (by omega)
  rcases hk with rfl | rfl | rfl | rfl | rfl <;>
    simp only [Formula.at, polynomialAt, cauchyAt, e1, e2, e3, e4, h0, bind, Except.bind]
  · obtain ⟨r, hr⟩ := hl (fun acc a b => acc + a * sqF w / (sqF w - sqF b)) (c0 * lit 1)
    rw [hr]; exact ⟨_, rfl⟩
  · obtain ⟨r, hr⟩ := hl (fun acc a b => acc + a * sqF w / (sqF w - b)) (c0 * lit 1)
    rw [hr]; exact ⟨_, rfl⟩
  · obtain ⟨r, hr⟩ := hl (fun acc a b => acc + a * PyFloat.pow w b) (c0 * lit 1)
    rw [hr]; exact ⟨_, rfl⟩
  · exact hl _ _
  · obtain ⟨r, hr⟩ := hl (fun acc a b => acc + a / (b - PyFloat.pow w (lit (-2)))) (c0 * lit 1)
    rw [hr]; exact ⟨_, rfl⟩

theorem rii_total (p : List F) (hp : p.length = 1 ∨ p.length = 5 ∨ (9 ≤ p.length ∧ p.length % 2 = 1))
    (w : F) : ∃ y, Formula.at .refractiveIndexInfo p w = .ok y := by
  simp only [Formula.at]
  match p, hp with
  | [], hp => simp at hp
  | [_], _ => simp [refractiveIndexInfoAt, sliceLen, pyIdx, bind, Except.bind, pure, Except.pure]
  | [_, _], hp => simp at hp
  | [_, _, _], hp => simp at hp
  | [_, _, _, _], hp => simp at hp
  | [_, _, _, _, _], _ => simp [refractiveIndexInfoAt, sliceLen, pyIdx, List.range_succ, bind,
      Except.bind, pure, Except.pure]
  | [_, _, _, _, _, _], hp => simp at hp
  | [_, _, _, _, _, _, _], hp => simp at hp
  | [_, _, _, _, _, _, _, _], hp => simp at hp
  | a :: b :: c :: d :: e :: f :: g :: h :: i :: rest, hp =>
    have hr : rest.length % 2 = 0 := by
      simp only [List.length_cons] at hp
      omega
    have hs : sliceLen (a :: b :: c :: d :: e :: f :: g :: h :: i :: rest).length 1 8 4 = 2 := by
      unfold sliceLen
      rw [Nat.min_eq_left (by simp only [List.length_cons]; omega)]
    have hs' : sliceLen (a :: b :: c :: d :: e :: f :: g :: h :: i :: rest).length 9
        (a :: b :: c :: d :: e :: f :: g :: h :: i :: rest).length 2 = rest.length / 2 := by
      unfold sliceLen
      simp only [min_self, List.length_cons]
      omega
    unfold refractiveIndexInfoAt
    rw [hs, hs']
    have hl := fun init => loop2_total (fun acc x y => acc + x * PyFloat.pow w y)
      (a :: b :: c :: d :: e :: f :: g :: h :: i :: rest) 9 (rest.length / 2) init
      (by simp only [List.length_cons]; omega)
    unfold loop2 at hl
    simp only [bind, Except.bind] at hl
    simp only [show List.range 2 = [0, 1] from rfl, List.foldlM_cons, List.foldlM_nil, bind,
      Except.bind, Nat.zero_mul, Nat.one_mul, Nat.zero_add, pyIdx, List.getElem?_cons_zero,
      List.getElem?_cons_succ, pure, Except.pure, Nat.reduceAdd]
    simp only [pyIdx, Nat.reduceAdd, List.getElem?_cons_succ] at hl
    obtain ⟨r, hr⟩ := hl ((a * lit 1 + b * PyFloat.pow w c / (sqF w - PyFloat.pow d e)) +
      f * PyFloat.pow w g / (sqF w - PyFloat.pow h i))
    rw [hr]
    exact ⟨_, rfl⟩

/-- Every refractive index model with a suitable number of coefficients has a value at every
wavelength, in every arithmetic. -/
theorem formula_total {k : String} {f : Formula} (hk : k ∈ indexModels) (hf : classRef k = .real f)
    {p : List F} (hp : takes k p.length) (w : F) : ∃ y, f.at p w = .ok y := by
  simp only [indexModels, List.mem_cons, List.not_mem_nil, or_false] at hk
  have inj : ∀ {g : Formula}, classRef k = .real g → f = g := by
    intro g hg
    rw [hf] at hg
    cases hg; rfl
  rcases hk with rfl | rfl | rfl | rfl | rfl | rfl | rfl | rfl | rfl
  · obtain rfl := inj (g := .sellmeier) (by decide +kernel)
    exact pairs_total _ (.inl rfl) p hp w
  · obtain rfl := inj (g := .sellmeier2) (by decide +kernel)
    exact pairs_total _ (.inr (.inl rfl)) p hp w
  · obtain rfl := inj (g := .polynomial) (by decide +kernel)
    exact pairs_total _ (.inr (.inr (.inl rfl))) p hp w
  · obtain rfl := inj (g := .refractiveIndexInfo) (by decide +kernel)
    exact rii_total p hp w
  · obtain rfl := inj (g := .cauchy) (by decide +kernel)
    exact pairs_total _ (.inr (.inr (.inr (.inl rfl)))) p hp w
  · obtain rfl := inj (g := .gases) (by decide +kernel)
    exact pairs_total _ (.inr (.inr (.inr (.inr rfl)))) p hp w
  · obtain rfl := inj (g := .herzberger) (by decide +kernel)
    match p, hp with
    | a :: b :: c :: d :: e :: f :: rest, _ => exact ⟨_, rfl⟩
  · obtain rfl := inj (g := .retro) (by decide +kernel)
    match p, hp with
    | a :: b :: c :: d :: rest, _ => exact ⟨_, rfl⟩
  · obtain rfl := inj (g := .exotic) (by decide +kernel)
    match p, hp with
    | a :: b :: c :: d :: e :: f :: rest, _ => exact ⟨_, rfl⟩

/-- Other numbers of coefficients raise `IndexError` at every wavelength. -/
theorem formula_not_total {k : String} {f : Formula} (hk : k ∈ indexModels)
    (hf : classRef k = .real f) {p : List F} (hp : ¬ takes k p.length) (w : F) :
    f.at p w = .error .index := by
  simp only [indexModels, List.mem_cons, List.not_mem_nil, or_false] at hk
  have inj : ∀ {g : Formula}, classRef k = .real g → f = g := by
    intro g hg
    rw [hf] at hg
    cases hg; rfl
  rcases hk with rfl | rfl | rfl | rfl | rfl | rfl | rfl | rfl | rfl
  · obtain rfl := inj (g := .sellmeier) (by decide +kernel)
    exact C17_dangling _ (.inl rfl) p w (Nat.mod_two_ne_one.1 hp)
  · obtain rfl := inj (g := .sellmeier2) (by decide +kernel)
    exact C17_dangling _ (.inr (.inl rfl)) p w (Nat.mod_two_ne_one.1 hp)
  · obtain rfl := inj (g := .polynomial) (by decide +kernel)
    exact C17_dangling _ (.inr (.inr (.inl rfl))) p w (Nat.mod_two_ne_one.1 hp)
  · obtain rfl := inj (g := .refractiveIndexInfo) (by decide +kernel)
    exact C17_refractiveIndexInfo_dangling p w hp
  · obtain rfl := inj (g := .cauchy) (by decide +kernel)
    exact C17_dangling _ (.inr (.inr (.inr (.inl rfl)))) p w (Nat.mod_two_ne_one.1 hp)
  · obtain rfl := inj (g := .gases) (by decide +kernel)
    exact C17_dangling _ (.inr (.inr (.inr (.inr rfl)))) p w (Nat.mod_two_ne_one.1 hp)
  · obtain rfl := inj (g := .herzberger) (by decide +kernel)
    exact ((C17_too_short p w).1 (not_le.1 hp)).1
  · obtain rfl := inj (g := .retro) (by decide +kernel)
    exact (C17_too_short p w).2 (not_le.1 hp)
  · obtain rfl := inj (g := .exotic) (by decide +kernel)
    exact ((C17_too_short p w).1 (not_le.1 hp)).2

end arith

section ideal
variable [SciPy XR]

/-! ## Refractive index models -/

/-- `Material(model_kw={'name': k, 'parameters': p, 'valid_range': [lo, hi], 'spectrum_type': t,
'unit': u})`. -/
structure Spec.ModelArg (kw : Kwargs XR) (k : String) (p : List XR) (lo hi : ℝ) (t u : String) :
    Prop where
  keys : (kw.map Prod.fst).Nodup
  options : PlainOptions kw
  only : ∃ d : ModelKw XR, Only kw "model_kw" .model (.dict d) ∧ d.name = some k ∧
    d.params = some p ∧ d.validRange = some (.list .float [XR.fin lo, XR.fin hi]) ∧
    d.stype = some t ∧ d.unit = some u

omit [SciPy XR] in
theorem micro_names : ∀ u ∈ ["um", "micrometer", "micrometre"],
    lower u = u ∧ ("wavelength", u, "um") ∈ names := by decide +kernel

theorem model_material [NumText XR] (rd : String → Res (FileDict XR)) {kw : Kwargs XR} {k : String}
    {p : List XR} {lo hi : ℝ} {t u : String} (h : ModelArg kw k p lo hi t u) (hk : k ∈ indexModels)
    (hp : takes k p.length) (ht : lower t = "wavelength") (hu : u ∈ ["um", "micrometer", "micrometre"])
    (hb : Band "wavelength" "um" lo hi) :
    ∃ (m : Material XR) (r i : RealData XR), Material.new rd kw = .ok m ∧ m.cplx = none ∧
      m.name = "nk" ∧ m.real = some r ∧ m.imag = some i ∧ m.defType = t ∧ m.defUnit = u ∧
      BandParts (lower t) "um" r i lo hi := by
  obtain ⟨d, h1, h2, h3, h4, h5, h6⟩ := h.only
  obtain ⟨g, -⟩ := C24_model_partial rd kw h.keys h.options d h1 k h2 p h3 _ h4 rfl t u h5 h6
  obtain ⟨hul, hn⟩ := micro_names u hu
  obtain ⟨f, md, hmd, hf, hm⟩ := (g hk).1 ⟨ht, by rw [hul]; exact hu⟩
  refine ⟨_, md, _, hm, rfl, rfl, rfl, rfl, rfl, rfl, .first _ ?_⟩
  rw [ht]
  exact .model f p t u lo hi md ht hn hb (formula_total hk hf hp) hmd

/-- C81 for refractive index models: the returned range is the valid range of the model, and
values in micrometres (of at most nine decimals) can be evaluated exactly inside it. -/
theorem C81_model_range [NumText XR] (rd : String → Res (FileDict XR)) (kw : Kwargs XR) (k : String)
    (p : List XR) (lo hi : ℝ) (t u : String) (h : ModelArg kw k p lo hi t u) (hk : k ∈ indexModels)
    (hp : takes k p.length) (ht : lower t = "wavelength") (hu : u ∈ ["um", "micrometer", "micrometre"])
    (hb : Band "wavelength" "um" lo hi) :
    ∃ m : Material XR, Material.new rd kw = .ok m ∧
      m.maxRange = .ok (.array .float [XR.fin lo, XR.fin hi]) ∧
      ∀ x : ℝ, 0 < x → OnGrid (some 9) x → ∀ s : Spectrum XR,
        Spectrum.new (.float (XR.fin x)) t u = .ok s →
        ((∃ v, reported m s = .ok v) ↔ lo ≤ x ∧ x ≤ hi) := by
  obtain ⟨m, r, i, h1, h2, h3, h4, h5, h6, h7, h8⟩ := model_material rd h hk hp ht hu hb
  have hn : (lower m.defType, m.defUnit, "um") ∈ names := by
    rw [h6, h7, ht]; exact (micro_names u hu).2
  have hw : lower m.defType ≠ "wavenumber" := by rw [h6, ht]; decide
  rw [← h6] at h8
  refine ⟨m, h1, ?_, ?_⟩
  · rw [(C32_units_partial m r i "um" lo hi h2 (.inl h3) h4 h5 hn hw h8).1,
      if_pos (by rw [h6, ht])]
  · intro x hx hg s hs
    rw [← h6, ← h7] at hs
    refine C32_value_partial m r i "um" lo hi h2 (.inl h3) h4 h5 hn hw h8 x hx ?_ s hs
    rw [h6, ht]
    exact hg

/-- C82 for refractive index models. -/
theorem C82_model_sample [NumText XR] [SciPyLaws] (rd : String → Res (FileDict XR)) (kw : Kwargs XR)
    (k : String) (p : List XR) (lo hi : ℝ) (t u : String) (h : ModelArg kw k p lo hi t u)
    (hk : k ∈ indexModels) (hp : takes k p.length) (ht : lower t = "wavelength")
    (hu : u ∈ ["um", "micrometer", "micrometre"]) (hb : Band "wavelength" "um" lo hi) :
    ∃ (m : Material XR) (s : Spectrum XR), Material.new rd kw = .ok m ∧ m.sampleSpectrum = .ok s ∧
      s.stype = "wavelength" ∧ s.unit = "um" ∧
      s.values = .array .float ((geomReal lo hi 1000).map XR.fin) ∧ ∃ v, reported m s = .ok v := by
  obtain ⟨m, r, i, h1, h2, h3, h4, h5, h6, h7, h8⟩ := model_material rd h hk hp ht hu hb
  have hn : (lower m.defType, m.defUnit, "um") ∈ names := by
    rw [h6, h7, ht]; exact (micro_names u hu).2
  have hw : lower m.defType ≠ "wavenumber" := by rw [h6, ht]; decide
  rw [← h6] at h8
  obtain ⟨s, g1, g2, g3, g4, g5⟩ :=
    C33_units_partial m r i "um" lo hi h2 (.inl h3) h4 h5 hn hw h8 hb.le
  rw [h6, ht] at g2
  rw [if_pos (by rw [h6, ht])] at g4
  exact ⟨m, s, h1, g1, g2, g3, g4, g5⟩

/-! ## Permittivity models -/

omit [SciPy XR] in
theorem volt_names : ∀ u ∈ ["ev", "electronvolt"],
    lower u = u ∧ ("energy", u, "ev") ∈ names := by decide +kernel

omit [SciPy XR] in
/-- The energy (in eV) whose wavelength is `y` metres. -/
theorem ofMetres_energy (y : ℝ) : ofMetres "energy" "ev" y = Spec.h * Spec.c / (Spec.e * y) := by
  simp [ofMetres]

omit [SciPy XR] in
theorem hce_bounds : (123 : ℝ) / 10 ^ 8 < Spec.h * Spec.c / Spec.e ∧
    Spec.h * Spec.c / Spec.e < 124 / 10 ^ 8 := by
  constructor <;> norm_num [Spec.h, Spec.c, Spec.e]

/-- The ends of the returned range: the numbers of electronvolts read as metres. -/
noncomputable def Spec.misread (x : ℝ) : ℝ := shown "energy" "ev" x

omit [SciPy XR] in
theorem misread_facts {lo hi : ℝ} (h1 : 2 / 10 ^ 3 ≤ lo) (h2 : lo ≤ hi) (h3 : hi ≤ 100) :
    1 / 10 ^ 8 < misread hi ∧ misread hi ≤ misread lo ∧ misread lo < lo ∧ misread lo ≤ 1 := by
  obtain ⟨k1, k2⟩ := hce_bounds
  have hlo : 0 < lo := by linarith [show (0 : ℝ) < 2 / 10 ^ 3 by norm_num]
  have hhi : 0 < hi := lt_of_lt_of_le hlo h2
  have he := e_pos
  have eq : ∀ y : ℝ, 0 < y → Spec.h * Spec.c / (Spec.e * y) = Spec.h * Spec.c / Spec.e / y := by
    intro y hy; field_simp
  have hd : decimals "energy" "ev" = some 9 := by simp [decimals]
  unfold misread shown
  rw [hd, ofMetres_energy, ofMetres_energy, eq lo hlo, eq hi hhi]
  simp only [roundOpt]
  generalize Spec.h * Spec.c / Spec.e = K at k1 k2
  have hK : 0 < K := by linarith [show (0 : ℝ) < 123 / 10 ^ 8 by norm_num]
  have r1 := abs_le.1 (XR.roundDec_sub_le 9 (K / hi))
  have r2 := abs_le.1 (XR.roundDec_sub_le 9 (K / lo))
  have b1 : (123 : ℝ) / 10 ^ 10 ≤ K / hi := by
    rw [le_div_iff₀ hhi]
    calc (123 : ℝ) / 10 ^ 10 * hi ≤ 123 / 10 ^ 10 * 100 := by gcongr
      _ ≤ K := by linarith
  have b2 : K / lo ≤ 62 / 10 ^ 5 := by
    rw [div_le_iff₀ hlo]
    calc K ≤ 62 / 10 ^ 5 * (2 / 10 ^ 3) := by linarith
      _ ≤ 62 / 10 ^ 5 * lo := by gcongr
  refine ⟨?_, XR.roundDec_mono 9 ?_, ?_, ?_⟩
  · have : (1 : ℝ) / 2 / 10 ^ 9 < 123 / 10 ^ 10 - 1 / 10 ^ 8 := by norm_num
    linarith [r1.1]
  · gcongr
  · have : (62 : ℝ) / 10 ^ 5 + 1 / 2 / 10 ^ 9 < 2 / 10 ^ 3 := by norm_num
    linarith [r2.2]
  · have : (62 : ℝ) / 10 ^ 5 + 1 / 2 / 10 ^ 9 < 1 := by norm_num
    linarith [r2.2]

omit [SciPy XR] in
theorem misread_grid (x : ℝ) : OnGrid (some 9) (misread x) := by
  unfold misread shown
  rw [show decimals "energy" "ev" = some 9 by simp [decimals]]
  exact ⟨_, rfl⟩

/-- C32 and C33 are false for every Drude, Drude-Lorentz and Tauc-Lorentz model valid between
2 meV and 100 eV: the ends of the valid range, numbers of electronvolts, are returned as if they
were metres, so that the sample spectrum lies outside the valid range, where the material raises
`ValueError`. -/
theorem C33_permittivity_models [NumText XR] [SciPyLaws] (rd : String → Res (FileDict XR))
    (kw : Kwargs XR) (k : String) (p : List XR) (lo hi : ℝ) (t u : String)
    (h : ModelArg kw k p lo hi t u) (hk : k ∈ permittivityModels) (ht : lower t = "energy")
    (hu : u ∈ ["ev", "electronvolt"]) (h1 : 2 / 10 ^ 3 ≤ lo) (h2 : lo ≤ hi) (h3 : hi ≤ 100) :
    ∃ (m : Material XR) (s : Spectrum XR), Material.new rd kw = .ok m ∧
      m.maxRange = .ok (.array .float [XR.fin (misread lo), XR.fin (misread hi)]) ∧
      misread hi ≤ misread lo ∧ misread lo < lo ∧
      m.sampleSpectrum = .ok s ∧ reported m s = .error .value := by
  obtain ⟨f1, f2, f3, f4⟩ := misread_facts h1 h2 h3
  obtain ⟨d, q1, q2, q3, q4, q5, q6⟩ := h.only
  obtain ⟨-, g⟩ := C24_model_partial rd kw h.keys h.options d q1 k q2 p q3 _ q4 rfl t u q5 q6
  obtain ⟨hul, hn⟩ := volt_names u hu
  obtain ⟨f, md, hmd, -, hm⟩ := (g hk).1 ⟨ht, by rw [hul]; exact hu⟩
  have hlo : 0 < lo := lt_of_lt_of_le (by norm_num) h1
  have hhi : 0 < hi := lt_of_lt_of_le hlo h2
  have hc : (lower t, lower u, "ev") ∈ names := by rw [ht, hul]; exact hn
  have hc' : (lower t, u, "ev") ∈ names := by rw [ht]; exact hn
  -- the model and its range
  have hrange : ∃ std, md.range = { values := .array .float [XR.fin lo, XR.fin hi],
                                    stype := "energy", unit := "ev", std := std } := by
    unfold CplxData.new at hmd
    rw [new_list hc] at hmd
    obtain ⟨r, e1, e2⟩ := except_bind_ok hmd
    obtain ⟨_, -, e3⟩ := except_bind_ok e2
    have e4 : md = { kind := f, params := p, range := r, stype := t, unit := u } :=
      (Except.ok.inj e3).symm
    have e5 := Except.ok.inj e1
    rw [e4, ← e5, ht]
    exact ⟨_, rfl⟩
  obtain ⟨std, hrange⟩ := hrange
  let m : Material XR := { blankMaterial (parsedOf kw) with
    name := "eps", cplx := some md, real := some (cdata (lit 0)), imag := some (cdata (lit 0)),
    defType := t, defUnit := u }
  have conv : ∀ x, 1 / 10 ^ 8 < x → toElem safeInverseElem (lower t) "ev" (XR.fin x) =
      XR.fin (misread x) := by
    intro x hx
    have hx0 : 0 < x := lt_trans (by norm_num) hx
    rw [ht, toElem_fin (by decide +kernel) hx0 (by decide) (fun _ => XR.inv_elem_fin (by
      rw [abs_of_pos hx0]; exact hx))]
    rfl
  have hmax : m.maxRange = .ok (.array .float [XR.fin (misread lo), XR.fin (misread hi)]) := by
    unfold Material.maxRange Material.rangeArray
    rw [if_neg (not_not.2 (.inr rfl))]
    simp only [m, hrange, npMin_two, npMax_two, min_eq_left h2, max_eq_right h2, bind, Except.bind,
      Vals.dtype]
    rw [metreSpectrum_new']
    simp only
    rw [Spectrum.convertTo_eq, specLookup_ok_iff.2 hc']
    simp only [metreSpectrum]
    rw [convertVals_array (names_pairs _ hc')]
    simp only [List.map_cons, List.map_nil]
    rw [conv lo (lt_of_lt_of_le (by norm_num) h1),
      conv hi (lt_of_lt_of_le (by norm_num) (h1.trans h2))]
  -- the sample spectrum
  have a0 : 0 < misread lo := lt_of_lt_of_le (lt_trans (by norm_num) f1) f2
  have b0 : 0 < misread hi := lt_trans (by norm_num) f1
  obtain ⟨xs, hdef⟩ : ∃ xs, xs = geomReal (misread lo) (misread hi) 1000 := ⟨_, rfl⟩
  have hxs : ∀ x ∈ xs, misread hi ≤ x ∧ x ≤ misread lo := fun x hx =>
    geomReal_mem_down b0 f2 (by norm_num) (hdef ▸ hx)
  have hsample : m.sampleSpectrum = Spectrum.new (.list .float (xs.map XR.fin)) t u := by
    unfold Material.sampleSpectrum
    rw [hmax]
    have e0 : (PyFloat.eq (XR.fin (misread lo)) (lit 0 : XR) ||
        PyFloat.eq (XR.fin (misread hi)) (PyFloat.inf : XR)) = false := by
      have h0 : (lit 0 : XR) = XR.fin 0 := by show XR.fin _ = _; norm_num
      have hb : PyFloat.eq (XR.fin (misread hi)) (PyFloat.inf : XR) = false := rfl
      rw [h0, hb, Bool.or_false]
      have h1 : PyFloat.eq (XR.fin (misread lo)) (XR.fin 0) =
        (PyFloat.le (XR.fin (misread lo)) (XR.fin 0) &&
          PyFloat.le (XR.fin 0) (XR.fin (misread lo))) := rfl
      rw [h1, XR.le_fin, decide_eq_false (not_le.2 a0)]
      rfl
    have p0 : pyIdx (Vals.array DType.float [XR.fin (misread lo), XR.fin (misread hi)]).toList 0 =
      .ok (XR.fin (misread lo)) := rfl
    have p1 : pyIdx (Vals.array DType.float [XR.fin (misread lo), XR.fin (misread hi)]).toList 1 =
      .ok (XR.fin (misread hi)) := rfl
    simp only [bind, Except.bind, p0, p1, e0, Bool.false_eq_true, if_false,
      SciPyLaws.geom _ _ 1000 a0 b0 (by norm_num), clampEnds_geom a0.ne' (by norm_num : 2 ≤ 1000)]
    rw [hdef]
    rfl
  have hnew := new_list (F := XR) hc (xs.map XR.fin)
  have hstd : (xs.map XR.fin).map (fromElem safeInverseElem (lower t) "ev") =
      (xs.map (metres "energy" "ev")).map XR.fin := by
    rw [List.map_map, List.map_map, ht]
    refine List.map_congr_left fun x hx => ?_
    have hx1 := lt_of_lt_of_le f1 (hxs x hx).1
    have hx0 : 0 < x := lt_trans (by norm_num) hx1
    simp only [Function.comp]
    rw [fromElem_fin (by decide +kernel) hx0 (fun hw => XR.inv_elem_fin (by
      rw [abs_of_pos hx0]; exact hx1))]
  have hle : lower "energy" = "energy" := by decide +kernel
  have hne : xs ≠ [] := by
    intro h0
    have := geomReal_length (misread lo) (misread hi) 1000
    rw [← hdef, h0] at this
    simp at this
  have hpos : ∀ x ∈ xs, 0 < x := fun x hx => lt_of_lt_of_le b0 (hxs x hx).1
  have hask : Asks (lower "energy") { values := .array .float (xs.map XR.fin), stype := lower t,
                                      unit := "ev", std := .array .float ((xs.map XR.fin).map
                                        (fromElem safeInverseElem (lower t) "ev")) }
      (xs.map (metres "energy" "ev")) := by
    refine ⟨⟨fun h0 => hne (List.map_eq_nil_iff.1 h0), .inr (congrArg _ hstd)⟩, ?_, fun _ => .inr ?_⟩
    · intro y hy
      obtain ⟨x, hx, rfl⟩ := List.mem_map.1 hy
      exact metres_pos _ _ (hpos x hx)
    · intro y hy
      obtain ⟨x, hx, rfl⟩ := List.mem_map.1 hy
      have hx0 := hpos x hx
      have hx1 : x ≤ 1 := (hxs x hx).2.trans f4
      have he := e_pos
      have : metres "energy" "ev" x = Spec.h * Spec.c / Spec.e / x := by
        simp only [metres, String.reduceEq, if_false, if_true]; field_simp
      rw [this]
      have k1 := hce_bounds.1
      calc (1 : ℝ) / 10 ^ 8 < Spec.h * Spec.c / Spec.e := lt_trans (by norm_num) k1
        _ ≤ Spec.h * Spec.c / Spec.e / x := by
          rw [le_div_iff₀ hx0]
          nlinarith [lt_trans (show (0 : ℝ) < 123 / 10 ^ 8 by norm_num) k1]
  refine ⟨m, _, hm, hmax, f2, f3, hsample.trans hnew, ?_⟩
  obtain ⟨ov, o1, o2⟩ := Asks.convert (u := "ev") (c := "ev") (by decide +kernel) (by rw [hle]; decide) hask
  have hcont := (C10_contains_partial md.range _ ov (by rw [hrange]; simp [Vals.toList])
    (by rw [hrange]; exact o1) (by
      rw [o2]; exact fun h0 => hne (List.map_eq_nil_iff.1 (List.map_eq_nil_iff.1 h0)))
    (by rw [hrange]; exact noNaN_map [lo, hi])
    (by rw [o2, ← Function.comp_def XR.fin, ← List.map_map]; exact noNaN_map _)
    (by rw [hrange]; show "ev" ∈ _; decide) (by rw [hrange]; show "ev" ≠ _; decide)).2 (by
      intro hw
      obtain ⟨x, hx⟩ := List.exists_mem_of_ne_nil _ hne
      rw [o2, hrange] at hw
      obtain ⟨⟨a, ha, hax⟩, -⟩ := hw _ (List.mem_map_of_mem (List.mem_map_of_mem hx))
      simp only [Vals.toList, List.mem_cons, List.not_mem_nil, or_false] at ha
      have hsh : shown (lower "energy") "ev" (metres "energy" "ev" x) ≤ misread lo := by
        rw [hle]
        unfold shown
        rw [ofMetres_metres _ _ (hpos x hx)]
        have r := roundOpt_mono (decimals "energy" "ev") (hxs x hx).2
        have hd : decimals "energy" "ev" = some 9 := by simp [decimals]
        rw [hd] at r ⊢
        rwa [rounded_of_grid (misread_grid lo)] at r
      rcases ha with rfl | rfl
      · rw [XR.le_fin, decide_eq_true_eq] at hax
        linarith
      · rw [XR.le_fin, decide_eq_true_eq] at hax
        linarith)
  rw [reported_stored (.inr rfl) ⟨_, _, _, hnew⟩]
  simp only [Material.evalStored, m, CplxData.evaluate]
  rw [hcont]
  rfl

/-! ## Concrete cases -/

/-- A Sellmeier model from 0.5 um to 2 um. -/
noncomputable def glassModel : ModelKw XR where
  name := some "Sellmeier"
  params := some [XR.fin 0, XR.fin 1, XR.fin 0.1]
  validRange := some (.list .float [XR.fin 0.5, XR.fin 2])
  stype := some "wavelength"
  unit := some "um"

/-- A Drude model from 1 eV to 5 eV. -/
noncomputable def metalModel : ModelKw XR where
  name := some "Drude"
  params := some [XR.fin 9, XR.fin 0.1]
  validRange := some (.list .float [XR.fin 1, XR.fin 5])
  stype := some "energy"
  unit := some "ev"

example [NumText XR] [SciPyLaws] (rd : String → Res (FileDict XR)) : ∃ m : Material XR,
    Material.new rd [("model_kw", .dict glassModel)] = .ok m ∧
    m.maxRange = .ok (.array .float [XR.fin 0.5, XR.fin 2]) ∧
    ∃ s v, m.sampleSpectrum = .ok s ∧ reported m s = .ok v := by
  have hs : ("model_kw", DocType.model) ∈ sources := by decide
  obtain ⟨h1, h2⟩ := only_single (F := XR) hs (v := .dict glassModel) (by simp)
  have ha : ModelArg [("model_kw", .dict glassModel)] "Sellmeier" [XR.fin 0, XR.fin 1, XR.fin 0.1]
      0.5 2 "wavelength" "um" :=
    ⟨h1, plain_single (by decide) (by decide), glassModel, h2, rfl, rfl, rfl, rfl, rfl⟩
  have hb : Band "wavelength" "um" 0.5 2 := by
    refine ⟨by norm_num, by norm_num, ?_, ?_, fun h => absurd rfl h⟩ <;>
      simp only [decimals, String.reduceEq, if_true, if_false, OnGrid]
    · exact ⟨500000000, by norm_num⟩
    · exact ⟨2000000000, by norm_num⟩
  obtain ⟨m, g1, g2, -⟩ := C81_model_range rd _ _ _ _ _ _ _ ha (by decide) rfl
    (by decide +kernel) (by decide) hb
  obtain ⟨m', s, k1, k2, -, -, -, v, k3⟩ := C82_model_sample rd _ _ _ _ _ _ _ ha (by decide) rfl
    (by decide +kernel) (by decide) hb
  have e : m' = m := Except.ok.inj (k1.symm.trans g1)
  subst e
  exact ⟨m', g1, g2, s, v, k2, k3⟩

example [NumText XR] [SciPyLaws] (rd : String → Res (FileDict XR)) :
    ∃ (m : Material XR) (s : Spectrum XR),
    Material.new rd [("model_kw", .dict metalModel)] = .ok m ∧ m.sampleSpectrum = .ok s ∧
      reported m s = .error .value := by
  have hs : ("model_kw", DocType.model) ∈ sources := by decide
  obtain ⟨h1, h2⟩ := only_single (F := XR) hs (v := .dict metalModel) (by simp)
  obtain ⟨m, s, g1, -, -, -, g2, g3⟩ := C33_permittivity_models rd _ "Drude" _ 1 5 "energy" "ev"
    ⟨h1, plain_single (by decide) (by decide), metalModel, h2, rfl, rfl, rfl, rfl, rfl⟩ (by decide)
    (by decide +kernel) (by decide) (by norm_num) (by norm_num) (by norm_num)
  exact ⟨m, s, g1, g2, g3⟩

end ideal
end Disp

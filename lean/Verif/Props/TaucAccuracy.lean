import Verif.Props.FanoAccuracy
import Verif.Props.Permittivity
/-!
# The absorption of Tauc-Lorentz models in double precision (C144)

Above the gap the imaginary part is `A E0 C (E - Eg)² / (((E² - E0²)² + C² E²) E)`. Near a narrow
resonance the difference of the squares cancels; how much accuracy this costs depends on
`(E² + E0²) / (C E)`.
-/

namespace Disp

open Spec Dbl

noncomputable section

/-- The difference of two doubles, which are zero or of ordinary magnitude. -/
theorem SRel.diff {x y : ℝ} {k K n : ℕ} {a b : Dbl} (ha : a.val = .fin x) (hb : b.val = .fin y)
    (hx : x = 0 ∨ Mag k |x|) (hy : y = 0 ∨ Mag k |y|) (hn : (10 : ℝ) ^ k ≤ 2 ^ n)
    (hK : (2 : ℝ) ^ (n + 52) ≤ 10 ^ K) (hkK : k + 1 ≤ K) (hK3 : K ≤ 300) :
    SRel 1 K (x - y) (a - b) := by
  have hn' : (-b).val = .fin (-y) := Dbl.neg_val hb
  have e1 : a - b = a + -b := by
    show Dbl.rnd (a.val - b.val) = Dbl.rnd (a.val + (-b).val)
    rw [hn', ha, hb, XR.sub_fin, XR.add_fin, sub_eq_add_neg]
  rw [e1, sub_eq_add_neg]
  refine SRel.sum (n := n) ha hn' hx ?_ hn hK hkK hK3
  rw [abs_neg, neg_eq_zero]; exact hy

/-- The rounded square of an ordinary number. -/
theorem square_value {x : ℝ} {a : Dbl} (ha : a.val = .fin x) (h : Sized x) :
    ∃ P, (sqF a).val = .fin P ∧ |P - x ^ 2| ≤ x ^ 2 * 2 / 2 ^ 53 ∧ (P = 0 ∨ Mag 21 |P|) := by
  have h1 := SRel.sq ha h.mag (by norm_num)
  obtain ⟨P, h2, h3⟩ := h1.error (by norm_num)
  obtain ⟨P', h2', near⟩ := h1.near
  rw [h2] at h2'
  cases h2'
  have e : |x ^ 2| = x ^ 2 := abs_of_nonneg (sq_nonneg x)
  rw [e] at h3
  norm_num at h3
  refine ⟨P, h2, by norm_num; exact h3, ?_⟩
  rcases h1.size with h | h
  · left; exact (near.zero_iff).1 h
  · right
    rw [e] at h
    have h4 := h.pos
    have h5 := abs_sub_abs_le_abs_sub P (x ^ 2)
    have h6 := abs_sub_abs_le_abs_sub (x ^ 2) P
    rw [abs_sub_comm (x ^ 2) P] at h6
    rw [e] at h5 h6
    exact h.of_bounds (by linarith) (by linarith)

/-- The resonance term changes by no more than its condition. -/
theorem resonance_perturbed {d X S w t : ℝ} (ht : 0 ≤ t) (hw : 0 ≤ w) (hX : |X - d| ≤ t * S)
    {K : ℝ} (hK : S ≤ K * w) (hK0 : 0 ≤ K) :
    |X ^ 2 + w ^ 2 - (d ^ 2 + w ^ 2)| ≤ (d ^ 2 + w ^ 2) * (t * K + (t * K) ^ 2) := by
  have h1 : |X - d| ≤ t * K * w := hX.trans (by rw [mul_assoc]; gcongr)
  have h2 : X ^ 2 + w ^ 2 - (d ^ 2 + w ^ 2) = (X - d) * (2 * d) + (X - d) ^ 2 := by ring
  have h3 : |(X - d) ^ 2| ≤ (t * K * w) ^ 2 := by
    rw [abs_pow]; gcongr
  have h4 : |(X - d) * (2 * d)| ≤ t * K * w * (2 * |d|) := by
    rw [abs_mul, abs_mul, abs_two]; gcongr
  have h5 : w * (2 * |d|) ≤ d ^ 2 + w ^ 2 := by
    nlinarith [sq_nonneg (w - |d|), sq_abs d]
  have hs : 0 ≤ t * K := mul_nonneg ht hK0
  rw [h2]
  refine (abs_add_le _ _).trans ?_
  have h6 : t * K * (w * (2 * |d|)) ≤ t * K * (d ^ 2 + w ^ 2) := by gcongr
  have h7 : (t * K) ^ 2 * w ^ 2 ≤ (t * K) ^ 2 * (d ^ 2 + w ^ 2) := by
    gcongr; linarith [sq_nonneg d]
  nlinarith

/-- C144 at one energy above the gap: the absorption of the Tauc-Lorentz model is accurate to
`(14 + 3 K) * 2^-53` relatively, where `K` bounds the sharpness of the resonance. -/
theorem tlImag_accurate {E A B C G : Dbl} {e a e0 c eg : ℝ} (hE : E.val = .fin e)
    (hA : A.val = .fin a) (hB : B.val = .fin e0) (hC : C.val = .fin c) (hG : G.val = .fin eg)
    (se : Sized e) (sa : Sized a) (s0 : Sized e0) (sc : Sized c) (sg : Sized eg) (he : 0 < e)
    (hc : 0 < c) (hge : eg ≤ e) :
    ∃ y, (tlImag E A B C G).val = .fin y ∧ ∀ K, e ^ 2 + e0 ^ 2 ≤ K * (c * e) → K ≤ 2 ^ 40 →
      |y - taucLorentzIm a e0 c eg e| ≤ |taucLorentzIm a e0 c eg e| * (14 + 3 * K) / 2 ^ 53 := by
  have hw : 0 < c * e := mul_pos hc he
  obtain ⟨P, p1, p2, p3⟩ := square_value hE se
  obtain ⟨Q, q1, q2, q3⟩ := square_value hB s0
  -- the denominator
  have h1 : SRel 1 37 (P - Q) (sqF E - sqF B) :=
    SRel.diff (n := 70) p1 q1 p3 q3 (by norm_num) (by norm_num) (by norm_num) (by norm_num)
  have h2 := h1.square (by norm_num) (by norm_num)
  have h3 := (SRel.sq hC sc.mag (by norm_num)).mul (SRel.sq hE se.mag (by norm_num)) (by norm_num)
    (by norm_num)
  have h4 := h2.add (h3.mono (n := 1 + 1 + 1) (k := 37 + 37) (by norm_num) (by norm_num))
    (by positivity) (by norm_num) (by norm_num)
  -- the numerator
  have h5 : SRel 1 26 (e - eg) (E - G) :=
    SRel.diff (n := 34) hE hG se.mag sg.mag (by norm_num) (by norm_num) (by norm_num) (by norm_num)
  have h6 := (((((SRel.one.div (SRel.exact hE se.mag) he.ne' (by norm_num) (by norm_num)).mul
    (SRel.exact hA sa.mag) (by norm_num) (by norm_num)).mul (SRel.exact hB s0.mag) (by norm_num)
    (by norm_num)).mul (SRel.exact hC sc.mag) (by norm_num) (by norm_num)).mul
    (h5.square (by norm_num) (by norm_num)) (by norm_num) (by norm_num))
  have hD0 : 0 < (P - Q) ^ 2 + c ^ 2 * e ^ 2 := by positivity
  have h7 := h6.div h4 hD0.ne' (by norm_num) (by norm_num)
  obtain ⟨y, hy, herr⟩ := h7.error (by norm_num)
  have hle : PyFloat.le G E = true := by
    show XR.le G.val E.val = true
    rw [hG, hE]
    simp [XR.le, XR.isNaN, XR.lt, hge]
  refine ⟨y, ?_, ?_⟩
  · unfold tlImag
    rw [if_pos hle]
    exact hy
  · intro K hK hK1
    have hK0 : 0 ≤ K := by
      by_contra h
      push Not at h
      nlinarith [mul_neg_of_neg_of_pos h hw, sq_nonneg e, sq_nonneg e0]
    have hX : |(P - Q) - (e ^ 2 - e0 ^ 2)| ≤ 2 / 2 ^ 53 * (e ^ 2 + e0 ^ 2) := by
      have : (P - Q) - (e ^ 2 - e0 ^ 2) = (P - e ^ 2) - (Q - e0 ^ 2) := by ring
      rw [this]
      refine (abs_sub _ _).trans ?_
      refine (add_le_add p2 q2).trans (le_of_eq (by ring))
    have hpert := resonance_perturbed (by positivity) hw.le hX hK hK0
    rw [mul_pow] at hpert
    set D := (e ^ 2 - e0 ^ 2) ^ 2 + c ^ 2 * e ^ 2 with hD
    set D' := (P - Q) ^ 2 + c ^ 2 * e ^ 2 with hD'
    have hDpos : 0 < D := by positivity
    set N := a * e0 * c * (e - eg) ^ 2 / e with hN
    have ev : taucLorentzIm a e0 c eg e = N / D := by
      unfold taucLorentzIm
      rw [if_neg (not_lt.2 hge), hN, div_div, div_div, mul_comm D e]
    have ev' : 1 / e * a * e0 * c * (e - eg) ^ 2 / D' = N / D' := by
      rw [hN]; congr 1; field_simp
    rw [ev'] at herr
    rw [ev]
    -- the perturbation
    set u : ℝ := 2 / 2 ^ 53 * K with hu
    have hu0 : 0 ≤ u := by positivity
    have hu1 : u ≤ 1 / 2 ^ 12 := by
      rw [hu]
      calc (2 : ℝ) / 2 ^ 53 * K ≤ 2 / 2 ^ 53 * 2 ^ 40 := by gcongr
        _ = 1 / 2 ^ 12 := by norm_num
    have hpert2 : |D' - D| ≤ D * (u * (1 + 1 / 2 ^ 12)) := by
      refine hpert.trans ?_
      gcongr
      nlinarith
    have hlow : D * (1 - 1 / 2 ^ 11) ≤ D' := by
      have := (abs_le.1 hpert2).1
      have h8 : u * (1 + 1 / 2 ^ 12) ≤ 1 / 2 ^ 11 := by
        have : u * (1 + 1 / 2 ^ 12) ≤ 1 / 2 ^ 12 * (1 + 1 / 2 ^ 12) := by gcongr
        refine this.trans (by norm_num)
      have h9 : D * (u * (1 + 1 / 2 ^ 12)) ≤ D * (1 / 2 ^ 11) := by gcongr
      linarith
    have hquot : |N / D' - N / D| ≤ |N / D| * (u * (1 + 1 / 2 ^ 9)) := by
      have e1 : N / D' - N / D = N / D * ((D - D') / D') := by
        field_simp
      rw [e1, abs_mul]
      gcongr
      rw [abs_div, abs_of_pos hD0, div_le_iff₀ hD0, abs_sub_comm]
      refine hpert2.trans ?_
      have : D * (u * (1 + 1 / 2 ^ 12)) ≤ u * (1 + 1 / 2 ^ 9) * (D * (1 - 1 / 2 ^ 11)) := by
        have : (1 : ℝ) + 1 / 2 ^ 12 ≤ (1 + 1 / 2 ^ 9) * (1 - 1 / 2 ^ 11) := by norm_num
        have h10 : D * u * (1 + 1 / 2 ^ 12) ≤ D * u * ((1 + 1 / 2 ^ 9) * (1 - 1 / 2 ^ 11)) := by
          gcongr
        linarith
      refine this.trans ?_
      gcongr
    have hmag : |N / D'| ≤ |N / D| * (1 + u * (1 + 1 / 2 ^ 9)) := by
      have := abs_sub_abs_le_abs_sub (N / D') (N / D)
      linarith
    have hV := abs_nonneg (N / D)
    norm_num at herr
    refine (abs_sub_le y (N / D') (N / D)).trans ?_
    have h11 : |N / D'| * 14 / 2 ^ 53 ≤ |N / D| * (1 + u * (1 + 1 / 2 ^ 9)) * 14 / 2 ^ 53 := by
      gcongr
    have h12 : |y - N / D'| ≤ |N / D'| * 14 / 2 ^ 53 := by norm_num; exact herr
    have hK3 : u * (1 + 1 / 2 ^ 9) * 14 / 2 ^ 53 + u * (1 + 1 / 2 ^ 9) ≤ 3 * K / 2 ^ 53 := by
      rw [hu]
      have : (2 / 2 ^ 53 * (1 + 1 / 2 ^ 9) * 14 / 2 ^ 53 + 2 / 2 ^ 53 * (1 + 1 / 2 ^ 9) : ℝ)
          ≤ 3 / 2 ^ 53 := by norm_num
      calc 2 / 2 ^ 53 * K * (1 + 1 / 2 ^ 9) * 14 / 2 ^ 53 + 2 / 2 ^ 53 * K * (1 + 1 / 2 ^ 9)
          = K * (2 / 2 ^ 53 * (1 + 1 / 2 ^ 9) * 14 / 2 ^ 53 + 2 / 2 ^ 53 * (1 + 1 / 2 ^ 9)) := by
            ring
        _ ≤ K * (3 / 2 ^ 53) := by gcongr
        _ = 3 * K / 2 ^ 53 := by ring
    calc |y - N / D'| + |N / D' - N / D|
        ≤ |N / D| * (1 + u * (1 + 1 / 2 ^ 9)) * 14 / 2 ^ 53
          + |N / D| * (u * (1 + 1 / 2 ^ 9)) := add_le_add (h12.trans h11) hquot
      _ = |N / D| * (14 / 2 ^ 53 + (u * (1 + 1 / 2 ^ 9) * 14 / 2 ^ 53
          + u * (1 + 1 / 2 ^ 9))) := by ring
      _ ≤ |N / D| * (14 / 2 ^ 53 + 3 * K / 2 ^ 53) := by gcongr
      _ = |N / D| * (14 + 3 * K) / 2 ^ 53 := by ring

/-- Below the gap nothing is absorbed, exactly. -/
theorem tlImag_below {E A B C G : Dbl} {e eg : ℝ} (hE : E.val = .fin e) (hG : G.val = .fin eg)
    (h : e < eg) : (tlImag E A B C G).val = .fin 0 := by
  have h1 : PyFloat.le G E = false := by
    show XR.le G.val E.val = false
    rw [hG, hE]
    simp [XR.le, XR.isNaN, XR.lt, h]
  have h2 : PyFloat.lt E G = true := by
    show XR.lt E.val G.val = true
    rw [hG, hE]
    exact decide_eq_true h
  unfold tlImag
  rw [h1, h2]
  simp only [Bool.false_eq_true, if_false, if_true]
  rw [val_lit]
  have := rnd_double (double_int (n := 0) (by norm_num))
  push_cast at this ⊢
  exact this

/-- A real number times the imaginary unit keeps its value when it is added to a real one. -/
theorem im_ofReal_add {r x : Dbl} {v : ℝ} (hx : x.val = .fin v) :
    (Cx.ofReal r + Cx.I * Cx.ofReal x : Cx Dbl).im.val = .fin v := by
  have hv := rnd_double (isDouble_val hx)
  have h0 : (lit 0 : Dbl).val = .fin 0 := by
    rw [val_lit]
    have := rnd_double (double_int (n := 0) (by norm_num))
    push_cast at this ⊢
    exact this
  have h1 : (lit 1 : Dbl).val = .fin 1 := by
    rw [val_lit]
    have := rnd_double (double_int (n := 1) (by norm_num))
    push_cast at this ⊢
    exact this
  have hz := rnd_double (double_int (n := 0) (by norm_num))
  push_cast at hz
  show (Dbl.rnd ((lit 0 : Dbl).val + (Dbl.rnd ((Dbl.rnd ((lit 0 : Dbl).val * (lit 0 : Dbl).val)).val
    + (Dbl.rnd ((lit 1 : Dbl).val * x.val)).val)).val)).val = _
  rw [h0, h1, hx, XR.mul_fin, XR.mul_fin, mul_zero, one_mul, hz, hv, XR.add_fin, zero_add, hv,
    XR.add_fin, zero_add, hv]

/-- C144 at one energy: the imaginary part of the Tauc-Lorentz permittivity. -/
theorem C144_at {A B C G F' E : Dbl} {a e0 c eg e : ℝ} {rest : List Dbl} (hA : A.val = .fin a)
    (hB : B.val = .fin e0) (hC : C.val = .fin c) (hG : G.val = .fin eg) (hE : E.val = .fin e)
    (sa : Sized a) (s0 : Sized e0) (sc : Sized c) (sg : Sized eg) (se : Sized e) (he : 0 < e)
    (hc : 0 < c) :
    ∃ z j, EpsFormula.at .taucLorentz (A :: B :: C :: G :: F' :: rest) E = .ok z ∧
      z.im.val = .fin j ∧ (e < eg → j = 0) ∧
      ∀ K, e ^ 2 + e0 ^ 2 ≤ K * (c * e) → K ≤ 2 ^ 40 →
        |j - taucLorentzIm a e0 c eg e| ≤ |taucLorentzIm a e0 c eg e| * (14 + 3 * K) / 2 ^ 53 := by
  rcases lt_or_ge e eg with h | h
  · have h1 := tlImag_below (A := A) (B := B) (C := C) hE hG h
    refine ⟨_, 0, rfl, im_ofReal_add h1, fun _ => rfl, fun K hK hK1 => ?_⟩
    have : taucLorentzIm a e0 c eg e = 0 := by unfold taucLorentzIm; rw [if_pos h]
    rw [this]
    simp
  · obtain ⟨y, h1, h2⟩ := tlImag_accurate hE hA hB hC hG se sa s0 sc sg he hc h
    exact ⟨_, y, rfl, im_ofReal_add h1, fun h' => absurd h' (not_lt.2 h), h2⟩

/-- C144: whatever the type and unit of the request, every permittivity that a material with a
Tauc-Lorentz model reports has the imaginary part of the model, up to the stated relative error,
at an energy within the error of the conversion of the requested one. -/
theorem C144_material [SciPy Dbl] {m : Material Dbl} {d : CplxData Dbl} (hm : m.name = "eps")
    (hd : m.cplx = some d) (hte : lower d.stype = "energy")
    (hue : (lower d.stype, d.unit, "ev") ∈ names) (hk : d.kind = .taucLorentz)
    {p : Fin 5 → Dbl} {a e0 c eg : ℝ} (hp : d.params = [p 0, p 1, p 2, p 3, p 4])
    (h0 : (p 0).val = .fin a) (h1 : (p 1).val = .fin e0) (h2 : (p 2).val = .fin c)
    (h3 : (p 3).val = .fin eg) (sa : Sized a) (s0 : Sized e0) (sc : Sized c) (sg : Sized eg)
    (hc : 0 < c) {t u b : String} (hb : (lower t, lower u, b) ∈ names) {raw : Raw Dbl}
    {xs : List ℝ} (ha : AsksFor (lower t) b "energy" raw xs) {s : Spectrum Dbl}
    (hs : Spectrum.new raw t u = .ok s) {v : CVals Dbl} (hv : (m.getPermittivity s).1 = .ok v)
    {i : ℕ} {x X : ℝ} (hx : xs[i]? = some x) (hX : counterpart (lower t) b "energy" "ev" x = X)
    (hlo : 1 / 10 ^ 6 ≤ X) (hhi : X ≤ 10 ^ 9) :
    ∃ e z j, |e - X| ≤ slack (some 9) X ∧ v.toList[i]? = some z ∧ z.im.val = .fin j ∧
      (e < eg → j = 0) ∧ ∀ K, e ^ 2 + e0 ^ 2 ≤ K * (c * e) → K ≤ 2 ^ 40 →
        |j - taucLorentzIm a e0 c eg e| ≤ |taucLorentzIm a e0 c eg e| * (14 + 3 * K) / 2 ^ 53 := by
  obtain ⟨y, e, z, g1, g2, g3, g4⟩ := eps_get hm hd hte hue hb ha hs hv hx
  rw [hX] at g4
  obtain ⟨se, he⟩ := energy_sized hlo hhi g4
  obtain ⟨z', j, a1, a2, a3, a4⟩ := C144_at (F' := p 4) (rest := []) h0 h1 h2 h3 g3 sa s0 sc sg se
    he hc
  rw [hk, hp, a1] at g2
  cases g2
  exact ⟨e, z, j, g4, g1, a2, a3, a4⟩

/-- An amorphous semiconductor with a gap of 1 eV. -/
def glassyKw : ModelKw Dbl where
  name := some "TaucLorentz"
  params := some [intDbl 122, intDbl 3, intDbl 2, intDbl 1, intDbl 1]
  validRange := some (.list .float [lit 0, PyFloat.inf])
  stype := some "energy"
  unit := some "ev"

/-- Beside `C144_material`: the semiconductor asked for the light of 620 nm. -/
theorem glassy_case [SciPy Dbl] [NumText Dbl] (rd : String → Res (FileDict Dbl)) :
    ∃ (m : Material Dbl) (s : Spectrum Dbl) (v : CVals Dbl),
      Material.new rd [("model_kw", .dict glassyKw)] = .ok m ∧
      Spectrum.new (.list .float [intDbl 620]) "Wavelength" "nm" = .ok s ∧
      (m.getPermittivity s).1 = .ok v ∧ ∃ e z j, |e - 2| ≤ 1 / 100 ∧ v.toList = [z] ∧
      z.im.val = .fin j ∧
      |j - taucLorentzIm 122 3 2 1 e| ≤ |taucLorentzIm 122 3 2 1 e| * 26 / 2 ^ 53 := by
  have hs : ("model_kw", DocType.model) ∈ sources := by decide
  obtain ⟨h1, h2⟩ := only_single (F := Dbl) hs (v := .dict glassyKw) (by simp)
  have hint : ∀ n : ℤ, 0 ≤ n → NotNegative (intDbl n) := fun n hn =>
    notNegative_iff.2 (rnd_nn (show (0 : ℝ) ≤ n by exact_mod_cast hn))
  obtain ⟨m, hm, hall⟩ := C123_answers rd [("model_kw", .dict glassyKw)] h1
    (plain_single (by decide) (by decide)) _ h2 "TaucLorentz" rfl .taucLorentz (by decide)
    (by decide) _ rfl
    (.taucLorentz (hint _ (by norm_num)) (hint _ (by norm_num)) (hint _ (by norm_num))) rfl
    "energy" "ev" rfl rfl (by decide +kernel) (by decide)
  have hn : ("wavelength", "nm", "nm") ∈ names := by decide
  obtain ⟨s, g1, g2⟩ : ∃ s, Spectrum.new (.list .float [intDbl 620]) "Wavelength" "nm" = .ok s ∧
      s.values = .array .float [intDbl 620] := by
    rw [Spectrum.new_eq, show lower "Wavelength" = "wavelength" by decide +kernel,
      show lower "nm" = "nm" by decide +kernel, specLookup_ok_iff.2 hn]
    simp only [Raw.check, bind, Except.bind]
    rw [convertFrom_array (names_pairs _ hn)]
    exact ⟨_, rfl, rfl⟩
  obtain ⟨v, w, a1, -, a3, -⟩ := hall s _ ⟨_, _, _, g1⟩ g2 (by simp) (by
    intro x hx
    simp only [List.mem_cons, List.not_mem_nil, or_false] at hx
    subst hx
    exact hint _ (by norm_num))
  obtain ⟨-, hg⟩ := C24_model_partial rd [("model_kw", .dict glassyKw)] h1
    (plain_single (by decide) (by decide)) _ h2 "TaucLorentz" rfl _ rfl _ rfl rfl "energy" "ev" rfl
    rfl
  obtain ⟨hg, -⟩ := hg (by decide)
  obtain ⟨k, md, b1, b2, b3⟩ := hg ⟨by decide +kernel, by decide +kernel⟩
  rw [show classRef "TaucLorentz" = .cplx .taucLorentz by decide] at b2
  cases b2
  rw [hm] at b3
  cases b3
  unfold CplxData.new at b1
  obtain ⟨r, -, b1⟩ := except_bind_ok b1
  obtain ⟨_, -, b1⟩ := except_bind_ok b1
  cases b1
  clear hg h2 h1 hs hn hall
  obtain ⟨e, z, j, c1, c2, c3, -, c5⟩ := C144_material
    (p := ![intDbl 122, intDbl 3, intDbl 2, intDbl 1, intDbl 1]) rfl rfl
    (show lower "energy" = "energy" by decide +kernel)
    (show (lower "energy", "ev", "ev") ∈ names by decide +kernel) rfl rfl
    (intDbl_val (n := 122) (by norm_num)) (intDbl_val (n := 3) (by norm_num))
    (intDbl_val (n := 2) (by norm_num)) (intDbl_val (n := 1) (by norm_num)) (.inr (by norm_num))
    (.inr (by norm_num)) (.inr (by norm_num)) (.inr (by norm_num)) (by norm_num)
    (t := "Wavelength") (u := "nm") (b := "nm") (by decide +kernel)
    visible_request g1 a1 (i := 0) (x := 620) rfl
    (by rw [show lower "Wavelength" = "wavelength" by decide +kernel])
    (le_trans (by norm_num) visible_energy.1) (visible_energy.2.trans (by norm_num))
  have he : |e - 2| ≤ 1 / 100 := by
    obtain ⟨c7, c8⟩ := abs_le.1 (c1.trans visible_slack)
    have h1 := visible_energy.1
    have h2 := visible_energy.2
    generalize counterpart "wavelength" "nm" "energy" "ev" 620 = X at h1 h2 c7 c8
    rw [abs_le]
    norm_num at h1 h2 c7 c8 ⊢
    constructor <;> linarith
  refine ⟨_, s, v, hm, g1, a1, e, z, j, he, ?_, c3, ?_⟩
  · obtain ⟨z', hz'⟩ := List.length_eq_one_iff.1 (show v.toList.length = 1 from a3)
    rw [hz'] at c2 ⊢
    cases c2
    rfl
  · have h1 := abs_le.1 he
    have := c5 4 (by push_cast; nlinarith) (by norm_num)
    norm_num at this ⊢
    exact this

end

end Disp

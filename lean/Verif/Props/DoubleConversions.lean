import Verif.Lemmas.DecimalRounding
import Verif.Props.SpectrumContains
/-!
# C83 – C85: conversions in double precision

All theorems of this file are about binary64 arithmetic (`Dbl`).
-/

namespace Disp

open Spec

noncomputable section

/-! ## Approximations of the factors -/

theorem Approx.congr {n k : ℕ} {x y : ℝ} {a : Dbl} (h : Approx n k x a) (e : x = y) :
    Approx n k y a := e ▸ h

theorem approx_one : Approx 0 0 1 (lit 1 : Dbl) := by
  have := Approx.int (n := 1) (k := 0) ⟨by norm_num, by norm_num⟩ (by norm_num)
  exact_mod_cast this

theorem approx_c : Approx 0 9 c (cLight : Dbl) := by
  have := Approx.int (n := 299792458) (k := 9) ⟨by norm_num, by norm_num⟩ (by norm_num)
  have e : (cLight : Dbl) = lit (((299792458 : ℤ)) : ℚ) := by unfold cLight; norm_num
  rw [e]
  exact this.congr (by unfold c; norm_num)

theorem approx_h : Approx 1 34 h (hPlanck : Dbl) := by
  have := Approx.lit (q := 6.62607015e-34) (k := 34) ⟨by norm_num, by norm_num⟩ (by norm_num)
  exact this.congr (by unfold h; norm_num)

theorem approx_e : Approx 1 19 e (eCharge : Dbl) := by
  have := Approx.lit (q := 1.602176634e-19) (k := 19) ⟨by norm_num, by norm_num⟩ (by norm_num)
  exact this.congr (by unfold e; norm_num)

theorem approx_hce : Approx 4 62 (h * c / e) (hce : Dbl) :=
  (approx_h.mul approx_c (by norm_num) (by norm_num)).div approx_e (by norm_num) (by norm_num)

theorem approx_two : Approx 0 1 2 (lit 2 : Dbl) := by
  have := Approx.int (n := 2) (k := 1) ⟨by norm_num, by norm_num⟩ (by norm_num)
  exact_mod_cast this

theorem approx_twoPi : Approx 2 2 (2 * Real.pi) (lit 2 * PyFloat.pi : Dbl) :=
  approx_two.mul Approx.pi (by norm_num) (by norm_num)

theorem approx_twoPiC : Approx 3 11 (2 * Real.pi * c) (lit 2 * PyFloat.pi * cLight : Dbl) :=
  approx_twoPi.mul approx_c (by norm_num) (by norm_num)

theorem approx_centi : Approx 1 2 (1 / 100) (lit 1e-2 : Dbl) :=
  (Approx.lit (q := 1e-2) (k := 2) ⟨by norm_num, by norm_num⟩ (by norm_num)).congr (by norm_num)

/-! ## Reciprocals -/

theorem approx_inv {n k : ℕ} {x : ℝ} {a : Dbl} (h : Approx n k x a) (hn : n ≤ 99) (hk : k ≤ 300) :
    Approx (n + 1) k (1 / x) (lit 1 / a) :=
  (approx_one.div h (by omega) (by omega)).mono (by omega) (by omega)

theorem approx_ne_zero {n k : ℕ} {x : ℝ} {a : Dbl} (h : Approx n k x a) :
    PyFloat.eq a (lit 0) = false := by
  obtain ⟨⟨y, h1, h2⟩, -⟩ := h
  have h0 : (lit 0 : Dbl).val = .fin 0 := by exact_mod_cast Dbl.lit_int (n := 0) (by norm_num)
  show PyFloat.eq a.val (lit 0 : Dbl).val = false
  rw [h1, h0]
  simp [h2.right.ne']

theorem approx_ne_inf {n k : ℕ} {x : ℝ} {a : Dbl} (h : Approx n k x a) :
    PyFloat.eq a PyFloat.inf = false := by
  obtain ⟨⟨y, h1, h2⟩, -⟩ := h
  show PyFloat.eq a.val (PyFloat.inf : XR) = false
  rw [h1]
  simp

theorem approx_inv_scalar {n k : ℕ} {x : ℝ} {a : Dbl} (h : Approx n k x a) (hn : n ≤ 99)
    (hk : k ≤ 300) : Approx (n + 1) k (1 / x) (safeInverseScalar a) := by
  unfold safeInverseScalar
  rw [approx_ne_zero h, approx_ne_inf h]
  simp only [Bool.false_eq_true, if_false]
  exact approx_inv h hn hk

/-- Reciprocals of array elements, at a distance from NumPy's tolerance. -/
theorem approx_inv_elem {n k : ℕ} {x : ℝ} {a : Dbl} (h : Approx n k x a) (hn : n ≤ 99)
    (hk : k ≤ 300) (hx : (1 + 1 / 2 ^ 40) / 10 ^ 8 < x) :
    Approx (n + 1) k (1 / x) (safeInverseElem a) := by
  have hfar : isCloseZero a = false := by
    obtain ⟨⟨y, h1, h2⟩, -⟩ := h
    obtain ⟨⟨z, h3, h4⟩, -⟩ :=
      (Approx.lit (q := 1e-8) (k := 8) ⟨by norm_num, by norm_num⟩ (by norm_num))
    have habs : (PyFloat.abs a : Dbl).val = .fin y := by
      show (Dbl.rnd (PyFloat.abs a.val)).val = .fin y
      rw [h1]
      have : (PyFloat.abs (XR.fin y) : XR) = XR.fin y := by simp [abs_of_pos h2.right]
      rw [this]
      exact Dbl.rnd_double (Dbl.isDouble_val h1)
    show PyFloat.le (PyFloat.abs a : Dbl).val (lit 1e-8 : Dbl).val = false
    rw [habs, h3]
    have e1 := h2.abs_sub_le (by omega)
    have e2 := h4.abs_sub_le (by norm_num)
    have hn' : (n : ℝ) ≤ 99 := by exact_mod_cast hn
    have e3 : x * ((n : ℝ) + 1) / 2 ^ 53 ≤ x * 100 / 2 ^ 53 := by
      have := h2.left
      gcongr; linarith
    have e4 := (abs_le.1 e1).1
    have e5 := (abs_le.1 e2).2
    norm_num at e5 hx e3
    have : z < y := by linarith
    simpa using this
  unfold safeInverseElem
  rw [hfar, approx_ne_inf h]
  simp only [Bool.false_eq_true, if_false]
  exact approx_inv h hn hk

/-! ## Conversions to and from metres -/

theorem fromElem_approx {inv : Dbl → Dbl} {t u : String} (hp : (t, u) ∈ pairs) {m k : ℕ} {x : ℝ}
    {a : Dbl} (h : Approx m k x a) (hm : m ≤ 20) (hk : k ≤ 200)
    (hinv : t ≠ "wavelength" → Approx (m + 1) k (1 / x) (inv a)) :
    Approx (m + 6) (k + 62) (metres t u x) (fromElem inv t u a) := by
  have hx := h.mag.pos
  have he := e_pos
  rcases pairs_cases hp with ⟨rfl, rfl⟩ | ⟨rfl, rfl⟩ | ⟨rfl, rfl⟩ | ⟨rfl, rfl⟩ | ⟨rfl, rfl⟩ |
    ⟨rfl, rfl⟩ | ⟨rfl, rfl⟩ | ⟨rfl, rfl⟩ | ⟨rfl, rfl⟩ <;>
  simp only [fromElem, metres, lengthUnit, String.reduceEq, if_true, if_false]
  · exact (h.mono (by omega) (by omega)).congr (by ring)
  · exact ((h.mul approx_centi (by omega) (by omega)).mono (by omega) (by omega)).congr (by ring)
  · have := Approx.lit (q := 1e-6) (k := 6) ⟨by norm_num, by norm_num⟩ (by norm_num)
    exact ((h.mul this (by omega) (by omega)).mono (by omega) (by omega)).congr (by norm_num)
  · have := Approx.lit (q := 1e-9) (k := 9) ⟨by norm_num, by norm_num⟩ (by norm_num)
    exact ((h.mul this (by omega) (by omega)).mono (by omega) (by omega)).congr (by norm_num)
  · have := Approx.lit (q := 1e-10) (k := 10) ⟨by norm_num, by norm_num⟩ (by norm_num)
    exact ((h.mul this (by omega) (by omega)).mono (by omega) (by omega)).congr (by norm_num)
  · exact ((approx_c.mul (hinv (by decide)) (by omega) (by omega)).mono (by omega)
      (by omega)).congr (by ring)
  · exact ((approx_hce.mul (hinv (by decide)) (by omega) (by omega)).mono (by omega)
      (by omega)).congr (by field_simp)
  · exact ((approx_twoPiC.mul (hinv (by decide)) (by omega) (by omega)).mono (by omega)
      (by omega)).congr (by ring)
  · exact (((approx_twoPi.mul (hinv (by decide)) (by omega) (by omega)).mul approx_centi (by omega)
      (by omega)).mono (by omega) (by omega)).congr (by field_simp)

/-- From a length, with fewer roundings. -/
theorem fromElem_length {inv : Dbl → Dbl} {u : String} (hp : ("wavelength", u) ∈ pairs) {m k : ℕ}
    {x : ℝ} {a : Dbl} (h : Approx m k x a) (hm : m ≤ 20) (hk : k ≤ 200) :
    Approx (m + 2) (k + 10) (metres "wavelength" u x) (fromElem inv "wavelength" u a) := by
  rcases pairs_cases hp with ⟨-, rfl⟩ | ⟨-, rfl⟩ | ⟨-, rfl⟩ | ⟨-, rfl⟩ | ⟨-, rfl⟩ |
    ⟨h', -⟩ | ⟨h', -⟩ | ⟨h', -⟩ | ⟨h', -⟩ <;> try exact absurd h' (by decide)
  all_goals simp only [fromElem, metres, lengthUnit, String.reduceEq, if_true, if_false]
  · exact (h.mono (by omega) (by omega)).congr (by ring)
  · exact ((h.mul approx_centi (by omega) (by omega)).mono (by omega) (by omega)).congr (by ring)
  · have := Approx.lit (q := 1e-6) (k := 6) ⟨by norm_num, by norm_num⟩ (by norm_num)
    exact ((h.mul this (by omega) (by omega)).mono (by omega) (by omega)).congr (by norm_num)
  · have := Approx.lit (q := 1e-9) (k := 9) ⟨by norm_num, by norm_num⟩ (by norm_num)
    exact ((h.mul this (by omega) (by omega)).mono (by omega) (by omega)).congr (by norm_num)
  · have := Approx.lit (q := 1e-10) (k := 10) ⟨by norm_num, by norm_num⟩ (by norm_num)
    exact ((h.mul this (by omega) (by omega)).mono (by omega) (by omega)).congr (by norm_num)

/-- `np.round`, if a number of decimals is given. -/
def roundDbl : Option ℕ → Dbl → Dbl
  | none, a => a
  | some d, a => Dbl.round d a

theorem approx_pow (q : ℚ) (d : ℕ) (hq : q = 10 ^ d) (hd : d ≤ 15) :
    Approx 0 d (10 ^ d) (lit q : Dbl) := by subst hq; exact approx_ten hd

theorem toElem_length {inv : Dbl → Dbl} {u : String} (hp : ("wavelength", u) ∈ pairs) {m k : ℕ}
    {l : ℝ} {a : Dbl} (h : Approx m k l a) (hm : m ≤ 20) (hk : k ≤ 200) :
    ∃ b, Approx (m + 1) (k + 10) (ofMetres "wavelength" u l) b ∧
      toElem inv "wavelength" u a = roundDbl (decimals "wavelength" u) b := by
  rcases pairs_cases hp with ⟨-, rfl⟩ | ⟨-, rfl⟩ | ⟨-, rfl⟩ | ⟨-, rfl⟩ | ⟨-, rfl⟩ |
    ⟨h', -⟩ | ⟨h', -⟩ | ⟨h', -⟩ | ⟨h', -⟩ <;> try exact absurd h' (by decide)
  all_goals simp only [toElem, ofMetres, lengthUnit, decimals, String.reduceEq, if_true, if_false]
  · exact ⟨a, (h.mono (by omega) (by omega)).congr (by ring), rfl⟩
  · exact ⟨_, ((h.mul (approx_pow 1e2 2 (by norm_num) (by norm_num)) (by omega) (by omega)).mono
      (by omega) (by omega)).congr (by ring), rfl⟩
  · exact ⟨_, ((h.mul (approx_pow 1e6 6 (by norm_num) (by norm_num)) (by omega) (by omega)).mono
      (by omega) (by omega)).congr (by ring), rfl⟩
  · exact ⟨_, ((h.mul (approx_pow 1e9 9 (by norm_num) (by norm_num)) (by omega) (by omega)).mono
      (by omega) (by omega)).congr (by ring), rfl⟩
  · exact ⟨_, ((h.mul (approx_pow 1e10 10 (by norm_num) (by norm_num)) (by omega) (by omega)).mono
      (by omega) (by omega)).congr (by ring), rfl⟩

/-- The value that conversions to the type and unit compute: wavenumbers are `10^4` too large
(spectrum.py 147). -/
def computed (t : String) (v : ℝ) : ℝ := if t = "wavenumber" then 10 ^ 4 * v else v

set_option maxHeartbeats 1000000 in
theorem toElem_approx {inv : Dbl → Dbl} {t u : String} (hp : (t, u) ∈ pairs) {m k : ℕ}
    {l : ℝ} {a : Dbl} (h : Approx m k l a) (hm : m ≤ 20) (hk : k ≤ 200)
    (hinv : t ≠ "wavelength" → t ≠ "wavenumber" → Approx (m + 1) k (1 / l) (inv a))
    (hinv' : t = "wavenumber" →
      Approx (m + 3) (k + 2) (1 / (l * (1 / 100))) (inv (a * lit 1e-2))) :
    ∃ b, Approx (m + 6) (k + 62) (computed t (ofMetres t u l)) b ∧
      toElem inv t u a = roundDbl (decimals t u) b := by
  have hl := h.mag.pos
  have he := e_pos
  by_cases hw : t = "wavelength"
  · subst hw
    obtain ⟨b, h1, h2⟩ := toElem_length (inv := inv) hp h hm hk
    exact ⟨b, (h1.mono (by omega) (by omega)).congr (by simp [computed]), h2⟩
  rcases pairs_cases hp with ⟨h', -⟩ | ⟨h', -⟩ | ⟨h', -⟩ | ⟨h', -⟩ | ⟨h', -⟩ |
    ⟨rfl, rfl⟩ | ⟨rfl, rfl⟩ | ⟨rfl, rfl⟩ | ⟨rfl, rfl⟩ <;> try exact absurd h' hw
  all_goals simp only [toElem, ofMetres, decimals, computed, String.reduceEq, if_true, if_false]
  · exact ⟨_, ((approx_c.mul (hinv (by decide) (by decide)) (by omega) (by omega)).mono (by omega)
      (by omega)).congr (by ring), rfl⟩
  · exact ⟨_, ((approx_hce.mul (hinv (by decide) (by decide)) (by omega) (by omega)).mono (by omega)
      (by omega)).congr (by field_simp), rfl⟩
  · exact ⟨_, ((approx_twoPiC.mul (hinv (by decide) (by decide)) (by omega) (by omega)).mono
      (by omega) (by omega)).congr (by ring), rfl⟩
  · exact ⟨_, ((approx_twoPi.mul (hinv' rfl) (by omega) (by omega)).mono (by omega)
      (by omega)).congr (by field_simp; norm_num), rfl⟩

/-! ## C85: accuracy -/

/-- `r` is `v` up to a relative error of `2^-49` and, where conversions round to decimals, half a
unit of the last decimal (and a little more). -/
def CloseTo : Option ℕ → ℝ → ℝ → Prop
  | none, r, v => |r - v| ≤ v / 2 ^ 49
  | some d, r, v => |r - v| ≤ v / 2 ^ 49 + (1 / 2 + 1 / 2 ^ 50) / 10 ^ d

theorem decimals_le {t u : String} {d : ℕ} (h : decimals t u = some d) : d ≤ 13 := by
  unfold decimals at h
  split_ifs at h <;> cases h <;> norm_num

theorem closeTo_round {k : ℕ} {v : ℝ} {b : Dbl} (o : Option ℕ) (h : Approx 12 k v b)
    (ho : ∀ d, o = some d → d ≤ 13) (hk : k ≤ 280) :
    ∃ r, (roundDbl o b).val = .fin r ∧ CloseTo o r v := by
  cases o with
  | none =>
    obtain ⟨⟨y, h1, h2⟩, h3⟩ := h
    refine ⟨y, h1, (h2.abs_sub_le (by norm_num)).trans ?_⟩
    have := h2.left
    rw [div_le_div_iff₀ (by positivity) (by positivity)]
    push_cast
    nlinarith
  | some d =>
    have hd := ho d rfl
    obtain ⟨r, h1, h2⟩ := h.round_err (d := d) (by omega) (by norm_num) (by omega)
    refine ⟨r, h1, h2.trans (le_of_eq ?_)⟩
    push_cast
    ring

/-- The magnitudes for which the accuracy is stated. -/
abbrev Moderate (x : ℝ) : Prop := 1 / 10 ^ 100 ≤ x ∧ x ≤ 10 ^ 100

theorem Moderate.mag {x : ℝ} (h : Moderate x) : Mag 100 x :=
  ⟨by rw [← one_div]; exact h.1, h.2⟩

/-- C85, scalars: in double precision every conversion of a positive value of moderate magnitude
gives the physically corresponding value up to a relative error of `2^-49` (`1.8e-15`) and the
documented decimal rounding. Conversions to wavenumbers give `10^4` times the value (C04). -/
theorem C85_scalar (t u c t' u' c' : String) (hc : (lower t, lower u, c) ∈ names)
    (hc' : (lower t', u', c') ∈ names) (a : Dbl) (x : ℝ) (ha : a.val = .fin x)
    (hx : Moderate x) :
    ∃ b r, convertScalar t u t' u' a = .ok b ∧ b.val = .fin r ∧
      CloseTo (decimals (lower t') c') r
        (computed (lower t') (ofMetres (lower t') c' (metres (lower t) c x))) := by
  have h0 := Approx.exact ha hx.mag
  have h1 := fromElem_approx (inv := safeInverseScalar) (names_pairs _ hc) h0 (by norm_num)
    (by norm_num) (fun _ => approx_inv_scalar h0 (by norm_num) (by norm_num))
  obtain ⟨b, h2, h3⟩ := toElem_approx (inv := safeInverseScalar) (names_pairs _ hc') h1
    (by norm_num) (by norm_num) (fun _ _ => approx_inv_scalar h1 (by norm_num) (by norm_num))
    (fun _ => (approx_inv_scalar (h1.mul approx_centi (by norm_num) (by norm_num)) (by norm_num)
      (by norm_num)).mono (by norm_num) (by norm_num))
  obtain ⟨r, h4, h5⟩ := closeTo_round (decimals (lower t') c') h2 (fun d hd => decimals_le hd)
    (by norm_num)
  exact ⟨_, r, by rw [convertScalar_eq hc hc', h3], h4, h5⟩

/-- The condition under which the values inverted on the way are at a distance from NumPy's
tolerance, in terms of the physical quantities. -/
def FarFromTolerance (t c t' : String) (x : ℝ) : Prop :=
  (t ≠ "wavelength" → (1 + 1 / 2 ^ 40) / 10 ^ 8 < x) ∧
  (t' ≠ "wavelength" → t' ≠ "wavenumber" → (1 + 1 / 2 ^ 40) / 10 ^ 8 < metres t c x) ∧
  (t' = "wavenumber" → (1 + 1 / 2 ^ 40) / 10 ^ 8 < metres t c x * (1 / 100))

theorem elem_close {t c t' c' : String} (hp : (t, c) ∈ pairs) (hp' : (t', c') ∈ pairs) {a : Dbl}
    {x : ℝ} (ha : a.val = .fin x) (hx : Moderate x) (hf : FarFromTolerance t c t' x) :
    ∃ r, (toElem safeInverseElem t' c' (fromElem safeInverseElem t c a)).val = .fin r ∧
      CloseTo (decimals t' c') r (computed t' (ofMetres t' c' (metres t c x))) := by
  have h0 := Approx.exact ha hx.mag
  have h1 := fromElem_approx (inv := safeInverseElem) hp h0 (by norm_num)
    (by norm_num) (fun h => approx_inv_elem h0 (by norm_num) (by norm_num) (hf.1 h))
  obtain ⟨b, h2, h3⟩ := toElem_approx (inv := safeInverseElem) hp' h1
    (by norm_num) (by norm_num)
    (fun h h' => approx_inv_elem h1 (by norm_num) (by norm_num) (hf.2.1 h h'))
    (fun h => (approx_inv_elem (h1.mul approx_centi (by norm_num) (by norm_num)) (by norm_num)
      (by norm_num) (hf.2.2 h)).mono (by norm_num) (by norm_num))
  obtain ⟨r, h4, h5⟩ := closeTo_round (decimals t' c') h2 (fun d hd => decimals_le hd)
    (by norm_num)
  exact ⟨r, by rw [h3]; exact h4, h5⟩

/-- C85, arrays: the same for every element, if the values inverted on the way are not within
NumPy's tolerance of zero (C06). -/
theorem C85_array (t u c t' u' c' : String) (hc : (lower t, lower u, c) ∈ names)
    (hc' : (lower t', u', c') ∈ names) (as : List Dbl) (xs : List ℝ)
    (has : as.map Dbl.val = xs.map XR.fin) (hx : ∀ x ∈ xs, Moderate x)
    (hf : ∀ x ∈ xs, FarFromTolerance (lower t) c (lower t') x) :
    ∃ bs rs, convertList t u t' u' as = .ok (.array .float bs) ∧
      bs.map Dbl.val = rs.map XR.fin ∧
      List.Forall₂ (fun r x => CloseTo (decimals (lower t') c') r
        (computed (lower t') (ofMetres (lower t') c' (metres (lower t) c x)))) rs xs := by
  rw [convertList_eq hc hc']
  suffices h : ∃ rs : List ℝ, (as.map (fun x => toElem safeInverseElem (lower t') c'
        (fromElem safeInverseElem (lower t) c x))).map Dbl.val = rs.map XR.fin ∧
      List.Forall₂ (fun r x => CloseTo (decimals (lower t') c') r
        (computed (lower t') (ofMetres (lower t') c' (metres (lower t) c x)))) rs xs by
    obtain ⟨rs, h1, h2⟩ := h
    exact ⟨_, rs, rfl, h1, h2⟩
  induction as generalizing xs with
  | nil =>
    cases xs with
    | nil => exact ⟨[], rfl, .nil⟩
    | cons x xs => cases has
  | cons a as ih =>
    cases xs with
    | nil => cases has
    | cons x xs =>
      rw [List.map_cons, List.map_cons, List.cons.injEq] at has
      obtain ⟨rs, h1, h2⟩ := ih xs has.2 (fun y hy => hx y (by simp [hy]))
        (fun y hy => hf y (by simp [hy]))
      obtain ⟨r, h3, h4⟩ := elem_close (names_pairs _ hc) (names_pairs _ hc') has.1
        (hx x (by simp)) (hf x (by simp))
      exact ⟨r :: rs, by rw [List.map_cons, List.map_cons, List.map_cons, h3, h1], .cons h4 h2⟩

/-! ## C83: decimal values -/

/-- The double that the decimal literal `m / 10^d` denotes. -/
abbrev dec (m d : ℕ) : Dbl := lit ((m : ℚ) / 10 ^ d)

theorem elem_decimal {inv : Dbl → Dbl} {c c' : String} (hp : ("wavelength", c) ∈ pairs)
    (hp' : ("wavelength", c') ∈ pairs) (q : ℚ) (m d : ℕ) (hd : decimals "wavelength" c' = some d)
    (hm : 0 < m) (hq : ofMetres "wavelength" c' (metres "wavelength" c q) = m / 10 ^ d)
    (hsmall : 10 * m + 5 < 2 ^ 53) :
    toElem inv "wavelength" c' (fromElem inv "wavelength" c (lit q)) = dec m d := by
  have hd' := decimals_le hd
  have hmag : Mag 60 ((m : ℝ) / 10 ^ d) := by
    have hm' : Mag 16 (m : ℝ) := by
      have h1 : (1 : ℝ) ≤ m := by exact_mod_cast hm
      have h2 : (m : ℝ) ≤ 10 ^ 16 := by
        have : m ≤ 10 ^ 16 := by omega
        exact_mod_cast this
      exact ⟨le_trans (by norm_num) h1, h2⟩
    exact (hm'.div (mag_ten d)).mono (by omega)
  have hqm : Mag 80 (q : ℝ) := by
    have h1 : (q : ℝ) = (m / 10 ^ d) * (lengthUnit c' / lengthUnit c) := by
      rw [← hq]
      have := lengthUnit_pos c; have := lengthUnit_pos c'
      simp only [ofMetres, metres, String.reduceEq, if_false]
      field_simp
    have hu : ∀ c, Mag 10 (lengthUnit c) := by
      intro c
      unfold lengthUnit
      split_ifs <;> exact ⟨by norm_num, by norm_num⟩
    rw [h1]
    exact (hmag.mul ((hu c').div (hu c))).mono (by norm_num)
  have h0 := Approx.lit hqm (by norm_num)
  have h1 := fromElem_length (inv := inv) hp h0 (by norm_num) (by norm_num)
  obtain ⟨b, h2, h3⟩ := toElem_length (inv := inv) hp' h1 (by norm_num) (by norm_num)
  rw [h3, hd]
  rw [hq] at h2
  exact h2.round_exact (by omega) (by norm_num) (by omega) (by omega)

/-- C83, lengths: the double nearest to a decimal `q` is converted to the double nearest to the
decimal value `m / 10^d` in the other length unit, if that has at most the decimals which the
conversion keeps and `10 m + 5 < 2^53` (up to 900 nm, 9e5 µm, 9e9 cm, 90 Å). -/
theorem C83_lengths (t u c t' u' c' : String) (hc : (lower t, lower u, c) ∈ names)
    (hc' : (lower t', u', c') ∈ names) (ht : lower t = "wavelength") (ht' : lower t' = "wavelength")
    (q : ℚ) (m d : ℕ) (hd : decimals "wavelength" c' = some d) (hm : 0 < m)
    (hq : ofMetres "wavelength" c' (metres "wavelength" c q) = m / 10 ^ d)
    (hsmall : 10 * m + 5 < 2 ^ 53) :
    convertScalar t u t' u' (lit q : Dbl) = .ok (dec m d) := by
  rw [convertScalar_eq hc hc', ht, ht', elem_decimal (ht ▸ names_pairs _ hc) (ht' ▸ names_pairs _ hc')
    q m d hd hm hq hsmall]

/-- C83, arrays of lengths. -/
theorem C83_length_arrays (t u c t' u' c' : String) (hc : (lower t, lower u, c) ∈ names)
    (hc' : (lower t', u', c') ∈ names) (ht : lower t = "wavelength") (ht' : lower t' = "wavelength")
    (d : ℕ) (hd : decimals "wavelength" c' = some d) (l : List (ℚ × ℕ))
    (hl : ∀ p ∈ l, 0 < p.2 ∧ 10 * p.2 + 5 < 2 ^ 53 ∧
      ofMetres "wavelength" c' (metres "wavelength" c p.1) = p.2 / 10 ^ d) :
    convertList t u t' u' (l.map (fun p => (lit p.1 : Dbl))) =
      .ok (.array .float (l.map (fun p => dec p.2 d))) := by
  rw [convertList_eq hc hc', ht, ht', List.map_map]
  congr 2
  apply List.map_congr_left
  intro p hp
  obtain ⟨h1, h2, h3⟩ := hl p hp
  exact elem_decimal (ht ▸ names_pairs _ hc) (ht' ▸ names_pairs _ hc') p.1 p.2 d hd h1 h3 h2

/-- C83, all types: the same for a decimal value of any type and unit whose exact counterpart in a
unit that conversions round is a decimal of that many places, with `28 m + 14 < 2^53`. -/
theorem C83_all_types (t u c t' u' c' : String) (hc : (lower t, lower u, c) ∈ names)
    (hc' : (lower t', u', c') ∈ names) (q : ℚ) (m d : ℕ) (hqm : Moderate (q : ℝ))
    (hd : decimals (lower t') c' = some d)
    (hq : ofMetres (lower t') c' (metres (lower t) c q) = m / 10 ^ d)
    (hsmall : 28 * m + 14 < 2 ^ 53) :
    convertScalar t u t' u' (lit q : Dbl) = .ok (dec m d) := by
  have hd' := decimals_le hd
  have hk : lower t' ≠ "wavenumber" := by
    intro h; rw [h] at hd; simp [decimals] at hd
  have h0 := Approx.lit hqm.mag (by norm_num)
  have h1 := fromElem_approx (inv := safeInverseScalar) (names_pairs _ hc) h0 (by norm_num)
    (by norm_num) (fun _ => approx_inv_scalar h0 (by norm_num) (by norm_num))
  obtain ⟨b, h2, h3⟩ := toElem_approx (inv := safeInverseScalar) (names_pairs _ hc') h1
    (by norm_num) (by norm_num) (fun _ _ => approx_inv_scalar h1 (by norm_num) (by norm_num))
    (fun h => absurd h hk)
  rw [convertScalar_eq hc hc', h3, hd]
  simp only [computed, if_neg hk] at h2
  rw [hq] at h2
  exact congrArg _ (h2.round_exact (by omega) (by norm_num) (by omega) (by omega))

/-- 633 nm are converted to the double 0.633 in micrometres, 1.5 eV to 1.5 eV. -/
example : convertScalar "wavelength" "nm" "wavelength" "um" (lit 633 : Dbl) =
    .ok (lit 0.633 : Dbl) := by
  have := C83_lengths "wavelength" "nm" "nm" "wavelength" "um" "um" (by decide +kernel)
    (by decide +kernel) (by decide +kernel) (by decide +kernel) 633 633000000 9 (by decide)
    (by norm_num) (by simp [ofMetres, metres, lengthUnit]; norm_num) (by norm_num)
  rw [this]
  unfold dec
  norm_num

example : convertScalar "energy" "eV" "energy" "ev" (lit 1.5 : Dbl) = .ok (lit 1.5 : Dbl) := by
  have := C83_all_types "energy" "eV" "ev" "energy" "ev" "ev" (by decide +kernel)
    (by decide +kernel) 1.5 1500000000 9 ⟨by norm_num, by norm_num⟩ (by decide +kernel)
    (by rw [show lower "energy" = "energy" by decide +kernel, ofMetres_metres _ _ (by norm_num)]
        norm_num) (by norm_num)
  rw [this]
  unfold dec
  norm_num

end
end Disp

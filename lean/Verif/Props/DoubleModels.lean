import Verif.Lemmas.SignedError
import Verif.Props.DoublePassive
import Verif.Props.TableAccuracy
import Verif.Props.TextDriftCase
/-!
# Accuracy of the Drude and Drude-Lorentz models in double precision
-/

namespace Disp

noncomputable section

open Dbl

theorem zero_val : (lit 0 : Dbl).val = .fin 0 := by
  have := rnd_double (double_int (n := 0) (by norm_num))
  rw [val_lit]
  push_cast at this ⊢
  exact this

theorem one_val : (lit 1 : Dbl).val = .fin 1 := by
  have := rnd_double (double_int (n := 1) (by norm_num))
  rw [val_lit]
  push_cast at this ⊢
  exact this

/-! ## Complex division -/

/-- A real number divided by a complex one, with NumPy's algorithm: each part of the result has a
small relative error. -/
theorem smith {na m ka k : ℕ} {A x y : ℝ} {a : Dbl} {b : Cx Dbl} (ha : SRel na ka A a)
    (hx : SRel m k x b.re) (hy : SRel m k y b.im) (h0 : x ≠ 0 ∨ y ≠ 0) (hn : na + 5 * m + 7 ≤ 99)
    (hk : ka + 5 * k + 1 ≤ 300) :
    SRel (na + 5 * m + 7) (ka + 5 * k + 1) (A * x / (x ^ 2 + y ^ 2)) (Cx.ofReal a / b).re ∧
      SRel (na + 5 * m + 7) (ka + 5 * k + 1) (-(A * y / (x ^ 2 + y ^ 2))) (Cx.ofReal a / b).im := by
  obtain ⟨X, hX, nX⟩ := hx.near
  obtain ⟨Y, hY, nY⟩ := hy.near
  have hb : Dbl.le (Dbl.abs b.im) (Dbl.abs b.re) = true ↔ |Y| ≤ |X| := by
    show XR.le (Dbl.abs b.im).val (Dbl.abs b.re).val = true ↔ _
    rw [Dbl.abs_val hX, Dbl.abs_val hY]
    simp [XR.le, XR.isNaN, XR.lt]
  show SRel _ _ _ (cdiv ⟨a, lit 0⟩ b).re ∧ SRel _ _ _ (cdiv ⟨a, lit 0⟩ b).im
  unfold cdiv
  have h1 : SRel 0 0 1 (ofRat 1) := SRel.one
  have hz := zero_val
  split_ifs with hc hzz
  · refine absurd hzz (Dbl.not_both_zero hX hY ?_)
    exact h0.imp (fun h h' => h (nX.zero_iff.2 h')) (fun h h' => h (nY.zero_iff.2 h'))
  · have hx0 : x ≠ 0 := by
      intro h
      have hX0 := nX.zero_iff.1 h
      have hY0 : Y = 0 := by
        have := hb.1 hc
        rw [hX0, abs_zero] at this
        exact abs_nonpos_iff.1 this
      exact h0.elim (fun h' => h' h) (fun h' => h' (nY.zero_iff.2 hY0))
    have hs : 0 ≤ x * (y * (y / x)) := by
      rw [show x * (y * (y / x)) = y ^ 2 by field_simp]
      exact sq_nonneg y
    have hd0 : x + y * (y / x) ≠ 0 := by
      rw [show x + y * (y / x) = (x ^ 2 + y ^ 2) / x by field_simp]
      have : 0 < x ^ 2 + y ^ 2 := by positivity
      exact div_ne_zero this.ne' hx0
    have hr := hy.div hx hx0 (by omega) (by omega)
    have hd := (hx.mono (n := m + (m + m + 1) + 1) (k := k + (k + k)) (by omega) (by omega)).add
      (hy.mul hr (by omega) (by omega)) hs (by omega) (by omega)
    have hscl := h1.div hd hd0 (by omega) (by omega)
    have hsq : x ^ 2 + y ^ 2 ≠ 0 := by positivity
    constructor
    · have := (SRel.add_zero (Dbl.zero_mul_val hz hr.near.choose_spec.1) ha).mul hscl (by omega)
        (by omega)
      rw [show A * x / (x ^ 2 + y ^ 2) = A * (1 / (x + y * (y / x))) by field_simp]
      exact this.mono (by omega) (by omega)
    · have := (SRel.zero_sub hz (ha.mul hr (by omega) (by omega))).mul hscl (by omega) (by omega)
      rw [show -(A * y / (x ^ 2 + y ^ 2)) = -(A * (y / x)) * (1 / (x + y * (y / x))) by
        field_simp]
      exact this.mono (by omega) (by omega)
  · have hy0 : y ≠ 0 := by
      intro h
      have hY0 := nY.zero_iff.1 h
      exact hc (hb.2 (by rw [hY0, abs_zero]; exact abs_nonneg X))
    have hs : 0 ≤ y * (x * (x / y)) := by
      rw [show y * (x * (x / y)) = x ^ 2 by field_simp]
      exact sq_nonneg x
    have hd0 : y + x * (x / y) ≠ 0 := by
      rw [show y + x * (x / y) = (y ^ 2 + x ^ 2) / y by field_simp]
      have : 0 < y ^ 2 + x ^ 2 := by positivity
      exact div_ne_zero this.ne' hy0
    have hr := hx.div hy hy0 (by omega) (by omega)
    have hd := (hy.mono (n := m + (m + m + 1) + 1) (k := k + (k + k)) (by omega) (by omega)).add
      (hx.mul hr (by omega) (by omega)) hs (by omega) (by omega)
    have hscl := h1.div hd hd0 (by omega) (by omega)
    have hsq : x ^ 2 + y ^ 2 ≠ 0 := by positivity
    have hsq' : y ^ 2 + x ^ 2 ≠ 0 := by positivity
    constructor
    · have := (SRel.add_zero hz (ha.mul hr (by omega) (by omega))).mul hscl (by omega) (by omega)
      rw [show A * x / (x ^ 2 + y ^ 2) = A * (x / y) * (1 / (y + x * (x / y))) by
        rw [add_comm (x ^ 2)]; field_simp]
      exact this.mono (by omega) (by omega)
    · have := (SRel.zero_sub (Dbl.zero_mul_val hz hr.near.choose_spec.1) ha).mul hscl (by omega)
        (by omega)
      rw [show -(A * y / (x ^ 2 + y ^ 2)) = -A * (1 / (y + x * (x / y))) by
        rw [add_comm (x ^ 2)]; field_simp]
      exact this.mono (by omega) (by omega)

theorem SRel.sq {x : ℝ} {k : ℕ} {a : Dbl} (ha : a.val = .fin x) (h : x = 0 ∨ Mag k |x|)
    (hk : k + k ≤ 300) : SRel 1 (k + k) (x ^ 2) (sqF a) := by
  have h2 : (lit 2 : Dbl).val = .fin ((2 : ℤ) : ℝ) := by
    rw [val_lit]
    exact_mod_cast rnd_double (double_int (n := 2) (by norm_num))
  have e : sqF a = Dbl.rnd (.fin (x ^ 2)) := by
    show Dbl.rnd (PyFloat.pow a.val (lit 2 : Dbl).val) = _
    rw [h2, ha]
    show Dbl.rnd (XR.pow (.fin x) (.fin ((2 : ℤ) : ℝ))) = _
    unfold XR.pow
    simp only [Int.floor_intCast, if_true]
    rw [if_neg (by norm_num)]
    rfl
  rw [e]
  refine SRel.rnd (SNear.refl _) ?_ (by norm_num) hk
  rcases h with rfl | h
  · left; norm_num
  · right
    rw [abs_pow, pow_two]
    exact h.mul h

theorem zero_plus {z a : Dbl} {x : ℝ} (hz : z.val = .fin 0) (ha : a.val = .fin x) : z + a = a := by
  show Dbl.rnd (z.val + a.val) = a
  rw [hz, ha, XR.add_fin, zero_add, ← ha, Dbl.rnd_val]

theorem plus_zero {z a : Dbl} {x : ℝ} (hz : z.val = .fin 0) (ha : a.val = .fin x) : a + z = a := by
  show Dbl.rnd (a.val + z.val) = a
  rw [hz, ha, XR.add_fin, add_zero, ← ha, Dbl.rnd_val]

theorem minus_zero {z a : Dbl} {x : ℝ} (hz : z.val = .fin 0) (ha : a.val = .fin x) : a - z = a := by
  show Dbl.rnd (a.val - z.val) = a
  rw [hz, ha, XR.sub_fin, sub_zero, ← ha, Dbl.rnd_val]

theorem one_times {o a : Dbl} {x : ℝ} (ho : o.val = .fin 1) (ha : a.val = .fin x) : o * a = a := by
  rw [Dbl.val_mul, ho, ha, XR.mul_fin, one_mul, ← ha, Dbl.rnd_val]

/-- The damping term. -/
theorem damping_val {g e : ℝ} {a b : Dbl} (ha : a.val = .fin g) (hb : b.val = .fin e)
    (hab : ∃ y, (a * b).val = .fin y) :
    (Cx.I * Cx.ofReal a * Cx.ofReal b : Cx Dbl).re.val = .fin 0 ∧
      (Cx.I * Cx.ofReal a * Cx.ofReal b : Cx Dbl).im = a * b := by
  have hz := zero_val
  have h0 : (lit 0 * lit 0 : Dbl).val = .fin 0 := Dbl.zero_mul_val hz hz
  have h1a : (lit 1 * a : Dbl) = a := one_times one_val ha
  have hB : ((lit 0 * lit 0 : Dbl) + lit 1 * a) = a := by rw [h1a]; exact zero_plus h0 ha
  have hA : ((lit 0 * a : Dbl) - lit 1 * lit 0).val = .fin 0 := by
    rw [minus_zero (Dbl.mul_zero_val one_val hz) (Dbl.zero_mul_val hz ha)]
    exact Dbl.zero_mul_val hz ha
  obtain ⟨y, hy⟩ := hab
  constructor
  · show (((lit 0 * a : Dbl) - lit 1 * lit 0) * b - ((lit 0 * lit 0 : Dbl) + lit 1 * a) * lit 0).val = _
    rw [hB, minus_zero (Dbl.mul_zero_val ha hz) (Dbl.zero_mul_val hA hb)]
    exact Dbl.zero_mul_val hA hb
  · show ((lit 0 * a : Dbl) - lit 1 * lit 0) * lit 0 + ((lit 0 * lit 0 : Dbl) + lit 1 * a) * b = _
    rw [hB]
    exact zero_plus (Dbl.mul_zero_val hA hz) hy

/-! ## The specification -/

namespace Spec

/-- The Drude permittivity. -/
def drudeEps (wp g e : ℝ) : ℂ := 1 - (wp : ℂ) ^ 2 / ((e : ℂ) ^ 2 + Complex.I * g * e)

/-- The permittivity of a Lorentz oscillator (with positive imaginary part). -/
def lorentzEps (wp S w0 g e : ℝ) : ℂ :=
  1 + S * (wp : ℂ) ^ 2 / ((w0 : ℂ) ^ 2 - (e : ℂ) ^ 2 - Complex.I * g * e)

/-- Zero, or between `1e-10` and `1e10` in size. -/
def Sized (x : ℝ) : Prop := x = 0 ∨ ((10 : ℝ) ^ 10)⁻¹ ≤ |x| ∧ |x| ≤ 10 ^ 10

/-- The complex double is within `d` of `z` in both parts. -/
def CloseBy (d : ℝ) (z : ℂ) (a : Cx Dbl) : Prop :=
  ∃ r j, a.re.val = .fin r ∧ a.im.val = .fin j ∧ |r - z.re| ≤ d ∧ |j - z.im| ≤ d

end Spec

open Spec

theorem Spec.Sized.mag {x : ℝ} (h : Sized x) : x = 0 ∨ Mag 10 |x| := h.imp_right (fun h => ⟨h.1, h.2⟩)

theorem drude_components {wp g e : ℝ} (he : e ≠ 0) :
    (drudeEps wp g e).re = 1 - wp ^ 2 * e ^ 2 / ((e ^ 2) ^ 2 + (g * e) ^ 2) ∧
      (drudeEps wp g e).im = wp ^ 2 * (g * e) / ((e ^ 2) ^ 2 + (g * e) ^ 2) := by
  have hd : ((e : ℂ) ^ 2 + Complex.I * g * e) = damped (e ^ 2) g e := by
    unfold damped; push_cast; ring
  have hn : Complex.normSq (damped (e ^ 2) g e) = (e ^ 2) ^ 2 + (g * e) ^ 2 := by
    rw [Complex.normSq_apply, damped_re, damped_im]; ring
  have hw : ((wp : ℂ) ^ 2) = ((wp ^ 2 : ℝ) : ℂ) := by push_cast; ring
  unfold drudeEps
  rw [hd, hw]
  constructor
  · rw [Complex.sub_re, Complex.div_re, hn, damped_re, damped_im, Complex.ofReal_re,
      Complex.ofReal_im, Complex.one_re]
    ring
  · rw [Complex.sub_im, Complex.div_im, hn, damped_re, damped_im, Complex.ofReal_re,
      Complex.ofReal_im, Complex.one_im]
    ring

/-- C124, one value of a Drude model: the imaginary part has a relative error of at most
`14/2^53`, the real part is wrong by at most `16/2^53` of `1 + |ε' - 1|`. -/
theorem C124_drude {p : List Dbl} {a b c : Dbl} {wp g e : ℝ} {rest : List Dbl}
    (hp : p = a :: b :: rest) (ha : a.val = .fin wp) (hb : b.val = .fin g) (hc : c.val = .fin e)
    (swp : Sized wp) (sg : Sized g) (se : Sized e) (he : 0 < e) :
    ∃ z r j, EpsFormula.drude.at p c = .ok z ∧ z.re.val = .fin r ∧ z.im.val = .fin j ∧
      |r - (drudeEps wp g e).re| ≤ (1 + |(drudeEps wp g e).re - 1|) * 16 / 2 ^ 53 ∧
      |j - (drudeEps wp g e).im| ≤ |(drudeEps wp g e).im| * 14 / 2 ^ 53 := by
  subst hp
  have he2 := SRel.sq hc se.mag (by norm_num)
  have hge := (SRel.exact hb sg.mag).mul (SRel.exact hc se.mag) (by norm_num) (by norm_num)
  obtain ⟨y, hy, -⟩ := hge.near
  obtain ⟨d1, d2⟩ := damping_val hb hc ⟨y, hy⟩
  obtain ⟨x, hx, -⟩ := he2.near
  set D : Cx Dbl := Cx.ofReal (sqF c) + Cx.I * Cx.ofReal b * Cx.ofReal c with hD
  have hre : D.re = sqF c := by
    show sqF c + (Cx.I * Cx.ofReal b * Cx.ofReal c : Cx Dbl).re = _
    exact plus_zero d1 hx
  have him : D.im = b * c := by
    show lit 0 + (Cx.I * Cx.ofReal b * Cx.ofReal c : Cx Dbl).im = _
    rw [d2]
    exact zero_plus zero_val hy
  obtain ⟨q1, q2⟩ := smith (k := 20) (SRel.sq ha swp.mag (by norm_num)) (b := D)
    (by rw [hre]; exact he2) (by rw [him]; exact hge) (.inl (pow_ne_zero 2 he.ne')) (by norm_num)
    (by norm_num)
  obtain ⟨p1, p2⟩ := drude_components (wp := wp) (g := g) he.ne'
  rw [p1, p2]
  set Q := wp ^ 2 * e ^ 2 / ((e ^ 2) ^ 2 + (g * e) ^ 2) with hQ
  set J := wp ^ 2 * (g * e) / ((e ^ 2) ^ 2 + (g * e) ^ 2) with hJ
  have hQ0 : 0 ≤ Q := by positivity
  obtain ⟨qr, h1, h2⟩ := q1.error (by norm_num)
  obtain ⟨j, h3, h4⟩ := (SRel.zero_sub zero_val q2).error (by norm_num)
  have hqs : |Q| ≤ 10 ^ 150 := by
    rcases q1.size with h | h
    · rw [h, abs_zero]; positivity
    · exact h.high.trans (pow_le_pow_right₀ (by norm_num) (by norm_num))
  have h2' : |qr - Q| ≤ |Q| * 14 / 2 ^ 53 := by
    refine h2.trans (le_of_eq ?_); norm_num
  have hq : |qr| ≤ 2 * |Q| := by
    have := abs_add_le (qr - Q) Q
    rw [sub_add_cancel] at this
    have h5 : |Q| * 14 / 2 ^ 53 ≤ |Q| := by
      rw [mul_div_assoc]; exact mul_le_of_le_one_right (abs_nonneg _) (by norm_num)
    linarith
  obtain ⟨r, h5, h6⟩ := Dbl.sub_err (a := lit 1) one_val h1 (by norm_num)
    (hq.trans (by
      calc 2 * |Q| ≤ 10 * 10 ^ 150 := by linarith [abs_nonneg Q, show (0 : ℝ) < 10 ^ 150 by positivity]
        _ ≤ 10 ^ 200 := by rw [← pow_succ']; exact pow_le_pow_right₀ (by norm_num) (by norm_num)))
  refine ⟨_, r, j, rfl, h5, h3, ?_, ?_⟩
  · have e1 : |1 - Q - 1| = |Q| := by rw [show 1 - Q - 1 = -Q by ring, abs_neg]
    rw [e1]
    have h7 := abs_add_le (r - (1 - qr)) ((1 - qr) - (1 - Q))
    rw [sub_add_sub_cancel, show (1 - qr) - (1 - Q) = -(qr - Q) by ring, abs_neg] at h7
    have h8 : |1 - qr| ≤ 1 + 2 * |Q| := by
      have := abs_sub 1 qr
      rw [abs_one] at this
      linarith
    have h9 : |1 - qr| / 2 ^ 53 ≤ (1 + 2 * |Q|) / 2 ^ 53 := by gcongr
    refine h7.trans ?_
    calc _ ≤ (1 + 2 * |Q|) / 2 ^ 53 + |Q| * 14 / 2 ^ 53 := by linarith
      _ ≤ _ := by
        rw [← add_div]
        refine div_le_div_of_nonneg_right ?_ (by positivity)
        linarith
  · rw [neg_neg] at h4
    refine (h4.trans (le_of_eq ?_))
    norm_num

/-! ## Drude-Lorentz -/

/-- Doubles that are not too small are multiples of `2^-121`. -/
theorem double_lattice {x : ℝ} (h : IsDouble x) (hx : x = 0 ∨ (2 : ℝ) ^ (-68 : ℤ) ≤ |x|) :
    ∃ M : ℤ, x = M * (2 : ℝ) ^ (-121 : ℤ) := by
  rcases hx with rfl | hx
  · exact ⟨0, by simp⟩
  obtain ⟨m, e, hm, -, -, rfl⟩ := h
  have hm' : |(m : ℝ)| < 2 ^ 53 := by exact_mod_cast hm
  have he : -121 < e := by
    by_contra hc
    have h1 : (2 : ℝ) ^ e ≤ 2 ^ (-121 : ℤ) := zpow_le_zpow_right₀ (by norm_num) (by omega)
    rw [abs_mul, abs_of_pos (two_zpow_pos e)] at hx
    have h2 : |(m : ℝ)| * 2 ^ e < 2 ^ 53 * 2 ^ (-121 : ℤ) :=
      mul_lt_mul hm' h1 (two_zpow_pos e) (by positivity)
    have h3 : (2 : ℝ) ^ 53 * 2 ^ (-121 : ℤ) = 2 ^ (-68 : ℤ) := by
      rw [← zpow_natCast, ← zpow_add₀ (by norm_num)]; norm_num
    linarith
  obtain ⟨n, hn⟩ := Int.eq_ofNat_of_zero_le (show 0 ≤ e + 121 by omega)
  refine ⟨m * 2 ^ n, ?_⟩
  have : e = (n : ℤ) + (-121) := by omega
  rw [this, zpow_add₀ (by norm_num), zpow_natCast]
  push_cast
  ring

/-- The difference of two rounded squares is zero or not too small. -/
theorem gap {w e U V : ℝ} {a b : Dbl} (ha : a.val = .fin U) (hb : b.val = .fin V)
    (hU : |U - w ^ 2| ≤ w ^ 2 * 2 / 2 ^ 53) (hV : |V - e ^ 2| ≤ e ^ 2 * 2 / 2 ^ 53)
    (hw : w = 0 ∨ Mag 10 |w|) (he : e = 0 ∨ Mag 10 |e|) :
    ∃ X, (a - b).val = .fin X ∧ |X - (w ^ 2 - e ^ 2)| ≤ (w ^ 2 + e ^ 2) * 4 / 2 ^ 53 ∧
      (X = 0 ∨ Mag 40 |X|) := by
  have sq : ∀ {w U : ℝ}, |U - w ^ 2| ≤ w ^ 2 * 2 / 2 ^ 53 → (w = 0 ∨ Mag 10 |w|) →
      |U| ≤ 2 * w ^ 2 ∧ w ^ 2 ≤ 10 ^ 20 ∧ (U = 0 ∨ (2 : ℝ) ^ (-68 : ℤ) ≤ |U|) := by
    intro w U hU hw
    have h1 := abs_add_le (U - w ^ 2) (w ^ 2)
    have h2 := abs_add_le (w ^ 2 - U) U
    rw [sub_add_cancel, abs_of_nonneg (sq_nonneg w)] at h1 h2
    rw [abs_sub_comm] at h2
    have h3 : w ^ 2 * 2 / 2 ^ 53 ≤ w ^ 2 / 2 := by
      rw [mul_div_assoc, div_eq_mul_inv (w ^ 2)]
      exact mul_le_mul_of_nonneg_left (by norm_num) (sq_nonneg w)
    have h0 := sq_nonneg w
    refine ⟨by linarith, ?_, ?_⟩
    · rcases hw with rfl | hw
      · norm_num
      · have := hw.mul hw
        rw [← pow_two, sq_abs] at this
        exact this.high
    · rcases hw with rfl | hw
      · left
        rw [show (0 : ℝ) ^ 2 = 0 by norm_num] at hU h1
        have : |U| ≤ 0 := by linarith
        exact abs_nonpos_iff.1 this
      · right
        have h5 := hw.mul hw
        rw [← pow_two, sq_abs] at h5
        have h6 := h5.low
        have h7 : (2 : ℝ) ^ (-68 : ℤ) ≤ ((10 : ℝ) ^ (10 + 10))⁻¹ / 2 := by
          rw [show (-68 : ℤ) = -((68 : ℕ) : ℤ) from rfl, zpow_neg, zpow_natCast]; norm_num
        refine h7.trans ?_
        linarith
  obtain ⟨u1, u2, u3⟩ := sq hU hw
  obtain ⟨v1, v2, v3⟩ := sq hV he
  have hw0 := sq_nonneg w
  have he0 := sq_nonneg e
  have hb1 : ∀ {t : ℝ}, t ≤ 10 ^ 20 → 2 * t ≤ 10 ^ 200 := by
    intro t ht
    have : (2 : ℝ) * 10 ^ 20 ≤ 10 ^ 200 := by norm_num
    linarith
  obtain ⟨X, hX, hX'⟩ := Dbl.sub_err ha hb (u1.trans (hb1 u2)) (v1.trans (hb1 v2))
  refine ⟨X, hX, ?_, ?_⟩
  · have h1 := abs_add_le (X - (U - V)) ((U - V) - (w ^ 2 - e ^ 2))
    rw [sub_add_sub_cancel] at h1
    have h2 := abs_sub (U - w ^ 2) (V - e ^ 2)
    rw [show (U - w ^ 2) - (V - e ^ 2) = (U - V) - (w ^ 2 - e ^ 2) by ring] at h2
    have h3 := abs_sub U V
    have h4 : |U - V| / 2 ^ 53 ≤ (2 * w ^ 2 + 2 * e ^ 2) / 2 ^ 53 := by gcongr; linarith
    have h5 : (w ^ 2 + e ^ 2) * 4 / 2 ^ 53 = (2 * w ^ 2 + 2 * e ^ 2) / 2 ^ 53 +
      (w ^ 2 * 2 / 2 ^ 53 + e ^ 2 * 2 / 2 ^ 53) := by ring
    rw [h5]
    linarith
  · obtain ⟨M, hM⟩ := double_lattice (Dbl.isDouble_val ha) u3
    obtain ⟨N, hN⟩ := double_lattice (Dbl.isDouble_val hb) v3
    have hUV : U - V = (M - N : ℤ) * (2 : ℝ) ^ (-121 : ℤ) := by rw [hM, hN]; push_cast; ring
    rcases eq_or_ne (M - N) 0 with h0 | h0
    · left
      rw [hUV, h0] at hX'
      simpa using hX'
    · right
      have h1 : (1 : ℝ) ≤ |((M - N : ℤ) : ℝ)| := by exact_mod_cast Int.one_le_abs h0
      have h2 : (2 : ℝ) ^ (-121 : ℤ) ≤ |U - V| := by
        rw [hUV, abs_mul, abs_of_pos (two_zpow_pos (-121))]
        exact le_mul_of_one_le_left (two_zpow_pos _).le h1
      have h3 := abs_sub U V
      have h4 := abs_add_le (X - (U - V)) (U - V)
      have h5 := abs_add_le ((U - V) - X) X
      rw [sub_add_cancel] at h4 h5
      rw [abs_sub_comm (U - V) X] at h5
      have h6 : |U - V| / 2 ^ 53 ≤ |U - V| / 2 := by
        exact div_le_div_of_nonneg_left (abs_nonneg _) (by norm_num) (by norm_num)
      have h7 : ((10 : ℝ) ^ 40)⁻¹ ≤ 2 ^ (-121 : ℤ) / 2 := by
        rw [show (-121 : ℤ) = -((121 : ℕ) : ℤ) from rfl, zpow_neg, zpow_natCast]; norm_num
      have h8 : (6 : ℝ) * (10 : ℝ) ^ 20 ≤ 10 ^ 40 := by norm_num
      have h9 : |U - V| / 2 ≤ |X| := by linarith
      exact ⟨h7.trans ((div_le_div_of_nonneg_right h2 (by norm_num)).trans h9), by linarith⟩

/-- A quotient with a slightly wrong denominator. -/
theorem perturbed {A : ℝ} {d D : ℂ} {η : ℝ} (hd : d ≠ 0) (h : ‖D - d‖ ≤ η * ‖d‖)
    (hη : η ≤ 1 / 100) : ‖(A : ℂ) / D - A / d‖ ≤ 102 / 100 * η * ‖(A : ℂ) / d‖ ∧
      ‖(A : ℂ) / D‖ ≤ 102 / 100 * ‖(A : ℂ) / d‖ ∧ D ≠ 0 := by
  have hd0 : 0 < ‖d‖ := norm_pos_iff.2 hd
  have hη0 : 0 ≤ η := by
    have := (norm_nonneg _).trans h
    by_contra hc
    nlinarith
  have hD : 99 / 100 * ‖d‖ ≤ ‖D‖ := by
    have := norm_sub_norm_le d (d - D)
    rw [sub_sub_cancel, norm_sub_rev] at this
    nlinarith
  have hD0 : 0 < ‖D‖ := by nlinarith
  have hDne : D ≠ 0 := norm_pos_iff.1 hD0
  have hle : ‖(A : ℂ)‖ / ‖D‖ ≤ 102 / 100 * (‖(A : ℂ)‖ / ‖d‖) := by
    rw [div_le_iff₀ hD0]
    have h1 : 102 / 100 * (‖(A : ℂ)‖ / ‖d‖) * ‖D‖ = 102 / 100 * ‖(A : ℂ)‖ * (‖D‖ / ‖d‖) := by ring
    have h2 : 99 / 100 ≤ ‖D‖ / ‖d‖ := by rw [le_div_iff₀ hd0]; exact hD
    rw [h1]
    nlinarith [norm_nonneg (A : ℂ), mul_le_mul_of_nonneg_left h2 (norm_nonneg (A : ℂ))]
  refine ⟨?_, by rw [norm_div, norm_div]; exact hle, hDne⟩
  have e : (A : ℂ) / D - A / d = A / D * ((d - D) / d) := by
    field_simp
  rw [e, norm_mul, norm_div, norm_div, norm_div]
  have h3 : ‖d - D‖ / ‖d‖ ≤ η := by
    rw [div_le_iff₀ hd0, norm_sub_rev]; exact h
  calc ‖(A : ℂ)‖ / ‖D‖ * (‖d - D‖ / ‖d‖) ≤ 102 / 100 * (‖(A : ℂ)‖ / ‖d‖) * η :=
        mul_le_mul hle h3 (by positivity) (by positivity)
    _ = _ := by ring

theorem quotient_parts (A x y : ℝ) :
    ((A : ℂ) / ⟨x, y⟩).re = A * x / (x ^ 2 + y ^ 2) ∧
      ((A : ℂ) / ⟨x, y⟩).im = -(A * y / (x ^ 2 + y ^ 2)) := by
  have hn : Complex.normSq ⟨x, y⟩ = x ^ 2 + y ^ 2 := by rw [Complex.normSq_mk]; ring
  constructor
  · rw [Complex.div_re, hn]; simp
  · rw [Complex.div_im, hn]; simp

theorem lorentz_conjugate (wp S w0 g e : ℝ) :
    lorentzEps wp S w0 g e - 1 =
      (starRingEnd ℂ) (((S * wp ^ 2 : ℝ) : ℂ) / ⟨w0 ^ 2 - e ^ 2, g * e⟩) := by
  unfold lorentzEps
  rw [add_sub_cancel_left, map_div₀, Complex.conj_ofReal]
  congr 1
  · push_cast; ring
  · apply Complex.ext
    · simp [pow_two]
    · simp [pow_two]

/-- C124, one value of a Drude-Lorentz model. `K` measures how close the energy is to an undamped
resonance. -/
theorem C124_lorentz {p : List Dbl} {a b c f h : Dbl} {wp S w0 g e K : ℝ} {rest : List Dbl}
    (hp : p = a :: b :: c :: f :: rest) (ha : a.val = .fin wp) (hb : b.val = .fin S)
    (hc : c.val = .fin w0) (hf : f.val = .fin g) (hh : h.val = .fin e) (swp : Sized wp)
    (sS : Sized S) (sw : Sized w0) (sg : Sized g) (se : Sized e) (he : e ≠ 0)
    (hK : w0 ^ 2 + e ^ 2 ≤ K * ‖(w0 : ℂ) ^ 2 - (e : ℂ) ^ 2 - Complex.I * g * e‖)
    (hK1 : K ≤ 2 ^ 40) :
    ∃ z, EpsFormula.drudeLorentz.at p h = .ok z ∧
      CloseBy ((1 + ‖lorentzEps wp S w0 g e - 1‖ * (16 + 5 * K)) / 2 ^ 53)
        (lorentzEps wp S w0 g e) z := by
  subst hp
  have hw2 := SRel.sq hc sw.mag (by norm_num)
  have he2 := SRel.sq hh se.mag (by norm_num)
  have hA := (SRel.exact hb sS.mag).mul (SRel.sq ha swp.mag (by norm_num)) (by norm_num)
    (by norm_num)
  have hge := (SRel.exact hf sg.mag).mul (SRel.exact hh se.mag) (by norm_num) (by norm_num)
  obtain ⟨U, hU, hU'⟩ := hw2.error (by norm_num)
  obtain ⟨V, hV, hV'⟩ := he2.error (by norm_num)
  obtain ⟨Y, hY, hY'⟩ := hge.error (by norm_num)
  rw [abs_of_nonneg (sq_nonneg w0)] at hU'
  rw [abs_of_nonneg (sq_nonneg e)] at hV'
  obtain ⟨X, hX, hX', hXs⟩ := gap hU hV (hU'.trans (le_of_eq (by norm_num)))
    (hV'.trans (le_of_eq (by norm_num))) sw.mag se.mag
  obtain ⟨d1, d2⟩ := damping_val hf hh ⟨Y, hY⟩
  set D : Cx Dbl := Cx.ofReal (sqF c - sqF h) + Cx.I * Cx.ofReal f * Cx.ofReal h with hD
  have hre : D.re = sqF c - sqF h := by
    show (sqF c - sqF h) + (Cx.I * Cx.ofReal f * Cx.ofReal h : Cx Dbl).re = _
    exact plus_zero d1 hX
  have him : D.im = f * h := by
    show lit 0 + (Cx.I * Cx.ofReal f * Cx.ofReal h : Cx Dbl).im = _
    rw [d2]
    exact zero_plus zero_val hY
  have hYs : Y = 0 ∨ Mag 40 |Y| := by
    obtain ⟨⟨Y2, hY2, hn⟩, hs⟩ := hge
    rw [hY] at hY2
    injection hY2 with hY2
    subst hY2
    rcases hn with ⟨-, h2⟩ | ⟨h2, h3⟩
    · exact .inl h2
    · right
      have hs := hs.resolve_left (fun h => by rw [h, zero_mul] at h2; exact lt_irrefl _ h2)
      obtain ⟨h4, h5⟩ := h3.half (by norm_num)
      exact (hs.of_bounds (by linarith [hs.pos]) (by linarith [hs.pos])).mono (by norm_num)
  -- the denominators
  set d : ℂ := ⟨w0 ^ 2 - e ^ 2, g * e⟩ with hd
  have hnorm : ‖(w0 : ℂ) ^ 2 - (e : ℂ) ^ 2 - Complex.I * g * e‖ = ‖d‖ := by
    have : (w0 : ℂ) ^ 2 - (e : ℂ) ^ 2 - Complex.I * g * e = (starRingEnd ℂ) d := by
      apply Complex.ext
      · simp [pow_two, hd]
      · simp [pow_two, hd]
    rw [this, Complex.norm_conj]
  rw [hnorm] at hK
  have hT : 0 < w0 ^ 2 + e ^ 2 := by positivity
  have hd0 : d ≠ 0 := by
    intro h0
    rw [h0, norm_zero, mul_zero] at hK
    linarith
  have hdp : 0 < ‖d‖ := norm_pos_iff.2 hd0
  have hKpos : 0 < K := by
    by_contra hc
    nlinarith
  have hη : ‖(⟨X, Y⟩ : ℂ) - d‖ ≤ (4 * K + 2) / 2 ^ 53 * ‖d‖ := by
    have h1 : ‖(⟨X, Y⟩ : ℂ) - d‖ ≤ |X - (w0 ^ 2 - e ^ 2)| + |Y - g * e| := by
      have := Complex.norm_le_abs_re_add_abs_im ((⟨X, Y⟩ : ℂ) - d)
      simpa [hd] using this
    have h2 : |g * e| ≤ ‖d‖ := by
      have := Complex.abs_im_le_norm d
      simpa [hd] using this
    have h3 : |Y - g * e| ≤ ‖d‖ * 2 / 2 ^ 53 := by
      refine hY'.trans ?_
      have : (((0 + 0 + 1 : ℕ) : ℝ) + 1) = 2 := by norm_num
      rw [this]
      gcongr
    have h4 : (w0 ^ 2 + e ^ 2) * 4 / 2 ^ 53 ≤ K * ‖d‖ * 4 / 2 ^ 53 := by gcongr
    have h5 : (4 * K + 2) / 2 ^ 53 * ‖d‖ = K * ‖d‖ * 4 / 2 ^ 53 + ‖d‖ * 2 / 2 ^ 53 := by ring
    rw [h5]
    linarith
  have hηs : (4 * K + 2) / 2 ^ 53 ≤ 1 / 100 := by
    rw [div_le_div_iff₀ (by positivity) (by positivity)]
    norm_num at hK1 ⊢
    linarith
  set A := S * wp ^ 2 with hAdef
  obtain ⟨q1, q2, q3⟩ := perturbed (A := A) hd0 hη hηs
  obtain ⟨r1, r2⟩ := quotient_parts A X Y
  have hXY : X ≠ 0 ∨ Y ≠ 0 := by
    by_contra hc
    push_neg at hc
    obtain ⟨rfl, rfl⟩ := hc
    exact q3 rfl
  obtain ⟨s1, s2⟩ := smith (k := 40) (m := 0) hA (b := D)
    (by rw [hre]; exact SRel.exact hX hXs) (by rw [him]; exact SRel.exact hY hYs) hXY (by norm_num)
    (by norm_num)
  rw [← r1] at s1
  rw [← r2] at s2
  have hconj := lorentz_conjugate wp S w0 g e
  rw [← hAdef, ← hd] at hconj
  have hq : ‖lorentzEps wp S w0 g e - 1‖ = ‖(A : ℂ) / d‖ := by rw [hconj, Complex.norm_conj]
  have hεr : (lorentzEps wp S w0 g e).re = 1 + ((A : ℂ) / d).re := by
    have := congrArg Complex.re hconj
    rw [Complex.conj_re, Complex.sub_re, Complex.one_re] at this
    linarith
  have hεi : (lorentzEps wp S w0 g e).im = -((A : ℂ) / d).im := by
    have := congrArg Complex.im hconj
    rw [Complex.conj_im, Complex.sub_im, Complex.one_im] at this
    linarith
  set Q := (A : ℂ) / d with hQ
  set P := (A : ℂ) / (⟨X, Y⟩ : ℂ) with hP
  obtain ⟨ρ, t1, t2⟩ := s1.error (by norm_num)
  obtain ⟨ι, t3, t4⟩ := s2.error (by norm_num)
  have hQ0 : 0 ≤ ‖Q‖ := norm_nonneg Q
  have part : ∀ {x y P' Q' : ℝ}, |x - P'| ≤ |P'| * (((0 + 1 + 1 + 5 * 0 + 7 : ℕ) : ℝ) + 1) / 2 ^ 53 →
      |P'| ≤ ‖P‖ → |P' - Q'| ≤ ‖P - Q‖ → |x - Q'| ≤ ‖Q‖ * (13 + 5 * K) / 2 ^ 53 := by
    intro x y P' Q' h1 h2 h3
    have h4 := abs_add_le (x - P') (P' - Q')
    rw [sub_add_sub_cancel] at h4
    have h5 : |P'| * (((0 + 1 + 1 + 5 * 0 + 7 : ℕ) : ℝ) + 1) / 2 ^ 53 ≤
        (102 / 100 * ‖Q‖) * 10 / 2 ^ 53 := by
      have : (((0 + 1 + 1 + 5 * 0 + 7 : ℕ) : ℝ) + 1) = 10 := by norm_num
      rw [this]
      gcongr
      exact h2.trans q2
    have h6 : 102 / 100 * ((4 * K + 2) / 2 ^ 53) * ‖Q‖ + (102 / 100 * ‖Q‖) * 10 / 2 ^ 53 ≤
        ‖Q‖ * (13 + 5 * K) / 2 ^ 53 := by
      have e1 : 102 / 100 * ((4 * K + 2) / 2 ^ 53) * ‖Q‖ + (102 / 100 * ‖Q‖) * 10 / 2 ^ 53 =
        ‖Q‖ * (102 / 100 * (4 * K + 2) + 102 / 100 * 10) / 2 ^ 53 := by ring
      rw [e1]
      refine div_le_div_of_nonneg_right (mul_le_mul_of_nonneg_left ?_ hQ0) (by positivity)
      linarith
    linarith
  have b1 : |ρ - Q.re| ≤ ‖Q‖ * (13 + 5 * K) / 2 ^ 53 := by
    refine part (y := 0) t2 (Complex.abs_re_le_norm P) ?_
    rw [← Complex.sub_re]; exact Complex.abs_re_le_norm _
  have b2 : |ι - Q.im| ≤ ‖Q‖ * (13 + 5 * K) / 2 ^ 53 := by
    refine part (y := 0) t4 (Complex.abs_im_le_norm P) ?_
    rw [← Complex.sub_im]; exact Complex.abs_im_le_norm _
  have hsm : ‖Q‖ * (13 + 5 * K) / 2 ^ 53 ≤ ‖Q‖ := by
    rw [mul_div_assoc]
    refine mul_le_of_le_one_right hQ0 ?_
    rw [div_le_one (by positivity)]
    norm_num at hK1 ⊢
    linarith
  have hρ : |ρ| ≤ 2 * ‖Q‖ := by
    have := abs_add_le (ρ - Q.re) Q.re
    rw [sub_add_cancel] at this
    linarith [Complex.abs_re_le_norm Q]
  have hρs : |ρ| ≤ 10 ^ 200 := by
    have hAs : |A| ≤ 10 ^ 30 := by
      rcases hA.size with h0 | h0
      · rw [h0, abs_zero]; positivity
      · exact h0.high
    have hes : ((10 : ℝ) ^ 20)⁻¹ ≤ e ^ 2 := by
      have h0 := se.mag.resolve_left he
      have := (h0.mul h0).low
      rwa [← pow_two, sq_abs] at this
    have hds : ((10 : ℝ) ^ 20)⁻¹ / 2 ^ 40 ≤ ‖d‖ := by
      rw [div_le_iff₀ (by positivity), mul_comm]
      have := mul_le_mul_of_nonneg_right hK1 hdp.le
      linarith [sq_nonneg w0]
    have hQs : ‖Q‖ ≤ 10 ^ 30 / (((10 : ℝ) ^ 20)⁻¹ / 2 ^ 40) := by
      rw [hQ, norm_div, Complex.norm_real, Real.norm_eq_abs]
      exact div_le_div₀ (by positivity) hAs (by positivity) hds
    have : (2 : ℝ) * (10 ^ 30 / (((10 : ℝ) ^ 20)⁻¹ / 2 ^ 40)) ≤ 10 ^ 200 := by norm_num
    linarith
  obtain ⟨r, t5, t6⟩ := Dbl.add_err (a := lit 1) one_val t1 (by norm_num) hρs
  have hneg := Dbl.neg_val t3
  refine ⟨_, rfl, r, -ι, t5, ?_, ?_, ?_⟩
  · show (lit 0 + -(Cx.ofReal (b * sqF a) / D).im : Dbl).val = _
    rw [zero_plus zero_val hneg, hneg]
  · rw [hεr, hq]
    have h1 := abs_add_le (r - (1 + ρ)) (1 + ρ - (1 + Q.re))
    rw [sub_add_sub_cancel, add_sub_add_left_eq_sub] at h1
    have h2 := abs_add_le 1 ρ
    rw [abs_one] at h2
    have h3 : |1 + ρ| / 2 ^ 53 ≤ (1 + 2 * ‖Q‖) / 2 ^ 53 := by gcongr; linarith
    have h4 : (1 + 2 * ‖Q‖) / 2 ^ 53 + ‖Q‖ * (13 + 5 * K) / 2 ^ 53 ≤
        (1 + ‖Q‖ * (16 + 5 * K)) / 2 ^ 53 := by
      rw [← add_div]
      refine div_le_div_of_nonneg_right ?_ (by positivity)
      linarith
    linarith
  · rw [hεi, hq, ← neg_sub_neg, neg_neg, neg_neg, abs_sub_comm]
    refine b2.trans (div_le_div_of_nonneg_right ?_ (by positivity))
    linarith

/-! ## Materials -/

section materials

variable [SciPy Dbl]

/-- Each permittivity that a material with a permittivity model reports is the one computed at an
energy that differs from the requested one by no more than the error of the conversion. -/
theorem eps_get {m : Material Dbl} {d : CplxData Dbl} (hm : m.name = "eps") (hd : m.cplx = some d)
    (hte : lower d.stype = "energy") (hue : (lower d.stype, d.unit, "ev") ∈ names) {t u c : String}
    (hc : (lower t, lower u, c) ∈ names) {raw : Raw Dbl} {xs : List ℝ}
    (ha : AsksFor (lower t) c "energy" raw xs) {s : Spectrum Dbl}
    (hs : Spectrum.new raw t u = .ok s) {v : CVals Dbl} (hv : (m.getPermittivity s).1 = .ok v)
    {i : ℕ} {x : ℝ} (hx : xs[i]? = some x) :
    ∃ y e z, v.toList[i]? = some z ∧ d.kind.at d.params y = .ok z ∧ y.val = .fin e ∧
      |e - counterpart (lower t) c "energy" "ev" x| ≤
        slack (some 9) (counterpart (lower t) c "energy" "ev" x) := by
  rw [getPermittivity_eq m s (.inr hm)] at hv
  have hst : (m.evalStored s).1 = d.evaluate s := by
    unfold Material.evalStored; rw [hd]
  rw [hst] at hv
  cases hz : d.evaluate s with
  | error e => rw [hz] at hv; cases hv
  | ok zs =>
    rw [hz] at hv
    simp only [Except.map] at hv
    rw [if_neg (by rw [hm]; decide)] at hv
    cases hv
    obtain ⟨ov, rs, h1, h2, h3⟩ := asked_converted hc hue (by rw [hte]; decide)
      (by rw [hte]; exact ha) hs
    obtain ⟨r, hr, h4⟩ := forall₂_get h3 hx
    obtain ⟨y, hy, hyr⟩ : ∃ z, ov.toList[i]? = some z ∧ z.val = .fin r := by
      have := congrArg (·[i]?) h2
      simp only [List.getElem?_map, hr, Option.map_some] at this
      cases hz : ov.toList[i]? with
      | none => rw [hz] at this; cases this
      | some z => rw [hz] at this; exact ⟨z, rfl, by simpa using this⟩
    rw [hte] at h4
    have hdec : decimals "energy" "ev" = some 9 := by simp [decimals]
    rw [hdec] at h4
    unfold CplxData.evaluate at hz
    obtain ⟨_, -, hz⟩ := except_bind_ok hz
    obtain ⟨ws, hw, hz⟩ := except_bind_ok hz
    rw [h1] at hw
    cases hw
    cases ov with
    | scalar a =>
      obtain ⟨z, g1, hz⟩ := except_bind_ok hz
      have : i = 0 ∧ a = y := by
        cases i with
        | zero => simpa [Vals.toList] using hy
        | succ n => simp [Vals.toList] at hy
      obtain ⟨rfl, rfl⟩ := this
      split at hz
      · cases hz
      · cases hz
        exact ⟨a, r, z, rfl, g1, hyr, h4⟩
    | array dt es =>
      obtain ⟨ys, g1, hz⟩ := except_bind_ok hz
      cases hz
      obtain ⟨-, g2⟩ := mapM_getElem _ _ _ g1
      obtain ⟨z, g3, g4⟩ := g2 i y hy
      exact ⟨y, r, z, g4, g3, hyr, h4⟩

omit [SciPy Dbl] in
theorem energy_sized {X e : ℝ} (h1 : 1 / 10 ^ 6 ≤ X) (h2 : X ≤ 10 ^ 9)
    (h : |e - X| ≤ slack (some 9) X) : Sized e ∧ 0 < e := by
  have h3 : slack (some 9) X ≤ X / 2 := by
    unfold slack
    have : ((1 : ℝ) / 2 + 1 / 2 ^ 50) / 10 ^ 9 ≤ 1 / 10 ^ 6 / 4 := by norm_num
    have h4 : X / 2 ^ 49 ≤ X / 4 :=
      div_le_div_of_nonneg_left (le_trans (by norm_num) h1) (by norm_num) (by norm_num)
    simp only
    linarith
  have h4 := abs_le.1 (h.trans h3)
  have h5 : 0 < e := by
    have : (0 : ℝ) < 1 / 10 ^ 6 := by norm_num
    linarith
  refine ⟨.inr ?_, h5⟩
  rw [abs_of_pos h5]
  norm_num at h1 h2 ⊢
  constructor <;> linarith

/-- C124, materials with a Drude model: whatever the type and unit of the request, every reported
permittivity is the Drude permittivity, up to the stated errors, at an energy within the error of
the conversion of the requested one. -/
theorem C124_drude_material {m : Material Dbl} {d : CplxData Dbl} (hm : m.name = "eps")
    (hd : m.cplx = some d) (hte : lower d.stype = "energy")
    (hue : (lower d.stype, d.unit, "ev") ∈ names) (hk : d.kind = .drude) {a b : Dbl} {wp g : ℝ}
    (hp : d.params = [a, b]) (hwp : a.val = .fin wp) (hg : b.val = .fin g) (swp : Sized wp)
    (sg : Sized g) {t u c : String} (hc : (lower t, lower u, c) ∈ names) {raw : Raw Dbl}
    {xs : List ℝ} (ha : AsksFor (lower t) c "energy" raw xs) {s : Spectrum Dbl}
    (hs : Spectrum.new raw t u = .ok s) {v : CVals Dbl} (hv : (m.getPermittivity s).1 = .ok v)
    {i : ℕ} {x X : ℝ} (hx : xs[i]? = some x) (hX : counterpart (lower t) c "energy" "ev" x = X)
    (hlo : 1 / 10 ^ 6 ≤ X) (hhi : X ≤ 10 ^ 9) :
    ∃ e z r j, |e - X| ≤ slack (some 9) X ∧ v.toList[i]? = some z ∧ z.re.val = .fin r ∧
      z.im.val = .fin j ∧
      |r - (drudeEps wp g e).re| ≤ (1 + |(drudeEps wp g e).re - 1|) * 16 / 2 ^ 53 ∧
      |j - (drudeEps wp g e).im| ≤ |(drudeEps wp g e).im| * 14 / 2 ^ 53 := by
  obtain ⟨y, e, z, h1, h2, h3, h4⟩ := eps_get hm hd hte hue hc ha hs hv hx
  rw [hX] at h4
  obtain ⟨se, he⟩ := energy_sized hlo hhi h4
  obtain ⟨z', r, j, g1, g2, g3, g4, g5⟩ := C124_drude (rest := []) rfl hwp hg h3 swp sg se he
  rw [hk, hp, g1] at h2
  cases h2
  exact ⟨e, z, r, j, h4, h1, g2, g3, g4, g5⟩

/-- C124, materials with a Drude-Lorentz model. -/
theorem C124_lorentz_material {m : Material Dbl} {d : CplxData Dbl} (hm : m.name = "eps")
    (hd : m.cplx = some d) (hte : lower d.stype = "energy")
    (hue : (lower d.stype, d.unit, "ev") ∈ names) (hk : d.kind = .drudeLorentz)
    {p : Fin 4 → Dbl} {wp S w0 g : ℝ} (hp : d.params = [p 0, p 1, p 2, p 3])
    (h0 : (p 0).val = .fin wp) (h1 : (p 1).val = .fin S) (h2 : (p 2).val = .fin w0)
    (h3 : (p 3).val = .fin g) (swp : Sized wp) (sS : Sized S) (sw : Sized w0) (sg : Sized g)
    {t u c : String} (hc : (lower t, lower u, c) ∈ names) {raw : Raw Dbl}
    {xs : List ℝ} (ha : AsksFor (lower t) c "energy" raw xs) {s : Spectrum Dbl}
    (hs : Spectrum.new raw t u = .ok s) {v : CVals Dbl} (hv : (m.getPermittivity s).1 = .ok v)
    {i : ℕ} {x X : ℝ} (hx : xs[i]? = some x) (hX : counterpart (lower t) c "energy" "ev" x = X)
    (hlo : 1 / 10 ^ 6 ≤ X) (hhi : X ≤ 10 ^ 9) :
    ∃ e z, |e - X| ≤ slack (some 9) X ∧ v.toList[i]? = some z ∧
      ∀ K, w0 ^ 2 + e ^ 2 ≤ K * ‖(w0 : ℂ) ^ 2 - (e : ℂ) ^ 2 - Complex.I * g * e‖ → K ≤ 2 ^ 40 →
        CloseBy ((1 + ‖lorentzEps wp S w0 g e - 1‖ * (16 + 5 * K)) / 2 ^ 53)
          (lorentzEps wp S w0 g e) z := by
  obtain ⟨y, e, z, g1, g2, g3, g4⟩ := eps_get hm hd hte hue hc ha hs hv hx
  rw [hX] at g4
  obtain ⟨se, he⟩ := energy_sized hlo hhi g4
  refine ⟨e, z, g4, g1, ?_⟩
  intro K hK hK1
  obtain ⟨z', a1, a2⟩ := C124_lorentz (rest := []) rfl h0 h1 h2 h3 g3 swp sS sw sg se he.ne' hK hK1
  rw [hk, hp, a1] at g2
  cases g2
  exact a2

end materials

/-! ## A concrete case -/

/-- Sodium-like: plasma energy 6 eV, width 1/8 eV, asked for 2 eV: the permittivity is
`1 - 36/(4 + i/4)`. -/
example : ∃ z r j, EpsFormula.drude.at [intDbl 6, intDbl 1 / intDbl 8] (intDbl 2) = .ok z ∧
    z.re.val = .fin r ∧ z.im.val = .fin j ∧ |r - (1 - 2304 / 257)| ≤ 1 / 10 ^ 13 ∧
      |j - 144 / 257| ≤ 1 / 10 ^ 14 := by
  have h8 : (intDbl 1 / intDbl 8 : Dbl).val = .fin (1 / 8) := by
    rw [Dbl.val_div, intDbl_val (by norm_num), intDbl_val (by norm_num)]
    have : XR.fin ((1 : ℤ) : ℝ) / XR.fin ((8 : ℤ) : ℝ) = .fin (1 / 8) := by
      rw [XR.div_fin_of_ne _ (show ((8 : ℤ) : ℝ) ≠ 0 by norm_num)]; norm_num
    rw [this]
    refine Dbl.rnd_double ⟨1, -3, by norm_num, by norm_num, by norm_num, ?_⟩
    norm_num
  obtain ⟨z, r, j, h1, h2, h3, h4, h5⟩ := C124_drude (rest := []) rfl
    (intDbl_val (n := 6) (by norm_num)) h8 (intDbl_val (n := 2) (by norm_num))
    (.inr (by norm_num)) (.inr (by norm_num)) (.inr (by norm_num)) (by norm_num)
  refine ⟨z, r, j, h1, h2, h3, ?_, ?_⟩
  · obtain ⟨p1, -⟩ := drude_components (wp := ((6 : ℤ) : ℝ)) (g := 1 / 8) (e := ((2 : ℤ) : ℝ)) (by norm_num)
    rw [p1] at h4
    norm_num at h4 ⊢
    exact h4.trans (by norm_num)
  · obtain ⟨-, p1⟩ := drude_components (wp := ((6 : ℤ) : ℝ)) (g := 1 / 8) (e := ((2 : ℤ) : ℝ)) (by norm_num)
    rw [p1] at h5
    norm_num at h5 ⊢
    exact h5.trans (by norm_num)

/-- An oscillator at 3 eV of width 1 eV, asked for 2 eV: here `K = 3` will do. -/
example : ∃ z, EpsFormula.drudeLorentz.at [intDbl 6, intDbl 1, intDbl 3, intDbl 1] (intDbl 2) =
    .ok z ∧ CloseBy (1 / 10 ^ 13) (lorentzEps 6 1 3 1 2) z := by
  have hn : (3 : ℝ) ^ 2 + 2 ^ 2 ≤ 3 * ‖((3 : ℝ) : ℂ) ^ 2 - ((2 : ℝ) : ℂ) ^ 2 -
      Complex.I * ((1 : ℝ) : ℂ) * ((2 : ℝ) : ℂ)‖ := by
    have h := Complex.abs_re_le_norm (((3 : ℝ) : ℂ) ^ 2 - ((2 : ℝ) : ℂ) ^ 2 -
      Complex.I * ((1 : ℝ) : ℂ) * ((2 : ℝ) : ℂ))
    have h2 : (((3 : ℝ) : ℂ) ^ 2 - ((2 : ℝ) : ℂ) ^ 2 -
      Complex.I * ((1 : ℝ) : ℂ) * ((2 : ℝ) : ℂ)).re = 5 := by
      simp [pow_two]; norm_num
    rw [h2, abs_of_pos (by norm_num)] at h
    linarith
  have hl : ‖lorentzEps 6 1 3 1 2 - 1‖ ≤ 9 := by
    unfold lorentzEps
    rw [add_sub_cancel_left, norm_div]
    rw [div_le_iff₀ (by linarith)]
    simp only [Complex.ofReal_one, one_mul, norm_pow, Complex.norm_real]
    simp only [Complex.ofReal_one] at hn
    norm_num at hn ⊢
    linarith
  obtain ⟨z, h1, r, j, h2, h3, h4, h5⟩ := C124_lorentz (rest := []) (K := 3) rfl
    (intDbl_val (n := 6) (by norm_num)) (intDbl_val (n := 1) (by norm_num))
    (intDbl_val (n := 3) (by norm_num)) (intDbl_val (n := 1) (by norm_num))
    (intDbl_val (n := 2) (by norm_num))
    (.inr (by norm_num)) (.inr (by norm_num)) (.inr (by norm_num)) (.inr (by norm_num))
    (.inr (by norm_num)) (by norm_num) (by push_cast at hn ⊢; exact hn) (by norm_num)
  have hb : (1 + ‖lorentzEps 6 1 3 1 2 - 1‖ * (16 + 5 * 3)) / 2 ^ 53 ≤ 1 / 10 ^ 13 := by
    rw [div_le_iff₀ (by positivity)]
    norm_num
    linarith
  push_cast at h4 h5
  exact ⟨z, h1, r, j, h2, h3, h4.trans hb, h5.trans hb⟩

/-- A metal with a plasma energy of 6 eV and a width of 1 eV. -/
def metalKw : ModelKw Dbl where
  name := some "Drude"
  params := some [intDbl 6, intDbl 1]
  validRange := some (.list .float [lit 0, PyFloat.inf])
  stype := some "energy"
  unit := some "ev"

theorem visible_metres : metres "wavelength" "nm" 620 = 620 * (1 / 10 ^ 9) := by
  simp [metres, lengthUnit]

theorem visible_energy : 1.999 ≤ counterpart "wavelength" "nm" "energy" "ev" 620 ∧
    counterpart "wavelength" "nm" "energy" "ev" 620 ≤ 2.005 := by
  unfold counterpart
  have e2 : ∀ L, ofMetres "energy" "ev" L = h * c / (e * L) := by
    intro L
    simp [ofMetres]
  rw [visible_metres, e2]
  unfold Spec.h Spec.c Spec.e
  norm_num

theorem visible_request :
    AsksFor (lower "Wavelength") "nm" "energy" (.list .float [intDbl 620]) [620] := by
  rw [show lower "Wavelength" = "wavelength" by decide +kernel]
  refine .list ?_ ?_ ?_
  · simp only [List.map_cons, List.map_nil]
    rw [intDbl_val (by norm_num)]
    norm_num
  · intro x hx
    rw [List.mem_singleton.1 hx]
    exact ⟨by norm_num, by norm_num⟩
  · intro x hx
    rw [List.mem_singleton.1 hx]
    refine ⟨fun h => absurd rfl h, fun _ _ => ?_, fun h => absurd h (by decide)⟩
    rw [visible_metres]
    norm_num

theorem visible_slack : slack (some 9) (counterpart "wavelength" "nm" "energy" "ev" 620) ≤
    1 / 10000 := by
  have h := visible_energy.2
  generalize counterpart "wavelength" "nm" "energy" "ev" 620 = X at h
  unfold slack
  simp only
  norm_num at h ⊢
  linarith

/-- Beside `C124_drude_material`: the metal asked for the light of 620 nm. -/
theorem metal_case [SciPy Dbl] [NumText Dbl] (rd : String → Res (FileDict Dbl)) :
    ∃ (m : Material Dbl) (s : Spectrum Dbl) (v : CVals Dbl),
      Material.new rd [("model_kw", .dict metalKw)] = .ok m ∧
      Spectrum.new (.list .float [intDbl 620]) "Wavelength" "nm" = .ok s ∧
      (m.getPermittivity s).1 = .ok v ∧ ∃ e z r j, |e - 2| ≤ 1 / 100 ∧ v.toList = [z] ∧
      z.re.val = .fin r ∧ z.im.val = .fin j ∧
      |r - (drudeEps 6 1 e).re| ≤ (1 + |(drudeEps 6 1 e).re - 1|) * 16 / 2 ^ 53 ∧
      |j - (drudeEps 6 1 e).im| ≤ |(drudeEps 6 1 e).im| * 14 / 2 ^ 53 := by
  have hs : ("model_kw", DocType.model) ∈ sources := by decide
  obtain ⟨h1, h2⟩ := only_single (F := Dbl) hs (v := .dict metalKw) (by simp)
  have hint : ∀ n : ℤ, 0 ≤ n → NotNegative (intDbl n) := fun n hn =>
    notNegative_iff.2 (rnd_nn (show (0 : ℝ) ≤ n by exact_mod_cast hn))
  obtain ⟨m, hm, hall⟩ := C123_answers rd [("model_kw", .dict metalKw)] h1
    (plain_single (by decide) (by decide)) _ h2 "Drude" rfl .drude (by decide) (by decide) _ rfl
    (.drude (hint _ (by norm_num))) rfl "energy" "ev" rfl rfl (by decide +kernel) (by decide)
  have hn : ("wavelength", "nm", "nm") ∈ names := by decide
  obtain ⟨s, g1, g2⟩ : ∃ s, Spectrum.new (.list .float [intDbl 620]) "Wavelength" "nm" = .ok s ∧
      s.values = .array .float [intDbl 620] := by
    rw [Spectrum.new_eq, show lower "Wavelength" = "wavelength" by decide +kernel,
      show lower "nm" = "nm" by decide +kernel, specLookup_ok_iff.2 hn]
    simp only [Raw.check, bind, Except.bind]
    rw [convertFrom_array (names_pairs _ hn)]
    exact ⟨_, rfl, rfl⟩
  obtain ⟨v, w, a1, -, a3, -⟩ := hall s _ ⟨_, _, _, g1⟩ g2 (by simp) (by
    intro x hx
    simp only [List.mem_cons, List.not_mem_nil, or_false] at hx
    subst hx
    exact hint _ (by norm_num))
  obtain ⟨-, hg⟩ := C24_model_partial rd [("model_kw", .dict metalKw)] h1
    (plain_single (by decide) (by decide)) _ h2 "Drude" rfl _ rfl _ rfl rfl "energy" "ev" rfl rfl
  obtain ⟨hg, -⟩ := hg (by decide)
  obtain ⟨k, md, b1, b2, b3⟩ := hg ⟨by decide +kernel, by decide +kernel⟩
  rw [show classRef "Drude" = .cplx .drude by decide] at b2
  cases b2
  rw [hm] at b3
  cases b3
  unfold CplxData.new at b1
  obtain ⟨r, -, b1⟩ := except_bind_ok b1
  obtain ⟨_, -, b1⟩ := except_bind_ok b1
  cases b1
  clear hg h2 h1 hs hn hall
  obtain ⟨e, z, r, j, c1, c2, c3, c4, c5, c6⟩ := C124_drude_material rfl rfl
    (show lower "energy" = "energy" by decide +kernel)
    (show (lower "energy", "ev", "ev") ∈ names by decide +kernel) rfl rfl
    (intDbl_val (n := 6) (by norm_num)) (intDbl_val (n := 1) (by norm_num)) (.inr (by norm_num))
    (.inr (by norm_num)) (t := "Wavelength") (u := "nm") (c := "nm") (by decide +kernel)
    visible_request g1 a1 (i := 0) (x := 620) rfl
    (by rw [show lower "Wavelength" = "wavelength" by decide +kernel])
    (le_trans (by norm_num) visible_energy.1) (visible_energy.2.trans (by norm_num))
  refine ⟨_, s, v, hm, g1, a1, e, z, r, j, ?_, ?_, c3, c4, ?_, ?_⟩
  · obtain ⟨c7, c8⟩ := abs_le.1 (c1.trans visible_slack)
    have h1 := visible_energy.1
    have h2 := visible_energy.2
    generalize counterpart "wavelength" "nm" "energy" "ev" 620 = X at h1 h2 c7 c8
    rw [abs_le]
    norm_num at h1 h2 c7 c8 ⊢
    constructor <;> linarith
  · obtain ⟨z', hz'⟩ := List.length_eq_one_iff.1 (show v.toList.length = 1 from a3)
    rw [hz'] at c2 ⊢
    cases c2
    rfl
  · simpa using c5
  · simpa using c6

end
end Disp

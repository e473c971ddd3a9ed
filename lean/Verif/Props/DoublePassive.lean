import Verif.Lemmas.PrintRounding
import Verif.Props.Permittivity
import Verif.Props.TextFiles
import Verif.Props.TableAccuracy
import Verif.Props.DoublePermittivity
import Verif.Props.ModelRange
import Verif.Props.TextDriftCase
/-!
# Passive models in double precision

The imaginary parts of the permittivity models, computed with rounding, overflow and NaN. The
signs of all intermediate results are followed through the arithmetic.
-/

namespace Disp

noncomputable section

/-! ## Signs of extended reals -/

namespace XR

/-- Not below zero: NaN and `inf` are allowed. -/
def NN : XR → Prop
  | fin x => 0 ≤ x
  | ninf => False
  | _ => True

/-- Not above zero. -/
def NP : XR → Prop
  | fin x => x ≤ 0
  | pinf => False
  | _ => True

/-- Zero or NaN. -/
def ZN : XR → Prop
  | fin x => x = 0
  | nan => True
  | _ => False

/-- Below zero or NaN. -/
def SN : XR → Prop
  | fin x => x < 0
  | pinf => False
  | _ => True

theorem ZN.nn {x : XR} (h : ZN x) : NN x := by cases x <;> simp_all [ZN, NN]
theorem ZN.np {x : XR} (h : ZN x) : NP x := by cases x <;> simp_all [ZN, NP]
theorem SN.np {x : XR} (h : SN x) : NP x := by
  cases x <;> simp_all [SN, NP]; exact h.le

theorem signInf_nn {x : ℝ} (h : 0 ≤ x) : NN (signInf x) := by
  unfold signInf; split_ifs <;> first | trivial | linarith
theorem signInf_np {x : ℝ} (h : x ≤ 0) : NP (signInf x) := by
  unfold signInf; split_ifs <;> first | trivial | linarith

theorem nn_or_sn (x : XR) : NN x ∨ SN x := by
  cases x with
  | fin x => exact le_or_gt 0 x
  | _ => simp [NN, SN]

theorem NN.neg {x : XR} (h : NN x) : NP (-x) := by
  cases x <;> first | exact neg_nonpos.2 h | exact h.elim | trivial
theorem NP.neg {x : XR} (h : NP x) : NN (-x) := by
  cases x <;> first | exact neg_nonneg.2 h | exact h.elim | trivial
theorem ZN.neg {x : XR} (h : ZN x) : ZN (-x) := by
  cases x <;> first | exact neg_eq_zero.2 h | exact h.elim | trivial

theorem NN.add {x y : XR} (hx : NN x) (hy : NN y) : NN (x + y) := by
  cases x <;> cases y <;> first | exact add_nonneg hx hy | exact hx.elim | exact hy.elim | trivial | exact hx | exact hy
theorem NP.add {x y : XR} (hx : NP x) (hy : NP y) : NP (x + y) := by
  cases x <;> cases y <;> first | exact add_nonpos hx hy | exact hx.elim | exact hy.elim | trivial | exact hx | exact hy
theorem ZN.add {x y : XR} (hx : ZN x) (hy : ZN y) : ZN (x + y) := by
  cases x <;> cases y <;> first | exact add_eq_zero_iff_of_nonneg (le_of_eq hx.symm) (le_of_eq hy.symm) |>.2 ⟨hx, hy⟩ | exact hx.elim | exact hy.elim | trivial
theorem sub_eq (x y : XR) : x - y = x + (-y) := rfl
theorem NN.sub {x y : XR} (hx : NN x) (hy : NP y) : NN (x - y) := hx.add hy.neg
theorem NP.sub {x y : XR} (hx : NP x) (hy : NN y) : NP (x - y) := hx.add hy.neg
theorem ZN.sub {x y : XR} (hx : ZN x) (hy : ZN y) : ZN (x - y) := hx.add hy.neg

theorem NN.mul {x y : XR} (hx : NN x) (hy : NN y) : NN (x * y) := by
  cases x <;> cases y <;> first | exact mul_nonneg hx hy | exact hx.elim | exact hy.elim | trivial | exact signInf_nn hx | exact signInf_nn hy
theorem NP.mul {x y : XR} (hx : NP x) (hy : NN y) : NP (x * y) := by
  cases x <;> cases y <;> first | exact mul_nonpos_of_nonpos_of_nonneg hx hy | exact hx.elim | exact hy.elim | trivial | exact signInf_np hx | exact signInf_np (neg_nonpos.2 hy)
theorem NN.mul_np {x y : XR} (hx : NN x) (hy : NP y) : NP (x * y) := by
  cases x <;> cases y <;> first | exact mul_nonpos_of_nonneg_of_nonpos hx hy | exact hx.elim | exact hy.elim | trivial | exact signInf_np hy | exact signInf_np (neg_nonpos.2 hx)
theorem NP.mul_np {x y : XR} (hx : NP x) (hy : NP y) : NN (x * y) := by
  cases x <;> cases y <;> first | exact mul_nonneg_of_nonpos_of_nonpos hx hy | exact hx.elim | exact hy.elim | trivial | exact signInf_nn (neg_nonneg.2 hx) | exact signInf_nn (neg_nonneg.2 hy)

theorem signInf_zero : signInf 0 = nan := by simp [signInf]

theorem ZN.mul {x : XR} (hx : ZN x) (y : XR) : ZN (x * y) := by
  cases x with
  | fin x =>
    cases hx
    cases y with
    | fin y => exact zero_mul y
    | pinf => show ZN (signInf 0); rw [signInf_zero]; trivial
    | ninf => show ZN (signInf (-0)); rw [neg_zero, signInf_zero]; trivial
    | nan => trivial
  | nan => trivial
  | _ => exact hx.elim

theorem ZN.mul_left {x : XR} (hx : ZN x) (y : XR) : ZN (y * x) := by
  cases x with
  | fin x =>
    cases hx
    cases y with
    | fin y => exact mul_zero y
    | pinf => show ZN (signInf 0); rw [signInf_zero]; trivial
    | ninf => show ZN (signInf (-0)); rw [neg_zero, signInf_zero]; trivial
    | nan => trivial
  | nan => cases y <;> trivial
  | _ => exact hx.elim

theorem NN.div {x y : XR} (hx : NN x) (hy : NN y) : NN (x / y) := by
  cases x with
  | fin x =>
    cases y with
    | fin y =>
      show NN (if y = 0 then signInf x else fin (x / y))
      split_ifs
      · exact signInf_nn hx
      · exact div_nonneg hx hy
    | ninf => exact hy.elim
    | pinf => exact le_refl (0 : ℝ)
    | nan => trivial
  | pinf =>
    cases y with
    | fin y =>
      show NN (if y < 0 then ninf else pinf)
      rw [if_neg (not_lt.2 hy)]; trivial
    | ninf => exact hy.elim
    | _ => trivial
  | ninf => exact hx.elim
  | nan => cases y <;> trivial

theorem NP.div {x y : XR} (hx : NP x) (hy : NN y) : NP (x / y) := by
  cases x with
  | fin x =>
    cases y with
    | fin y =>
      show NP (if y = 0 then signInf x else fin (x / y))
      split_ifs
      · exact signInf_np hx
      · exact div_nonpos_of_nonpos_of_nonneg hx hy
    | ninf => exact hy.elim
    | pinf => exact le_refl (0 : ℝ)
    | nan => trivial
  | ninf =>
    cases y with
    | fin y =>
      show NP (if y < 0 then pinf else ninf)
      rw [if_neg (not_lt.2 hy)]; trivial
    | ninf => exact hy.elim
    | _ => trivial
  | pinf => exact hx.elim
  | nan => cases y <;> trivial

theorem NN.div_sn {x y : XR} (hx : NN x) (hy : SN y) : NP (x / y) := by
  cases x with
  | fin x =>
    cases y with
    | fin y =>
      show NP (if y = 0 then signInf x else fin (x / y))
      rw [if_neg (ne_of_lt hy)]
      exact div_nonpos_of_nonneg_of_nonpos hx (le_of_lt hy)
    | pinf => exact hy.elim
    | ninf => exact le_refl (0 : ℝ)
    | nan => trivial
  | pinf =>
    cases y with
    | fin y =>
      show NP (if y < 0 then ninf else pinf)
      rw [if_pos (show y < 0 from hy)]; trivial
    | pinf => exact hy.elim
    | _ => trivial
  | ninf => exact hx.elim
  | nan => cases y <;> trivial

end XR

open XR

theorem nearest_nn {x : ℝ} (h : 0 ≤ x) : 0 ≤ nearest x := by
  unfold nearest
  refine mul_nonneg ?_ (two_zpow_pos _).le
  have h1 := XR.rint_mono (show ((0 : ℤ) : ℝ) ≤ x / 2 ^ ulpExp x by
    push_cast; exact div_nonneg h (two_zpow_pos _).le)
  rw [XR.rint_int] at h1
  exact_mod_cast h1

theorem nearest_np {x : ℝ} (h : x ≤ 0) : nearest x ≤ 0 := by
  have := nearest_nn (neg_nonneg.2 h)
  rw [nearest_neg] at this
  linarith

/-- A number beyond the smallest double does not round to zero. -/
theorem nearest_pos {x : ℝ} (h : (2 : ℝ) ^ (-1074 : ℤ) ≤ x) : 0 < nearest x := by
  have hx : 0 < x := lt_of_lt_of_le (two_zpow_pos _) h
  have h1 : (2 : ℝ) ^ ulpExp x ≤ x := by
    unfold ulpExp
    rw [abs_of_pos hx]
    rcases le_total (Int.log 2 x - 52) (-1074) with h2 | h2
    · rw [max_eq_right h2]; exact h
    · rw [max_eq_left h2]
      have h3 := Int.zpow_log_le_self (b := 2) (by norm_num) hx
      refine le_trans (zpow_le_zpow_right₀ (n := Int.log 2 x) (by norm_num) (by omega)) ?_
      exact_mod_cast h3
  unfold nearest
  refine mul_pos ?_ (two_zpow_pos _)
  have h2 := XR.rint_mono (show ((1 : ℤ) : ℝ) ≤ x / 2 ^ ulpExp x by
    push_cast; rw [le_div_iff₀ (two_zpow_pos _), one_mul]; exact h1)
  rw [XR.rint_int] at h2
  have : (1 : ℝ) ≤ (XR.rint (x / 2 ^ ulpExp x) : ℝ) := by exact_mod_cast h2
  linarith

theorem double_size {x : ℝ} (h : IsDouble x) (hx : x < 0) : (2 : ℝ) ^ (-1074 : ℤ) ≤ -x := by
  obtain ⟨m, e, -, he, -, rfl⟩ := h
  have hp := two_zpow_pos e
  have hm : m < 0 := by
    by_contra hm
    have : (0 : ℝ) ≤ m := by exact_mod_cast not_lt.1 hm
    nlinarith [mul_nonneg this hp.le]
  have hm' : (m : ℝ) ≤ -1 := by exact_mod_cast (by omega : m ≤ -1)
  have : (2 : ℝ) ^ (-1074 : ℤ) ≤ 2 ^ e := zpow_le_zpow_right₀ (by norm_num) he
  nlinarith

namespace Dbl

theorem rnd_above {x : ℝ} (h : ¬ |nearest x| < 2 ^ 1024) (hx : 0 < x) :
    (rnd (.fin x)).val = .pinf := by
  have e : rnd (.fin x) = ⟨.pinf, trivial⟩ := (dif_neg h).trans (if_pos hx)
  rw [e]; rfl

theorem rnd_below {x : ℝ} (h : ¬ |nearest x| < 2 ^ 1024) (hx : ¬ 0 < x) :
    (rnd (.fin x)).val = .ninf := by
  have e : rnd (.fin x) = ⟨.ninf, trivial⟩ := (dif_neg h).trans (if_neg hx)
  rw [e]; rfl

theorem rnd_nn {x : XR} (h : NN x) : NN (rnd x).val := by
  cases x with
  | fin x =>
    by_cases hb : |nearest x| < 2 ^ 1024
    · rw [rnd_fin hb]; exact nearest_nn h
    · rcases lt_or_eq_of_le (show 0 ≤ x from h) with h | h
      · rw [rnd_above hb h]; trivial
      · rw [← h, nearest_zero, abs_zero] at hb
        exact absurd (by positivity) hb
  | ninf => exact h.elim
  | _ => trivial

theorem rnd_np {x : XR} (h : NP x) : NP (rnd x).val := by
  cases x with
  | fin x =>
    by_cases hb : |nearest x| < 2 ^ 1024
    · rw [rnd_fin hb]; exact nearest_np h
    · rw [rnd_below hb (not_lt.2 h)]; trivial
  | pinf => exact h.elim
  | _ => trivial

theorem rnd_zn {x : XR} (h : ZN x) : ZN (rnd x).val := by
  cases x with
  | fin x =>
    cases h
    rw [rnd_fin (by rw [nearest_zero, abs_zero]; positivity)]; exact nearest_zero
  | nan => trivial
  | _ => exact h.elim

/-- Adding something that is not positive to a negative double leaves it negative. -/
theorem add_sn {a b : Dbl} (ha : SN a.val) (hb : NP b.val) : SN (a + b).val := by
  show SN (rnd (a.val + b.val)).val
  obtain ⟨a, hd⟩ := a
  obtain ⟨b, _⟩ := b
  replace ha : SN a := ha
  replace hb : NP b := hb
  show SN (rnd (a + b)).val
  cases a with
  | fin x =>
    cases b with
    | fin y =>
      change x < 0 at ha
      change y ≤ 0 at hb
      show SN (rnd (.fin (x + y))).val
      by_cases h : |nearest (x + y)| < 2 ^ 1024
      · rw [rnd_fin h]
        have h1 := double_size hd ha
        have h2 := nearest_pos (x := -(x + y)) (by linarith)
        rw [nearest_neg] at h2
        show nearest (x + y) < 0
        linarith
      · rw [rnd_below h (by linarith)]; trivial
    | pinf => exact hb.elim
    | _ => trivial
  | pinf => exact ha.elim
  | ninf => cases b <;> first | exact hb.elim | trivial
  | nan => cases b <;> trivial

theorem nn_add {a b : Dbl} (ha : NN a.val) (hb : NN b.val) : NN (a + b).val := rnd_nn (ha.add hb)
theorem nn_sub {a b : Dbl} (ha : NN a.val) (hb : NP b.val) : NN (a - b).val := rnd_nn (ha.sub hb)
theorem np_sub {a b : Dbl} (ha : NP a.val) (hb : NN b.val) : NP (a - b).val := rnd_np (ha.sub hb)
theorem zn_add {a b : Dbl} (ha : ZN a.val) (hb : ZN b.val) : ZN (a + b).val := rnd_zn (ha.add hb)
theorem zn_sub {a b : Dbl} (ha : ZN a.val) (hb : ZN b.val) : ZN (a - b).val := rnd_zn (ha.sub hb)
theorem nn_mul {a b : Dbl} (ha : NN a.val) (hb : NN b.val) : NN (a * b).val := rnd_nn (ha.mul hb)
theorem np_mul {a b : Dbl} (ha : NP a.val) (hb : NN b.val) : NP (a * b).val := rnd_np (ha.mul hb)
theorem nn_mul_np {a b : Dbl} (ha : NN a.val) (hb : NP b.val) : NP (a * b).val :=
  rnd_np (ha.mul_np hb)
theorem np_mul_np {a b : Dbl} (ha : NP a.val) (hb : NP b.val) : NN (a * b).val :=
  rnd_nn (ha.mul_np hb)
theorem zn_mul {a : Dbl} (ha : ZN a.val) (b : Dbl) : ZN (a * b).val := rnd_zn (ha.mul _)
theorem zn_mul_left {a : Dbl} (ha : ZN a.val) (b : Dbl) : ZN (b * a).val := rnd_zn (ha.mul_left _)
theorem nn_div {a b : Dbl} (ha : NN a.val) (hb : NN b.val) : NN (a / b).val := rnd_nn (ha.div hb)
theorem np_div {a b : Dbl} (ha : NP a.val) (hb : NN b.val) : NP (a / b).val := rnd_np (ha.div hb)
theorem nn_div_sn {a b : Dbl} (ha : NN a.val) (hb : SN b.val) : NP (a / b).val :=
  rnd_np (ha.div_sn hb)
theorem np_neg {a : Dbl} (ha : NN a.val) : NP (-a).val := rnd_np ha.neg
theorem nn_neg {a : Dbl} (ha : NP a.val) : NN (-a).val := rnd_nn ha.neg
theorem nn_lit {q : ℚ} (h : 0 ≤ q) : NN (lit q : Dbl).val :=
  rnd_nn (x := .fin q) (show (0 : ℝ) ≤ q by exact_mod_cast h)
theorem zn_zero : ZN (lit 0 : Dbl).val := rnd_zn (x := .fin ((0 : ℚ) : ℝ)) (by simp [ZN])
theorem nn_pi : NN (PyFloat.pi : Dbl).val := rnd_nn (x := .fin Real.pi) Real.pi_pos.le

theorem nn_abs (a : Dbl) : NN (PyFloat.abs a).val := by
  refine rnd_nn ?_
  cases a.val with
  | fin x => exact abs_nonneg x
  | _ => trivial

theorem nn_sqrt (a : Dbl) : NN (sqrt a).val := by
  refine rnd_nn ?_
  cases a.val with
  | fin x =>
    show NN (if x < 0 then .nan else .fin (Real.sqrt x))
    split_ifs
    · trivial
    · exact Real.sqrt_nonneg x
  | _ => trivial

theorem nn_sqF (a : Dbl) : NN (sqF a).val := by
  refine rnd_nn ?_
  have h2 : (lit 2 : Dbl).val = .fin ((2 : ℤ) : ℝ) := by
    rw [val_lit]
    exact_mod_cast rnd_double (double_int (n := 2) (by norm_num))
  rw [h2]
  cases a.val with
  | fin x =>
    show NN (XR.pow (.fin x) (.fin ((2 : ℤ) : ℝ)))
    unfold XR.pow
    simp only [Int.floor_intCast, if_true]
    rw [if_neg (by norm_num)]
    exact even_two.zpow_nonneg x
  | pinf =>
    show NN (XR.pow .pinf (.fin ((2 : ℤ) : ℝ)))
    unfold XR.pow
    simp only
    rw [if_pos (by norm_num)]
    trivial
  | ninf =>
    show NN (XR.pow .ninf (.fin ((2 : ℤ) : ℝ)))
    unfold XR.pow
    simp only [Int.floor_intCast]
    rw [if_pos (by norm_num), if_neg (by decide)]
    trivial
  | nan =>
    show NN (XR.pow .nan (.fin ((2 : ℤ) : ℝ)))
    unfold XR.pow
    simp only
    rw [if_neg (by norm_num)]
    trivial

theorem nn_round (d : ℕ) {a : Dbl} (h : NN a.val) : NN (PyFloat.round d a).val := by
  have hl : NN (ofRat (10 ^ d)).val := nn_lit (by positivity)
  refine nn_div (rnd_nn ?_) hl
  have h1 := nn_mul h hl
  generalize (a * ofRat (10 ^ d)).val = x at h1
  cases x with
  | fin x =>
    have := XR.roundDec_mono 0 (show (0 : ℝ) ≤ x from h1)
    have h0 : XR.roundDec 0 0 = 0 := by
      unfold XR.roundDec
      have : XR.rint 0 = 0 := by exact_mod_cast XR.rint_int 0
      simp [this]
    rw [h0] at this
    exact this
  | ninf => exact h1.elim
  | _ => trivial

/-! ## Complex arithmetic -/

/-- The lower half-plane: a real number that is not negative divided by a number of the upper
half-plane. -/
theorem cdiv_lower {a : Dbl} (ha : NN a.val) {b : Cx Dbl} (hb : NN b.im.val) :
    NP (Cx.ofReal a / b).im.val := by
  show NP (cdiv ⟨a, lit 0⟩ b).im.val
  unfold cdiv
  have h1 : NN (ofRat 1).val := nn_lit (q := 1) (by norm_num)
  split
  · split
    · exact np_div zn_zero.np (nn_abs _)
    simp only
    rcases XR.nn_or_sn b.re.val with hx | hx
    · have hr := nn_div hb hx
      exact np_mul (np_sub zn_zero.np (nn_mul ha hr)) (nn_div h1 (nn_add hx (nn_mul hb hr)))
    · have hr := nn_div_sn hb hx
      exact nn_mul_np (nn_sub zn_zero.nn (nn_mul_np ha hr))
        (nn_div_sn h1 (add_sn hx (nn_mul_np hb hr)))
  · simp only
    have hs : NN (b.re * (b.re / b.im)).val := by
      rcases XR.nn_or_sn b.re.val with hx | hx
      · exact nn_mul hx (nn_div hx hb)
      · exact np_mul_np hx.np (np_div hx.np hb)
    exact np_mul (np_sub (zn_mul zn_zero _).np ha) (nn_div h1 (nn_add hb hs))

/-- The damping term `1j*loss*energy` of the models. -/
theorem damping {g e : Dbl} (hg : NN g.val) (he : NN e.val) :
    ZN (Cx.I * Cx.ofReal g * Cx.ofReal e : Cx Dbl).re.val ∧
      NN (Cx.I * Cx.ofReal g * Cx.ofReal e : Cx Dbl).im.val := by
  have h1 : NN (lit 1 : Dbl).val := nn_lit (by norm_num)
  constructor
  · exact zn_sub (zn_mul (zn_sub (zn_mul zn_zero _) (zn_mul_left zn_zero _)) _)
      (zn_mul_left zn_zero _)
  · exact nn_add (zn_mul_left zn_zero _).nn
      (nn_mul (nn_add (zn_mul zn_zero _).nn (nn_mul h1 hg)) he)

/-- The square root of a finite number of the upper half-plane is in the first quadrant. -/
theorem csqrtFin_quadrant {z : Cx Dbl} (h : NN z.im.val) :
    NN (csqrtFin z).re.val ∧ NN (csqrtFin z).im.val := by
  have h0 : NN (ofRat 0).val := nn_lit (q := 0) le_rfl
  have h2 : NN (ofRat 2).val := nn_lit (q := 2) (by norm_num)
  unfold csqrtFin
  split
  · exact ⟨h0, h0⟩
  · split
    · exact ⟨nn_sqrt _, nn_div h (nn_mul h2 (nn_sqrt _))⟩
    · refine ⟨nn_div (nn_abs _) (nn_mul h2 (nn_sqrt _)), ?_⟩
      have hz : (ofRat 0).val = .fin 0 := by
        have := rnd_double (double_int (n := 0) (by norm_num))
        show (rnd (.fin ((0 : ℚ) : ℝ))).val = _
        push_cast at this ⊢
        exact this
      have hl : ¬ lt z.im (ofRat 0) = true := by
        unfold lt
        rw [hz]
        cases hz' : z.im.val with
        | fin x =>
          rw [hz'] at h
          replace h : 0 ≤ x := h
          show ¬ decide (x < 0) = true
          simpa using h
        | ninf => rw [hz'] at h; exact h.elim
        | _ => intro hc; cases hc
      simp only
      rw [if_neg hl]
      exact nn_sqrt _

/-- The square root of a number of the upper half-plane is in the first quadrant. -/
theorem csqrt_quadrant {z : Cx Dbl} (h : NN z.im.val) :
    NN (PyFloat.csqrt z).re.val ∧ NN (PyFloat.csqrt z).im.val := by
  show NN (csqrt z).re.val ∧ NN (csqrt z).im.val
  have hfin : NN (csqrtFin z).re.val ∧ NN (csqrtFin z).im.val := csqrtFin_quadrant h
  have n0 : NN (rnd (.fin 0)).val := rnd_nn (show (0 : ℝ) ≤ 0 from le_rfl)
  have np : NN (rnd .pinf).val := trivial
  have nn : NN (rnd .nan).val := trivial
  unfold csqrt
  cases ha : z.re.val with
  | fin a =>
    cases hb : z.im.val with
    | fin b => exact hfin
    | pinf => exact ⟨np, np⟩
    | ninf => rw [hb] at h; exact h.elim
    | nan => exact ⟨nn, nn⟩
  | pinf =>
    cases hb : z.im.val with
    | fin b => exact ⟨np, n0⟩
    | pinf => exact ⟨np, np⟩
    | ninf => rw [hb] at h; exact h.elim
    | nan => exact ⟨np, nn⟩
  | ninf =>
    cases hb : z.im.val with
    | fin b =>
      rw [hb] at h
      refine ⟨n0, ?_⟩
      show NN (rnd (if b < 0 then XR.ninf else XR.pinf)).val
      rw [if_neg (not_lt.2 h)]
      exact np
    | pinf => exact ⟨np, np⟩
    | ninf => rw [hb] at h; exact h.elim
    | nan => exact ⟨nn, np⟩
  | nan =>
    cases hb : z.im.val with
    | fin b => exact ⟨nn, nn⟩
    | pinf => exact ⟨np, np⟩
    | ninf => rw [hb] at h; exact h.elim
    | nan => exact ⟨nn, nn⟩

end Dbl

open Dbl

/-! ## Conversions -/

/-- All values are not negative. -/
def AllNN (v : Vals Dbl) : Prop := ∀ x ∈ v.toList, NN x.val

theorem AllNN.map {v : Vals Dbl} (h : AllNN v) {f : Dbl → Dbl}
    (hf : ∀ x : Dbl, NN x.val → NN (f x).val) : AllNN (v.map f) := by
  cases v with
  | scalar x =>
    intro y hy
    simp only [Vals.map, Vals.toList, List.mem_singleton] at hy
    subst hy
    exact hf x (h x (by simp [Vals.toList]))
  | array dt xs =>
    intro y hy
    simp only [Vals.map, Vals.toList, List.mem_map] at hy
    obtain ⟨x, hx, rfl⟩ := hy
    exact hf x (h x hx)

theorem nn_inf : NN (PyFloat.inf : Dbl).val := trivial

theorem inverse_nn {b c : Bool} {x : Dbl} (h : NN x.val) :
    NN (if b then PyFloat.inf else if c then lit 0 else lit 1 / x : Dbl).val := by
  split_ifs
  · exact nn_inf
  · exact zn_zero.nn
  · exact nn_div (nn_lit (by norm_num)) h

theorem AllNN.safeInverse {v w : Vals Dbl} (h : AllNN v) (hw : safeInverse v = .ok w) :
    AllNN w := by
  cases v with
  | scalar x =>
    cases hw
    exact AllNN.map (v := .scalar x) h (fun x hx => inverse_nn hx)
  | array dt xs =>
    cases dt with
    | float =>
      cases hw
      exact AllNN.map (v := .array .float xs) h (fun x hx => inverse_nn hx)
    | int => cases hw

theorem AllNN.inverse_map {v w : Vals Dbl} {f : Dbl → Dbl} (h : AllNN v)
    (hf : ∀ x : Dbl, NN x.val → NN (f x).val)
    (hw : (do let inv ← Disp.safeInverse v; Except.ok (inv.map f) : Res (Vals Dbl)) = .ok w) :
    AllNN w := by
  obtain ⟨inv, h1, h2⟩ := except_bind_ok hw
  cases h2
  exact (h.safeInverse h1).map hf

theorem nn_hce : NN (hce : Dbl).val :=
  nn_div (nn_mul (nn_lit (by norm_num)) (nn_lit (by norm_num))) (nn_lit (by norm_num))
theorem nn_light : NN (cLight : Dbl).val := nn_lit (by norm_num)
theorem nn_two_pi : NN (lit 2 * PyFloat.pi : Dbl).val := nn_mul (nn_lit (by norm_num)) nn_pi

/-- The wavelengths in metres of values that are not negative are not negative. -/
theorem standard_nn {t u : String} {v w : Vals Dbl} (h : AllNN v)
    (hw : standardiseValues t u v = .ok w) : AllNN w := by
  unfold standardiseValues convertFrom frequencyToStandard energyToStandard angFreqToStandard
    wavenumberToStandard wavelengthToStandard at hw
  repeat' split at hw
  all_goals first
    | (cases hw; done)
    | exact h.inverse_map (fun x hx => nn_mul nn_light hx) hw
    | exact h.inverse_map (fun x hx => nn_mul nn_hce hx) hw
    | exact h.inverse_map (fun x hx => nn_mul (nn_mul nn_two_pi nn_light) hx) hw
    | exact h.inverse_map (fun x hx => nn_mul (nn_mul nn_two_pi hx) (nn_lit (by norm_num))) hw
    | (cases hw; exact h.map (fun x hx => nn_mul hx (nn_lit (by norm_num))))
    | (cases hw; exact h)

theorem convert_nn {t u : String} {v w : Vals Dbl} (h : AllNN v)
    (hw : convertVals t u v = .ok w) : AllNN w := by
  unfold convertVals toFrequency toEnergy toAngFreq toWavenumber toWavelength at hw
  repeat' split at hw
  all_goals first
    | (cases hw; done)
    | exact h.inverse_map (fun x hx => nn_mul nn_light hx) hw
    | exact h.inverse_map (fun x hx => nn_round _ (nn_mul nn_hce hx)) hw
    | exact h.inverse_map (fun x hx => nn_mul (nn_mul nn_two_pi nn_light) hx) hw
    | exact (h.map (fun x hx => nn_mul hx (nn_lit (by norm_num)))).inverse_map
        (fun x hx => nn_mul nn_two_pi hx) hw
    | (cases hw; exact h.map (fun x hx => nn_round _ (nn_mul hx (nn_lit (by norm_num)))))
    | (cases hw; exact h)

/-- Values that are not negative stay so in every type and unit. -/
theorem asked_nn {s : Spectrum Dbl} (hs : Fresh s) (h : AllNN s.values) {t u : String}
    {w : Vals Dbl} (hw : s.convertTo t u = .ok w) : AllNN w := by
  obtain ⟨raw, t0, u0, hnew⟩ := hs
  rw [Spectrum.new_eq] at hnew
  cases hl : specLookup (lower t0) (lower u0) with
  | error e => rw [hl] at hnew; cases hnew
  | ok c =>
    rw [hl] at hnew
    obtain ⟨v, h1, hnew⟩ := except_bind_ok hnew
    obtain ⟨std, h2, hnew⟩ := except_bind_ok hnew
    cases hnew
    have hstd := standard_nn (v := v) h h2
    unfold Spectrum.convertTo at hw
    rw [Spectrum.convertCore_eq] at hw
    obtain ⟨⟨t', u', w'⟩, h3, hw⟩ := except_bind_ok hw
    cases hw
    cases hl2 : specLookup (lower t) u with
    | error e => rw [hl2] at h3; cases h3
    | ok c2 =>
      rw [hl2] at h3
      obtain ⟨w2, h4, h3⟩ := except_bind_ok h3
      cases h3
      exact convert_nn (v := std) hstd h4

/-! ## The models -/

namespace Spec

/-- `a < 0` is false in Python: a double that is zero, positive, infinite or NaN. -/
def NotNegative (a : Dbl) : Prop := PyFloat.lt a (lit 0) = false

/-- Parameters of a passive material: loss and strength are not negative. Nothing else is asked,
parameters may be infinite or NaN. -/
inductive PassiveDoubles : EpsFormula → List Dbl → Prop
  | drude {wp g : Dbl} {rest : List Dbl} (hg : NotNegative g) :
      PassiveDoubles .drude (wp :: g :: rest)
  | drudeLorentz {wp S w0 g : Dbl} {rest : List Dbl} (hS : NotNegative S) (hg : NotNegative g) :
      PassiveDoubles .drudeLorentz (wp :: S :: w0 :: g :: rest)
  | taucLorentz {a e0 c eg einf : Dbl} {rest : List Dbl} (ha : NotNegative a)
      (h0 : NotNegative e0) (hc : NotNegative c) :
      PassiveDoubles .taucLorentz (a :: e0 :: c :: eg :: einf :: rest)

end Spec

open Spec

theorem notNegative_iff {a : Dbl} : NotNegative a ↔ NN a.val := by
  unfold NotNegative
  have hz : (lit 0 : Dbl).val = .fin 0 := by
    have := rnd_double (double_int (n := 0) (by norm_num))
    rw [val_lit]
    push_cast at this ⊢
    exact this
  show PyFloat.lt a.val (lit 0 : Dbl).val = false ↔ _
  rw [hz]
  cases a.val with
  | fin x =>
    show decide (x < 0) = false ↔ 0 ≤ x
    simp
  | ninf => exact iff_of_false (fun h => by cases h) id
  | pinf => exact ⟨fun _ => trivial, fun _ => rfl⟩
  | nan => exact ⟨fun _ => trivial, fun _ => rfl⟩

/-- One value of a passive model. -/
theorem passive_at {k : EpsFormula} {p : List Dbl} (hp : PassiveDoubles k p) {e : Dbl}
    (he : NN e.val) {z : Cx Dbl} (hz : k.at p e = .ok z) : NN z.im.val := by
  have h1 : NN (lit 1 : Dbl).val := nn_lit (by norm_num)
  cases hp with
  | @drude wp g rest hg =>
    cases hz
    obtain ⟨d1, d2⟩ := damping (notNegative_iff.1 hg) he
    refine nn_sub zn_zero.nn (cdiv_lower (nn_sqF wp) (b := _ + _) ?_)
    exact nn_add zn_zero.nn d2
  | @drudeLorentz wp S w0 g rest hS hg =>
    cases hz
    obtain ⟨d1, d2⟩ := damping (notNegative_iff.1 hg) he
    refine nn_add zn_zero.nn (nn_neg (cdiv_lower (nn_mul (notNegative_iff.1 hS) (nn_sqF wp))
      (b := _ + _) ?_))
    exact nn_add zn_zero.nn d2
  | @taucLorentz a e0 c eg einf rest ha h0 hc =>
    cases hz
    have ht : NN (tlImag e a e0 c eg).val := by
      unfold tlImag
      split_ifs
      · exact nn_div (nn_mul (nn_mul (nn_mul (nn_mul (nn_div h1 he) (notNegative_iff.1 ha))
          (notNegative_iff.1 h0)) (notNegative_iff.1 hc)) (nn_sqF _))
          (nn_add (nn_sqF _) (nn_mul (nn_sqF _) (nn_sqF _)))
      · exact zn_zero.nn
      · exact h1
    exact nn_add zn_zero.nn (nn_add (zn_mul zn_zero _).nn (nn_mul h1 ht))

/-- C123 for the objects: no value of a passive model has a negative imaginary part. -/
theorem C123_model {d : CplxData Dbl} (hp : PassiveDoubles d.kind d.params) {s : Spectrum Dbl}
    (hs : Fresh s) (hv : ∀ x ∈ s.values.toList, NotNegative x) {zs : CVals Dbl}
    (hz : d.evaluate s = .ok zs) : ∀ z ∈ zs.toList, NotNegative z.im := by
  unfold CplxData.evaluate at hz
  obtain ⟨_, -, hz⟩ := except_bind_ok hz
  obtain ⟨ws, h1, hz⟩ := except_bind_ok hz
  have hws := asked_nn hs (fun x hx => notNegative_iff.1 (hv x hx)) h1
  cases ws with
  | scalar x =>
    obtain ⟨z, h2, hz⟩ := except_bind_ok hz
    split at hz
    · cases hz
    · cases hz
      intro z' hz'
      simp only [CVals.toList, List.mem_singleton] at hz'
      subst hz'
      exact notNegative_iff.2 (passive_at hp (hws x (by simp [Vals.toList])) h2)
  | array dt xs =>
    obtain ⟨ys, h2, hz⟩ := except_bind_ok hz
    cases hz
    intro z hz
    simp only [CVals.toList] at hz
    obtain ⟨i, hi⟩ := List.mem_iff_getElem?.1 hz
    obtain ⟨g1, g2⟩ := mapM_getElem _ _ _ h2
    have hlt : i < xs.length := by
      rw [g1]; exact (List.getElem?_eq_some_iff.1 hi).1
    obtain ⟨y, g3, g4⟩ := g2 i _ (List.getElem?_eq_getElem hlt)
    rw [hi] at g4
    cases g4
    exact notNegative_iff.2 (passive_at hp (hws _ (by simp [Vals.toList])) g3)

/-! ## Materials -/

section materials

variable [SciPy Dbl]

/-- C123 for materials: a passive permittivity model never reports a negative imaginary part of
the permittivity, nor a negative refractive index or extinction coefficient. -/
theorem C123_material {m : Material Dbl} {d : CplxData Dbl} (hm : m.name = "eps")
    (hd : m.cplx = some d) (hp : PassiveDoubles d.kind d.params) {s : Spectrum Dbl} (hs : Fresh s)
    (hv : ∀ x ∈ s.values.toList, NotNegative x) :
    (∀ v, (m.getPermittivity s).1 = .ok v → ∀ z ∈ v.toList, NotNegative z.im) ∧
    (∀ v, (m.getNk s).1 = .ok v → ∀ z ∈ v.toList, NotNegative z.re ∧ NotNegative z.im) := by
  have hst : (m.evalStored s).1 = d.evaluate s := by
    unfold Material.evalStored; rw [hd]
  constructor
  · intro v h
    rw [getPermittivity_eq m s (.inr hm), hst] at h
    cases hz : d.evaluate s with
    | error e => rw [hz] at h; cases h
    | ok zs =>
      rw [hz] at h
      simp only [Except.map] at h
      rw [if_neg (by rw [hm]; decide)] at h
      cases h
      exact C123_model hp hs hv hz
  · intro v h
    rw [getNk_fresh m hs (.inr hm), hst] at h
    cases hz : d.evaluate s with
    | error e => rw [hz] at h; cases h
    | ok zs =>
      rw [hz] at h
      simp only [Except.map] at h
      rw [if_pos hm] at h
      cases h
      intro z hz'
      rw [CVals.toList_map, List.mem_map] at hz'
      obtain ⟨z0, h0, rfl⟩ := hz'
      have h1 := C123_model hp hs hv hz z0 h0
      obtain ⟨q1, q2⟩ := csqrt_quadrant (notNegative_iff.1 h1)
      exact ⟨notNegative_iff.2 q1, notNegative_iff.2 q2⟩

omit [SciPy Dbl] in
theorem npMin_nn {v : Vals Dbl} (h : AllNN v) {x : Dbl} (hx : npMin v = .ok x) : NN x.val := by
  unfold npMin at hx
  unfold AllNN at h
  cases hv : v.toList with
  | nil => rw [hv] at hx; cases hx
  | cons a l =>
    rw [hv] at hx h
    cases hx
    have key : ∀ (l : List Dbl) (a : Dbl), NN a.val → (∀ y ∈ l, NN y.val) →
        NN (npMinList a l).val := by
      intro l
      induction l with
      | nil => exact fun a ha _ => ha
      | cons b l ih =>
        intro a ha hl
        refine ih _ ?_ (fun y hy => hl y (by simp [hy]))
        have hb := hl b (by simp)
        dsimp only
        split_ifs
        · exact ha
        · exact hb
        · exact hb
        · exact ha
    exact key l a (h a (by simp)) (fun y hy => h y (by simp [hy]))

omit [SciPy Dbl] in
/-- Arrays of floats convert to every unit. -/
theorem array_converts {s : Spectrum Dbl} (hs : Fresh s) {xs : List Dbl}
    (hx : s.values = .array .float xs) {t u c : String} (hc : (lower t, u, c) ∈ names) :
    ∃ ys, s.convertTo t u = .ok (.array .float ys) ∧ ys.length = xs.length := by
  obtain ⟨raw, t0, u0, hnew⟩ := hs
  rw [Spectrum.new_eq] at hnew
  cases hl : specLookup (lower t0) (lower u0) with
  | error e => rw [hl] at hnew; cases hnew
  | ok c0 =>
    rw [hl] at hnew
    obtain ⟨v, h1, hnew⟩ := except_bind_ok hnew
    obtain ⟨std, h2, hnew⟩ := except_bind_ok hnew
    cases hnew
    change v = _ at hx
    subst hx
    rw [convertFrom_array (names_pairs _ (specLookup_ok_iff.1 hl))] at h2
    cases h2
    unfold Spectrum.convertTo
    rw [Spectrum.convertCore_eq, specLookup_ok_iff.2 hc]
    simp only [bind, Except.bind]
    rw [convertVals_array (names_pairs _ hc)]
    exact ⟨_, rfl, by simp⟩

omit [SciPy Dbl] in
/-- Nothing is outside the range from zero to infinity. -/
theorem all_inside {r s : Spectrum Dbl} (hr : r.values = .array .float [lit 0, PyFloat.inf])
    {ys : List Dbl} (hc : s.convertTo r.stype r.unit = .ok (.array .float ys)) (hne : ys ≠ [])
    (hnn : AllNN (.array .float ys)) : r.contains s = .ok true := by
  unfold Spectrum.contains
  simp only [hc, hr, bind, Except.bind]
  cases ys with
  | nil => exact absurd rfl hne
  | cons y ys =>
    have h0 : (lit 0 : Dbl).val = .fin 0 := by
      have := rnd_double (double_int (n := 0) (by norm_num))
      rw [val_lit]
      push_cast at this ⊢
      exact this
    have n0 : PyFloat.isNaN (lit 0 : Dbl) = false := by
      show PyFloat.isNaN (lit 0 : Dbl).val = false
      rw [h0]; rfl
    have e1 : npMin (F := Dbl) (.array .float [lit 0, PyFloat.inf]) = .ok (lit 0) := by
      have : PyFloat.lt (PyFloat.inf : Dbl) (lit 0) = false := by
        show PyFloat.lt XR.pinf (lit 0 : Dbl).val = false
        rw [h0]; rfl
      simp only [npMin, Vals.toList, npMinList, List.foldl, n0, this]
      rfl
    have e2 : npMax (F := Dbl) (.array .float [lit 0, PyFloat.inf]) = .ok PyFloat.inf := by
      have : PyFloat.lt (lit 0 : Dbl) PyFloat.inf = true := by
        show PyFloat.lt (lit 0 : Dbl).val XR.pinf = true
        rw [h0]; rfl
      simp only [npMax, Vals.toList, npMaxList, List.foldl, n0, this]
      rfl
    rw [e1, e2]
    have h1 : npMin (F := Dbl) (.array .float (y :: ys)) = .ok (npMinList y ys) := rfl
    have h2 : npMax (F := Dbl) (.array .float (y :: ys)) = .ok (npMaxList y ys) := rfl
    have h3 := notNegative_iff.2 (npMin_nn hnn h1)
    have h4 : PyFloat.lt (PyFloat.inf : Dbl) (npMaxList y ys) = false := rfl
    rw [h1, h2]
    simp only
    rw [show PyFloat.lt (npMinList y ys) (lit 0) = false from h3, h4]
    rfl

omit [SciPy Dbl] in
theorem passive_total {k : EpsFormula} {p : List Dbl} (hp : PassiveDoubles k p) (e : Dbl) :
    ∃ z, k.at p e = .ok z := by
  cases hp <;> exact ⟨_, rfl⟩

/-- C123 from the keyword arguments: a passive model that is valid everywhere answers every array
of values that are not negative, whatever its type and unit, with one permittivity and one index per
value, and none of these is an active one. -/
theorem C123_answers [NumText Dbl] (rd : String → Res (FileDict Dbl)) (kw : Kwargs Dbl)
    (hnd : (kw.map Prod.fst).Nodup) (hpl : PlainOptions kw) (d : ModelKw Dbl)
    (h : Only kw "model_kw" .model (.dict d)) (name : String) (hname : d.name = some name)
    (k : EpsFormula) (hk : name ∈ permittivityModels) (hcls : classRef name = .cplx k)
    (p : List Dbl) (hpar : d.params = some p) (hp : PassiveDoubles k p)
    (hr : d.validRange = some (.list .float [lit 0, PyFloat.inf])) (t u : String)
    (ht : d.stype = some t) (hu : d.unit = some u) (hte : lower t = "energy")
    (hue : u ∈ ["ev", "electronvolt"]) :
    ∃ m, Material.new rd kw = .ok m ∧ ∀ (s : Spectrum Dbl) (xs : List Dbl), Fresh s →
      s.values = .array .float xs → xs ≠ [] → (∀ x ∈ xs, NotNegative x) →
      ∃ v w, (m.getPermittivity s).1 = .ok v ∧ (m.getNk s).1 = .ok w ∧
        v.toList.length = xs.length ∧ w.toList.length = xs.length ∧
        (∀ z ∈ v.toList, NotNegative z.im) ∧
        (∀ z ∈ w.toList, NotNegative z.re ∧ NotNegative z.im) := by
  obtain ⟨hul, hn⟩ := volt_names u hue
  obtain ⟨-, hg⟩ := C24_model_partial rd kw hnd hpl d h name hname p hpar _ hr rfl t u ht hu
  obtain ⟨hg, -⟩ := hg hk
  obtain ⟨f, md, h1, h2, h3⟩ := hg ⟨hte, by rw [hul]; exact hue⟩
  rw [hcls] at h2
  cases h2
  refine ⟨_, h3, ?_⟩
  intro s xs hs hx hne hnn
  unfold CplxData.new at h1
  obtain ⟨r, g1, h1⟩ := except_bind_ok h1
  obtain ⟨_, -, h1⟩ := except_bind_ok h1
  cases h1
  rw [Spectrum.new_eq, hte, hul, specLookup_ok_iff.2 hn] at g1
  simp only [Raw.check, bind, Except.bind] at g1
  rw [convertFrom_array (names_pairs _ hn)] at g1
  cases g1
  have hnn' : AllNN s.values := by
    rw [hx]; exact fun x hx => notNegative_iff.1 (hnn x hx)
  obtain ⟨ys, c1, c2⟩ := array_converts hs hx (t := "energy") (u := "ev") (c := "ev")
    (by decide +kernel)
  obtain ⟨es, c3, c4⟩ := array_converts hs hx (t := t) (u := u) (c := "ev") (by rw [hte]; exact hn)
  have hyne : ys ≠ [] := by
    rintro rfl
    exact hne (List.length_eq_zero_iff.1 c2.symm)
  obtain ⟨zs, c5, c6⟩ := mapM_total (k.at p) es (fun e _ => passive_total hp e)
  set d' : CplxData Dbl := ⟨k, p, _, t, u⟩ with hd'
  have hev : d'.evaluate s = .ok (.array zs) := by
    unfold CplxData.evaluate
    rw [all_inside (r := d'.range) rfl c1 hyne (asked_nn hs hnn' c1)]
    simp only [bind, Except.bind]
    rw [show s.convertTo d'.stype d'.unit = _ from c3]
    simp only
    rw [show es.mapM (d'.kind.at d'.params) = _ from c5]
  set m : Material Dbl := { blankMaterial (parsedOf kw) with
            name := "eps", cplx := some d', real := some (cdata (lit 0)),
            imag := some (cdata (lit 0)), defType := t, defUnit := u } with hm
  obtain ⟨q1, q2⟩ := C123_material (m := m) (d := d') rfl rfl hp hs
    (by rw [hx]; exact hnn)
  have hst : (m.evalStored s).1 = .ok (.array zs) := hev
  have a1 : (m.getPermittivity s).1 = .ok (.array zs) := by
    rw [getPermittivity_eq m s (.inr rfl), hst]
    rfl
  have a2 : (m.getNk s).1 = .ok (.array (zs.map PyFloat.csqrt)) := by
    rw [getNk_fresh m hs (.inr rfl), hst]
    rfl
  exact ⟨_, _, a1, a2, c6.trans c4, (by simpa [CVals.toList] using c6.trans c4), q1 _ a1, q2 _ a2⟩

/-- Silver as a Drude metal. -/
def silverKw : ModelKw Dbl where
  name := some "Drude"
  params := some [lit 9.01, lit 0.018]
  validRange := some (.list .float [lit 0, PyFloat.inf])
  stype := some "energy"
  unit := some "ev"

/-- Beside `C123_answers`: silver asked at 300 nm, 1 µm and infinitely long waves. -/
theorem silver_case [NumText Dbl] (rd : String → Res (FileDict Dbl)) :
    ∃ (m : Material Dbl) (s : Spectrum Dbl) (v w : CVals Dbl),
      Material.new rd [("model_kw", .dict silverKw)] = .ok m ∧
      Spectrum.new (.list .float [intDbl 300, intDbl 1000, PyFloat.inf]) "Wavelength" "nm" = .ok s ∧
      (m.getPermittivity s).1 = .ok v ∧ (m.getNk s).1 = .ok w ∧ w.toList.length = 3 ∧
      (∀ z ∈ v.toList, NotNegative z.im) ∧
      (∀ z ∈ w.toList, NotNegative z.re ∧ NotNegative z.im) := by
  have hs : ("model_kw", DocType.model) ∈ sources := by decide
  obtain ⟨h1, h2⟩ := only_single (F := Dbl) hs (v := .dict silverKw) (by simp)
  have hlit : ∀ q : ℚ, 0 ≤ q → NotNegative (lit q : Dbl) := fun q hq => notNegative_iff.2 (nn_lit hq)
  obtain ⟨m, hm, hall⟩ := C123_answers rd [("model_kw", .dict silverKw)] h1
    (plain_single (by decide) (by decide)) _ h2 "Drude" rfl .drude (by decide) (by decide) _ rfl
    (.drude (hlit _ (by norm_num))) rfl "energy" "ev" rfl rfl (by decide +kernel) (by decide)
  have hn : ("wavelength", "nm", "nm") ∈ names := by decide
  have hnew : ∃ s, Spectrum.new (.list .float [intDbl 300, intDbl 1000, PyFloat.inf])
      "Wavelength" "nm" = .ok s ∧
      s.values = .array .float [intDbl 300, intDbl 1000, PyFloat.inf] := by
    rw [Spectrum.new_eq, show lower "Wavelength" = "wavelength" by decide +kernel,
      show lower "nm" = "nm" by decide +kernel, specLookup_ok_iff.2 hn]
    simp only [Raw.check, bind, Except.bind]
    rw [convertFrom_array (names_pairs _ hn)]
    exact ⟨_, rfl, rfl⟩
  obtain ⟨s, g1, g2⟩ := hnew
  have hint : ∀ n : ℤ, 0 ≤ n → NotNegative (intDbl n) := fun n hn =>
    notNegative_iff.2 (rnd_nn (show (0 : ℝ) ≤ n by exact_mod_cast hn))
  obtain ⟨v, w, a1, a2, -, a3, a4, a5⟩ := hall s _ ⟨_, _, _, g1⟩ g2 (by simp) (by
    intro x hx
    simp only [List.mem_cons, List.not_mem_nil, or_false] at hx
    rcases hx with rfl | rfl | rfl
    · exact hint _ (by norm_num)
    · exact hint _ (by norm_num)
    · exact notNegative_iff.2 nn_inf)
  exact ⟨m, s, v, w, hm, g1, a1, a2, a3, a4, a5⟩

end materials

end
end Disp

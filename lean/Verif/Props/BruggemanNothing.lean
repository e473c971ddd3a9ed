import Verif.Props.BruggemanAccuracy
import Verif.Props.MixtureConditioned
/-!
# C142: Bruggeman media that report nothing

The solutions of Bruggeman's equation are filtered by the sign of their imaginary parts. If the
solution is real, as it is for a transparent host without inclusions, a rounding error of the other
sign removes it and the medium reports 0. The case below is a metal of permittivity -5.15 + 0.25j in
a host of permittivity 2.
-/

namespace Disp

noncomputable section

open Dbl Spec

/-- The double nearest to `x` is `v`. -/
def Rounds (x v : ℝ) : Prop := (Dbl.rnd (.fin x)).val = .fin v

theorem Rounds.exact {x v : ℝ} (m e : ℤ)
    (h : |m| < 2 ^ 53 ∧ -1074 ≤ e ∧ e ≤ 971 ∧ v = m * 2 ^ e ∧ x = v) : Rounds x v := by
  obtain ⟨h1, h2, h3, h4, rfl⟩ := h
  exact Dbl.rnd_double ⟨m, e, h1, h2, h3, h4⟩

theorem Rounds.to {x v : ℝ} (m e : ℤ)
    (h : 2 ^ 52 < |m| ∧ |m| < 2 ^ 53 ∧ -1074 ≤ e ∧ e ≤ 971 ∧ v = m * 2 ^ e ∧
      v - 2 ^ e / 2 < x ∧ x < v + 2 ^ e / 2) : Rounds x v := by
  obtain ⟨h1, h2, h3, h4, rfl, h5, h6⟩ := h
  have hd : IsDouble ((m : ℝ) * 2 ^ e) := ⟨m, e, h2, h3, h4, rfl⟩
  have hp : (0 : ℝ) < 2 ^ e := by positivity
  have key : ∀ (n : ℤ) (y : ℝ), 2 ^ 52 < n → n < 2 ^ 53 → n * 2 ^ e - 2 ^ e / 2 < y →
      y < n * 2 ^ e + 2 ^ e / 2 → nearest y = n * 2 ^ e := by
    intro n y n1 n2 y1 y2
    have n1' : ((2 : ℝ) ^ 52 + 1) ≤ n := by exact_mod_cast n1
    have n2' : (n : ℝ) ≤ 2 ^ 53 - 1 := by
      have : n ≤ 2 ^ 53 - 1 := by omega
      exact_mod_cast this
    have p1 := mul_le_mul_of_nonneg_right n1' hp.le
    have p2 := mul_le_mul_of_nonneg_right n2' hp.le
    refine nearest_eq n e h3 ?_ ?_ ?_
    · rw [zpow_add₀ (by norm_num), mul_comm]
      have : ((2 : ℝ) ^ (52 : ℤ)) = 2 ^ 52 := by norm_cast
      rw [this]
      linarith
    · rw [zpow_add₀ (by norm_num), mul_comm]
      have : ((2 : ℝ) ^ (53 : ℤ)) = 2 ^ 53 := by norm_cast
      rw [this]
      linarith
    · rw [abs_lt]
      constructor
      · rw [neg_lt_sub_iff_lt_add, ← sub_lt_iff_lt_add', lt_div_iff₀ hp, sub_mul]
        linarith
      · rw [sub_lt_iff_lt_add', div_lt_iff₀ hp, add_mul]
        linarith
  have hn : nearest x = m * 2 ^ e := by
    rcases le_or_gt 0 m with h0 | h0
    · rw [abs_of_nonneg h0] at h1 h2
      exact key m x h1 h2 h5 h6
    · rw [abs_of_neg h0] at h1 h2
      have := key (-m) (-x) h1 h2 (by push_cast; linarith) (by push_cast; linarith)
      rw [nearest_neg] at this
      push_cast at this
      linarith
  have := Dbl.rnd_fin (x := x) (by rw [hn]; exact double_lt hd)
  rwa [hn] at this

theorem Rounds.root {x v : ℝ} (m e : ℤ)
    (h : 2 ^ 52 < m ∧ m < 2 ^ 53 ∧ -1074 ≤ e ∧ e ≤ 971 ∧ v = m * 2 ^ e ∧
      (v - 2 ^ e / 2) ^ 2 < x ∧ x < (v + 2 ^ e / 2) ^ 2) : Rounds (Real.sqrt x) v := by
  obtain ⟨h1, h2, h3, h4, h5, h6, h7⟩ := h
  have hm : 0 < m := lt_trans (by norm_num) h1
  have hp : (0 : ℝ) < 2 ^ e := by positivity
  have hm' : (1 : ℝ) ≤ m := by exact_mod_cast hm
  have hv : (2 : ℝ) ^ e ≤ v := by
    rw [h5]; exact le_mul_of_one_le_left hp.le hm'
  refine Rounds.to m e ⟨by rwa [abs_of_pos hm], by rwa [abs_of_pos hm], h3, h4, h5, ?_, ?_⟩
  · exact (Real.lt_sqrt (by linarith)).2 h6
  · exact (Real.sqrt_lt' (by linarith)).2 h7

/-- The parts of a complex double. -/
structure At (z : Cx Dbl) (x y : ℝ) : Prop where
  re : z.re.val = .fin x
  im : z.im.val = .fin y

namespace At

variable {z w : Cx Dbl} {x y x' y' : ℝ}

theorem add (hz : At z x y) (hw : At w x' y') {u v : ℝ} (h1 : Rounds (x + x') u)
    (h2 : Rounds (y + y') v) : At (z + w) u v := by
  constructor
  · show (Dbl.rnd (z.re.val + w.re.val)).val = _
    rw [hz.re, hw.re, XR.add_fin]; exact h1
  · show (Dbl.rnd (z.im.val + w.im.val)).val = _
    rw [hz.im, hw.im, XR.add_fin]; exact h2

theorem sub (hz : At z x y) (hw : At w x' y') {u v : ℝ} (h1 : Rounds (x - x') u)
    (h2 : Rounds (y - y') v) : At (z - w) u v := by
  constructor
  · show (Dbl.rnd (z.re.val - w.re.val)).val = _
    rw [hz.re, hw.re, XR.sub_fin]; exact h1
  · show (Dbl.rnd (z.im.val - w.im.val)).val = _
    rw [hz.im, hw.im, XR.sub_fin]; exact h2

theorem mul (hz : At z x y) (hw : At w x' y') {p q r s u v : ℝ} (h1 : Rounds (x * x') p)
    (h2 : Rounds (y * y') q) (h3 : Rounds (x * y') r) (h4 : Rounds (y * x') s)
    (h5 : Rounds (p - q) u) (h6 : Rounds (r + s) v) : At (z * w) u v := by
  have m1 : (z.re * w.re).val = .fin p := by rw [Dbl.val_mul, hz.re, hw.re, XR.mul_fin]; exact h1
  have m2 : (z.im * w.im).val = .fin q := by rw [Dbl.val_mul, hz.im, hw.im, XR.mul_fin]; exact h2
  have m3 : (z.re * w.im).val = .fin r := by rw [Dbl.val_mul, hz.re, hw.im, XR.mul_fin]; exact h3
  have m4 : (z.im * w.re).val = .fin s := by rw [Dbl.val_mul, hz.im, hw.re, XR.mul_fin]; exact h4
  constructor
  · show (Dbl.rnd ((z.re * w.re).val - (z.im * w.im).val)).val = _
    rw [m1, m2, XR.sub_fin]; exact h5
  · show (Dbl.rnd ((z.re * w.im).val + (z.im * w.re).val)).val = _
    rw [m3, m4, XR.add_fin]; exact h6

theorem _root_.Disp.Rounds.self {x : ℝ} {a : Dbl} (h : a.val = .fin x) : Rounds x x :=
  Dbl.rnd_double (isDouble_val h)

theorem rmul {c : Dbl} {γ u v : ℝ} (hc : c.val = .fin γ) (hz : At z x y) (h1 : Rounds (γ * x) u)
    (h2 : Rounds (γ * y) v) : At (rmul c z) u v := by
  have z0 : Rounds 0 0 := Rounds.self lit_zero_val
  have hu : Rounds u u := Rounds.self h1
  have hv : Rounds v v := Rounds.self h2
  exact At.mul (z := Cx.ofReal c) ⟨hc, lit_zero_val⟩ hz h1 (by rw [zero_mul]; exact z0) h2
    (by rw [zero_mul]; exact z0) (by rw [sub_zero]; exact hu) (by rw [add_zero]; exact hv)

theorem mulHalf (hz : At z x y) {u v : ℝ} (h1 : Rounds (x / 2) u) (h2 : Rounds (y / 2) v) :
    At (z * Cx.ofReal (lit 0.5)) u v := by
  have z0 : Rounds 0 0 := Rounds.self lit_zero_val
  have hu : Rounds u u := Rounds.self h1
  have hv : Rounds v v := Rounds.self h2
  exact At.mul (w := Cx.ofReal (lit 0.5)) hz ⟨half_val, lit_zero_val⟩
    (by rw [mul_one_div]; exact h1) (by rw [mul_zero]; exact z0) (by rw [mul_zero]; exact z0)
    (by rw [mul_one_div]; exact h2) (by rw [sub_zero]; exact hu) (by rw [zero_add]; exact hv)

theorem neg (hz : At z x y) : At (Cx.neg z) (-x) (-y) := by
  constructor
  · show (Dbl.rnd (-z.re.val)).val = _
    rw [hz.re]; exact Dbl.rnd_double (isDouble_neg (isDouble_val hz.re))
  · show (Dbl.rnd (-z.im.val)).val = _
    rw [hz.im]; exact Dbl.rnd_double (isDouble_neg (isDouble_val hz.im))

/-- NumPy's square root of a number with positive real part. -/
theorem root (hz : At z x y) (hx : 0 < x) {h s u t d v : ℝ} (h1 : Rounds (Real.sqrt (x ^ 2 + y ^ 2)) h)
    (h2 : Rounds (x + h) s) (h3 : Rounds (s / 2) u) (h4 : Rounds (Real.sqrt u) t)
    (h5 : Rounds (2 * t) d) (hd : 0 < d ∧ 0 < u) (h6 : Rounds (y / d) v) :
    At (PyFloat.csqrt z) t v := by
  show At (Dbl.csqrt z) t v
  have zero : (Dbl.ofRat 0).val = .fin 0 := lit_zero_val
  have hnot : (Dbl.le (Dbl.abs z.re) (Dbl.ofRat 0) && Dbl.le (Dbl.abs z.im) (Dbl.ofRat 0)) = false := by
    have : Dbl.le (Dbl.abs z.re) (Dbl.ofRat 0) = false := by
      unfold Dbl.le
      rw [Dbl.abs_val hz.re, zero, XR.le_fin, decide_eq_false_iff_not, not_le, abs_of_pos hx]
      exact hx
    rw [this]; rfl
  have hpos : Dbl.le (Dbl.ofRat 0) z.re = true := by
    unfold Dbl.le
    rw [zero, hz.re, XR.le_fin, decide_eq_true_eq]
    exact hx.le
  rw [Dbl.csqrt_fin hz.re hz.im]
  unfold Dbl.csqrtFin
  rw [if_neg (by rw [hnot]; decide), if_pos hpos]
  have half : (Dbl.ofRat (1 / 2)).val = .fin (1 / 2) := by
    have := half_val
    rw [Dbl.val_lit] at this
    show (Dbl.rnd (.fin ((1 / 2 : ℚ) : ℝ))).val = _
    rw [← this]
    norm_num
  have two : (Dbl.ofRat 2).val = .fin 2 := by exact_mod_cast Dbl.lit_int (n := 2) (by norm_num)
  have hyp : (Dbl.hypot z.re z.im).val = .fin h := by
    show (Dbl.rnd (PyFloat.sqrt (z.re.val * z.re.val + z.im.val * z.im.val))).val = _
    rw [hz.re, hz.im, XR.mul_fin, XR.mul_fin, XR.add_fin,
      XR.sqrt_fin_nonneg (add_nonneg (mul_self_nonneg _) (mul_self_nonneg _)), ← sq,
      ← sq]
    exact h1
  have sum : (z.re + Dbl.hypot z.re z.im).val = .fin s := by
    show (Dbl.rnd (z.re.val + (Dbl.hypot z.re z.im).val)).val = _
    rw [hz.re, hyp, XR.add_fin]; exact h2
  have prod : ((z.re + Dbl.hypot z.re z.im) * Dbl.ofRat (1 / 2)).val = .fin u := by
    rw [Dbl.val_mul, sum, half, XR.mul_fin, mul_one_div]; exact h3
  have rt : (Dbl.sqrt ((z.re + Dbl.hypot z.re z.im) * Dbl.ofRat (1 / 2))).val = .fin t := by
    show (Dbl.rnd (PyFloat.sqrt _)).val = _
    rw [prod, XR.sqrt_fin_nonneg hd.2.le]
    exact h4
  have den : (Dbl.ofRat 2 * Dbl.sqrt ((z.re + Dbl.hypot z.re z.im) * Dbl.ofRat (1 / 2))).val =
      .fin d := by
    rw [Dbl.val_mul, two, rt, XR.mul_fin]; exact h5
  refine ⟨rt, ?_⟩
  show (z.im / (Dbl.ofRat 2 * Dbl.sqrt ((z.re + Dbl.hypot z.re z.im) * Dbl.ofRat (1 / 2)))).val = _
  rw [Dbl.val_div, hz.im, den, XR.div_fin_of_ne _ hd.1.ne']
  exact h6

end At

/-- No inclusions of permittivity -5.15 + 0.25j in a host of permittivity 2: both computed solutions
have a negative imaginary part. -/
theorem brug_nothing {b a : Cx Dbl} (hb : At b 2 0)
    (ha : At a (-2899192260119757 / 562949953421312) (1 / 4)) :
    brugMix (lit 0) b a = Cx.ofReal (lit 0) := by
  have two : (lit 2 : Dbl).val = .fin 2 := by exact_mod_cast Dbl.lit_int (n := 2) (by norm_num)
  have one : (lit 1 : Dbl).val = .fin 1 := by exact_mod_cast Dbl.lit_int (n := 1) (by norm_num)
  have zero := lit_zero_val
  have half := half_val
  have mhalf := minus_half_lit
  have oneZ : (lit 1 - lit 0 : Dbl).val = .fin 1 := sub_zero_dbl one zero
  have a2 : At (rmul (lit 2) a) (-2899192260119757 / 281474976710656) (1 / 2) :=
    At.rmul two ha (.exact (-2899192260119757) (-48) (by norm_num))
      (.exact (1) (-1) (by norm_num))
  have d1 : At (b - rmul (lit 2) a) (3462142213541069 / 281474976710656) (-1 / 2) :=
    At.sub hb a2 (.exact (3462142213541069) (-48) (by norm_num))
      (.exact (-1) (-1) (by norm_num))
  have z1 : At (rmul (lit 0) (b - rmul (lit 2) a)) 0 0 :=
    At.rmul zero d1 (.exact (0) (0) (by norm_num))
      (.exact (0) (0) (by norm_num))
  have b2 : At (rmul (lit 2) b) 4 0 :=
    At.rmul two hb (.exact (1) (2) (by norm_num))
      (.exact (0) (0) (by norm_num))
  have d2 : At (a - rmul (lit 2) b) (-5150992073805005 / 562949953421312) (1 / 4) :=
    At.sub ha b2 (.exact (-5150992073805005) (-49) (by norm_num))
      (.exact (1) (-2) (by norm_num))
  have z2 : At (rmul (lit 1 - lit 0) (a - rmul (lit 2) b))
      (-5150992073805005 / 562949953421312) (1 / 4) :=
    At.rmul oneZ d2 (.exact (-5150992073805005) (-49) (by norm_num))
      (.exact (1) (-2) (by norm_num))
  have s : At (rmul (lit 0) (b - rmul (lit 2) a) + rmul (lit 1 - lit 0) (a - rmul (lit 2) b))
      (-5150992073805005 / 562949953421312) (1 / 4) :=
    At.add z1 z2 (.exact (-5150992073805005) (-49) (by norm_num))
      (.exact (1) (-2) (by norm_num))
  have p : At (brugP (lit 0) b a) (-5150992073805005 / 1125899906842624) (1 / 8) :=
    At.rmul half s (.exact (-5150992073805005) (-50) (by norm_num))
      (.exact (1) (-3) (by norm_num))
  have h : At (rmul (lit 0.5) (brugP (lit 0) b a))
      (-5150992073805005 / 2251799813685248) (1 / 16) :=
    At.rmul half p (.exact (-5150992073805005) (-51) (by norm_num))
      (.exact (1) (-4) (by norm_num))
  have sq : At (Cx.sq (rmul (lit 0.5) (brugP (lit 0) b a)))
      (5887049137903371 / 1125899906842624) (-5150992073805005 / 18014398509481984) :=
    At.mul (p := (5891447184414475 / 1125899906842624)) (q := (1 / 256))
      (r := (-5150992073805005 / 36028797018963968)) (s := (-5150992073805005 / 36028797018963968)) h h
      (.to (5891447184414475) (-50) (by norm_num))
      (.exact (1) (-8) (by norm_num))
      (.exact (-5150992073805005) (-55) (by norm_num))
      (.exact (-5150992073805005) (-55) (by norm_num))
      (.exact (5887049137903371) (-50) (by norm_num))
      (.exact (-5150992073805005) (-54) (by norm_num))
  have m : At (rmul (lit (-0.5)) a) (2899192260119757 / 1125899906842624) (-1 / 8) :=
    At.rmul mhalf ha (.exact (2899192260119757) (-50) (by norm_num))
      (.exact (-1) (-3) (by norm_num))
  have q : At (brugQ b a) (2899192260119757 / 562949953421312) (-1 / 4) :=
    At.mul (p := (2899192260119757 / 562949953421312)) (q := 0) (r := 0) (s := (-1 / 4)) m hb
      (.exact (2899192260119757) (-49) (by norm_num))
      (.exact (0) (0) (by norm_num))
      (.exact (0) (0) (by norm_num))
      (.exact (-1) (-2) (by norm_num))
      (.exact (2899192260119757) (-49) (by norm_num))
      (.exact (-1) (-2) (by norm_num))
  have dd : At (Cx.sq (rmul (lit 0.5) (brugP (lit 0) b a)) - brugQ b a)
      (88664617663857 / 1125899906842624) (-647392446434509 / 18014398509481984) :=
    At.sub sq q (.exact (88664617663857) (-50) (by norm_num))
      (.exact (-647392446434509) (-54) (by norm_num))
  have r : At (brugRoot (lit 0) b a)
      (323696223217255 / 1125899906842624) (-4503599627370489 / 72057594037927936) :=
    At.root (h := (3118742741954079 / 36028797018963968)) (s := (5956010507197503 / 36028797018963968))
      (u := (5956010507197503 / 72057594037927936)) (d := (323696223217255 / 562949953421312))
      dd (by norm_num) (.root (6237485483908158) (-56) (by norm_num))
      (.exact (5956010507197503) (-55) (by norm_num))
      (.exact (5956010507197503) (-56) (by norm_num))
      (.root (5179139571476080) (-54) (by norm_num))
      (.exact (323696223217255) (-49) (by norm_num))
      (by norm_num)
      (.to (-9007199254740978) (-57) (by norm_num))
  have nh : At (Cx.neg (brugP (lit 0) b a) * Cx.ofReal (lit 0.5))
      (5150992073805005 / 2251799813685248) (-1 / 16) :=
    At.mulHalf (At.neg p) (.exact (5150992073805005) (-51) (by norm_num))
      (.exact (-1) (-4) (by norm_num))
  have s1 : At (Cx.neg (brugP (lit 0) b a) * Cx.ofReal (lit 0.5) + brugRoot (lit 0) b a)
      (5798384520239515 / 2251799813685248) (-9007199254740985 / 72057594037927936) :=
    At.add nh r (.exact (5798384520239515) (-51) (by norm_num))
      (.exact (-9007199254740985) (-56) (by norm_num))
  have s2 : At (Cx.neg (brugP (lit 0) b a) * Cx.ofReal (lit 0.5) - brugRoot (lit 0) b a)
      (4503599627370495 / 2251799813685248) (-7 / 72057594037927936) :=
    At.sub nh r (.exact (4503599627370495) (-51) (by norm_num))
      (.exact (-7) (-56) (by norm_num))
  have i1 : PyFloat.le (lit 0) (brug1 (lit 0) b a).im = false := by
    show PyFloat.le (lit 0 : Dbl).val (brug1 (lit 0) b a).im.val = false
    rw [zero, show (brug1 (lit 0) b a).im.val = _ from s1.im, XR.le_fin]
    norm_num
  have i2 : PyFloat.le (lit 0) (brug2 (lit 0) b a).im = false := by
    show PyFloat.le (lit 0 : Dbl).val (brug2 (lit 0) b a).im.val = false
    rw [zero, show (brug2 (lit 0) b a).im.val = _ from s2.im, XR.le_fin]
    norm_num
  unfold brugMix
  rw [i1, i2]
  simp

namespace Spec

/-- Bruggeman's equation for inclusions of permittivity `b`, with the share `φ` of the volume, in a
host of permittivity `a`, multiplied by its denominators. -/
def BruggemanC (φ : ℝ) (a b e : ℂ) : Prop :=
  (1 - φ) * (a - e) * (b + 2 * e) + φ * (b - e) * (a + 2 * e) = 0

/-- A permittivity of ordinary size without gain. -/
def OrdinaryPassive (z : Cx Dbl) : Prop :=
  ∃ a, StandsForCx z a ∧ 1 / 1000 ≤ ‖a‖ ∧ ‖a‖ ≤ 1000 ∧ 0 ≤ a.im

end Spec

section

variable [SciPy Dbl]

/-- C142 (full statement, refuted below): a Bruggeman medium of materials without gain whose
permittivities have an ordinary size reports a solution of Bruggeman's equation without gain, within
ten per cent. -/
def C142_statement : Prop :=
  ∀ (s : Spectrum Dbl), Aligned s → GoodMetres s → (∃ ty xs, s.values = .array ty xs) →
    ∀ (m1 m2 : Material Dbl) (f : Dbl) (φ : ℝ), f.val = .fin φ → 0 ≤ φ → φ ≤ 1 → ∀ e1 e2,
    (m1.getPermittivity s).1 = .ok e1 → (m2.getPermittivity s).1 = .ok e2 →
    (∀ z ∈ points e1, OrdinaryPassive z) → (∀ z ∈ points e2, OrdinaryPassive z) →
    ∃ m, (effectiveMedium .bruggeman s m1 m2 f).1 = .ok m ∧
      ∀ q : Spectrum Dbl, Aligned q → q.std = s.std → ∃ c, (m.getPermittivity q).1 = .ok c ∧
        ∀ (i : ℕ) (z w : Cx Dbl) (a b : ℂ), (points e1)[i]? = some z → (points e2)[i]? = some w →
          StandsForCx z a → StandsForCx w b →
          ∃ u x e, (points c)[i]? = some u ∧ StandsForCx u x ∧ BruggemanC φ a b e ∧ 0 ≤ e.im ∧
            ‖x - e‖ ≤ ‖e‖ / 10

/-- The permittivity -5.15 + 0.25j. -/
def metalCx : Cx Dbl := ⟨lit (-5.15), lit 0.25⟩

omit [SciPy Dbl] in
theorem metalCx_at : At metalCx (-2899192260119757 / 562949953421312) (1 / 4) := by
  constructor
  · show (lit (-5.15) : Dbl).val = _
    rw [Dbl.val_lit]
    exact Rounds.to (-5798384520239514) (-50) (by norm_num)
  · show (lit 0.25 : Dbl).val = _
    rw [Dbl.val_lit]
    exact Rounds.exact 1 (-2) (by norm_num)

/-- C142 is refuted: without any inclusions of permittivity -5.15 + 0.25j a host of permittivity 2 has
the solution 2, but the medium reports 0. -/
theorem C142_refuted [NumText Dbl] : ¬ C142_statement := by
  intro h
  let rd : String → Res (FileDict Dbl) := fun _ => .error .os
  obtain ⟨m1, -, p1⟩ := fixed_oneMetre rd ⟨intDbl 2, intDbl 0⟩
  obtain ⟨m2, -, p2⟩ := fixed_oneMetre rd metalCx
  have hh : IntCx (cplxOf (intDbl 2) (intDbl 0)) 2 0 :=
    cplx_int (intDbl_val (by norm_num)) (intDbl_val (by norm_num)) (by norm_num) (by norm_num)
  obtain ⟨b1, b2⟩ := cplxOf_val metalCx_at.re metalCx_at.im
  set e1 := cplxOf (intDbl 2) (intDbl 0) with he1
  set e2 := cplxOf metalCx.re metalCx.im with he2
  have a1 : e1.re.val = .fin 2 := by exact_mod_cast hh.re
  have a2 : e1.im.val = .fin 0 := by exact_mod_cast hh.im
  have hmix := brug_nothing ⟨a1, a2⟩ ⟨b1, b2⟩
  have sa : StandsForCx e1 ⟨2, 0⟩ := ⟨a1, a2⟩
  have sb : StandsForCx e2 ⟨-2899192260119757 / 562949953421312, 1 / 4⟩ := ⟨b1, b2⟩
  have n1 : ∀ z ∈ points (.array [e1]), OrdinaryPassive z := by
    intro z hz
    rw [show z = e1 from List.mem_singleton.1 hz]
    refine ⟨_, sa, ?_, ?_, le_rfl⟩
    · exact le_trans (by norm_num) (Complex.abs_re_le_norm _)
    · exact (Complex.norm_le_abs_re_add_abs_im _).trans (by norm_num)
  have n2 : ∀ z ∈ points (.array [e2]), OrdinaryPassive z := by
    intro z hz
    rw [show z = e2 from List.mem_singleton.1 hz]
    refine ⟨_, sb, ?_, ?_, by norm_num⟩
    · exact le_trans (by norm_num [abs_of_pos]) (Complex.abs_im_le_norm _)
    · refine (Complex.norm_le_abs_re_add_abs_im _).trans ?_
      rw [abs_of_neg (by norm_num), abs_of_pos (by norm_num)]
      norm_num
  obtain ⟨m, hm, hq⟩ := h oneMetre oneMetre_aligned oneMetre_good ⟨_, _, rfl⟩ m1 m2 (lit 0) 0
    lit_zero_val le_rfl zero_le_one _ _ p1 p2 n1 n2
  obtain ⟨c, c1, c2⟩ := hq oneMetre oneMetre_aligned rfl
  obtain ⟨u, x, e, u1, u2, u3, u4, u5⟩ := c2 0 e1 e2 _ _ rfl rfl sa sb
  obtain ⟨-, -, d1, d2, eps, k1, k2, k3, k4⟩ := medium_entries oneMetre_aligned
    (GoodMetres_mag oneMetre_good) hm
  rw [p1] at k1
  cases k1
  rw [p2] at k2
  cases k2
  have keps : eps = .array [Cx.ofReal (lit 0)] := by
    have : mixVals .bruggeman (lit 0) (.array [e1]) (.array [e2]) = .ok (.array [Cx.ofReal (lit 0)]) := by
      simp [mixVals, bind, Except.bind, CVals.zip, hmix]
    exact Except.ok.inj (k3.symm.trans this)
  subst keps
  obtain ⟨c', c1', c2'⟩ := k4 (by
    intro z hz
    rw [show z = _ from List.mem_singleton.1 hz]
    exact ⟨⟨0, lit_zero_val, .inl rfl⟩, ⟨0, lit_zero_val, .inl rfl⟩⟩) oneMetre oneMetre_aligned rfl
  have hc : c' = c := Except.ok.inj (c1'.symm.trans c1)
  subst hc
  obtain ⟨u', w1', ⟨v', v1', v2'⟩, ⟨y', y1', y2'⟩⟩ := c2' 0 _ 0 0 rfl lit_zero_val lit_zero_val
  have hw : u' = u := Option.some.inj (w1'.symm.trans u1)
  subst hw
  have hv : v' = 0 := by simpa using v2'
  have hy : y' = 0 := by simpa using y2'
  have hx : x = 0 := by
    refine stands_unique u2 ⟨?_, ?_⟩
    · rw [v1', hv]; rfl
    · rw [y1', hy]; rfl
  have he : e = 2 := by
    unfold BruggemanC at u3
    have u3' : ((⟨2, 0⟩ : ℂ) - e) * (⟨-2899192260119757 / 562949953421312, 1 / 4⟩ + 2 * e) = 0 := by
      simpa using u3
    rcases mul_eq_zero.1 u3' with k | k
    · rw [← sub_eq_zero.1 k]
      apply Complex.ext <;> simp
    · have := congrArg Complex.im k
      simp at this
      linarith
  rw [hx, he] at u5
  norm_num at u5

end

end

end Disp

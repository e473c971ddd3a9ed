import Verif.Lemmas.RoundingMono
import Verif.Props.DoubleConversions
import Verif.Props.DoublePassive
import Verif.Props.SpectrumPhysics
import Verif.Props.TableAccuracy
/-!
# C126: conversions keep or reverse the order of doubles

`C08` states the order of converted values in ideal arithmetic. Here the same is proved for
double precision, where every product, quotient and decimal rounding of a conversion is rounded
(with overflow to infinity and gradual underflow): `/repo/src/dispersion/spectrum.py`, lines
110-262.
-/

namespace Disp

open Spec

/-! ## Order in the extended reals -/

/-- `x ≤ y` among the extended reals of `[0, inf]`. -/
structure Ord (x y : XR) : Prop where
  left : NonNeg x
  right : NonNeg y
  le : PyFloat.le x y = true

theorem Ord.cases {P : XR → XR → Prop} {x y : XR} (h : Ord x y)
    (h1 : ∀ a b : ℝ, 0 ≤ a → a ≤ b → P (.fin a) (.fin b))
    (h2 : ∀ a : ℝ, 0 ≤ a → P (.fin a) .pinf) (h3 : P .pinf .pinf) : P x y := by
  obtain ⟨hx, hy, h⟩ := h
  cases x with
  | ninf => cases hx
  | nan => cases hx
  | pinf =>
    cases y with
    | ninf => cases hy
    | nan => cases hy
    | pinf => exact h3
    | fin y => simp at h
  | fin x =>
    cases y with
    | ninf => cases hy
    | nan => cases hy
    | pinf => exact h2 x hx
    | fin y => exact h1 x y hx (by simpa using h)

theorem Ord.fin {a b : ℝ} (h0 : 0 ≤ a) (h : a ≤ b) : Ord (.fin a) (.fin b) :=
  ⟨h0, h0.trans h, by simpa using h⟩

theorem Ord.top {a : XR} (h0 : NonNeg a) : Ord a .pinf := by
  refine ⟨h0, trivial, ?_⟩
  cases a with
  | fin a => simp
  | pinf => simp
  | ninf => cases h0
  | nan => cases h0

theorem Ord.trans {x y z : XR} (h : Ord x y) (h' : Ord y z) : Ord x z := by
  revert h'
  refine h.cases (P := fun x y => Ord y z → Ord x z) ?_ ?_ ?_
  · intro a b h0 hab h'
    obtain ⟨-, hz, hl⟩ := h'
    cases z with
    | fin z => exact .fin h0 (hab.trans (by simpa using hl))
    | pinf => exact .top h0
    | ninf => cases hz
    | nan => cases hz
  · intro a h0 h'
    obtain ⟨-, hz, hl⟩ := h'
    cases z with
    | fin z => simp at hl
    | pinf => exact .top h0
    | ninf => cases hz
    | nan => cases hz
  · intro h'; exact h'

theorem Ord.mulC {k : ℝ} (hk : 0 < k) {x y : XR} (h : Ord x y) :
    Ord (XR.fin k * x) (XR.fin k * y) :=
  ⟨h.left.mul hk, h.right.mul hk, le_mul hk h.left h.right h.le⟩

theorem Ord.mulC' {k : ℝ} (hk : 0 < k) {x y : XR} (h : Ord x y) :
    Ord (x * XR.fin k) (y * XR.fin k) :=
  ⟨h.left.mul' hk, h.right.mul' hk, le_mul' hk h.left h.right h.le⟩

theorem Ord.divC {k : ℝ} (hk : 0 < k) {x y : XR} (h : Ord x y) :
    Ord (x / XR.fin k) (y / XR.fin k) := by
  have e : XR.pinf / XR.fin k = XR.pinf := by
    show (if k < 0 then XR.ninf else XR.pinf) = _
    rw [if_neg (not_lt.2 hk.le)]
  refine h.cases (P := fun x y => Ord (x / XR.fin k) (y / XR.fin k)) ?_ ?_ ?_
  · intro a b h0 hab
    rw [XR.div_fin_of_ne _ hk.ne', XR.div_fin_of_ne _ hk.ne']
    exact .fin (div_nonneg h0 hk.le) (by gcongr)
  · intro a h0
    rw [XR.div_fin_of_ne _ hk.ne', e]
    exact .top (div_nonneg h0 hk.le)
  · rw [e]; exact .top trivial

theorem Ord.round (d : ℕ) {x y : XR} (h : Ord x y) :
    Ord (PyFloat.round d x) (PyFloat.round d y) :=
  ⟨h.left.round d, h.right.round d, le_round d h.left h.right h.le⟩

/-! ## Order in double precision -/

/-- Rounding to doubles, with overflow, keeps the order. -/
theorem Ord.rnd {x y : XR} (h : Ord x y) : Ord (Dbl.rnd x).val (Dbl.rnd y).val := by
  have nnv : ∀ a : ℝ, 0 ≤ a → NonNeg (Dbl.rnd (.fin a)).val := by
    intro a h0
    by_cases hb : |nearest a| < 2 ^ 1024
    · rw [Dbl.rnd_fin hb]; exact nearest_nn h0
    · rcases h0.eq_or_lt with h1 | h1
      · exact absurd (by rw [← h1, nearest_zero, abs_zero]; positivity) hb
      · rw [Dbl.rnd_above hb h1]; trivial
  refine h.cases (P := fun x y => Ord (Dbl.rnd x).val (Dbl.rnd y).val) ?_ ?_ ?_
  · intro a b h0 hab
    by_cases hb : |nearest b| < 2 ^ 1024
    · have hm := nearest_mono hab
      have ha0 := nearest_nn h0
      have ha : |nearest a| < 2 ^ 1024 := by
        rw [abs_of_nonneg ha0]
        rw [abs_of_nonneg (ha0.trans hm)] at hb
        linarith
      rw [Dbl.rnd_fin ha, Dbl.rnd_fin hb]
      exact .fin ha0 hm
    · rcases (h0.trans hab).eq_or_lt with h1 | h1
      · exact absurd (by rw [← h1, nearest_zero, abs_zero]; positivity) hb
      · rw [Dbl.rnd_above hb h1]; exact .top (nnv a h0)
  · intro a h0; exact .top (nnv a h0)
  · exact .top trivial

/-- `a ≤ b` among the doubles of `[0, inf]`. -/
def DOrd (a b : Dbl) : Prop := Ord a.val b.val

/-- A positive finite double. -/
def PosConst (k : Dbl) : Prop := ∃ y : ℝ, k.val = .fin y ∧ 0 < y

theorem Approx.posConst {n k : ℕ} {x : ℝ} {a : Dbl} (h : Approx n k x a) : PosConst a := by
  obtain ⟨⟨y, h1, h2⟩, -⟩ := h
  exact ⟨y, h1, h2.right⟩

theorem DOrd.mulC {k : Dbl} (hk : PosConst k) {a b : Dbl} (h : DOrd a b) : DOrd (k * a) (k * b) := by
  obtain ⟨y, h1, h2⟩ := hk
  show Ord (Dbl.rnd (k.val * a.val)).val (Dbl.rnd (k.val * b.val)).val
  rw [h1]; exact (Ord.mulC h2 h).rnd

theorem DOrd.mulC' {k : Dbl} (hk : PosConst k) {a b : Dbl} (h : DOrd a b) : DOrd (a * k) (b * k) := by
  obtain ⟨y, h1, h2⟩ := hk
  show Ord (Dbl.rnd (a.val * k.val)).val (Dbl.rnd (b.val * k.val)).val
  rw [h1]; exact (Ord.mulC' h2 h).rnd

theorem DOrd.divC {k : Dbl} (hk : PosConst k) {a b : Dbl} (h : DOrd a b) : DOrd (a / k) (b / k) := by
  obtain ⟨y, h1, h2⟩ := hk
  show Ord (Dbl.rnd (a.val / k.val)).val (Dbl.rnd (b.val / k.val)).val
  rw [h1]; exact (Ord.divC h2 h).rnd

theorem DOrd.round {d : ℕ} (hd : d ≤ 15) {a b : Dbl} (h : DOrd a b) :
    DOrd (PyFloat.round d a) (PyFloat.round d b) := by
  have hk : PosConst (lit (10 ^ d : ℚ) : Dbl) := (approx_pow _ d rfl hd).posConst
  have h1 := DOrd.mulC' hk h
  have h2 : DOrd (Dbl.rint (a * lit (10 ^ d : ℚ))) (Dbl.rint (b * lit (10 ^ d : ℚ))) :=
    (Ord.round 0 h1).rnd
  exact DOrd.divC hk h2

/-- What the two reciprocals of `spectrum.py` have in common: infinity up to a threshold, the
rounded reciprocal above it, zero at infinity. -/
structure DblInv (inv : Dbl → Dbl) (θ : ℝ) : Prop where
  thr : 0 ≤ θ
  low : ∀ (x : Dbl) (r : ℝ), x.val = .fin r → 0 ≤ r → r ≤ θ → (inv x).val = .pinf
  high : ∀ (x : Dbl) (r : ℝ), x.val = .fin r → θ < r → inv x = Dbl.rnd (.fin (1 / r))
  top : ∀ x : Dbl, x.val = .pinf → (inv x).val = .fin 0

theorem lit_zero_val : (lit 0 : Dbl).val = .fin 0 := by
  exact_mod_cast Dbl.lit_int (n := 0) (by norm_num)

theorem lit_one_val : (lit 1 : Dbl).val = .fin 1 := by
  exact_mod_cast Dbl.lit_int (n := 1) (by norm_num)

theorem one_over {x : Dbl} {r : ℝ} (hx : x.val = .fin r) (hr : r ≠ 0) :
    (lit 1 / x : Dbl) = Dbl.rnd (.fin (1 / r)) := by
  show Dbl.rnd ((lit 1 : Dbl).val / x.val) = _
  rw [lit_one_val, hx, XR.div_fin_of_ne _ hr]

theorem dblInv_scalar : DblInv safeInverseScalar 0 := by
  refine ⟨le_rfl, ?_, ?_, ?_⟩
  · intro x r hx h0 h1
    have h : PyFloat.eq x (lit 0) = true := by
      show PyFloat.eq x.val (lit 0 : Dbl).val = true
      rw [hx, lit_zero_val, le_antisymm h1 h0]; simp
    unfold safeInverseScalar
    rw [h]; rfl
  · intro x r hx h1
    have h : PyFloat.eq x (lit 0) = false := by
      show PyFloat.eq x.val (lit 0 : Dbl).val = false
      rw [hx, lit_zero_val]; simp [h1.ne']
    have h' : PyFloat.eq x PyFloat.inf = false := by
      show PyFloat.eq x.val (PyFloat.inf : XR) = false
      rw [hx]; simp
    unfold safeInverseScalar
    rw [h, h']
    simp only [Bool.false_eq_true, if_false]
    exact one_over hx h1.ne'
  · intro x hx
    have h : PyFloat.eq x (lit 0) = false := by
      show PyFloat.eq x.val (lit 0 : Dbl).val = false
      rw [hx, lit_zero_val]; rfl
    have h' : PyFloat.eq x PyFloat.inf = true := by
      show PyFloat.eq x.val (PyFloat.inf : XR) = true
      rw [hx]; simp
    unfold safeInverseScalar
    rw [h, h']
    simp only [Bool.false_eq_true, if_false, if_true]
    exact lit_zero_val

theorem close_fin {x : Dbl} {r z : ℝ} (hx : x.val = .fin r) (h0 : 0 ≤ r)
    (hz : (lit 1e-8 : Dbl).val = .fin z) : isCloseZero x = decide (r ≤ z) := by
  have habs : (PyFloat.abs x : Dbl).val = .fin r := by
    show (Dbl.rnd (PyFloat.abs x.val)).val = .fin r
    rw [hx]
    have : (PyFloat.abs (XR.fin r) : XR) = XR.fin r := by simp [abs_of_nonneg h0]
    rw [this]
    exact Dbl.rnd_double (Dbl.isDouble_val hx)
  show PyFloat.le (PyFloat.abs x : Dbl).val (lit 1e-8 : Dbl).val = _
  rw [habs, hz]; simp

theorem dblInv_elem : ∃ θ, DblInv safeInverseElem θ := by
  obtain ⟨z, hz, hz0⟩ := (Approx.lit (q := 1e-8) (k := 8) ⟨by norm_num, by norm_num⟩
    (by norm_num)).posConst
  refine ⟨z, hz0.le, ?_, ?_, ?_⟩
  · intro x r hx h0 h1
    unfold safeInverseElem
    rw [close_fin hx h0 hz, decide_eq_true h1]; rfl
  · intro x r hx h1
    have h' : PyFloat.eq x PyFloat.inf = false := by
      show PyFloat.eq x.val (PyFloat.inf : XR) = false
      rw [hx]; simp
    unfold safeInverseElem
    rw [close_fin hx (hz0.trans h1).le hz, decide_eq_false (not_le.2 h1), h']
    simp only [Bool.false_eq_true, if_false]
    exact one_over hx (hz0.trans h1).ne'
  · intro x hx
    have h : isCloseZero x = false := by
      show PyFloat.le (PyFloat.abs x : Dbl).val (lit 1e-8 : Dbl).val = false
      have : (PyFloat.abs x : Dbl).val = .pinf := by
        show (Dbl.rnd (PyFloat.abs x.val)).val = .pinf
        rw [hx]; rfl
      rw [this, hz]; simp
    have h' : PyFloat.eq x PyFloat.inf = true := by
      show PyFloat.eq x.val (PyFloat.inf : XR) = true
      rw [hx]; simp
    unfold safeInverseElem
    rw [h, h']
    simp only [Bool.false_eq_true, if_false, if_true]
    exact lit_zero_val

/-- The reciprocals reverse the order. -/
theorem DblInv.anti {inv : Dbl → Dbl} {θ : ℝ} (hi : DblInv inv θ) {a b : Dbl} (h : DOrd a b) :
    DOrd (inv b) (inv a) := by
  have nnv : ∀ (x : Dbl) (r : ℝ), x.val = .fin r → 0 ≤ r → NonNeg (inv x).val := by
    intro x r hx h0
    by_cases h1 : r ≤ θ
    · rw [hi.low x r hx h0 h1]; trivial
    · rw [hi.high x r hx (not_le.1 h1)]
      exact (Ord.rnd (.fin (a := 0) le_rfl (one_div_nonneg.2 h0))).right
  have key : ∀ x y : XR, Ord x y → a.val = x → b.val = y → DOrd (inv b) (inv a) := by
    intro x y hxy
    refine hxy.cases (P := fun x y => a.val = x → b.val = y → DOrd (inv b) (inv a)) ?_ ?_ ?_
    · intro r s h0 hrs ha hb
      by_cases h1 : r ≤ θ
      · show Ord (inv b).val (inv a).val
        rw [hi.low a r ha h0 h1]
        exact .top (nnv b s hb (h0.trans hrs))
      · have h1' := not_le.1 h1
        rw [hi.high a r ha h1', hi.high b s hb (h1'.trans_le hrs)]
        have hr : 0 < r := hi.thr.trans_lt h1'
        exact Ord.rnd (.fin (one_div_nonneg.2 (hr.le.trans hrs)) (one_div_le_one_div_of_le hr hrs))
    · intro r h0 ha hb
      show Ord (inv b).val (inv a).val
      rw [hi.top b hb]
      have hn := nnv a r ha h0
      cases hv : (inv a).val with
      | fin v => rw [hv] at hn; exact .fin le_rfl hn
      | pinf => exact .top (show (0 : ℝ) ≤ 0 from le_rfl)
      | ninf => rw [hv] at hn; cases hn
      | nan => rw [hv] at hn; cases hn
    · intro ha hb
      show Ord (inv b).val (inv a).val
      rw [hi.top b hb, hi.top a ha]
      exact .fin le_rfl le_rfl
  exact key _ _ h rfl rfl

theorem fromElem_dord {inv : Dbl → Dbl} {θ : ℝ} (hi : DblInv inv θ) {t u : String}
    (hp : (t, u) ∈ pairs) {a b : Dbl} (h : DOrd a b) :
    if t = "wavelength" then DOrd (fromElem inv t u a) (fromElem inv t u b)
    else DOrd (fromElem inv t u b) (fromElem inv t u a) := by
  have ha := hi.anti h
  have hl : ∀ (q : ℚ) (k : ℕ), Mag k (q : ℝ) → k ≤ 100 → PosConst (lit q : Dbl) :=
    fun q k hm hk => (Approx.lit hm (by omega)).posConst
  rcases pairs_cases hp with ⟨rfl, rfl⟩ | ⟨rfl, rfl⟩ | ⟨rfl, rfl⟩ | ⟨rfl, rfl⟩ | ⟨rfl, rfl⟩ |
    ⟨rfl, rfl⟩ | ⟨rfl, rfl⟩ | ⟨rfl, rfl⟩ | ⟨rfl, rfl⟩ <;>
  simp only [fromElem, String.reduceEq, if_true, if_false]
  · exact h
  · exact DOrd.mulC' (hl _ 15 ⟨by norm_num, by norm_num⟩ (by norm_num)) h
  · exact DOrd.mulC' (hl _ 15 ⟨by norm_num, by norm_num⟩ (by norm_num)) h
  · exact DOrd.mulC' (hl _ 15 ⟨by norm_num, by norm_num⟩ (by norm_num)) h
  · exact DOrd.mulC' (hl _ 15 ⟨by norm_num, by norm_num⟩ (by norm_num)) h
  · exact DOrd.mulC approx_c.posConst ha
  · exact DOrd.mulC approx_hce.posConst ha
  · exact DOrd.mulC approx_twoPiC.posConst ha
  · exact DOrd.mulC' (hl _ 15 ⟨by norm_num, by norm_num⟩ (by norm_num))
      (DOrd.mulC approx_twoPi.posConst ha)

theorem toElem_dord {inv : Dbl → Dbl} {θ : ℝ} (hi : DblInv inv θ) {t u : String}
    (hp : (t, u) ∈ pairs) {a b : Dbl} (h : DOrd a b) :
    if t = "wavelength" then DOrd (toElem inv t u a) (toElem inv t u b)
    else DOrd (toElem inv t u b) (toElem inv t u a) := by
  have ha := hi.anti h
  have hl : ∀ (q : ℚ) (k : ℕ), Mag k (q : ℝ) → k ≤ 100 → PosConst (lit q : Dbl) :=
    fun q k hm hk => (Approx.lit hm (by omega)).posConst
  rcases pairs_cases hp with ⟨rfl, rfl⟩ | ⟨rfl, rfl⟩ | ⟨rfl, rfl⟩ | ⟨rfl, rfl⟩ | ⟨rfl, rfl⟩ |
    ⟨rfl, rfl⟩ | ⟨rfl, rfl⟩ | ⟨rfl, rfl⟩ | ⟨rfl, rfl⟩ <;>
  simp only [toElem, String.reduceEq, if_true, if_false]
  · exact h
  · exact DOrd.round (by norm_num) (DOrd.mulC' (hl _ 15 ⟨by norm_num, by norm_num⟩ (by norm_num)) h)
  · exact DOrd.round (by norm_num) (DOrd.mulC' (hl _ 15 ⟨by norm_num, by norm_num⟩ (by norm_num)) h)
  · exact DOrd.round (by norm_num) (DOrd.mulC' (hl _ 15 ⟨by norm_num, by norm_num⟩ (by norm_num)) h)
  · exact DOrd.round (by norm_num) (DOrd.mulC' (hl _ 15 ⟨by norm_num, by norm_num⟩ (by norm_num)) h)
  · exact DOrd.mulC approx_c.posConst ha
  · exact DOrd.round (by norm_num) (DOrd.mulC approx_hce.posConst ha)
  · exact DOrd.mulC approx_twoPiC.posConst ha
  · exact DOrd.mulC approx_twoPi.posConst
      (hi.anti (DOrd.mulC' approx_centi.posConst h))

theorem conv_dord {inv : Dbl → Dbl} {θ : ℝ} (hi : DblInv inv θ) {t u t' u' : String}
    (hp : (t, u) ∈ pairs) (hp' : (t', u') ∈ pairs) {a b : Dbl} (h : DOrd a b) :
    if (t = "wavelength" ↔ t' = "wavelength") then
      DOrd (toElem inv t' u' (fromElem inv t u a)) (toElem inv t' u' (fromElem inv t u b))
    else
      DOrd (toElem inv t' u' (fromElem inv t u b)) (toElem inv t' u' (fromElem inv t u a)) := by
  have h1 := fromElem_dord hi hp h
  by_cases ht : t = "wavelength"
  · rw [if_pos ht] at h1
    have h2 := toElem_dord hi hp' h1
    by_cases ht' : t' = "wavelength"
    · rw [if_pos ht'] at h2; rw [if_pos (by simp [ht, ht'])]; exact h2
    · rw [if_neg ht'] at h2; rw [if_neg (by simp [ht, ht'])]; exact h2
  · rw [if_neg ht] at h1
    have h2 := toElem_dord hi hp' h1
    by_cases ht' : t' = "wavelength"
    · rw [if_pos ht'] at h2; rw [if_neg (by simp [ht, ht'])]; exact h2
    · rw [if_neg ht'] at h2; rw [if_pos (by simp [ht, ht'])]; exact h2

/-! ## The statements -/

/-- A double of `[0, inf]`: not NaN and not negative. -/
def Spec.Physical (x : Dbl) : Prop := NonNeg x.val

/-- Every value of `ys` lies between two values of `xs`, all in `[0, inf]`. -/
def Spec.Amid (xs ys : List Dbl) : Prop :=
  ∀ y ∈ ys, Physical y ∧ ∃ a ∈ xs, ∃ b ∈ xs, Physical a ∧ Physical b ∧
    PyFloat.le a y = true ∧ PyFloat.le y b = true

theorem Spec.Physical.refl {x : Dbl} (hp : Physical x) : DOrd x x := by
  refine ⟨hp, hp, ?_⟩
  unfold Physical at hp
  cases hv : x.val with
  | fin a => simp
  | pinf => simp
  | ninf => rw [hv] at hp; cases hp
  | nan => rw [hv] at hp; cases hp

/-- C126 for scalars: in double precision, on [0, inf], a conversion preserves the order if both
types are wavelengths or both are reciprocal, reverses it otherwise, and gives values of
[0, inf]. -/
theorem C126_order (t u c t' u' c' : String) (hc : (lower t, lower u, c) ∈ names)
    (hc' : (lower t', u', c') ∈ names) (x y : Dbl) (hx : Physical x) (hy : Physical y)
    (h : PyFloat.le x y = true) :
    ∃ x' y', convertScalar t u t' u' x = .ok x' ∧ convertScalar t u t' u' y = .ok y' ∧
      Physical x' ∧ Physical y' ∧
      if (lower t = "wavelength" ↔ lower t' = "wavelength") then PyFloat.le x' y' = true
      else PyFloat.le y' x' = true := by
  rw [convertScalar_eq hc hc', convertScalar_eq hc hc']
  have hk := conv_dord dblInv_scalar (names_pairs _ hc) (names_pairs _ hc') ⟨hx, hy, h⟩
  simp only at hk
  refine ⟨_, _, rfl, rfl, ?_⟩
  split_ifs at hk with hs
  · exact ⟨hk.left, hk.right, by rw [if_pos hs]; exact hk.le⟩
  · exact ⟨hk.right, hk.left, by rw [if_neg hs]; exact hk.le⟩

/-- C126 for arrays: in double precision a non-decreasing list in [0, inf] converts to a
non-decreasing list if both types are of the same kind, to a non-increasing one otherwise, with
values in [0, inf]. -/
theorem C126_sorted (t u c t' u' c' : String) (hc : (lower t, lower u, c) ∈ names)
    (hc' : (lower t', u', c') ∈ names) (xs : List Dbl) (hpos : ∀ x ∈ xs, Physical x)
    (hs : xs.Pairwise (fun x y => PyFloat.le x y = true)) :
    ∃ ys, convertList t u t' u' xs = .ok (.array .float ys) ∧ ys.length = xs.length ∧
      (∀ y ∈ ys, Physical y) ∧
      if (lower t = "wavelength" ↔ lower t' = "wavelength") then
        ys.Pairwise (fun x y => PyFloat.le x y = true)
      else ys.Pairwise (fun x y => PyFloat.le y x = true) := by
  rw [convertList_eq hc hc']
  obtain ⟨θ, hi⟩ := dblInv_elem
  have hk := fun {a b : Dbl} (h : DOrd a b) =>
    conv_dord hi (names_pairs _ hc) (names_pairs _ hc') h
  simp only at hk
  refine ⟨_, rfl, by simp, ?_, ?_⟩
  · intro y hy
    obtain ⟨x, hx, rfl⟩ := List.mem_map.1 hy
    have := hk (hpos x hx).refl
    split_ifs at this
    · exact this.left
    · exact this.left
  · split_ifs with hsame
    · rw [List.pairwise_map]
      refine hs.imp_of_mem ?_
      intro a b ha hb hab
      have := hk (a := a) (b := b) ⟨hpos a ha, hpos b hb, hab⟩
      rw [if_pos hsame] at this; exact this.le
    · rw [List.pairwise_map]
      refine hs.imp_of_mem ?_
      intro a b ha hb hab
      have := hk (a := a) (b := b) ⟨hpos a ha, hpos b hb, hab⟩
      rw [if_neg hsame] at this; exact this.le

theorem Ord.noNaN {x y : XR} (h : Ord x y) : PyFloat.isNaN x = false ∧ PyFloat.isNaN y = false := by
  refine h.cases (P := fun x y => PyFloat.isNaN x = false ∧ PyFloat.isNaN y = false) ?_ ?_ ?_
  · intro a b _ _; exact ⟨rfl, rfl⟩
  · intro a _; exact ⟨rfl, rfl⟩
  · exact ⟨rfl, rfl⟩

/-- Values between accepted values are converted to values between accepted values. -/
theorem amid_within {t u t' u' : String} (hp : (t, u) ∈ pairs) (hp' : (t', u') ∈ pairs)
    {inv : Dbl → Dbl} {θ : ℝ} (hi : DblInv inv θ) {xs ys zs : List Dbl} (h : Amid xs ys)
    (hw : Within zs (xs.map (fun x => toElem inv t' u' (fromElem inv t u x)))) :
    Within zs (ys.map (fun x => toElem inv t' u' (fromElem inv t u x))) ∧
      NoNaN (ys.map (fun x => toElem inv t' u' (fromElem inv t u x))) := by
  have key : ∀ y ∈ ys, ∃ a ∈ xs, ∃ b ∈ xs,
      DOrd (toElem inv t' u' (fromElem inv t u a)) (toElem inv t' u' (fromElem inv t u y)) ∧
      DOrd (toElem inv t' u' (fromElem inv t u y)) (toElem inv t' u' (fromElem inv t u b)) := by
    intro y hy
    obtain ⟨py, a, ha, b, hb, pa, pb, hay, hyb⟩ := h y hy
    have h1 := conv_dord hi hp hp' (a := a) (b := y) ⟨pa, py, hay⟩
    have h2 := conv_dord hi hp hp' (a := y) (b := b) ⟨py, pb, hyb⟩
    split_ifs at h1 h2
    · exact ⟨a, ha, b, hb, h1, h2⟩
    · exact ⟨b, hb, a, ha, h2, h1⟩
  refine ⟨?_, ?_⟩
  · intro y' hy'
    obtain ⟨y, hy, rfl⟩ := List.mem_map.1 hy'
    obtain ⟨a, ha, b, hb, h1, h2⟩ := key y hy
    obtain ⟨⟨z, hz, hza⟩, -⟩ := hw _ (List.mem_map_of_mem ha)
    obtain ⟨-, ⟨z', hz', hzb⟩⟩ := hw _ (List.mem_map_of_mem hb)
    exact ⟨⟨z, hz, le_trans' hza h1.le⟩, ⟨z', hz', le_trans' h2.le hzb⟩⟩
  · intro y' hy'
    obtain ⟨y, hy, rfl⟩ := List.mem_map.1 hy'
    obtain ⟨a, ha, b, hb, h1, h2⟩ := key y hy
    exact h1.noNaN.2

theorem converts_list {t u c t' u' c' : String} (hc : (lower t, lower u, c) ∈ names)
    (hc' : (lower t', u', c') ∈ names) (xs : List Dbl) {s : Spectrum Dbl}
    (hs : Spectrum.new (.list .float xs) t u = .ok s) :
    s.convertTo t' u' = .ok (.array .float (xs.map (fun x =>
      toElem safeInverseElem (lower t') c' (fromElem safeInverseElem (lower t) c x)))) := by
  have := convertList_eq hc hc' xs
  unfold convertList at this
  rw [hs] at this
  exact this

/-- How a range sees its own type and unit. -/
theorem own_names {raw : Raw Dbl} {t u : String} {r : Spectrum Dbl}
    (h : Spectrum.new raw t u = .ok r) : (lower r.stype, r.unit, r.unit) ∈ names ∧
      r.unit ∈ pairs.map (·.2) := by
  obtain ⟨h1, h2, -⟩ := C01_stored _ _ _ _ h
  have h3 : lower (lower t) = lower t := (names_lower _ h2).1
  rw [h1, h3]
  exact ⟨pairs_names _ (names_pairs _ h2), List.mem_map.2 ⟨_, names_pairs _ h2, rfl⟩⟩

/-- C126, ranges: the values that a range accepts form an interval, in every type and unit. If
the range `r` contains the spectrum of the values `xs`, it contains every spectrum of values
between values of `xs`. -/
theorem C126_interval (raw : Raw Dbl) (tr ur : String) (r : Spectrum Dbl)
    (hr : Spectrum.new raw tr ur = .ok r) (hn : NoNaN r.values.toList)
    (t u : String) (xs ys : List Dbl) (hx : ∀ x ∈ xs, Physical x) (hy : ys ≠ [])
    (h : Amid xs ys) (s : Spectrum Dbl) (hs : Spectrum.new (.list .float xs) t u = .ok s)
    (b : Bool) (hb : r.contains s = .ok b) :
    ∃ s', Spectrum.new (.list .float ys) t u = .ok s' ∧ r.contains s' = .ok true := by
  obtain ⟨-, hc, -⟩ := C01_stored _ _ _ _ hs
  obtain ⟨hc', hu⟩ := own_names hr
  obtain ⟨θ, hi⟩ := dblInv_elem
  have hxs := converts_list hc hc' xs hs
  obtain ⟨-, ov, h1, h2⟩ := C10_sound r s b hn hb
  rw [hxs] at h1
  cases h1
  have hnx : NoNaN (xs.map (fun x => toElem safeInverseElem (lower r.stype) r.unit
      (fromElem safeInverseElem (lower t) s.unit x))) := by
    intro y hym
    obtain ⟨x, hxm, rfl⟩ := List.mem_map.1 hym
    have := conv_dord hi (names_pairs _ hc) (names_pairs _ hc') (hx x hxm).refl
    split_ifs at this
    · exact this.noNaN.1
    · exact this.noNaN.1
  obtain ⟨-, h3, h4⟩ := h2 hnx
  obtain ⟨h5, h6⟩ := amid_within (names_pairs _ hc) (names_pairs _ hc') hi h h4
  refine ⟨_, new_list hc ys, ?_⟩
  refine (contains_iff r _ _ h3 (converts_list hc hc' ys (new_list hc ys)) ?_ hn h6 hu).1 h5
  simpa [Vals.toList] using hy

/-- C126, ranges, single values: the same for single values `a <= x <= b`. -/
theorem C126_interval_scalar (raw : Raw Dbl) (tr ur : String) (r : Spectrum Dbl)
    (hr : Spectrum.new raw tr ur = .ok r) (hn : NoNaN r.values.toList)
    (t u : String) (a x b : Dbl) (ha : Physical a) (hx : Physical x) (hb : Physical b)
    (hax : PyFloat.le a x = true) (hxb : PyFloat.le x b = true) (s s' : Spectrum Dbl)
    (hs : Spectrum.new (.float a) t u = .ok s) (hs' : Spectrum.new (.float b) t u = .ok s')
    (v v' : Bool) (hv : r.contains s = .ok v) (hv' : r.contains s' = .ok v') :
    ∃ s'', Spectrum.new (.float x) t u = .ok s'' ∧ r.contains s'' = .ok true := by
  obtain ⟨-, hc, -⟩ := C01_stored _ _ _ _ hs
  obtain ⟨hc', hu⟩ := own_names hr
  have hi := dblInv_scalar
  have conv : ∀ (y : Dbl) {p : Spectrum Dbl}, Spectrum.new (.float y) t u = .ok p →
      p.convertTo r.stype r.unit = .ok (.scalar (toElem safeInverseScalar (lower r.stype) r.unit
        (fromElem safeInverseScalar (lower t) s.unit y))) := by
    intro y p hp
    rw [new_scalar hc] at hp
    cases hp
    rw [Spectrum.convertTo_eq, specLookup_ok_iff.2 hc']
    exact convertVals_scalar (names_pairs _ hc') _
  have nn : ∀ y : Dbl, Physical y → PyFloat.isNaN (toElem safeInverseScalar (lower r.stype) r.unit
      (fromElem safeInverseScalar (lower t) s.unit y)) = false := by
    intro y hy
    have := conv_dord hi (names_pairs _ hc) (names_pairs _ hc') hy.refl
    split_ifs at this
    · exact this.noNaN.1
    · exact this.noNaN.1
  have acc : ∀ (y : Dbl) {p : Spectrum Dbl} {w : Bool}, Physical y →
      Spectrum.new (.float y) t u = .ok p → r.contains p = .ok w → r.values.toList ≠ [] ∧
      Within r.values.toList [toElem safeInverseScalar (lower r.stype) r.unit
        (fromElem safeInverseScalar (lower t) s.unit y)] := by
    intro y p w hy hp hw
    obtain ⟨-, ov, h1, h2⟩ := C10_sound r p w hn hw
    rw [conv y hp] at h1
    cases h1
    have := h2 (by
      intro z hz
      simp only [Vals.toList, List.mem_singleton] at hz
      subst hz
      exact nn y hy)
    exact this.2
  obtain ⟨h3, h4⟩ := acc a ha hs hv
  obtain ⟨-, h5⟩ := acc b hb hs' hv'
  have h6 : Within r.values.toList [toElem safeInverseScalar (lower r.stype) r.unit
        (fromElem safeInverseScalar (lower t) s.unit x)] := by
    refine (amid_within (xs := [a, b]) (ys := [x]) (names_pairs _ hc) (names_pairs _ hc') hi ?_ ?_).1
    · intro y hy
      rw [List.mem_singleton] at hy
      subst hy
      exact ⟨hx, a, by simp, b, by simp, ha, hb, hax, hxb⟩
    · intro y hy
      simp only [List.map_cons, List.map_nil, List.mem_cons, List.not_mem_nil, or_false] at hy
      rcases hy with rfl | rfl
      · exact h4 _ (by simp)
      · exact h5 _ (by simp)
  refine ⟨_, new_scalar hc x, ?_⟩
  refine (contains_iff r _ _ h3 (conv x (new_scalar hc x)) (by simp [Vals.toList]) hn ?_ hu).1 h6
  intro z hz
  simp only [Vals.toList, List.mem_singleton] at hz
  subst hz
  exact nn x hx

/-- C126, tables: a linearly interpolated table that answers for the values `xs` answers for
every list of values between values of `xs`, whatever types and units the table and the values
have. -/
theorem C126_table [SciPy Dbl] (rows : List (Dbl × Dbl)) (tt ut ct : String)
    (hct : (lower tt, ut, ct) ∈ names) (d : RealData Dbl)
    (hd : RealData.newInterp .float rows tt ut 1 = .ok d) (hnx : NoNaN (rows.map (·.1)))
    (t u : String) (xs ys : List Dbl) (hx : ∀ x ∈ xs, Physical x) (hy : ys ≠ [])
    (h : Amid xs ys) (s : Spectrum Dbl) (hs : Spectrum.new (.list .float xs) t u = .ok s)
    (v : Vals Dbl) (hv : (d.evaluate s).1 = .ok v) :
    ∃ s' vs, Spectrum.new (.list .float ys) t u = .ok s' ∧
      (d.evaluate s').1 = .ok (.array .float vs) ∧ vs.length = ys.length := by
  obtain ⟨-, hc, -⟩ := C01_stored _ _ _ _ hs
  obtain ⟨θ, hi⟩ := dblInv_elem
  have hxs := converts_list hc hct xs hs
  have hnn : NoNaN (xs.map (fun x => toElem safeInverseElem (lower tt) ct
      (fromElem safeInverseElem (lower t) s.unit x))) := by
    intro y hym
    obtain ⟨x, hxm, rfl⟩ := List.mem_map.1 hym
    have := conv_dord hi (names_pairs _ hc) (names_pairs _ hct) (hx x hxm).refl
    split_ifs at this
    · exact this.noNaN.1
    · exact this.noNaN.1
  have hxne : xs ≠ [] := by
    obtain ⟨y, ys', rfl⟩ := List.exists_cons_of_ne_nil hy
    obtain ⟨-, a, ha, -⟩ := h y (by simp)
    exact List.ne_nil_of_mem ha
  have hw : Within (rows.map (·.1)) (xs.map (fun x => toElem safeInverseElem (lower tt) ct
      (fromElem safeInverseElem (lower t) s.unit x))) := by
    by_contra hcon
    have := (table_evaluate rows tt ut ct hct 1 d hd hnx s _ hxs
      (by simpa [Vals.toList] using hxne) hnn).2 hcon
    rw [hv] at this
    cases this
  obtain ⟨h5, h6⟩ := amid_within (names_pairs _ hc) (names_pairs _ hct) hi h hw
  have h7 := (table_evaluate rows tt ut ct hct 1 d hd hnx _ _
    (converts_list hc hct ys (new_list hc ys)) (by simpa [Vals.toList] using hy) h6).1 h5
  obtain ⟨vs, hvs, hl⟩ := mapM_total (interpAt 1 rows) (ys.map (fun x =>
      toElem safeInverseElem (lower tt) ct (fromElem safeInverseElem (lower t) s.unit x))) (by
    intro z hz
    obtain ⟨y, hy⟩ := interpLinear_within rows hnx z (h6 z hz) (by
      intro z' hz'
      rw [List.mem_singleton] at hz'
      subst hz'
      exact h5 _ hz)
    exact ⟨y, by simpa [interpAt] using hy⟩)
  refine ⟨_, vs, new_list hc ys, ?_, by simpa using hl⟩
  rw [h7]
  simp only [Vals.mapRes, hvs, bind, Except.bind]

/-! ## Concrete cases -/

theorem physical_int {n : ℤ} (h0 : 0 ≤ n) (hn : |n| ≤ 2 ^ 53) :
    Physical (lit (n : ℚ) : Dbl) := by
  unfold Physical
  rw [Dbl.lit_int hn]
  exact (show (0 : ℝ) ≤ n by exact_mod_cast h0)

theorem le_int {m n : ℤ} (h : m ≤ n) (hm : |m| ≤ 2 ^ 53) (hn : |n| ≤ 2 ^ 53) :
    PyFloat.le (lit (m : ℚ) : Dbl) (lit (n : ℚ)) = true := by
  show PyFloat.le (lit (m : ℚ) : Dbl).val (lit (n : ℚ) : Dbl).val = true
  rw [Dbl.lit_int hm, Dbl.lit_int hn]
  simpa using h

/-- Concrete case: 1 eV < 2 eV, so the wavelength of 2 eV, computed in doubles, is not larger. -/
example : ∃ x' y', convertScalar "energy" "eV" "wavelength" "nm" (lit ((1 : ℤ) : ℚ) : Dbl) = .ok x' ∧
    convertScalar "energy" "eV" "wavelength" "nm" (lit ((2 : ℤ) : ℚ) : Dbl) = .ok y' ∧
    PyFloat.le y' x' = true := by
  obtain ⟨a, b, h1, h2, -, -, h3⟩ := C126_order "energy" "eV" "ev" "wavelength" "nm" "nm"
    (by decide +kernel) (by decide +kernel) _ _
    (physical_int (n := 1) (by norm_num) (by norm_num))
    (physical_int (n := 2) (by norm_num) (by norm_num)) (le_int (by norm_num) (by norm_num)
      (by norm_num))
  rw [if_neg (by decide +kernel)] at h3
  exact ⟨a, b, h1, h2, h3⟩

theorem metre_list (xs : List Dbl) : Spectrum.new (.list .float xs) "wavelength" "m" = .ok
    { values := .array .float xs, stype := "wavelength", unit := "m", std := .array .float xs } := by
  have h := new_list (t := "wavelength") (u := "m") (c := "m") (by decide +kernel) xs
  rw [show lower "wavelength" = "wavelength" by decide +kernel] at h
  have e : xs.map (fromElem safeInverseElem "wavelength" "m") = xs :=
    (List.map_congr_left fun x _ => by simp [fromElem]).trans (List.map_id _)
  rw [h, e]

/-- Concrete case for `C126_interval`: the range from 1 m to 4 m contains 1 m and 4 m, hence the
spectrum of 2 m and 3 m. -/
example : ∃ r s', Spectrum.new (.list .float [lit ((1 : ℤ) : ℚ), lit ((4 : ℤ) : ℚ)])
      "wavelength" "m" = .ok r ∧
    Spectrum.new (.list .float [(lit ((3 : ℤ) : ℚ) : Dbl), lit ((2 : ℤ) : ℚ)])
      "wavelength" "m" = .ok s' ∧ r.contains s' = .ok true := by
  have p : ∀ n : ℤ, 0 ≤ n → n ≤ 4 → Physical (lit (n : ℚ) : Dbl) := fun n h1 h2 =>
    physical_int h1 (by rw [abs_of_nonneg h1]; linarith)
  have nn : ∀ n : ℤ, 0 ≤ n → n ≤ 4 → PyFloat.isNaN (lit (n : ℚ) : Dbl) = false := fun n h1 h2 =>
    (p n h1 h2).refl.noNaN.1
  have hn : NoNaN [(lit ((1 : ℤ) : ℚ) : Dbl), lit ((4 : ℤ) : ℚ)] := by
    intro x hx
    simp only [List.mem_cons, List.not_mem_nil, or_false] at hx
    rcases hx with rfl | rfl
    · exact nn 1 (by norm_num) (by norm_num)
    · exact nn 4 (by norm_num) (by norm_num)
  have hphys : ∀ x ∈ [(lit ((1 : ℤ) : ℚ) : Dbl), lit ((4 : ℤ) : ℚ)], Physical x := by
    intro x hx
    simp only [List.mem_cons, List.not_mem_nil, or_false] at hx
    rcases hx with rfl | rfl
    · exact p 1 (by norm_num) (by norm_num)
    · exact p 4 (by norm_num) (by norm_num)
  have hr := metre_list [(lit ((1 : ℤ) : ℚ) : Dbl), lit ((4 : ℤ) : ℚ)]
  obtain ⟨hc', hu⟩ := own_names hr
  have hconv := converts_list (t := "wavelength") (u := "m") (c := "m") (by decide +kernel) hc' _ hr
  have hcon := (contains_iff _ _ _ (by simp [Vals.toList]) hconv (by simp [Vals.toList]) hn
    (by simpa [Vals.toList, fromElem, toElem, show lower "wavelength" = "wavelength" by decide +kernel]
          using hn) hu).1 (by
      intro y hy
      have hy' : y ∈ [(lit ((1 : ℤ) : ℚ) : Dbl), lit ((4 : ℤ) : ℚ)] := by
        simpa [Vals.toList, fromElem, toElem, show lower "wavelength" = "wavelength" by decide +kernel]
          using hy
      exact ⟨⟨y, hy', (hphys y hy').refl.le⟩, ⟨y, hy', (hphys y hy').refl.le⟩⟩)
  obtain ⟨s', h1, h2⟩ := C126_interval _ _ _ _ hr hn "wavelength" "m" _
    [lit ((3 : ℤ) : ℚ), lit ((2 : ℤ) : ℚ)] hphys (by simp) (by
      intro y hy
      simp only [List.mem_cons, List.not_mem_nil, or_false] at hy
      have hl : ∀ m n : ℤ, 0 ≤ m → m ≤ n → n ≤ 4 →
          PyFloat.le (lit (m : ℚ) : Dbl) (lit (n : ℚ)) = true := fun m n h0 h1 h2 =>
        le_int h1 (by rw [abs_of_nonneg h0]; linarith) (by rw [abs_of_nonneg (h0.trans h1)]; linarith)
      rcases hy with rfl | rfl
      · exact ⟨p 3 (by norm_num) (by norm_num), _, List.mem_cons_self, _,
          List.mem_cons_of_mem _ List.mem_cons_self, p 1 (by norm_num) (by norm_num),
          p 4 (by norm_num) (by norm_num), hl 1 3 (by norm_num) (by norm_num) (by norm_num),
          hl 3 4 (by norm_num) (by norm_num) (by norm_num)⟩
      · exact ⟨p 2 (by norm_num) (by norm_num), _, List.mem_cons_self, _,
          List.mem_cons_of_mem _ List.mem_cons_self, p 1 (by norm_num) (by norm_num),
          p 4 (by norm_num) (by norm_num), hl 1 2 (by norm_num) (by norm_num) (by norm_num),
          hl 2 4 (by norm_num) (by norm_num) (by norm_num)⟩) _ hr true hcon
  exact ⟨_, s', hr, h1, h2⟩

end Disp

import Verif.Props.AbsorbingMixtures
import Verif.Props.BruggemanLossy
/-!
# C142 for absorbing constituents

If both constituents absorb, the two solutions of Bruggeman's equation lie on different sides of the
real axis and not near it. The condition of `C142_conditioned_partial` then only asks for a loss that
is not lost in the rounding errors.
-/

namespace Disp

open Spec

/-- For absorbing constituents Bruggeman's equation has a solution with at least the smaller loss, and
one with a gain of at least half of it. -/
theorem bruggeman_two {φ l : ℝ} (f0 : 0 ≤ φ) (f1 : φ ≤ 1) (l0 : 0 < l) {a b : ℂ} (ha : l ≤ a.im)
    (hb : l ≤ b.im) : ∃ e e', BruggemanC φ a b e ∧ BruggemanC φ a b e' ∧ l ≤ e.im ∧
      e'.im ≤ -(l / 2) := by
  obtain ⟨e1, e2, -, -, hs, hp, -⟩ := brug_toCx φ a b
  obtain ⟨g1, g2⟩ := brug_solves hs hp
  have hc : ∀ {e}, BruggemanEq φ a b e → BruggemanC φ a b e := by
    intro e h
    unfold BruggemanEq at h
    unfold BruggemanC
    linear_combination h
  have ho := brug_opposite φ f0 f1 b a e1 e2 (by linarith) (by linarith) hs hp
  rcases bruggeman_loss f0 f1 l0 ha hb g1 with k1 | k1 <;>
    rcases bruggeman_loss f0 f1 l0 ha hb g2 with k2 | k2
  · nlinarith
  · exact ⟨e1, e2, hc g1, hc g2, k1, k2⟩
  · exact ⟨e2, e1, hc g2, hc g1, k2, k1⟩
  · nlinarith

section

variable [SciPy Dbl]

/-- C142 for absorbing constituents: if at every point both have a loss of at least 2⁻²¹ of the larger
modulus, the medium is built and reports the solution without gain, which is unique, with an error of
at most `107·2⁻⁵³ M²/l`, where `M` is the larger modulus and `l` the smaller loss. That is less than ten
per cent. Missing for the full claim: constituents with smaller losses, for which it is false. -/
theorem C142_absorbing_partial (s : Spectrum Dbl) (hal : Aligned s) (hs : GoodMetres s)
    (harr : ∃ ty xs, s.values = .array ty xs) (m1 m2 : Material Dbl) (f : Dbl) (φ : ℝ)
    (hf : f.val = .fin φ) (f0 : 0 ≤ φ) (f1 : φ ≤ 1) (e1 e2 : CVals Dbl)
    (h1 : (m1.getPermittivity s).1 = .ok e1) (h2 : (m2.getPermittivity s).1 = .ok e2)
    (n1 : ∀ z ∈ points e1, ModerateCx z) (n2 : ∀ z ∈ points e2, ModerateCx z)
    (hloss : ∀ (i : ℕ) (z w : Cx Dbl) (a b : ℂ), (points e1)[i]? = some z → (points e2)[i]? = some w →
      StandsForCx z a → StandsForCx w b → max ‖a‖ ‖b‖ / 2 ^ 21 ≤ min a.im b.im) :
    ∃ m, (effectiveMedium .bruggeman s m1 m2 f).1 = .ok m ∧
      ∀ q : Spectrum Dbl, Aligned q → q.std = s.std → ∃ c, (m.getPermittivity q).1 = .ok c ∧
        ∀ (i : ℕ) (z w : Cx Dbl) (a b : ℂ), (points e1)[i]? = some z → (points e2)[i]? = some w →
          StandsForCx z a → StandsForCx w b →
          ∃ u x e, (points c)[i]? = some u ∧ StandsForCx u x ∧
            (∀ e', 0 ≤ e'.im → (BruggemanC φ a b e' ↔ e' = e)) ∧ min a.im b.im ≤ e.im ∧
            ‖x - e‖ * min a.im b.im ≤ 107 / 2 ^ 53 * max ‖a‖ ‖b‖ ^ 2 ∧ ‖x - e‖ ≤ ‖e‖ / 10 := by
  -- at each point the two solutions exist
  have pos : ∀ (i : ℕ) (z w : Cx Dbl) (a b : ℂ), (points e1)[i]? = some z →
      (points e2)[i]? = some w → StandsForCx z a → StandsForCx w b →
      0 < max ‖a‖ ‖b‖ ∧ 0 < min a.im b.im := by
    intro i z w a b hz hw sa sb
    obtain ⟨a', sa', a1, -⟩ := n1 z (List.mem_of_getElem? hz)
    have := stands_unique sa sa'
    subst this
    have M0 : 0 < max ‖a‖ ‖b‖ :=
      lt_of_lt_of_le (by positivity) (a1.trans (le_max_left ‖a‖ ‖b‖))
    exact ⟨M0, lt_of_lt_of_le (by positivity) (hloss i z w a b hz hw sa sb)⟩
  have hex : ∀ i : ℕ, ∃ e e' : ℂ, ∀ (z w : Cx Dbl) (a b : ℂ), (points e1)[i]? = some z →
      (points e2)[i]? = some w → StandsForCx z a → StandsForCx w b →
      BruggemanC φ a b e ∧ BruggemanC φ a b e' ∧ min a.im b.im ≤ e.im ∧
        e'.im ≤ -(min a.im b.im / 2) := by
    intro i
    by_cases h : ∃ (z w : Cx Dbl) (a b : ℂ), (points e1)[i]? = some z ∧
      (points e2)[i]? = some w ∧ StandsForCx z a ∧ StandsForCx w b
    · obtain ⟨z, w, a, b, hz, hw, sa, sb⟩ := h
      obtain ⟨e, e', k⟩ := bruggeman_two f0 f1 (pos i z w a b hz hw sa sb).2 (min_le_left a.im b.im)
        (min_le_right a.im b.im)
      refine ⟨e, e', ?_⟩
      intro z' w' a' b' hz' hw' sa' sb'
      rw [hz] at hz'
      rw [hw] at hw'
      cases hz'
      cases hw'
      rw [stands_unique sa' sa, stands_unique sb' sb]
      exact k
    · exact ⟨0, 0, fun z w a b x1 x2 x3 x4 => absurd ⟨z, w, a, b, x1, x2, x3, x4⟩ h⟩
  choose ε ε' hε using hex
  -- the distance of the solutions
  have far : ∀ (i : ℕ) (z w : Cx Dbl) (a b : ℂ), (points e1)[i]? = some z →
      (points e2)[i]? = some w → StandsForCx z a → StandsForCx w b →
      3 / 2 * min a.im b.im ≤ ‖ε i - ε' i‖ := by
    intro i z w a b hz hw sa sb
    obtain ⟨-, -, k1, k2⟩ := hε i z w a b hz hw sa sb
    have h1 : (ε i - ε' i).im ≤ ‖ε i - ε' i‖ := (le_abs_self _).trans (Complex.abs_im_le_norm _)
    rw [Complex.sub_im] at h1
    linarith
  obtain ⟨m, c1, c2⟩ := C142_conditioned_partial s hal hs harr m1 m2 f φ hf f0 f1 e1 e2 h1 h2 n1 n2
    ε ε' (by
      intro i z w a b hz hw sa sb
      obtain ⟨k1, k2, k3, k4⟩ := hε i z w a b hz hw sa sb
      have hd := far i z w a b hz hw sa sb
      have hl := hloss i z w a b hz hw sa sb
      obtain ⟨M0, l0⟩ := pos i z w a b hz hw sa sb
      obtain ⟨M, hM⟩ : ∃ M, M = max ‖a‖ ‖b‖ := ⟨_, rfl⟩
      obtain ⟨l, hl'⟩ : ∃ l, l = min a.im b.im := ⟨_, rfl⟩
      rw [← hM] at hl M0 ⊢
      rw [← hl'] at hl l0 k3 k4 hd
      have hsq : (M / 2 ^ 21) ^ 2 ≤ l ^ 2 := pow_le_pow_left₀ (by positivity) hl 2
      have hm : 160 / 2 ^ 53 * M ^ 2 ≤ l / 2 * (3 / 2 * l) := by
        have e : (160 : ℝ) / 2 ^ 53 * M ^ 2 = 160 / 2 ^ 11 * (M / 2 ^ 21) ^ 2 := by ring
        rw [e]
        nlinarith
      refine ⟨k1, k2, hm.trans ?_, hm.trans ?_⟩
      · exact mul_le_mul (by linarith) hd (by positivity) (by linarith)
      · exact mul_le_mul (by linarith) hd (by positivity) (by linarith))
  refine ⟨m, c1, ?_⟩
  intro q hq hqs
  obtain ⟨c, d1, d2⟩ := c2 q hq hqs
  refine ⟨c, d1, ?_⟩
  intro i z w a b hz hw sa sb
  obtain ⟨u, x, u1, u2, u3⟩ := d2 i z w a b hz hw sa sb
  obtain ⟨k1, k2, k3, k4⟩ := hε i z w a b hz hw sa sb
  have hd := far i z w a b hz hw sa sb
  have hl := hloss i z w a b hz hw sa sb
  obtain ⟨M0, l0⟩ := pos i z w a b hz hw sa sb
  have hc : ∀ {e}, BruggemanC φ a b e → BruggemanEq φ a b e := by
    intro e h
    unfold BruggemanC at h
    unfold BruggemanEq
    linear_combination h
  refine ⟨u, x, ε i, u1, u2, ?_, k3, ?_⟩
  · intro e he
    constructor
    · intro h
      exact bruggeman_unique f0 f1 l0 (min_le_left _ _) (min_le_right _ _) (hc h) (hc k1) he
        (by linarith)
    · rintro rfl
      exact k1
  have ne : min a.im b.im ≤ ‖ε i‖ := k3.trans ((le_abs_self _).trans (Complex.abs_im_le_norm _))
  obtain ⟨M, hM⟩ : ∃ M, M = max ‖a‖ ‖b‖ := ⟨_, rfl⟩
  obtain ⟨l, hl'⟩ : ∃ l, l = min a.im b.im := ⟨_, rfl⟩
  rw [← hM] at hl M0 u3 ⊢
  rw [← hl'] at hl l0 k3 k4 hd ne ⊢
  have n0 := norm_nonneg (x - ε i)
  have b1 : ‖x - ε i‖ * l ≤ 107 / 2 ^ 53 * M ^ 2 := by
    have h3 := (mul_le_mul_of_nonneg_left hd n0).trans u3
    have h4 : (160 : ℝ) / 2 ^ 53 * M ^ 2 ≤ 3 / 2 * (107 / 2 ^ 53 * M ^ 2) := by
      have : 3 / 2 * (107 / 2 ^ 53 * M ^ 2) = (3 / 2 * (107 / 2 ^ 53)) * M ^ 2 := by ring
      rw [this]
      exact mul_le_mul_of_nonneg_right (by norm_num) (by positivity)
    nlinarith
  refine ⟨b1, ?_⟩
  have hsq : (M / 2 ^ 21) ^ 2 ≤ l ^ 2 := pow_le_pow_left₀ (by positivity) hl 2
  have b2 : ‖x - ε i‖ * l ≤ l / 10 * l := by
    refine b1.trans ?_
    have e : (107 : ℝ) / 2 ^ 53 * M ^ 2 = 107 / 2 ^ 11 * (M / 2 ^ 21) ^ 2 := by ring
    rw [e]
    nlinarith
  have b3 := le_of_mul_le_mul_right b2 l0
  linarith

end

/-- A case of `C142_absorbing_partial`: any mixture of `10 + 10j` and `2 + 2j`, at one metre, has a loss
of 2 within 10⁻¹¹, or more. -/
example [SciPy Dbl] [NumText Dbl] (rd : String → Res (FileDict Dbl)) (f : Dbl) (φ : ℝ)
    (hf : f.val = .fin φ) (f0 : 0 ≤ φ) (f1 : φ ≤ 1) : ∃ m1 m2 m : Material Dbl, ∃ c,
    Material.new rd [("fixed_eps", .cplx ⟨intDbl 10, intDbl 10⟩)] = .ok m1 ∧
    Material.new rd [("fixed_eps", .cplx ⟨intDbl 2, intDbl 2⟩)] = .ok m2 ∧
    (effectiveMedium .bruggeman oneMetre m1 m2 f).1 = .ok m ∧
    (m.getPermittivity oneMetre).1 = .ok c ∧
    ∃ u x, (points c)[0]? = some u ∧ StandsForCx u x ∧ 2 - 1 / 10 ^ 11 ≤ x.im := by
  obtain ⟨m1, a1, a2⟩ := fixed_oneMetre rd ⟨intDbl 10, intDbl 10⟩
  obtain ⟨m2, b1, b2⟩ := fixed_oneMetre rd ⟨intDbl 2, intDbl 2⟩
  have k1 : IntCx (cplxOf (intDbl 10) (intDbl 10)) 10 10 :=
    cplx_int (intDbl_val (by norm_num)) (intDbl_val (by norm_num)) (by norm_num) (by norm_num)
  have k2 : IntCx (cplxOf (intDbl 2) (intDbl 2)) 2 2 :=
    cplx_int (intDbl_val (by norm_num)) (intDbl_val (by norm_num)) (by norm_num) (by norm_num)
  have sa : StandsForCx (cplxOf (intDbl 10) (intDbl 10)) ⟨10, 10⟩ :=
    ⟨by exact_mod_cast k1.re, by exact_mod_cast k1.im⟩
  have sb : StandsForCx (cplxOf (intDbl 2) (intDbl 2)) ⟨2, 2⟩ :=
    ⟨by exact_mod_cast k2.re, by exact_mod_cast k2.im⟩
  have na : ‖(⟨10, 10⟩ : ℂ)‖ ≤ 20 :=
    (Complex.norm_le_abs_re_add_abs_im _).trans (by norm_num)
  have nb : ‖(⟨2, 2⟩ : ℂ)‖ ≤ 20 :=
    (Complex.norm_le_abs_re_add_abs_im _).trans (by norm_num)
  have na' : 10 ≤ ‖(⟨10, 10⟩ : ℂ)‖ := le_trans (by norm_num) (Complex.abs_re_le_norm _)
  have nb' : 2 ≤ ‖(⟨2, 2⟩ : ℂ)‖ := le_trans (by norm_num) (Complex.abs_re_le_norm _)
  have hM : max ‖(⟨10, 10⟩ : ℂ)‖ ‖(⟨2, 2⟩ : ℂ)‖ ≤ 20 := max_le na nb
  have hmin : min (⟨10, 10⟩ : ℂ).im (⟨2, 2⟩ : ℂ).im = 2 := by norm_num
  obtain ⟨m, c1, c2⟩ := C142_absorbing_partial oneMetre oneMetre_aligned oneMetre_good ⟨_, _, rfl⟩ m1
    m2 f φ hf f0 f1 _ _ a2 b2
    (by
      intro z hz
      rw [show z = _ from List.mem_singleton.1 hz]
      exact ⟨_, sa, le_trans (by norm_num) na', na.trans (by norm_num)⟩)
    (by
      intro z hz
      rw [show z = _ from List.mem_singleton.1 hz]
      exact ⟨_, sb, le_trans (by norm_num) nb', nb.trans (by norm_num)⟩)
    (by
      intro i z w a b hz hw ha hb
      have hz' := List.mem_of_getElem? hz
      have hw' := List.mem_of_getElem? hw
      rw [show z = _ from List.mem_singleton.1 hz'] at ha
      rw [show w = _ from List.mem_singleton.1 hw'] at hb
      rw [stands_unique ha sa, stands_unique hb sb, hmin]
      have := div_le_div_of_nonneg_right hM (show (0 : ℝ) ≤ 2 ^ 21 by positivity)
      exact this.trans (by norm_num))
  obtain ⟨c, d1, d2⟩ := c2 oneMetre oneMetre_aligned rfl
  obtain ⟨u, x, e, u1, u2, -, u3, u4, -⟩ := d2 0 _ _ _ _ rfl rfl sa sb
  rw [hmin] at u3 u4
  refine ⟨m1, m2, m, c, a1, b1, c1, d1, u, x, u1, u2, ?_⟩
  have h1 : e.im - x.im ≤ ‖x - e‖ := by
    have := (neg_le_abs (x - e).im).trans (Complex.abs_im_le_norm _)
    rw [Complex.sub_im] at this
    linarith
  have h2 : max ‖(⟨10, 10⟩ : ℂ)‖ ‖(⟨2, 2⟩ : ℂ)‖ ^ 2 ≤ 400 := by
    calc max ‖(⟨10, 10⟩ : ℂ)‖ ‖(⟨2, 2⟩ : ℂ)‖ ^ 2 ≤ 20 ^ 2 :=
          pow_le_pow_left₀ (le_max_of_le_left (norm_nonneg _)) hM 2
      _ = 400 := by norm_num
  have h3 : (107 : ℝ) / 2 ^ 53 * max ‖(⟨10, 10⟩ : ℂ)‖ ‖(⟨2, 2⟩ : ℂ)‖ ^ 2 ≤ 107 / 2 ^ 53 * 400 :=
    mul_le_mul_of_nonneg_left h2 (by norm_num)
  have h4 : (107 : ℝ) / 2 ^ 53 * 400 ≤ 2 * (1 / 10 ^ 11) := by norm_num
  linarith

end Disp

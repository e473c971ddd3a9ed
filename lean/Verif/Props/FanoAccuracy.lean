import Verif.Props.FanoProfile
import Verif.Props.DoubleModels
/-!
# The Fano profile in double precision (C141)
-/

namespace Disp

open Spec Dbl

noncomputable section

/-- Doubles from `2^-n` upwards are multiples of `2^-(n+52)`. -/
theorem double_grid_of {x : ℝ} {n : ℕ} (h : IsDouble x) (hx : (2 : ℝ) ^ (-(n : ℤ)) ≤ |x|) :
    ∃ k : ℤ, x = k * (2 : ℝ) ^ (-(n : ℤ) - 52) := by
  have hx0 : 0 < |x| := lt_of_lt_of_le (by positivity) hx
  have hlog : -(n : ℤ) ≤ Int.log 2 |x| :=
    (Int.zpow_le_iff_le_log (b := 2) (R := ℝ) (by norm_num) hx0).1 (by exact_mod_cast hx)
  have hu : -(n : ℤ) - 52 ≤ ulpExp x := le_max_of_le_left (by omega)
  obtain ⟨m, hm⟩ := Int.eq_ofNat_of_zero_le (show 0 ≤ ulpExp x - (-(n : ℤ) - 52) by omega)
  have e := nearest_of_double h
  refine ⟨XR.rint (x / 2 ^ ulpExp x) * 2 ^ m, ?_⟩
  conv_lhs => rw [← e]
  unfold nearest
  have : (2 : ℝ) ^ ulpExp x = 2 ^ m * 2 ^ (-(n : ℤ) - 52) := by
    rw [show ulpExp x = m + (-(n : ℤ) - 52) by omega, zpow_add₀ (by norm_num), zpow_natCast]
  push_cast
  rw [mul_assoc, ← this]

/-- The sum of two doubles is zero or not much smaller than they are. -/
theorem double_sum_low {x y : ℝ} {n : ℕ} (hx : IsDouble x) (hy : IsDouble y)
    (h1 : (2 : ℝ) ^ (-(n : ℤ)) ≤ |x|) (h2 : (2 : ℝ) ^ (-(n : ℤ)) ≤ |y|) (h0 : x + y ≠ 0) :
    (2 : ℝ) ^ (-(n : ℤ) - 52) ≤ |x + y| := by
  obtain ⟨k, hk⟩ := double_grid_of hx h1
  obtain ⟨l, hl⟩ := double_grid_of hy h2
  have hp : (0 : ℝ) < 2 ^ (-(n : ℤ) - 52) := by positivity
  have e : x + y = ((k + l : ℤ) : ℝ) * 2 ^ (-(n : ℤ) - 52) := by
    rw [hk, hl]; push_cast; ring
  have hkl : k + l ≠ 0 := by
    intro h
    rw [e, h] at h0
    simp at h0
  have h3 : (1 : ℝ) ≤ |((k + l : ℤ) : ℝ)| := by exact_mod_cast Int.one_le_abs hkl
  rw [e, abs_mul, abs_of_pos hp]
  exact le_mul_of_one_le_left hp.le h3

/-- The sum of two doubles, which are zero or of ordinary magnitude. -/
theorem SRel.sum {x y : ℝ} {k K n : ℕ} {a b : Dbl} (ha : a.val = .fin x) (hb : b.val = .fin y)
    (hx : x = 0 ∨ Mag k |x|) (hy : y = 0 ∨ Mag k |y|) (hn : (10 : ℝ) ^ k ≤ 2 ^ n)
    (hK : (2 : ℝ) ^ (n + 52) ≤ 10 ^ K) (hkK : k + 1 ≤ K) (hK3 : K ≤ 300) :
    SRel 1 K (x + y) (a + b) := by
  show SRel _ _ _ (Dbl.rnd (a.val + b.val))
  rw [ha, hb, XR.add_fin]
  refine SRel.rnd (SNear.refl _) ?_ (by norm_num) hK3
  rcases hx with rfl | hx
  · rw [_root_.zero_add]; exact hy.imp_right (·.mono (by omega))
  rcases hy with rfl | hy
  · rw [_root_.add_zero]; exact .inr (hx.mono (by omega))
  by_cases h0 : x + y = 0
  · exact .inl h0
  right
  have low : ∀ {z : ℝ}, Mag k |z| → (2 : ℝ) ^ (-(n : ℤ)) ≤ |z| := by
    intro z hz
    refine le_trans ?_ hz.low
    rw [zpow_neg, zpow_natCast]
    exact inv_anti₀ (by positivity) hn
  have h3 := double_sum_low (isDouble_val ha) (isDouble_val hb) (low hx) (low hy) h0
  constructor
  · refine le_trans ?_ h3
    rw [show -(n : ℤ) - 52 = -((n + 52 : ℕ) : ℤ) by push_cast; ring, zpow_neg, zpow_natCast]
    exact inv_anti₀ (by positivity) hK
  · have h4 := abs_add_le x y
    have h5 : (10 : ℝ) ^ (k + 1) ≤ 10 ^ K := by gcongr; norm_num
    have h6 : (10 : ℝ) ^ (k + 1) = 10 * 10 ^ k := by ring
    have := hx.high
    have := hy.high
    have := hx.pos
    linarith

theorem SRel.square {n k : ℕ} {x : ℝ} {a : Dbl} (h : SRel n k x a) (hn : n + n ≤ 99)
    (hk : k + k ≤ 300) : SRel (n + n + 1) (k + k) (x ^ 2) (sqF a) := by
  obtain ⟨⟨y, hy, h1⟩, h2⟩ := h
  have h3 : (lit 2 : Dbl).val = .fin ((2 : ℤ) : ℝ) := by
    rw [val_lit]
    exact_mod_cast rnd_double (double_int (n := 2) (by norm_num))
  have e : sqF a = Dbl.rnd (.fin (y ^ 2)) := by
    show Dbl.rnd (PyFloat.pow a.val (lit 2 : Dbl).val) = _
    rw [h3, hy]
    show Dbl.rnd (XR.pow (.fin y) (.fin ((2 : ℤ) : ℝ))) = _
    unfold XR.pow
    simp only [Int.floor_intCast, if_true]
    rw [if_neg (by norm_num)]
    rfl
  rw [e, pow_two, pow_two]
  refine SRel.rnd (h1.mul h1) ?_ hn hk
  rcases h2 with rfl | h2
  · exact .inl (mul_zero _)
  · right; rw [abs_mul]; exact h2.mul h2

theorem SRel.resize {n k j : ℕ} {x : ℝ} {a : Dbl} (h : SRel n k x a) (hm : x = 0 ∨ Mag j |x|) :
    SRel n j x a := ⟨h.near, hm⟩

theorem SRel.lit_two : SRel 0 1 2 (lit 2 : Dbl) := by
  refine SRel.exact ?_ (.inr ⟨by norm_num, by norm_num⟩)
  rw [val_lit]
  exact_mod_cast rnd_double (double_int (n := 2) (by norm_num))

/-- The profile changes by no more than the reduced energy does, relatively. -/
theorem fanoProfile_rel {q ε ε' η : ℝ} (hη : 0 ≤ η) (h : |ε' - ε| ≤ |ε| * η) :
    |fanoProfile q ε' - fanoProfile q ε| ≤ η := by
  have hN : (0 : ℝ) < 1 + q ^ 2 := by positivity
  have hA : (0 : ℝ) < 1 + ε ^ 2 := by positivity
  have hA' : (0 : ℝ) < 1 + ε' ^ 2 := by positivity
  set B := (1 - q ^ 2) * (ε' + ε) + 2 * q * (1 - ε * ε') with hB
  have e : fanoProfile q ε' - fanoProfile q ε
      = (ε' - ε) * B / ((1 + q ^ 2) * (1 + ε ^ 2) * (1 + ε' ^ 2)) := by
    unfold fanoProfile
    rw [hB]
    field_simp
    ring
  have hB2 : B ^ 2 ≤ (1 + q ^ 2) ^ 2 * ((1 + ε ^ 2) * (1 + ε' ^ 2)) := by
    have : (1 + q ^ 2) ^ 2 * ((1 + ε ^ 2) * (1 + ε' ^ 2)) - B ^ 2
        = ((1 - q ^ 2) * (1 - ε * ε') - 2 * q * (ε' + ε)) ^ 2 := by
      rw [hB]; ring
    nlinarith [sq_nonneg ((1 - q ^ 2) * (1 - ε * ε') - 2 * q * (ε' + ε))]
  have hd : (ε' - ε) ^ 2 ≤ ε ^ 2 * η ^ 2 := by
    have := pow_le_pow_left₀ (abs_nonneg _) h 2
    rwa [sq_abs, mul_pow, sq_abs] at this
  refine abs_le_of_sq_le_sq ?_ hη
  rw [e, div_pow, div_le_iff₀ (by positivity), mul_pow]
  calc (ε' - ε) ^ 2 * B ^ 2
      ≤ (ε ^ 2 * η ^ 2) * ((1 + q ^ 2) ^ 2 * ((1 + ε ^ 2) * (1 + ε' ^ 2))) := by gcongr
    _ ≤ ((1 + ε ^ 2) * (1 + ε' ^ 2) * η ^ 2) * ((1 + q ^ 2) ^ 2 * ((1 + ε ^ 2) * (1 + ε' ^ 2))) := by
        gcongr
        nlinarith [sq_nonneg ε, sq_nonneg ε', sq_nonneg (ε * ε')]
    _ = η ^ 2 * ((1 + q ^ 2) * (1 + ε ^ 2) * (1 + ε' ^ 2)) ^ 2 := by ring

namespace Spec

/-- Zero, or a number of magnitude between `10^-20` and `10^20`. -/
def Fair (x : ℝ) : Prop := x = 0 ∨ ((10 : ℝ) ^ 20)⁻¹ ≤ |x| ∧ |x| ≤ 10 ^ 20

end Spec

theorem Spec.Fair.mag {x : ℝ} (h : Fair x) : x = 0 ∨ Mag 20 |x| := h.imp_right (fun h => ⟨h.1, h.2⟩)

/-- C141 at one point: the Fano model is accurate to `15 * 2^-53` in double precision. -/
theorem C141_at {a b c d : Dbl} {q er g e : ℝ} {rest : List Dbl} (ha : a.val = .fin q)
    (hb : b.val = .fin er) (hc : c.val = .fin g) (hd : d.val = .fin e) (fq : Fair q) (fr : Fair er)
    (fg : Fair g) (fe : Fair e) (hg : g ≠ 0) :
    ∃ v y, Formula.at .fano (a :: b :: c :: rest) d = .ok v ∧ v.val = .fin y ∧
      |y - fanoProfile q (2 * (e - er) / g)| ≤ 15 / 2 ^ 53 ∧ 0 ≤ y := by
  -- the reduced energy
  have h1 : SRel 1 36 (e - er) (d - b) := by
    have hn : (-b).val = .fin (-er) := Dbl.neg_val hb
    have e1 : d - b = d + -b := by
      show Dbl.rnd (d.val - b.val) = Dbl.rnd (d.val + (-b).val)
      rw [hn, hd, hb, XR.sub_fin, XR.add_fin, sub_eq_add_neg]
    rw [e1, sub_eq_add_neg]
    refine SRel.sum (n := 67) hd hn fe.mag ?_ (by norm_num) (by norm_num) (by norm_num)
      (by norm_num)
    rw [abs_neg, neg_eq_zero]; exact fr.mag
  have h2 := (SRel.lit_two.mul h1 (by norm_num) (by norm_num)).div (SRel.exact hc fg.mag) hg
    (by norm_num) (by norm_num)
  norm_num at h2
  set ε := 2 * (e - er) / g with hε
  set E : Dbl := lit 2 * (d - b) / c with hE
  obtain ⟨ε', hE', near⟩ := h2.near
  have herr : |ε' - ε| ≤ |ε| * (4 / 2 ^ 53) := by
    have := near.abs_sub_le (by norm_num)
    refine this.trans (le_of_eq ?_)
    norm_num
    ring
  have hhigh : |ε| ≤ 10 ^ 41 := by
    have g1 := (fg.resolve_left hg).1
    have e1 : |e| ≤ 10 ^ 20 := by
      rcases fe with h | h
      · rw [h]; norm_num
      · exact h.2
    have e2 : |er| ≤ 10 ^ 20 := by
      rcases fr with h | h
      · rw [h]; norm_num
      · exact h.2
    have e3 := abs_sub e er
    rw [hε, abs_div, abs_mul, div_le_iff₀ (abs_pos.2 hg)]
    have : (10 : ℝ) ^ 41 * ((10 : ℝ) ^ 20)⁻¹ ≤ 10 ^ 41 * |g| := by gcongr
    norm_num at this ⊢
    norm_num at e1 e2
    linarith
  have hm : ε' = 0 ∨ Mag 58 |ε'| := by
    rcases h2.size with h | h
    · left; exact (near.zero_iff).1 h
    · right
      have h3 := abs_sub_abs_le_abs_sub ε' ε
      have h4 := abs_sub_abs_le_abs_sub ε ε'
      rw [abs_sub_comm ε ε'] at h4
      have h5 := abs_nonneg ε
      norm_num at herr
      exact h.of_bounds (by linarith) (by linarith)
  have hhigh' : |ε'| ≤ 10 ^ 42 := by
    have h3 := abs_sub_abs_le_abs_sub ε' ε
    norm_num at herr hhigh ⊢
    linarith
  -- the numerator
  have h3 : SRel 1 74 (ε' + q) (E + a) :=
    SRel.sum (n := 193) hE' ha hm (fq.mag.imp_right (·.mono (by norm_num))) (by norm_num)
      (by norm_num) (by norm_num) (by norm_num)
  have h4 := h3.square (by norm_num) (by norm_num)
  have h5 := (SRel.one.mono (le_refl 0 |>.trans (by norm_num : 0 ≤ 1)) (by norm_num : 0 ≤ 40)).add
    (SRel.sq ha fq.mag (by norm_num)) (by positivity) (by norm_num) (by norm_num)
  have h6 := SRel.one.div h5 (by positivity) (by norm_num) (by norm_num)
  have h7 := h6.mul h4 (by norm_num) (by norm_num)
  have h8 := ((SRel.sq hE' hm (by norm_num)).add
    (SRel.one.mono (by norm_num : 0 ≤ 1) (by norm_num : 0 ≤ 116)) (by positivity) (by norm_num)
    (by norm_num)).resize (j := 85) (.inr (by
      have : (0 : ℝ) ≤ ε' ^ 2 := sq_nonneg _
      rw [abs_of_pos (by linarith)]
      refine ⟨?_, ?_⟩
      · have : ((10 : ℝ) ^ 85)⁻¹ ≤ 1 := inv_le_one_of_one_le₀ (by norm_num)
        linarith
      · have := pow_le_pow_left₀ (abs_nonneg _) hhigh' 2
        rw [sq_abs] at this
        norm_num at this ⊢
        linarith))
  have h9 := h7.div h8 (by positivity) (by norm_num) (by norm_num)
  obtain ⟨y, hy, ny⟩ := h9.near
  have eP : 1 / (1 + q ^ 2) * (ε' + q) ^ 2 / (ε' ^ 2 + 1) = fanoProfile q ε' := by
    unfold fanoProfile
    have : (ε' ^ 2 + 1 : ℝ) ≠ 0 := by positivity
    have : (1 + ε' ^ 2 : ℝ) ≠ 0 := by positivity
    rw [add_comm (ε' ^ 2) 1, add_comm q]
    field_simp
  rw [eP] at ny
  refine ⟨_, y, rfl, hy, ?_, ?_⟩
  · have h10 := ny.abs_sub_le (by norm_num)
    have h11 := fanoProfile_range q ε'
    rw [abs_of_nonneg h11.1] at h10
    have h12 := fanoProfile_rel (q := q) (by positivity) herr
    have h13 := abs_sub_le y (fanoProfile q ε') (fanoProfile q ε)
    norm_num at h10 h12 ⊢
    linarith [h11.2]
  · rcases ny with ⟨-, rfl⟩ | ⟨h10, -⟩
    · exact le_rfl
    · by_contra hc
      push Not at hc
      nlinarith [(fanoProfile_range q ε').1, mul_nonpos_of_nonneg_of_nonpos (fanoProfile_range q ε').1 hc.le]

/-- C141: in double precision every value of a Fano model is, at the energy that the spectrum
converts to, within `15 * 2^-53` of the profile, and is not negative. -/
theorem C141_values [SciPy Dbl] {a b c : Dbl} {q er g : ℝ} (ha : a.val = .fin q)
    (hb : b.val = .fin er) (hc : c.val = .fin g) (fq : Fair q) (fr : Fair er) (fg : Fair g)
    (hg : g ≠ 0) (raw : Raw Dbl) (t u : String) (d : RealData Dbl)
    (hd : RealData.newModel .fano [a, b, c] raw t u = .ok d) (s : Spectrum Dbl) (v : Vals Dbl)
    (hv : (d.evaluate s).1 = .ok v) :
    ∃ es, s.convertTo t u = .ok es ∧ v.toList.length = es.toList.length ∧
      ∀ (i : ℕ) (x : Dbl) (e : ℝ), es.toList[i]? = some x → x.val = .fin e → Fair e →
        ∃ z y, v.toList[i]? = some z ∧ z.val = .fin y ∧
          |y - fanoProfile q (2 * (e - er) / g)| ≤ 15 / 2 ^ 53 ∧ 0 ≤ y ∧ y ≤ 1 + 15 / 2 ^ 53 := by
  obtain ⟨es, h1, h2, h3⟩ := C17_evaluate .fano _ raw t u d hd s v hv
  refine ⟨es, h1, h2, fun i x e hx hxe fe => ?_⟩
  obtain ⟨n, hn, hat⟩ := h3 i _ hx
  obtain ⟨z, y, g1, g2, g3, g4⟩ := C141_at (rest := []) ha hb hc hxe fq fr fg fe hg
  rw [g1] at hat
  cases hat
  refine ⟨_, y, hn, g2, g3, g4, ?_⟩
  have := (abs_le.1 g3).2
  linarith [(fanoProfile_range q (2 * (e - er) / g)).2]

/-- Parameter 2, resonance at 3, width 1/2, at 3: what is reported differs from 4/5 by at most
`15 * 2^-53`, and such a model exists. -/
example [SciPy Dbl] : ∃ (d : RealData Dbl) (z : Dbl) (y : ℝ),
    RealData.newModel .fano [lit 2, lit 3, lit (1 / 2)] (.list .float [lit 3]) "wavelength" "m"
      = .ok d ∧ (d.evaluate (overMetres [lit 3])).1 = .ok (.array .float [z]) ∧
    z.val = .fin y ∧ |y - 4 / 5| ≤ 15 / 2 ^ 53 := by
  have h2 : (lit 2 : Dbl).val = .fin 2 := by
    rw [val_lit]; exact_mod_cast rnd_double (double_int (n := 2) (by norm_num))
  have h3 : (lit 3 : Dbl).val = .fin 3 := by
    rw [val_lit]; exact_mod_cast rnd_double (double_int (n := 3) (by norm_num))
  have h5 : (lit (1 / 2) : Dbl).val = .fin (1 / 2) := by
    rw [val_lit]
    have := rnd_double (x := 1 / 2) ⟨1, -1, by norm_num, by norm_num, by norm_num, by norm_num⟩
    push_cast
    exact this
  have fair : ∀ {x : ℝ}, 1 / 10 ≤ x → x ≤ 10 → Fair x := by
    intro x hx hx'
    right
    rw [abs_of_pos (by linarith)]
    constructor <;> norm_num at hx ⊢ <;> linarith
  obtain ⟨z, y, g1, g2, g3, -⟩ := C141_at (rest := []) h2 h3 h5 h3 (fair (by norm_num) (by norm_num))
    (fair (by norm_num) (by norm_num)) (fair (by norm_num) (by norm_num))
    (fair (by norm_num) (by norm_num)) (by norm_num)
  obtain ⟨d, h1, h2⟩ := overMetres_evaluate (k := .fano) (x := (lit 3 : Dbl)) rfl
    (by show XR.lt _ _ = false; rw [h3]; simp [XR.lt]) g1
  refine ⟨d, z, y, h1, h2, g2, ?_⟩
  norm_num [fanoProfile] at g3 ⊢
  exact g3

end

end Disp

import Verif.Lemmas.RoundingMono
import Verif.Props.InterruptedSave
/-!
# Numbers whose text is cut
-/

namespace Disp

open Spec

theorem digitsValue_le (a t : List Char) :
    (digitsValue a : ℚ) / 1 ≤ (digitsValue (a ++ t) : ℚ) / 10 ^ t.length := by
  rw [le_div_iff₀ (by positivity), digitsValue_append]
  push_cast
  have : (0 : ℚ) ≤ digitsValue t := by positivity
  linarith

/-- Digits without a point. -/
theorem readUnsigned_whole {is : List Char} (hi : ∀ c ∈ is, c.isDigit = true) (hne : is ≠ []) :
    readUnsigned is = some (digitsValue is : ℚ) := by
  obtain ⟨h1, h2⟩ := takeWhile_digits (rest := []) hi (by simp)
  rw [List.append_nil] at h1 h2
  rw [readUnsigned, h1, h2, if_neg (fun h => hne h.1)]
  simp [readFraction, readExponent]

theorem readDouble_empty : readDouble [] = .error .value := rfl

theorem readDouble_minus : readDouble ['-'] = .error .value := rfl

/-- What is read from a beginning of `"%.8f" % x`. -/
theorem read_fixed_cut (x : ℝ) {p : List Char} (hp : p <+: fixedText x) {v : Dbl}
    (h : readDouble p = .ok v) : ∃ q : ℚ, 0 ≤ q ∧ q ≤ (eighths x : ℚ) / 10 ^ 8 ∧
      v = Dbl.rnd (.fin ((if x < 0 then -1 else 1) * (q : ℝ))) := by
  have hw : ∀ c ∈ wholeText (eighths x / 10 ^ 8), c.isDigit = true := fun c hc => digits_isDigit hc
  have hd : ∀ c ∈ digits 8 (eighths x), c.isDigit = true := fun c hc => digits_isDigit hc
  have hval : (digitsValue (wholeText (eighths x / 10 ^ 8) ++ digits 8 (eighths x)) : ℚ) / 10 ^ 8 =
      eighths x / 10 ^ 8 := by
    have := point_digits (wholeText_value (eighths x / 10 ^ 8))
    rw [digits_length] at this
    exact this
  have hempty : ¬ p <+: signText x := by
    intro h0
    have : p = [] ∨ p = ['-'] := by
      unfold signText at h0
      split at h0
      · cases p with
        | nil => exact .inl rfl
        | cons c p =>
          obtain ⟨rfl, h1⟩ := List.cons_prefix_cons.1 h0
          right
          rw [List.prefix_nil.1 h1]
      · exact .inl (List.prefix_nil.1 h0)
    rcases this with rfl | rfl
    · rw [readDouble_empty] at h; cases h
    · rw [readDouble_minus] at h; cases h
  unfold fixedText at hp
  rw [List.append_assoc] at hp
  rcases prefix_append_cases hp with h0 | ⟨p', rfl, hp'⟩
  · exact absurd h0 hempty
  have hne : p' ≠ [] := by
    rintro rfl
    exact hempty (by simp)
  have whole : ∀ {is : List Char}, is <+: wholeText (eighths x / 10 ^ 8) → p' = is →
      ∃ q : ℚ, 0 ≤ q ∧ q ≤ (eighths x : ℚ) / 10 ^ 8 ∧
        v = Dbl.rnd (.fin ((if x < 0 then -1 else 1) * (q : ℝ))) := by
    rintro _ hi rfl
    have hq := readUnsigned_whole (fun c hc => hw c (hi.subset hc)) hne
    cases p' with
    | nil => exact absurd rfl hne
    | cons c cs =>
      have hc : c.isDigit = true := hw c (hi.subset (by simp))
      rw [readDouble_signed x hc hq] at h
      refine ⟨(digitsValue (c :: cs) : ℚ), by positivity, ?_, by cases h; rfl⟩
      obtain ⟨t, ht⟩ := hi
      have h1 := digitsValue_le (c :: cs) (t ++ digits 8 (eighths x))
      rw [← List.append_assoc, ht, div_one] at h1
      refine h1.trans ?_
      rw [← hval]
      refine div_le_div_of_nonneg_left (by positivity) (by positivity) ?_
      rw [List.length_append, digits_length]
      exact pow_le_pow_right₀ (by norm_num) (by omega)
  rcases prefix_append_cases hp' with hi | ⟨q', hq', hf⟩
  · exact whole hi rfl
  cases q' with
  | nil => exact whole (List.prefix_refl _) (by rw [hq', List.append_nil])
  | cons c fs =>
    obtain ⟨rfl, hf'⟩ := List.cons_prefix_cons.1 hf
    have hq := readUnsigned_eq (is := wholeText (eighths x / 10 ^ 8)) (fs := fs) (ex := []) (e := 0)
      hw (wholeText_ne _) (fun c hc => hd c (hf'.subset hc)) (by simp) rfl
    rw [List.append_nil, zpow_zero, mul_one] at hq
    obtain ⟨c, cs, h1, h2⟩ := wholeText_cons (eighths x / 10 ^ 8)
    rw [hq', h1] at h
    rw [h1, List.cons_append] at hq
    rw [List.cons_append, readDouble_signed x h2 hq] at h
    refine ⟨(digitsValue (c :: cs ++ fs) : ℚ) / 10 ^ fs.length, by positivity, ?_, by cases h; rfl⟩
    obtain ⟨t, ht⟩ := hf'
    have h3 := digitsValue_le (wholeText (eighths x / 10 ^ 8) ++ fs) t
    rw [List.append_assoc, ht, div_one] at h3
    have hl : fs.length + t.length = 8 := by
      have := congrArg List.length ht
      rw [List.length_append, digits_length] at this
      exact this
    rw [← hval, ← h1, div_le_div_iff₀ (by positivity) (by positivity)]
    rw [le_div_iff₀ (by positivity)] at h3
    have h4 : (0 : ℚ) < 10 ^ fs.length := by positivity
    have h5 : (10 : ℚ) ^ 8 = 10 ^ fs.length * 10 ^ t.length := by rw [← pow_add, hl]
    rw [h5]
    nlinarith

/-- A double that was cut: nearer to zero, on the same side. -/
def Spec.Shortened (x v : Dbl) : Prop := v = x ∨ ∃ a b : ℝ, x.val = .fin a ∧ v.val = .fin b ∧
  (0 ≤ b ∧ b ≤ a ∨ a ≤ b ∧ b ≤ 0)

/-- Eight decimals of a double are no overflow. -/
theorem roundDec_finite {r : ℝ} (h : IsDouble r) : |nearest (XR.roundDec 8 r)| < 2 ^ 1024 := by
  by_cases hr : |r| < 2 ^ 53
  · have h1 : |XR.roundDec 8 r - r| ≤ 1 := by
      have h2 := XR.rint_sub_le (r * 10 ^ 8)
      have e : XR.roundDec 8 r - r = ((XR.rint (r * 10 ^ 8) : ℝ) - r * 10 ^ 8) / 10 ^ 8 := by
        rw [XR.roundDec]; field_simp
      rw [e, abs_div, abs_of_pos (by positivity : (0 : ℝ) < 10 ^ 8), div_le_iff₀ (by positivity)]
      exact h2.trans (by norm_num)
    have hi : IsDouble ((2 : ℝ) ^ 54) := ⟨2 ^ 52, 2, by norm_num, by norm_num, by norm_num, by norm_num⟩
    have h3 : |XR.roundDec 8 r| ≤ 2 ^ 54 := by
      rw [abs_le] at h1 ⊢
      rw [abs_lt] at hr
      constructor <;> linarith [h1.1, h1.2, hr.1, hr.2]
    rw [abs_le] at h3
    have h4 := nearest_mono h3.1
    have h5 := nearest_mono h3.2
    rw [nearest_neg, nearest_of_double hi] at h4
    rw [nearest_of_double hi] at h5
    refine lt_of_le_of_lt (abs_le.2 ⟨h4, h5⟩) ?_
    exact pow_lt_pow_right₀ (by norm_num) (by norm_num)
  · have hint : ∃ n : ℤ, r = n := by
      obtain ⟨m, e, hm, -, -, rfl⟩ := h
      have he : 0 ≤ e := by
        by_contra hc
        refine hr ?_
        rw [abs_mul, abs_of_pos (two_zpow_pos e)]
        have h1 : |(m : ℝ)| < 2 ^ 53 := by exact_mod_cast hm
        have h2 : (2 : ℝ) ^ e ≤ 1 := zpow_le_one_of_nonpos₀ (by norm_num) (by omega)
        have h3 := two_zpow_pos e
        have h4 := abs_nonneg (m : ℝ)
        nlinarith
      obtain ⟨k, rfl⟩ := Int.eq_ofNat_of_zero_le he
      refine ⟨m * 2 ^ k, ?_⟩
      push_cast
      rw [zpow_natCast]
    obtain ⟨n, rfl⟩ := hint
    have : XR.roundDec 8 (n : ℝ) = n := by
      rw [XR.roundDec, show (n : ℝ) * 10 ^ 8 = ((n * 10 ^ 8 : ℤ) : ℝ) by push_cast; norm_num, XR.rint_int]
      push_cast
      field_simp
      norm_num
    rw [this, nearest_of_double h]
    exact Dbl.double_lt h

/-- `nan` and `inf` cannot be cut. -/
theorem special_cut {s p : List Char} (hp : p <+: s)
    (hs : ∀ q ∈ beginnings s, q ≠ s → readUnsigned (splitSign q).2 = Option.none ∧
      (splitSign q).2.map Char.toLower ∉
        [['n', 'a', 'n'], ['i', 'n', 'f'], ['i', 'n', 'f', 'i', 'n', 'i', 't', 'y']])
    {x v : Dbl} (h0 : readDouble s = .ok x) (h : readDouble p = .ok v) : v = x := by
  by_cases he : p = s
  · subst he
    rw [h0] at h
    cases h; rfl
  · obtain ⟨h1, h2⟩ := hs p (mem_beginnings.2 hp) he
    simp only [List.mem_cons, List.not_mem_nil, or_false, not_or] at h2
    unfold readDouble at h
    rw [if_neg h2.1, if_neg (by tauto), h1] at h
    cases h

/-- Numbers in a file that is cut are nearer to zero. -/
theorem cutNumbers_double : CutNumbers Shortened := by
  intro x v p hp h
  replace h : readDouble p = .ok v := h
  replace hp : p <+: percentText x := hp
  show Shortened (cellShown false x) v
  rcases dbl_cases x with ⟨r, hr⟩ | rfl | rfl | rfl
  · have hd : IsDouble r := by
      have := x.2
      rw [show x.1 = .fin r from hr] at this
      exact this
    simp only [percentText, hr] at hp
    obtain ⟨q, h0, h1, rfl⟩ := read_fixed_cut r hp h
    have hfin := roundDec_finite hd
    have hq : ((q : ℚ) : ℝ) ≤ (eighths r : ℝ) / 10 ^ 8 := by
      have : ((q : ℚ) : ℝ) ≤ (((eighths r : ℚ) / 10 ^ 8 : ℚ) : ℝ) := Rat.cast_le.2 h1
      push_cast at this
      exact this
    have hq0 : (0 : ℝ) ≤ q := by exact_mod_cast h0
    have hval := eighths_value r
    have hx : (cellShown false x).val = .fin (nearest (XR.roundDec 8 r)) := by
      simp only [cellShown, hr]
      exact Dbl.rnd_fin hfin
    right
    split
    · rename_i hneg
      rw [if_pos hneg] at hval
      have k1 : XR.roundDec 8 r ≤ -1 * (q : ℝ) := by rw [← hval]; linarith
      have k2 := nearest_mono k1
      have k3 : nearest (-1 * (q : ℝ)) ≤ 0 := nearest_np (by linarith)
      refine ⟨_, _, hx, Dbl.rnd_fin ?_, .inr ⟨k2, k3⟩⟩
      rw [abs_lt] at hfin ⊢
      exact ⟨hfin.1.trans_le k2, k3.trans_lt (by positivity)⟩
    · rename_i hneg
      rw [if_neg hneg] at hval
      have k1 : 1 * (q : ℝ) ≤ XR.roundDec 8 r := by rw [← hval]; linarith
      have k2 := nearest_mono k1
      have k3 : 0 ≤ nearest (1 * (q : ℝ)) := nearest_nn (by linarith)
      refine ⟨_, _, hx, Dbl.rnd_fin ?_, .inl ⟨k3, k2⟩⟩
      rw [abs_lt] at hfin ⊢
      exact ⟨lt_of_lt_of_le (by simp) k3, k2.trans_lt hfin.2⟩
  · left
    have hs := (percentText_reads (PyFloat.nan : Dbl)).2.2
    refine special_cut (s := ['n', 'a', 'n']) hp ?_ hs h
    decide
  · left
    have hs := (percentText_reads (PyFloat.inf : Dbl)).2.2
    refine special_cut (s := ['i', 'n', 'f']) hp ?_ hs h
    decide
  · left
    have hs := (percentText_reads (-PyFloat.inf : Dbl)).2.2
    refine special_cut (s := ['-', 'i', 'n', 'f']) hp ?_ hs h
    decide

end Disp

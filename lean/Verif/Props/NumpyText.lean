import Mathlib.Tactic.IntervalCases
import Mathlib.Tactic.FieldSimp
import Mathlib.Tactic.Linarith
import Verif.Model.NumpyText
import Verif.Props.TableText
import Verif.Lemmas.Rounding
import Verif.Lemmas.DecimalRounding
/-!
# The contract on printing holds for doubles

`PrintingLaws`, which was assumed of NumPy and Python so far, is proved for the texts of
`Model/NumpyText`.
-/

namespace Disp

/-! ## Digits -/

theorem digitOf_lt (n : ℕ) : ∃ d < 10, digitOf n = Char.ofNat (48 + d) ∧ n % 10 = d :=
  ⟨n % 10, Nat.mod_lt _ (by norm_num), rfl, rfl⟩

theorem digitOf_isDigit (n : ℕ) : (digitOf n).isDigit = true := by
  obtain ⟨d, hd, h, -⟩ := digitOf_lt n
  rw [h]
  interval_cases d <;> decide

theorem digitValue_digitOf (n : ℕ) : digitValue (digitOf n) = n % 10 := by
  obtain ⟨d, hd, h, h'⟩ := digitOf_lt n
  rw [h, h']
  interval_cases d <;> decide

theorem digits_isDigit {w n : ℕ} {c : Char} (h : c ∈ digits w n) : c.isDigit = true := by
  induction w generalizing n with
  | zero => cases h
  | succ w ih =>
    rcases List.mem_append.1 h with h | h
    · exact ih h
    · rw [List.mem_singleton] at h
      subst h
      exact digitOf_isDigit n

theorem digits_length (w n : ℕ) : (digits w n).length = w := by
  induction w generalizing n with
  | zero => rfl
  | succ w ih => simp [digits, ih]

theorem foldl_digits (cs : List Char) (a : ℕ) :
    cs.foldl (fun a c => 10 * a + digitValue c) a = a * 10 ^ cs.length + digitsValue cs := by
  induction cs generalizing a with
  | nil => simp [digitsValue]
  | cons c cs ih =>
    have h : digitsValue (c :: cs) = digitValue c * 10 ^ cs.length + digitsValue cs := by
      rw [digitsValue, List.foldl_cons, ih]; ring
    rw [List.foldl_cons, ih, h, List.length_cons, pow_succ]
    ring

theorem digitsValue_append (as bs : List Char) :
    digitsValue (as ++ bs) = digitsValue as * 10 ^ bs.length + digitsValue bs := by
  rw [digitsValue, List.foldl_append, foldl_digits]
  rfl

theorem digitsValue_digits (w n : ℕ) : digitsValue (digits w n) = n % 10 ^ w := by
  induction w generalizing n with
  | zero => simp [digits, digitsValue, Nat.mod_one]
  | succ w ih =>
    rw [digits, digitsValue_append, ih]
    have : digitsValue [digitOf n] = n % 10 := by
      rw [digitsValue, List.foldl_cons, List.foldl_nil, digitValue_digitOf]; omega
    rw [this, List.length_singleton, pow_one, pow_succ', Nat.mod_mul]
    ring

theorem digits_whole {w n : ℕ} (h : Nat.log 10 n + 1 ≤ w) : digitsValue (digits w n) = n := by
  rw [digitsValue_digits, Nat.mod_eq_of_lt]
  exact lt_of_lt_of_le (Nat.lt_pow_succ_log_self (by norm_num) n) (Nat.pow_le_pow_right (by norm_num) h)

theorem wholeText_value (n : ℕ) : digitsValue (wholeText n) = n := digits_whole le_rfl

theorem wholeText_ne (n : ℕ) : wholeText n ≠ [] := by
  intro h
  have := congrArg List.length h
  rw [wholeText, digits_length] at this
  simp at this

theorem zeros_value (k : ℕ) : digitsValue (List.replicate k '0') = 0 := by
  induction k with
  | zero => rfl
  | succ k ih =>
    rw [List.replicate_succ', digitsValue_append, ih]
    decide

theorem trimZeros_append (cs : List Char) : ∃ k, cs = trimZeros cs ++ List.replicate k '0' := by
  refine ⟨(cs.reverse.takeWhile (fun c => c = '0')).length, ?_⟩
  have h1 : cs.reverse.takeWhile (fun c => decide (c = '0')) =
      List.replicate (cs.reverse.takeWhile (fun c => decide (c = '0'))).length '0' := by
    refine List.eq_replicate_iff.2 ⟨rfl, fun c hc => ?_⟩
    have := List.all_eq_true.1 (List.all_takeWhile (p := fun c => decide (c = '0')) (l := cs.reverse)) c hc
    simpa using this
  have h2 := List.takeWhile_append_dropWhile (p := fun c => decide (c = '0')) (l := cs.reverse)
  rw [h1] at h2
  have := congrArg List.reverse h2
  rw [List.reverse_append, List.reverse_reverse, List.reverse_replicate] at this
  exact this.symm

theorem trimZeros_length (cs : List Char) : (trimZeros cs).length ≤ cs.length := by
  obtain ⟨k, h⟩ := trimZeros_append cs
  have := congrArg List.length h
  rw [List.length_append] at this
  omega

theorem trimZeros_mem {cs : List Char} {c : Char} (h : c ∈ trimZeros cs) : c ∈ cs := by
  obtain ⟨k, e⟩ := trimZeros_append cs
  rw [e]
  exact List.mem_append_left _ h

/-- Zeros at the end of a fraction do not matter. -/
theorem zeros_fraction (as bs : List Char) (k : ℕ) :
    (digitsValue (as ++ (bs ++ List.replicate k '0')) : ℚ) /
      10 ^ (bs ++ List.replicate k '0').length = digitsValue (as ++ bs) / 10 ^ bs.length := by
  rw [← List.append_assoc, digitsValue_append _ (List.replicate k '0'), zeros_value,
    List.length_replicate, List.length_append, List.length_replicate, pow_add]
  push_cast
  field_simp
  ring

theorem trim_fraction (as cs : List Char) :
    (digitsValue (as ++ trimZeros cs) : ℚ) / 10 ^ (trimZeros cs).length =
      digitsValue (as ++ cs) / 10 ^ cs.length := by
  obtain ⟨k, h⟩ := trimZeros_append cs
  conv_rhs => rw [h]
  exact (zeros_fraction as (trimZeros cs) k).symm

theorem take_fraction (as cs : List Char) {p : ℕ} (h : (trimZeros cs).length ≤ p) :
    (digitsValue (as ++ cs.take p) : ℚ) / 10 ^ (cs.take p).length =
      digitsValue (as ++ cs) / 10 ^ cs.length := by
  obtain ⟨k, e⟩ := trimZeros_append cs
  have : cs.take p = trimZeros cs ++ List.replicate (min (p - (trimZeros cs).length) k) '0' := by
    conv_lhs => rw [e]
    rw [List.take_append, List.take_of_length_le h, List.take_replicate]
  rw [this, zeros_fraction, trim_fraction]

/-! ## Reading -/

theorem takeWhile_digits {ds rest : List Char} (hd : ∀ c ∈ ds, c.isDigit = true)
    (hr : ∀ c ∈ rest.head?, c.isDigit = false) :
    (ds ++ rest).takeWhile Char.isDigit = ds ∧ (ds ++ rest).dropWhile Char.isDigit = rest := by
  induction ds with
  | nil =>
    cases rest with
    | nil => exact ⟨rfl, rfl⟩
    | cons c cs =>
      have := hr c (by simp)
      simp [this]
  | cons d ds ih =>
    obtain ⟨h1, h2⟩ := ih (fun c hc => hd c (List.mem_cons_of_mem _ hc))
    have := hd d (by simp)
    simp [this, h1, h2]

/-- A decimal number. -/
theorem readUnsigned_eq {is fs ex : List Char} {e : ℤ} (hi : ∀ c ∈ is, c.isDigit = true)
    (hne : is ≠ []) (hf : ∀ c ∈ fs, c.isDigit = true)
    (hx : ∀ c ∈ ex.head?, c.isDigit = false) (he : readExponent ex = some e) :
    readUnsigned (is ++ '.' :: (fs ++ ex)) =
      some ((digitsValue (is ++ fs) : ℚ) / 10 ^ fs.length * 10 ^ e) := by
  obtain ⟨h1, h2⟩ := takeWhile_digits (rest := '.' :: (fs ++ ex)) hi (by
    intro c hc
    rw [List.head?_cons, Option.mem_def, Option.some_inj] at hc
    subst hc
    decide)
  obtain ⟨h3, h4⟩ := takeWhile_digits hf hx
  have hr : readFraction ('.' :: (fs ++ ex)) = (fs, ex) := by
    rw [readFraction, if_pos rfl, h3, h4]
  rw [readUnsigned, h1, h2, hr, if_neg (fun h => hne h.1)]
  simp only [he, Option.map_some]
  rw [zpow_sub₀ (by norm_num), zpow_natCast]
  congr 1
  ring

theorem splitSign_digit {c : Char} (cs : List Char) (h : c.isDigit = true) :
    splitSign (c :: cs) = (false, c :: cs) := by
  have h1 : c ≠ '-' := by rintro rfl; exact absurd h (by decide)
  have h2 : c ≠ '+' := by rintro rfl; exact absurd h (by decide)
  rw [splitSign, if_neg h1, if_neg h2]

theorem toLower_digit {c : Char} (h : c.isDigit = true) : c.toLower ≠ 'n' ∧ c.toLower ≠ 'i' := by
  have hc : c.toLower = c := by
    rw [Char.toLower]
    simp only [Char.isDigit, Bool.and_eq_true, decide_eq_true_eq] at h
    split
    · rename_i h2
      obtain ⟨h3, h4⟩ := h
      exfalso
      have h6 : c.toNat ≤ 57 := h4
      have h5 : 65 ≤ c.toNat := h2.1
      omega
    · rfl
  rw [hc]
  constructor
  · rintro rfl; exact absurd h (by decide)
  · rintro rfl; exact absurd h (by decide)

/-- Texts that begin with a digit, with a sign. -/
theorem readDouble_signed (x : ℝ) {c : Char} {cs : List Char} (hc : c.isDigit = true) {q : ℚ}
    (hq : readUnsigned (c :: cs) = some q) :
    readDouble (signText x ++ c :: cs) =
      .ok (Dbl.rnd (.fin ((if x < 0 then -1 else 1) * (q : ℝ)))) := by
  have hs : splitSign (signText x ++ c :: cs) = (decide (x < 0), c :: cs) := by
    unfold signText
    split
    · rename_i h; simp [splitSign, h]
    · rename_i h; simp [splitSign_digit cs hc, h]
  obtain ⟨h1, h2⟩ := toLower_digit hc
  unfold readDouble
  rw [hs]
  simp only [List.map_cons]
  rw [if_neg (by simp [h1]), if_neg (by simp [h2]), hq]
  by_cases hx : x < 0
  · simp [hx]
  · simp [hx]

/-! ## Rounding -/

theorem rint_neg_toNat {y : ℝ} (h : 0 ≤ y) : ((XR.rint y).toNat : ℝ) = (XR.rint y : ℝ) := by
  have : 0 ≤ XR.rint y := by
    have := XR.rint_mono h
    have h0 : XR.rint 0 = 0 := by exact_mod_cast XR.rint_int 0
    rwa [h0] at this
  have e : (((XR.rint y).toNat : ℤ) : ℝ) = (XR.rint y : ℝ) := by rw [Int.toNat_of_nonneg this]
  exact_mod_cast e

theorem rint_neg (y : ℝ) : XR.rint (-y) = -XR.rint y := by
  by_cases hi : (⌊y⌋ : ℝ) = y
  · rw [← hi, ← Int.cast_neg, XR.rint_int, XR.rint_int]
  have h1 := Int.floor_le y
  have h2 := Int.lt_floor_add_one y
  have h3 : (⌊y⌋ : ℝ) < y := lt_of_le_of_ne h1 hi
  have hf : ⌊-y⌋ = -⌊y⌋ - 1 := by
    rw [Int.floor_eq_iff]; push_cast; constructor <;> linarith
  unfold XR.rint
  rw [hf]
  push_cast
  by_cases a : y - ⌊y⌋ < 1 / 2
  · rw [if_neg (by linarith), if_pos (by linarith), if_pos a]; ring
  · by_cases b : 1 / 2 < y - ⌊y⌋
    · rw [if_pos (by linarith), if_neg a, if_pos b]; ring
    · rw [if_neg (by linarith), if_neg (by linarith), if_neg a, if_neg b]
      by_cases c : Even ⌊y⌋
      · have : ¬ Even (-⌊y⌋ - 1) := by
          intro h
          have := h.add c
          rw [show -⌊y⌋ - 1 + ⌊y⌋ = -1 by ring] at this
          exact absurd this (by decide)
        rw [if_neg this, if_pos c]; ring
      · have : Even (-⌊y⌋ - 1) := by
          rw [Int.not_even_iff_odd] at c
          exact c.neg.sub_odd odd_one
        rw [if_pos this, if_neg c]; ring

theorem sign_abs (x : ℝ) : (if x < 0 then -1 else 1) * |x| = x := by
  split
  · rename_i h; rw [abs_of_neg h]; ring
  · rename_i h; rw [abs_of_nonneg (not_lt.1 h)]; ring

theorem sign_rint (x : ℝ) {u : ℝ} (hu : 0 < u) :
    (if x < 0 then -1 else 1) * ((XR.rint (|x| / u)).toNat : ℝ) = (XR.rint (x / u) : ℝ) := by
  rw [rint_neg_toNat (by positivity)]
  split
  · rename_i h
    rw [abs_of_neg h, neg_div, rint_neg]; push_cast; ring
  · rename_i h
    rw [abs_of_nonneg (not_lt.1 h)]; ring

theorem eighths_value (x : ℝ) :
    (if x < 0 then -1 else 1) * ((eighths x : ℝ) / 10 ^ 8) = XR.roundDec 8 x := by
  have h := sign_rint x (u := 1 / 10 ^ 8) (by positivity)
  rw [div_div_eq_mul_div, div_one, div_div_eq_mul_div, div_one] at h
  rw [XR.roundDec, ← h, eighths]
  ring

/-- The unit of the ninth significant digit. -/
theorem ten_zpow_pos (e : ℤ) : (0 : ℝ) < 10 ^ e := zpow_pos (by norm_num) e

theorem log_bounds {x : ℝ} (hx : x ≠ 0) :
    (10 : ℝ) ^ 8 ≤ |x| / 10 ^ (Int.log 10 |x| - 8) ∧ |x| / 10 ^ (Int.log 10 |x| - 8) < 10 ^ 9 := by
  have hp : 0 < |x| := abs_pos.2 hx
  have h1 : (10 : ℝ) ^ Int.log 10 |x| ≤ |x| := by
    exact_mod_cast Int.zpow_log_le_self (b := 10) (by norm_num) hp
  have h2 : |x| < (10 : ℝ) ^ (Int.log 10 |x| + 1) := by
    exact_mod_cast Int.lt_zpow_succ_log_self (b := 10) (by norm_num) |x|
  rw [le_div_iff₀ (ten_zpow_pos _), div_lt_iff₀ (ten_zpow_pos _)]
  constructor
  · refine le_trans (le_of_eq ?_) h1
    rw [← zpow_natCast, ← zpow_add₀ (by norm_num)]
    congr 1; push_cast; ring
  · refine lt_of_lt_of_le h2 (le_of_eq ?_)
    rw [← zpow_natCast, ← zpow_add₀ (by norm_num)]
    congr 1; push_cast; ring

theorem significand_zero : significand 0 = 0 := by
  have h0 : XR.rint 0 = 0 := by exact_mod_cast XR.rint_int 0
  simp [significand, h0]

/-- The significand has nine digits. -/
theorem significand_bounds {x : ℝ} (hx : x ≠ 0) :
    10 ^ 8 ≤ significand x ∧ significand x < 10 ^ 9 := by
  obtain ⟨h1, h2⟩ := log_bounds hx
  have r1 := XR.rint_mono (show (((10 ^ 8 : ℤ)) : ℝ) ≤ |x| / 10 ^ (Int.log 10 |x| - 8) by
    exact_mod_cast h1)
  have r2 := XR.rint_mono (show |x| / 10 ^ (Int.log 10 |x| - 8) ≤ (((10 ^ 9 : ℤ)) : ℝ) by
    exact_mod_cast h2.le)
  rw [XR.rint_int] at r1 r2
  unfold significand decExp
  split
  · rename_i h
    have e : |x| / 10 ^ (Int.log 10 |x| + 1 - 8) = |x| / 10 ^ (Int.log 10 |x| - 8) / 10 := by
      rw [div_div, show Int.log 10 |x| + 1 - 8 = Int.log 10 |x| - 8 + 1 by ring,
        zpow_add_one₀ (by norm_num)]
    have h3 := XR.rint_sub_le (|x| / 10 ^ (Int.log 10 |x| - 8))
    rw [h, abs_le] at h3
    have h4 : XR.rint (|x| / 10 ^ (Int.log 10 |x| + 1 - 8)) = 10 ^ 8 := by
      refine rint_eq_of_near (10 ^ 8) ?_
      rw [e, abs_lt]
      push_cast at h3 ⊢
      constructor <;> linarith
    rw [h4]
    norm_num
  · rename_i h
    omega

theorem significand_lt (x : ℝ) : significand x < 10 ^ 9 := by
  by_cases h : x = 0
  · rw [h, significand_zero]; norm_num
  · exact (significand_bounds h).2

/-! ## The texts denote the numbers -/

theorem point_digits {w : List Char} {k : ℕ} (h : digitsValue w = k / 10 ^ 8) :
    (digitsValue (w ++ digits 8 k) : ℚ) / 10 ^ (digits 8 k).length = k / 10 ^ 8 := by
  rw [digitsValue_append, digits_length, digitsValue_digits, h, Nat.div_add_mod' k]

theorem wholeText_cons (n : ℕ) : ∃ c cs, wholeText n = c :: cs ∧ c.isDigit = true := by
  cases h : wholeText n with
  | nil => exact absurd h (wholeText_ne n)
  | cons c cs =>
    refine ⟨c, cs, rfl, digits_isDigit (w := Nat.log 10 n + 1) (n := n) ?_⟩
    rw [show digits (Nat.log 10 n + 1) n = wholeText n from rfl, h]
    simp

theorem read_positional (x : ℝ) {fs : List Char} (hf : ∀ c ∈ fs, c.isDigit = true)
    (hv : (digitsValue (wholeText (eighths x / 10 ^ 8) ++ fs) : ℚ) / 10 ^ fs.length =
      eighths x / 10 ^ 8) :
    readDouble (signText x ++ wholeText (eighths x / 10 ^ 8) ++ '.' :: fs) =
      .ok (Dbl.rnd (.fin (XR.roundDec 8 x))) := by
  have hr := readUnsigned_eq (is := wholeText (eighths x / 10 ^ 8)) (fs := fs) (ex := []) (e := 0)
    (fun c hc => digits_isDigit hc) (wholeText_ne _) hf (by simp) rfl
  rw [List.append_nil, hv, zpow_zero, mul_one] at hr
  obtain ⟨c, cs, h1, h2⟩ := wholeText_cons (eighths x / 10 ^ 8)
  rw [h1] at hr ⊢
  rw [List.append_assoc]
  rw [List.cons_append] at hr ⊢
  rw [readDouble_signed x h2 hr, ← eighths_value]
  push_cast
  rfl

/-- `"%.8f"`. -/
theorem read_fixedText (x : ℝ) :
    readDouble (fixedText x) = .ok (Dbl.rnd (.fin (XR.roundDec 8 x))) :=
  read_positional x (fun _ hc => digits_isDigit hc) (point_digits (wholeText_value _))

/-- An entry in positional notation. -/
theorem read_wholeFrac (x : ℝ) :
    readDouble (wholePart x ++ '.' :: fracPart x) = .ok (Dbl.rnd (.fin (XR.roundDec 8 x))) :=
  read_positional x (fun _ hc => digits_isDigit (trimZeros_mem hc)) (by
    rw [fracPart, trim_fraction, point_digits (wholeText_value _)])

theorem read_exponent (e : ℤ) {w : ℕ} (h : Nat.log 10 e.natAbs + 1 ≤ w) :
    readExponent ('e' :: (if e < 0 then '-' else '+') :: digits w e.natAbs) = some e := by
  have hd : (digits w e.natAbs).all Char.isDigit = true := by
    rw [List.all_eq_true]; exact fun c hc => digits_isDigit hc
  have hn : digits w e.natAbs ≠ [] := by
    intro hn
    have := congrArg List.length hn
    rw [digits_length] at this
    simp at this
    omega
  have hv := digits_whole h
  by_cases he : e < 0
  · have hs : splitSign ((if e < 0 then '-' else '+') :: digits w e.natAbs) =
        (true, digits w e.natAbs) := by simp [splitSign, he]
    rw [readExponent, hs, if_pos ⟨.inl rfl, hn, hd⟩, hv]
    congr 1
    simp only [if_true]
    omega
  · have hs : splitSign ((if e < 0 then '-' else '+') :: digits w e.natAbs) =
        (false, digits w e.natAbs) := by simp [splitSign, he]
    rw [readExponent, hs, if_pos ⟨.inl rfl, hn, hd⟩, hv]
    congr 1
    simp only [Bool.false_eq_true, if_false]
    omega

/-- An entry in scientific notation. -/
theorem read_sciText (f : CellFormat) (x : ℝ)
    (h : (trimZeros (digits 8 (significand x))).length ≤ f.frac) :
    readDouble (sciText f x) = .ok (Dbl.rnd (.fin (nineDigits x))) := by
  have hd : digitsValue [digitOf (significand x / 10 ^ 8)] = significand x / 10 ^ 8 := by
    have := significand_lt x
    rw [digitsValue, List.foldl_cons, List.foldl_nil, digitValue_digitOf]
    omega
  have hr := readUnsigned_eq (is := [digitOf (significand x / 10 ^ 8)])
    (fs := (digits 8 (significand x)).take f.frac)
    (ex := 'e' :: (if decExp x < 0 then '-' else '+') ::
      digits (max f.expo (Nat.log 10 (decExp x).natAbs + 1)) (decExp x).natAbs) (e := decExp x)
    (by simp [digitOf_isDigit]) (by simp) (fun c hc => digits_isDigit (List.mem_of_mem_take hc))
    (by
      intro c hc
      rw [List.head?_cons, Option.mem_def, Option.some_inj] at hc
      subst hc
      decide) (read_exponent _ (le_max_right _ _))
  rw [take_fraction _ _ h, point_digits hd] at hr
  rw [sciText, leadPart, List.append_assoc, List.append_assoc]
  rw [List.cons_append, List.nil_append] at hr
  rw [show [digitOf (significand x / 10 ^ 8)] ++ ('.' :: List.take f.frac (digits 8 (significand x)) ++
    'e' :: (if decExp x < 0 then '-' else '+') ::
      digits (max f.expo (Nat.log 10 (decExp x).natAbs + 1)) (decExp x).natAbs) =
    digitOf (significand x / 10 ^ 8) :: '.' :: (List.take f.frac (digits 8 (significand x)) ++
    'e' :: (if decExp x < 0 then '-' else '+') ::
      digits (max f.expo (Nat.log 10 (decExp x).natAbs + 1)) (decExp x).natAbs) from rfl,
    readDouble_signed x (digitOf_isDigit _) hr, nineDigits]
  congr 3
  push_cast
  rw [zpow_sub₀ (by norm_num : (10 : ℝ) ≠ 0)]
  norm_num
  ring

/-! ## Characters and widths -/

/-- The characters of numbers. -/
def NumChar (c : Char) : Prop := c.isDigit = true ∨ c ∈ ['-', '+', '.', 'e', 'n', 'a', 'i', 'f']

theorem NumChar.space {c : Char} (h : NumChar c) : pySpace c = false := by
  by_contra hc
  have key : ∀ c ∈ pySpaces,
      ¬ (c.isDigit = true ∨ c ∈ ['-', '+', '.', 'e', 'n', 'a', 'i', 'f']) := by decide
  exact key c (by simpa [pySpace] using hc) h

theorem NumChar.ascii {c : Char} (h : NumChar c) :
    32 ≤ c.toNat ∧ c.toNat ≤ 126 ∧ ¬ (65 ≤ c.toNat ∧ c.toNat ≤ 90) := by
  rcases h with h | h
  · simp only [Char.isDigit, Bool.and_eq_true, decide_eq_true_eq] at h
    have h1 : 48 ≤ c.toNat := h.1
    have h2 : c.toNat ≤ 57 := h.2
    omega
  · simp only [List.mem_cons, List.not_mem_nil, or_false] at h
    rcases h with rfl | rfl | rfl | rfl | rfl | rfl | rfl | rfl <;> decide

theorem NumChar.ne {c : Char} (h : NumChar c) :
    c ≠ '[' ∧ c ≠ ']' ∧ c ≠ ',' ∧ c ≠ '#' ∧ c ≠ ';' := by
  refine ⟨?_, ?_, ?_, ?_, ?_⟩ <;>
  · rintro rfl
    exact absurd h (by unfold NumChar; decide)

theorem signText_char {x : ℝ} {c : Char} (h : c ∈ signText x) : NumChar c := by
  unfold signText at h
  split at h
  · rw [List.mem_singleton] at h; subst h; exact .inr (by decide)
  · cases h

theorem wholePart_char {x : ℝ} {c : Char} (h : c ∈ wholePart x) : NumChar c := by
  rcases List.mem_append.1 h with h | h
  · exact signText_char h
  · exact .inl (digits_isDigit h)

theorem wholeFrac_char {x : ℝ} {c : Char} {fs : List Char} (hf : ∀ c ∈ fs, c.isDigit = true)
    (h : c ∈ wholePart x ++ '.' :: fs) : NumChar c := by
  rcases List.mem_append.1 h with h | h
  · exact wholePart_char h
  · rcases List.mem_cons.1 h with rfl | h
    · exact .inr (by decide)
    · exact .inl (hf c h)

theorem sciText_char {f : CellFormat} {x : ℝ} {c : Char} (h : c ∈ sciText f x) : NumChar c := by
  rw [sciText, leadPart] at h
  simp only [List.mem_append, List.mem_cons, List.not_mem_nil, or_false] at h
  rcases h with ((h | rfl) | rfl | h) | rfl | rfl | h
  · exact signText_char h
  · exact .inl (digitOf_isDigit _)
  · exact .inr (by decide)
  · exact .inl (digits_isDigit (List.mem_of_mem_take h))
  · exact .inr (by decide)
  · split <;> exact .inr (by decide)
  · exact .inl (digits_isDigit h)

theorem longest_le {ts : List (List Char)} {n : ℕ} (h : ∀ t ∈ ts, t.length ≤ n) : longest ts ≤ n := by
  induction ts with
  | nil => exact Nat.zero_le _
  | cons t ts ih =>
    exact max_le (h t (by simp)) (ih fun u hu => h u (List.mem_cons_of_mem _ hu))

theorem le_longest {ts : List (List Char)} {t : List Char} (h : t ∈ ts) : t.length ≤ longest ts := by
  induction ts with
  | nil => cases h
  | cons u ts ih =>
    rcases List.mem_cons.1 h with rfl | h
    · exact le_max_left _ _
    · exact (ih h).trans (le_max_right _ _)

theorem mem_finites {xs : List Dbl} {x : Dbl} {r : ℝ} (h : x ∈ xs) (hr : x.val = .fin r) :
    r ∈ finites xs := by
  rw [finites, List.mem_filterMap]
  exact ⟨x, h, by simp only [hr]⟩

theorem of_mem_finites {xs : List Dbl} {r : ℝ} (h : r ∈ finites xs) :
    ∃ x ∈ xs, x.val = .fin r := by
  rw [finites, List.mem_filterMap] at h
  obtain ⟨x, h1, h2⟩ := h
  refine ⟨x, h1, ?_⟩
  split at h2
  · rename_i r' hr
    cases h2
    exact hr
  · cases h2

theorem double_abs {x : ℝ} (h : IsDouble x) : IsDouble |x| := by
  obtain ⟨m, e, h1, h2, h3, rfl⟩ := h
  refine ⟨|m|, e, by rwa [abs_abs], h2, h3, ?_⟩
  rw [abs_mul, abs_of_pos (two_zpow_pos e)]
  push_cast
  rfl

/-- Positional notation is used for sizes below `10^8` only. -/
theorem positional_small {xs : List Dbl} (hs : useSci xs = false) {r : ℝ} (hr : r ∈ finites xs) :
    |r| < 10 ^ 8 := by
  by_cases h0 : r = 0
  · rw [h0]; norm_num
  obtain ⟨x, -, hx⟩ := of_mem_finites hr
  have hd := double_abs (Dbl.isDouble_val hx)
  simp only [useSci, Bool.or_eq_false_iff] at hs
  have h1 := List.any_eq_false.1 hs.1.1 (Dbl.rnd (.fin |r|)) (by
    rw [sizes, List.mem_map]
    exact ⟨r, by simp [hr, h0], rfl⟩)
  by_contra hc
  apply h1
  show Dbl.le (Dbl.ofRat (10 ^ 8)) (Dbl.rnd (.fin |r|)) = true
  rw [Dbl.le, Dbl.rnd_double hd, ten_val (by norm_num)]
  rw [XR.le_fin]
  exact decide_eq_true (not_lt.1 hc)

theorem eighths_le {x : ℝ} {n : ℕ} (h : |x| ≤ n) : eighths x ≤ n * 10 ^ 8 := by
  have h1 : |x| * 10 ^ 8 ≤ ((n * 10 ^ 8 : ℤ) : ℝ) := by
    push_cast
    have : (0 : ℝ) ≤ 10 ^ 8 := by norm_num
    have := mul_le_mul_of_nonneg_right h this
    norm_num at this ⊢
    exact this
  have := XR.rint_mono h1
  rw [XR.rint_int] at this
  unfold eighths
  omega

theorem wholePart_length {x : ℝ} (h : |x| < 10 ^ 8) : (wholePart x).length ≤ 10 := by
  have h1 := eighths_le (n := 10 ^ 8) (x := x) (by exact_mod_cast h.le)
  have h2 : eighths x / 10 ^ 8 < 10 ^ 9 := by omega
  have h3 : Nat.log 10 (eighths x / 10 ^ 8) < 9 := Nat.log_lt_of_lt_pow' (by norm_num) h2
  have h4 : (signText x).length ≤ 1 := by unfold signText; split <;> simp
  rw [wholePart, List.length_append, wholeText, digits_length]
  omega

theorem fracPart_length (x : ℝ) : (fracPart x).length ≤ 8 := by
  have := trimZeros_length (digits 8 (eighths x))
  rwa [digits_length] at this

theorem leadPart_length (x : ℝ) : (leadPart x).length ≤ 2 := by
  have h4 : (signText x).length ≤ 1 := by unfold signText; split <;> simp
  rw [leadPart, List.length_append, List.length_singleton]
  omega

theorem big_powers : 2 ^ 1074 ≤ 10 ^ 324 ∧ 2 ^ 1024 < 10 ^ 309 := by decide +kernel

/-- Exponents of doubles have at most three digits. -/
theorem expoText_length {x : ℝ} (h : IsDouble x) : (expoText x).length ≤ 3 := by
  have hlog : -324 ≤ Int.log 10 |x| ∧ Int.log 10 |x| ≤ 308 := by
    by_cases h0 : x = 0
    · rw [h0, abs_zero, Int.log_zero_right]; norm_num
    have hp : 0 < |x| := abs_pos.2 h0
    constructor
    · rw [← Int.zpow_le_iff_le_log (by norm_num) hp]
      obtain ⟨m, e, h1, h2, h3, rfl⟩ := h
      have hm : 1 ≤ |m| := by
        refine Int.one_le_abs ?_
        rintro rfl
        simp at h0
      have hm' : (1 : ℝ) ≤ |(m : ℝ)| := by exact_mod_cast hm
      rw [abs_mul, abs_of_pos (two_zpow_pos e)]
      have h4 : (2 : ℝ) ^ (-1074 : ℤ) ≤ 2 ^ e := zpow_le_zpow_right₀ (by norm_num) h2
      have h5 : ((10 : ℕ) : ℝ) ^ (-324 : ℤ) ≤ 2 ^ (-1074 : ℤ) := by
        rw [zpow_neg, zpow_neg]
        refine inv_anti₀ (by positivity) ?_
        exact_mod_cast big_powers.1
      nlinarith [two_zpow_pos e]
    · have := (Int.lt_zpow_iff_log_lt (b := 10) (x := 309) (by norm_num) hp).1 (by
        refine (Dbl.double_lt h).trans ?_
        exact_mod_cast big_powers.2)
      omega
  have he : (decExp x).natAbs < 10 ^ 3 := by
    unfold decExp
    split <;> omega
  rw [expoText, wholeText, digits_length]
  have := Nat.log_lt_of_lt_pow' (b := 10) (by norm_num) he
  omega

/-! ## The widths of an array -/

theorem finiteFormat_sci (xs : List Dbl) : (finiteFormat xs).sci = useSci xs := by
  unfold finiteFormat
  split
  · rfl
  · split
    · rename_i h; exact h.symm
    · rename_i h; simpa using h

theorem formatOf_sci (xs : List Dbl) : (formatOf xs).sci = useSci xs := by
  unfold formatOf
  split <;> exact finiteFormat_sci xs

theorem finiteFormat_bounds (xs : List Dbl) :
    (useSci xs = true → (finiteFormat xs).left ≤ 2 ∧ (finiteFormat xs).right ≤ 13 ∧
      (finiteFormat xs).expo ≤ 3) ∧
    (useSci xs = false → (finiteFormat xs).left ≤ 10 ∧ (finiteFormat xs).right ≤ 8) := by
  unfold finiteFormat
  split
  · exact ⟨fun _ => ⟨by simp, by simp, by simp⟩, fun _ => ⟨by simp, by simp⟩⟩
  split
  · rename_i hs
    refine ⟨fun _ => ?_, fun h => by rw [hs] at h; cases h⟩
    have h1 : longest ((finites xs).map leadPart) ≤ 2 := longest_le (by
      intro t ht
      obtain ⟨r, -, rfl⟩ := List.mem_map.1 ht
      exact leadPart_length r)
    have h2 : longest ((finites xs).map expoText) ≤ 3 := longest_le (by
      intro t ht
      obtain ⟨r, hr, rfl⟩ := List.mem_map.1 ht
      obtain ⟨x, -, hx⟩ := of_mem_finites hr
      exact expoText_length (Dbl.isDouble_val hx))
    have h3 : longest ((finites xs).map fun x => trimZeros (digits 8 (significand x))) ≤ 8 :=
      longest_le (by
        intro t ht
        obtain ⟨r, -, rfl⟩ := List.mem_map.1 ht
        have := trimZeros_length (digits 8 (significand r))
        rwa [digits_length] at this)
    refine ⟨h1, ?_, ?_⟩ <;> simp only <;> omega
  · rename_i hs
    refine ⟨fun h => absurd h hs, fun _ => ⟨longest_le ?_, longest_le ?_⟩⟩
    · intro t ht
      obtain ⟨r, hr, rfl⟩ := List.mem_map.1 ht
      exact wholePart_length (positional_small (by simpa using hs) hr)
    · intro t ht
      obtain ⟨r, hr, rfl⟩ := List.mem_map.1 ht
      exact fracPart_length r

open Classical in
theorem formatOf_bounds (xs : List Dbl) :
    (useSci xs = true → (formatOf xs).left ≤ 4 ∧ (formatOf xs).right ≤ 13 ∧
      (formatOf xs).expo ≤ 3) ∧
    (useSci xs = false → (formatOf xs).left ≤ 10 ∧ (formatOf xs).right ≤ 8) := by
  obtain ⟨h1, h2⟩ := finiteFormat_bounds xs
  unfold formatOf
  split
  · exact ⟨fun h => ⟨(h1 h).1.trans (by norm_num), (h1 h).2⟩, h2⟩
  · have h3 : ∀ k : ℕ, (3 + if ∃ x ∈ xs, x.val = XR.ninf then 1 else 0) - (k + 1) ≤ 4 := by
      intro k
      split <;> omega
    exact ⟨fun h => ⟨max_le ((h1 h).1.trans (by norm_num)) (h3 _), (h1 h).2⟩,
      fun h => ⟨max_le (h2 h).1 ((h3 _).trans (by norm_num : 4 ≤ 10)), (h2 h).2⟩⟩

/-- In scientific notation every entry shows all its digits. -/
theorem formatOf_frac {xs : List Dbl} (hs : useSci xs = true) {r : ℝ} (hr : r ∈ finites xs) :
    (trimZeros (digits 8 (significand r))).length ≤ (formatOf xs).frac := by
  have h : (formatOf xs).frac = (finiteFormat xs).frac := by unfold formatOf; split <;> rfl
  rw [h, finiteFormat, if_neg (by intro h; rw [h] at hr; cases hr), if_pos hs]
  exact le_longest (List.mem_map.2 ⟨r, hr, rfl⟩)

/-! ## The contract -/

theorem mem_arrayOf (xs : List Dbl) (x : Dbl) : x ∈ arrayOf xs x := by
  unfold arrayOf
  split
  · assumption
  · simp

theorem blanks_mem {n : ℕ} {c : Char} (h : c ∈ blanks n) : c = ' ' := List.eq_of_mem_replicate h

theorem read_special : readDouble ['n', 'a', 'n'] = .ok PyFloat.nan ∧
    readDouble ['i', 'n', 'f'] = .ok PyFloat.inf ∧
    readDouble ['-', 'i', 'n', 'f'] = .ok (-PyFloat.inf) := by
  have h1 : splitSign ['n', 'a', 'n'] = (false, ['n', 'a', 'n']) := by decide
  have h2 : splitSign ['i', 'n', 'f'] = (false, ['i', 'n', 'f']) := by decide
  have h3 : splitSign ['-', 'i', 'n', 'f'] = (true, ['i', 'n', 'f']) := by decide
  have h4 : (['n', 'a', 'n'] : List Char).map Char.toLower = ['n', 'a', 'n'] := by decide
  have h5 : (['i', 'n', 'f'] : List Char).map Char.toLower = ['i', 'n', 'f'] := by decide
  refine ⟨?_, ?_, ?_⟩
  · unfold readDouble; rw [h1, if_pos h4]
  · unfold readDouble; rw [h2, if_neg (by rw [h5]; decide), if_pos (.inl h5)]; rfl
  · unfold readDouble; rw [h3, if_neg (by rw [h5]; decide), if_pos (.inl h5)]; rfl

theorem special_word {s : List Char} (h : s ∈ [['n', 'a', 'n'], ['i', 'n', 'f'], ['-', 'i', 'n', 'f']]) :
    s ≠ [] ∧ (∀ c ∈ s, NumChar c) ∧ s.length ≤ 4 := by
  simp only [List.mem_cons, List.not_mem_nil, or_false] at h
  rcases h with rfl | rfl | rfl
  · refine ⟨by decide, ?_, by decide⟩; unfold NumChar; decide
  · refine ⟨by decide, ?_, by decide⟩; unfold NumChar; decide
  · refine ⟨by decide, ?_, by decide⟩; unfold NumChar; decide

theorem dbl_cases (x : Dbl) : (∃ r, x.val = .fin r) ∨ x = PyFloat.nan ∨ x = PyFloat.inf ∨
    x = -PyFloat.inf := by
  rcases h : x.val with r | _ | _ | _
  · exact .inl ⟨r, rfl⟩
  · exact .inr (.inr (.inl (Dbl.ext h)))
  · exact .inr (.inr (.inr (Dbl.ext h)))
  · exact .inr (.inl (Dbl.ext h))

/-- A word in its field. -/
structure CellOf (t : List Char) (x : Dbl) : Prop where
  intro ::
  ex : ∃ pre tok post, t = pre ++ tok ++ post ∧ (∀ c ∈ pre, c = ' ') ∧ (∀ c ∈ post, c = ' ') ∧
    tok ≠ [] ∧ (∀ c ∈ tok, NumChar c) ∧ t.length ≤ 20 ∧ readDouble tok = .ok x

theorem special_cell {xs : List Dbl} {s : List Char}
    (h : s ∈ [['n', 'a', 'n'], ['i', 'n', 'f'], ['-', 'i', 'n', 'f']]) {x : Dbl}
    (hr : readDouble s = .ok x) : CellOf (special (formatOf xs) s) x := by
  obtain ⟨h1, h2, h3⟩ := special_word h
  refine ⟨_, s, [], (List.append_nil _).symm, fun c hc => blanks_mem hc, by simp, h1, h2, ?_, hr⟩
  rw [special, List.length_append, blanks, List.length_replicate]
  obtain ⟨b1, b2⟩ := formatOf_bounds xs
  cases hs : useSci xs with
  | true => have := b1 hs; omega
  | false => have := b2 hs; omega

/-- Every entry of an array is written as a word that denotes the number shown. -/
theorem cellText_cell {xs : List Dbl} {x : Dbl} (hx : x ∈ xs) :
    CellOf (cellText (formatOf xs) x) (cellShown (useSci xs) x) := by
  obtain ⟨s1, s2, s3⟩ := read_special
  rcases dbl_cases x with ⟨r, hr⟩ | rfl | rfl | rfl
  · have hm := mem_finites hx hr
    obtain ⟨b1, b2⟩ := formatOf_bounds xs
    simp only [cellText, cellShown, hr, formatOf_sci]
    cases hs : useSci xs with
    | true =>
      obtain ⟨l1, l2, l3⟩ := b1 hs
      rw [if_pos rfl, if_pos rfl]
      refine ⟨blanks ((formatOf xs).left - (leadPart r).length), sciText (formatOf xs) r, [],
        (List.append_nil _).symm, fun c hc => blanks_mem hc, by simp, by simp [sciText],
        fun c hc => sciText_char hc, ?_, read_sciText _ _ (formatOf_frac hs hm)⟩
      have e1 := leadPart_length r
      have e2 : Nat.log 10 (decExp r).natAbs + 1 ≤ 3 := by
        have := expoText_length (Dbl.isDouble_val hr)
        rwa [expoText, wholeText, digits_length] at this
      rw [scientific, sciText]
      simp only [List.length_append, List.length_cons, blanks, List.length_replicate,
        List.length_take, digits_length]
      omega
    | false =>
      obtain ⟨l1, l2⟩ := b2 hs
      rw [if_neg (by simp), if_neg (by simp)]
      refine ⟨blanks ((formatOf xs).left - (wholePart r).length), wholePart r ++ '.' :: fracPart r,
        blanks ((formatOf xs).right - (fracPart r).length), rfl, fun c hc => blanks_mem hc,
        fun c hc => blanks_mem hc, by simp,
        fun c hc => wholeFrac_char (fun c hc => digits_isDigit (trimZeros_mem hc)) hc, ?_,
        read_wholeFrac r⟩
      have e1 := wholePart_length (positional_small hs hm)
      have e2 := fracPart_length r
      rw [positional]
      simp only [List.length_append, List.length_cons, blanks, List.length_replicate]
      omega
  · exact special_cell (by simp) s1
  · exact special_cell (by simp) s2
  · have e : (-PyFloat.inf : Dbl).val = .ninf := rfl
    simp only [cellText, cellShown, e]
    exact special_cell (by simp) s3

theorem percentText_reads (x : Dbl) : percentText x ≠ [] ∧ (∀ c ∈ percentText x, NumChar c) ∧
    readDouble (percentText x) = .ok (cellShown false x) := by
  obtain ⟨s1, s2, s3⟩ := read_special
  rcases dbl_cases x with ⟨r, hr⟩ | rfl | rfl | rfl
  · simp only [percentText, cellShown, hr]
    refine ⟨by simp [fixedText], fun c hc => wholeFrac_char (fun c hc => digits_isDigit hc) hc, ?_⟩
    rw [if_neg (by simp)]
    exact read_fixedText r
  · obtain ⟨h1, h2, -⟩ := special_word (s := ['n', 'a', 'n']) (by simp)
    exact ⟨h1, h2, s1⟩
  · obtain ⟨h1, h2, -⟩ := special_word (s := ['i', 'n', 'f']) (by simp)
    exact ⟨h1, h2, s2⟩
  · obtain ⟨h1, h2, -⟩ := special_word (s := ['-', 'i', 'n', 'f']) (by simp)
    have e : (-PyFloat.inf : Dbl).val = .ninf := rfl
    simp only [percentText, cellShown, e]
    exact ⟨h1, h2, s3⟩

/-- The contract on printing holds for doubles as Python and NumPy write them. -/
instance : PrintingLaws Dbl where
  cell xs x := by
    obtain ⟨pre, tok, post, h1, h2, h3, h4, h5, h6, h7⟩ := (cellText_cell (mem_arrayOf xs x)).ex
    exact ⟨pre, tok, post, h1, h2, h3, ⟨h4, fun c hc => (h5 c hc).space⟩,
      fun hc => (h5 _ hc).ne.1 rfl, fun hc => (h5 _ hc).ne.2.1 rfl, h6, h7⟩
  ascii xs x c hc := by
    obtain ⟨pre, tok, post, h1, h2, h3, h4, h5, h6, h7⟩ := (cellText_cell (mem_arrayOf xs x)).ex
    have hc : c ∈ pre ++ tok ++ post := h1 ▸ hc
    simp only [List.mem_append] at hc
    rcases hc with (hc | hc) | hc
    · rw [h2 c hc]; decide
    · exact (h5 c hc).ascii
    · rw [h3 c hc]; decide
  only_value s e h := by
    replace h : readDouble s = .error e := h
    unfold readDouble at h
    split at h
    · cases h
    · split at h
      · cases h
      · split at h
        · cases h
        · cases h; rfl
  dots := by
    have h1 : splitSign dots = (false, dots) := by decide
    show readDouble dots = .error .value
    unfold readDouble
    rw [h1, if_neg (by decide), if_neg (by decide)]
    have : readUnsigned dots = Option.none := by
      rw [readUnsigned, if_pos ⟨by decide, by decide⟩]
    rw [this]
  fmt8 x := by
    obtain ⟨h1, h2, h3⟩ := percentText_reads x
    exact ⟨⟨h1, fun c hc => (h2 c hc).space⟩, fun hc => (h2 _ hc).ne.2.2.1 rfl,
      fun hc => (h2 _ hc).ne.2.2.2.1 rfl, fun hc => (h2 _ hc).ne.2.2.2.2 rfl, h3⟩

end Disp

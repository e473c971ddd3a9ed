import Verif.Lemmas.ShortestDecimal
import Verif.Lemmas.SignedError
import Verif.Lemmas.DecimalRounding
/-!
# What `xstrtod` makes of the text of a double
-/

namespace Disp

noncomputable section

/-! ## Text -/

theorem NumChar.notSpace {c : Char} (h : NumChar c) : cSpace c = false := by
  rcases h with h | h
  · simp only [Char.isDigit, Bool.and_eq_true, decide_eq_true_eq] at h
    have h1 : 48 ≤ c.toNat := h.1
    have h3 : c ≠ ' ' := by rintro rfl; exact absurd h1 (by decide)
    simp only [cSpace, h3, decide_false, Bool.false_or, Bool.and_eq_false_iff, decide_eq_false_iff_not]
    omega
  · simp only [List.mem_cons, List.not_mem_nil, or_false] at h
    rcases h with rfl | rfl | rfl | rfl | rfl | rfl | rfl | rfl <;> decide

theorem dropWhile_none {p : Char → Bool} {cs : List Char} (h : ∀ c ∈ cs, p c = false) :
    cs.dropWhile p = cs := by
  cases cs with
  | nil => rfl
  | cons c cs => rw [List.dropWhile_cons_of_neg (by simp [h c (by simp)])]

theorem unspaced_self {cs : List Char} (h : ∀ c ∈ cs, NumChar c) : unspaced cs = cs := by
  have h' : ∀ c ∈ cs, cSpace c = false := fun c hc => (h c hc).notSpace
  rw [unspaced, dropWhile_none h', dropWhile_none (fun c hc => h' c (List.mem_reverse.1 hc)),
    List.reverse_reverse]

theorem readFraction_digits {fs ex : List Char} (hf : ∀ c ∈ fs, c.isDigit = true)
    (hx : ∀ c ∈ ex.head?, c.isDigit = false) : readFraction ('.' :: (fs ++ ex)) = (fs, ex) := by
  obtain ⟨h3, h4⟩ := takeWhile_digits hf hx
  rw [readFraction, if_pos rfl, h3, h4]

/-- A signed number: the digits, the fraction and the exponent. -/
theorem xstrtod_signed (x : ℝ) {is tl fs ex : List Char} {e : ℤ} (hi : ∀ c ∈ is, c.isDigit = true)
    (hne : is ≠ []) (ht : ∀ c ∈ tl.head?, c.isDigit = false) (hf : readFraction tl = (fs, ex))
    (he : readExponent ex = some e) (hc : ∀ c ∈ tl, NumChar c) :
    xstrtod (signText x ++ (is ++ tl)) = assemble (decide (x < 0)) is fs e := by
  obtain ⟨h1, h2⟩ := takeWhile_digits hi ht
  have hs : splitSign (signText x ++ (is ++ tl)) = (decide (x < 0), is ++ tl) := by
    cases is with
    | nil => exact absurd rfl hne
    | cons c cs =>
      unfold signText
      split
      · rename_i h; simp [splitSign, h]
      · rename_i h
        simp [splitSign_digit (cs ++ tl) (hi c (by simp)), h]
  have hu : unspaced (signText x ++ (is ++ tl)) = signText x ++ (is ++ tl) := by
    refine unspaced_self (fun c hm => ?_)
    rcases List.mem_append.1 hm with hm | hm
    · exact signText_char hm
    · rcases List.mem_append.1 hm with hm | hm
      · exact .inl (hi c hm)
      · exact hc c hm
  unfold xstrtod
  simp only [hu, hs, h1, h2, hf, he]
  rw [if_neg (fun h => hne h.1)]

/-- The exponent text. -/
theorem reprExponent_char (p : ℤ) {c : Char} (h : c ∈ reprExponent p) : NumChar c := by
  unfold reprExponent at h
  rcases List.mem_cons.1 h with rfl | h
  · exact .inr (by decide)
  rcases List.mem_cons.1 h with rfl | h
  · split
    · exact .inr (by decide)
    · exact .inr (by decide)
  · exact .inl (digits_isDigit h)

theorem digits_char {w n : ℕ} {c : Char} (h : c ∈ digits w n) : NumChar c := .inl (digits_isDigit h)

theorem point_value (m k : ℕ) : digitsValue (wholeText (m / 10 ^ k) ++ digits k m) = m := by
  rw [digitsValue_append, digits_length, digitsValue_digits, wholeText_value, Nat.div_add_mod' m]

theorem lead_value (m : ℕ) :
    digitsValue (digitOf (m / 10 ^ Nat.log 10 m) :: digits (Nat.log 10 m) m) = m := by
  have h := Nat.lt_pow_succ_log_self (b := 10) (by norm_num) m
  rw [show digitOf (m / 10 ^ Nat.log 10 m) :: digits (Nat.log 10 m) m =
    [digitOf (m / 10 ^ Nat.log 10 m)] ++ digits (Nat.log 10 m) m from rfl, digitsValue_append,
    digits_length, digitsValue_digits]
  have h1 : m / 10 ^ Nat.log 10 m < 10 := by
    rw [Nat.div_lt_iff_lt_mul (by positivity)]
    rw [pow_succ] at h; omega
  have h2 : digitsValue [digitOf (m / 10 ^ Nat.log 10 m)] = m / 10 ^ Nat.log 10 m := by
    simp [digitsValue, digitValue_digitOf, Nat.mod_eq_of_lt h1]
  rw [h2, Nat.div_add_mod' m]

/-- How the text of `m * 10^e` is taken apart: the digits are those of `m`, with the exponent `e`, or
the number is an integer written with one decimal. -/
theorem xstrtod_repr (x : ℝ) (m : ℕ) (e : ℤ) :
    ∃ (is fs : List Char) (E : ℤ),
      xstrtod (signText x ++ reprDigits m e) = assemble (decide (x < 0)) is fs E ∧
      (∀ c ∈ is ++ fs, c.isDigit = true) ∧
      (digitsValue (is ++ fs) = m ∧ E - fs.length = e ∧
          (e < 0 ∨ 16 < (Nat.log 10 m + 1 : ℤ) + e) ∨
        0 ≤ e ∧ (Nat.log 10 m + 1 : ℤ) + e ≤ 16 ∧ digitsValue (is ++ fs) = m * 10 ^ e.toNat * 10 ∧
          E - fs.length = -1) := by
  by_cases hp : -4 < (Nat.log 10 m + 1 : ℤ) + e ∧ (Nat.log 10 m + 1 : ℤ) + e ≤ 16
  · by_cases he : 0 ≤ e
    · have ht : reprDigits m e = wholeText (m * 10 ^ e.toNat) ++ ['.', '0'] := by
        unfold reprDigits; rw [if_pos hp, if_pos he]
      have hfr := readFraction_digits (fs := ['0']) (ex := []) (by simp) (by simp)
      have := xstrtod_signed x (is := wholeText (m * 10 ^ e.toNat)) (tl := ['.', '0'])
        (fun c hc => digits_isDigit hc) (wholeText_ne _) (by simp) hfr rfl (by
          intro c hc
          simp only [List.mem_cons, List.not_mem_nil, or_false] at hc
          rcases hc with rfl | rfl <;> simp [NumChar])
      rw [ht, this]
      refine ⟨_, _, _, rfl, ?_, .inr ⟨he, hp.2, ?_, by simp⟩⟩
      · intro c hc
        rcases List.mem_append.1 hc with hc | hc
        · exact digits_isDigit hc
        · rw [List.mem_singleton] at hc; subst hc; decide
      · rw [digitsValue_append, wholeText_value]
        simp [digitsValue, digitValue]
    · have ht : reprDigits m e =
          wholeText (m / 10 ^ (-e).toNat) ++ '.' :: digits (-e).toNat m := by
        unfold reprDigits; rw [if_pos hp, if_neg he]
      have hfr := readFraction_digits (fs := digits (-e).toNat m) (ex := [])
        (fun c hc => digits_isDigit hc) (by simp)
      rw [List.append_nil] at hfr
      have := xstrtod_signed x (is := wholeText (m / 10 ^ (-e).toNat))
        (fun c hc => digits_isDigit hc) (wholeText_ne _) (by simp) hfr rfl (by
          intro c hc
          rcases List.mem_cons.1 hc with rfl | hc
          · exact .inr (by decide)
          · exact digits_char hc)
      rw [ht, this]
      refine ⟨_, _, _, rfl, ?_, .inl ⟨point_value _ _, ?_, .inl (by omega)⟩⟩
      · intro c hc
        rcases List.mem_append.1 hc with hc | hc <;> exact digits_isDigit hc
      · rw [digits_length]; omega
  · by_cases hl : Nat.log 10 m = 0
    · have ht : reprDigits m e = [digitOf (m / 10 ^ Nat.log 10 m)] ++
          reprExponent (Nat.log 10 m + e) := by
        unfold reprDigits; rw [if_neg hp, if_pos hl]
      have hfr : readFraction (reprExponent (Nat.log 10 m + e)) =
          ([], reprExponent (Nat.log 10 m + e)) := by
        unfold reprExponent; rw [readFraction, if_neg (by decide)]
      have := xstrtod_signed x (is := [digitOf (m / 10 ^ Nat.log 10 m)])
        (tl := reprExponent (Nat.log 10 m + e)) (e := Nat.log 10 m + e)
        (by simp [digitOf_isDigit]) (by simp) (by simp [reprExponent]) hfr
        (read_exponent _ (le_max_right _ _)) (fun c hc => reprExponent_char _ hc)
      rw [ht, this]
      refine ⟨_, _, _, rfl, by simp [digitOf_isDigit], .inl ⟨?_, by simp [hl], by omega⟩⟩
      have := lead_value m
      rw [hl] at this ⊢
      simpa [digits] using this
    · have ht : reprDigits m e = [digitOf (m / 10 ^ Nat.log 10 m)] ++
          '.' :: (digits (Nat.log 10 m) m ++ reprExponent (Nat.log 10 m + e)) := by
        unfold reprDigits; rw [if_neg hp, if_neg hl]; rfl
      have hfr := readFraction_digits (fs := digits (Nat.log 10 m) m)
        (ex := reprExponent (Nat.log 10 m + e)) (fun c hc => digits_isDigit hc)
        (by simp [reprExponent])
      have := xstrtod_signed x (is := [digitOf (m / 10 ^ Nat.log 10 m)])
        (e := Nat.log 10 m + e)
        (by simp [digitOf_isDigit]) (by simp) (by simp) hfr
        (read_exponent _ (le_max_right _ _)) (by
          intro c hc
          rcases List.mem_cons.1 hc with rfl | hc
          · exact .inr (by decide)
          rcases List.mem_append.1 hc with hc | hc
          · exact digits_char hc
          · exact reprExponent_char _ hc)
      rw [ht, this]
      refine ⟨_, _, _, rfl, ?_, .inl ⟨lead_value m, ?_, by omega⟩⟩
      · intro c hc
        rcases List.mem_append.1 hc with hc | hc
        · rw [List.mem_singleton] at hc; subst hc; exact digitOf_isDigit _
        · exact digits_isDigit hc
      · rw [digits_length]; omega

/-! ## Digits -/

theorem gather_snoc (a : Dbl) (cs : List Char) (c : Char) :
    gather a (cs ++ [c]) = gather a cs * PyFloat.lit 10 + PyFloat.lit (digitValue c : ℚ) := by
  unfold gather
  rw [List.foldl_append]
  rfl

theorem digitsValue_snoc (cs : List Char) (c : Char) :
    digitsValue (cs ++ [c]) = digitsValue cs * 10 + digitValue c := by
  rw [digitsValue_append]
  simp [digitsValue]

theorem lit_nat_val {n : ℕ} (h : n ≤ 2 ^ 53) : (PyFloat.lit (n : ℚ) : Dbl).val = .fin n := by
  have := Dbl.lit_int (n := (n : ℤ)) (by rw [abs_of_nonneg (by positivity)]; exact_mod_cast h)
  push_cast at this
  exact this

theorem nat_double {n : ℕ} (h : n ≤ 2 ^ 53) : IsDouble (n : ℝ) := by
  have := Dbl.double_int (n := (n : ℤ)) (by rw [abs_of_nonneg (by positivity)]; exact_mod_cast h)
  exact_mod_cast this

theorem lit_ten : (PyFloat.lit 10 : Dbl).val = .fin 10 := by
  have := lit_nat_val (n := 10) (by norm_num)
  push_cast at this
  exact this

/-- Up to `2^53` the digits are gathered without rounding. -/
theorem gather_exact {cs : List Char} (h : digitsValue cs ≤ 2 ^ 53) :
    (gather (PyFloat.lit 0) cs).val = .fin (digitsValue cs) := by
  induction cs using List.reverseRecOn with
  | nil =>
    have := lit_nat_val (n := 0) (by norm_num)
    simpa [gather, digitsValue] using this
  | append_singleton cs c ih =>
    rw [digitsValue_snoc] at h ⊢
    have ih := ih (by omega)
    rw [gather_snoc]
    have e1 : (gather (PyFloat.lit 0) cs * PyFloat.lit 10 : Dbl).val =
        .fin ((digitsValue cs * 10 : ℕ) : ℝ) := by
      rw [Dbl.val_mul, ih, lit_ten, XR.mul_fin]
      have := Dbl.rnd_double (nat_double (n := digitsValue cs * 10) (by omega))
      push_cast at this ⊢
      exact this
    show (Dbl.rnd ((gather (PyFloat.lit 0) cs * PyFloat.lit 10 : Dbl).val +
      (PyFloat.lit (digitValue c : ℚ) : Dbl).val)).val = _
    rw [e1, lit_nat_val (by omega), XR.add_fin]
    have := Dbl.rnd_double (nat_double h)
    push_cast at this ⊢
    exact this

theorem nat_size {n k : ℕ} (h : n ≤ 10 ^ k) : (n : ℝ) = 0 ∨ Mag k |(n : ℝ)| := by
  rcases Nat.eq_zero_or_pos n with rfl | h0
  · exact .inl (by simp)
  · right
    rw [abs_of_nonneg (by positivity)]
    refine ⟨?_, by exact_mod_cast h⟩
    have : (1 : ℝ) ≤ n := by exact_mod_cast h0
    refine le_trans (inv_le_one_of_one_le₀ ?_) this
    exact one_le_pow₀ (by norm_num)

theorem digitValue_le {c : Char} (h : c.isDigit = true) : digitValue c ≤ 9 := by
  simp only [Char.isDigit, Bool.and_eq_true, decide_eq_true_eq] at h
  have h2 : c.toNat ≤ 57 := h.2
  unfold digitValue
  omega

/-- One more digit takes two roundings. -/
theorem gather_step {cs : List Char} {c : Char} {n : ℕ} (hc : c.isDigit = true)
    (hn : n ≤ 90) (hv : digitsValue cs < 10 ^ 17)
    (h : SRel n 17 (digitsValue cs) (gather (PyFloat.lit 0) cs)) :
    SRel (n + 2) 19 (digitsValue (cs ++ [c])) (gather (PyFloat.lit 0) (cs ++ [c])) := by
  rw [gather_snoc, digitsValue_snoc]
  have h10 : SRel 0 1 10 (PyFloat.lit 10 : Dbl) :=
    SRel.exact lit_ten (.inr ⟨by norm_num, by norm_num⟩)
  have h1 := h.mul h10 (by omega) (by norm_num)
  have hd := digitValue_le hc
  have hdv : SRel 0 1 (digitValue c) (PyFloat.lit (digitValue c : ℚ) : Dbl) :=
    SRel.exact (lit_nat_val (by omega)) (nat_size (k := 1) (by omega))
  have := h1.add (hdv.mono (n := n + 0 + 1) (k := 17 + 1) (by omega) (by norm_num))
    (by positivity) (by omega) (by norm_num)
  push_cast
  exact this.mono (by omega) (by norm_num)

theorem gather_near {cs : List Char} (hd : ∀ c ∈ cs, c.isDigit = true)
    (h : digitsValue cs < 10 ^ 17) :
    SRel 4 17 (digitsValue cs) (gather (PyFloat.lit 0) cs) := by
  have base : ∀ cs : List Char, digitsValue cs < 10 ^ 15 →
      SRel 0 17 (digitsValue cs) (gather (PyFloat.lit 0) cs) := fun cs hv =>
    SRel.exact (gather_exact (hv.le.trans (by norm_num))) (nat_size (by omega))
  have one : ∀ cs : List Char, (∀ c ∈ cs, c.isDigit = true) → digitsValue cs < 10 ^ 16 →
      SRel 2 17 (digitsValue cs) (gather (PyFloat.lit 0) cs) := by
    intro cs hd hv
    rcases List.eq_nil_or_concat cs with rfl | ⟨t, c, rfl⟩
    · exact (base [] (by simp [digitsValue])).mono (by norm_num) (by norm_num)
    · rw [List.concat_eq_append] at *
      have ht : digitsValue t < 10 ^ 15 := by rw [digitsValue_snoc] at hv; omega
      have := gather_step (c := c) (hd c (by simp)) (by norm_num) (by omega) (base t ht)
      exact ⟨this.near, nat_size (by omega)⟩
  rcases List.eq_nil_or_concat cs with rfl | ⟨t, c, rfl⟩
  · exact (base [] (by simp [digitsValue])).mono (by norm_num) (by norm_num)
  · rw [List.concat_eq_append] at *
    have ht : digitsValue t < 10 ^ 16 := by rw [digitsValue_snoc] at h; omega
    have := gather_step (c := c) (hd c (by simp)) (by norm_num) (by omega)
      (one t (fun c hc => hd c (by simp [hc])) ht)
    exact ⟨this.near, nat_size (by omega)⟩

/-! ## Scaling -/

/-- The roundings in the computed power `10^(2^i)`. -/
def powerErr (i : ℕ) : ℕ := 2 ^ (i - 4) - 1

/-- `p` is the computed power `10^(2^i)`. -/
def IsPower (i : ℕ) (p : Dbl) : Prop := SRel (powerErr i) (2 ^ i) (10 ^ 2 ^ i) p

theorem power_double {i : ℕ} (h : i ≤ 4) : IsDouble ((10 : ℝ) ^ 2 ^ i) := by
  refine ⟨5 ^ 2 ^ i, 2 ^ i, ?_, ?_, ?_, ?_⟩
  · rw [abs_of_pos (by positivity)]
    calc (5 : ℤ) ^ 2 ^ i ≤ 5 ^ 2 ^ 4 := by gcongr <;> norm_num
      _ < 2 ^ 53 := by norm_num
  · have : (0 : ℤ) ≤ 2 ^ i := by positivity
    omega
  · calc (2 : ℤ) ^ i ≤ 2 ^ 4 := by gcongr; norm_num
      _ ≤ 971 := by norm_num
  · push_cast
    rw [show (2 : ℝ) ^ ((2 : ℤ) ^ i) = 2 ^ 2 ^ i by
      rw [← zpow_natCast]; push_cast; rfl, ← mul_pow]
    norm_num

theorem power_size (i : ℕ) : (10 : ℝ) ^ 2 ^ i = 0 ∨ Mag (2 ^ i) |(10 : ℝ) ^ 2 ^ i| := by
  right
  rw [abs_of_pos (by positivity)]
  exact mag_ten _

theorem power_start : (PyFloat.lit 10 : Dbl).val = .fin (10 ^ 2 ^ 0) := by
  rw [lit_ten]; norm_num

/-- The powers up to `10^16` are exact. -/
theorem power_square_exact {i : ℕ} {p : Dbl} (hi : i + 1 ≤ 4) (hp : p.val = .fin (10 ^ 2 ^ i)) :
    (p * p).val = .fin (10 ^ 2 ^ (i + 1)) := by
  rw [Dbl.val_mul, hp, XR.mul_fin, ← pow_add,
    show 2 ^ i + 2 ^ i = 2 ^ (i + 1) by rw [pow_succ]; ring]
  exact Dbl.rnd_double (power_double hi)

/-- The computed powers. -/
def Power (i : ℕ) (p : Dbl) : Prop := IsPower i p ∧ (i ≤ 4 → p.val = .fin (10 ^ 2 ^ i))

theorem power_square {i : ℕ} {p : Dbl} (hi : i ≤ 7) (hp : Power i p) : Power (i + 1) (p * p) := by
  obtain ⟨h1, h2⟩ := hp
  rcases le_or_gt (i + 1) 4 with h | h
  · have e := power_square_exact h (h2 (by omega))
    refine ⟨?_, fun _ => e⟩
    exact (SRel.exact e (power_size _)).mono (by omega) le_rfl
  · refine ⟨?_, fun h' => absurd h' (by omega)⟩
    unfold IsPower at h1 ⊢
    have hs : 2 ^ i + 2 ^ i = 2 ^ (i + 1) := by rw [pow_succ]; ring
    have h8 : 2 ^ (i + 1) ≤ 2 ^ 8 := Nat.pow_le_pow_right (by norm_num) (by omega)
    have he : powerErr i + powerErr i + 1 = powerErr (i + 1) := by
      unfold powerErr
      rw [show i + 1 - 4 = (i - 4) + 1 by omega, pow_succ]
      have : 1 ≤ 2 ^ (i - 4) := Nat.one_le_two_pow
      omega
    have h3 : powerErr i ≤ 7 := by
      unfold powerErr
      have : 2 ^ (i - 4) ≤ 2 ^ 3 := Nat.pow_le_pow_right (by norm_num) (by omega)
      omega
    have := h1.mul h1 (by omega) (by omega)
    rwa [he, hs, ← pow_add, hs] at this

theorem scaleBy_zero (down : Bool) (p a : Dbl) : scaleBy down 0 p a = a := by
  rw [scaleBy, if_pos rfl]

theorem scaleBy_step (down : Bool) {n : ℕ} (hn : n ≠ 0) (p a : Dbl) :
    scaleBy down n p a = scaleBy down (n / 2) (p * p)
      (if n % 2 = 1 then (if down then a / p else a * p) else a) := by
  rw [scaleBy, if_neg hn]

/-- The roundings for the bits of an exponent below `2^b`, from the bit `i` on. -/
def scaleErr : ℕ → ℕ → ℕ
  | 0, _ => 0
  | b + 1, i => 1 + powerErr i + scaleErr b (i + 1)

/-- The exact result. -/
def scaled (down : Bool) (x : ℝ) (k : ℕ) : ℝ := if down then x / 10 ^ k else x * 10 ^ k

theorem scaled_scaled (down : Bool) (x : ℝ) (j k : ℕ) :
    scaled down (scaled down x j) k = scaled down x (j + k) := by
  unfold scaled
  cases down
  · simp only [Bool.false_eq_true, if_false]
    rw [mul_assoc, ← pow_add]
  · simp only [if_true]
    rw [div_div, ← pow_add]

theorem scale_near (down : Bool) : ∀ (b n i j k : ℕ) (x : ℝ) (p a : Dbl), n < 2 ^ b →
    (n ≠ 0 → Power i p) → SRel j k x a → k + n * 2 ^ i ≤ 300 → j + scaleErr b i ≤ 99 →
    SRel (j + scaleErr b i) (k + n * 2 ^ i) (scaled down x (n * 2 ^ i)) (scaleBy down n p a) := by
  intro b
  induction b with
  | zero =>
    intro n i j k x p a hn _ ha _ _
    have : n = 0 := by omega
    subst this
    rw [scaleBy_zero]
    have e : scaled down x (0 * 2 ^ i) = x := by unfold scaled; simp
    rw [e]
    exact ha.mono (by omega) (by omega)
  | succ b ih =>
    intro n i j k x p a hn hp ha hk hj
    rcases Nat.eq_zero_or_pos n with rfl | h0
    · rw [scaleBy_zero]
      have e : scaled down x (0 * 2 ^ i) = x := by unfold scaled; simp
      rw [e]
      exact ha.mono (by omega) (by omega)
    have hp := hp h0.ne'
    rw [scaleBy_step down h0.ne']
    rw [scaleErr] at hj ⊢
    have hn2 : n / 2 < 2 ^ b := by rw [pow_succ] at hn; omega
    have hstep : n / 2 * 2 ^ (i + 1) + n % 2 * 2 ^ i = n * 2 ^ i := by
      have := Nat.div_add_mod n 2
      calc n / 2 * 2 ^ (i + 1) + n % 2 * 2 ^ i = (2 * (n / 2) + n % 2) * 2 ^ i := by
            rw [pow_succ]; ring
        _ = _ := by rw [this]
    have hpow : n / 2 ≠ 0 → Power (i + 1) (p * p) := by
      intro h
      refine power_square ?_ hp
      by_contra hc
      have h8 : 2 ^ 9 ≤ 2 ^ (i + 1) := Nat.pow_le_pow_right (by norm_num) (by omega)
      have : 1 * 2 ^ (i + 1) ≤ n / 2 * 2 ^ (i + 1) := Nat.mul_le_mul_right _ (by omega)
      omega
    by_cases hodd : n % 2 = 1
    · rw [if_pos hodd]
      rw [hodd, one_mul] at hstep
      have hx : SRel (j + (1 + powerErr i)) (k + 2 ^ i) (scaled down x (2 ^ i))
          (if down then a / p else a * p) := by
        unfold scaled
        cases down
        · simp only [Bool.false_eq_true, if_false]
          exact (ha.mul hp.1 (by omega) (by omega)).mono (by omega) le_rfl
        · simp only [if_true]
          exact (ha.div hp.1 (by positivity) (by omega) (by omega)).mono (by omega) le_rfl
      have := ih (n / 2) (i + 1) _ _ _ (p * p) _ hn2 hpow hx (by omega) (by omega)
      rw [scaled_scaled] at this
      rw [show 2 ^ i + n / 2 * 2 ^ (i + 1) = n * 2 ^ i by omega] at this
      exact this.mono (by omega) (by omega)
    · rw [if_neg hodd]
      have h02 : n % 2 = 0 := by omega
      rw [h02, zero_mul, add_zero] at hstep
      have := ih (n / 2) (i + 1) _ _ _ (p * p) _ hn2 hpow ha (by omega) (by omega)
      rw [hstep] at this
      exact this.mono (by omega) le_rfl

end
end Disp

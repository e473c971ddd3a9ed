import Verif.Lemmas.XstrtodRange
import Verif.Props.CsvRoundTrip
/-!
# C128: the numbers of a catalogue that is saved and opened again
-/

namespace Disp

noncomputable section

open Spec

namespace Spec

/-- The same up to a relative error; missing and infinite numbers are the same. -/
def WithinRel (ε : ℝ) (a b : Dbl) : Prop :=
  (∃ x y, a.val = .fin x ∧ b.val = .fin y ∧ |y - x| ≤ ε * |x|) ∨
    (a = b ∧ ∀ x, a.val ≠ .fin x)

/-- The same texts, and numbers related by `R`. -/
structure RowBy (R : Dbl → Dbl → Prop) (r r' : Row Dbl) : Prop where
  al : r'.al = r.al
  name : r'.name = r.name
  fullName : r'.fullName = r.fullName
  author : r'.author = r.author
  comment : r'.comment = r.comment
  reference : r'.reference = r.reference
  stype : r'.stype = r.stype
  unit : r'.unit = r.unit
  lower : R r.lower r'.lower
  upper : R r.upper r'.upper
  nRef : ∃ a b, r.nRef = .scalar a ∧ r'.nRef = .scalar b ∧ R a b
  kRef : ∃ a b, r.kRef = .scalar a ∧ r'.kRef = .scalar b ∧ R a b
  path : r'.path = r.path
  modl : r'.modl = r.modl

/-- The rows of `g` are those of `f` with numbers related by `R`, numbered from zero. -/
def TableBy (R : Dbl → Dbl → Prop) (f g : Frame Dbl) : Prop :=
  g.map Prod.fst = (List.range f.length).map (fun i : ℕ => (i : ℤ)) ∧
    List.Forall₂ (RowBy R) (f.map Prod.snd) (g.map Prod.snd)

/-- Every number of the row. -/
structure EveryNumber (P : Dbl → Prop) (r : Row Dbl) : Prop where
  lower : P r.lower
  upper : P r.upper
  nRef : ∀ a, r.nRef = .scalar a → P a
  kRef : ∀ a, r.kRef = .scalar a → P a

/-- Zero, or between the two sizes (or missing or infinite). -/
def SizeBetween (lo hi : ℝ) (a : Dbl) : Prop := ∀ x, a.val = .fin x → x = 0 ∨ lo ≤ |x| ∧ |x| ≤ hi

/-- A number with at most fifteen digits and none, one, two, four, eight or sixteen decimals (not
ending with a zero); integers are at most `2^53 / 10` (or missing or infinite). -/
def ShortNumber (a : Dbl) : Prop := ∀ x, a.val = .fin x →
  (∃ n : ℤ, x = n ∧ 10 * |n| ≤ 2 ^ 53) ∨
    ∃ (k : ℤ) (j : ℕ), j ≤ 4 ∧ |k| < 10 ^ 15 ∧ ¬ (10 : ℤ) ∣ k ∧ x = nearest (k / 10 ^ 2 ^ j)

/-- Saving the table and opening it again, `n` times. -/
def reopenTimes {F : Type} [PyFloat F] [CsvIO F] : ℕ → Frame F → Option (Res (Frame F))
  | 0, f => some (.ok f)
  | n + 1, f =>
    match reopenTimes n f with
    | some (.ok g) => loadCsv (csvText g)
    | r => r

end Spec

/-! ## Texts -/

theorem reprDigits_char {m : ℕ} {e : ℤ} {c : Char} (h : c ∈ reprDigits m e) : NumChar c := by
  unfold reprDigits at h
  split at h
  · split at h
    · rcases List.mem_append.1 h with h | h
      · exact digits_char h
      · simp only [List.mem_cons, List.not_mem_nil, or_false] at h
        rcases h with rfl | rfl <;> simp [NumChar]
    · rcases List.mem_append.1 h with h | h
      · exact digits_char h
      · rcases List.mem_cons.1 h with rfl | h
        · exact .inr (by decide)
        · exact digits_char h
  · rcases List.mem_append.1 h with h | h
    · rcases List.mem_cons.1 h with rfl | h
      · exact .inl (digitOf_isDigit _)
      · split at h
        · cases h
        · rcases List.mem_cons.1 h with rfl | h
          · exact .inr (by decide)
          · exact digits_char h
    · exact reprExponent_char _ h

theorem reprDigits_ne (m : ℕ) (e : ℤ) : reprDigits m e ≠ [] := by
  unfold reprDigits
  split
  · split <;> simp
  · simp

theorem csvNumber_char {a : Dbl} {c : Char} (h : c ∈ csvNumber a) : NumChar c := by
  unfold csvNumber at h
  split at h
  · rename_i x _
    unfold reprText at h
    split at h
    · simp only [List.mem_cons, List.not_mem_nil, or_false] at h
      rcases h with rfl | rfl | rfl <;> simp [NumChar]
    · rcases List.mem_append.1 h with h | h
      · exact signText_char h
      · exact reprDigits_char h
  all_goals
    simp only [List.mem_cons, List.not_mem_nil, or_false] at h
    rcases h with rfl | rfl | rfl | rfl <;> simp [NumChar]

theorem csvNumber_ne (a : Dbl) : csvNumber a ≠ [] := by
  unfold csvNumber
  split
  · unfold reprText
    split
    · simp
    · simp [reprDigits_ne]
  all_goals simp

/-- The texts of numbers are plain. -/
instance [PandasTexts] : CsvPlain Dbl where
  num_ne x _ := csvNumber_ne x
  num_plain x _ c hc := by
    have key : ∀ d : Char, ¬ (d.isDigit = true ∨ d ∈ ['-', '+', '.', 'e', 'n', 'a', 'i', 'f']) →
        c ≠ d := fun d hd e => hd (e ▸ csvNumber_char hc)
    exact ⟨key _ (by decide), key _ (by decide), key _ (by decide), key _ (by decide),
      key _ (by decide)⟩

/-! ## Numbers -/

theorem dbl_nan_val : (PyFloat.nan : Dbl).val = .nan := rfl
theorem dbl_inf_val : (PyFloat.inf : Dbl).val = .pinf := rfl
theorem dbl_ninf_val : (-PyFloat.inf : Dbl).val = .ninf := rfl

theorem reread_inf : csvParse (csvNumber PyFloat.inf) = .ok PyFloat.inf := by
  have h1 : csvNumber PyFloat.inf = ['i', 'n', 'f'] := by unfold csvNumber; rw [dbl_inf_val]
  have h2 : xstrtod ['i', 'n', 'f'] = Option.none := rfl
  rw [h1, csvParse, h2]
  simp only
  rw [if_pos (by decide)]

theorem reread_ninf : csvParse (csvNumber (-PyFloat.inf)) = .ok (-PyFloat.inf) := by
  have h1 : csvNumber (-PyFloat.inf) = ['-', 'i', 'n', 'f'] := by
    unfold csvNumber; rw [dbl_ninf_val]
  have h2 : xstrtod ['-', 'i', 'n', 'f'] = Option.none := rfl
  rw [h1, csvParse, h2]
  simp only
  rw [if_neg (by decide), if_pos (by decide)]

theorem csvNumber_fin {a : Dbl} {x : ℝ} (h : a.val = .fin x) : csvNumber a = reprText x := by
  unfold csvNumber; rw [h]

theorem csvParse_fin {a : Dbl} {x z : ℝ} (h : a.val = .fin x) {r : Dbl}
    (hr : xstrtod (reprText x) = some r) (hz : r.val = .fin z) :
    ∃ b : Dbl, csvParse (csvNumber a) = .ok b ∧ b.val = .fin z := by
  rw [csvNumber_fin h]
  exact ⟨r, csvParse_of hr, hz⟩

/-- Zero is read exactly. -/
theorem read_zero : ∃ r : Dbl, xstrtod (reprText 0) = some r ∧ r.val = .fin 0 := by
  have h1 : reprText 0 = ['0', '.', '0'] := by unfold reprText; rw [if_pos rfl]
  have hfr := readFraction_digits (fs := ['0']) (ex := []) (by simp) (by simp)
  have h2 := xstrtod_signed 0 (is := ['0']) (tl := ['.', '0']) (by simp) (by simp) (by simp) hfr rfl
    (by intro c hc
        simp only [List.mem_cons, List.not_mem_nil, or_false] at hc
        rcases hc with rfl | rfl <;> simp [NumChar])
  have h3 : signText 0 ++ (['0'] ++ ['.', '0']) = ['0', '.', '0'] := by simp [signText]
  rw [h3] at h2
  rw [h1, h2]
  refine assemble_exact (j := 0) ⟨0, 0, by norm_num, by norm_num, by norm_num, by simp⟩ ?_
    (by norm_num) (by simp) ?_
  · simp [digitsValue, digitValue]
  · simp [digitsValue, digitValue, signed, nearest_zero]

/-- What is read for a number of a given size. -/
theorem reread_sized {a : Dbl} {k u b : ℕ} (hk : k ≤ 266) (hu : u ≤ 283) (hb : k + 17 < 2 ^ b)
    (hb' : u < 2 ^ b) (hs : scaleErr b 0 ≤ 90) (hn : PyFloat.isNaN a = false)
    (h : SizeBetween ((10 : ℝ) ^ k)⁻¹ (10 ^ u) a) :
    ∃ c : Dbl, csvParse (csvNumber a) = .ok c ∧
      ((∃ x z, a.val = .fin x ∧ c.val = .fin z ∧ SNear (5 + scaleErr b 0) x z) ∨
        (a = c ∧ ∀ x, a.val ≠ .fin x)) := by
  rcases dbl_cases a with ⟨x, hx⟩ | rfl | rfl | rfl
  · rcases h x hx with h0 | ⟨h1, h2⟩
    · subst h0
      obtain ⟨r, hr, hz⟩ := read_zero
      obtain ⟨c, hc, hv⟩ := csvParse_fin hx hr hz
      exact ⟨c, hc, .inl ⟨0, 0, hx, hv, .inl ⟨rfl, rfl⟩⟩⟩
    · obtain ⟨r, z, hr, hz, hsn⟩ := reread_repr (Dbl.isDouble_val hx) hk hu h1 h2 hb hb' hs
      obtain ⟨c, hc, hv⟩ := csvParse_fin hx hr hz
      exact ⟨c, hc, .inl ⟨x, z, hx, hv, hsn⟩⟩
  · cases hn
  · exact ⟨_, reread_inf, .inr ⟨rfl, fun x => by rw [dbl_inf_val]; exact fun h => by cases h⟩⟩
  · exact ⟨_, reread_ninf, .inr ⟨rfl, fun x => by rw [dbl_ninf_val]; exact fun h => by cases h⟩⟩

/-- The digits of a number with no zero at the end. -/
theorem shortest_no_zero {x : ℝ} (hx : x ≠ 0) {m : ℕ} {e : ℤ} (hs : Shortest x m e) : ¬ 10 ∣ m := by
  rintro ⟨q, rfl⟩
  have hp := shortest_pos hx hs
  have h1 := hs.short q (e + 1) (by
    rw [← hs.reads, zpow_add_one₀ (by norm_num)]
    congr 1; push_cast; ring)
  have hq : q ≠ 0 := by rintro rfl; omega
  rw [mul_comm, Nat.log_mul_base (by norm_num) hq] at h1
  omega

theorem decimal_unique {m k : ℕ} {e d : ℤ} (hm : ¬ 10 ∣ m) (hk : ¬ 10 ∣ k)
    (h : (m : ℝ) * 10 ^ e = k * 10 ^ d) : m = k ∧ e = d := by
  have key : ∀ {m k : ℕ} {e d : ℤ}, ¬ 10 ∣ k → e ≤ d → (m : ℝ) * 10 ^ e = k * 10 ^ d →
      ∃ i : ℕ, d = e + i ∧ m = k * 10 ^ i := by
    intro m k e d _ hle h
    obtain ⟨i, hi⟩ := Int.eq_ofNat_of_zero_le (show 0 ≤ d - e by omega)
    refine ⟨i, by omega, ?_⟩
    rw [show d = i + e by omega, zpow_add₀ (by norm_num), ← mul_assoc] at h
    have := mul_right_cancel₀ (ten_zpow_pos e).ne' h
    rw [zpow_natCast] at this
    exact_mod_cast this
  rcases le_total e d with hle | hle
  · obtain ⟨i, h1, h2⟩ := key hk hle h
    rcases Nat.eq_zero_or_pos i with rfl | hi
    · simp at h1 h2
      exact ⟨h2, h1.symm⟩
    · exact absurd (h2 ▸ Dvd.dvd.mul_left (dvd_pow_self 10 hi.ne') k) hm
  · obtain ⟨i, h1, h2⟩ := key hm hle h.symm
    rcases Nat.eq_zero_or_pos i with rfl | hi
    · simp at h1 h2
      exact ⟨h2.symm, h1⟩
    · exact absurd (h2 ▸ Dvd.dvd.mul_left (dvd_pow_self 10 hi.ne') m) hk

theorem not_tiny {v : ℝ} (h : (2 : ℝ) ^ (-60 : ℤ) ≤ v) : (2 : ℝ) ^ (-1021 : ℤ) ≤ nearest v := by
  have h1 := nearest_mono h
  rw [nearest_of_double ⟨1, -60, by norm_num, by norm_num, by norm_num, by simp⟩] at h1
  exact (zpow_le_zpow_right₀ (by norm_num) (by norm_num)).trans h1

theorem signed_nearest (b : Bool) (v : ℝ) : nearest (signed b v) = signed b (nearest v) := by
  unfold signed
  cases b
  · rfl
  · exact nearest_neg v

/-- Numbers that are read exactly: digits, decimals. -/
theorem read_short {x : ℝ} (h : IsDouble x) (hx : x ≠ 0) {k j : ℕ} (hj : j ≤ 4) (hk : k < 10 ^ 15)
    (h10 : ¬ 10 ∣ k) (hv : nearest ((k : ℝ) / 10 ^ 2 ^ j) = |x|) :
    ∃ r : Dbl, xstrtod (reprText x) = some r ∧ r.val = .fin x := by
  have hsp := (pyDigits_spec h hx).toShortest
  unfold reprText
  rw [if_neg hx]
  generalize (pyDigits x).1 = m at hsp
  generalize (pyDigits x).2 = e at hsp
  have hz : (10 : ℝ) ^ (-2 ^ j : ℤ) = (10 ^ 2 ^ j)⁻¹ := by
    rw [zpow_neg, show (10 : ℝ) ^ ((2 : ℤ) ^ j) = 10 ^ 2 ^ j by
      rw [← zpow_natCast]; push_cast; rfl]
  have hv' : nearest ((k : ℝ) * 10 ^ (-2 ^ j : ℤ)) = |x| := by rw [hz, ← div_eq_mul_inv]; exact hv
  have hk1 : (1 : ℝ) ≤ k := by
    have : 0 < k := Nat.pos_of_ne_zero (by rintro rfl; exact h10 (dvd_zero _))
    exact_mod_cast this
  have hbig : (2 : ℝ) ^ (-1021 : ℤ) ≤ |x| := by
    rw [← hv]
    refine not_tiny ?_
    have h16 : (10 : ℝ) ^ 2 ^ j ≤ 10 ^ 16 :=
      pow_le_pow_right₀ (by norm_num) (Nat.pow_le_pow_right (n := 2) (by norm_num) hj)
    rw [le_div_iff₀ (by positivity)]
    calc (2 : ℝ) ^ (-60 : ℤ) * 10 ^ 2 ^ j ≤ 2 ^ (-60 : ℤ) * 10 ^ 16 := by gcongr
      _ ≤ 1 := by norm_num
      _ ≤ k := hk1
  obtain ⟨rfl, rfl⟩ := decimal_unique (shortest_no_zero hx hsp) h10
    (shortest_of_fifteen hx hk hv' hbig hsp)
  obtain ⟨is, fs, E, hread, -, hcase⟩ := xstrtod_repr x m (-2 ^ j)
  have h2j : (0 : ℤ) < 2 ^ j := by positivity
  obtain ⟨h1, h2, -⟩ := hcase.resolve_right (by rintro ⟨h0, -⟩; omega)
  rw [hread]
  refine assemble_exact h (by rw [h1]; exact hk.le.trans (by norm_num)) hj h2 ?_
  rw [h1, h2, signed_nearest, hv', signed_abs]

/-- Integers are read exactly. -/
theorem read_whole {x : ℝ} (h : IsDouble x) (hx : x ≠ 0) {n : ℕ} (hn : 10 * n ≤ 2 ^ 53)
    (hv : |x| = n) : ∃ r : Dbl, xstrtod (reprText x) = some r ∧ r.val = .fin x := by
  have hsp := (pyDigits_spec h hx).toShortest
  unfold reprText
  rw [if_neg hx]
  generalize (pyDigits x).1 = m at hsp
  generalize (pyDigits x).2 = e at hsp
  have hn1 : (1 : ℝ) ≤ n := by
    have : 0 < n := Nat.pos_of_ne_zero (by
      rintro rfl
      rw [Nat.cast_zero, abs_eq_zero] at hv
      exact hx hv)
    exact_mod_cast this
  have hr : nearest ((n : ℝ) * 10 ^ (0 : ℤ)) = |x| := by
    rw [zpow_zero, mul_one, ← hv, nearest_of_double (double_abs h)]
  have hme := shortest_of_fifteen hx (show n < 10 ^ 15 by omega) hr
    (by rw [hv]; exact (zpow_le_one_of_nonpos₀ (by norm_num) (by norm_num)).trans hn1) hsp
  rw [zpow_zero, mul_one] at hme
  have he : 0 ≤ e := by
    by_contra hc
    obtain ⟨i, hi⟩ := Int.eq_ofNat_of_zero_le (show 0 ≤ -e by omega)
    rw [show e = -(i : ℤ) by omega, zpow_neg, zpow_natCast, ← div_eq_mul_inv,
      div_eq_iff (by positivity)] at hme
    have : m = n * 10 ^ i := by exact_mod_cast hme
    exact shortest_no_zero hx hsp (this ▸ Dvd.dvd.mul_left (dvd_pow_self 10 (by omega)) n)
  have hmn : m * 10 ^ e.toNat = n := by
    rw [show (10 : ℝ) ^ e = 10 ^ e.toNat by rw [← zpow_natCast]; congr 1; omega] at hme
    exact_mod_cast hme
  have h16 : (Nat.log 10 m + 1 : ℤ) + e ≤ 16 := by
    have hp := shortest_pos hx hsp
    have h1 := Nat.pow_log_le_self 10 hp.ne'
    have h2 : 10 ^ (Nat.log 10 m + e.toNat) ≤ n := by
      rw [pow_add, ← hmn]; exact Nat.mul_le_mul_right _ h1
    have h3 : Nat.log 10 m + e.toNat < 16 := by
      by_contra hc
      have : 10 ^ 16 ≤ 10 ^ (Nat.log 10 m + e.toNat) :=
        Nat.pow_le_pow_right (by norm_num) (not_lt.1 hc)
      omega
    omega
  obtain ⟨is, fs, E, hread, -, hcase⟩ := xstrtod_repr x m e
  obtain ⟨-, -, h1, h2⟩ := hcase.resolve_left (by rintro ⟨-, -, h0⟩; omega)
  rw [hread]
  rw [hmn] at h1
  refine assemble_exact (j := 0) h (by omega) (by norm_num) (by rw [h2]; norm_num) ?_
  rw [h1, h2, signed_nearest]
  have e1 : ((n * 10 : ℕ) : ℝ) * 10 ^ (-1 : ℤ) = |x| := by
    rw [hv]; push_cast; rw [zpow_neg_one]; field_simp
  rw [e1, nearest_of_double (double_abs h), signed_abs]

/-- Short numbers are read exactly. -/
theorem reread_short {a : Dbl} (hn : PyFloat.isNaN a = false) (h : ShortNumber a) :
    csvParse (csvNumber a) = .ok a := by
  rcases dbl_cases a with ⟨x, hx⟩ | rfl | rfl | rfl
  · have hd := Dbl.isDouble_val hx
    have key : ∃ r : Dbl, xstrtod (reprText x) = some r ∧ r.val = .fin x := by
      rcases eq_or_ne x 0 with rfl | hx0
      · exact read_zero
      rcases h x hx with ⟨n, rfl, hn⟩ | ⟨k, j, hj, hk, h10, rfl⟩
      · rw [Int.abs_eq_natAbs] at hn
        refine read_whole hd hx0 (n := n.natAbs) (by omega) ?_
        rw [Nat.cast_natAbs, Int.cast_abs]
      · rw [Int.abs_eq_natAbs] at hk
        refine read_short hd hx0 (k := k.natAbs) hj (by omega) (by omega) ?_
        rw [Nat.cast_natAbs, Int.cast_abs]
        rcases le_total 0 (k : ℝ) with h0 | h0
        · rw [abs_of_nonneg h0]
          have := nearest_mono (show 0 ≤ (k : ℝ) / 10 ^ 2 ^ j by positivity)
          rw [nearest_zero] at this
          rw [abs_of_nonneg this]
        · rw [abs_of_nonpos h0]
          have := nearest_mono (show (k : ℝ) / 10 ^ 2 ^ j ≤ 0 from
            div_nonpos_of_nonpos_of_nonneg h0 (by positivity))
          rw [nearest_zero] at this
          rw [abs_of_nonpos this, neg_div, nearest_neg]
    obtain ⟨r, hr, hz⟩ := key
    obtain ⟨c, hc, hv⟩ := csvParse_fin hx hr hz
    rw [hc, Dbl.ext (hv.trans hx.symm)]
  · cases hn
  · exact reread_inf
  · exact reread_ninf

/-! ## Tables -/

theorem dbl_nan_eq {a : Dbl} (h : PyFloat.isNaN a = true) : a = PyFloat.nan := by
  rcases dbl_cases a with ⟨x, hx⟩ | rfl | rfl | rfl
  · have : PyFloat.isNaN a = PyFloat.isNaN a.val := rfl
    rw [this, hx] at h
    cases h
  · rfl
  · cases h
  · cases h

section
variable [PandasTexts]

theorem rowBy_of_same {R : Dbl → Dbl → Prop} {P : Dbl → Prop} (hnan : R PyFloat.nan PyFloat.nan)
    (hR : ∀ a, PyFloat.isNaN a = false → P a → ∃ c, csvParse (csvNumber a) = .ok c ∧ R a c)
    {r r' : Row Dbl} (hs : Spec.Storable r) (hp : EveryNumber P r) (h : SameRow r r') : RowBy R r r' := by
  have num : ∀ {a b : Dbl}, PyFloat.isNaN a = false → P a → Reread a b → R a b := by
    intro a b hn hp hr
    obtain ⟨c, hc, hac⟩ := hR a hn hp
    have : (Except.ok c : Res Dbl) = .ok b := hc.symm.trans hr
    cases this
    exact hac
  have ref : ∀ {v w : Vals Dbl}, NumCell v → (∀ a, v = .scalar a → P a) → RereadCell v w →
      ∃ a b, v = .scalar a ∧ w = .scalar b ∧ R a b := by
    rintro v w ⟨a, rfl⟩ hp hw
    obtain ⟨b, rfl, h1, h2⟩ := hw a rfl
    refine ⟨a, b, rfl, rfl, ?_⟩
    cases hn : PyFloat.isNaN a with
    | true => rw [h1 hn, dbl_nan_eq hn]; exact hnan
    | false => exact num hn (hp a rfl) (h2 hn)
  exact ⟨h.al, h.name, h.fullName, h.author, h.comment, h.reference, h.stype, h.unit,
    num hs.lower hp.lower h.lower, num hs.upper hp.upper h.upper, ref hs.nRef hp.nRef h.nRef,
    ref hs.kRef hp.kRef h.kRef, h.path, h.modl⟩

/-- Opening the saved table, for a relation between the numbers written and read. -/
theorem reopen_by {R : Dbl → Dbl → Prop} {P : Dbl → Prop} (hnan : R PyFloat.nan PyFloat.nan)
    (hR : ∀ a, PyFloat.isNaN a = false → P a → ∃ c, csvParse (csvNumber a) = .ok c ∧ R a c)
    (f : Frame Dbl) (hs : ∀ p ∈ f, Spec.Storable p.2) (hp : ∀ p ∈ f, EveryNumber P p.2) :
    ∃ g, loadCsv (csvText f) = some (.ok g) ∧ TableBy R f g := by
  obtain ⟨g, hg, h1, h2⟩ := roundTrip_readable f hs (fun p hm => by
    have num : ∀ a : Dbl, PyFloat.isNaN a = false → P a → ∃ y, Reread a y := by
      intro a hn hpa
      obtain ⟨c, hc, -⟩ := hR a hn hpa
      exact ⟨c, hc⟩
    exact ⟨num _ (hs p hm).lower (hp p hm).lower, num _ (hs p hm).upper (hp p hm).upper,
      fun x e hn => num x hn ((hp p hm).nRef x e), fun x e hn => num x hn ((hp p hm).kRef x e)⟩)
  refine ⟨g, hg, h1, ?_⟩
  have hs' : ∀ r ∈ f.map Prod.snd, Spec.Storable r ∧ EveryNumber P r := by
    intro r hr
    obtain ⟨p, hm, rfl⟩ := List.mem_map.1 hr
    exact ⟨hs p hm, hp p hm⟩
  generalize f.map Prod.snd = rows at h2 hs'
  generalize g.map Prod.snd = rows' at h2
  clear hg h1 hs hp
  induction h2 with
  | nil => exact .nil
  | cons h _ ih =>
    exact .cons (rowBy_of_same hnan hR (hs' _ (by simp)).1 (hs' _ (by simp)).2 h)
      (ih (fun r hr => hs' r (by simp [hr])))

/-- `n` roundings. -/
def Steps (n : ℕ) (a c : Dbl) : Prop :=
  (∃ x z, a.val = .fin x ∧ c.val = .fin z ∧ SNear n x z) ∨ (a = c ∧ ∀ x, a.val ≠ .fin x)

theorem Steps.refl (a : Dbl) : Steps 0 a a := by
  rcases dbl_cases a with ⟨x, hx⟩ | rfl | rfl | rfl
  · exact .inl ⟨x, x, hx, hx, SNear.refl x⟩
  all_goals exact .inr ⟨rfl, fun x h => by cases h⟩

theorem Steps.trans {m n : ℕ} {a b c : Dbl} (h : Steps m a b) (h' : Steps n b c) :
    Steps (m + n) a c := by
  rcases h with ⟨x, y, hx, hy, h⟩ | ⟨rfl, h⟩
  · rcases h' with ⟨y', z, hy', hz, h'⟩ | ⟨rfl, h'⟩
    · have : y = y' := by rw [hy] at hy'; injection hy'
      subst this
      exact .inl ⟨x, z, hx, hz, h.trans h'⟩
    · exact absurd hy (h' y)
  · rcases h' with ⟨y', z, hy', hz, h'⟩ | ⟨rfl, h'⟩
    · exact absurd hy' (h y')
    · exact .inr ⟨rfl, h⟩

theorem Steps.within {n : ℕ} (hn : n ≤ 2 ^ 20) {a c : Dbl} (h : Steps n a c) :
    WithinRel ((n + 1) / 2 ^ 53) a c := by
  rcases h with ⟨x, y, hx, hy, h⟩ | h
  · refine .inl ⟨x, y, hx, hy, ?_⟩
    have := h.abs_sub_le hn
    rw [div_mul_eq_mul_div, mul_comm]
    exact this
  · exact .inr h

theorem Steps.notNaN {n : ℕ} {a c : Dbl} (h : Steps n a c) (ha : PyFloat.isNaN a = false) :
    PyFloat.isNaN c = false := by
  rcases h with ⟨x, y, hx, hy, h⟩ | ⟨rfl, h⟩
  · have : PyFloat.isNaN c = PyFloat.isNaN c.val := rfl
    rw [this, hy]; rfl
  · exact ha

theorem RowBy.mono {R S : Dbl → Dbl → Prop} (h : ∀ a b, R a b → S a b) {r r' : Row Dbl}
    (hr : Spec.RowBy R r r') : Spec.RowBy S r r' := by
  obtain ⟨a, b, h1, h2, h3⟩ := hr.nRef
  obtain ⟨c, d, h4, h5, h6⟩ := hr.kRef
  exact ⟨hr.al, hr.name, hr.fullName, hr.author, hr.comment, hr.reference, hr.stype, hr.unit,
    h _ _ hr.lower, h _ _ hr.upper, ⟨a, b, h1, h2, h _ _ h3⟩, ⟨c, d, h4, h5, h _ _ h6⟩, hr.path,
    hr.modl⟩

theorem TableBy.mono {R S : Dbl → Dbl → Prop} (h : ∀ a b, R a b → S a b) {f g : Frame Dbl}
    (hr : Spec.TableBy R f g) : Spec.TableBy S f g :=
  ⟨hr.1, hr.2.imp (fun _ _ => RowBy.mono h)⟩

theorem RowBy.trans {R S T : Dbl → Dbl → Prop} (h : ∀ a b c, R a b → S b c → T a c)
    {r r' r'' : Row Dbl} (hr : Spec.RowBy R r r') (hs : Spec.RowBy S r' r'') :
    Spec.RowBy T r r'' := by
  obtain ⟨a, b, h1, h2, h3⟩ := hr.nRef
  obtain ⟨c, d, h4, h5, h6⟩ := hr.kRef
  obtain ⟨b', e, k1, k2, k3⟩ := hs.nRef
  obtain ⟨d', f, k4, k5, k6⟩ := hs.kRef
  have e1 : b = b' := by rw [h2] at k1; injection k1
  have e2 : d = d' := by rw [h5] at k4; injection k4
  subst e1 e2
  exact ⟨hs.al.trans hr.al, hs.name.trans hr.name, hs.fullName.trans hr.fullName,
    hs.author.trans hr.author, hs.comment.trans hr.comment, hs.reference.trans hr.reference,
    hs.stype.trans hr.stype, hs.unit.trans hr.unit, h _ _ _ hr.lower hs.lower,
    h _ _ _ hr.upper hs.upper, ⟨a, e, h1, k2, h _ _ _ h3 k3⟩, ⟨c, f, h4, k5, h _ _ _ h6 k6⟩,
    hs.path.trans hr.path, hs.modl.trans hr.modl⟩

theorem forall₂_trans {α : Type} {R S T : α → α → Prop} (h : ∀ a b c, R a b → S b c → T a c) :
    ∀ {l l' l'' : List α}, List.Forall₂ R l l' → List.Forall₂ S l' l'' → List.Forall₂ T l l''
  | _, _, _, .nil, .nil => .nil
  | _, _, _, .cons h1 h2, .cons h3 h4 => .cons (h _ _ _ h1 h3) (forall₂_trans h h2 h4)

theorem Steps.storable {n : ℕ} {r r' : Row Dbl} (h : Spec.RowBy (Steps n) r r') (hs : Spec.Storable r) :
    Spec.Storable r' := by
  obtain ⟨a, b, h1, h2, h3⟩ := h.nRef
  obtain ⟨c, d, h4, h5, h6⟩ := h.kRef
  exact ⟨h.al ▸ hs.al, h.name ▸ hs.name, h.fullName ▸ hs.fullName, h.author ▸ hs.author,
    h.comment ▸ hs.comment, h.reference ▸ hs.reference, h.stype ▸ hs.stype, h.unit ▸ hs.unit,
    h.lower.notNaN hs.lower, h.upper.notNaN hs.upper, ⟨b, h2⟩, ⟨d, h5⟩, h.path ▸ hs.path,
    h.modl ▸ hs.modl⟩

theorem Steps.sized {n : ℕ} (hn : n ≤ 2 ^ 20) {lo hi : ℝ} (hlo : 0 ≤ lo) {a c : Dbl}
    (h : Steps n a c) (hs : SizeBetween lo hi a) : SizeBetween (lo / 10) (hi * 10) c := by
  intro z hz
  rcases h with ⟨x, y, hx, hy, h⟩ | ⟨rfl, h⟩
  · have : y = z := by rw [hy] at hz; injection hz
    subst this
    have he := h.abs_sub_le hn
    rcases hs x hx with rfl | ⟨h1, h2⟩
    · refine .inl ?_
      rw [abs_zero, zero_mul, zero_div, sub_zero] at he
      exact abs_nonpos_iff.1 he
    · refine .inr ?_
      have hb : |x| * (n + 1) / 2 ^ 53 ≤ |x| * (9 / 10) := by
        rw [mul_div_assoc]
        refine mul_le_mul_of_nonneg_left ?_ (abs_nonneg x)
        have : (n : ℝ) ≤ 2 ^ 20 := by exact_mod_cast hn
        rw [div_le_iff₀ (by positivity)]
        have e : (9 / 10 : ℝ) * 2 ^ 53 = 2 ^ 20 + (9 / 10 * 2 ^ 53 - 2 ^ 20) := by ring
        have e' : (1 : ℝ) ≤ 9 / 10 * 2 ^ 53 - 2 ^ 20 := by norm_num
        linarith
      have h3 := abs_sub_abs_le_abs_sub y x
      have h4 := abs_sub_abs_le_abs_sub x y
      rw [abs_sub_comm] at h4
      constructor <;> linarith
  · exact absurd hz (h z)

theorem EveryNumber.steps {n : ℕ} (hn : n ≤ 2 ^ 20) {lo hi : ℝ} (hlo : 0 ≤ lo) {r r' : Row Dbl}
    (h : Spec.RowBy (Steps n) r r') (hs : Spec.EveryNumber (SizeBetween lo hi) r) :
    Spec.EveryNumber (SizeBetween (lo / 10) (hi * 10)) r' := by
  obtain ⟨a, b, h1, h2, h3⟩ := h.nRef
  obtain ⟨c, d, h4, h5, h6⟩ := h.kRef
  refine ⟨h.lower.sized hn hlo hs.lower, h.upper.sized hn hlo hs.upper, fun x e => ?_,
    fun x e => ?_⟩
  · have : b = x := by rw [h2] at e; injection e
    subst this
    exact h3.sized hn hlo (hs.nRef a h1)
  · have : d = x := by rw [h5] at e; injection e
    subst this
    exact h6.sized hn hlo (hs.kRef c h4)

theorem steps_nan (n : ℕ) : Steps n PyFloat.nan PyFloat.nan :=
  .inr ⟨rfl, fun x h => by cases h⟩

/-- One reopening, with numbers between `10^-14` and `10^31`. -/
theorem reopen_steps (f : Frame Dbl) (hs : ∀ p ∈ f, Spec.Storable p.2)
    (hp : ∀ p ∈ f, EveryNumber (SizeBetween ((10 : ℝ) ^ 14)⁻¹ (10 ^ 31)) p.2) :
    ∃ g, loadCsv (csvText f) = some (.ok g) ∧ TableBy (Steps 10) f g :=
  reopen_by (steps_nan 10) (fun a hn ha => reread_sized (k := 14) (u := 31) (b := 5) (by norm_num)
    (by norm_num) (by norm_num) (by norm_num) (by decide) hn ha) f hs hp

/-- **C128**: nothing of a stored table changes when it is opened again. -/
def C128_statement : Prop :=
  ∀ f : Frame Dbl, (∀ p ∈ f, Spec.Storable p.2) →
    loadCsv (csvText f) = some (.ok (numbered (f.map Prod.snd)))

/-- **C128**, for numbers between `10^-14` and `10^31` (or zero, infinite or missing): the texts are
the same and the numbers differ by at most eleven half units in the last place. -/
theorem C128_reopened_partial (f : Frame Dbl) (hs : ∀ p ∈ f, Spec.Storable p.2)
    (hp : ∀ p ∈ f, EveryNumber (SizeBetween ((10 : ℝ) ^ 14)⁻¹ (10 ^ 31)) p.2) :
    ∃ g, loadCsv (csvText f) = some (.ok g) ∧ TableBy (WithinRel (11 / 2 ^ 53)) f g := by
  obtain ⟨g, hg, ht⟩ := reopen_steps f hs hp
  refine ⟨g, hg, TableBy.mono (fun a b h => ?_) ht⟩
  have := h.within (by norm_num)
  norm_num at this ⊢
  exact this

/-- **C128**, for numbers between `10^-250` and `10^250`. -/
theorem C128_wide_partial (f : Frame Dbl) (hs : ∀ p ∈ f, Spec.Storable p.2)
    (hp : ∀ p ∈ f, EveryNumber (SizeBetween ((10 : ℝ) ^ 250)⁻¹ (10 ^ 250)) p.2) :
    ∃ g, loadCsv (csvText f) = some (.ok g) ∧ TableBy (WithinRel (41 / 2 ^ 53)) f g := by
  obtain ⟨g, hg, ht⟩ := reopen_by (R := Steps 40) (steps_nan 40)
    (fun a hn ha => reread_sized (k := 250) (u := 250) (b := 9) (by norm_num) (by norm_num)
      (by norm_num) (by norm_num) (by decide) hn ha) f hs hp
  refine ⟨g, hg, TableBy.mono (fun a b h => ?_) ht⟩
  have := h.within (by norm_num)
  norm_num at this ⊢
  exact this

theorem rows_refl {rows : List (Row Dbl)} (hs : ∀ r ∈ rows, Spec.Storable r) :
    List.Forall₂ (RowBy (Steps 0)) rows rows := by
  induction rows with
  | nil => exact .nil
  | cons r rows ih =>
    have h := hs r (by simp)
    obtain ⟨a, ha⟩ := h.nRef
    obtain ⟨b, hb⟩ := h.kRef
    exact .cons ⟨rfl, rfl, rfl, rfl, rfl, rfl, rfl, rfl, Steps.refl _, Steps.refl _,
      ⟨a, a, ha, ha, Steps.refl _⟩, ⟨b, b, hb, hb, Steps.refl _⟩, rfl, rfl⟩
      (ih (fun r hr => hs r (by simp [hr])))

/-- **C128**, for any number of sessions up to a hundred thousand: the error grows at most in
proportion to the number of sessions. -/
theorem C128_sessions_partial (f : Frame Dbl) (hs : ∀ p ∈ f, Spec.Storable p.2)
    (hp : ∀ p ∈ f, EveryNumber (SizeBetween ((10 : ℝ) ^ 13)⁻¹ (10 ^ 30)) p.2) (n : ℕ) (hn : n ≤ 100000) :
    ∃ g, reopenTimes n f = some (.ok g) ∧
      List.Forall₂ (RowBy (WithinRel ((10 * n + 1) / 2 ^ 53))) (f.map Prod.snd) (g.map Prod.snd) := by
  have key : ∃ g, reopenTimes n f = some (.ok g) ∧
      List.Forall₂ (RowBy (Steps (10 * n))) (f.map Prod.snd) (g.map Prod.snd) := by
    induction n with
    | zero =>
      refine ⟨f, rfl, rows_refl ?_⟩
      intro r hr
      obtain ⟨p, hm, rfl⟩ := List.mem_map.1 hr
      exact hs p hm
    | succ n ih =>
      obtain ⟨g, hg, ht⟩ := ih (by omega)
      have back : ∀ q ∈ g, ∃ p ∈ f, Spec.RowBy (Steps (10 * n)) p.2 q.2 := by
        intro q hq
        obtain ⟨r, hr, hrq⟩ := forall₂_right ht _ (List.mem_map_of_mem hq)
        obtain ⟨p, hp, rfl⟩ := List.mem_map.1 hr
        exact ⟨p, hp, hrq⟩
      obtain ⟨k, hk, ht'⟩ := reopen_steps g
        (fun q hq => by
          obtain ⟨p, hm, h⟩ := back q hq
          exact Steps.storable h (hs p hm))
        (fun q hq => by
          obtain ⟨p, hm, h⟩ := back q hq
          have := EveryNumber.steps (by omega) (by positivity) h (hp p hm)
          rw [show ((10 : ℝ) ^ 13)⁻¹ / 10 = (10 ^ 14)⁻¹ by norm_num,
            show (10 : ℝ) ^ 30 * 10 = 10 ^ 31 by norm_num] at this
          exact this)
      refine ⟨k, ?_, ?_⟩
      · simp only [reopenTimes, hg]
        exact hk
      · have add : ∀ a b c, Steps (10 * n) a b → Steps 10 b c → Steps (10 * (n + 1)) a c := by
          intro a b c h h'
          have := Steps.trans h h'
          rwa [show 10 * (n + 1) = 10 * n + 10 by ring]
        exact forall₂_trans (S := RowBy (Steps 10)) (T := RowBy (Steps (10 * (n + 1))))
          (fun _ _ _ h h' => RowBy.trans add h h') ht ht'.2
  obtain ⟨g, hg, ht⟩ := key
  refine ⟨g, hg, ht.imp (fun _ _ => RowBy.mono (fun a b h => ?_))⟩
  have := h.within (by omega)
  push_cast at this
  exact this

theorem tableBy_eq {f g : Frame Dbl} (h : TableBy Eq f g) : g = numbered (f.map Prod.snd) := by
  have hrows : g.map Prod.snd = f.map Prod.snd := by
    have h2 := h.2
    generalize f.map Prod.snd = rows at h2
    generalize g.map Prod.snd = rows' at h2
    induction h2 with
    | nil => rfl
    | @cons r r' rows rows' hr _ ih =>
      rw [ih]
      congr 1
      obtain ⟨a1, a2, a3, a4, a5, a6, a7, a8, a9, a10, ⟨x, y, h1, h2, h3⟩, ⟨z, w, h4, h5, h6⟩, a11,
        a12⟩ := hr
      cases r; cases r'
      simp only at *
      simp [a1, a2, a3, a4, a5, a6, a7, a8, a9, a10, a11, a12, h1, h2, h3, h4, h5, h6]
  have hlen : g.length = f.length := by simpa using congrArg List.length hrows
  refine List.ext_getElem? (fun i => ?_)
  have k1 := congrArg (fun l => l[i]?) h.1
  have k2 := congrArg (fun l => l[i]?) hrows
  by_cases hi : i < f.length
  · have hi' : i < g.length := hlen ▸ hi
    simp [numbered, hi, hi'] at k1 k2 ⊢
    exact Prod.ext k1 k2
  · have hi' : ¬ i < g.length := hlen ▸ hi
    simp [numbered, hi, hi']

/-- Tables with short numbers do not change at all. -/
theorem C128_short (f : Frame Dbl) (hs : ∀ p ∈ f, Spec.Storable p.2)
    (hp : ∀ p ∈ f, EveryNumber ShortNumber p.2) :
    loadCsv (csvText f) = some (.ok (numbered (f.map Prod.snd))) := by
  obtain ⟨g, hg, ht⟩ := reopen_by (R := Eq) (P := ShortNumber) rfl
    (fun a hn ha => ⟨a, reread_short hn ha, rfl⟩) f hs hp
  rw [hg, tableBy_eq ht]

/-- However often they are opened. -/
theorem C128_short_always (f : Frame Dbl) (hs : ∀ p ∈ f, Spec.Storable p.2)
    (hp : ∀ p ∈ f, EveryNumber ShortNumber p.2) (n : ℕ) :
    reopenTimes (n + 1) f = some (.ok (numbered (f.map Prod.snd))) := by
  induction n with
  | zero => exact C128_short f hs hp
  | succ n ih =>
    rw [reopenTimes, ih]
    simp only
    have back : ∀ q ∈ numbered (f.map Prod.snd), ∃ p ∈ f, p.2 = q.2 := by
      intro q hq
      have := List.mem_map_of_mem (f := Prod.snd) hq
      rw [numbered_snd] at this
      exact List.mem_map.1 this
    rw [C128_short _ (fun q hq => by
        obtain ⟨p, hm, e⟩ := back q hq
        exact e ▸ hs p hm) (fun q hq => by
        obtain ⟨p, hm, e⟩ := back q hq
        exact e ▸ hp p hm), numbered_snd]

end

/-! ## A number with three decimals -/

theorem lit_band {q : ℚ} {lo hi : ℝ} (hlo : IsDouble lo) (hhi : IsDouble hi) (h0 : 0 < lo)
    (h1 : lo ≤ q) (h2 : (q : ℝ) ≤ hi) : (PyFloat.lit q : Dbl).val = .fin (nearest q) ∧
      lo ≤ |nearest q| ∧ |nearest q| ≤ hi := by
  have h : (PyFloat.lit q : Dbl).val = (Dbl.rnd (.fin (q : ℝ))).val := rfl
  have m1 := nearest_mono h1
  have m2 := nearest_mono h2
  rw [nearest_of_double hlo] at m1
  rw [nearest_of_double hhi] at m2
  have ha := abs_of_pos (h0.trans_le m1)
  rw [h, ha]
  refine ⟨Dbl.rnd_fin ?_, m1, m2⟩
  rw [ha]
  exact m2.trans_lt ((le_abs_self hi).trans_lt (Dbl.double_lt hhi))

theorem lit_usual {q : ℚ} (h1 : (2 : ℝ) ^ (-10 : ℤ) ≤ q) (h2 : (q : ℝ) ≤ 2 ^ (10 : ℤ)) :
    (PyFloat.lit q : Dbl).val = .fin (nearest q) ∧
      (2 : ℝ) ^ (-10 : ℤ) ≤ |nearest q| ∧ |nearest (q : ℝ)| ≤ 2 ^ (10 : ℤ) :=
  lit_band ⟨1, -10, by norm_num, by norm_num, by norm_num, by simp⟩
    ⟨1, 10, by norm_num, by norm_num, by norm_num, by simp⟩ (by positivity) h1 h2

theorem fin_notNaN {a : Dbl} {x : ℝ} (h : a.val = .fin x) : PyFloat.isNaN a = false := by
  have : PyFloat.isNaN a = PyFloat.isNaN a.val := rfl
  rw [this, h]; rfl

/-- The double `0.123`. -/
def threeDecimals : Dbl := PyFloat.lit (123 / 1000)

theorem nearest_0123 : nearest (123 / 1000) = 8863084066665136 * 2 ^ (-56 : ℤ) := by
  have h := nearest_eq (x := 123 / 1000) 8863084066665136 (-56) (by norm_num) (by norm_num)
    (by norm_num) (by rw [abs_lt]; constructor <;> norm_num)
  rw [h]; norm_num

theorem nearest_123 : nearest (123 / 10) = 6924284427082138 * 2 ^ (-49 : ℤ) := by
  have h := nearest_eq (x := 123 / 10) 6924284427082138 (-49) (by norm_num) (by norm_num)
    (by norm_num) (by rw [abs_lt]; constructor <;> norm_num)
  rw [h]; norm_num

theorem nearest_0123' : nearest (6924284427082138 * 2 ^ (-49 : ℤ) / 100) =
    8863084066665137 * 2 ^ (-56 : ℤ) := by
  have h := nearest_eq (x := 6924284427082138 * 2 ^ (-49 : ℤ) / 100) 8863084066665137 (-56)
    (by norm_num) (by norm_num) (by norm_num) (by rw [abs_lt]; constructor <;> norm_num)
  rw [h]; norm_num

theorem threeDecimals_val : threeDecimals.val = .fin (8863084066665136 * 2 ^ (-56 : ℤ)) := by
  have h := (lit_usual (q := 123 / 1000) (by push_cast; norm_num) (by push_cast; norm_num)).1
  have e : (((123 / 1000 : ℚ)) : ℝ) = 123 / 1000 := by push_cast; rfl
  rw [e, nearest_0123] at h
  exact h

/-- `0.123` is read as the next larger number: the digits are divided by ten and by a hundred. -/
theorem reread_0123 : ∃ c : Dbl, csvParse (csvNumber threeDecimals) = .ok c ∧
    c.val = .fin (8863084066665137 * 2 ^ (-56 : ℤ)) := by
  have hv := threeDecimals_val
  have hd := Dbl.isDouble_val hv
  have small : ∀ {x : ℝ}, 0 < x → x ≤ 100 → |x| < 2 ^ (1024 : ℤ) := by
    intro x h0 h1
    rw [abs_of_pos h0]
    have : (2 : ℝ) ^ (7 : ℤ) ≤ 2 ^ (1024 : ℤ) :=
      zpow_le_zpow_right₀ (by norm_num) (by norm_num)
    refine lt_of_lt_of_le ?_ this
    norm_num
    linarith
  generalize hx : (8863084066665136 * 2 ^ (-56 : ℤ) : ℝ) = x at hv hd
  have hx0 : 0 < x := by rw [← hx]; positivity
  have key : ∃ r : Dbl, xstrtod (reprText x) = some r ∧
      r.val = .fin (8863084066665137 * 2 ^ (-56 : ℤ)) := by
    have hsp := (pyDigits_spec hd hx0.ne').toShortest
    unfold reprText
    rw [if_neg hx0.ne']
    generalize (pyDigits x).1 = m at hsp
    generalize (pyDigits x).2 = e at hsp
    have hr : nearest (((123 : ℕ) : ℝ) * 10 ^ (-3 : ℤ)) = |x| := by
      rw [abs_of_pos hx0, ← hx, ← nearest_0123]
      congr 1; norm_num
    obtain ⟨rfl, rfl⟩ := decimal_unique (shortest_no_zero hx0.ne' hsp) (by norm_num)
      (shortest_of_fifteen hx0.ne' (k := 123) (by norm_num) hr (by
        rw [abs_of_pos hx0, ← hx]
        refine (zpow_le_zpow_right₀ (by norm_num) (show (-1021 : ℤ) ≤ -56 by norm_num)).trans ?_
        norm_num) hsp)
    obtain ⟨is, fs, E, hread, -, hcase⟩ := xstrtod_repr x 123 (-3)
    obtain ⟨h1, h2, -⟩ := hcase.resolve_right (by rintro ⟨h0, -⟩; omega)
    rw [hread, decide_eq_false (by linarith)]
    have hg : (gather (PyFloat.lit 0) (is ++ fs)).val = .fin 123 := by
      have := gather_exact (cs := is ++ fs) (by rw [h1]; norm_num)
      rw [h1] at this
      exact_mod_cast this
    have hval : (scaleBy (decide (E - (fs.length : ℤ) < 0)) (E - fs.length).natAbs (PyFloat.lit 10)
        (if false then -gather (PyFloat.lit 0) (is ++ fs)
          else gather (PyFloat.lit 0) (is ++ fs))).val = .fin (8863084066665137 * 2 ^ (-56 : ℤ)) := by
      rw [h2]
      have e1 : decide ((-3 : ℤ) < 0) = true := rfl
      have e2 : (-3 : ℤ).natAbs = 3 := rfl
      rw [e1, e2, scaleBy_step _ (by norm_num), scaleBy_step _ (by norm_num)]
      norm_num only [scaleBy_zero, if_true]
      have h10 : ((PyFloat.lit 10 : Dbl) * PyFloat.lit 10).val = .fin 100 := by
        rw [Dbl.val_mul, lit_ten, XR.mul_fin]
        norm_num
        have : IsDouble 100 := ⟨100, 0, by norm_num, by norm_num, by norm_num, by norm_num⟩
        exact Dbl.rnd_double this
      have hq : (gather (PyFloat.lit 0) (is ++ fs) / PyFloat.lit 10).val =
          .fin (6924284427082138 * 2 ^ (-49 : ℤ)) := by
        rw [Dbl.val_div, hg, lit_ten, XR.div_fin_of_ne _ (by norm_num),
          Dbl.rnd_fin (by rw [nearest_123]; exact small (by positivity) (by norm_num)), nearest_123]
      show ((gather (PyFloat.lit 0) (is ++ fs) / PyFloat.lit 10) /
        ((PyFloat.lit 10 : Dbl) * PyFloat.lit 10)).val = _
      rw [Dbl.val_div, hq, h10, XR.div_fin_of_ne _ (by norm_num),
        Dbl.rnd_fin (by rw [nearest_0123']; exact small (by positivity) (by norm_num)), nearest_0123']
      norm_num
    exact ⟨_, assemble_fin (by omega) (by omega) hval, hval⟩
  obtain ⟨r, hr, hz⟩ := key
  exact csvParse_fin hv hr hz

/-- A row with the given smallest wavelength. -/
def bandRow (lo : Dbl) : Row Dbl :=
  let r : Row Dbl :=
    { al := .str "Ag", name := .str "Silver", fullName := .str "", author := .str "A, B",
      comment := .str "", reference := .str "", stype := .str "wavelength", unit := .str "um",
      lower := lo, upper := PyFloat.lit (31 / 20), nRef := .scalar (PyFloat.lit (27 / 200)),
      kRef := .scalar PyFloat.nan, path := .str "ag.txt", modl := .str "" }
  r

section
variable [PandasTexts]

theorem bandRow_storable {lo : Dbl} (h : PyFloat.isNaN lo = false) : Spec.Storable (bandRow lo) := by
  have t : ∀ s : String, '\x00' ∉ s.toList → '\r' ∉ s.toList →
      TextCell (CsvIO.quotesCr Dbl) (.str s) :=
    fun s h1 h2 => ⟨s, rfl, h1, fun h => absurd h h2⟩
  have hu : PyFloat.isNaN (PyFloat.lit (31 / 20) : Dbl) = false :=
    fin_notNaN (lit_usual (by push_cast; norm_num) (by push_cast; norm_num)).1
  exact ⟨t _ (by decide) (by decide), t _ (by decide) (by decide), t _ (by decide) (by decide),
    t _ (by decide) (by decide), t _ (by decide) (by decide), t _ (by decide) (by decide),
    t _ (by decide) (by decide), t _ (by decide) (by decide), h, hu, ⟨_, rfl⟩, ⟨_, rfl⟩,
    t _ (by decide) (by decide), t _ (by decide) (by decide)⟩

theorem sized_wider {lo lo' hi hi' : ℝ} (h1 : lo' ≤ lo) (h2 : hi ≤ hi') {a : Dbl}
    (h : SizeBetween lo hi a) : SizeBetween lo' hi' a :=
  fun x hx => (h x hx).imp id (fun h => ⟨h1.trans h.1, h.2.trans h2⟩)

/-- The row satisfies the hypotheses of `C128_reopened_partial` and `C128_sessions_partial`. -/
theorem bandRow_sized : EveryNumber (SizeBetween ((10 : ℝ) ^ 13)⁻¹ (10 ^ 30)) (bandRow threeDecimals) := by
  have l : ∀ q : ℚ, (2 : ℝ) ^ (-10 : ℤ) ≤ q → (q : ℝ) ≤ 2 ^ (10 : ℤ) →
      SizeBetween ((10 : ℝ) ^ 13)⁻¹ (10 ^ 30) (PyFloat.lit q : Dbl) := by
    intro q h1 h2 x hx
    obtain ⟨hv, h3, h4⟩ := lit_usual h1 h2
    have : nearest (q : ℝ) = x := by rw [hv] at hx; injection hx
    subst this
    refine .inr ⟨le_trans ?_ h3, h4.trans ?_⟩ <;> norm_num
  refine ⟨l _ ?_ ?_, l _ ?_ ?_, fun a h => ?_, fun a h => ?_⟩
  · push_cast; norm_num
  · push_cast; norm_num
  · push_cast; norm_num
  · push_cast; norm_num
  · have h' : (Vals.scalar (PyFloat.lit (27 / 200)) : Vals Dbl) = .scalar a := h
    injection h' with h'
    subst h'
    exact l _ (by push_cast; norm_num) (by push_cast; norm_num)
  · have h' : (Vals.scalar PyFloat.nan : Vals Dbl) = .scalar a := h
    injection h' with h'
    subst h'
    intro x hx
    cases hx

/-- The bound 0.123 is another number after the table was saved and opened again. -/
theorem C128_refuted : ¬ C128_statement := by
  intro h
  have hm : ∀ p ∈ [((0 : ℤ), bandRow threeDecimals)], Spec.Storable p.2 := by
    intro p hp
    rw [List.mem_singleton.1 hp]
    exact bandRow_storable (fin_notNaN threeDecimals_val)
  obtain ⟨g, hg, -, h2⟩ := reopen_by
    (R := fun a c => PyFloat.isNaN a = true ∨ csvParse (csvNumber a) = .ok c)
    (P := SizeBetween ((10 : ℝ) ^ 13)⁻¹ (10 ^ 30)) (.inl rfl) (fun a hn ha => by
      obtain ⟨c, hc, -⟩ := reread_sized (k := 13) (u := 30) (b := 5) (by norm_num)
        (by norm_num) (by norm_num) (by norm_num) (by decide) hn ha
      exact ⟨c, hc, .inr hc⟩) [((0 : ℤ), bandRow threeDecimals)] hm (by
      intro p hp
      rw [List.mem_singleton.1 hp]
      exact bandRow_sized)
  rw [h _ hm] at hg
  have e : numbered (List.map Prod.snd [((0 : ℤ), bandRow threeDecimals)]) = g := by
    injection hg with hg
    injection hg
  rw [← e, numbered_snd] at h2
  have hr := (List.forall₂_cons.1 h2).1.lower
  obtain ⟨c, hc, hv⟩ := reread_0123
  have hr' : csvParse (csvNumber threeDecimals) = .ok threeDecimals :=
    hr.resolve_left (by
      have := fin_notNaN threeDecimals_val
      show ¬ PyFloat.isNaN threeDecimals = true
      rw [this]; simp)
  rw [hc] at hr'
  injection hr' with hr'
  rw [hr', threeDecimals_val] at hv
  injection hv with hv
  norm_num at hv

/-- The hypotheses of the theorems on small changes, met by a row with the bound 0.123. -/
example : ∃ g, reopenTimes 1000 [((0 : ℤ), bandRow threeDecimals)] = some (.ok g) ∧
    List.Forall₂ (RowBy (WithinRel ((10 * (1000 : ℕ) + 1) / 2 ^ 53))) [bandRow threeDecimals]
      (g.map Prod.snd) :=
  C128_sessions_partial _ (by
    intro p hp
    rw [List.mem_singleton.1 hp]
    exact bandRow_storable (fin_notNaN threeDecimals_val)) (by
    intro p hp
    rw [List.mem_singleton.1 hp]
    exact bandRow_sized) 1000 (by norm_num)

/-- A decimal number with the given number of decimals. -/
theorem short_lit {q : ℚ} (k : ℤ) (j : ℕ) (hj : j ≤ 4) (hk : |k| < 10 ^ 15) (h10 : ¬ (10 : ℤ) ∣ k)
    (hq : q = k / 10 ^ 2 ^ j) (h1 : (2 : ℝ) ^ (-10 : ℤ) ≤ q) (h2 : (q : ℝ) ≤ 2 ^ (10 : ℤ)) :
    ShortNumber (PyFloat.lit q) := by
  intro x hx
  rw [(lit_usual h1 h2).1] at hx
  have : nearest (q : ℝ) = x := by injection hx
  refine .inr ⟨k, j, hj, hk, h10, ?_⟩
  rw [← this, hq]
  push_cast
  rfl

/-- A row whose numbers are 0.25, 1.55, 0.1354 and a missing number: nothing changes. -/
example : let r : Row Dbl := { bandRow (PyFloat.lit (1 / 4)) with
      nRef := .scalar (PyFloat.lit (677 / 5000)) }
    loadCsv (csvText [((7 : ℤ), r)]) = some (.ok [((0 : ℤ), r)]) := by
  intro r
  have s1 : ShortNumber (PyFloat.lit (1 / 4)) := short_lit 25 1 (by norm_num) (by norm_num)
    (by norm_num) (by norm_num) (by push_cast; norm_num) (by push_cast; norm_num)
  have s2 : ShortNumber (PyFloat.lit (31 / 20)) := short_lit 155 1 (by norm_num) (by norm_num)
    (by norm_num) (by norm_num) (by push_cast; norm_num) (by push_cast; norm_num)
  have s3 : ShortNumber (PyFloat.lit (677 / 5000)) := short_lit 1354 2 (by norm_num) (by norm_num)
    (by norm_num) (by norm_num) (by push_cast; norm_num) (by push_cast; norm_num)
  have h := C128_short [((7 : ℤ), r)] (by
    intro p hp
    rw [List.mem_singleton.1 hp]
    have h0 := bandRow_storable (lo := PyFloat.lit (1 / 4))
      (fin_notNaN (lit_usual (by push_cast; norm_num) (by push_cast; norm_num)).1)
    exact { h0 with nRef := ⟨_, rfl⟩ }) (by
    intro p hp
    rw [List.mem_singleton.1 hp]
    refine ⟨s1, s2, fun a h => ?_, fun a h => ?_⟩
    · have h' : (Vals.scalar (PyFloat.lit (677 / 5000)) : Vals Dbl) = .scalar a := h
      injection h' with h'
      exact h' ▸ s3
    · have h' : (Vals.scalar PyFloat.nan : Vals Dbl) = .scalar a := h
      injection h' with h'
      subst h'
      intro x hx
      cases hx)
  exact h

end

end
end Disp

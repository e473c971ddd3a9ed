import Mathlib.Tactic.Linarith
import Mathlib.Tactic.Positivity
import Verif.Lemmas.PrintRounding
import Verif.Props.TextMaterials
/-!
# C117: numbers that are saved to text files again and again
-/

namespace Disp

open Spec

noncomputable section

/-! ## Numbers with eight decimals -/

theorem tiny_grid {l : ℤ} (hl : 0 < l) : (2 : ℝ) ^ (-1022 : ℤ) ≤ l / 10 ^ 8 := by
  have h1 : (1 : ℝ) ≤ l := by exact_mod_cast hl
  have h2 : (2 : ℝ) ^ (-1022 : ℤ) ≤ 2 ^ (-27 : ℤ) := zpow_le_zpow_right₀ (by norm_num) (by norm_num)
  have h27 : (2 : ℝ) ^ (-27 : ℤ) = 1 / 2 ^ 27 := by rw [zpow_neg, one_div]; norm_cast
  rw [h27] at h2
  refine h2.trans ?_
  rw [div_le_div_iff₀ (by positivity) (by positivity)]
  norm_num
  linarith

/-- A number with eight decimals, rounded to nine digits, has eight decimals and nine digits. -/
theorem grid_digits {k : ℤ} (hk : 0 < k) : ∃ j q l : ℤ, 10 ^ 8 ≤ j ∧ j < 10 ^ 9 ∧ 0 < l ∧
    nineDigits (nearest (k / 10 ^ 8)) = j * 10 ^ q ∧ (j * 10 ^ q : ℝ) = l / 10 ^ 8 := by
  have h8 : (10 : ℝ) ^ (-8 : ℤ) = 1 / 10 ^ 8 := by rw [zpow_neg, one_div]; norm_cast
  have hk0 : (0 : ℝ) < k := by exact_mod_cast hk
  by_cases h9 : k < 10 ^ 9
  · obtain ⟨n, rfl⟩ := Int.eq_ofNat_of_zero_le hk.le
    have hn0 : n ≠ 0 := by rintro rfl; simp at hk
    have hn9 : n < 10 ^ 9 := by exact_mod_cast h9
    have a1 := Nat.pow_log_le_self 10 hn0
    have a2 := Nat.lt_pow_succ_log_self (b := 10) (by norm_num) n
    have a3 : Nat.log 10 n < 9 := (Nat.log_lt_iff_lt_pow (by norm_num) hn0).2 hn9
    obtain ⟨m, hm⟩ : ∃ m, Nat.log 10 n + m = 8 := ⟨8 - Nat.log 10 n, by omega⟩
    have b1 : 10 ^ 8 ≤ n * 10 ^ m := by
      rw [← hm, pow_add]; exact Nat.mul_le_mul_right _ a1
    have b2 : n * 10 ^ m < 10 ^ 9 := by
      rw [show (10 : ℕ) ^ 9 = 10 ^ (Nat.log 10 n + 1) * 10 ^ m by
        rw [← pow_add]; congr 1; omega]
      exact Nat.mul_lt_mul_of_pos_right a2 (by positivity)
    have e : (((n * 10 ^ m : ℕ) : ℤ) * 10 ^ (-8 - (m : ℤ)) : ℝ) = ((n : ℕ) : ℤ) / 10 ^ 8 := by
      rw [zpow_sub₀ (by norm_num), h8, zpow_natCast]
      push_cast
      field_simp
    refine ⟨(n * 10 ^ m : ℕ), -8 - m, n, by exact_mod_cast b1, by exact_mod_cast b2, hk, ?_, e⟩
    have := drift_digits (j := (n * 10 ^ m : ℕ)) (q := -8 - m) (by exact_mod_cast b1)
      (by exact_mod_cast b2) (by rw [e]; exact tiny_grid hk)
    rwa [e] at this ⊢
  · have hk9 : (10 : ℝ) ^ 9 ≤ k := by exact_mod_cast not_lt.1 h9
    have ht : (10 : ℝ) ≤ k / 10 ^ 8 := by
      rw [le_div_iff₀ (by positivity)]
      norm_num at hk9 ⊢
      exact hk9
    have herr := nearest_rel (x := k / 10 ^ 8) (by
      rw [abs_of_pos (by positivity)]; exact tiny_grid hk)
    generalize (k / 10 ^ 8 : ℝ) = t at *
    have ht0 : 0 < t := by linarith
    rw [abs_of_pos ht0] at herr
    have h1 : 1 ≤ nearest t := by
      have h1 := (abs_le.1 herr).1
      have h2 : t / 2 ^ 53 ≤ t / 2 := by
        refine div_le_div_of_nonneg_left (by linarith) (by norm_num) (by norm_num)
      linarith
    generalize nearest t = r at *
    have hr0 : r ≠ 0 := by linarith
    have hL : 0 ≤ Int.log 10 |r| := by
      have := (Int.zpow_le_iff_le_log (b := 10) (x := 0) (R := ℝ) (r := |r|) (by norm_num)
        (abs_pos.2 hr0)).1 (by rw [zpow_zero, abs_of_pos (by linarith)]; exact h1)
      exact this
    have hE : 0 ≤ decExp r := by
      unfold decExp; split <;> omega
    obtain ⟨b1, b2⟩ := significand_bounds hr0
    obtain ⟨e, he⟩ := Int.eq_ofNat_of_zero_le hE
    refine ⟨significand r, decExp r - 8, significand r * 10 ^ e, by exact_mod_cast b1,
      by exact_mod_cast b2, ?_, ?_, ?_⟩
    · have : 0 < significand r := by omega
      positivity
    · rw [nineDigits, if_neg (by linarith)]
      push_cast; ring
    · rw [he, sub_eq_add_neg, zpow_add₀ (by norm_num), h8]
      push_cast
      rw [zpow_natCast]
      ring

/-- The double is nearest to a number with eight decimals, or is not finite. -/
def EightDecimals (x : Dbl) : Prop := ∀ r, x.val = .fin r → ∃ k : ℤ, r = nearest (k / 10 ^ 8)

theorem rnd_val_fin {y r : ℝ} (h : (Dbl.rnd (.fin y)).val = .fin r) : r = nearest y := by
  by_cases hb : |nearest y| < 2 ^ 1024
  · rw [Dbl.rnd_fin hb] at h; cases h; rfl
  · by_cases hy : 0 < y
    · have e : (Dbl.rnd (.fin y)).val = .pinf := by
        unfold Dbl.rnd Dbl.val; simp [hb, hy]
      rw [e] at h; cases h
    · have e : (Dbl.rnd (.fin y)).val = .ninf := by
        unfold Dbl.rnd Dbl.val; simp [hb, hy]
      rw [e] at h; cases h

theorem rnd_eq_of {x : Dbl} {y r : ℝ} (h : x.val = .fin r) (hr : nearest y = r) :
    Dbl.rnd (.fin y) = x := by
  have hd := Dbl.double_lt (Dbl.isDouble_val h)
  refine Dbl.ext ?_
  rw [Dbl.rnd_fin (by rw [hr]; exact hd), hr, h]

/-- Every number shown with eight decimals. -/
theorem decimals_grid (x : Dbl) : EightDecimals (cellShown false x) := by
  intro r hr
  rcases hx : x.val with y | _ | _ | _
  · simp only [cellShown, hx] at hr
    exact ⟨_, rnd_val_fin hr⟩
  all_goals
    have e : cellShown false x = x := by simp only [cellShown, hx]
    rw [e, hx] at hr; cases hr

/-- It is shown as itself with eight decimals. -/
theorem EightDecimals.decimals {x : Dbl} (h : EightDecimals x) : cellShown false x = x := by
  rcases hx : x.val with y | _ | _ | _
  · obtain ⟨k, hk⟩ := h y hx
    simp only [cellShown, hx, Bool.false_eq_true, if_false]
    exact rnd_eq_of hx (by rw [hk]; exact drift_decimals k)
  all_goals simp only [cellShown, hx]

theorem rnd_congr {y z : ℝ} (h : y = z) : Dbl.rnd (.fin y) = Dbl.rnd (.fin z) := by rw [h]

/-- With nine digits it still has eight decimals, and is shown as itself from then on. -/
theorem EightDecimals.digits {x : Dbl} (h : EightDecimals x) : EightDecimals (cellShown true x) ∧
    cellShown true (cellShown true x) = cellShown true x := by
  rcases hx : x.val with y | _ | _ | _
  · obtain ⟨k, hk⟩ := h y hx
    have key : (∃ l : ℤ, nineDigits y = l / 10 ^ 8) ∧
        nineDigits (nearest (nineDigits y)) = nineDigits y := by
      rcases lt_trichotomy k 0 with hneg | rfl | hpos
      · obtain ⟨j, q, l, h1, h2, h3, h4, h5⟩ := grid_digits (k := -k) (by omega)
        have e : nineDigits y = -(j * 10 ^ q) := by
          rw [← h4, hk]
          push_cast
          rw [neg_div, nearest_neg, nineDigits_neg, neg_neg]
        refine ⟨⟨-l, by rw [e, h5]; push_cast; ring⟩, ?_⟩
        rw [e, nearest_neg, nineDigits_neg, drift_digits h1 h2 ?_]
        rw [h5]
        exact tiny_grid h3
      · have : nineDigits y = 0 := by simp [hk, nearest_zero, nineDigits_zero]
        rw [this]
        exact ⟨⟨0, by simp⟩, by rw [nearest_zero, nineDigits_zero]⟩
      · obtain ⟨j, q, l, h1, h2, h3, h4, h5⟩ := grid_digits hpos
        rw [← hk] at h4
        refine ⟨⟨l, by rw [h4, h5]⟩, ?_⟩
        rw [h4, drift_digits h1 h2 ?_]
        rw [h5]
        exact tiny_grid h3
    obtain ⟨⟨l, hl⟩, hd⟩ := key
    have e : cellShown true x = Dbl.rnd (.fin (nineDigits y)) := by
      simp only [cellShown, hx, if_true]
    rw [e]
    refine ⟨fun r hr => ⟨l, by rw [rnd_val_fin hr, hl]⟩, ?_⟩
    rcases hz : (Dbl.rnd (.fin (nineDigits y))).val with z | _ | _ | _
    · simp only [cellShown, hz, if_true]
      rw [rnd_val_fin hz, hd]
    all_goals simp only [cellShown, hz]
  all_goals
    have e : cellShown true x = x := by simp only [cellShown, hx]
    rw [e]; exact ⟨h, e⟩

/-! ## Tables -/

/-- All numbers of the table have eight decimals. -/
def Settled (rows : List (List Dbl)) : Prop := ∀ r ∈ rows, ∀ x ∈ r, EightDecimals x

/-- All numbers of the table have nine digits. -/
def NineDigits (rows : List (List Dbl)) : Prop := ∀ r ∈ rows, ∀ x ∈ r, cellShown true x = x

theorem map_rows {F G : Type} {f g : F → G} {rows : List (List F)}
    (h : ∀ r ∈ rows, ∀ x ∈ r, f x = g x) : rows.map (fun r => r.map f) = rows.map (fun r => r.map g) :=
  List.map_congr_left (fun r hr => List.map_congr_left (h r hr))

theorem map_rows_id {F : Type} {f : F → F} {rows : List (List F)} (h : ∀ r ∈ rows, ∀ x ∈ r, f x = x) :
    rows.map (fun r => r.map f) = rows := by
  rw [map_rows (g := id) h]; simp

theorem printed_dbl (rows : List (List Dbl)) :
    printed rows = rows.map (fun r => r.map (cellShown (useSci rows.flatten))) := by
  refine map_rows (fun r hr x hx => ?_)
  show cellShown (useSci (arrayOf rows.flatten x)) x = _
  rw [arrayOf, if_pos (List.mem_flatten.2 ⟨r, hr, hx⟩)]

theorem Settled.decimals {rows : List (List Dbl)} (h : Settled rows) :
    rows.map (fun r => r.map Printing.shown8) = rows :=
  map_rows_id (fun r hr x hx => (h r hr x hx).decimals)

/-- Printing a table with eight decimals: either it stays as it is, or it has nine digits. -/
theorem Settled.printed_cases {rows : List (List Dbl)} (h : Settled rows) :
    Settled (printed rows) ∧ (printed rows = rows ∨ NineDigits (printed rows)) := by
  rw [printed_dbl]
  cases useSci rows.flatten with
  | false =>
    rw [map_rows_id (fun r hr x hx => (h r hr x hx).decimals)]
    exact ⟨h, .inl rfl⟩
  | true =>
    refine ⟨?_, .inr ?_⟩
    all_goals
      intro r hr x hx
      obtain ⟨q, hq, rfl⟩ := List.mem_map.1 hr
      obtain ⟨y, hy, rfl⟩ := List.mem_map.1 hx
    · exact (h q hq y hy).digits.1
    · exact (h q hq y hy).digits.2

/-- A table with eight decimals and nine digits is printed as it is. -/
theorem Settled.printed_self {rows : List (List Dbl)} (h : Settled rows) (h9 : NineDigits rows) :
    printed rows = rows := by
  rw [printed_dbl]
  cases useSci rows.flatten with
  | false => exact map_rows_id (fun r hr x hx => (h r hr x hx).decimals)
  | true => exact map_rows_id h9

/-- Printing once more changes nothing. -/
theorem Settled.printed_twice {rows : List (List Dbl)} (h : Settled rows) :
    printed (printed rows) = printed rows := by
  obtain ⟨h1, h2 | h2⟩ := h.printed_cases
  · rw [h2, h2]
  · exact h1.printed_self h2

/-- The numbers of a table in a text file. -/
def fileTable (rows : List (List Dbl)) : List (List Dbl) :=
  (printed rows).map (fun r => r.map Printing.shown8)

theorem fileTable_settled (rows : List (List Dbl)) : Settled (fileTable rows) := by
  intro r hr x hx
  obtain ⟨q, _, rfl⟩ := List.mem_map.1 hr
  obtain ⟨y, _, rfl⟩ := List.mem_map.1 hx
  exact decimals_grid y

theorem Settled.file {rows : List (List Dbl)} (h : Settled rows) : fileTable rows = printed rows :=
  h.printed_cases.1.decimals

theorem Settled.file_twice {rows : List (List Dbl)} (h : Settled rows) :
    fileTable (fileTable rows) = fileTable rows := by
  rw [h.file, h.printed_cases.1.file, h.printed_twice]

theorem fileTable_width {m : ℕ} {rows : List (List Dbl)} (h : ∀ r ∈ rows, r.length = m) :
    ∀ r ∈ fileTable rows, r.length = m := by
  intro r hr
  obtain ⟨q, hq, rfl⟩ := List.mem_map.1 hr
  rw [List.length_map]
  exact printed_width h q hq

theorem fileTable_length (rows : List (List Dbl)) : (fileTable rows).length = rows.length := by
  simp [fileTable, printed]

/-! ## Tables with three columns -/

/-- The columns of a table with three columns. -/
def leftHalf (rows : List (List Dbl)) : List (List Dbl) := rowsOf (pairsOf rows 1)

/-- The first and the third column. -/
def rightHalf (rows : List (List Dbl)) : List (List Dbl) := rowsOf (pairsOf rows 2)

theorem halves_settled [SciPy Dbl] [YamlIO Dbl] {rows : List (List Dbl)} (hw : ∀ r ∈ rows, r.length = 3) {P : Dbl → Prop}
    (h : ∀ r ∈ rows, ∀ x ∈ r, P x) : (∀ r ∈ leftHalf rows, ∀ x ∈ r, P x) ∧
      ∀ r ∈ rightHalf rows, ∀ x ∈ r, P x := by
  have key : ∀ j, j < 3 → ∀ r ∈ rowsOf (pairsOf rows j), ∀ x ∈ r, P x := by
    intro j hj r hr x hx
    obtain ⟨q, hq, hx'⟩ := List.mem_flatten.1 (rowsOf_pairs hw (j := j) (by omega) hj x
      (List.mem_flatten.2 ⟨r, hr, hx⟩))
    exact h q hq x hx'
  exact ⟨key 1 (by omega), key 2 (by omega)⟩

theorem joined_all {P : Dbl → Prop} {n k : List (List Dbl)} (hn : ∀ r ∈ n, ∀ x ∈ r, P x)
    (hk : ∀ r ∈ k, ∀ x ∈ r, P x) (hw : ∀ r ∈ k, r.length = 2) :
    ∀ r ∈ joined n k, ∀ x ∈ r, P x := by
  intro r hr x hx
  rw [joined] at hr
  obtain ⟨i, hi, rfl⟩ := List.mem_iff_getElem.1 hr
  rw [List.getElem_zipWith] at hx
  rw [List.length_zipWith] at hi
  rcases List.mem_append.1 hx with hx | hx
  · exact hn _ (List.getElem_mem (by omega)) x hx
  · have hm : k[i] ∈ k := List.getElem_mem (by omega)
    have h2 := hw _ hm
    refine hk _ hm x ?_
    rw [List.mem_singleton.1 hx]
    simp [List.getD, List.getElem?_eq_getElem (show 1 < k[i].length by omega)]

theorem joined_three {n k : List (List Dbl)} (hn : ∀ r ∈ n, r.length = 2) :
    ∀ r ∈ joined n k, r.length = 3 := by
  intro r hr
  rw [joined] at hr
  obtain ⟨i, hi, rfl⟩ := List.mem_iff_getElem.1 hr
  rw [List.getElem_zipWith, List.length_append,
    hn _ (List.getElem_mem (by rw [List.length_zipWith] at hi; omega))]
  rfl

theorem rowsOf_cons {F : Type} (p : F × F) (ps : List (F × F)) :
    rowsOf (p :: ps) = [p.1, p.2] :: rowsOf ps := rfl

theorem pairsOf_cons {F : Type} [PyFloat F] (r : List F) (rows : List (List F)) (j : ℕ) :
    pairsOf (r :: rows) j = (rowX r, r.getD j (lit 0)) :: pairsOf rows j := rfl

theorem joined_cons {F : Type} [PyFloat F] (r q : List F) (n k : List (List F)) :
    joined (r :: n) (q :: k) = (r ++ [q.getD 1 (lit 0)]) :: joined n k := rfl

theorem rowX_map {F : Type} [PyFloat F] (f : F → F) {q : List F} (h : q.length = 3) :
    rowX (q.map f) = f (rowX q) := by
  match q, h with
  | [a, b, c], _ => rfl

theorem row_two {F : Type} {r : List F} (h : r.length = 2) : ∃ a b, r = [a, b] := by
  match r, h with
  | [a, b], _ => exact ⟨a, b, rfl⟩

theorem joined_left {n k : List (List Dbl)} (hn : ∀ r ∈ n, r.length = 2)
    (hl : n.length = k.length) : leftHalf (joined n k) = n := by
  unfold leftHalf
  induction n generalizing k with
  | nil => rfl
  | cons r n ih =>
    match k, hl with
    | q :: k, hl =>
      have := ih (k := k) (fun r hr => hn r (List.mem_cons_of_mem _ hr)) (by simpa using hl)
      obtain ⟨a, b, rfl⟩ := row_two (hn r (List.mem_cons_self ..))
      rw [joined_cons, pairsOf_cons, rowsOf_cons, this]
      rfl

theorem eq_of_dblEq {a b : Dbl} (h : PyFloat.eq a b = true) : a = b := by
  refine Dbl.ext ?_
  replace h : XR.eq a.val b.val = true := h
  rcases ha : a.val with x | _ | _ | _ <;> rcases hb : b.val with y | _ | _ | _ <;>
    rw [ha, hb] at h <;> simp_all [XR.eq, XR.le, XR.lt, XR.isNaN] <;> exact le_antisymm h.1 h.2

theorem joined_right {n k : List (List Dbl)} (hn : ∀ r ∈ n, r.length = 2)
    (hk : ∀ r ∈ k, r.length = 2) (hl : n.length = k.length) (hs : SameAbscissae n k) :
    rightHalf (joined n k) = k := by
  unfold rightHalf
  induction n generalizing k with
  | nil =>
    have : k = [] := by simpa using hl.symm
    subst this; rfl
  | cons r n ih =>
    match k, hl with
    | q :: k, hl =>
      rw [SameAbscissae, List.map_cons, List.map_cons, List.zip_cons_cons, List.all_cons,
        Bool.and_eq_true] at hs
      have := ih (k := k) (fun r hr => hn r (List.mem_cons_of_mem _ hr))
        (fun r hr => hk r (List.mem_cons_of_mem _ hr)) (by simpa using hl) hs.2
      obtain ⟨a, b, rfl⟩ := row_two (hn r (List.mem_cons_self ..))
      obtain ⟨c, d, rfl⟩ := row_two (hk q (List.mem_cons_self ..))
      have e : a = c := eq_of_dblEq hs.1
      rw [joined_cons, pairsOf_cons, rowsOf_cons, this, ← e]
      rfl

theorem shown_isNaN (b : Bool) (x : Dbl) : PyFloat.isNaN (cellShown b x) = PyFloat.isNaN x := by
  rcases dbl_cases x with ⟨r, hr⟩ | rfl | rfl | rfl
  · have h1 : PyFloat.isNaN x = false := by
      show XR.isNaN x.val = false
      rw [hr]; rfl
    rw [h1]
    simp only [cellShown, hr]
    show XR.isNaN (Dbl.rnd _).val = false
    generalize (if b = true then nineDigits r else XR.roundDec 8 r) = y
    by_cases hb : |nearest y| < 2 ^ 1024
    · rw [Dbl.rnd_fin hb]; rfl
    · by_cases hy : 0 < y
      · have e : (Dbl.rnd (.fin y)).val = .pinf := by
          unfold Dbl.rnd Dbl.val; simp [hb, hy]
        rw [e]; rfl
      · have e : (Dbl.rnd (.fin y)).val = .ninf := by
          unfold Dbl.rnd Dbl.val; simp [hb, hy]
        rw [e]; rfl
  all_goals rfl

theorem isNaN_of_eq {a b : Dbl} (h : PyFloat.eq a b = true) : PyFloat.isNaN a = false := by
  replace h : XR.eq a.val b.val = true := h
  show XR.isNaN a.val = false
  cases hn : XR.isNaN a.val with
  | false => rfl
  | true => rw [XR.eq, XR.le, hn] at h; cases h

theorem joined_noNaN {n k : List (List Dbl)} (hn : ∀ r ∈ n, r.length = 2)
    (hl : n.length = k.length) (hs : SameAbscissae n k) :
    ∀ r ∈ joined n k, PyFloat.isNaN (rowX r) = false := by
  induction n generalizing k with
  | nil => intro r hr; rw [joined, List.zipWith_nil_left] at hr; cases hr
  | cons r n ih =>
    match k, hl with
    | q :: k, hl =>
      rw [SameAbscissae, List.map_cons, List.map_cons, List.zip_cons_cons, List.all_cons,
        Bool.and_eq_true] at hs
      intro r' hr'
      rw [joined_cons] at hr'
      rcases List.mem_cons.1 hr' with rfl | hr'
      · obtain ⟨a, b, rfl⟩ := row_two (hn r (List.mem_cons_self ..))
        exact isNaN_of_eq hs.1
      · exact ih (k := k) (fun r hr => hn r (List.mem_cons_of_mem _ hr)) (by simpa using hl) hs.2
          r' hr'

theorem halves_same {rows : List (List Dbl)} (h : ∀ r ∈ rows, PyFloat.isNaN (rowX r) = false) :
    SameAbscissae (leftHalf rows) (rightHalf rows) := by
  unfold leftHalf rightHalf
  induction rows with
  | nil => rfl
  | cons r rows ih =>
    have h0 := h r (List.mem_cons_self ..)
    have := ih (fun r hr => h r (List.mem_cons_of_mem _ hr))
    rw [pairsOf_cons, pairsOf_cons, rowsOf_cons, rowsOf_cons, SameAbscissae, List.map_cons,
      List.map_cons, List.zip_cons_cons, List.all_cons, Bool.and_eq_true]
    refine ⟨?_, this⟩
    show PyFloat.eq (rowX r) (rowX r) = true
    rw [LawfulCmp.eq_iff, LawfulCmp.le_eq_not_lt _ _ h0 h0, LawfulCmp.lt_irrefl]; rfl

/-- The three columns of a text file. -/
def fileTable3 (n k : List (List Dbl)) : List (List Dbl) := fileTable (joined (printed n) (printed k))

/-- A table with three columns and eight decimals that was written with all its columns: writing it
once more changes nothing, and the abscissae are printed alike again. -/
theorem Settled.file3_twice [SciPy Dbl] [YamlIO Dbl] {rows : List (List Dbl)} (h : Settled rows)
    (hw : ∀ r ∈ rows, r.length = 3)
    (hs : SameAbscissae (printed (leftHalf rows)) (printed (rightHalf rows))) :
    printed (leftHalf (fileTable3 (leftHalf rows) (rightHalf rows))) =
        leftHalf (fileTable3 (leftHalf rows) (rightHalf rows)) ∧
      printed (rightHalf (fileTable3 (leftHalf rows) (rightHalf rows))) =
        rightHalf (fileTable3 (leftHalf rows) (rightHalf rows)) ∧
      fileTable (fileTable3 (leftHalf rows) (rightHalf rows)) =
        fileTable3 (leftHalf rows) (rightHalf rows) ∧
      SameAbscissae (leftHalf (fileTable3 (leftHalf rows) (rightHalf rows)))
        (rightHalf (fileTable3 (leftHalf rows) (rightHalf rows))) := by
  obtain ⟨s1, s2⟩ := halves_settled hw h
  have w1 : ∀ r ∈ leftHalf rows, r.length = 2 := rowsOf_length
  have w2 : ∀ r ∈ rightHalf rows, r.length = 2 := rowsOf_length
  have p1 := printed_width w1
  have p2 := printed_width w2
  have hl : (printed (leftHalf rows)).length = (printed (rightHalf rows)).length := by
    simp [printed, leftHalf, rightHalf, rowsOf, pairsOf]
  obtain ⟨t1, -⟩ := Settled.printed_cases s1
  obtain ⟨t2, -⟩ := Settled.printed_cases s2
  have hj : Settled (joined (printed (leftHalf rows)) (printed (rightHalf rows))) :=
    joined_all t1 t2 p2
  have j3 := joined_three (k := printed (rightHalf rows)) p1
  refine ⟨?_, ?_, ?_, ?_⟩
  all_goals unfold fileTable3
  · rw [hj.file]
    rcases hj.printed_cases.2 with e | e
    · rw [e, joined_left p1 hl, Settled.printed_twice s1]
    · obtain ⟨a, -⟩ := halves_settled (printed_width j3) hj.printed_cases.1
      obtain ⟨b, -⟩ := halves_settled (printed_width j3) e
      exact Settled.printed_self a b
  · rw [hj.file]
    rcases hj.printed_cases.2 with e | e
    · rw [e, joined_right p1 p2 hl hs, Settled.printed_twice s2]
    · obtain ⟨-, a⟩ := halves_settled (printed_width j3) hj.printed_cases.1
      obtain ⟨-, b⟩ := halves_settled (printed_width j3) e
      exact Settled.printed_self a b
  · exact hj.file_twice
  · refine halves_same (fun r hr => ?_)
    rw [hj.file, printed_dbl] at hr
    obtain ⟨q, hq, rfl⟩ := List.mem_map.1 hr
    have h3 := j3 q hq
    rw [rowX_map _ h3, shown_isNaN]
    exact joined_noNaN p1 hl hs _ hq

/-! ## Materials -/

section materials
variable {F : Type} [PyFloat F] [SciPy F] [NumText F] [Printing F] [YamlIO F]

/-- A material with the tables of a text file with two columns. -/
structure HasIndex (m : Material F) (rows : List (List F)) (t u : String) : Prop where
  intro ::
  ex : ∃ r, tableData .float (pairsOf rows 1) t u = .ok r ∧ m.name = "nk" ∧ m.real = some r ∧
    m.imag = some (cdata (lit 0)) ∧ m.cplx = Option.none ∧ m.defType = t ∧ m.defUnit = u

/-- A material with the tables of a text file with three columns. -/
structure HasBoth (m : Material F) (rows : List (List F)) (t u : String) : Prop where
  intro ::
  ex : ∃ r i, tableData .float (pairsOf rows 1) t u = .ok r ∧
    tableData .float (pairsOf rows 2) t u = .ok i ∧ m.name = "nk" ∧ m.real = some r ∧
    m.imag = some i ∧ m.cplx = Option.none ∧ m.defType = t ∧ m.defUnit = u

theorem loads_only {p : String} {fd : FileDict F} (hm : HasMeta fd.metaData) {d : Dataset F}
    (hd : fd.datasets = [d]) {m' : Material F}
    (h : Material.new (fun _ => .ok fd) (fileKw F p) = .ok m') :
    ∃ md m1, processDataset (fileBlank F p md) d = .ok m1 ∧ finish m1 = m' := by
  obtain ⟨md, hn⟩ := new_file (F := F) p hm
  have := hn fd.datasets
  obtain ⟨a, b⟩ := fd
  rw [this] at h
  simp only at hd
  rw [hd] at h
  simp only [List.foldlM_cons, List.foldlM_nil] at h
  cases hp : processDataset (fileBlank F p md) d with
  | error e => rw [hp] at h; cases h
  | ok m1 => rw [hp] at h; exact ⟨md, m1, hp, by cases h; rfl⟩

/-- Whatever is loaded from the file has the index of the file. -/
theorem loaded_index {m m' : Material F} {rows : List (List F)} {o' : ℕ} {ps : List (F × F)}
    {s : Spectrum F} {t u cl : String} (hr : m.real = some (.interp o' ps s t u))
    (hw : WritesTable m "tabulated n" rows 2) (hl : ∀ r ∈ rows, r.length = 2)
    (hnm : (lower t, lower u, cl) ∈ names) {o : KeyOrder} (ho : o.Valid) {ext : String}
    (he : IsText ext) {ic rii : Bool} (h : SavedAndLoaded o ext ic rii m m') :
    HasIndex m' rows t u := by
  obtain ⟨w, w', text, fd, d, r', g1, g2, g3, g4, g5, g6, g7⟩ := hw ext he ic rii o ho
  obtain ⟨g8, g9⟩ := g7 _ hr
  replace g8 : dictGet d "SpectrumType" = .ok (.str t) := g8
  replace g9 : dictGet d "Unit" = .ok (.str u) := g9
  obtain ⟨v, v', text', fd', r2, k1, k2, k3, k4⟩ := h
  rw [g1] at k1
  cases k1
  rw [g2] at k2
  cases k2
  rw [g3] at k3
  cases k3
  obtain ⟨n1, n2⟩ := nonEmpty_of_name hnm
  obtain ⟨delim, rsep, hes⟩ := ext_sep he
  obtain ⟨md, m1, q1, rfl⟩ := loads_only (text_hasMeta ho hes.format g3) g4 k4
  rw [load_n _ g5 g6 (validate_ok (by norm_num) hl) hl g8 g9 n1 n2] at q1
  cases ht : tableData .float (pairsOf rows 1) t u with
  | error e => rw [ht] at q1; cases q1
  | ok r =>
    rw [ht] at q1
    cases q1
    exact ⟨r, ht, rfl, rfl, rfl, rfl, rfl, rfl⟩

/-- Whatever is loaded from the file has both tables of the file. -/
theorem loaded_both {m m' : Material F} {rows : List (List F)} {o' : ℕ} {ps : List (F × F)}
    {s : Spectrum F} {t u cl : String} (hr : m.real = some (.interp o' ps s t u))
    (hw : WritesTable m "tabulated nk" rows 3) (hl : ∀ r ∈ rows, r.length = 3)
    (hnm : (lower t, lower u, cl) ∈ names) {o : KeyOrder} (ho : o.Valid) {ext : String}
    (he : IsText ext) {ic rii : Bool} (h : SavedAndLoaded o ext ic rii m m') :
    HasBoth m' rows t u := by
  obtain ⟨w, w', text, fd, d, r', g1, g2, g3, g4, g5, g6, g7⟩ := hw ext he ic rii o ho
  obtain ⟨g8, g9⟩ := g7 _ hr
  replace g8 : dictGet d "SpectrumType" = .ok (.str t) := g8
  replace g9 : dictGet d "Unit" = .ok (.str u) := g9
  obtain ⟨v, v', text', fd', r2, k1, k2, k3, k4⟩ := h
  rw [g1] at k1
  cases k1
  rw [g2] at k2
  cases k2
  rw [g3] at k3
  cases k3
  obtain ⟨n1, n2⟩ := nonEmpty_of_name hnm
  obtain ⟨delim, rsep, hes⟩ := ext_sep he
  obtain ⟨md, m1, q1, rfl⟩ := loads_only (text_hasMeta ho hes.format g3) g4 k4
  obtain ⟨r, i, e1, e2⟩ : ∃ r i, tableData .float (pairsOf rows 1) t u = .ok r ∧
      tableData .float (pairsOf rows 2) t u = .ok i := by
    unfold processDataset at q1
    simp only [Dataset.getStr, g5, bind, Except.bind,
      show splitTwo "tabulated nk" = .ok ("tabulated", "nk") from by decide +kernel, if_true, g6,
      show DVal.asTable (.arr (.d2 3 .float rows)) = TableArg.array (.d2 3 .float rows) from rfl,
      validate_ok (show 0 < 3 by norm_num) hl] at q1
    unfold processTable at q1
    simp only [get_str g8 n1, get_str g9 n2, specData_eq hl (show 1 < 3 by omega),
      specData_eq hl (show 2 < 3 by omega), if_true, bind, Except.bind] at q1
    cases h1 : tableData .float (pairsOf rows 1) t u with
    | error e => rw [h1] at q1; cases q1
    | ok r =>
      cases h2 : tableData .float (pairsOf rows 2) t u with
      | error e => rw [h1, h2] at q1; cases q1
      | ok i => exact ⟨r, i, rfl, rfl⟩
  rw [load_nk _ g5 g6 (validate_ok (by norm_num) hl) hl g8 g9 n1 n2 e1 e2] at q1
  cases q1
  exact ⟨r, i, e1, e2, rfl, rfl, rfl, rfl, rfl, rfl⟩

end materials

/-! ## C117 -/

/-- A material was saved to text files and loaded again, a number of times, with any formats and
settings. -/
inductive Spec.Rewritten {F : Type} [PyFloat F] [SciPy F] [NumText F] [Printing F] [YamlIO F]
    (o : KeyOrder) : ℕ → Material F → Material F → Prop
  | none (m : Material F) : Spec.Rewritten o 0 m m
  | once {k : ℕ} {m m' m'' : Material F} {ext : String} {ic rii : Bool} (he : IsText ext)
      (h : Spec.Rewritten o k m m') (h' : SavedAndLoaded o ext ic rii m' m'') :
      Spec.Rewritten o (k + 1) m m''

/-- A material with a table of the refractive index that a text file can hold; its extinction
coefficient is not a table, or a table of the same length. -/
structure Spec.Tabulated {F : Type} [PyFloat F] [SciPy F] (m : Material F) : Prop where
  texts : CleanTexts m
  noPermittivity : m.cplx = Option.none
  isIndex : m.name = "nk"
  tables : ∃ o ps s t u c i, m.real = some (.interp o ps s t u) ∧ m.imag = some i ∧
    Disp.Storable (.interp o ps s t u) ∧ Disp.Storable i ∧ (lower t, lower u, c) ∈ names ∧
    2 ≤ ps.length ∧
    ((¬ IsTable i ∧ ps.length ≤ 500) ∨
      ∃ o' qs s' t' u', i = .interp o' qs s' t' u' ∧ ps.length = qs.length ∧ ps.length ≤ 333)

/-- The data of two materials. -/
structure Spec.SameTables {F : Type} [PyFloat F] [SciPy F] (m m' : Material F) : Prop where
  name : m'.name = m.name
  real : m'.real = m.real
  imag : m'.imag = m.imag
  cplx : m'.cplx = m.cplx
  stype : m'.defType = m.defType
  unit : m'.defUnit = m.defUnit

section doubles
variable [SciPy Dbl] [YamlIO Dbl]

/-- A material with the tables of a text file. -/
inductive Tables (m : Material Dbl) (rows : List (List Dbl)) (t u : String) : Prop
  | two (h : HasIndex m rows t u) (hw : ∀ r ∈ rows, r.length = 2) (h2 : 2 ≤ rows.length)
      (h500 : rows.length ≤ 500)
  | three (h : HasBoth m rows t u) (hw : ∀ r ∈ rows, r.length = 3) (h2 : 2 ≤ rows.length)
      (h333 : rows.length ≤ 333)

/-- Nothing will change any more. -/
inductive Final (m : Material Dbl) (rows : List (List Dbl)) (t u : String) : Prop
  | two (h : HasIndex m rows t u) (hw : ∀ r ∈ rows, r.length = 2) (h2 : 2 ≤ rows.length)
      (h500 : rows.length ≤ 500) (hf : fileTable rows = rows)
  | three (h : HasBoth m rows t u) (hw : ∀ r ∈ rows, r.length = 3) (h2 : 2 ≤ rows.length)
      (h333 : rows.length ≤ 333) (hl : printed (leftHalf rows) = leftHalf rows)
      (hr : printed (rightHalf rows) = rightHalf rows) (hf : fileTable rows = rows)
      (hs : SameAbscissae (leftHalf rows) (rightHalf rows))

theorem save_index {m m' : Material Dbl} (hx : CleanTexts m) (hc : m.cplx = Option.none)
    (hn : m.name = "nk") {o' : ℕ} {ps : List (Dbl × Dbl)} {s : Spectrum Dbl} {t u cl : String}
    {i : RealData Dbl} (hr : m.real = some (.interp o' ps s t u)) (hi : m.imag = some i)
    (sr : Disp.Storable (.interp o' ps s t u)) (si : Disp.Storable i) (hni : ¬ IsTable i)
    (hnm : (lower t, lower u, cl) ∈ names) (h2 : 2 ≤ ps.length) (h500 : ps.length ≤ 500)
    {o : KeyOrder} (ho : o.Valid) {ext : String} (he : IsText ext) {ic rii : Bool}
    (h : SavedAndLoaded o ext ic rii m m') : HasIndex m' (fileTable (rowsOf ps)) t u :=
  loaded_index hr (C46_index_partial hx hc hn hr hi sr si hni h2 h500)
    (fileTable_width rowsOf_length) hnm ho he h

theorem save_both {m m' : Material Dbl} (hx : CleanTexts m) (hc : m.cplx = Option.none)
    (hn : m.name = "nk") {o1 o2 : ℕ} {ps qs : List (Dbl × Dbl)} {s s' : Spectrum Dbl}
    {t u t' u' cl : String} (hr : m.real = some (.interp o1 ps s t u))
    (hi : m.imag = some (.interp o2 qs s' t' u')) (sr : Disp.Storable (.interp o1 ps s t u))
    (si : Disp.Storable (.interp o2 qs s' t' u')) (hnm : (lower t, lower u, cl) ∈ names)
    (hlen : ps.length = qs.length) (h2 : 2 ≤ ps.length) (h333 : ps.length ≤ 333)
    {o : KeyOrder} (ho : o.Valid) {ext : String} (he : IsText ext) {ic rii : Bool}
    (h : SavedAndLoaded o ext ic rii m m') :
    (SameAbscissae (printed (rowsOf ps)) (printed (rowsOf qs)) ∧ t = t' ∧ u = u' ∧
      HasBoth m' (fileTable3 (rowsOf ps) (rowsOf qs)) t u) ∨
    (¬ (SameAbscissae (printed (rowsOf ps)) (printed (rowsOf qs)) ∧ t = t' ∧ u = u') ∧
      HasIndex m' (fileTable (rowsOf ps)) t u) := by
  by_cases hs : SameAbscissae (printed (rowsOf ps)) (printed (rowsOf qs)) ∧ t = t' ∧ u = u'
  · obtain ⟨hs, rfl, rfl⟩ := hs
    refine .inl ⟨hs, rfl, rfl, ?_⟩
    exact loaded_both hr (C46_index_extinction_partial hx hc hn hr hi sr si hs hlen h2 h333)
      (fileTable_width (joined_three (printed_width rowsOf_length))) hnm ho he h
  · refine .inr ⟨hs, ?_⟩
    exact loaded_index hr (C46_extinction_dropped hx hc hn hr hi sr si hs hlen h2 (by omega))
      (fileTable_width rowsOf_length) hnm ho he h

theorem fileTable3_length {n k : List (List Dbl)} (h : n.length = k.length) :
    (fileTable3 n k).length = n.length := by
  rw [fileTable3, fileTable_length]
  simp [joined, printed, h]

/-- The first file. -/
theorem first_save {m m' : Material Dbl} (hm : Tabulated m) {o : KeyOrder} (ho : o.Valid)
    {ext : String} (he : IsText ext) {ic rii : Bool} (h : SavedAndLoaded o ext ic rii m m') :
    CleanTexts m' ∧ ∃ rows t u c, (lower t, lower u, c) ∈ names ∧ Settled rows ∧
      Tables m' rows t u := by
  obtain ⟨hx, hc, hn, o1, ps, s, t, u, c, i, hr, hi, sr, si, hnm, h2, hcase⟩ := hm
  have hcl : CleanTexts m' := by
    obtain ⟨md, rd, hmd, hrd, gm, cm, pc, c1, c2⟩ := hx.ex
    obtain ⟨cc, hcc⟩ := gm.comment
    exact (text_step ho he hx (c := cc.toList)
      ⟨md, hmd, by rw [String.ofList_toList]; exact hcc⟩ h.cycle).1
  refine ⟨hcl, ?_⟩
  have hl : (rowsOf ps).length = ps.length := by simp [rowsOf]
  rcases hcase with ⟨hni, h500⟩ | ⟨o2, qs, s', t', u', rfl, hlen, h333⟩
  · exact ⟨_, t, u, c, hnm, fileTable_settled _,
      .two (save_index hx hc hn hr hi sr si hni hnm h2 h500 ho he h) (fileTable_width rowsOf_length)
        (by rw [fileTable_length, hl]; exact h2) (by rw [fileTable_length, hl]; exact h500)⟩
  · have hl' : (rowsOf ps).length = (rowsOf qs).length := by simp [rowsOf, hlen]
    rcases save_both hx hc hn hr hi sr si hnm hlen h2 h333 ho he h with ⟨_, _, _, hb⟩ | ⟨_, hb⟩
    · exact ⟨fileTable3 (rowsOf ps) (rowsOf qs), t, u, c, hnm, fileTable_settled _,
        .three hb (fileTable_width (joined_three (printed_width rowsOf_length)))
          (by rw [fileTable3_length hl', hl]; exact h2)
          (by rw [fileTable3_length hl', hl]; exact h333)⟩
    · exact ⟨_, t, u, c, hnm, fileTable_settled _, .two hb (fileTable_width rowsOf_length)
        (by rw [fileTable_length, hl]; exact h2) (by rw [fileTable_length, hl]; omega)⟩

/-- One more file: the material has the tables of the text file again. -/
theorem next_save {m m' : Material Dbl} (hx : CleanTexts m) {rows : List (List Dbl)}
    {t u c : String} (hnm : (lower t, lower u, c) ∈ names) (hm : Tables m rows t u)
    {o : KeyOrder} (ho : o.Valid) {ext : String} (he : IsText ext) {ic rii : Bool}
    (h : SavedAndLoaded o ext ic rii m m') :
    CleanTexts m' ∧ ((HasIndex m rows t u ∧ HasIndex m' (fileTable rows) t u ∧
        (∀ r ∈ rows, r.length = 2) ∧ 2 ≤ rows.length ∧ rows.length ≤ 500) ∨
      (HasBoth m rows t u ∧ (∀ r ∈ rows, r.length = 3) ∧ 2 ≤ rows.length ∧ rows.length ≤ 333 ∧
        ((SameAbscissae (printed (leftHalf rows)) (printed (rightHalf rows)) ∧
          HasBoth m' (fileTable3 (leftHalf rows) (rightHalf rows)) t u) ∨
        (¬ SameAbscissae (printed (leftHalf rows)) (printed (rightHalf rows)) ∧
          HasIndex m' (fileTable (leftHalf rows)) t u)))) := by
  have hcl : CleanTexts m' := by
    obtain ⟨md, rd, hmd, hrd, gm, cm, pc, c1, c2⟩ := hx.ex
    obtain ⟨cc, hcc⟩ := gm.comment
    exact (text_step ho he hx (c := cc.toList)
      ⟨md, hmd, by rw [String.ofList_toList]; exact hcc⟩ h.cycle).1
  refine ⟨hcl, ?_⟩
  have hl : ∀ j, (pairsOf rows j).length = rows.length := by simp [pairsOf]
  cases hm with
  | two hm hw h2 h500 =>
    obtain ⟨r, q1, q2, q3, q4, q5, q6, q7⟩ := hm.ex
    obtain ⟨s, rfl, st⟩ := tableData_interp (by rw [hl]; exact h2) q1
    have := save_index hx q5 q2 q3 q4 st (cdata_storable _) (cdata_not_table _) hnm
      (by rw [hl]; exact h2) (by rw [hl]; exact h500) ho he h
    rw [rowsOf_pairs_two hw] at this
    exact .inl ⟨hm, this, hw, h2, h500⟩
  | three hm hw h2 h333 =>
    obtain ⟨r, i, q1, q1', q2, q3, q4, q5, q6, q7⟩ := hm.ex
    obtain ⟨s, rfl, st⟩ := tableData_interp (by rw [hl]; exact h2) q1
    obtain ⟨s', rfl, st'⟩ := tableData_interp (by rw [hl]; exact h2) q1'
    refine .inr ⟨hm, hw, h2, h333, ?_⟩
    rcases save_both hx q5 q2 q3 q4 st st' hnm (by rw [hl, hl]) (by rw [hl]; exact h2)
      (by rw [hl]; exact h333) ho he h with ⟨a1, _, _, a2⟩ | ⟨a1, a2⟩
    · exact .inl ⟨a1, a2⟩
    · exact .inr ⟨fun hs => a1 ⟨hs, rfl, rfl⟩, a2⟩

/-- The second file. -/
theorem second_save {m m' : Material Dbl} (hx : CleanTexts m) {rows : List (List Dbl)}
    {t u c : String} (hnm : (lower t, lower u, c) ∈ names) (hs : Settled rows)
    (hm : Tables m rows t u) {o : KeyOrder} (ho : o.Valid) {ext : String} (he : IsText ext)
    {ic rii : Bool} (h : SavedAndLoaded o ext ic rii m m') :
    CleanTexts m' ∧ ∃ rows', Final m' rows' t u := by
  obtain ⟨hcl, hcase⟩ := next_save hx hnm hm ho he h
  refine ⟨hcl, ?_⟩
  rcases hcase with ⟨-, hb, hw, h2, h500⟩ | ⟨-, hw, h2, h333, ⟨hsa, hb⟩ | ⟨-, hb⟩⟩
  · exact ⟨_, .two hb (fileTable_width hw) (by rw [fileTable_length]; exact h2)
      (by rw [fileTable_length]; exact h500) hs.file_twice⟩
  · obtain ⟨e1, e2, e3, e4⟩ := hs.file3_twice hw hsa
    have hl : (leftHalf rows).length = (rightHalf rows).length := by
      simp [leftHalf, rightHalf, rowsOf, pairsOf]
    have hl' : (leftHalf rows).length = rows.length := by simp [leftHalf, rowsOf, pairsOf]
    exact ⟨_, .three hb (fileTable_width (joined_three (printed_width rowsOf_length)))
      (by rw [fileTable3_length hl, hl']; exact h2) (by rw [fileTable3_length hl, hl']; exact h333)
      e1 e2 e3 e4⟩
  · have hl' : (leftHalf rows).length = rows.length := by simp [leftHalf, rowsOf, pairsOf]
    have hset : Settled (leftHalf rows) := (halves_settled hw hs).1
    exact ⟨_, .two hb (fileTable_width rowsOf_length) (by rw [fileTable_length, hl']; exact h2)
      (by rw [fileTable_length, hl']; omega) hset.file_twice⟩

theorem HasIndex.same {m m' : Material Dbl} {rows : List (List Dbl)} {t u : String}
    (h : HasIndex m rows t u) (h' : HasIndex m' rows t u) : SameTables m m' := by
  obtain ⟨r, q1, q2, q3, q4, q5, q6, q7⟩ := h.ex
  obtain ⟨r', p1, p2, p3, p4, p5, p6, p7⟩ := h'.ex
  rw [q1] at p1
  cases p1
  exact ⟨p2.trans q2.symm, p3.trans q3.symm, p4.trans q4.symm, p5.trans q5.symm, p6.trans q6.symm,
    p7.trans q7.symm⟩

theorem HasBoth.same {m m' : Material Dbl} {rows : List (List Dbl)} {t u : String}
    (h : HasBoth m rows t u) (h' : HasBoth m' rows t u) : SameTables m m' := by
  obtain ⟨r, i, q1, q0, q2, q3, q4, q5, q6, q7⟩ := h.ex
  obtain ⟨r', i', p1, p0, p2, p3, p4, p5, p6, p7⟩ := h'.ex
  rw [q1] at p1
  cases p1
  rw [q0] at p0
  cases p0
  exact ⟨p2.trans q2.symm, p3.trans q3.symm, p4.trans q4.symm, p5.trans q5.symm, p6.trans q6.symm,
    p7.trans q7.symm⟩

/-- Every further file. -/
theorem final_save {m m' : Material Dbl} (hx : CleanTexts m) {rows : List (List Dbl)}
    {t u c : String} (hnm : (lower t, lower u, c) ∈ names) (hm : Final m rows t u)
    {o : KeyOrder} (ho : o.Valid) {ext : String} (he : IsText ext)
    {ic rii : Bool} (h : SavedAndLoaded o ext ic rii m m') :
    CleanTexts m' ∧ Final m' rows t u ∧ SameTables m m' := by
  cases hm with
  | two hm hw h2 h500 hf =>
    obtain ⟨hcl, hcase⟩ := next_save hx hnm (.two hm hw h2 h500) ho he h
    refine ⟨hcl, ?_⟩
    rcases hcase with ⟨-, hb, -⟩ | ⟨-, hw', -⟩
    · rw [hf] at hb
      exact ⟨.two hb hw h2 h500 hf, hm.same hb⟩
    · exfalso
      match rows, h2 with
      | r :: _, _ =>
        have a := hw r (List.mem_cons_self ..)
        have b := hw' r (List.mem_cons_self ..)
        omega
  | three hm hw h2 h333 hl hr hf hs =>
    obtain ⟨hcl, hcase⟩ := next_save hx hnm (.three hm hw h2 h333) ho he h
    refine ⟨hcl, ?_⟩
    rcases hcase with ⟨-, -, hw', -⟩ | ⟨-, -, -, -, ⟨-, hb⟩ | ⟨hno, -⟩⟩
    · exfalso
      match rows, h2 with
      | r :: _, _ =>
        have a := hw r (List.mem_cons_self ..)
        have b := hw' r (List.mem_cons_self ..)
        omega
    · have e : fileTable3 (leftHalf rows) (rightHalf rows) = rows := by
        rw [fileTable3, hl, hr]
        unfold leftHalf rightHalf
        rw [joined_pairs hw, hf]
      rw [e] at hb
      exact ⟨.three hb hw h2 h333 hl hr hf hs, hm.same hb⟩
    · rw [hl, hr] at hno
      exact absurd hs hno

/-- C117, what holds: from the second text file on, however often and in whichever text formats a
material is saved and loaded, its tables stay the same. Missing: the second file may hold other
numbers than the first, see `C117_refuted`. -/
theorem C117_settles_partial {o : KeyOrder} (ho : o.Valid) {m m' m'' : Material Dbl}
    (hm : Tabulated m) {k j : ℕ} (hk : 2 ≤ k) (h : Rewritten o k m m') (h' : Rewritten o j m' m'') :
    SameTables m' m'' := by
  have key : ∀ k m', Rewritten o k m m' → 1 ≤ k → CleanTexts m' ∧ ∃ rows t u c,
      (lower t, lower u, c) ∈ names ∧ (k = 1 → Settled rows ∧ Tables m' rows t u) ∧
      (2 ≤ k → Final m' rows t u) := by
    intro k m' hR
    clear h h' hk
    induction hR with
    | none => intro h; omega
    | @once k m1 m2 m3 ext ic rii he h1 h2 ih =>
      intro _
      by_cases h0 : k = 0
      · subst h0
        cases h1
        obtain ⟨a, rows, t, u, c, b1, b2, b3⟩ := first_save hm ho he h2
        exact ⟨a, rows, t, u, c, b1, fun _ => ⟨b2, b3⟩, fun h => by omega⟩
      · obtain ⟨a, rows, t, u, c, b1, b2, b3⟩ := ih hm (by omega)
        by_cases h1' : k = 1
        · obtain ⟨s1, s2⟩ := b2 h1'
          obtain ⟨a', rows', f⟩ := second_save a b1 s1 s2 ho he h2
          exact ⟨a', rows', t, u, c, b1, fun h => by omega, fun _ => f⟩
        · obtain ⟨a', f, _⟩ := final_save a b1 (b3 (by omega)) ho he h2
          exact ⟨a', rows, t, u, c, b1, fun h => by omega, fun _ => f⟩
  obtain ⟨hx, rows, t, u, c, hnm, -, hf⟩ := key k m' h (by omega)
  have hfin := hf hk
  clear key hf h
  have : CleanTexts m'' ∧ Final m'' rows t u ∧ SameTables m' m'' := by
    induction h' with
    | none => exact ⟨hx, hfin, ⟨rfl, rfl, rfl, rfl, rfl, rfl⟩⟩
    | once he h1 h2 ih =>
      obtain ⟨i1, i2, i3⟩ := ih hx hfin
      obtain ⟨j1, j2, j3⟩ := final_save i1 hnm i2 ho he h2
      exact ⟨j1, j2, ⟨j3.name.trans i3.name, j3.real.trans i3.real, j3.imag.trans i3.imag,
        j3.cplx.trans i3.cplx, j3.stype.trans i3.stype, j3.unit.trans i3.unit⟩⟩
  exact this.2.2

end doubles

end

end Disp

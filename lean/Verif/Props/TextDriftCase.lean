import Mathlib.Tactic.Linarith
import Mathlib.Tactic.Positivity
import Mathlib.Tactic.FieldSimp
import Verif.Props.TextDrift
import Verif.Props.ExampleFiles
/-!
# C117: a table that changes with the second text file
-/

namespace Disp

open Spec

noncomputable section

/-- Nine digits of a number from 1 to `10^9`. -/
theorem nineDigits_of {x : ℝ} {L : ℕ} {j : ℤ} (hL : L ≤ 8) (h1 : (10 : ℝ) ^ L ≤ x)
    (h2 : x < 10 ^ (L + 1)) (h : |x * 10 ^ (8 - L) - j| < 1 / 2) :
    nineDigits x = j / 10 ^ (8 - L) := by
  have hx : 0 < x := lt_of_lt_of_le (by positivity) h1
  have e : Int.log 10 |x| = L := by
    rw [abs_of_pos hx]
    have a1 := (Int.zpow_le_iff_le_log (b := 10) (x := L) (R := ℝ) (by norm_num) hx).1
      (by exact_mod_cast h1)
    have a2 := (Int.lt_zpow_iff_log_lt (b := 10) (x := L + 1) (R := ℝ) (by norm_num) hx).1
      (by exact_mod_cast h2)
    omega
  have e8 : (10 : ℝ) ^ ((L : ℤ) - 8) = 1 / 10 ^ (8 - L) := by
    rw [show (L : ℤ) - 8 = -((8 - L : ℕ) : ℤ) by omega, zpow_neg, zpow_natCast, one_div]
  rw [nineDigits_eq, e, e8, div_div_eq_mul_div, div_one, rint_eq_of_near j h]
  ring

theorem thousand_lt : (1000 : ℝ) < 2 ^ 1024 :=
  lt_of_lt_of_le (by norm_num : (1000 : ℝ) < 2 ^ 10) (pow_le_pow_right₀ (by norm_num) (by norm_num))

theorem finite_of {xs : List Dbl} {a : Dbl} (h : a ∈ sizes xs) :
    ∃ r ∈ finites xs, a.val = .fin |r| := by
  rw [sizes, List.mem_map] at h
  obtain ⟨r, hr, rfl⟩ := h
  rw [List.mem_filter] at hr
  obtain ⟨x, -, hx⟩ := of_mem_finites hr.1
  exact ⟨r, hr.1, Dbl.rnd_double (double_abs (Dbl.isDouble_val hx))⟩

/-- Positional notation. -/
theorem positional_of {xs : List Dbl} {lo hi : ℝ} (h1 : 1 ≤ lo) (h2 : hi ≤ 2000)
    (hq : hi ≤ (1000 - 1 / 10 ^ 6) * lo) (h : ∀ r ∈ finites xs, lo ≤ |r| ∧ |r| ≤ hi) :
    useSci xs = false := by
  simp only [useSci, Bool.or_eq_false_iff, List.any_eq_false]
  refine ⟨⟨?_, ?_⟩, ?_⟩
  · intro a ha
    obtain ⟨r, hr, e⟩ := finite_of ha
    show ¬ (Dbl.le (Dbl.ofRat (10 ^ 8)) a = true)
    rw [Dbl.le, e, ten_val (by norm_num), XR.le_fin]
    have := (h r hr).2
    simp only [decide_eq_true_eq, not_le]
    norm_num
    linarith
  · intro a ha
    obtain ⟨r, hr, e⟩ := finite_of ha
    show ¬ (Dbl.lt a (Dbl.ofRat (1 / 10 ^ 4)) = true)
    have ht : (Dbl.ofRat (1 / 10 ^ 4)).val = .fin (nearest (1 / 10 ^ 4)) ∧
        nearest (1 / 10 ^ 4) ≤ 1 := by
      have hn : |nearest ((1 : ℝ) / 10 ^ 4) - 1 / 10 ^ 4| ≤ |(1 : ℝ) / 10 ^ 4| / 2 ^ 53 :=
        nearest_rel (by
          rw [abs_of_pos (by positivity)]
          have : (2 : ℝ) ^ (-1022 : ℤ) ≤ 2 ^ (-14 : ℤ) := zpow_le_zpow_right₀ (by norm_num) (by norm_num)
          refine this.trans ?_
          rw [zpow_neg]; norm_num)
      rw [abs_of_pos (show (0 : ℝ) < 1 / 10 ^ 4 by positivity), abs_le] at hn
      have hn2 : nearest ((1 : ℝ) / 10 ^ 4) ≤ 1 := by
        have := hn.2
        norm_num at this ⊢
        linarith
      have hn0 : 0 ≤ nearest ((1 : ℝ) / 10 ^ 4) := by
        have := hn.1
        norm_num at this ⊢
        linarith
      refine ⟨?_, hn2⟩
      have : ((1 / 10 ^ 4 : ℚ) : ℝ) = 1 / 10 ^ 4 := by norm_num
      rw [Dbl.ofRat, this, Dbl.rnd_fin (by
        rw [abs_of_nonneg hn0]
        exact (hn2.trans (by norm_num)).trans_lt thousand_lt)]
    rw [Dbl.lt, e, ht.1]
    have := (h r hr).1
    show ¬ (decide (|r| < nearest (1 / 10 ^ 4)) = true)
    simp only [decide_eq_true_eq, not_lt]
    linarith [ht.2]
  · intro a ha
    simp only [Bool.not_eq_true, List.any_eq_false]
    intro b hb
    obtain ⟨r, hr, e⟩ := finite_of ha
    obtain ⟨q, hq', e'⟩ := finite_of hb
    obtain ⟨r1, r2⟩ := h r hr
    obtain ⟨q1, q2⟩ := h q hq'
    show Dbl.lt (Dbl.ofRat 1000) (a / b) = false
    have hb0 : 0 < |q| := by linarith
    have hd : a.val / b.val = .fin (|r| / |q|) := by
      rw [e, e']
      exact if_neg hb0.ne'
    have hx1 : |r| / |q| ≤ 1000 - 1 / 10 ^ 6 := by
      rw [div_le_iff₀ hb0]
      have : (1000 - 1 / 10 ^ 6 : ℝ) * lo ≤ (1000 - 1 / 10 ^ 6) * |q| :=
        mul_le_mul_of_nonneg_left q1 (by norm_num)
      linarith
    have hx2 : 1 / 2000 ≤ |r| / |q| := by
      rw [le_div_iff₀ hb0]
      linarith
    have hn := nearest_rel (x := |r| / |q|) (by
      rw [abs_of_pos (by linarith)]
      have : (2 : ℝ) ^ (-1022 : ℤ) ≤ 2 ^ (-14 : ℤ) := zpow_le_zpow_right₀ (by norm_num) (by norm_num)
      refine (this.trans ?_).trans hx2
      rw [zpow_neg]; norm_num)
    generalize |r| / |q| = y at *
    have hy0 : 0 < y := by linarith
    rw [abs_of_pos hy0, abs_le] at hn
    have hn2 : nearest y ≤ 1000 := by
      have := hn.2
      norm_num at this hx1 ⊢
      linarith
    have hn0 : 0 ≤ nearest y := by
      have := hn.1
      norm_num at this hx2 ⊢
      linarith
    have hv : (a / b).val = .fin (nearest y) := by
      show (Dbl.rnd (a.val / b.val)).val = _
      rw [hd, Dbl.rnd_fin (by
        rw [abs_of_nonneg hn0]
        exact (hn2.trans (by norm_num)).trans_lt thousand_lt)]
    have h1000 : (Dbl.ofRat 1000).val = .fin 1000 := by
      have := Dbl.lit_int (n := 1000) (by norm_num)
      push_cast at this
      exact this
    rw [Dbl.lt, hv, h1000]
    show decide (1000 < nearest y) = false
    simp only [decide_eq_false_iff_not, not_lt]
    exact hn2

/-- Scientific notation because of a quotient. -/
theorem scientific_of {xs : List Dbl} {v : ℝ} (hv : 1000 < v) (h1 : v ∈ finites xs)
    (h2 : (1 : ℝ) ∈ finites xs) : useSci xs = true := by
  have mem : ∀ r ∈ finites xs, r ≠ 0 → Dbl.rnd (.fin |r|) ∈ sizes xs := by
    intro r hr h0
    rw [sizes, List.mem_map]
    exact ⟨r, by simp [hr, h0], rfl⟩
  obtain ⟨x, -, hx⟩ := of_mem_finites h1
  have hd := Dbl.isDouble_val hx
  have h1000 : (Dbl.ofRat 1000).val = .fin 1000 := by
    have := Dbl.lit_int (n := 1000) (by norm_num)
    push_cast at this
    exact this
  have d1 : IsDouble 1 := by exact_mod_cast Dbl.double_int (n := 1) (by norm_num)
  simp only [useSci, Bool.or_eq_true, List.any_eq_true]
  refine .inr ⟨_, mem v h1 (by linarith), _, mem 1 h2 one_ne_zero, ?_⟩
  show Dbl.lt (Dbl.ofRat 1000) (Dbl.rnd (.fin |v|) / Dbl.rnd (.fin |1|)) = true
  have e : (Dbl.rnd (.fin |v|) / Dbl.rnd (.fin |1|) : Dbl).val = .fin v := by
    show (Dbl.rnd ((Dbl.rnd (.fin |v|)).val / (Dbl.rnd (.fin |1|)).val)).val = _
    rw [abs_one, abs_of_pos (by linarith), Dbl.rnd_double hd, Dbl.rnd_double d1]
    have : (XR.fin v / XR.fin 1) = .fin v := by
      show (if (1 : ℝ) = 0 then _ else XR.fin (v / 1)) = _
      rw [if_neg one_ne_zero, div_one]
    rw [this, Dbl.rnd_double hd]
  rw [Dbl.lt, h1000, e]
  exact decide_eq_true hv

/-! ## The table -/

/-- The double `1000 + 2^(-19)`. -/
def driftHigh : Dbl := Dbl.rnd (.fin (1000 + 1 / 2 ^ 19))

/-- The double `1 + 2^(-28)`. -/
def driftLow : Dbl := Dbl.rnd (.fin (1 + 1 / 2 ^ 28))

/-- The double nearest to 1000.00000191. -/
def driftNext : Dbl := Dbl.rnd (.fin (100000000191 / 10 ^ 8))

/-- An integer as a double. -/
def intDbl (n : ℤ) : Dbl := Dbl.rnd (.fin n)

theorem intDbl_val {n : ℤ} (h : |n| ≤ 2 ^ 53) : (intDbl n).val = .fin n :=
  Dbl.rnd_double (Dbl.double_int h)

theorem driftHigh_val : driftHigh.val = .fin (1000 + 1 / 2 ^ 19) := by
  refine Dbl.rnd_double ⟨1000 * 2 ^ 19 + 1, -19, by norm_num, by norm_num, by norm_num, ?_⟩
  rw [zpow_neg]; norm_num

theorem driftLow_val : driftLow.val = .fin (1 + 1 / 2 ^ 28) := by
  refine Dbl.rnd_double ⟨2 ^ 28 + 1, -28, by norm_num, by norm_num, by norm_num, ?_⟩
  rw [zpow_neg]; norm_num

theorem driftNext_near : |nearest (100000000191 / 10 ^ 8) - 100000000191 / 10 ^ 8| ≤
    (100000000191 / 10 ^ 8 : ℝ) / 2 ^ 53 := by
  have := nearest_rel (x := (100000000191 / 10 ^ 8 : ℝ)) (by
    have : (2 : ℝ) ^ (-1022 : ℤ) ≤ 2 ^ (0 : ℤ) := zpow_le_zpow_right₀ (by norm_num) (by norm_num)
    refine this.trans ?_
    rw [abs_of_pos (by positivity)]
    norm_num)
  rwa [abs_of_pos (show (0 : ℝ) < 100000000191 / 10 ^ 8 by positivity)] at this

theorem driftNext_bounds : 1000 + 1 / 10 ^ 6 < nearest (100000000191 / 10 ^ 8) ∧
    nearest (100000000191 / 10 ^ 8) < 1000 + 2 / 10 ^ 6 := by
  have := abs_le.1 driftNext_near
  norm_num at this ⊢
  constructor <;> linarith

theorem driftNext_val : driftNext.val = .fin (nearest (100000000191 / 10 ^ 8)) := by
  refine Dbl.rnd_fin ?_
  obtain ⟨h1, h2⟩ := driftNext_bounds
  rw [abs_of_pos (by linarith)]
  refine lt_of_lt_of_le (b := 2 ^ 11) ?_ (pow_le_pow_right₀ (by norm_num) (by norm_num))
  norm_num at h2 ⊢
  linarith

theorem shown_int {n : ℤ} (h : |n| ≤ 2 ^ 53) : cellShown false (intDbl n) = intDbl n := by
  simp only [cellShown, intDbl_val h, Bool.false_eq_true, if_false]
  have : XR.roundDec 8 (n : ℝ) = n := by
    have := XR.roundDec_eq_of_near (x := (n : ℝ)) 8 (n * 10 ^ 8) (by norm_num)
    rw [this]; norm_num
  rw [this]
  rfl

theorem shown_high : cellShown false driftHigh = driftNext := by
  simp only [cellShown, driftHigh_val, Bool.false_eq_true, if_false]
  rw [XR.roundDec_eq_of_near 8 100000000191 (by rw [abs_lt]; norm_num)]
  rfl

theorem shown_low : cellShown false driftLow = intDbl 1 := by
  simp only [cellShown, driftLow_val, Bool.false_eq_true, if_false]
  rw [XR.roundDec_eq_of_near 8 100000000 (by rw [abs_lt]; norm_num)]
  unfold intDbl
  congr 2
  norm_num

theorem digits_int {n : ℤ} {L : ℕ} (hL : L ≤ 8) (h1 : 10 ^ L ≤ n) (h2 : n < 10 ^ (L + 1)) :
    cellShown true (intDbl n) = intDbl n := by
  have h3 : n < 10 ^ 9 := h2.trans_le (pow_le_pow_right₀ (by norm_num) (by omega))
  have h0 : 0 < n := lt_of_lt_of_le (by positivity) h1
  have hv := intDbl_val (n := n) (by rw [abs_of_pos h0]; omega)
  simp only [cellShown, hv, if_true]
  rw [nineDigits_of (L := L) (j := n * 10 ^ (8 - L)) hL (by exact_mod_cast h1) (by exact_mod_cast h2)
    (by push_cast; simp)]
  unfold intDbl
  congr 2
  push_cast
  field_simp

theorem digits_next : cellShown true driftNext = intDbl 1000 := by
  obtain ⟨h1, h2⟩ := driftNext_bounds
  simp only [cellShown, driftNext_val, if_true]
  rw [nineDigits_of (L := 3) (j := 100000000) (by norm_num) (by norm_num at h1 ⊢; linarith)
    (by norm_num at h2 ⊢; linarith) (by
      rw [abs_lt]; norm_num at h1 h2 ⊢; constructor <;> linarith)]
  unfold intDbl
  congr 2
  norm_num

/-- The three tables. -/
def driftTable (a b : Dbl) : List (List Dbl) := [[intDbl 500, a], [intDbl 600, b]]

theorem driftTable_map (f : Dbl → Dbl) (a b : Dbl) (h1 : f (intDbl 500) = intDbl 500)
    (h2 : f (intDbl 600) = intDbl 600) :
    (driftTable a b).map (fun r => r.map f) = driftTable (f a) (f b) := by
  simp only [driftTable, List.map_cons, List.map_nil, h1, h2]

theorem mem_driftTable {a b : Dbl} {x y : ℝ} (ha : a.val = .fin x) (hb : b.val = .fin y) {r : ℝ} :
    r ∈ finites (driftTable a b).flatten ↔ r = 500 ∨ r = x ∨ r = 600 ∨ r = y := by
  have e5 := intDbl_val (n := 500) (by norm_num)
  have e6 := intDbl_val (n := 600) (by norm_num)
  simp only [driftTable, finites, List.flatten_cons, List.flatten_nil, List.cons_append,
    List.nil_append, List.filterMap_cons, List.filterMap_nil, ha, hb, e5, e6]
  simp [eq_comm]

theorem driftTable_first : fileTable (driftTable driftHigh driftLow) = driftTable driftNext (intDbl 1) := by
  have hs : useSci (driftTable driftHigh driftLow).flatten = false := by
    refine positional_of (lo := 1 + 1 / 2 ^ 28) (hi := 1000 + 1 / 2 ^ 19) (by norm_num) (by norm_num)
      (by norm_num) ?_
    intro r hr
    rw [mem_driftTable driftHigh_val driftLow_val] at hr
    rcases hr with rfl | rfl | rfl | rfl <;> norm_num [abs_of_pos]
  have h5 := shown_int (n := 500) (by norm_num)
  have h6 := shown_int (n := 600) (by norm_num)
  rw [fileTable, printed_dbl, hs, driftTable_map _ _ _ h5 h6, shown_high, shown_low]
  show (driftTable _ _).map (fun r => r.map (cellShown false)) = _
  rw [driftTable_map _ _ _ h5 h6, shown_int (by norm_num)]
  have : cellShown false driftNext = driftNext := by
    rw [← shown_high]; exact (decimals_grid _).decimals
  rw [this]

theorem driftTable_second : fileTable (driftTable driftNext (intDbl 1)) =
    driftTable (intDbl 1000) (intDbl 1) := by
  have hs : useSci (driftTable driftNext (intDbl 1)).flatten = true := by
    have e1 := intDbl_val (n := 1) (by norm_num)
    push_cast at e1
    obtain ⟨h1, h2⟩ := driftNext_bounds
    refine scientific_of (v := nearest (100000000191 / 10 ^ 8)) (by linarith) ?_ ?_
    · rw [mem_driftTable driftNext_val e1]; exact .inr (.inl rfl)
    · rw [mem_driftTable driftNext_val e1]; exact .inr (.inr (.inr rfl))
  rw [fileTable, printed_dbl, hs,
    driftTable_map _ _ _ (digits_int (L := 2) (by norm_num) (by norm_num) (by norm_num))
      (digits_int (L := 2) (by norm_num) (by norm_num) (by norm_num)),
    digits_next, digits_int (L := 0) (by norm_num) (by norm_num) (by norm_num)]
  show (driftTable _ _).map (fun r => r.map (cellShown false)) = _
  rw [driftTable_map _ _ _ (shown_int (by norm_num)) (shown_int (by norm_num)),
    shown_int (by norm_num), shown_int (by norm_num)]

theorem driftNext_ne : driftNext ≠ intDbl 1000 := by
  intro h
  have h1 := driftNext_val
  rw [h, intDbl_val (by norm_num)] at h1
  have h2 : ((1000 : ℤ) : ℝ) = nearest (100000000191 / 10 ^ 8) := by
    injection h1
  have := driftNext_bounds.1
  push_cast at h2
  linarith

theorem driftTable_good (a b : Dbl) : GoodTable 2 (driftTable a b) := by
  have e5 := intDbl_val (n := 500) (by norm_num)
  have e6 := intDbl_val (n := 600) (by norm_num)
  refine ⟨by simp [driftTable], ?_, ?_, ?_⟩
  · intro r hr
    simp only [driftTable, List.mem_cons, List.not_mem_nil, or_false] at hr
    rcases hr with rfl | rfl <;> rfl
  · intro r hr
    simp only [driftTable, List.mem_cons, List.not_mem_nil, or_false] at hr
    rcases hr with rfl | rfl
    · show XR.isNaN (intDbl 500).val = false
      rw [e5]; rfl
    · show XR.isNaN (intDbl 600).val = false
      rw [e6]; rfl
  · simp only [driftTable, List.pairwise_cons, List.mem_cons, List.not_mem_nil, or_false,
      forall_eq, List.Pairwise.nil, and_true, IsEmpty.forall_iff, implies_true]
    show XR.eq (intDbl 500).val (intDbl 600).val = false
    rw [e5, e6]
    simp only [XR.eq, XR.le, XR.lt, XR.isNaN]
    norm_num

/-! ## The material -/

section doubles
variable [SciPy Dbl] [YamlIO Dbl]

/-- C117 as stated: a material that was loaded from a text file keeps its data when it is saved to a
text file and loaded once more. -/
def C117_statement : Prop := ∀ o : KeyOrder, o.Valid → ∀ m m' m'' : Material Dbl, Tabulated m →
  Rewritten o 1 m m' → Rewritten o 1 m' m'' → SameTables m' m''

/-- The material of a table with two columns. -/
theorem drift_material {t u c : String} (hc : (lower t, lower u, c) ∈ names)
    {rows : List (List Dbl)} (hg : GoodTable 2 rows) (h2 : 2 ≤ rows.length)
    (h500 : rows.length ≤ 500) : ∃ m, Tabulated m ∧ HasIndex m rows t u := by
  obtain ⟨r, hr⟩ := tableData_ok hg 1 hc
  have hl : (pairsOf rows 1).length = rows.length := by simp [pairsOf]
  obtain ⟨s, rfl, st⟩ := tableData_interp (by rw [hl]; exact h2) hr
  refine ⟨{ fileBlank Dbl "" (exampleMeta blankMeta) with
      defType := t, defUnit := u, name := "nk", real := some (.interp 1 (pairsOf rows 1) s t u),
      imag := some (cdata (lit 0)) }, ⟨?_, rfl, rfl, ?_⟩, ⟨_, hr, rfl, rfl, rfl, rfl, rfl, rfl⟩⟩
  · exact cleanTexts_of example_header rfl rfl hc
  · exact ⟨1, _, s, t, u, c, _, rfl, rfl, st, cdata_storable _, hc, by rw [hl]; exact h2,
      .inl ⟨cdata_not_table _, by rw [hl]; exact h500⟩⟩

/-- It can be saved and loaded, if the abscissae stay distinct. -/
theorem table_saved {m : Material Dbl} (hx : CleanTexts m) {rows : List (List Dbl)} {t u c : String}
    (hc : (lower t, lower u, c) ∈ names) (hm : HasIndex m rows t u) (hw : ∀ r ∈ rows, r.length = 2)
    (h2 : 2 ≤ rows.length) (h500 : rows.length ≤ 500) (hg : GoodTable 2 (fileTable rows))
    {o : KeyOrder} (ho : o.Valid) {ext : String} (he : IsText ext) (ic rii : Bool) :
    ∃ m', SavedAndLoaded o ext ic rii m m' ∧ CleanTexts m' ∧ HasIndex m' (fileTable rows) t u := by
  obtain ⟨r, q1, q2, q3, q4, q5, q6, q7⟩ := hm.ex
  have hl : (pairsOf rows 1).length = rows.length := by simp [pairsOf]
  obtain ⟨s, rfl, st⟩ := tableData_interp (by rw [hl]; exact h2) q1
  obtain ⟨m', _, _, _, e, -⟩ := C92_index hx q5 q2 q3 q4 st (cdata_storable _) (cdata_not_table _) hc
    (by rw [hl]; exact h2) (by rw [hl]; exact h500)
    (by rw [rowsOf_pairs_two hw]; exact hg) ho he ic rii
  obtain ⟨hcl, hcase⟩ := next_save hx hc (.two hm hw h2 h500) ho he e
  refine ⟨m', e, hcl, ?_⟩
  rcases hcase with ⟨-, hb, -⟩ | ⟨-, hw', -⟩
  · exact hb
  · exfalso
    match rows, h2 with
    | r :: _, _ =>
      have a := hw r (List.mem_cons_self ..)
      have b := hw' r (List.mem_cons_self ..)
      omega

/-- C117 is false: of the indices `1000 + 2^(-19)` and `1 + 2^(-28)` the first file keeps
1000.00000191 and 1.0, whose quotient is above 1000. NumPy therefore writes the second file with nine
digits, and 1000.0 is left. -/
theorem C117_refuted : ¬ C117_statement := by
  intro h
  have hc : (lower "wavelength", lower "nanometer", "nm") ∈ names := by decide +kernel
  obtain ⟨m, hm, h0⟩ := drift_material hc (driftTable_good driftHigh driftLow) (by simp [driftTable])
    (by simp [driftTable])
  have ho : (⟨fileMetaKeys, datasetMetaKeys⟩ : KeyOrder).Valid := ⟨.refl _, .refl _⟩
  have hw := fun a b => (driftTable_good a b).width
  obtain ⟨m1, s1, x1, t1⟩ := table_saved hm.texts hc h0 (hw _ _) (by simp [driftTable])
    (by simp [driftTable]) (by rw [driftTable_first]; exact driftTable_good _ _) ho (.inl rfl) false false
  rw [driftTable_first] at t1
  obtain ⟨m2, s2, x2, t2⟩ := table_saved x1 hc t1 (hw _ _) (by simp [driftTable])
    (by simp [driftTable]) (by rw [driftTable_second]; exact driftTable_good _ _) ho (.inl rfl) false false
  rw [driftTable_second] at t2
  have key := (h _ ho m m1 m2 hm (.once (.inl rfl) (.none m) s1) (.once (.inl rfl) (.none m1) s2)).real
  obtain ⟨r1, p1, -, p3, -⟩ := t1.ex
  obtain ⟨r2, q1, -, q3, -⟩ := t2.ex
  rw [p3, q3] at key
  have hl : ∀ a b, 2 ≤ (pairsOf (driftTable a b) 1).length := by intros; simp [driftTable, pairsOf]
  obtain ⟨_, rfl, -⟩ := tableData_interp (hl _ _) p1
  obtain ⟨_, rfl, -⟩ := tableData_interp (hl _ _) q1
  injection key with key
  injection key with _ key
  have e := congrArg (fun l => l.head?) key
  have e2 : (some (intDbl 500, intDbl 1000) : Option (Dbl × Dbl)) = some (intDbl 500, driftNext) := e
  injection e2 with e2
  injection e2 with _ e2
  exact driftNext_ne e2.symm

/-- Beside `C117_settles_partial`: this material can be saved any number of times, and the numbers
that remain are 1000.0 and 1.0. -/
example : ∃ (o : KeyOrder) (m m' m'' : Material Dbl), o.Valid ∧ Tabulated m ∧ Rewritten o 2 m m' ∧
    Rewritten o 1 m' m'' ∧ HasIndex m'' (driftTable (intDbl 1000) (intDbl 1)) "wavelength" "nanometer" := by
  have hc : (lower "wavelength", lower "nanometer", "nm") ∈ names := by decide +kernel
  obtain ⟨m, hm, h0⟩ := drift_material hc (driftTable_good driftHigh driftLow) (by simp [driftTable])
    (by simp [driftTable])
  have ho : (⟨fileMetaKeys, datasetMetaKeys⟩ : KeyOrder).Valid := ⟨.refl _, .refl _⟩
  have hw := fun a b => (driftTable_good a b).width
  obtain ⟨m1, s1, x1, t1⟩ := table_saved hm.texts hc h0 (hw _ _) (by simp [driftTable])
    (by simp [driftTable]) (by rw [driftTable_first]; exact driftTable_good _ _) ho (.inl rfl) false false
  rw [driftTable_first] at t1
  obtain ⟨m2, s2, x2, t2⟩ := table_saved x1 hc t1 (hw _ _) (by simp [driftTable])
    (by simp [driftTable]) (by rw [driftTable_second]; exact driftTable_good _ _) ho (.inr rfl) true false
  rw [driftTable_second] at t2
  have hf : fileTable (driftTable (intDbl 1000) (intDbl 1)) = driftTable (intDbl 1000) (intDbl 1) := by
    have : Settled (driftTable driftNext (intDbl 1)) := by
      rw [← driftTable_first]; exact fileTable_settled _
    have := this.file_twice
    rwa [driftTable_second] at this
  obtain ⟨m3, s3, x3, t3⟩ := table_saved x2 hc t2 (hw _ _) (by simp [driftTable])
    (by simp [driftTable]) (by rw [hf]; exact driftTable_good _ _) ho (.inl rfl) false true
  rw [hf] at t3
  exact ⟨_, m, m2, m3, ho, hm, .once (.inr rfl) (.once (.inl rfl) (.none m) s1) s2,
    .once (.inl rfl) (.none m2) s3, t3⟩

end doubles

end

end Disp

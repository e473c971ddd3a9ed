import Verif.Props.TextExtinction
import Verif.Props.TextMetres
import Verif.Props.YamlMaterials
/-!
# C121, C122: numbers in YAML files, in double precision
-/

namespace Disp

open Spec

noncomputable section

/-! ## Which notation -/

theorem finite_nonzero {xs : List Dbl} {a : Dbl} (h : a ∈ sizes xs) :
    ∃ r ∈ finites xs, r ≠ 0 ∧ a.val = .fin |r| := by
  rw [sizes, List.mem_map] at h
  obtain ⟨r, hr, rfl⟩ := h
  rw [List.mem_filter] at hr
  obtain ⟨x, -, hx⟩ := of_mem_finites hr.1
  exact ⟨r, hr.1, by simpa using hr.2, Dbl.rnd_double (double_abs (Dbl.isDouble_val hx))⟩

theorem size_mem {xs : List Dbl} {r : ℝ} (hr : r ∈ finites xs) (h0 : r ≠ 0) :
    Dbl.rnd (.fin |r|) ∈ sizes xs ∧ (Dbl.rnd (.fin |r|)).val = .fin |r| := by
  obtain ⟨x, -, hx⟩ := of_mem_finites hr
  refine ⟨?_, Dbl.rnd_double (double_abs (Dbl.isDouble_val hx))⟩
  rw [sizes, List.mem_map]
  exact ⟨r, by simp [hr, h0], rfl⟩

theorem tenth_val : ∃ t, (Dbl.ofRat (1 / 10 ^ 4)).val = .fin t ∧ |t - 1 / 10 ^ 4| ≤ 1 / 10 ^ 14 := by
  have hn := nearest_close ((1 : ℝ) / 10 ^ 4)
  rw [abs_of_pos (show (0 : ℝ) < 1 / 10 ^ 4 by positivity)] at hn
  have hn' : |nearest ((1 : ℝ) / 10 ^ 4) - 1 / 10 ^ 4| ≤ 1 / 10 ^ 14 :=
    hn.trans (by norm_num)
  refine ⟨_, ?_, hn'⟩
  have : ((1 / 10 ^ 4 : ℚ) : ℝ) = 1 / 10 ^ 4 := by norm_num
  rw [Dbl.ofRat, this, Dbl.rnd_fin]
  obtain ⟨a, b⟩ := abs_le.1 hn'
  refine lt_of_le_of_lt ?_ thousand_lt
  generalize nearest ((1 : ℝ) / 10 ^ 4) = t at *
  norm_num at a b ⊢
  rw [abs_of_nonneg (by linarith)]
  linarith

/-- Scientific notation because of a small number. -/
theorem scientific_small {xs : List Dbl} {v : ℝ} (h : v ∈ finites xs) (h0 : v ≠ 0)
    (hv : |v| ≤ 9 / 10 ^ 5) : useSci xs = true := by
  obtain ⟨a1, a2⟩ := size_mem h h0
  obtain ⟨t, t1, t2⟩ := tenth_val
  simp only [useSci, Bool.or_eq_true, List.any_eq_true]
  refine .inl (.inr ⟨_, a1, ?_⟩)
  show Dbl.lt _ (Dbl.ofRat (1 / 10 ^ 4)) = true
  rw [Dbl.lt, a2, t1]
  show decide (|v| < t) = true
  have := (abs_le.1 t2).1
  norm_num at this hv ⊢
  linarith

/-- Positional notation. -/
theorem positional_in {xs : List Dbl} {lo hi : ℝ} (h1 : 2 / 10 ^ 4 ≤ lo) (h2 : hi ≤ 2000)
    (hq : hi ≤ (1000 - 1 / 10 ^ 6) * lo) (h : ∀ r ∈ finites xs, r ≠ 0 → lo ≤ |r| ∧ |r| ≤ hi) :
    useSci xs = false := by
  simp only [useSci, Bool.or_eq_false_iff, List.any_eq_false]
  refine ⟨⟨?_, ?_⟩, ?_⟩
  · intro a ha
    obtain ⟨r, hr, h0, e⟩ := finite_nonzero ha
    show ¬ (Dbl.le (Dbl.ofRat (10 ^ 8)) a = true)
    rw [Dbl.le, e, ten_val (by norm_num), XR.le_fin]
    have := (h r hr h0).2
    simp only [decide_eq_true_eq, not_le]
    norm_num
    linarith
  · intro a ha
    obtain ⟨r, hr, h0, e⟩ := finite_nonzero ha
    show ¬ (Dbl.lt a (Dbl.ofRat (1 / 10 ^ 4)) = true)
    obtain ⟨t, t1, t2⟩ := tenth_val
    rw [Dbl.lt, e, t1]
    have := (h r hr h0).1
    have := (abs_le.1 t2).2
    show ¬ (decide (|r| < t) = true)
    simp only [decide_eq_true_eq, not_lt]
    norm_num at this h1 ⊢
    linarith
  · intro a ha
    simp only [Bool.not_eq_true, List.any_eq_false]
    intro b hb
    obtain ⟨r, hr, r0, e⟩ := finite_nonzero ha
    obtain ⟨q, hq', q0, e'⟩ := finite_nonzero hb
    obtain ⟨r1, r2⟩ := h r hr r0
    obtain ⟨q1, q2⟩ := h q hq' q0
    show Dbl.lt (Dbl.ofRat 1000) (a / b) = false
    have hb0 : 0 < |q| := abs_pos.2 q0
    have hd : a.val / b.val = .fin (|r| / |q|) := by
      rw [e, e']
      exact if_neg hb0.ne'
    have hx1 : |r| / |q| ≤ 1000 - 1 / 10 ^ 6 := by
      rw [div_le_iff₀ hb0]
      have : (1000 - 1 / 10 ^ 6 : ℝ) * lo ≤ (1000 - 1 / 10 ^ 6) * |q| :=
        mul_le_mul_of_nonneg_left q1 (by norm_num)
      linarith
    have hx2 : 1 / 1000 ≤ |r| / |q| := by
      rw [le_div_iff₀ hb0]
      norm_num at hq
      linarith
    have hn := nearest_rel (x := |r| / |q|) (by
      rw [abs_of_pos (by linarith)]
      have : (2 : ℝ) ^ (-1022 : ℤ) ≤ 2 ^ (-14 : ℤ) := zpow_le_zpow_right₀ (by norm_num) (by norm_num)
      refine (this.trans ?_).trans hx2
      rw [zpow_neg]; norm_num)
    generalize |r| / |q| = y at *
    have hy0 : 0 < y := by linarith
    rw [abs_of_pos hy0, abs_le] at hn
    have hn2 : nearest y ≤ 1000 := by
      have := hn.2
      norm_num at this hx1 ⊢
      linarith
    have hn0 : 0 ≤ nearest y := by
      have := hn.1
      norm_num at this hx2 ⊢
      linarith
    have hv : (a / b).val = .fin (nearest y) := by
      show (Dbl.rnd (a.val / b.val)).val = _
      rw [hd, Dbl.rnd_fin (by
        rw [abs_of_nonneg hn0]
        exact (hn2.trans (by norm_num)).trans_lt thousand_lt)]
    have h1000 : (Dbl.ofRat 1000).val = .fin 1000 := by
      have := Dbl.lit_int (n := 1000) (by norm_num)
      push_cast at this
      exact this
    rw [Dbl.lt, hv, h1000]
    show decide (1000 < nearest y) = false
    simp only [decide_eq_false_iff_not, not_lt]
    exact hn2

/-! ## One number -/

/-- A number in scientific notation has a small relative error. -/
theorem scientific_close {x : Dbl} {r : ℝ} (hx : x.val = .fin r)
    (hr : r = 0 ∨ (1 / 10 ^ 100 ≤ |r| ∧ |r| ≤ 10 ^ 100)) :
    ∃ s, (cellShown true x).val = .fin s ∧ |s - r| ≤ 6 / 10 ^ 9 * |r| := by
  rcases hr with rfl | ⟨h1, h2⟩
  · refine ⟨0, ?_, by simp⟩
    simp only [cellShown, hx, if_true, nineDigits_zero]
    rw [Dbl.rnd_fin (by rw [nearest_zero, abs_zero]; positivity), nearest_zero]
  · have e := nineDigits_err r
    simp only [cellShown, hx, if_true]
    generalize nineDigits r = z at *
    have a1 := abs_add_le r (z - r)
    rw [add_sub_cancel] at a1
    have a2 := abs_add_le z (r - z)
    rw [add_sub_cancel, abs_sub_comm r z] at a2
    have hzl : |r| / 2 ≤ |z| := by norm_num at e; linarith
    have hzu : |z| ≤ 2 * |r| := by norm_num at e; linarith
    have hsmall : (2 : ℝ) ^ (-1022 : ℤ) ≤ 1 / 10 ^ 100 / 2 := by
      have : 10 ^ 100 * 2 ≤ 2 ^ 1022 := by decide +kernel
      have : (10 : ℝ) ^ 100 * 2 ≤ 2 ^ 1022 := by exact_mod_cast this
      have e2 : (2 : ℝ) ^ (-1022 : ℤ) = 1 / 2 ^ 1022 := by
        rw [show (-1022 : ℤ) = -((1022 : ℕ) : ℤ) from rfl, zpow_neg, zpow_natCast, one_div]
      rw [e2, div_div]
      exact one_div_le_one_div_of_le (by positivity) this
    have hz : (2 : ℝ) ^ (-1022 : ℤ) ≤ |z| :=
      hsmall.trans (le_trans (by linarith) hzl)
    have hn := nearest_rel hz
    have hn' : |nearest z - z| ≤ |r| / 10 ^ 14 := by
      refine hn.trans ?_
      rw [div_le_div_iff₀ (by positivity) (by positivity)]
      norm_num
      linarith [abs_nonneg r]
    have a3 := abs_add_le (nearest z - z) (z - r)
    rw [sub_add_sub_cancel] at a3
    have ht : |nearest z - r| ≤ 6 / 10 ^ 9 * |r| := by
      norm_num at e hn' ⊢
      linarith
    refine ⟨_, Dbl.rnd_fin ?_, ht⟩
    have a4 := abs_add_le r (nearest z - r)
    rw [add_sub_cancel] at a4
    have h3 : |nearest z| ≤ 2 * |r| := by norm_num at ht; linarith
    refine lt_of_le_of_lt h3 (lt_of_le_of_lt ?_ huge_lt)
    have : (10 : ℝ) ^ 103 = 1000 * 10 ^ 100 := by norm_num
    rw [this]
    linarith [abs_nonneg r]

/-- A number of an array. -/
theorem array_close (b : Bool) {x : Dbl} {r : ℝ} (hx : x.val = .fin r) (hr : |r| ≤ 10 ^ 100) :
    ∃ s, (cellShown b x).val = .fin s ∧ |s - r| ≤ 6 / 10 ^ 9 * (1 + |r|) := by
  have hbig : (10 : ℝ) ^ 102 = 100 * 10 ^ 100 := by norm_num
  have h0 := abs_nonneg r
  obtain ⟨s, h1, h2⟩ := cellShown_close b hx (by rw [hbig]; linarith)
  refine ⟨s, h1, h2.trans ?_⟩
  cases b <;> norm_num <;> linarith

/-! ## C121 -/

/-- Both numbers are nearly the same, relative to their sizes. -/
def Spec.RelPair (ε : ℝ) (v w : ℝ × ℝ) : Prop :=
  |w.1 - v.1| ≤ ε * |v.1| ∧ |w.2 - v.2| ≤ ε * |v.2|

/-- The abscissae differ by more than their relative errors. -/
def Spec.RelApart (ε : ℝ) (vs : List (ℝ × ℝ)) : Prop :=
  vs.Pairwise (fun v w => ε * |v.1| + ε * |w.1| < |v.1 - w.1|)

/-- Every number is zero or neither huge nor tiny. -/
def Spec.Middling (vs : List (ℝ × ℝ)) : Prop :=
  ∀ v ∈ vs, (v.1 = 0 ∨ (1 / 10 ^ 100 ≤ |v.1| ∧ |v.1| ≤ 10 ^ 100)) ∧
    (v.2 = 0 ∨ (1 / 10 ^ 100 ≤ |v.2| ∧ |v.2| ≤ 10 ^ 100))

theorem printed_pairs [SciPy Dbl] [YamlIO Dbl] {rows : List (List Dbl)} (hw : ∀ r ∈ rows, r.length = 2) :
    pairsOf (printed rows) 1 = (pairsOf rows 1).map
      (fun p => (cellShown (useSci rows.flatten) p.1, cellShown (useSci rows.flatten) p.2)) := by
  have := printed_rows (pairsOf rows 1)
  rw [rowsOf_pairs_two hw] at this
  rw [this]
  have e := pairsOf_rows (cellShown (useSci rows.flatten)) (pairsOf rows 1)
  rw [rowsOf_pairs_two hw] at e
  exact e

theorem printed_good [SciPy Dbl] [YamlIO Dbl] {rows : List (List Dbl)} (hg : GoodTable 2 rows) {ws : List (ℝ × ℝ)}
    (h : Readings (pairsOf (printed rows) 1) ws) (hd : ws.Pairwise (fun v w => v.1 ≠ w.1)) :
    GoodTable 2 (printed rows) := by
  refine good_of_numbers (j := 1) ?_ (printed_width hg.width) h hd
  intro e
  have := congrArg List.length e
  rw [printed_dbl] at this
  simp at this
  exact hg.nonempty this

theorem rel_map {f : Dbl → Dbl} {ε : ℝ} {ps : List (Dbl × Dbl)} {vs : List (ℝ × ℝ)}
    (hf : ∀ x r, x.val = .fin r → (r = 0 ∨ (1 / 10 ^ 100 ≤ |r| ∧ |r| ≤ 10 ^ 100)) →
      ∃ s, (f x).val = .fin s ∧ |s - r| ≤ ε * |r|)
    (h : Readings ps vs) (hb : Middling vs) :
    ∃ ws, Readings (ps.map (fun p => (f p.1, f p.2))) ws ∧ List.Forall₂ (RelPair ε) vs ws := by
  unfold Readings at h ⊢
  induction h with
  | nil => exact ⟨[], .nil, .nil⟩
  | @cons p v ps vs h _ ih =>
    obtain ⟨ws, i1, i2⟩ := ih (fun v hv => hb v (List.mem_cons_of_mem _ hv))
    obtain ⟨b1, b2⟩ := hb v (List.mem_cons_self ..)
    obtain ⟨s, s1, s2⟩ := hf _ _ h.1 b1
    obtain ⟨z, z1, z2⟩ := hf _ _ h.2 b2
    exact ⟨(s, z) :: ws, .cons ⟨s1, z1⟩ i1, .cons ⟨s2, z2⟩ i2⟩

theorem distinct_of_rel {ε : ℝ} {vs ws : List (ℝ × ℝ)} (h : List.Forall₂ (RelPair ε) vs ws)
    (ha : RelApart ε vs) : ws.Pairwise (fun v w => v.1 ≠ w.1) := by
  unfold RelApart at ha
  induction h with
  | nil => exact .nil
  | @cons v w vs ws h1 h2 ih =>
    rw [List.pairwise_cons] at ha ⊢
    refine ⟨fun z hz e => ?_, ih ha.2⟩
    obtain ⟨u, hu, hz'⟩ := mem_of_forall₂' h2 hz
    have a1 := ha.1 u hu
    have a2 := h1.1
    have a3 := hz'.1
    rw [e] at a2
    have := abs_add_le (v.1 - z.1) (z.1 - u.1)
    rw [sub_add_sub_cancel, abs_sub_comm v.1 z.1] at this
    linarith

section doubles
variable [SciPy Dbl] [YamlIO Dbl] [YamlLaws Dbl]

/-- C121 for tables: a table of the index saved as YAML and loaded has the same type and unit, and
each number is within `6e-9 (1 + |x|)` of the saved one. -/
theorem C121_table (rd : String → Res (FileDict Dbl)) (kw : Kwargs Dbl)
    (hnd : (kw.map Prod.fst).Nodup) (hp : PlainOptions kw) {c : String}
    (hc : (lower (defaultsOf kw).1, lower (defaultsOf kw).2, c) ∈ names)
    (rows : List (List Dbl)) (hk : Only kw "tabulated_n" (.table 2) (.arr (.d2 2 .float rows)))
    (hg : GoodTable 2 rows) (h2 : 2 ≤ rows.length) (h500 : rows.length ≤ 500)
    {vs : List (ℝ × ℝ)} (hv : Readings (pairsOf rows 1) vs) (hb : NotHuge vs)
    (ha : Apart (6 / 10 ^ 9) vs) :
    ∃ m, Material.new rd kw = .ok m ∧ ∀ o : KeyOrder, o.Valid → ∃ m' s' ps' ws, SavedAndLoaded o ".yml" true false m m' ∧
      m'.name = "nk" ∧
      m'.real = some (.interp 1 ps' s' (defaultsOf kw).1 (defaultsOf kw).2) ∧
      m'.imag = some (cdata (lit 0)) ∧ Readings ps' ws ∧
      List.Forall₂ (NearPair (6 / 10 ^ 9)) vs ws := by
  have key : ∀ x r, Dbl.val x = .fin r → |r| ≤ 10 ^ 100 → ∃ s,
      (cellShown (useSci rows.flatten) x).val = .fin s ∧ |s - r| ≤ 6 / 10 ^ 9 * (1 + |r|) :=
    fun x r h1 h2 => array_close _ h1 h2
  obtain ⟨ws, w1, w2⟩ := readings_map key key hv hb
  rw [← printed_pairs hg.width] at w1
  obtain ⟨m, hm, hcyc⟩ := C68_yaml_table rd kw hnd hp hc rows hk hg h2 h500
    (printed_good hg w1 (distinct_of_near w2 ha))
  refine ⟨m, hm, fun o ho => ?_⟩
  obtain ⟨m', r, a1, a2, a3, a4, a5, -⟩ := hcyc o ho
  have hl : (pairsOf (printed rows) 1).length = rows.length := by simp [pairsOf, printed_dbl]
  obtain ⟨s', rfl, -⟩ := tableData_interp (by rw [hl]; exact h2) a2
  exact ⟨m', s', _, ws, a1, a3, a4, a5, w1, w2⟩

/-- C121 for tables with a number below 0.0001, for example wavelengths in metres: all relative
errors are at most `6e-9`. -/
theorem C121_small (rd : String → Res (FileDict Dbl)) (kw : Kwargs Dbl)
    (hnd : (kw.map Prod.fst).Nodup) (hp : PlainOptions kw) {c : String}
    (hc : (lower (defaultsOf kw).1, lower (defaultsOf kw).2, c) ∈ names)
    (rows : List (List Dbl)) (hk : Only kw "tabulated_n" (.table 2) (.arr (.d2 2 .float rows)))
    (hg : GoodTable 2 rows) (h2 : 2 ≤ rows.length) (h500 : rows.length ≤ 500)
    {vs : List (ℝ × ℝ)} (hv : Readings (pairsOf rows 1) vs) (hb : Middling vs)
    (hs : ∃ v ∈ vs, v.1 ≠ 0 ∧ |v.1| ≤ 9 / 10 ^ 5) (ha : RelApart (6 / 10 ^ 9) vs) :
    ∃ m, Material.new rd kw = .ok m ∧ ∀ o : KeyOrder, o.Valid → ∃ m' s' ps' ws, SavedAndLoaded o ".yml" true false m m' ∧
      m'.name = "nk" ∧
      m'.real = some (.interp 1 ps' s' (defaultsOf kw).1 (defaultsOf kw).2) ∧
      m'.imag = some (cdata (lit 0)) ∧ Readings ps' ws ∧
      List.Forall₂ (RelPair (6 / 10 ^ 9)) vs ws := by
  obtain ⟨v, hvv, hv0, hvs⟩ := hs
  have hsci : useSci rows.flatten = true := by
    obtain ⟨p, hp, e, -⟩ := mem_of_forall₂' hv hvv
    refine scientific_small (v := v.1) ?_ hv0 hvs
    rw [← rowsOf_pairs_two hg.width]
    refine List.mem_filterMap.2 ⟨p.1, List.mem_flatten.2 ⟨[p.1, p.2], List.mem_map.2 ⟨p, hp, rfl⟩,
      List.mem_cons_self ..⟩, ?_⟩
    rw [e]
  obtain ⟨ws, w1, w2⟩ := rel_map (f := cellShown true) (fun x r h1 h2 => scientific_close h1 h2) hv hb
  have hpp := printed_pairs hg.width
  rw [hsci] at hpp
  rw [← hpp] at w1
  obtain ⟨m, hm, hcyc⟩ := C68_yaml_table rd kw hnd hp hc rows hk hg h2 h500
    (printed_good hg w1 (distinct_of_rel w2 ha))
  refine ⟨m, hm, fun o ho => ?_⟩
  obtain ⟨m', r, a1, a2, a3, a4, a5, -⟩ := hcyc o ho
  have hl : (pairsOf (printed rows) 1).length = rows.length := by simp [pairsOf, printed_dbl]
  obtain ⟨s', rfl, -⟩ := tableData_interp (by rw [hl]; exact h2) a2
  exact ⟨m', s', _, ws, a1, a3, a4, a5, w1, w2⟩


omit [SciPy Dbl] [YamlIO Dbl] [YamlLaws Dbl] in
theorem shown_list (xs : List Dbl) :
    xs.map (Printing.shown xs) = xs.map (cellShown (useSci xs)) := by
  refine List.map_congr_left (fun x hx => ?_)
  show cellShown (useSci (arrayOf xs x)) x = _
  rw [arrayOf, if_pos hx]

omit [SciPy Dbl] [YamlIO Dbl] [YamlLaws Dbl] in
theorem list_close {xs : List Dbl} {rs : List ℝ}
    (h : List.Forall₂ (fun x r => Dbl.val x = .fin r ∧ |r| ≤ 10 ^ 100) xs rs) :
    List.Forall₂ (fun x r => ∃ s, Dbl.val x = .fin s ∧ |s - r| ≤ 6 / 10 ^ 9 * (1 + |r|))
      (xs.map (Printing.shown xs)) rs := by
  rw [shown_list, List.forall₂_map_left_iff]
  exact h.imp (fun x r hr => array_close _ hr.1 hr.2)

theorem newModel_ok {f : Formula} {p xs : List Dbl} {t u : String} {r : RealData Dbl}
    (h : RealData.newModel f p (.list .float xs) t u = .ok r) :
    ∃ s, r = .model f p s t u ∧ s.values = .array .float xs := by
  unfold RealData.newModel at h
  obtain ⟨s, hs, h⟩ := except_bind_ok h
  obtain ⟨_, _, h⟩ := except_bind_ok h
  refine ⟨s, by cases h; rfl, ?_⟩
  rw [Spectrum.new_eq] at hs
  cases hl : specLookup (lower t) (lower u) with
  | error e => rw [hl] at hs; cases hs
  | ok c =>
    rw [hl] at hs
    obtain ⟨v, hv, hs⟩ := except_bind_ok hs
    obtain ⟨std, _, hs⟩ := except_bind_ok hs
    have e : v = .array .float xs := by cases hv; rfl
    cases hs
    exact e

/-- C121 for models of the index: the formula, the type and the unit are kept, and every parameter and
every bound of the range is within `6e-9 (1 + |x|)` of the saved one. -/
theorem C121_model (rd : String → Res (FileDict Dbl)) (kw : Kwargs Dbl)
    (hnd : (kw.map Prod.fst).Nodup) (hp : PlainOptions kw) (d : ModelKw Dbl)
    (h : Only kw "model_kw" .model (.dict d)) (k : String) (hk : d.name = some k)
    (p : List Dbl) (hpar : d.params = some p) (xs : List Dbl)
    (hr : d.validRange = some (.list .float xs))
    (t u : String) (ht : d.stype = some t) (hu : d.unit = some u) (hki : k ∈ indexModels)
    (hlt : lower t = "wavelength") (hlu : lower u ∈ ["um", "micrometer", "micrometre"])
    (hp1 : p.length ≤ 1000) (hx0 : xs ≠ []) (hx1 : xs.length ≤ 1000) {ps rs : List ℝ}
    (hps : List.Forall₂ (fun x r => Dbl.val x = .fin r ∧ |r| ≤ 10 ^ 100) p ps)
    (hrs : List.Forall₂ (fun x r => Dbl.val x = .fin r ∧ |r| ≤ 10 ^ 100) xs rs) :
    ∃ m f, Material.new rd kw = .ok m ∧ classRef k = .real f ∧ ∀ o : KeyOrder, o.Valid →
      ∃ m' p' xs' s, SavedAndLoaded o ".yml" true false m m' ∧ m'.name = "nk" ∧ m'.real = some (.model f p' s t u) ∧
        s.values = .array .float xs' ∧ m'.imag = some (cdata (lit 0)) ∧ m'.cplx = Option.none ∧
        List.Forall₂ (fun x r => ∃ s, Dbl.val x = .fin s ∧ |s - r| ≤ 6 / 10 ^ 9 * (1 + |r|)) p' ps ∧
        List.Forall₂ (fun x r => ∃ s, Dbl.val x = .fin s ∧ |s - r| ≤ 6 / 10 ^ 9 * (1 + |r|)) xs' rs := by
  obtain ⟨m, f, hm, hf, hcyc⟩ := C69_yaml_model rd kw hnd hp d h k hk p hpar xs hr t u ht hu hki hlt
    hlu hp1 hx0 hx1
  refine ⟨m, f, hm, hf, fun o ho => ?_⟩
  obtain ⟨m', r, a1, a2, a3, a4, a5, a6⟩ := hcyc o ho
  obtain ⟨s, rfl, hs⟩ := newModel_ok a2
  exact ⟨m', _, _, s, a1, a3, a4, hs, a5, a6, list_close hps, list_close hrs⟩

omit [YamlIO Dbl] [YamlLaws Dbl] in
/-- Beside `C121_table`: a table in nanometres. -/
theorem nanometre_case : ∃ (rows : List (List Dbl)) (vs : List (ℝ × ℝ)), GoodTable 2 rows ∧
    rows.length = 2 ∧ Readings (pairsOf rows 1) vs ∧ NotHuge vs ∧ Apart (6 / 10 ^ 9) vs := by
  have e1 := intDbl_val (n := 400) (by norm_num)
  have e2 := intDbl_val (n := 500) (by norm_num)
  have e3 := intDbl_val (n := 2) (by norm_num)
  push_cast at e1 e2 e3
  have hv : Readings (pairsOf [[intDbl 400, intDbl 2], [intDbl 500, intDbl 2]] 1)
      [(400, 2), (500, 2)] := .cons ⟨e1, e3⟩ (.cons ⟨e2, e3⟩ .nil)
  refine ⟨[[intDbl 400, intDbl 2], [intDbl 500, intDbl 2]], [(400, 2), (500, 2)],
    good_of_numbers (j := 1) (by simp) ?_ hv (by rw [List.pairwise_pair]; norm_num), rfl, hv, ?_, ?_⟩
  · intro r hr
    simp only [List.mem_cons, List.not_mem_nil, or_false] at hr
    rcases hr with rfl | rfl <;> rfl
  · have hone : (1000 : ℝ) ≤ 10 ^ 100 := by
      have : (1 : ℝ) ≤ 10 ^ 97 := one_le_pow₀ (by norm_num)
      have e : (10 : ℝ) ^ 100 = 1000 * 10 ^ 97 := by norm_num
      rw [e]; linarith
    intro v hv
    simp only [List.mem_cons, List.not_mem_nil, or_false] at hv
    generalize (10 : ℝ) ^ 100 = B at *
    rcases hv with rfl | rfl <;> constructor <;> norm_num <;> linarith
  · unfold Apart
    rw [List.pairwise_pair]
    norm_num [abs_of_pos, abs_of_neg]

/-- The table of `nanometre_case` meets the assumptions of `C121_table`. -/
example (rd : String → Res (FileDict Dbl)) : ∃ (m m' : Material Dbl) (rows : List (List Dbl)),
    rows.length = 2 ∧ Material.new rd [("tabulated_n", .arr (.d2 2 .float rows))] = .ok m ∧
    SavedAndLoaded ⟨fileMetaKeys, datasetMetaKeys⟩ ".yml" true false m m' := by
  obtain ⟨rows, vs, hg, hl, hv, hb, ha⟩ := nanometre_case
  have hs : ("tabulated_n", DocType.table 2) ∈ sources := by decide
  obtain ⟨h1, h2⟩ := only_single (F := Dbl) hs (v := .arr (.d2 2 .float rows)) (by simp)
  have hd := defaults_single (F := Dbl) (n := "tabulated_n") (v := .arr (.d2 2 .float rows))
    (by decide)
  obtain ⟨m, hm, hcyc⟩ := C121_table rd _ h1 (plain_single (by decide) (by decide)) (c := "nm")
    (by rw [hd]; decide +kernel) rows h2 hg (by omega) (by omega) hv hb ha
  obtain ⟨m', -, -, -, e, -⟩ := hcyc ⟨fileMetaKeys, datasetMetaKeys⟩ ⟨.refl _, .refl _⟩
  exact ⟨m, m', rows, hl, hm, e⟩

omit [YamlIO Dbl] [YamlLaws Dbl] in
/-- The visible spectrum in metres meets the assumptions of `C121_small`; by `C120_refuted` its text
file cannot be loaded. -/
theorem metreTable_small : ∃ vs : List (ℝ × ℝ), Readings (pairsOf metreTable 1) vs ∧ Middling vs ∧
    (∃ v ∈ vs, v.1 ≠ 0 ∧ |v.1| ≤ 9 / 10 ^ 5) ∧ RelApart (6 / 10 ^ 9) vs := by
  have e1 := intDbl_val (n := 1) (by norm_num)
  push_cast at e1
  have hm : ∀ i, i < 61 → ∃ r, (metre i).val = .fin r ∧
    |r - (400 + 5 * i) / 10 ^ 9| ≤ 1 / 10 ^ 15 ∧ 399 / 10 ^ 9 ≤ r ∧ r ≤ 701 / 10 ^ 9 :=
    fun i hi => metre_val hi
  choose! f hf using hm
  have hpairs : pairsOf metreTable 1 = (List.range 61).map (fun i => (metre i, intDbl 1)) := by
    rw [metreTable, pairsOf, List.map_map]; rfl
  have hbig : (1 : ℝ) ≤ 10 ^ 100 := one_le_pow₀ (by norm_num)
  have hsmall : (1 : ℝ) / 10 ^ 100 ≤ 399 / 10 ^ 9 := by
    have : (1 : ℝ) ≤ 10 ^ 91 := one_le_pow₀ (by norm_num)
    have e : (10 : ℝ) ^ 100 = 10 ^ 9 * 10 ^ 91 := by norm_num
    rw [e, div_le_div_iff₀ (by positivity) (by positivity)]
    generalize (10 : ℝ) ^ 91 = B at *
    norm_num; linarith
  refine ⟨(List.range 61).map (fun i => (f i, 1)), ?_, ?_, ?_, ?_⟩
  · rw [hpairs]
    unfold Readings
    rw [List.forall₂_map_left_iff, List.forall₂_map_right_iff, List.forall₂_same]
    intro i hi
    exact ⟨(hf i (List.mem_range.1 hi)).1, e1⟩
  · intro v hv
    obtain ⟨i, hi, rfl⟩ := List.mem_map.1 hv
    obtain ⟨-, -, a, b⟩ := hf i (List.mem_range.1 hi)
    refine ⟨.inr ?_, .inr ?_⟩
    · have h0 : 0 < f i := lt_of_lt_of_le (by norm_num) a
      show _ ≤ |f i| ∧ |f i| ≤ _
      rw [abs_of_pos h0]
      refine ⟨hsmall.trans a, b.trans (le_trans (by norm_num) hbig)⟩
    · show _ ≤ |(1 : ℝ)| ∧ |(1 : ℝ)| ≤ _
      rw [abs_one]
      exact ⟨hsmall.trans (by norm_num), hbig⟩
  · refine ⟨_, List.mem_map.2 ⟨0, by simp, rfl⟩, ?_⟩
    obtain ⟨-, -, a, b⟩ := hf 0 (by norm_num)
    have h0 : 0 < f 0 := lt_of_lt_of_le (by norm_num) a
    show f 0 ≠ 0 ∧ |f 0| ≤ _
    rw [abs_of_pos h0]
    exact ⟨h0.ne', b.trans (by norm_num)⟩
  · unfold RelApart
    rw [List.pairwise_map]
    refine (List.pairwise_lt_range (n := 61)).imp_of_mem ?_
    intro i j hi hj hij
    obtain ⟨-, a1, a2, a3⟩ := hf i (List.mem_range.1 hi)
    obtain ⟨-, b1, b2, b3⟩ := hf j (List.mem_range.1 hj)
    have : (i : ℝ) + 1 ≤ j := by exact_mod_cast hij
    show 6 / 10 ^ 9 * |f i| + 6 / 10 ^ 9 * |f j| < |f i - f j|
    rw [abs_of_pos (a := f i) (lt_of_lt_of_le (by norm_num) a2),
      abs_of_pos (a := f j) (lt_of_lt_of_le (by norm_num) b2)]
    refine lt_of_lt_of_le ?_ (neg_le_abs _)
    obtain ⟨c1, c2⟩ := abs_le.1 a1
    obtain ⟨d1, d2⟩ := abs_le.1 b1
    norm_num at c1 c2 d1 d2 a3 b3 ⊢
    linarith

/-! ## C122 -/

/-- A double that is the nearest to a decimal number of at most nine significant digits. -/
def Spec.NineFigures (x : Dbl) : Prop :=
  ∃ j q : ℤ, |j| < 10 ^ 9 ∧ -300 ≤ q ∧ x.val = .fin (nearest (j * 10 ^ q))

omit [SciPy Dbl] [YamlIO Dbl] [YamlLaws Dbl] in
theorem small_normal {q : ℤ} (hq : -300 ≤ q) : (2 : ℝ) ^ (-1022 : ℤ) ≤ 10 ^ q := by
  have h1 : (10 : ℝ) ^ (-300 : ℤ) ≤ 10 ^ q := zpow_le_zpow_right₀ (by norm_num) hq
  refine le_trans ?_ h1
  have : 10 ^ 300 ≤ 2 ^ 1022 := by decide +kernel
  have : (10 : ℝ) ^ 300 ≤ 2 ^ 1022 := by exact_mod_cast this
  rw [show (-1022 : ℤ) = -((1022 : ℕ) : ℤ) from rfl, show (-300 : ℤ) = -((300 : ℕ) : ℤ) from rfl,
    zpow_neg, zpow_neg, zpow_natCast, zpow_natCast]
  exact inv_anti₀ (by positivity) this

omit [SciPy Dbl] [YamlIO Dbl] [YamlLaws Dbl] in
theorem figures_digits {j q : ℤ} (hj : |j| < 10 ^ 9) (hq : -300 ≤ q) :
    nineDigits (nearest (j * 10 ^ q)) = j * 10 ^ q := by
  wlog h0 : 0 ≤ j generalizing j
  · have := this (j := -j) (by rwa [abs_neg]) (by omega)
    push_cast at this
    rw [neg_mul, nearest_neg, nineDigits_neg] at this
    exact neg_injective this
  rcases h0.eq_or_lt with rfl | h0
  · simp [nearest_zero, nineDigits_zero]
  obtain ⟨n, rfl⟩ := Int.eq_ofNat_of_zero_le h0.le
  have hn0 : n ≠ 0 := by rintro rfl; simp at h0
  have hn9 : n < 10 ^ 9 := by
    rw [abs_of_pos h0] at hj; exact_mod_cast hj
  have a1 := Nat.pow_log_le_self 10 hn0
  have a2 := Nat.lt_pow_succ_log_self (b := 10) (by norm_num) n
  have a3 : Nat.log 10 n < 9 := (Nat.log_lt_iff_lt_pow (by norm_num) hn0).2 hn9
  obtain ⟨m, hm⟩ : ∃ m, Nat.log 10 n + m = 8 := ⟨8 - Nat.log 10 n, by omega⟩
  have b1 : 10 ^ 8 ≤ n * 10 ^ m := by
    rw [← hm, pow_add]; exact Nat.mul_le_mul_right _ a1
  have b2 : n * 10 ^ m < 10 ^ 9 := by
    rw [show (10 : ℕ) ^ 9 = 10 ^ (Nat.log 10 n + 1) * 10 ^ m by
      rw [← pow_add]; congr 1; omega]
    exact Nat.mul_lt_mul_of_pos_right a2 (by positivity)
  have e : (((n * 10 ^ m : ℕ) : ℤ) * 10 ^ (q - (m : ℤ)) : ℝ) = ((n : ℕ) : ℤ) * 10 ^ q := by
    rw [zpow_sub₀ (by norm_num), zpow_natCast]
    push_cast
    field_simp
  have := drift_digits (j := (n * 10 ^ m : ℕ)) (q := q - m) (by exact_mod_cast b1)
    (by exact_mod_cast b2) (by
      rw [e]
      refine (small_normal hq).trans ?_
      have h1 : (1 : ℝ) ≤ ((n : ℕ) : ℤ) := by exact_mod_cast h0
      exact le_mul_of_one_le_left (by positivity) h1)
  rwa [e] at this

omit [SciPy Dbl] [YamlIO Dbl] [YamlLaws Dbl] in
theorem Spec.NineFigures.shown {x : Dbl} (h : NineFigures x) : cellShown true x = x := by
  obtain ⟨j, q, hj, hq, hx⟩ := h
  simp only [cellShown, hx, if_true]
  exact rnd_eq_of hx (by rw [figures_digits hj hq])

/-- C122 as stated: a model whose parameters have at most nine significant digits has the same
parameters after it was saved as YAML and loaded. -/
def C122_statement : Prop := ∀ (rd : String → Res (FileDict Dbl)) (kw : Kwargs Dbl) (d : ModelKw Dbl)
  (k : String) (p xs : List Dbl) (t u : String), (kw.map Prod.fst).Nodup → PlainOptions kw →
  Only kw "model_kw" .model (.dict d) → d.name = some k → d.params = some p →
  d.validRange = some (.list .float xs) → d.stype = some t → d.unit = some u → k ∈ indexModels →
  lower t = "wavelength" → lower u ∈ ["um", "micrometer", "micrometre"] → p.length ≤ 1000 →
  xs ≠ [] → xs.length ≤ 1000 → (∀ x ∈ p, NineFigures x) →
  ∃ m f, Material.new rd kw = .ok m ∧ classRef k = .real f ∧ ∀ o : KeyOrder, o.Valid →
    ∃ m' s, SavedAndLoaded o ".yml" true false m m' ∧ m'.real = some (.model f p s t u)

/-- One of the numbers is below 0.0001 or at least 1e8 in size, or one is more than a thousand times
another. -/
def Spec.VariedSizes (p : List Dbl) : Prop :=
  ∃ x ∈ p, ∃ a, x.val = .fin a ∧ a ≠ 0 ∧ (|a| ≤ 9 / 10 ^ 5 ∨ 10 ^ 8 ≤ |a| ∨
    ∃ y ∈ p, ∃ b, y.val = .fin b ∧ 1001 * |a| ≤ |b|)

omit [SciPy Dbl] [YamlIO Dbl] [YamlLaws Dbl] in
theorem finites_mem {xs : List Dbl} {x : Dbl} (h : x ∈ xs) {r : ℝ} (hx : x.val = .fin r) :
    r ∈ finites xs := List.mem_filterMap.2 ⟨x, h, by rw [hx]⟩

omit [SciPy Dbl] [YamlIO Dbl] [YamlLaws Dbl] in
theorem scientific_varied {p : List Dbl} (h : VariedSizes p) : useSci p = true := by
  obtain ⟨x, hx, a, ha, h0, h⟩ := h
  have hm := finites_mem hx ha
  obtain ⟨a1, a2⟩ := size_mem hm h0
  rcases h with h | h | ⟨y, hy, b, hb, h⟩
  · exact scientific_small hm h0 h
  · simp only [useSci, Bool.or_eq_true, List.any_eq_true]
    refine .inl (.inl ⟨_, a1, ?_⟩)
    show Dbl.le (Dbl.ofRat (10 ^ 8)) _ = true
    rw [Dbl.le, a2, ten_val (by norm_num), XR.le_fin]
    simpa using h
  · have hb0 : b ≠ 0 := by
      rintro rfl
      rw [abs_zero] at h
      have := abs_pos.2 h0
      linarith
    obtain ⟨b1, b2⟩ := size_mem (finites_mem hy hb) hb0
    have hpos : 0 < |a| := abs_pos.2 h0
    simp only [useSci, Bool.or_eq_true, List.any_eq_true]
    refine .inr ⟨_, b1, _, a1, ?_⟩
    generalize Dbl.rnd (.fin |a|) = A at *
    generalize Dbl.rnd (.fin |b|) = B at *
    show Dbl.lt (Dbl.ofRat 1000) (B / A) = true
    have hd : B.val / A.val = .fin (|b| / |a|) := by
      rw [b2, a2]
      exact if_neg hpos.ne'
    have hy1 : 1001 ≤ |b| / |a| := by rwa [le_div_iff₀ hpos]
    generalize |b| / |a| = y at *
    have h1000 : (Dbl.ofRat 1000).val = .fin 1000 := by
      have := Dbl.lit_int (n := 1000) (by norm_num)
      push_cast at this
      exact this
    have hn := nearest_close y
    have hy0 : 0 < y := by linarith
    rw [abs_of_pos hy0] at hn
    have hn1 : 1000 < nearest y := by
      have := (abs_le.1 hn).1
      norm_num at this
      linarith
    rw [Dbl.lt, h1000, show B / A = Dbl.rnd (B.val / A.val) from rfl, hd]
    by_cases hlt : |nearest y| < 2 ^ 1024
    · rw [Dbl.rnd_fin hlt]
      show decide (1000 < nearest y) = true
      simpa using hn1
    · have : Dbl.rnd (.fin y) = ⟨.pinf, trivial⟩ := (dif_neg hlt).trans (if_pos hy0)
      rw [this]
      rfl

/-- C122 as far as it holds: parameters of nine significant digits are kept if one of them is below
0.0001 or at least 1e8, or one is more than 1001 times another. -/
theorem C122_varied_partial (rd : String → Res (FileDict Dbl)) (kw : Kwargs Dbl)
    (hnd : (kw.map Prod.fst).Nodup) (hp : PlainOptions kw) (d : ModelKw Dbl)
    (h : Only kw "model_kw" .model (.dict d)) (k : String) (hk : d.name = some k)
    (p : List Dbl) (hpar : d.params = some p) (xs : List Dbl)
    (hr : d.validRange = some (.list .float xs))
    (t u : String) (ht : d.stype = some t) (hu : d.unit = some u) (hki : k ∈ indexModels)
    (hlt : lower t = "wavelength") (hlu : lower u ∈ ["um", "micrometer", "micrometre"])
    (hp1 : p.length ≤ 1000) (hx0 : xs ≠ []) (hx1 : xs.length ≤ 1000)
    (hnine : ∀ x ∈ p, NineFigures x) (hvar : VariedSizes p) :
    ∃ m f, Material.new rd kw = .ok m ∧ classRef k = .real f ∧ ∀ o : KeyOrder, o.Valid →
      ∃ m' s, SavedAndLoaded o ".yml" true false m m' ∧ m'.real = some (.model f p s t u) := by
  obtain ⟨m, f, hm, hf, hcyc⟩ := C69_yaml_model rd kw hnd hp d h k hk p hpar xs hr t u ht hu hki hlt
    hlu hp1 hx0 hx1
  refine ⟨m, f, hm, hf, fun o ho => ?_⟩
  obtain ⟨m', r, a1, a2, a3, a4, a5, a6⟩ := hcyc o ho
  obtain ⟨s, rfl, hs⟩ := newModel_ok a2
  refine ⟨m', s, a1, ?_⟩
  rw [a4, shown_list, scientific_varied hvar]
  congr 2
  conv_rhs => rw [← List.map_id p]
  exact List.map_congr_left (fun x hx => (hnine x hx).shown)

/-- C122 as far as it holds: parameters of at most nine digits, at most eight of them after the point,
are kept. -/
theorem C122_short_partial (rd : String → Res (FileDict Dbl)) (kw : Kwargs Dbl)
    (hnd : (kw.map Prod.fst).Nodup) (hp : PlainOptions kw) (d : ModelKw Dbl)
    (h : Only kw "model_kw" .model (.dict d)) (k : String) (hk : d.name = some k)
    (p : List Dbl) (hpar : d.params = some p) (xs : List Dbl)
    (hr : d.validRange = some (.list .float xs))
    (t u : String) (ht : d.stype = some t) (hu : d.unit = some u) (hki : k ∈ indexModels)
    (hlt : lower t = "wavelength") (hlu : lower u ∈ ["um", "micrometer", "micrometre"])
    (hp1 : p.length ≤ 1000) (hx0 : xs ≠ []) (hx1 : xs.length ≤ 1000)
    (hshort : ∀ x ∈ p, ShortDecimal x) :
    ∃ m f, Material.new rd kw = .ok m ∧ classRef k = .real f ∧ ∀ o : KeyOrder, o.Valid →
      ∃ m' s, SavedAndLoaded o ".yml" true false m m' ∧ m'.real = some (.model f p s t u) := by
  obtain ⟨m, f, hm, hf, hcyc⟩ := C69_yaml_model rd kw hnd hp d h k hk p hpar xs hr t u ht hu hki hlt
    hlu hp1 hx0 hx1
  refine ⟨m, f, hm, hf, fun o ho => ?_⟩
  obtain ⟨m', r, a1, a2, a3, a4, a5, a6⟩ := hcyc o ho
  obtain ⟨s, rfl, hs⟩ := newModel_ok a2
  refine ⟨m', s, a1, ?_⟩
  rw [a4, shown_list]
  congr 2
  conv_rhs => rw [← List.map_id p]
  exact List.map_congr_left (fun x hx => (hshort x hx).shown _)

/-- The keyword argument of a Sellmeier model. -/
def sellmeierKw (p xs : List Dbl) : ModelKw Dbl where
  name := some "Sellmeier"
  params := some p
  validRange := some (.list .float xs)
  stype := some "wavelength"
  unit := some "um"

/-- One half. -/
def halfDbl : Dbl := Dbl.rnd (.fin (1 / 2))
/-- 0.0009765625: seven significant digits, ten decimals. -/
def small10 : Dbl := Dbl.rnd (.fin (1 / 1024))

omit [SciPy Dbl] [YamlIO Dbl] [YamlLaws Dbl] in
theorem halfDbl_val : halfDbl.val = .fin (1 / 2) := Dbl.rnd_double
  ⟨1, -1, by norm_num, by norm_num, by norm_num, by rw [zpow_neg]; norm_num⟩

omit [SciPy Dbl] [YamlIO Dbl] [YamlLaws Dbl] in
theorem small10_val : small10.val = .fin (1 / 1024) := Dbl.rnd_double
  ⟨1, -10, by norm_num, by norm_num, by norm_num, by rw [zpow_neg]; norm_num⟩

omit [SciPy Dbl] [YamlIO Dbl] [YamlLaws Dbl] in
theorem nine_half : NineFigures halfDbl := by
  refine ⟨5, -1, by norm_num, by norm_num, ?_⟩
  have e : ((5 : ℤ) : ℝ) * 10 ^ (-1 : ℤ) = 1 / 2 := by rw [zpow_neg]; norm_num
  rw [e, halfDbl_val, nearest_of_double (Dbl.isDouble_val halfDbl_val)]

omit [SciPy Dbl] [YamlIO Dbl] [YamlLaws Dbl] in
theorem nine_small10 : NineFigures small10 := by
  refine ⟨9765625, -10, by norm_num, by norm_num, ?_⟩
  have e : ((9765625 : ℤ) : ℝ) * 10 ^ (-10 : ℤ) = 1 / 1024 := by rw [zpow_neg]; norm_num
  rw [e, small10_val, nearest_of_double (Dbl.isDouble_val small10_val)]

omit [SciPy Dbl] [YamlIO Dbl] [YamlLaws Dbl] in
theorem nine_int {n : ℤ} (h : |n| < 10 ^ 9) : NineFigures (intDbl n) := by
  refine ⟨n, 0, h, by norm_num, ?_⟩
  have hv := intDbl_val (n := n) (h.le.trans (by norm_num))
  rw [zpow_zero, mul_one, hv, nearest_of_double (Dbl.isDouble_val hv)]

/-- C122 is false: of the parameters 0, 0.5 and 0.0009765625 the last one is changed. -/
theorem C122_refuted : ¬ C122_statement := by
  intro hall
  have e0 := intDbl_val (n := 0) (by norm_num)
  push_cast at e0
  have hs : ("model_kw", DocType.model) ∈ sources := by decide
  obtain ⟨h1, h2⟩ := only_single (F := Dbl) hs
    (v := .dict (sellmeierKw [intDbl 0, halfDbl, small10] [halfDbl, intDbl 2])) (by simp)
  obtain ⟨m, f, hm, hf, hcyc⟩ := hall (fun _ => .error .os) _ _ "Sellmeier" _ _ _ _ h1
    (plain_single (by decide) (by decide)) h2 rfl rfl rfl rfl rfl (by decide) (by decide) (by decide)
    (by simp) (by simp) (by simp) (by
      intro x hx
      simp only [List.mem_cons, List.not_mem_nil, or_false] at hx
      rcases hx with rfl | rfl | rfl
      · exact nine_int (by norm_num)
      · exact nine_half
      · exact nine_small10)
  obtain ⟨m2, f2, hm2, hf2, hcyc2⟩ := C69_yaml_model (fun _ => .error .os) _ h1
    (plain_single (by decide) (by decide)) _ h2 "Sellmeier" rfl _ rfl _ rfl _ _ rfl rfl (by decide)
    (by decide) (by decide) (by simp) (by simp) (by simp)
  have ho : (⟨fileMetaKeys, datasetMetaKeys⟩ : KeyOrder).Valid := ⟨.refl _, .refl _⟩
  obtain ⟨m', s, a1, a2⟩ := hcyc _ ho
  obtain ⟨m'', r, b1, b2, -, b3, -⟩ := hcyc2 _ ho
  rw [hm] at hm2; cases hm2
  have := a1.unique b1
  subst this
  obtain ⟨s', rfl, -⟩ := newModel_ok b2
  rw [a2, shown_list] at b3
  have hsci : useSci [intDbl 0, halfDbl, small10] = false := by
    refine positional_in (lo := 1 / 1024) (hi := 1 / 2) (by norm_num) (by norm_num) (by norm_num) ?_
    intro r hr h0
    obtain ⟨x, hx, hxr⟩ := of_mem_finites hr
    simp only [List.mem_cons, List.not_mem_nil, or_false] at hx
    rcases hx with rfl | rfl | rfl
    · rw [e0] at hxr
      injection hxr with e
      exact absurd e.symm h0
    · rw [halfDbl_val] at hxr
      injection hxr with e
      subst e
      norm_num [abs_of_pos]
    · rw [small10_val] at hxr
      injection hxr with e
      subst e
      norm_num [abs_of_pos]
  rw [hsci] at b3
  have hl : [intDbl 0, halfDbl, small10] = [intDbl 0, halfDbl, small10].map (cellShown false) := by
    injection b3 with b3
    injection b3
  simp only [List.map_cons, List.map_nil, List.cons.injEq] at hl
  obtain ⟨k, hk⟩ := decimals_grid small10 _ (by rw [← hl.2.2.1]; exact small10_val)
  have hn := nearest_close ((k : ℝ) / 10 ^ 8)
  rw [← hk] at hn
  have hy : (k : ℝ) = 10 ^ 8 * ((k : ℝ) / 10 ^ 8) := by field_simp
  generalize (k : ℝ) / 10 ^ 8 = y at *
  have a3 := abs_add_le (1 / 1024 : ℝ) (y - 1 / 1024)
  rw [add_sub_cancel, abs_sub_comm, abs_of_pos (show (0 : ℝ) < 1 / 1024 by norm_num)] at a3
  have hn' : |1 / 1024 - y| ≤ 1 / 10 ^ 10 := by
    norm_num at hn a3 ⊢
    linarith
  obtain ⟨c1, c2⟩ := abs_le.1 hn'
  have k1 : (97656 : ℝ) < k := by rw [hy]; norm_num at c1 c2 ⊢; linarith
  have k2 : (k : ℝ) < 97657 := by rw [hy]; norm_num at c1 c2 ⊢; linarith
  have k1' : 97656 < k := by exact_mod_cast k1
  have k2' : k < 97657 := by exact_mod_cast k2
  omega

/-- Beside `C122_varied_partial`: the parameters 0, 2 and 0.0009765625. -/
example : ∃ p : List Dbl, p.length = 3 ∧ (∀ x ∈ p, NineFigures x) ∧ VariedSizes p := by
  have e1 := intDbl_val (n := 2) (by norm_num)
  push_cast at e1
  refine ⟨[intDbl 0, intDbl 2, small10], rfl, ?_, ?_⟩
  · intro x hx
    simp only [List.mem_cons, List.not_mem_nil, or_false] at hx
    rcases hx with rfl | rfl | rfl
    · exact nine_int (by norm_num)
    · exact nine_int (by norm_num)
    · exact nine_small10
  · exact ⟨small10, by simp, _, small10_val, by norm_num, .inr (.inr ⟨intDbl 2, by simp, 2, e1, by
      norm_num [abs_of_pos]⟩)⟩

/-- Beside `C121_small`: the numbers of `metreTable`. -/
example (rd : String → Res (FileDict Dbl)) : ∃ m m' : Material Dbl,
    Material.new rd [("tabulated_n", .arr (.d2 2 .float metreTable))] = .ok m ∧
    SavedAndLoaded ⟨fileMetaKeys, datasetMetaKeys⟩ ".yml" true false m m' := by
  obtain ⟨vs, hv, hb, hsm, ha⟩ := metreTable_small
  have hs : ("tabulated_n", DocType.table 2) ∈ sources := by decide
  obtain ⟨h1, h2⟩ := only_single (F := Dbl) hs (v := .arr (.d2 2 .float metreTable)) (by simp)
  have hd := defaults_single (F := Dbl) (n := "tabulated_n") (v := .arr (.d2 2 .float metreTable))
    (by decide)
  have hl : metreTable.length = 61 := by simp [metreTable]
  obtain ⟨m, hm, hcyc⟩ := C121_small rd _ h1 (plain_single (by decide) (by decide)) (c := "nm")
    (by rw [hd]; decide +kernel) metreTable h2 metreTable_good (by omega) (by omega) hv hb hsm ha
  obtain ⟨m', -, -, -, e, -⟩ := hcyc ⟨fileMetaKeys, datasetMetaKeys⟩ ⟨.refl _, .refl _⟩
  exact ⟨m, m', hm, e⟩

/-- Beside `C121_model`: a Sellmeier model. -/
example (rd : String → Res (FileDict Dbl)) : ∃ m m' : Material Dbl,
    Material.new rd [("model_kw",
      .dict (sellmeierKw [intDbl 0, halfDbl, small10] [halfDbl, intDbl 2]))] = .ok m ∧
    SavedAndLoaded ⟨fileMetaKeys, datasetMetaKeys⟩ ".yml" true false m m' := by
  have e0 := intDbl_val (n := 0) (by norm_num)
  have e2 := intDbl_val (n := 2) (by norm_num)
  push_cast at e0 e2
  have hone : (1 : ℝ) ≤ 10 ^ 99 := one_le_pow₀ (by norm_num)
  have hbig : (10 : ℝ) ^ 100 = 10 * 10 ^ 99 := by norm_num
  have hs : ("model_kw", DocType.model) ∈ sources := by decide
  obtain ⟨h1, h2⟩ := only_single (F := Dbl) hs
    (v := .dict (sellmeierKw [intDbl 0, halfDbl, small10] [halfDbl, intDbl 2])) (by simp)
  obtain ⟨m, f, hm, hf, hcyc⟩ := C121_model rd _ h1
    (plain_single (by decide) (by decide)) _ h2 "Sellmeier" rfl _ rfl _ rfl _ _ rfl rfl (by decide)
    (by decide) (by decide) (by simp) (by simp) (by simp) (ps := [0, 1 / 2, 1 / 1024])
    (rs := [1 / 2, 2])
    (by
      rw [hbig]
      generalize (10 : ℝ) ^ 99 = B at *
      refine .cons ⟨e0, ?_⟩ (.cons ⟨halfDbl_val, ?_⟩ (.cons ⟨small10_val, ?_⟩ .nil))
      all_goals norm_num [abs_of_pos]
      all_goals linarith)
    (by
      rw [hbig]
      generalize (10 : ℝ) ^ 99 = B at *
      refine .cons ⟨halfDbl_val, ?_⟩ (.cons ⟨e2, ?_⟩ .nil)
      all_goals norm_num [abs_of_pos]
      all_goals linarith)
  obtain ⟨m', -, -, -, e, -⟩ := hcyc ⟨fileMetaKeys, datasetMetaKeys⟩ ⟨.refl _, .refl _⟩
  exact ⟨m, m', hm, e⟩

end doubles

end

end Disp

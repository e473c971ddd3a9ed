import Verif.Props.TextAccuracy
/-!
# C119: the extinction coefficient in text files
-/

namespace Disp

open Spec

noncomputable section

/-! ## Short decimal numbers -/

/-- A double that is the nearest to a decimal number of at most nine digits, at most eight of them
after the point. -/
def Spec.ShortDecimal (x : Dbl) : Prop :=
  ∃ (j : ℤ) (d : ℕ), |j| < 10 ^ 9 ∧ d ≤ 8 ∧ x.val = .fin (nearest (j / 10 ^ d))

theorem short_grid (j : ℤ) {d : ℕ} (hd : d ≤ 8) :
    (j : ℝ) / 10 ^ d = ((j * 10 ^ (8 - d) : ℤ) : ℝ) / 10 ^ 8 := by
  push_cast
  rw [div_eq_div_iff (by positivity) (by positivity), mul_assoc, ← pow_add]
  congr 2
  omega

/-- They are written with their digits. -/
theorem short_digits {j : ℤ} (hj : |j| < 10 ^ 9) {d : ℕ} (hd : d ≤ 8) :
    nineDigits (nearest (j / 10 ^ d)) = j / 10 ^ d := by
  wlog h0 : 0 ≤ j generalizing j
  · have := this (j := -j) (by rwa [abs_neg]) (by omega)
    push_cast at this
    rw [neg_div, nearest_neg, nineDigits_neg] at this
    exact neg_injective this
  rcases h0.eq_or_lt with rfl | h0
  · simp [nearest_zero, nineDigits_zero]
  obtain ⟨n, rfl⟩ := Int.eq_ofNat_of_zero_le h0.le
  have hn0 : n ≠ 0 := by rintro rfl; simp at h0
  have hn9 : n < 10 ^ 9 := by
    rw [abs_of_pos h0] at hj; exact_mod_cast hj
  have a1 := Nat.pow_log_le_self 10 hn0
  have a2 := Nat.lt_pow_succ_log_self (b := 10) (by norm_num) n
  have a3 : Nat.log 10 n < 9 := (Nat.log_lt_iff_lt_pow (by norm_num) hn0).2 hn9
  obtain ⟨m, hm⟩ : ∃ m, Nat.log 10 n + m = 8 := ⟨8 - Nat.log 10 n, by omega⟩
  have b1 : 10 ^ 8 ≤ n * 10 ^ m := by
    rw [← hm, pow_add]; exact Nat.mul_le_mul_right _ a1
  have b2 : n * 10 ^ m < 10 ^ 9 := by
    rw [show (10 : ℕ) ^ 9 = 10 ^ (Nat.log 10 n + 1) * 10 ^ m by
      rw [← pow_add]; congr 1; omega]
    exact Nat.mul_lt_mul_of_pos_right a2 (by positivity)
  have e : (((n * 10 ^ m : ℕ) : ℤ) * 10 ^ (-(d : ℤ) - (m : ℤ)) : ℝ) = ((n : ℕ) : ℤ) / 10 ^ d := by
    rw [zpow_sub₀ (by norm_num), zpow_neg, zpow_natCast, zpow_natCast]
    push_cast
    field_simp
  have := drift_digits (j := (n * 10 ^ m : ℕ)) (q := -(d : ℤ) - m) (by exact_mod_cast b1)
    (by exact_mod_cast b2) (by
      rw [e, short_grid _ hd]
      exact tiny_grid (by positivity))
  rwa [e] at this

theorem Spec.ShortDecimal.shown {x : Dbl} (h : ShortDecimal x) (b : Bool) : cellShown b x = x := by
  obtain ⟨j, d, hj, hd, hx⟩ := h
  cases b with
  | false =>
    refine EightDecimals.decimals ?_
    intro r hr
    rw [hx] at hr
    cases hr
    exact ⟨_, by rw [short_grid j hd]⟩
  | true =>
    simp only [cellShown, hx, if_true]
    exact rnd_eq_of hx (by rw [short_digits hj hd])

theorem Spec.ShortDecimal.noNaN {x : Dbl} (h : ShortDecimal x) : PyFloat.isNaN x = false := by
  obtain ⟨j, d, -, -, hx⟩ := h
  show XR.isNaN x.val = false
  rw [hx]; rfl

/-! ## When both columns have the same abscissae -/

section generic
variable {F : Type} [PyFloat F]

theorem same_cons (a b : F → F) (p q : F × F) (ps qs : List (F × F)) :
    SameAbscissae ((rowsOf (p :: ps)).map (fun r => r.map a)) ((rowsOf (q :: qs)).map (fun r => r.map b)) ↔
      PyFloat.eq (a p.1) (b q.1) = true ∧
        SameAbscissae ((rowsOf ps).map (fun r => r.map a)) ((rowsOf qs).map (fun r => r.map b)) := by
  unfold SameAbscissae
  rw [show rowsOf (p :: ps) = [p.1, p.2] :: rowsOf ps from rfl,
    show rowsOf (q :: qs) = [q.1, q.2] :: rowsOf qs from rfl,
    List.map_cons (l := rowsOf ps), List.map_cons (l := rowsOf qs),
    List.map_cons (f := rowX), List.map_cons (f := rowX), List.zip_cons_cons, List.all_cons,
    Bool.and_eq_true]
  rfl

end generic

theorem dblEq_self {x : Dbl} (h : PyFloat.isNaN x = false) : PyFloat.eq x x = true := by
  rw [LawfulCmp.eq_iff, LawfulCmp.le_eq_not_lt _ _ h h, LawfulCmp.lt_irrefl]; rfl

/-- Columns with the same abscissae are printed alike exactly if the two notations agree. -/
theorem same_iff {a b : Bool} : ∀ {ps qs : List (Dbl × Dbl)}, ps.map Prod.fst = qs.map Prod.fst →
    (∀ p ∈ ps, PyFloat.isNaN p.1 = false) →
    (SameAbscissae ((rowsOf ps).map (fun r => r.map (cellShown a)))
      ((rowsOf qs).map (fun r => r.map (cellShown b))) ↔
      ∀ p ∈ ps, cellShown a p.1 = cellShown b p.1)
  | [], [], _, _ => by simp [SameAbscissae, rowsOf]
  | [], _ :: _, h, _ => by simp at h
  | _ :: _, [], h, _ => by simp at h
  | p :: ps, q :: qs, h, hn => by
    rw [List.map_cons, List.map_cons, List.cons.injEq] at h
    rw [same_cons, same_iff h.2 (fun p hp => hn p (List.mem_cons_of_mem _ hp)), List.forall_mem_cons,
      ← h.1]
    refine and_congr_left fun _ => ⟨eq_of_dblEq, fun e => ?_⟩
    rw [← e]
    exact dblEq_self (by rw [shown_isNaN]; exact hn p (List.mem_cons_self ..))

section doubles
variable [SciPy Dbl] [YamlIO Dbl]

/-- A file with a table of the refractive index can be loaded. -/
theorem writes_loads {m : Material Dbl} {rows : List (List Dbl)} {o' : ℕ}
    {ps : List (Dbl × Dbl)} {s : Spectrum Dbl} {t u cl : String}
    (hr : m.real = some (.interp o' ps s t u)) (hw : WritesTable m "tabulated n" rows 2)
    (hg : GoodTable 2 rows) (hnm : (lower t, lower u, cl) ∈ names) {o : KeyOrder} (ho : o.Valid)
    {ext : String} (he : IsText ext) (ic rii : Bool) : ∃ m', SavedAndLoaded o ext ic rii m m' := by
  obtain ⟨w, w', text, fd, d, r', g1, g2, g3, g4, g5, g6, g7⟩ := hw ext he ic rii o ho
  obtain ⟨g8, g9⟩ := g7 _ hr
  replace g8 : dictGet d "SpectrumType" = .ok (.str t) := g8
  replace g9 : dictGet d "Unit" = .ok (.str u) := g9
  obtain ⟨r, hr⟩ := tableData_ok hg 1 hnm
  obtain ⟨n1, n2⟩ := nonEmpty_of_name hnm
  obtain ⟨delim, rsep, hes⟩ := ext_sep he
  obtain ⟨mdx, hnew⟩ := new_file_ok (F := Dbl) (p := "") (text_hasMeta ho hes.format g3)
    (m1 := { fileBlank Dbl "" [] with
      defType := t, defUnit := u, name := "nk", real := some r }) (by
    intro md
    rw [g4, List.foldlM_cons, load_n _ g5 g6 (validate_ok (by norm_num) hg.width) hg.width g8 g9
      n1 n2, hr]
    rfl)
  exact ⟨_, w, w', text, fd, r', g1, g2, g3, hnew⟩

/-- C119 as far as it holds, the exact condition: for tables of index and extinction coefficient with
the same abscissae, the loaded material has a table of the extinction coefficient if and only if the
notations that NumPy chooses for the two tables show every abscissa as the same number. Otherwise the
extinction coefficient is zero, without any error. -/
theorem C119_criterion_partial {m m' : Material Dbl} (hx : CleanTexts m) (hc : m.cplx = Option.none)
    (hn : m.name = "nk") {o1 o2 : ℕ} {ps qs : List (Dbl × Dbl)} {s s' : Spectrum Dbl}
    {t u cl : String} (hr : m.real = some (.interp o1 ps s t u))
    (hi : m.imag = some (.interp o2 qs s' t u)) (sr : Disp.Storable (.interp o1 ps s t u))
    (si : Disp.Storable (.interp o2 qs s' t u)) (hnm : (lower t, lower u, cl) ∈ names)
    (hsame : ps.map Prod.fst = qs.map Prod.fst) (hnan : ∀ p ∈ ps, PyFloat.isNaN p.1 = false)
    (h2 : 2 ≤ ps.length) (h333 : ps.length ≤ 333) {o : KeyOrder} (ho : o.Valid) {ext : String}
    (he : IsText ext) {ic rii : Bool} (h : SavedAndLoaded o ext ic rii m m') :
    ((∃ i, m'.imag = some i ∧ IsTable i) ↔ ∀ p ∈ ps,
      cellShown (useSci (rowsOf ps).flatten) p.1 = cellShown (useSci (rowsOf qs).flatten) p.1) ∧
    ((∃ i, m'.imag = some i ∧ IsTable i) ∨ m'.imag = some (cdata (lit 0))) := by
  have hlen : ps.length = qs.length := by simpa using congrArg List.length hsame
  rw [← same_iff hsame hnan, ← printed_rows, ← printed_rows]
  have hl : (rowsOf ps).length = (rowsOf qs).length := by simp [rowsOf, hlen]
  rcases save_both hx hc hn hr hi sr si hnm hlen h2 h333 ho he h with ⟨a1, _, _, a2⟩ | ⟨a1, a2⟩
  · obtain ⟨r, i, q1, q1', q2, q3, q4, -⟩ := a2.ex
    obtain ⟨s2, rfl, -⟩ := tableData_interp (by
      have : (fileTable3 (rowsOf ps) (rowsOf qs)).length = ps.length := by
        rw [fileTable3_length hl]; simp [rowsOf]
      simpa [pairsOf, this] using h2) q1'
    have : ∃ i, m'.imag = some i ∧ IsTable i := ⟨_, q4, ⟨_, _, _, _, _, rfl⟩⟩
    exact ⟨⟨fun _ => a1, fun _ => this⟩, .inl this⟩
  · obtain ⟨r, q1, q2, q3, q4, -⟩ := a2.ex
    refine ⟨⟨?_, fun h => absurd ⟨h, rfl, rfl⟩ a1⟩, .inr q4⟩
    rintro ⟨i, e, hi⟩
    rw [q4] at e
    cases e
    exact absurd hi (cdata_not_table _)

/-- C119 as far as it holds: the extinction coefficient is kept, up to `12e-9 (1 + |x|)`, if the
abscissae are decimal numbers with at most nine digits, at most eight of them after the point. -/
theorem C119_short_partial {m m' : Material Dbl} (hx : CleanTexts m) (hc : m.cplx = Option.none)
    (hn : m.name = "nk") {o1 o2 : ℕ} {ps qs : List (Dbl × Dbl)} {s s' : Spectrum Dbl}
    {t u cl : String} (hr : m.real = some (.interp o1 ps s t u))
    (hi : m.imag = some (.interp o2 qs s' t u)) (sr : Disp.Storable (.interp o1 ps s t u))
    (si : Disp.Storable (.interp o2 qs s' t u)) (hnm : (lower t, lower u, cl) ∈ names)
    (hsame : ps.map Prod.fst = qs.map Prod.fst) (hshort : ∀ p ∈ ps, ShortDecimal p.1)
    (h2 : 2 ≤ ps.length) (h333 : ps.length ≤ 333)
    {vs us : List (ℝ × ℝ)} (hv : Readings ps vs) (hu : Readings qs us) (hb : NotHuge vs)
    (hb' : NotHuge us) {o : KeyOrder} (ho : o.Valid) {ext : String} (he : IsText ext)
    {ic rii : Bool} (h : SavedAndLoaded o ext ic rii m m') :
    ∃ s1 s2 ps' qs' ws zs, m'.name = "nk" ∧ m'.real = some (.interp 1 ps' s1 t u) ∧
      m'.imag = some (.interp 1 qs' s2 t u) ∧ Readings ps' ws ∧ Readings qs' zs ∧
      List.Forall₂ (NearPair (12 / 10 ^ 9)) vs ws ∧ List.Forall₂ (NearPair (12 / 10 ^ 9)) us zs := by
  have hlen : ps.length = qs.length := by simpa using congrArg List.length hsame
  have hs : SameAbscissae (printed (rowsOf ps)) (printed (rowsOf qs)) := by
    rw [printed_rows, printed_rows, same_iff hsame (fun p hp => (hshort p hp).noNaN)]
    intro p hp
    rw [(hshort p hp).shown, (hshort p hp).shown]
  have hz : List.zipWith (fun v u => (v.1, u.2)) vs us = us := by
    clear hr hi sr si h hb hb' hs hshort h2 h333
    unfold Readings at hv hu
    induction hv generalizing qs us with
    | nil => cases hu with
      | nil => rfl
      | cons => simp at hlen
    | @cons p v ps vs h1 _ ih =>
      cases hu with
      | nil => simp at hlen
      | @cons q u qs us h3 h4 =>
        rw [List.map_cons, List.map_cons, List.cons.injEq] at hsame
        have e : v.1 = u.1 := by
          have := h1.1
          rw [hsame.1, h3.1] at this
          injection this with this
          exact this.symm
        rw [List.zipWith_cons_cons, ih hsame.2 h4 (by simpa using hlen), e]
  have := C118_both hx hc hn hr hi sr si hnm hs hlen h2 h333 hv hu hb hb' ho he h
  rwa [hz] at this

/-! ## The claim -/

/-- C119 as stated: a material constructed from a table of index and extinction coefficient still has
a table of the extinction coefficient after it was saved to a text file and loaded. -/
def C119_statement : Prop :=
  ∀ (rd : String → Res (FileDict Dbl)) (kw : Kwargs Dbl) (c : String) (rows : List (List Dbl)),
    (kw.map Prod.fst).Nodup → PlainOptions kw →
    (lower (defaultsOf kw).1, lower (defaultsOf kw).2, c) ∈ names →
    Only kw "tabulated_nk" (.table 3) (.arr (.d2 3 .float rows)) → GoodTable 3 rows →
    2 ≤ rows.length → rows.length ≤ 333 → ∀ md, HeaderMeta md → ∀ m, Material.new rd kw = .ok m →
    ∀ o : KeyOrder, o.Valid → ∀ ext, IsText ext → ∀ ic rii m',
      SavedAndLoaded o ext ic rii { m with metaData := some md } m' →
      ∃ i, m'.imag = some i ∧ IsTable i

/-- The index 2 and the extinction coefficient 1 at 500 nm and 1000.0000019… nm. -/
def lossyTable : List (List Dbl) :=
  [[intDbl 500, intDbl 2, intDbl 1], [driftHigh, intDbl 2, intDbl 1]]

omit [SciPy Dbl] [YamlIO Dbl] in
theorem lossy_n : rowsOf (pairsOf lossyTable 1) = [[intDbl 500, intDbl 2], [driftHigh, intDbl 2]] := rfl
omit [SciPy Dbl] [YamlIO Dbl] in
theorem lossy_k : rowsOf (pairsOf lossyTable 2) = [[intDbl 500, intDbl 1], [driftHigh, intDbl 1]] := rfl

omit [SciPy Dbl] [YamlIO Dbl] in
theorem lossy_finites {a : ℤ} (ha : |a| ≤ 2 ^ 53) {r : ℝ} :
    r ∈ finites [[intDbl 500, intDbl a], [driftHigh, intDbl a]].flatten ↔
      r = 500 ∨ r = a ∨ r = 1000 + 1 / 2 ^ 19 ∨ r = a := by
  have e5 := intDbl_val (n := 500) (by norm_num)
  have e6 := intDbl_val ha
  simp only [finites, List.flatten_cons, List.flatten_nil, List.cons_append,
    List.nil_append, List.filterMap_cons, List.filterMap_nil, driftHigh_val, e5, e6]
  simp [eq_comm]

omit [SciPy Dbl] [YamlIO Dbl] in
theorem lossy_positional : useSci (rowsOf (pairsOf lossyTable 1)).flatten = false := by
  rw [lossy_n]
  refine positional_of (lo := 2) (hi := 1000 + 1 / 2 ^ 19) (by norm_num) (by norm_num)
    (by norm_num) ?_
  intro r hr
  rw [lossy_finites (by norm_num)] at hr
  rcases hr with rfl | rfl | rfl | rfl <;> norm_num [abs_of_pos]

omit [SciPy Dbl] [YamlIO Dbl] in
theorem lossy_scientific : useSci (rowsOf (pairsOf lossyTable 2)).flatten = true := by
  rw [lossy_k]
  refine scientific_of (v := 1000 + 1 / 2 ^ 19) (by norm_num) ?_ ?_
  · rw [lossy_finites (by norm_num)]; exact .inr (.inr (.inl rfl))
  · rw [lossy_finites (by norm_num)]; exact .inr (.inl (by norm_num))

theorem digits_high : cellShown true driftHigh = intDbl 1000 := by
  simp only [cellShown, driftHigh_val, if_true]
  rw [nineDigits_of (L := 3) (j := 100000000) (by norm_num) (by norm_num)
    (by norm_num) (by rw [abs_lt]; norm_num)]
  unfold intDbl
  congr 2
  norm_num

omit [SciPy Dbl] [YamlIO Dbl] in
theorem lossy_good : GoodTable 3 lossyTable := by
  have e5 := intDbl_val (n := 500) (by norm_num)
  refine ⟨by simp [lossyTable], ?_, ?_, ?_⟩
  · intro r hr
    simp only [lossyTable, List.mem_cons, List.not_mem_nil, or_false] at hr
    rcases hr with rfl | rfl <;> rfl
  · intro r hr
    simp only [lossyTable, List.mem_cons, List.not_mem_nil, or_false] at hr
    rcases hr with rfl | rfl
    · show XR.isNaN (intDbl 500).val = false
      rw [e5]; rfl
    · show XR.isNaN driftHigh.val = false
      rw [driftHigh_val]; rfl
  · simp only [lossyTable, List.pairwise_cons, List.mem_cons, List.not_mem_nil, or_false,
      forall_eq, List.Pairwise.nil, and_true, IsEmpty.forall_iff, implies_true]
    show XR.eq (intDbl 500).val driftHigh.val = false
    rw [e5, driftHigh_val]
    simp only [XR.eq, XR.le, XR.lt, XR.isNaN]
    norm_num

omit [SciPy Dbl] [YamlIO Dbl] in
theorem lossy_file : GoodTable 2 (fileTable (rowsOf (pairsOf lossyTable 1))) := by
  have e5 := intDbl_val (n := 500) (by norm_num)
  have h5 := shown_int (n := 500) (by norm_num)
  have h2 := shown_int (n := 2) (by norm_num)
  have hd : cellShown false driftNext = driftNext := by
    rw [← shown_high]; exact (decimals_grid _).decimals
  rw [fileTable_eq, lossy_positional, lossy_n]
  simp only [List.map_cons, List.map_nil, h5, h2, shown_high, hd]
  refine ⟨by simp, ?_, ?_, ?_⟩
  · intro r hr
    simp only [List.mem_cons, List.not_mem_nil, or_false] at hr
    rcases hr with rfl | rfl <;> rfl
  · intro r hr
    simp only [List.mem_cons, List.not_mem_nil, or_false] at hr
    rcases hr with rfl | rfl
    · show XR.isNaN (intDbl 500).val = false
      rw [e5]; rfl
    · show XR.isNaN driftNext.val = false
      rw [driftNext_val]; rfl
  · simp only [List.pairwise_cons, List.mem_cons, List.not_mem_nil, or_false,
      forall_eq, List.Pairwise.nil, and_true, IsEmpty.forall_iff, implies_true]
    show XR.eq (intDbl 500).val driftNext.val = false
    rw [e5, driftNext_val]
    have := driftNext_bounds.1
    simp only [XR.eq, XR.le, XR.lt, XR.isNaN]
    norm_num at this ⊢
    intro _
    linarith

/-- C119 is false: the file is written and loaded without an error, but without the extinction
coefficient. -/
theorem C119_refuted : ¬ C119_statement := by
  intro hall
  have hsrc : ("tabulated_nk", DocType.table 3) ∈ sources := by decide
  obtain ⟨h1, h2⟩ := only_three (F := Dbl) (t := "wavelength") (u := "nanometer") hsrc
    (v := .arr (.d2 3 .float lossyTable)) (by simp) (by decide)
  have hp := options_three (F := Dbl) (n := "tabulated_nk") (t := "wavelength") (u := "nanometer")
    (v := .arr (.d2 3 .float lossyTable)) (by decide) (by decide)
  have hc : (lower "wavelength", lower "nanometer", "nm") ∈ names := by decide +kernel
  have ho : (⟨fileMetaKeys, datasetMetaKeys⟩ : KeyOrder).Valid := ⟨.refl _, .refl _⟩
  obtain ⟨r, i, hr, hi, hm0⟩ := (C24_table_partial (fun _ => .error .value) _ h1 hp hc
    lossyTable).2.1 h2 lossy_good
  have hl : ∀ j, (pairsOf lossyTable j).length = 2 := fun _ => rfl
  obtain ⟨s, rfl, st⟩ := tableData_interp (by rw [hl]) hr
  obtain ⟨s', rfl, st'⟩ := tableData_interp (by rw [hl]) hi
  have hnan : ∀ p ∈ pairsOf lossyTable 1, PyFloat.isNaN p.1 = false := by
    intro p hp
    obtain ⟨r, hr, rfl⟩ := List.mem_map.1 hp
    exact lossy_good.noNaN r hr
  have hsame : (pairsOf lossyTable 1).map Prod.fst = (pairsOf lossyTable 2).map Prod.fst := rfl
  have hne : ¬ ∀ p ∈ pairsOf lossyTable 1,
      cellShown (useSci (rowsOf (pairsOf lossyTable 1)).flatten) p.1 =
        cellShown (useSci (rowsOf (pairsOf lossyTable 2)).flatten) p.1 := by
    rw [lossy_positional, lossy_scientific]
    intro hh
    have : (driftHigh, intDbl 2) ∈ pairsOf lossyTable 1 := by
      refine List.mem_map.2 ⟨[driftHigh, intDbl 2, intDbl 1], ?_, rfl⟩
      simp [lossyTable]
    have := hh _ this
    rw [show ((driftHigh, intDbl 2) : Dbl × Dbl).1 = driftHigh from rfl, shown_high,
      digits_high] at this
    exact driftNext_ne this
  have hdiff : ¬ (SameAbscissae (printed (rowsOf (pairsOf lossyTable 1)))
      (printed (rowsOf (pairsOf lossyTable 2))) ∧ "wavelength" = "wavelength" ∧
        "nanometer" = "nanometer") := by
    rw [printed_rows, printed_rows, same_iff hsame hnan]
    exact fun h => hne h.1
  have hx := cleanTexts_of (F := Dbl) (m := { blankMaterial (parsedOf
      ([("tabulated_nk", .arr (.d2 3 .float lossyTable)), ("spectrum_type", .str "wavelength"),
        ("unit", .str "nanometer")] : Kwargs Dbl)) with
      name := "nk", real := some (.interp 1 (pairsOf lossyTable 1) s "wavelength" "nanometer"),
      imag := some (.interp 1 (pairsOf lossyTable 2) s' "wavelength" "nanometer"),
      metaData := some (exampleMeta blankMeta) }) example_header rfl rfl hc
  obtain ⟨m', h⟩ := writes_loads rfl (C46_extinction_dropped hx rfl rfl rfl rfl st st' hdiff rfl
    (by rw [hl]) (by rw [hl]; norm_num)) lossy_file hc ho (ext := ".txt") (.inl rfl) false false
  have key := hall _ _ _ _ h1 hp hc h2 lossy_good (by simp [lossyTable]) (by simp [lossyTable]) _
    example_header _ hm0 _ ho ".txt" (.inl rfl) false false m' h
  exact hne ((C119_criterion_partial hx rfl rfl rfl rfl st st' hc hsame hnan (by rw [hl])
    (by rw [hl]; norm_num) ho (ext := ".txt") (.inl rfl) h).1.1 key)

theorem short_int {n : ℤ} (h : |n| < 10 ^ 9) : ShortDecimal (intDbl n) := by
  have h' : |n| ≤ 2 ^ 53 := by omega
  refine ⟨n, 0, h, by norm_num, ?_⟩
  rw [intDbl_val h', pow_zero, div_one, nearest_of_double (Dbl.double_int h')]

/-- Beside `C119_short_partial` and `C119_criterion_partial`: an index and an extinction coefficient
of more than nine digits at 500 nm and 600 nm. -/
example : ∃ (o : KeyOrder) (m m' : Material Dbl), o.Valid ∧
    SavedAndLoaded o ".txt" false false m m' ∧ (∃ i, m'.imag = some i ∧ IsTable i) ∧
    ∃ s1 s2 ps' qs' ws zs,
      m'.real = some (.interp 1 ps' s1 "wavelength" "nanometer") ∧
      m'.imag = some (.interp 1 qs' s2 "wavelength" "nanometer") ∧ Readings ps' ws ∧
      Readings qs' zs ∧ List.Forall₂ (NearPair (12 / 10 ^ 9)) driftNumbers ws ∧
      List.Forall₂ (NearPair (12 / 10 ^ 9)) driftNumbers zs := by
  have hc : (lower "wavelength", lower "nanometer", "nm") ∈ names := by decide +kernel
  have ho : (⟨fileMetaKeys, datasetMetaKeys⟩ : KeyOrder).Valid := ⟨.refl _, .refl _⟩
  obtain ⟨r, hr⟩ := tableData_ok (driftTable_good driftHigh driftLow) 1 hc
  have hl : (pairsOf (driftTable driftHigh driftLow) 1).length = 2 := rfl
  obtain ⟨s, rfl, st⟩ := tableData_interp (by rw [hl]) hr
  have hx : CleanTexts ({ fileBlank Dbl "" (exampleMeta blankMeta) with
      defType := "wavelength", defUnit := "nanometer", name := "nk",
      real := some (.interp 1 (pairsOf (driftTable driftHigh driftLow) 1) s "wavelength" "nanometer"),
      imag := some (.interp 1 (pairsOf (driftTable driftHigh driftLow) 1) s "wavelength"
        "nanometer") } : Material Dbl) := cleanTexts_of example_header rfl rfl hc
  have hshort : ∀ p ∈ pairsOf (driftTable driftHigh driftLow) 1, ShortDecimal p.1 := by
    intro p hp
    obtain ⟨r, hr, rfl⟩ := List.mem_map.1 hp
    simp only [driftTable, List.mem_cons, List.not_mem_nil, or_false] at hr
    rcases hr with rfl | rfl
    · exact short_int (n := 500) (by norm_num)
    · exact short_int (n := 600) (by norm_num)
  have hs : SameAbscissae (printed (rowsOf (pairsOf (driftTable driftHigh driftLow) 1)))
      (printed (rowsOf (pairsOf (driftTable driftHigh driftLow) 1))) := by
    rw [printed_rows, same_iff rfl (fun p hp => (hshort p hp).noNaN)]
    exact fun _ _ => rfl
  obtain ⟨m', h⟩ := C118_both_loads hx rfl rfl rfl rfl st st hc hs rfl (by rw [hl])
    (by rw [hl]; norm_num) driftNumbers_of driftNumbers_of driftNumbers_notHuge driftNumbers_notHuge
    driftNumbers_apart ho (ext := ".txt") (by simp [IsText]) false false
  obtain ⟨s1, s2, ps', qs', ws, zs, -, a2, a3, a4, a5, a6, a7⟩ := C119_short_partial hx rfl rfl rfl
    rfl st st hc rfl hshort (by rw [hl]) (by rw [hl]; norm_num) driftNumbers_of driftNumbers_of
    driftNumbers_notHuge driftNumbers_notHuge ho (ext := ".txt") (by simp [IsText]) h
  have k := (C119_criterion_partial hx rfl rfl rfl rfl st st hc rfl
    (fun p hp => (hshort p hp).noNaN) (by rw [hl]) (by rw [hl]; norm_num) ho (ext := ".txt")
    (by simp [IsText]) h).1.2 (fun _ _ => rfl)
  exact ⟨_, _, m', ho, h, k, s1, s2, ps', qs', ws, zs, a2, a3, a4, a5, a6, a7⟩

end doubles

end

end Disp

import Mathlib.Data.Finset.Card
import Mathlib.Order.Interval.Finset.Defs
import Mathlib.Data.Int.Interval
import Mathlib.Tactic.Choose
import Verif.Props.TextAccuracy
/-!
# C120: text files of tables with small abscissae
-/

namespace Disp

open Spec

noncomputable section

/-- A table that can be interpolated has distinct abscissae. -/
theorem table_nodup [SciPy Dbl] {ps : List (Dbl × Dbl)} {t u : String} {d : RealData Dbl}
    (h2 : 2 ≤ ps.length) (h : tableData .float ps t u = .ok d) : (ps.map Prod.fst).Nodup := by
  have hd : RealData.newInterp .float ps t u 1 = .ok d := by
    match ps, h2 with
    | _ :: _ :: _, _ => exact h
  obtain ⟨lo, hi, r, -, -, -, -, h5, -⟩ := newInterp_ok hd
  have hs := (noDuplicates_strict _).1 h5
  have : ((sortRows ps).map Prod.fst).Nodup := by
    rw [List.Nodup, List.pairwise_map]
    refine hs.imp ?_
    intro a b hab e
    rw [e, LawfulCmp.lt_irrefl] at hab
    cases hab
  exact ((sortRows_perm ps).map Prod.fst).nodup_iff.1 this

/-- A number of a text file is close to a multiple of `1e-8`. -/
theorem file_cell (b : Bool) {x : Dbl} {r : ℝ} (hx : x.val = .fin r) (hr : |r| ≤ 1) :
    ∃ k : ℤ, cellShown false (cellShown b x) = Dbl.rnd (.fin (k / 10 ^ 8)) ∧
      |(k : ℝ) / 10 ^ 8 - r| ≤ 13 / 10 ^ 9 := by
  have h1 : (1 : ℝ) ≤ 10 ^ 101 := one_le_pow₀ (by norm_num)
  obtain ⟨s, e1, e2⟩ := two_close b hx (hr.trans h1)
  obtain ⟨k, hk⟩ := decimals_grid (cellShown b x) s e1
  refine ⟨k, (rnd_eq_of e1 hk.symm).symm, ?_⟩
  have e3 := nearest_close ((k : ℝ) / 10 ^ 8)
  rw [← hk] at e3
  generalize (k : ℝ) / 10 ^ 8 = y at *
  have a1 := abs_add_le s (y - s)
  rw [add_sub_cancel, abs_sub_comm] at a1
  have a2 := abs_add_le r (s - r)
  rw [add_sub_cancel] at a2
  have a3 := abs_add_le (y - s) (s - r)
  rw [sub_add_sub_cancel, abs_sub_comm y s] at a3
  norm_num at e2 e3 ⊢
  linarith

/-- Few integers lie in a short interval. -/
theorem few_integers {ks : List ℤ} (hn : ks.Nodup) {a b : ℝ} (h0 : a ≤ b)
    (h : ∀ k ∈ ks, a ≤ k ∧ (k : ℝ) ≤ b) : (ks.length : ℝ) ≤ b - a + 1 := by
  have hsub : ks.toFinset ⊆ Finset.Icc ⌈a⌉ ⌊b⌋ := by
    intro k hk
    obtain ⟨h1, h2⟩ := h k (List.mem_toFinset.1 hk)
    exact Finset.mem_Icc.2 ⟨Int.ceil_le.2 h1, Int.le_floor.2 h2⟩
  have hc := Finset.card_le_card hsub
  rw [List.toFinset_card_of_nodup hn, Int.card_Icc] at hc
  have h1 := Int.le_ceil a
  have h2 := Int.floor_le b
  by_cases hpos : 0 ≤ ⌊b⌋ + 1 - ⌈a⌉
  · have : (ks.length : ℤ) ≤ ⌊b⌋ + 1 - ⌈a⌉ := by omega
    have : (ks.length : ℝ) ≤ ⌊b⌋ + 1 - ⌈a⌉ := by exact_mod_cast this
    linarith
  · have : ks.length = 0 := by omega
    rw [this]
    push_cast
    linarith

section doubles
variable [SciPy Dbl] [YamlIO Dbl]

/-- C120 as far as it holds: a text file of a table whose abscissae lie between `lo` and `hi`, not
larger than one in size, can be loaded only if the table has at most `1e8 (hi - lo) + 4` rows. So of
the visible spectrum in metres at most 34 rows can be loaded. `C118_index_loads` gives a
condition that suffices. -/
theorem C120_dense_partial {m m' : Material Dbl} (hx : CleanTexts m) (hc : m.cplx = Option.none)
    (hn : m.name = "nk") {o' : ℕ} {ps : List (Dbl × Dbl)} {s : Spectrum Dbl} {t u cl : String}
    {i : RealData Dbl} (hr : m.real = some (.interp o' ps s t u)) (hi : m.imag = some i)
    (sr : Disp.Storable (.interp o' ps s t u)) (si : Disp.Storable i) (hni : ¬ IsTable i)
    (hnm : (lower t, lower u, cl) ∈ names) (h2 : 2 ≤ ps.length) (h500 : ps.length ≤ 500)
    {lo hi' : ℝ} (hv : ∀ p ∈ ps, ∃ r, p.1.val = .fin r ∧ lo ≤ r ∧ r ≤ hi' ∧ |r| ≤ 1)
    {o : KeyOrder} (ho : o.Valid) {ext : String} (he : IsText ext) {ic rii : Bool}
    (h : SavedAndLoaded o ext ic rii m m') : (ps.length : ℝ) ≤ 10 ^ 8 * (hi' - lo) + 4 := by
  obtain ⟨r, q1, -⟩ := (save_index hx hc hn hr hi sr si hni hnm h2 h500 ho he h).ex
  have hlen : (fileTable (rowsOf ps)).length = ps.length := by rw [fileTable_length]; simp [rowsOf]
  have hnd := table_nodup (by simpa [pairsOf, hlen] using h2) q1
  rw [fileTable_eq, pairsOf_rows, List.map_map] at hnd
  generalize useSci (rowsOf ps).flatten = c at hnd
  have hk : ∀ p ∈ ps, ∃ k : ℤ, cellShown false (cellShown c p.1) = Dbl.rnd (.fin (k / 10 ^ 8)) ∧
      10 ^ 8 * lo - 13 / 10 ≤ k ∧ (k : ℝ) ≤ 10 ^ 8 * hi' + 13 / 10 := by
    intro p hp
    obtain ⟨r, e1, e2, e3, e4⟩ := hv p hp
    obtain ⟨k, k1, k2⟩ := file_cell c e1 e4
    refine ⟨k, k1, ?_⟩
    have hkk : (k : ℝ) = 10 ^ 8 * ((k : ℝ) / 10 ^ 8) := by field_simp
    rw [hkk]
    obtain ⟨b1, b2⟩ := abs_le.1 k2
    generalize (k : ℝ) / 10 ^ 8 = y at *
    norm_num at b1 b2 ⊢
    constructor <;> linarith
  choose! f hf using hk
  have hnd' : ((ps.map f).map (fun k : ℤ => Dbl.rnd (.fin (k / 10 ^ 8)))).Nodup := by
    rw [List.map_map]
    have : ps.map (Prod.fst ∘ fun p => (cellShown false (cellShown c p.1),
        cellShown false (cellShown c p.2))) =
        ps.map ((fun k : ℤ => Dbl.rnd (.fin (k / 10 ^ 8))) ∘ f) :=
      List.map_congr_left (fun p hp => (hf p hp).1)
    rw [← this]
    exact hnd
  have hlh : lo ≤ hi' := by
    obtain ⟨p, hp⟩ := List.exists_mem_of_length_pos (l := ps) (by omega)
    obtain ⟨r, -, e2, e3, -⟩ := hv p hp
    linarith
  have := few_integers hnd'.of_map (a := 10 ^ 8 * lo - 13 / 10) (b := 10 ^ 8 * hi' + 13 / 10)
    (by norm_num; linarith) (by
    intro k hk
    obtain ⟨p, hp, rfl⟩ := List.mem_map.1 hk
    exact (hf p hp).2)
  rw [List.length_map] at this
  norm_num at this ⊢
  linarith

/-! ## The claim -/

/-- C120 as stated: a table of the index with distinct abscissae that can be saved to a text file can
be loaded from it. -/
def C120_statement : Prop := ∀ o : KeyOrder, o.Valid → ∀ (m : Material Dbl) (rows : List (List Dbl))
  (t u c : String), (lower t, lower u, c) ∈ names → GoodTable 2 rows → 2 ≤ rows.length →
  rows.length ≤ 500 → CleanTexts m → HasIndex m rows t u →
  ∀ ext, IsText ext → ∀ ic rii, ∃ m', SavedAndLoaded o ext ic rii m m'

/-- The wavelength `400 nm + 5 i nm` in metres. -/
def metre (i : ℕ) : Dbl := Dbl.rnd (.fin ((400 + 5 * i) / 10 ^ 9))

/-- The visible spectrum from 400 nm to 700 nm in steps of 5 nm, in metres. -/
def metreTable : List (List Dbl) := (List.range 61).map (fun i => [metre i, intDbl 1])

omit [SciPy Dbl] [YamlIO Dbl] in
theorem metre_val {i : ℕ} (hi : i < 61) : ∃ r, (metre i).val = .fin r ∧
    |r - (400 + 5 * i) / 10 ^ 9| ≤ 1 / 10 ^ 15 ∧ 399 / 10 ^ 9 ≤ r ∧ r ≤ 701 / 10 ^ 9 := by
  have hi' : (i : ℝ) ≤ 60 := by exact_mod_cast Nat.le_of_lt_succ hi
  have h0 : (0 : ℝ) ≤ i := by positivity
  have e := nearest_close (((400 + 5 * i) / 10 ^ 9 : ℝ))
  rw [abs_of_nonneg (a := ((400 + 5 * i) / 10 ^ 9 : ℝ)) (by positivity)] at e
  have e' : |nearest ((400 + 5 * i) / 10 ^ 9 : ℝ) - (400 + 5 * i) / 10 ^ 9| ≤ 1 / 10 ^ 15 := by
    refine e.trans ?_
    norm_num
    linarith
  have hb : 399 / 10 ^ 9 ≤ nearest ((400 + 5 * i) / 10 ^ 9 : ℝ) ∧
      nearest ((400 + 5 * i) / 10 ^ 9 : ℝ) ≤ 701 / 10 ^ 9 := by
    obtain ⟨a, b⟩ := abs_le.1 e'
    generalize nearest ((400 + 5 * i) / 10 ^ 9 : ℝ) = n at *
    norm_num at a b ⊢
    constructor <;> linarith
  refine ⟨_, Dbl.rnd_fin ?_, e', hb⟩
  have : (1 : ℝ) ≤ 2 ^ 1024 := one_le_pow₀ (by norm_num)
  obtain ⟨b1, b2⟩ := hb
  generalize (2 : ℝ) ^ 1024 = B at *
  norm_num at b1 b2 ⊢
  rw [abs_of_nonneg (by linarith)]
  linarith

omit [SciPy Dbl] [YamlIO Dbl] in
theorem metreTable_good : GoodTable 2 metreTable := by
  refine ⟨by simp [metreTable], ?_, ?_, ?_⟩
  · intro r hr
    obtain ⟨i, -, rfl⟩ := List.mem_map.1 hr
    rfl
  · intro r hr
    obtain ⟨i, hi, rfl⟩ := List.mem_map.1 hr
    obtain ⟨r, e, -⟩ := metre_val (List.mem_range.1 hi)
    show XR.isNaN (metre i).val = false
    rw [e]; rfl
  · rw [metreTable, List.pairwise_map]
    refine (List.pairwise_lt_range (n := 61)).imp_of_mem ?_
    intro i j hi hj hij
    obtain ⟨r, e, e1, -⟩ := metre_val (List.mem_range.1 hi)
    obtain ⟨s, d, d1, -⟩ := metre_val (List.mem_range.1 hj)
    refine dbl_ne e d ?_
    intro heq
    subst heq
    have : (i : ℝ) + 1 ≤ j := by exact_mod_cast hij
    obtain ⟨a1, a2⟩ := abs_le.1 e1
    obtain ⟨b1, b2⟩ := abs_le.1 d1
    norm_num at a1 a2 b1 b2
    linarith

/-- C120 is false: the visible spectrum in metres in steps of 5 nm. -/
theorem C120_refuted : ¬ C120_statement := by
  intro hall
  have hc : (lower "wavelength", lower "meter", "m") ∈ names := by decide +kernel
  have hl : metreTable.length = 61 := by simp [metreTable]
  obtain ⟨m, hm, h0⟩ := drift_material hc metreTable_good (by omega) (by omega)
  have ho : (⟨fileMetaKeys, datasetMetaKeys⟩ : KeyOrder).Valid := ⟨.refl _, .refl _⟩
  obtain ⟨m', h⟩ := hall _ ho m _ _ _ _ hc metreTable_good (by omega) (by omega) hm.texts h0
    ".txt" (.inl rfl) false false
  obtain ⟨r, q1, q2, q3, q4, q5, q6, q7⟩ := h0.ex
  have hl' : (pairsOf metreTable 1).length = 61 := by simp [pairsOf, hl]
  obtain ⟨s, rfl, st⟩ := tableData_interp (by omega) q1
  have := C120_dense_partial (lo := 399 / 10 ^ 9) (hi' := 701 / 10 ^ 9) hm.texts q5 q2 q3 q4 st
    (cdata_storable _) (cdata_not_table _) hc (by omega) (by omega) (by
      intro p hp
      obtain ⟨r, hr, rfl⟩ := List.mem_map.1 hp
      obtain ⟨i, hi, rfl⟩ := List.mem_map.1 hr
      obtain ⟨r, e, -, e2, e3⟩ := metre_val (List.mem_range.1 hi)
      refine ⟨r, e, e2, e3, ?_⟩
      norm_num at e2 e3
      rw [abs_of_nonneg (by linarith)]
      linarith) ho (ext := ".txt") (.inl rfl) h
  rw [hl'] at this
  norm_num at this

/-- Beside `C120_dense_partial`: a table at a quarter and a half of a micrometre. -/
example : ∃ (o : KeyOrder) (m m' : Material Dbl), o.Valid ∧ SavedAndLoaded o ".txt" false false m m' ∧
    ∃ ps s, m.real = some (.interp 1 ps s "wavelength" "micrometer") ∧
      (∀ p ∈ ps, ∃ r, p.1.val = .fin r ∧ (1 : ℝ) / 4 ≤ r ∧ r ≤ 1 / 2 ∧ |r| ≤ 1) ∧
      (ps.length : ℝ) ≤ 10 ^ 8 * (1 / 2 - 1 / 4) + 4 := by
  have e1 := intDbl_val (n := 1) (by norm_num)
  push_cast at e1
  have q2 : (Dbl.rnd (.fin (1 / 2))).val = .fin (1 / 2) := Dbl.rnd_double
    ⟨1, -1, by norm_num, by norm_num, by norm_num, by rw [zpow_neg]; norm_num⟩
  have q4 : (Dbl.rnd (.fin (1 / 4))).val = .fin (1 / 4) := Dbl.rnd_double
    ⟨1, -2, by norm_num, by norm_num, by norm_num, by rw [zpow_neg]; norm_num⟩
  generalize Dbl.rnd (.fin (1 / 2)) = x at q2
  generalize Dbl.rnd (.fin (1 / 4)) = y at q4
  have hc : (lower "wavelength", lower "micrometer", "um") ∈ names := by decide +kernel
  have hv : Readings (pairsOf [[y, intDbl 1], [x, intDbl 1]] 1) [(1 / 4, 1), (1 / 2, 1)] :=
    .cons ⟨q4, e1⟩ (.cons ⟨q2, e1⟩ .nil)
  have hg : GoodTable 2 [[y, intDbl 1], [x, intDbl 1]] := by
    refine good_of_numbers (j := 1) (by simp) ?_ hv (by rw [List.pairwise_pair]; norm_num)
    intro r hr
    simp only [List.mem_cons, List.not_mem_nil, or_false] at hr
    rcases hr with rfl | rfl <;> rfl
  obtain ⟨m, hm, h0⟩ := drift_material hc hg (by simp) (by simp)
  have ho : (⟨fileMetaKeys, datasetMetaKeys⟩ : KeyOrder).Valid := ⟨.refl _, .refl _⟩
  obtain ⟨r, a1, a2, a3, a4, a5, a6, a7⟩ := h0.ex
  have hl : (pairsOf [[y, intDbl 1], [x, intDbl 1]] 1).length = 2 := rfl
  obtain ⟨s, rfl, st⟩ := tableData_interp (by rw [hl]) a1
  have hb : NotHuge [((1 : ℝ) / 4, (1 : ℝ)), (1 / 2, 1)] := by
    have hone : (1 : ℝ) ≤ 10 ^ 100 := one_le_pow₀ (by norm_num)
    intro v hv
    simp only [List.mem_cons, List.not_mem_nil, or_false] at hv
    generalize (10 : ℝ) ^ 100 = B at *
    rcases hv with rfl | rfl <;> constructor <;> norm_num <;> linarith
  obtain ⟨m', h⟩ := C118_index_loads hm.texts a5 a2 a3 a4 st (cdata_storable _) (cdata_not_table _)
    hc (by rw [hl]) (by rw [hl]; norm_num) hv hb (by
      unfold Apart
      rw [List.pairwise_pair]
      norm_num [abs_of_pos, abs_of_neg]) ho (ext := ".txt") (.inl rfl) false false
  have key : ∀ p ∈ pairsOf [[y, intDbl 1], [x, intDbl 1]] 1,
      ∃ r, p.1.val = .fin r ∧ (1 : ℝ) / 4 ≤ r ∧ r ≤ 1 / 2 ∧ |r| ≤ 1 := by
    intro p hp
    obtain ⟨q, hq, rfl⟩ := List.mem_map.1 hp
    simp only [List.mem_cons, List.not_mem_nil, or_false] at hq
    rcases hq with rfl | rfl
    · exact ⟨1 / 4, q4, by norm_num, by norm_num, by norm_num [abs_of_pos]⟩
    · exact ⟨1 / 2, q2, by norm_num, by norm_num, by norm_num [abs_of_pos]⟩
  exact ⟨_, m, m', ho, h, _, s, a3, key, C120_dense_partial hm.texts a5 a2 a3 a4 st
    (cdata_storable _) (cdata_not_table _) hc (by rw [hl]) (by rw [hl]; norm_num) key ho
    (ext := ".txt") (.inl rfl) h⟩

end doubles

end

end Disp

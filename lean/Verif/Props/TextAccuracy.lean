import Mathlib.Tactic.Linarith
import Mathlib.Tactic.Positivity
import Verif.Props.TableAccuracy
import Verif.Props.TextDriftCase
/-!
# C118: how exactly text files hold numbers
-/

namespace Disp

open Spec

noncomputable section

/-! ## One number -/

theorem nearest_close (z : ℝ) : |nearest z - z| ≤ |z| / 2 ^ 53 + 1 / 10 ^ 20 := by
  by_cases h : (2 : ℝ) ^ (-1022 : ℤ) ≤ |z|
  · have := nearest_rel h
    have : (0 : ℝ) ≤ 1 / 10 ^ 20 := by positivity
    linarith [nearest_rel h]
  · have hz : |z| < 2 ^ (-1022 : ℤ) := not_le.1 h
    by_cases h0 : z = 0
    · rw [h0, nearest_zero]; norm_num
    have h1 := nearest_err z
    have h2 : ulpExp z ≤ -1074 := by
      unfold ulpExp
      have := (Int.lt_zpow_iff_log_lt (b := 2) (x := -1022) (R := ℝ) (by norm_num)
        (abs_pos.2 h0)).1 (by exact_mod_cast hz)
      omega
    have h3 : (2 : ℝ) ^ ulpExp z ≤ 2 ^ (-70 : ℤ) := zpow_le_zpow_right₀ (by norm_num) (by omega)
    have h4 : (2 : ℝ) ^ (-70 : ℤ) ≤ 1 / 10 ^ 20 := by
      rw [zpow_neg]; norm_num
    have h5 := h3.trans h4
    have : 0 ≤ |z| / 2 ^ 53 := by positivity
    have : (0 : ℝ) ≤ 1 / 10 ^ 20 := by positivity
    linarith

theorem huge_lt : (10 : ℝ) ^ 103 < 2 ^ 1024 := by
  have : 10 ^ 103 < 2 ^ 1024 := by decide +kernel
  exact_mod_cast this

theorem shown_step {z x a b : ℝ} (ha : 0 ≤ a) (hb : 0 ≤ b) (ha1 : a ≤ 1 / 10) (hb1 : b ≤ 1 / 10)
    (hx : |x| ≤ 10 ^ 102) (h : |z - x| ≤ a + b * |x|) :
    (Dbl.rnd (.fin z)).val = .fin (nearest z) ∧
      |nearest z - x| ≤ (a + 1 / 10 ^ 14) + (b + 1 / 10 ^ 14) * |x| := by
  have hz : |z| ≤ |x| + (a + b * |x|) := by
    have : |z| ≤ |x| + |z - x| := by
      have := abs_add_le x (z - x)
      rwa [add_sub_cancel] at this
    linarith
  have h0 := abs_nonneg x
  have hz2 : |z| ≤ 2 * |x| + 1 := by nlinarith
  have hn := nearest_close z
  have hd : |z| / 2 ^ 53 ≤ (2 * |x| + 1) / 2 ^ 53 := by gcongr
  have hn' : |nearest z - z| ≤ 1 / 10 ^ 14 + 1 / 10 ^ 14 * |x| := by
    have e : (2 * |x| + 1) / 2 ^ 53 = 2 / 2 ^ 53 * |x| + 1 / 2 ^ 53 := by ring
    rw [e] at hd
    have c1 : (2 : ℝ) / 2 ^ 53 ≤ 1 / 10 ^ 14 := by norm_num
    have c2 : (1 : ℝ) / 2 ^ 53 + 1 / 10 ^ 20 ≤ 1 / 10 ^ 14 := by norm_num
    have := mul_le_mul_of_nonneg_right c1 h0
    linarith
  have ht : |nearest z - x| ≤ (a + 1 / 10 ^ 14) + (b + 1 / 10 ^ 14) * |x| := by
    have := abs_add_le (nearest z - z) (z - x)
    rw [sub_add_sub_cancel] at this
    linarith
  refine ⟨Dbl.rnd_fin ?_, ht⟩
  have : |nearest z| ≤ |x| + |nearest z - x| := by
    have := abs_add_le x (nearest z - x)
    rwa [add_sub_cancel] at this
  have e14 : (1 : ℝ) / 10 ^ 14 ≤ 1 / 10 := by norm_num
  have : |nearest z| ≤ 2 * |x| + 1 := by nlinarith
  refine lt_of_le_of_lt (this.trans ?_) huge_lt
  have e : (10 : ℝ) ^ 103 = 10 * 10 ^ 102 := by norm_num
  have h1 : (1 : ℝ) ≤ 10 ^ 102 := one_le_pow₀ (by norm_num)
  rw [e]
  linarith

theorem roundDec_err (x : ℝ) : |XR.roundDec 8 x - x| ≤ 5 / 10 ^ 9 := by
  have := XR.rint_sub_le (x * 10 ^ 8)
  have e : XR.roundDec 8 x - x = (XR.rint (x * 10 ^ 8) - x * 10 ^ 8) / 10 ^ 8 := by
    unfold XR.roundDec; field_simp
  rw [e, abs_div, abs_of_pos (by positivity : (0 : ℝ) < 10 ^ 8), div_le_iff₀ (by positivity)]
  norm_num at this ⊢
  linarith

theorem nineDigits_err (x : ℝ) : |nineDigits x - x| ≤ 5 / 10 ^ 9 * |x| := by
  by_cases h0 : x = 0
  · simp [h0, nineDigits_zero]
  have hu := ten_zpow_pos (Int.log 10 |x| - 8)
  obtain ⟨h1, -⟩ := log_bounds h0
  rw [le_div_iff₀ hu] at h1
  rw [nineDigits_eq]
  generalize (10 : ℝ) ^ (Int.log 10 |x| - 8) = w at *
  have := XR.rint_sub_le (x / w)
  have e : (XR.rint (x / w) : ℝ) * w - x = (XR.rint (x / w) - x / w) * w := by
    field_simp
  rw [e, abs_mul, abs_of_pos hu]
  have := mul_le_mul_of_nonneg_right this hu.le
  norm_num at this h1 ⊢
  linarith

/-- A number in an array or with eight decimals. -/
theorem cellShown_close (b : Bool) {x : Dbl} {r : ℝ} (hx : x.val = .fin r) (hr : |r| ≤ 10 ^ 102) :
    ∃ s, (cellShown b x).val = .fin s ∧
      |s - r| ≤ (if b then 0 else 5 / 10 ^ 9) + 1 / 10 ^ 14 +
        ((if b then 5 / 10 ^ 9 else 0) + 1 / 10 ^ 14) * |r| := by
  simp only [cellShown, hx]
  cases b with
  | true =>
    simp only [if_true]
    exact ⟨_, shown_step le_rfl (by norm_num) (by norm_num) (by norm_num) hr
      (by rw [zero_add]; exact nineDigits_err r)⟩
  | false =>
    simp only [Bool.false_eq_true, if_false]
    exact ⟨_, shown_step (by norm_num) le_rfl (by norm_num) (by norm_num) hr
      (by rw [zero_mul, add_zero]; exact roundDec_err r)⟩

/-- A number in a table with two columns. -/
theorem two_close (b : Bool) {x : Dbl} {r : ℝ} (hx : x.val = .fin r) (hr : |r| ≤ 10 ^ 101) :
    ∃ s, (cellShown false (cellShown b x)).val = .fin s ∧ |s - r| ≤ 6 / 10 ^ 9 * (1 + |r|) := by
  have h0 := abs_nonneg r
  have hbig : (10 : ℝ) ^ 102 = 10 * 10 ^ 101 := by norm_num
  have hone : (1 : ℝ) ≤ 10 ^ 101 := one_le_pow₀ (by norm_num)
  obtain ⟨s, h1, h2⟩ := cellShown_close b hx (by rw [hbig]; linarith)
  cases b with
  | false =>
    rw [(decimals_grid x).decimals]
    refine ⟨s, h1, ?_⟩
    norm_num at h2 ⊢
    linarith
  | true =>
    simp only [if_true, zero_add] at h2
    have hs : |s| ≤ |r| + |s - r| := by
      have := abs_add_le r (s - r)
      rwa [add_sub_cancel] at this
    have hs2 : |s| ≤ 2 * |r| + 1 := by norm_num at h2; linarith
    obtain ⟨q, h3, h4⟩ := cellShown_close false h1 (by rw [hbig]; linarith)
    refine ⟨q, h3, ?_⟩
    simp only [Bool.false_eq_true, if_false] at h4
    have := abs_add_le (q - s) (s - r)
    rw [sub_add_sub_cancel] at this
    norm_num at h2 h4 ⊢
    linarith

/-- A number in a table with three columns. -/
theorem three_close (a b : Bool) {x : Dbl} {r : ℝ} (hx : x.val = .fin r) (hr : |r| ≤ 10 ^ 100) :
    ∃ s, (cellShown false (cellShown b (cellShown a x))).val = .fin s ∧
      |s - r| ≤ 12 / 10 ^ 9 * (1 + |r|) := by
  have h0 := abs_nonneg r
  have hbig : (10 : ℝ) ^ 102 = 100 * 10 ^ 100 := by norm_num
  have hbig' : (10 : ℝ) ^ 101 = 10 * 10 ^ 100 := by norm_num
  have hone : (1 : ℝ) ≤ 10 ^ 100 := one_le_pow₀ (by norm_num)
  obtain ⟨s, h1, h2⟩ := cellShown_close a hx (by rw [hbig]; linarith)
  have h2' : |s - r| ≤ 51 / 10 ^ 10 * (1 + |r|) := by
    cases a <;> simp only [Bool.false_eq_true, if_false, if_true] at h2 <;> norm_num at h2 ⊢ <;>
      linarith
  have hs : |s| ≤ |r| + |s - r| := by
    have := abs_add_le r (s - r)
    rwa [add_sub_cancel] at this
  have hs2 : |s| ≤ 2 * |r| + 1 := by norm_num at h2'; linarith
  obtain ⟨q, h3, h4⟩ := two_close b h1 (by rw [hbig']; linarith)
  refine ⟨q, h3, ?_⟩
  have := abs_add_le (q - s) (s - r)
  rw [sub_add_sub_cancel] at this
  norm_num at h2' h4 ⊢
  linarith

/-! ## Tables -/

/-- The numbers of a table. -/
def Spec.Readings (ps : List (Dbl × Dbl)) (vs : List (ℝ × ℝ)) : Prop :=
  List.Forall₂ (fun p v => p.1.val = .fin v.1 ∧ p.2.val = .fin v.2) ps vs

/-- Both numbers are nearly the same. -/
def Spec.NearPair (ε : ℝ) (v w : ℝ × ℝ) : Prop :=
  |w.1 - v.1| ≤ ε * (1 + |v.1|) ∧ |w.2 - v.2| ≤ ε * (1 + |v.2|)

/-- No number is huge. -/
def Spec.NotHuge (vs : List (ℝ × ℝ)) : Prop := ∀ v ∈ vs, |v.1| ≤ 10 ^ 100 ∧ |v.2| ≤ 10 ^ 100

/-- The abscissae are so far apart that errors do not make them equal. -/
def Spec.Apart (ε : ℝ) (vs : List (ℝ × ℝ)) : Prop :=
  vs.Pairwise (fun v w => ε * (1 + |v.1|) + ε * (1 + |w.1|) < |v.1 - w.1|)

section pairs
variable {F : Type} [PyFloat F]

theorem pairsOf_rows (g : F → F) (ps : List (F × F)) :
    pairsOf ((rowsOf ps).map (fun r => r.map g)) 1 = ps.map (fun p => (g p.1, g p.2)) := by
  induction ps with
  | nil => rfl
  | cons p ps ih =>
    rw [rowsOf_cons, List.map_cons, pairsOf_cons, ih]
    rfl

theorem pairsOf_joined_one (a b g : F → F) : ∀ (ps qs : List (F × F)), ps.length = qs.length →
    pairsOf ((joined ((rowsOf ps).map (fun r => r.map a)) ((rowsOf qs).map (fun r => r.map b))).map
      (fun r => r.map g)) 1 = ps.map (fun p => (g (a p.1), g (a p.2)))
  | [], qs, _ => by cases qs <;> rfl
  | p :: ps, q :: qs, h => by
    have := pairsOf_joined_one a b g ps qs (by simpa using h)
    rw [show rowsOf (p :: ps) = [p.1, p.2] :: rowsOf ps from rfl,
      show rowsOf (q :: qs) = [q.1, q.2] :: rowsOf qs from rfl,
      List.map_cons (l := rowsOf ps), List.map_cons (l := rowsOf qs), joined_cons, List.map_cons,
      pairsOf_cons, this]
    rfl

theorem pairsOf_joined_two (a b g : F → F) : ∀ (ps qs : List (F × F)), ps.length = qs.length →
    pairsOf ((joined ((rowsOf ps).map (fun r => r.map a)) ((rowsOf qs).map (fun r => r.map b))).map
      (fun r => r.map g)) 2 = List.zipWith (fun p q => (g (a p.1), g (b q.2))) ps qs
  | [], qs, _ => by cases qs <;> rfl
  | p :: ps, q :: qs, h => by
    have := pairsOf_joined_two a b g ps qs (by simpa using h)
    rw [show rowsOf (p :: ps) = [p.1, p.2] :: rowsOf ps from rfl,
      show rowsOf (q :: qs) = [q.1, q.2] :: rowsOf qs from rfl,
      List.map_cons (l := rowsOf ps), List.map_cons (l := rowsOf qs), joined_cons, List.map_cons,
      pairsOf_cons, this]
    rfl

end pairs

theorem fileTable_eq (rows : List (List Dbl)) : fileTable rows = rows.map (fun r => r.map
    (fun x => cellShown false (cellShown (useSci rows.flatten) x))) := by
  rw [fileTable, printed_dbl, List.map_map]
  refine List.map_congr_left (fun r _ => ?_)
  show (r.map _).map _ = _
  rw [List.map_map]
  rfl

/-- If all numbers are shown nearly, so is the table. -/
theorem readings_map {f g : Dbl → Dbl} {ε : ℝ} {ps : List (Dbl × Dbl)} {vs : List (ℝ × ℝ)}
    (hf : ∀ x r, x.val = .fin r → |r| ≤ 10 ^ 100 → ∃ s, (f x).val = .fin s ∧ |s - r| ≤ ε * (1 + |r|))
    (hg : ∀ x r, x.val = .fin r → |r| ≤ 10 ^ 100 → ∃ s, (g x).val = .fin s ∧ |s - r| ≤ ε * (1 + |r|))
    (h : Readings ps vs) (hb : NotHuge vs) : ∃ ws, Readings (ps.map (fun p => (f p.1, g p.2))) ws ∧
      List.Forall₂ (NearPair ε) vs ws := by
  unfold Readings at h ⊢
  induction h with
  | nil => exact ⟨[], .nil, .nil⟩
  | @cons p v ps vs h _ ih =>
    obtain ⟨ws, i1, i2⟩ := ih (fun v hv => hb v (List.mem_cons_of_mem _ hv))
    obtain ⟨b1, b2⟩ := hb v (List.mem_cons_self ..)
    obtain ⟨s, s1, s2⟩ := hf _ _ h.1 b1
    obtain ⟨q, q1, q2⟩ := hg _ _ h.2 b2
    exact ⟨(s, q) :: ws, .cons ⟨s1, q1⟩ i1, .cons ⟨s2, q2⟩ i2⟩

/-- The abscissae remain distinct. -/
theorem distinct_of_near {ε : ℝ} {vs ws : List (ℝ × ℝ)} (h : List.Forall₂ (NearPair ε) vs ws)
    (ha : Apart ε vs) : ws.Pairwise (fun v w => v.1 ≠ w.1) := by
  unfold Apart at ha
  induction h with
  | nil => exact .nil
  | @cons v w vs ws h hr ih =>
    rw [List.pairwise_cons] at ha ⊢
    refine ⟨fun w' hw' e => ?_, ih ha.2⟩
    obtain ⟨v', hv', hn⟩ := mem_of_forall₂' hr hw'
    have h1 := h.1
    have h2 := hn.1
    have h3 := ha.1 v' hv'
    have : |v.1 - v'.1| ≤ |w.1 - v.1| + |w'.1 - v'.1| := by
      rw [← e]
      have := abs_sub (v.1 - w.1) (v'.1 - w.1)
      rw [abs_sub_comm w.1 v.1, abs_sub_comm w.1 v'.1]
      rwa [sub_sub_sub_cancel_right] at this
    linarith

theorem dbl_ne {a b : Dbl} {x y : ℝ} (ha : a.val = .fin x) (hb : b.val = .fin y) (h : x ≠ y) :
    PyFloat.eq a b = false := by
  cases he : PyFloat.eq a b with
  | false => rfl
  | true =>
    have := eq_of_dblEq he
    rw [this, hb] at ha
    injection ha with ha
    exact absurd ha.symm h

/-- The table of a text file can be interpolated. -/
theorem good_of_numbers {n : ℕ} {rows : List (List Dbl)} (hne : rows ≠ [])
    (hw : ∀ r ∈ rows, r.length = n) {ws : List (ℝ × ℝ)} {j : ℕ} (h : Readings (pairsOf rows j) ws)
    (hd : ws.Pairwise (fun v w => v.1 ≠ w.1)) : GoodTable n rows := by
  refine ⟨hne, hw, ?_, ?_⟩
  · clear hne hw hd
    unfold Readings at h
    induction rows generalizing ws with
    | nil => intro r hr; cases hr
    | cons q rows ih =>
      rw [pairsOf_cons] at h
      cases h with
      | cons h1 h2 =>
        intro r hr
        rcases List.mem_cons.1 hr with rfl | hr
        · show XR.isNaN (rowX r).val = false
          have := h1.1
          simp only at this
          rw [this]; rfl
        · exact ih h2 r hr
  · clear hne hw
    unfold Readings at h
    induction rows generalizing ws with
    | nil => exact .nil
    | cons q rows ih =>
      rw [pairsOf_cons] at h
      cases h with
      | @cons _ w _ ws h1 h2 =>
        rw [List.pairwise_cons] at hd ⊢
        refine ⟨fun r hr => ?_, ih h2 hd.2⟩
        have hm : (rowX r, r.getD j (lit 0)) ∈ pairsOf rows j := List.mem_map.2 ⟨r, hr, rfl⟩
        obtain ⟨w', hw', e⟩ := mem_of_forall₂ h2 hm
        exact dbl_ne h1.1 e.1 (hd.1 w' hw')

/-! ## C118 -/

section doubles
variable [SciPy Dbl] [YamlIO Dbl]

theorem rowsOf_ne {ps : List (Dbl × Dbl)} (h : 2 ≤ ps.length) : fileTable (rowsOf ps) ≠ [] := by
  intro e
  have := fileTable_length (rowsOf ps)
  rw [e] at this
  simp [rowsOf] at this
  omega

theorem fileTable_numbers {ps : List (Dbl × Dbl)} {vs : List (ℝ × ℝ)} (hv : Readings ps vs)
    (hb : NotHuge vs) : ∃ ws, Readings (pairsOf (fileTable (rowsOf ps)) 1) ws ∧
      List.Forall₂ (NearPair (6 / 10 ^ 9)) vs ws := by
  rw [fileTable_eq, pairsOf_rows]
  have key : ∀ x r, Dbl.val x = .fin r → |r| ≤ 10 ^ 100 → ∃ s,
      (cellShown false (cellShown (useSci (rowsOf ps).flatten) x)).val = .fin s ∧
        |s - r| ≤ 6 / 10 ^ 9 * (1 + |r|) :=
    fun x r h1 h2 => two_close _ h1 (h2.trans (by norm_num))
  exact readings_map key key hv hb

/-- C118 for a table of the refractive index, with an extinction coefficient that is not a table:
whatever is loaded from the text file has the same spectrum type and unit, and its numbers differ
from the saved ones by at most `6e-9 (1 + |x|)`. -/
theorem C118_index {m m' : Material Dbl} (hx : CleanTexts m) (hc : m.cplx = Option.none)
    (hn : m.name = "nk") {o' : ℕ} {ps : List (Dbl × Dbl)} {s : Spectrum Dbl} {t u cl : String}
    {i : RealData Dbl} (hr : m.real = some (.interp o' ps s t u)) (hi : m.imag = some i)
    (sr : Disp.Storable (.interp o' ps s t u)) (si : Disp.Storable i) (hni : ¬ IsTable i)
    (hnm : (lower t, lower u, cl) ∈ names) (h2 : 2 ≤ ps.length) (h500 : ps.length ≤ 500)
    {vs : List (ℝ × ℝ)} (hv : Readings ps vs) (hb : NotHuge vs)
    {o : KeyOrder} (ho : o.Valid) {ext : String} (he : IsText ext) {ic rii : Bool}
    (h : SavedAndLoaded o ext ic rii m m') :
    ∃ s' ps' ws, m'.name = "nk" ∧ m'.real = some (.interp 1 ps' s' t u) ∧
      m'.imag = some (cdata (lit 0)) ∧ Readings ps' ws ∧
      List.Forall₂ (NearPair (6 / 10 ^ 9)) vs ws := by
  obtain ⟨ws, w1, w2⟩ := fileTable_numbers hv hb
  obtain ⟨r, q1, q2, q3, q4, -⟩ := (save_index hx hc hn hr hi sr si hni hnm h2 h500 ho he h).ex
  obtain ⟨s', rfl, -⟩ := tableData_interp (by
    have : (fileTable (rowsOf ps)).length = ps.length := by rw [fileTable_length]; simp [rowsOf]
    simpa [pairsOf, this] using h2) q1
  exact ⟨s', _, ws, q2, q3, q4, w1, w2⟩

/-- C118: it can be saved and loaded if the abscissae are sufficiently far apart. -/
theorem C118_index_loads {m : Material Dbl} (hx : CleanTexts m) (hc : m.cplx = Option.none)
    (hn : m.name = "nk") {o' : ℕ} {ps : List (Dbl × Dbl)} {s : Spectrum Dbl} {t u cl : String}
    {i : RealData Dbl} (hr : m.real = some (.interp o' ps s t u)) (hi : m.imag = some i)
    (sr : Disp.Storable (.interp o' ps s t u)) (si : Disp.Storable i) (hni : ¬ IsTable i)
    (hnm : (lower t, lower u, cl) ∈ names) (h2 : 2 ≤ ps.length) (h500 : ps.length ≤ 500)
    {vs : List (ℝ × ℝ)} (hv : Readings ps vs) (hb : NotHuge vs) (ha : Apart (6 / 10 ^ 9) vs)
    {o : KeyOrder} (ho : o.Valid) {ext : String} (he : IsText ext) (ic rii : Bool) :
    ∃ m', SavedAndLoaded o ext ic rii m m' := by
  obtain ⟨ws, w1, w2⟩ := fileTable_numbers hv hb
  obtain ⟨m', _, _, _, e, -⟩ := C92_index hx hc hn hr hi sr si hni hnm h2 h500
    (good_of_numbers (rowsOf_ne h2) (fileTable_width rowsOf_length) w1 (distinct_of_near w2 ha))
    ho he ic rii
  exact ⟨m', e⟩

theorem printed_rows (ps : List (Dbl × Dbl)) : printed (rowsOf ps) =
    (rowsOf ps).map (fun r => r.map (cellShown (useSci (rowsOf ps).flatten))) := printed_dbl _

theorem readings_zip {f g : Dbl → Dbl} {ε : ℝ} {ps qs : List (Dbl × Dbl)} {vs us : List (ℝ × ℝ)}
    (hf : ∀ x r, x.val = .fin r → |r| ≤ 10 ^ 100 → ∃ s, (f x).val = .fin s ∧ |s - r| ≤ ε * (1 + |r|))
    (hg : ∀ x r, x.val = .fin r → |r| ≤ 10 ^ 100 → ∃ s, (g x).val = .fin s ∧ |s - r| ≤ ε * (1 + |r|))
    (h : Readings ps vs) (h' : Readings qs us) (hb : NotHuge vs) (hb' : NotHuge us) :
    ∃ ws, Readings (List.zipWith (fun p q => (f p.1, g q.2)) ps qs) ws ∧
      List.Forall₂ (NearPair ε) (List.zipWith (fun v u => (v.1, u.2)) vs us) ws := by
  unfold Readings at h h' ⊢
  induction h generalizing qs us with
  | nil => exact ⟨[], .nil, .nil⟩
  | @cons p v ps vs h _ ih =>
    cases h' with
    | nil => exact ⟨[], .nil, .nil⟩
    | @cons q u qs us h1 h2 =>
      obtain ⟨ws, i1, i2⟩ := ih h2 (fun v hv => hb v (List.mem_cons_of_mem _ hv))
        (fun v hv => hb' v (List.mem_cons_of_mem _ hv))
      obtain ⟨b1, -⟩ := hb v (List.mem_cons_self ..)
      obtain ⟨-, b2⟩ := hb' u (List.mem_cons_self ..)
      obtain ⟨s, s1, s2⟩ := hf _ _ h.1 b1
      obtain ⟨z, z1, z2⟩ := hg _ _ h1.2 b2
      exact ⟨(s, z) :: ws, .cons ⟨s1, z1⟩ i1, .cons ⟨s2, z2⟩ i2⟩

theorem fileTable3_numbers {ps qs : List (Dbl × Dbl)} {vs us : List (ℝ × ℝ)} (hv : Readings ps vs)
    (hu : Readings qs us) (hb : NotHuge vs) (hb' : NotHuge us) (hl : ps.length = qs.length) :
    (∃ ws, Readings (pairsOf (fileTable3 (rowsOf ps) (rowsOf qs)) 1) ws ∧
      List.Forall₂ (NearPair (12 / 10 ^ 9)) vs ws) ∧
    ∃ zs, Readings (pairsOf (fileTable3 (rowsOf ps) (rowsOf qs)) 2) zs ∧
      List.Forall₂ (NearPair (12 / 10 ^ 9)) (List.zipWith (fun v u => (v.1, u.2)) vs us) zs := by
  rw [fileTable3, fileTable_eq]
  generalize useSci (joined (printed (rowsOf ps)) (printed (rowsOf qs))).flatten = c
  rw [printed_rows, printed_rows, pairsOf_joined_one _ _ _ _ _ hl, pairsOf_joined_two _ _ _ _ _ hl]
  have key : ∀ a x r, Dbl.val x = .fin r → |r| ≤ 10 ^ 100 → ∃ s,
      (cellShown false (cellShown c (cellShown a x))).val = .fin s ∧
        |s - r| ≤ 12 / 10 ^ 9 * (1 + |r|) :=
    fun a x r h1 h2 => three_close _ _ h1 h2
  exact ⟨readings_map (key _) (key _) hv hb, readings_zip (key _) (key _) hv hu hb hb'⟩

/-- C118 for tables of both parts whose abscissae are printed alike: errors of at most
`12e-9 (1 + |x|)`. -/
theorem C118_both {m m' : Material Dbl} (hx : CleanTexts m) (hc : m.cplx = Option.none)
    (hn : m.name = "nk") {o1 o2 : ℕ} {ps qs : List (Dbl × Dbl)} {s s' : Spectrum Dbl}
    {t u cl : String} (hr : m.real = some (.interp o1 ps s t u))
    (hi : m.imag = some (.interp o2 qs s' t u)) (sr : Disp.Storable (.interp o1 ps s t u))
    (si : Disp.Storable (.interp o2 qs s' t u)) (hnm : (lower t, lower u, cl) ∈ names)
    (hsame : SameAbscissae (printed (rowsOf ps)) (printed (rowsOf qs)))
    (hlen : ps.length = qs.length) (h2 : 2 ≤ ps.length) (h333 : ps.length ≤ 333)
    {vs us : List (ℝ × ℝ)} (hv : Readings ps vs) (hu : Readings qs us) (hb : NotHuge vs)
    (hb' : NotHuge us) {o : KeyOrder} (ho : o.Valid) {ext : String} (he : IsText ext)
    {ic rii : Bool} (h : SavedAndLoaded o ext ic rii m m') :
    ∃ s1 s2 ps' qs' ws zs, m'.name = "nk" ∧ m'.real = some (.interp 1 ps' s1 t u) ∧
      m'.imag = some (.interp 1 qs' s2 t u) ∧ Readings ps' ws ∧ Readings qs' zs ∧
      List.Forall₂ (NearPair (12 / 10 ^ 9)) vs ws ∧
      List.Forall₂ (NearPair (12 / 10 ^ 9)) (List.zipWith (fun v u => (v.1, u.2)) vs us) zs := by
  obtain ⟨⟨ws, w1, w2⟩, zs, z1, z2⟩ := fileTable3_numbers hv hu hb hb' hlen
  rcases save_both hx hc hn hr hi sr si hnm hlen h2 h333 ho he h with ⟨_, _, _, a2⟩ | ⟨a1, _⟩
  · obtain ⟨r, i, q1, q1', q2, q3, q4, -⟩ := a2.ex
    have hl : (rowsOf ps).length = (rowsOf qs).length := by simp [rowsOf, hlen]
    have hlen' : ∀ j, 2 ≤ (pairsOf (fileTable3 (rowsOf ps) (rowsOf qs)) j).length := by
      intro j
      have : (fileTable3 (rowsOf ps) (rowsOf qs)).length = ps.length := by
        rw [fileTable3_length hl]; simp [rowsOf]
      simpa [pairsOf, this] using h2
    obtain ⟨s1, rfl, -⟩ := tableData_interp (hlen' 1) q1
    obtain ⟨s2, rfl, -⟩ := tableData_interp (hlen' 2) q1'
    exact ⟨s1, s2, _, _, ws, zs, q2, q3, q4, w1, z1, w2, z2⟩
  · exact absurd ⟨hsame, rfl, rfl⟩ a1

/-- C118: tables of both parts can be saved and loaded if the abscissae are sufficiently far
apart. -/
theorem C118_both_loads {m : Material Dbl} (hx : CleanTexts m) (hc : m.cplx = Option.none)
    (hn : m.name = "nk") {o1 o2 : ℕ} {ps qs : List (Dbl × Dbl)} {s s' : Spectrum Dbl}
    {t u cl : String} (hr : m.real = some (.interp o1 ps s t u))
    (hi : m.imag = some (.interp o2 qs s' t u)) (sr : Disp.Storable (.interp o1 ps s t u))
    (si : Disp.Storable (.interp o2 qs s' t u)) (hnm : (lower t, lower u, cl) ∈ names)
    (hsame : SameAbscissae (printed (rowsOf ps)) (printed (rowsOf qs)))
    (hlen : ps.length = qs.length) (h2 : 2 ≤ ps.length) (h333 : ps.length ≤ 333)
    {vs us : List (ℝ × ℝ)} (hv : Readings ps vs) (hu : Readings qs us) (hb : NotHuge vs)
    (hb' : NotHuge us) (ha : Apart (12 / 10 ^ 9) vs) {o : KeyOrder} (ho : o.Valid) {ext : String}
    (he : IsText ext) (ic rii : Bool) : ∃ m', SavedAndLoaded o ext ic rii m m' := by
  obtain ⟨⟨ws, w1, w2⟩, -⟩ := fileTable3_numbers hv hu hb hb' hlen
  have hl : (rowsOf ps).length = (rowsOf qs).length := by simp [rowsOf, hlen]
  obtain ⟨m', _, _, _, _, e, -⟩ := C92_index_extinction hx hc hn hr hi sr si hnm hsame hlen h2 h333
    (good_of_numbers (by
      intro e
      have := fileTable3_length hl
      rw [fileTable3, fileTable, e] at this
      simp [rowsOf] at this
      omega) (fileTable_width (joined_three (printed_width rowsOf_length))) w1
      (distinct_of_near w2 ha)) ho he ic rii
  exact ⟨m', e⟩

theorem NearPair.twice {vs ws zs : List (ℝ × ℝ)} (h : List.Forall₂ (NearPair (6 / 10 ^ 9)) vs ws)
    (h' : List.Forall₂ (NearPair (6 / 10 ^ 9)) ws zs) :
    List.Forall₂ (NearPair (13 / 10 ^ 9)) vs zs := by
  have key : ∀ x y z : ℝ, |y - x| ≤ 6 / 10 ^ 9 * (1 + |x|) → |z - y| ≤ 6 / 10 ^ 9 * (1 + |y|) →
      |z - x| ≤ 13 / 10 ^ 9 * (1 + |x|) := by
    intro x y z h1 h2
    have h0 := abs_nonneg x
    have a1 := abs_add_le x (y - x)
    rw [add_sub_cancel] at a1
    have a2 := abs_add_le (z - y) (y - x)
    rw [sub_add_sub_cancel] at a2
    norm_num at h1 h2 ⊢
    linarith
  induction h generalizing zs with
  | nil => cases h'; exact .nil
  | cons h1 _ ih =>
    cases h' with
    | cons h2 h3 => exact .cons ⟨key _ _ _ h1.1 h2.1, key _ _ _ h1.2 h2.2⟩ (ih h3)

/-- C118 for any number of save and load cycles, with any of the text formats in any sequence: the
numbers stay within `13e-9 (1 + |x|)` of those of the first material. -/
theorem C118_many {m m' : Material Dbl} (hx : CleanTexts m) (hc : m.cplx = Option.none)
    (hn : m.name = "nk") {o' : ℕ} {ps : List (Dbl × Dbl)} {s : Spectrum Dbl} {t u cl : String}
    {i : RealData Dbl} (hr : m.real = some (.interp o' ps s t u)) (hi : m.imag = some i)
    (sr : Disp.Storable (.interp o' ps s t u)) (si : Disp.Storable i) (hni : ¬ IsTable i)
    (hnm : (lower t, lower u, cl) ∈ names) (h2 : 2 ≤ ps.length) (h500 : ps.length ≤ 500)
    {vs : List (ℝ × ℝ)} (hv : Readings ps vs) (hb : ∀ v ∈ vs, |v.1| ≤ 10 ^ 99 ∧ |v.2| ≤ 10 ^ 99)
    {o : KeyOrder} (ho : o.Valid) {k : ℕ} (hk : 1 ≤ k) (h : Rewritten o k m m') :
    ∃ s' ps' ws, m'.name = "nk" ∧ m'.real = some (.interp 1 ps' s' t u) ∧
      m'.imag = some (cdata (lit 0)) ∧ Readings ps' ws ∧
      List.Forall₂ (NearPair (13 / 10 ^ 9)) vs ws := by
  have hl0 : (fileTable (rowsOf ps)).length = ps.length := by rw [fileTable_length]; simp [rowsOf]
  have hw1 : ∀ r ∈ fileTable (rowsOf ps), r.length = 2 := fileTable_width rowsOf_length
  have hm : Tabulated m :=
    ⟨hx, hc, hn, o', ps, s, t, u, cl, i, hr, hi, sr, si, hnm, h2, .inl ⟨hni, h500⟩⟩
  have key : ∀ k m', Rewritten o k m m' → 1 ≤ k → CleanTexts m' ∧
      ((k = 1 ∧ HasIndex m' (fileTable (rowsOf ps)) t u) ∨
        HasIndex m' (fileTable (fileTable (rowsOf ps))) t u) := by
    intro k m' hR
    clear h hk
    induction hR with
    | none => intro h; omega
    | @once k m1 m2 m3 ext ic rii he h1 h2' ih =>
      intro _
      by_cases h0 : k = 0
      · subst h0
        cases h1
        exact ⟨(first_save hm ho he h2').1, .inl ⟨rfl, save_index hx hc hn hr hi sr si hni hnm h2
          h500 ho he h2'⟩⟩
      · obtain ⟨a, ⟨-, q⟩ | q⟩ := ih hx hc hn hr hi hm (by omega)
        · obtain ⟨b, ⟨-, b1, -⟩ | ⟨-, bad, -⟩⟩ := next_save a hnm
            (.two q hw1 (by omega) (by omega)) ho he h2'
          · exact ⟨b, .inr b1⟩
          · exfalso
            obtain ⟨r, hr⟩ := List.exists_mem_of_length_pos (l := fileTable (rowsOf ps)) (by omega)
            have := hw1 r hr
            have := bad r hr
            omega
        · have hw2 := fileTable_width hw1
          have hl2 := fileTable_length (fileTable (rowsOf ps))
          obtain ⟨b, ⟨-, b1, -⟩ | ⟨-, bad, -⟩⟩ := next_save a hnm
            (.two q hw2 (by omega) (by omega)) ho he h2'
          · rw [(fileTable_settled (rowsOf ps)).file_twice] at b1
            exact ⟨b, .inr b1⟩
          · exfalso
            obtain ⟨r, hr⟩ := List.exists_mem_of_length_pos
              (l := fileTable (fileTable (rowsOf ps))) (by omega)
            have := hw2 r hr
            have := bad r hr
            omega
  have hbig : (10 : ℝ) ^ 100 = 10 * 10 ^ 99 := by norm_num
  have hone : (1 : ℝ) ≤ 10 ^ 99 := one_le_pow₀ (by norm_num)
  have hb1 : NotHuge vs := fun v hv => ⟨by have := (hb v hv).1; linarith, by have := (hb v hv).2; linarith⟩
  obtain ⟨ws, w1, w2⟩ := fileTable_numbers hv hb1
  have hb2 : NotHuge ws := by
    intro w hw
    obtain ⟨v, hv, n1, n2⟩ := mem_of_forall₂' w2 hw
    obtain ⟨b1, b2⟩ := hb v hv
    have key : ∀ x y : ℝ, |x| ≤ 10 ^ 99 → |y - x| ≤ 6 / 10 ^ 9 * (1 + |x|) → |y| ≤ 10 ^ 100 := by
      intro x y h1 h2
      have a1 := abs_add_le x (y - x)
      rw [add_sub_cancel] at a1
      rw [hbig]
      generalize (10 : ℝ) ^ 99 = B at *
      norm_num at h2
      linarith
    exact ⟨key _ _ b1 n1, key _ _ b2 n2⟩
  obtain ⟨zs, z1, z2⟩ := fileTable_numbers w1 hb2
  rw [rowsOf_pairs_two hw1] at z1
  obtain ⟨-, ⟨-, q⟩ | q⟩ := key k m' h hk
  · obtain ⟨r, q1, q2, q3, q4, -⟩ := q.ex
    obtain ⟨s', rfl, -⟩ := tableData_interp (by simpa [pairsOf, hl0] using h2) q1
    refine ⟨s', _, ws, q2, q3, q4, w1, w2.imp ?_⟩
    intro v w ⟨a, b⟩
    have h1 := abs_nonneg v.1
    have h2 := abs_nonneg v.2
    exact ⟨a.trans (by linarith), b.trans (by linarith)⟩
  · obtain ⟨r, q1, q2, q3, q4, -⟩ := q.ex
    obtain ⟨s', rfl, -⟩ := tableData_interp (by
      have := fileTable_length (fileTable (rowsOf ps))
      simpa [pairsOf, this, hl0] using h2) q1
    exact ⟨s', _, zs, q2, q3, q4, z1, NearPair.twice w2 z2⟩

/-! A concrete case: 1000.0000019… at 500 nm and 1.0000000037… at 600 nm. -/

/-- The numbers of the table. -/
def driftNumbers : List (ℝ × ℝ) := [(500, 1000 + 1 / 2 ^ 19), (600, 1 + 1 / 2 ^ 28)]

omit [SciPy Dbl] [YamlIO Dbl] in
theorem driftNumbers_of : Readings (pairsOf (driftTable driftHigh driftLow) 1) driftNumbers := by
  have e5 := intDbl_val (n := 500) (by norm_num)
  have e6 := intDbl_val (n := 600) (by norm_num)
  refine .cons ⟨?_, driftHigh_val⟩ (.cons ⟨?_, driftLow_val⟩ .nil)
  · show (intDbl 500).val = _
    rw [e5]; norm_num
  · show (intDbl 600).val = _
    rw [e6]; norm_num

theorem driftNumbers_bound : ∀ v ∈ driftNumbers, |v.1| ≤ 10 ^ 99 ∧ |v.2| ≤ 10 ^ 99 := by
  have hb : (2000 : ℝ) ≤ 10 ^ 99 := by norm_num
  intro v hv
  simp only [driftNumbers, List.mem_cons, List.not_mem_nil, or_false] at hv
  generalize (10 : ℝ) ^ 99 = B at *
  rcases hv with rfl | rfl
  · constructor
    · rw [abs_of_pos (by norm_num)]; norm_num; linarith
    · rw [abs_of_pos (by norm_num)]; norm_num; linarith
  · constructor
    · rw [abs_of_pos (by norm_num)]; norm_num; linarith
    · rw [abs_of_pos (by norm_num)]; norm_num; linarith

theorem driftNumbers_notHuge : NotHuge driftNumbers := by
  have hb : (10 : ℝ) ^ 99 ≤ 10 ^ 100 := pow_le_pow_right₀ (by norm_num) (by norm_num)
  exact fun v hv => ⟨(driftNumbers_bound v hv).1.trans hb, (driftNumbers_bound v hv).2.trans hb⟩

theorem driftNumbers_apart : Apart (12 / 10 ^ 9) driftNumbers := by
  unfold Apart driftNumbers
  rw [List.pairwise_pair]
  norm_num

theorem driftNumbers_apart' : Apart (6 / 10 ^ 9) driftNumbers := by
  unfold Apart driftNumbers
  rw [List.pairwise_pair]
  norm_num

/-- Beside `C118_index`, `C118_index_loads` and `C118_many`. -/
example : ∃ (o : KeyOrder) (m m' : Material Dbl), o.Valid ∧
    SavedAndLoaded o ".csv" true false m m' ∧
    (∃ s, m.real = some (.interp 1 (pairsOf (driftTable driftHigh driftLow) 1) s "wavelength"
      "nanometer")) ∧
    ∃ s' ps' ws, m'.real = some (.interp 1 ps' s' "wavelength" "nanometer") ∧ Readings ps' ws ∧
      List.Forall₂ (NearPair (6 / 10 ^ 9)) driftNumbers ws ∧
      List.Forall₂ (NearPair (13 / 10 ^ 9)) driftNumbers ws := by
  have hc : (lower "wavelength", lower "nanometer", "nm") ∈ names := by decide +kernel
  have hw := (driftTable_good driftHigh driftLow).width
  obtain ⟨m, hm, h0⟩ := drift_material hc (driftTable_good driftHigh driftLow) (by simp [driftTable])
    (by simp [driftTable])
  have ho : (⟨fileMetaKeys, datasetMetaKeys⟩ : KeyOrder).Valid := ⟨.refl _, .refl _⟩
  obtain ⟨r, q1, q2, q3, q4, q5, q6, q7⟩ := h0.ex
  have hl : (pairsOf (driftTable driftHigh driftLow) 1).length = 2 := rfl
  obtain ⟨s, rfl, st⟩ := tableData_interp (by rw [hl]) q1
  obtain ⟨m', h⟩ := C118_index_loads hm.texts q5 q2 q3 q4 st (cdata_storable _) (cdata_not_table _)
    hc (by rw [hl]) (by rw [hl]; norm_num) driftNumbers_of driftNumbers_notHuge driftNumbers_apart' ho
    (ext := ".csv") (by simp [IsText]) true false
  obtain ⟨s', ps', ws, -, a2, -, a4, a5⟩ := C118_index hm.texts q5 q2 q3 q4 st (cdata_storable _)
    (cdata_not_table _) hc (by rw [hl]) (by rw [hl]; norm_num) driftNumbers_of driftNumbers_notHuge
    ho (ext := ".csv") (by simp [IsText]) h
  refine ⟨_, m, m', ho, h, ⟨s, q3⟩, s', ps', ws, a2, a4, a5, a5.imp ?_⟩
  intro v w ⟨a, b⟩
  have h1 := abs_nonneg v.1
  have h2 := abs_nonneg v.2
  exact ⟨a.trans (by linarith), b.trans (by linarith)⟩

/-- Beside `C118_both` and `C118_both_loads`: the same numbers as the refractive index and as the
extinction coefficient. -/
example : ∃ (o : KeyOrder) (m m' : Material Dbl), o.Valid ∧
    SavedAndLoaded o ".txt" false false m m' ∧ ∃ s1 s2 ps' qs' ws zs,
      m'.real = some (.interp 1 ps' s1 "wavelength" "nanometer") ∧
      m'.imag = some (.interp 1 qs' s2 "wavelength" "nanometer") ∧ Readings ps' ws ∧
      Readings qs' zs ∧ List.Forall₂ (NearPair (12 / 10 ^ 9)) driftNumbers ws ∧
      List.Forall₂ (NearPair (12 / 10 ^ 9)) driftNumbers zs := by
  have hc : (lower "wavelength", lower "nanometer", "nm") ∈ names := by decide +kernel
  have ho : (⟨fileMetaKeys, datasetMetaKeys⟩ : KeyOrder).Valid := ⟨.refl _, .refl _⟩
  obtain ⟨r, hr⟩ := tableData_ok (driftTable_good driftHigh driftLow) 1 hc
  have hl : (pairsOf (driftTable driftHigh driftLow) 1).length = 2 := rfl
  obtain ⟨s, rfl, st⟩ := tableData_interp (by rw [hl]) hr
  have hx : CleanTexts ({ fileBlank Dbl "" (exampleMeta blankMeta) with
      defType := "wavelength", defUnit := "nanometer", name := "nk",
      real := some (.interp 1 (pairsOf (driftTable driftHigh driftLow) 1) s "wavelength" "nanometer"),
      imag := some (.interp 1 (pairsOf (driftTable driftHigh driftLow) 1) s "wavelength"
        "nanometer") } : Material Dbl) := cleanTexts_of example_header rfl rfl hc
  have hsame : SameAbscissae (printed (rowsOf (pairsOf (driftTable driftHigh driftLow) 1)))
      (printed (rowsOf (pairsOf (driftTable driftHigh driftLow) 1))) := by
    have key : ∀ l : List (List Dbl), (∀ r ∈ l, PyFloat.isNaN (rowX r) = false) →
        SameAbscissae l l := by
      intro l hl
      unfold SameAbscissae
      rw [List.all_eq_true]
      intro p hp
      have hpp : p.1 = p.2 := by
        induction l with
        | nil => cases hp
        | cons a l ih =>
          simp only [List.map_cons, List.zip_cons_cons, List.mem_cons] at hp
          rcases hp with rfl | hp
          · rfl
          · exact ih (fun r hr => hl r (List.mem_cons_of_mem _ hr)) hp
      have hn : PyFloat.isNaN p.1 = false := by
        obtain ⟨r, h1, h2⟩ := List.mem_map.1 (List.of_mem_zip hp).1
        rw [← h2]; exact hl r h1
      rw [← hpp, LawfulCmp.eq_iff, LawfulCmp.le_eq_not_lt _ _ hn hn, LawfulCmp.lt_irrefl]; rfl
    refine key _ ?_
    rw [printed_dbl]
    intro r hr
    obtain ⟨q, hq, rfl⟩ := List.mem_map.1 hr
    obtain ⟨pq, hpq, rfl⟩ := List.mem_map.1 hq
    show PyFloat.isNaN (cellShown _ pq.1) = false
    rw [shown_isNaN]
    obtain ⟨v, -, hv, -⟩ := mem_of_forall₂ driftNumbers_of hpq
    show XR.isNaN pq.1.val = false
    rw [hv]; rfl
  obtain ⟨m', h⟩ := C118_both_loads hx rfl rfl rfl rfl st st hc hsame rfl (by rw [hl])
    (by rw [hl]; norm_num) driftNumbers_of driftNumbers_of driftNumbers_notHuge driftNumbers_notHuge
    driftNumbers_apart ho (ext := ".txt") (by simp [IsText]) false false
  obtain ⟨s1, s2, ps', qs', ws, zs, -, a2, a3, a4, a5, a6, a7⟩ := C118_both hx rfl rfl rfl rfl st st
    hc hsame rfl (by rw [hl]) (by rw [hl]; norm_num) driftNumbers_of driftNumbers_of
    driftNumbers_notHuge driftNumbers_notHuge ho (ext := ".txt") (by simp [IsText]) h
  exact ⟨_, _, m', ho, h, s1, s2, ps', qs', ws, zs, a2, a3, a4, a5, a6, a7⟩

end doubles

end

end Disp

import Verif.Props.MediumEntries
import Verif.Props.BruggemanAccuracy
/-!
# Tables with entries of any size below 10⁶⁰, in double precision

As `Props/DoubleInterpolation` and `Props/MediumEntries`, for tables whose ordinates may be
arbitrarily small: the error at the nodes is 9·2⁻⁵³ of the ordinate and at most 10⁻¹⁹⁰ more.
-/

namespace Disp

noncomputable section

open Dbl Spec

namespace Spec

/-- Tables with abscissae between 10⁻⁶⁰ and 10⁶⁰ and ordinates up to 10⁶⁰. -/
def BoundedTable (l : List (ℝ × ℝ)) : Prop := ∀ r ∈ l, Mag 60 r.1 ∧ |r.2| ≤ 10 ^ 60

/-- The straight line between two neighbouring rows, up to 9·2⁻⁵³ of the ordinates and 10⁻¹⁹⁰. -/
def NearLineAny (l : List (ℝ × ℝ)) (x y : ℝ) : Prop :=
  ∃ a ∈ l, ∃ b ∈ l, a.1 < b.1 ∧ a.1 ≤ x ∧ x ≤ b.1 ∧ (∀ r ∈ l, ¬ (a.1 < r.1 ∧ r.1 < b.1)) ∧
    |y - line a b x| ≤
      (|a.2| + (|b.2| - |a.2|) * ((x - a.1) / (b.1 - a.1))) * 9 / 2 ^ 53 + ((10 : ℝ) ^ 190)⁻¹

/-- The part `w` is the number `x` up to a relative error of 9·2⁻⁵³ and 10⁻¹⁹⁰. -/
def CloseAny (x : ℝ) (w : Dbl) : Prop :=
  ∃ y, w.val = .fin y ∧ |y - x| ≤ |x| * 9 / 2 ^ 53 + ((10 : ℝ) ^ 190)⁻¹

end Spec

/-- One term of the sum. -/
theorem weighted_any {y p : ℝ} {a w : Dbl} (ha : a.val = .fin y) (hw : Weight p w) (hp0 : 0 ≤ p)
    (hp1 : p ≤ 1) (hy : |y| ≤ 10 ^ 60) :
    ∃ t, (a * w).val = .fin t ∧ |t - y * p| ≤ |y| * p * 7 / 2 ^ 53 + ((10 : ℝ) ^ 200)⁻¹ := by
  obtain ⟨p', h1, h2, h3⟩ := hw
  have hb := abs_le.1 h2
  have hp2 : |p'| ≤ p * (1 + 5 / 2 ^ 53) := by
    have h := abs_add_le (p' - p) p
    rw [sub_add_cancel, abs_of_nonneg hp0] at h
    have e : p * (1 + 5 / 2 ^ 53) = p * 5 / 2 ^ 53 + p := by ring
    rw [e]; linarith
  have hyp : |y * p'| ≤ |y| * p * (1 + 5 / 2 ^ 53) := by
    rw [abs_mul, mul_assoc]
    exact mul_le_mul_of_nonneg_left hp2 (abs_nonneg _)
  have hyp0 : 0 ≤ |y| * p := mul_nonneg (abs_nonneg _) hp0
  have hsz : |y * p'| ≤ 10 ^ 100 := by
    have h4 : |y| * p ≤ 10 ^ 60 * 1 := mul_le_mul hy hp1 hp0 (by positivity)
    have h5 : |y| * p * (1 + 5 / 2 ^ 53) ≤ 10 ^ 60 * 1 * 2 :=
      mul_le_mul h4 (by norm_num) (by norm_num) (by norm_num)
    exact hyp.trans (h5.trans (by norm_num))
  obtain ⟨t, t1, t2⟩ := round_any hsz
  refine ⟨t, ?_, ?_⟩
  · rw [Dbl.val_mul, ha, h1, XR.mul_fin]
    exact t1
  · have h6 : |t - y * p| ≤ |t - y * p'| + |y| * |p' - p| := by
      have := abs_add_le (t - y * p') (y * (p' - p))
      rw [abs_mul] at this
      have i3 : t - y * p' + y * (p' - p) = t - y * p := by ring
      rwa [i3] at this
    have h7 : |y| * |p' - p| ≤ |y| * (p * 5 / 2 ^ 53) :=
      mul_le_mul_of_nonneg_left h2 (abs_nonneg _)
    have h8 : |y * p'| * (1 / 2 ^ 53) ≤ |y| * p * (1 + 5 / 2 ^ 53) * (1 / 2 ^ 53) :=
      mul_le_mul_of_nonneg_right hyp (by positivity)
    have h9 : |y| * p * (1 + 5 / 2 ^ 53) * (1 / 2 ^ 53) + |y| * (p * 5 / 2 ^ 53) =
        |y| * p * (6 + 5 / 2 ^ 53) / 2 ^ 53 := by ring
    have h10 : |y| * p * (6 + 5 / 2 ^ 53) / 2 ^ 53 ≤ |y| * p * 7 / 2 ^ 53 := by
      have : (6 + 5 / 2 ^ 53 : ℝ) ≤ 7 := by norm_num
      gcongr
    linarith

/-- The linear B-spline on one segment, in double precision. -/
theorem segment_err_any {a b : Dbl × Dbl} {v : Dbl} {xa ya xb yb x : ℝ} (ha : a.1.val = .fin xa)
    (ha' : a.2.val = .fin ya) (hb : b.1.val = .fin xb) (hb' : b.2.val = .fin yb)
    (hv : v.val = .fin x) (mxa : Mag 60 xa) (mxb : Mag 60 xb) (hab : xa < xb) (h1 : xa ≤ x)
    (h2 : x ≤ xb) (hya : |ya| ≤ 10 ^ 60) (hyb : |yb| ≤ 10 ^ 60) :
    ∃ y, (segment a b v).val = .fin y ∧
      |y - (ya + (yb - ya) * ((x - xa) / (xb - xa)))| ≤
        (|ya| + (|yb| - |ya|) * ((x - xa) / (xb - xa))) * 9 / 2 ^ 53 + ((10 : ℝ) ^ 190)⁻¹ := by
  have mx : Mag 60 x := ⟨mxa.low.trans h1, h2.trans mxb.high⟩
  have hD := Approx.sub ha hb mxa mxb hab
  have hone : Approx 0 0 1 (lit 1 : Dbl) := by
    have := Approx.int (n := 1) (k := 0) ⟨by norm_num, by norm_num⟩ (by norm_num)
    exact_mod_cast this
  have hW : Approx 2 80 (1 / (xb - xa)) (lit 1 / (b.1 - a.1)) := by
    have := hone.div hD (by norm_num) (by norm_num)
    exact this.mono (by norm_num) (by norm_num)
  have hl : (xb - x = 0 ∧ (b.1 - v).val = .fin 0) ∨ Approx 1 80 (xb - x) (b.1 - v) := by
    rcases h2.eq_or_lt with rfl | h
    · exact Or.inl ⟨by ring, Dbl.sub_self_val hv hb⟩
    · exact Or.inr (Approx.sub hv hb mx mxb h)
  have hr : (x - xa = 0 ∧ (v - a.1).val = .fin 0) ∨ Approx 1 80 (x - xa) (v - a.1) := by
    rcases h1.eq_or_lt with rfl | h
    · exact Or.inl ⟨by ring, Dbl.sub_self_val ha hv⟩
    · exact Or.inr (Approx.sub ha hv mxa mx h)
  have hpos : 0 < xb - xa := sub_pos.2 hab
  set q := (x - xa) / (xb - xa) with hq
  have hp : (xb - x) / (xb - xa) = 1 - q := by rw [hq]; field_simp; ring
  have hq0 : 0 ≤ q := div_nonneg (by linarith) hpos.le
  have hq1 : q ≤ 1 := by rw [hq, div_le_one hpos]; linarith
  have w1 := weight hW hl
  have w2 := weight hW hr
  rw [hp] at w1
  obtain ⟨t1, k1, k1'⟩ := weighted_any ha' w1 (by linarith) (by linarith) hya
  obtain ⟨t2, k2, k2'⟩ := weighted_any hb' w2 hq0 hq1 hyb
  obtain ⟨ε, hε⟩ : ∃ ε : ℝ, ε = ((10 : ℝ) ^ 200)⁻¹ := ⟨_, rfl⟩
  have hε0 : 0 ≤ ε := by rw [hε]; positivity
  have hε1 : ε ≤ 1 := by rw [hε]; exact inv_le_one_of_one_le₀ (one_le_pow₀ (by norm_num))
  have hε2 : 4 * ε ≤ ((10 : ℝ) ^ 190)⁻¹ := by rw [hε]; norm_num
  rw [← hε] at k1' k2'
  have hs := nearest_add (Dbl.isDouble_val k1) (Dbl.isDouble_val k2)
  have A1 : 0 ≤ |ya| * (1 - q) := mul_nonneg (abs_nonneg _) (by linarith)
  have A2 : 0 ≤ |yb| * q := mul_nonneg (abs_nonneg _) hq0
  have b1 : |t1| ≤ |ya| * (1 - q) * (1 + 7 / 2 ^ 53) + ε := by
    have h := abs_add_le (t1 - ya * (1 - q)) (ya * (1 - q))
    rw [sub_add_cancel, abs_mul, abs_of_nonneg (by linarith : 0 ≤ 1 - q)] at h
    have e : |ya| * (1 - q) * (1 + 7 / 2 ^ 53) = |ya| * (1 - q) * 7 / 2 ^ 53 + |ya| * (1 - q) := by
      ring
    rw [e]; linarith
  have b2 : |t2| ≤ |yb| * q * (1 + 7 / 2 ^ 53) + ε := by
    have h := abs_add_le (t2 - yb * q) (yb * q)
    rw [sub_add_cancel, abs_mul, abs_of_nonneg hq0] at h
    have e : |yb| * q * (1 + 7 / 2 ^ 53) = |yb| * q * 7 / 2 ^ 53 + |yb| * q := by ring
    rw [e]; linarith
  set A := |ya| * (1 - q) + |yb| * q with hA
  have hA' : |ya| + (|yb| - |ya|) * q = A := by rw [hA]; ring
  have hT : |t1 + t2| ≤ A * (1 + 7 / 2 ^ 53) + 2 * ε := by
    have := abs_add_le t1 t2
    have e : A * (1 + 7 / 2 ^ 53) =
      |ya| * (1 - q) * (1 + 7 / 2 ^ 53) + |yb| * q * (1 + 7 / 2 ^ 53) := by rw [hA]; ring
    rw [e]; linarith
  have hA0 : 0 ≤ A := by linarith
  have hAle : A ≤ 2 * 10 ^ 60 := by
    have h3 : |ya| * (1 - q) ≤ 10 ^ 60 * 1 :=
      mul_le_mul hya (by linarith) (by linarith) (by positivity)
    have h4 : |yb| * q ≤ 10 ^ 60 * 1 := mul_le_mul hyb hq1 hq0 (by positivity)
    linarith
  have hfin : |nearest (t1 + t2)| < 2 ^ 1024 := by
    have h6 : |nearest (t1 + t2)| ≤ |nearest (t1 + t2) - (t1 + t2)| + |t1 + t2| := by
      have := abs_add_le (nearest (t1 + t2) - (t1 + t2)) (t1 + t2)
      rwa [sub_add_cancel] at this
    have h7 : |t1 + t2| / 2 ^ 53 ≤ |t1 + t2| := div_le_self (abs_nonneg _) (by norm_num)
    have h8 : A * (1 + 7 / 2 ^ 53) ≤ A * 2 := by
      have : (1 + 7 / 2 ^ 53 : ℝ) ≤ 2 := by norm_num
      gcongr
    have h9 : |nearest (t1 + t2)| ≤ 8 * 10 ^ 60 := by linarith
    calc |nearest (t1 + t2)| ≤ 8 * 10 ^ 60 := h9
      _ ≤ 2 ^ 250 := by norm_num
      _ < 2 ^ 1024 := by gcongr <;> norm_num
  refine ⟨nearest (t1 + t2), ?_, ?_⟩
  · show (Dbl.rnd ((a.2 * (lit 1 / (b.1 - a.1) * (b.1 - v))).val +
      (b.2 * (lit 1 / (b.1 - a.1) * (v - a.1))).val)).val = _
    rw [k1, k2, XR.add_fin]
    exact Dbl.rnd_fin hfin
  · rw [hA']
    have e0 : ya + (yb - ya) * q = ya * (1 - q) + yb * q := by ring
    rw [e0]
    have h6 : |nearest (t1 + t2) - (ya * (1 - q) + yb * q)| ≤
        |nearest (t1 + t2) - (t1 + t2)| + (|t1 - ya * (1 - q)| + |t2 - yb * q|) := by
      have i1 := abs_add_le (nearest (t1 + t2) - (t1 + t2)) ((t1 - ya * (1 - q)) + (t2 - yb * q))
      have i2 := abs_add_le (t1 - ya * (1 - q)) (t2 - yb * q)
      have i3 : nearest (t1 + t2) - (t1 + t2) + ((t1 - ya * (1 - q)) + (t2 - yb * q)) =
        nearest (t1 + t2) - (ya * (1 - q) + yb * q) := by ring
      rw [i3] at i1
      linarith
    have h7 : |t1 + t2| / 2 ^ 53 ≤ (A * (1 + 7 / 2 ^ 53) + 2 * ε) / 2 ^ 53 :=
      div_le_div_of_nonneg_right hT (by positivity)
    have h7' : (A * (1 + 7 / 2 ^ 53) + 2 * ε) / 2 ^ 53 ≤ A * (1 + 7 / 2 ^ 53) / 2 ^ 53 + 2 * ε := by
      rw [add_div]
      have : 2 * ε / 2 ^ 53 ≤ 2 * ε := div_le_self (by linarith) (by norm_num)
      linarith
    have h8 : A * (1 + 7 / 2 ^ 53) / 2 ^ 53 + (|ya| * (1 - q) * 7 / 2 ^ 53 + |yb| * q * 7 / 2 ^ 53) =
        A * (8 + 7 / 2 ^ 53) / 2 ^ 53 := by rw [hA]; ring
    have h9 : A * (8 + 7 / 2 ^ 53) / 2 ^ 53 ≤ A * 9 / 2 ^ 53 := by
      have : (8 + 7 / 2 ^ 53 : ℝ) ≤ 9 := by norm_num
      gcongr
    linarith

/-- In double precision, every value that tabulated data of order one return is the
straight-line value between the two neighbouring rows, up to a few units in the last place. -/
theorem line_any [SciPy Dbl] (rows : List (Dbl × Dbl)) (l : List (ℝ × ℝ))
    (hl : DblTable rows l) (hm : BoundedTable l) (t u : String) (d : RealData Dbl)
    (hd : RealData.newInterp .float rows t u 1 = .ok d) (s : Spectrum Dbl) (v ov : Vals Dbl)
    (hv : (d.evaluate s).1 = .ok v) (hov : s.convertTo t u = .ok ov) (i : ℕ) (z : Dbl) (x : ℝ)
    (hz : ov.toList[i]? = some z) (hx : z.val = .fin x) :
    ∃ w y, v.toList[i]? = some w ∧ w.val = .fin y ∧ NearLineAny l x y := by
  obtain ⟨lo, hi, r, h1, h2, h3, h4, h5, -⟩ := newInterp_ok hd
  obtain ⟨w, k1, k2⟩ := evaluate_linear hd hv hov hz
  obtain ⟨p, a, q, b, ha, hb, hpa, hqb, e1, e2, e3, e4, rfl⟩ := linear_find hl h4 h5 hx k1
  obtain ⟨m1, m2⟩ := hm a ha
  obtain ⟨m3, m4⟩ := hm b hb
  obtain ⟨y, n1, n2⟩ := segment_err_any hpa.1 hpa.2 hqb.1 hqb.2 hx m1 m3 e1 e2 e3
    m2 m4
  exact ⟨_, y, k2, n1, a, ha, b, hb, e1, e2, e3, e4, n2⟩

/-- At a tabulated abscissa the table returns the tabulated ordinate up to 9·2⁻⁵³ of it and 10⁻¹⁹⁰. -/
theorem entries_any [SciPy Dbl] (rows : List (Dbl × Dbl)) (l : List (ℝ × ℝ))
    (hl : DblTable rows l) (hm : BoundedTable l) (t u : String) (d : RealData Dbl)
    (hd : RealData.newInterp .float rows t u 1 = .ok d) (s : Spectrum Dbl) (v ov : Vals Dbl)
    (hv : (d.evaluate s).1 = .ok v) (hov : s.convertTo t u = .ok ov) (i : ℕ) (z : Dbl)
    (r : ℝ × ℝ) (hr : r ∈ l) (hz : ov.toList[i]? = some z) (hx : z.val = .fin r.1) :
    ∃ w y, v.toList[i]? = some w ∧ w.val = .fin y ∧ |y - r.2| ≤ |r.2| * 9 / 2 ^ 53 + ((10 : ℝ) ^ 190)⁻¹ := by
  obtain ⟨w, y, k1, k2, a, ha, b, hb, e1, e2, e3, e4, e5⟩ :=
    line_any rows l hl hm t u d hd s v ov hv hov i z r.1 hz hx
  obtain ⟨-, -, -, -, -, -, -, h5, -⟩ := newInterp_ok hd
  refine ⟨w, y, k1, k2, ?_⟩
  have hne : b.1 - a.1 ≠ 0 := by linarith
  unfold line at e5
  rcases e2.lt_or_eq with h | h
  · rcases e3.lt_or_eq with h' | h'
    · exact absurd ⟨h, h'⟩ (e4 r hr)
    · rw [table_distinct hl h5 hr hb h', div_self hne] at e5
      rw [table_distinct hl h5 hr hb h']
      simpa using e5
  · rw [← table_distinct hl h5 ha hr h] at e5 ⊢
    simpa using e5

section

variable [SciPy Dbl]

/-- What the data of a table report at the abscissae of the table. -/
theorem tableData_entries_any {ps : List (Dbl × Dbl)} {l : List (ℝ × ℝ)} (hl : DblTable ps l)
    (hm : BoundedTable l) {d : RealData Dbl} (hd : tableData .float ps "wavelength" "m" = .ok d)
    {q : Spectrum Dbl} (hq : Aligned q) (hqs : q.std.toList = ps.map (·.1)) :
    ∃ v, d.evaluate q = (.ok v, q) ∧ SameForm v q.std ∧
      ∀ (i : ℕ) (r : ℝ × ℝ), l[i]? = some r →
        ∃ w y, v.toList[i]? = some w ∧ w.val = .fin y ∧ |y - r.2| ≤ |r.2| * 9 / 2 ^ 53 + ((10 : ℝ) ^ 190)⁻¹ := by
  have hconv := converts_metres hq
  have hnn : NoNaN (ps.map (·.1)) := by
    intro x hx
    obtain ⟨p, hp, rfl⟩ := List.mem_map.1 hx
    obtain ⟨r, -, hr⟩ := hl.mem hp
    exact fin_noNaN hr.1
  have hnq : NoNaN q.std.toList := by rw [hqs]; exact hnn
  have hwi : Within (ps.map (·.1)) q.std.toList := by
    rw [hqs]
    intro y hy
    exact ⟨⟨y, hy, le_self (hnn y hy)⟩, ⟨y, hy, le_self (hnn y hy)⟩⟩
  have hsnd : (d.evaluate q).2 = q := by
    unfold tableData at hd
    split at hd
    · unfold RealData.newConstant at hd
      obtain ⟨r, -, hd⟩ := except_bind_ok hd
      cases hd; rfl
    · obtain ⟨lo, hi, r, -, -, -, -, -, rfl⟩ := newInterp_ok hd
      rfl
  by_cases h1 : ∃ p, ps = [p]
  · obtain ⟨⟨x, c⟩, rfl⟩ := h1
    have hne : q.std.toList ≠ [] := by rw [hqs]; simp
    simp only [tableData] at hd
    unfold RealData.newConstant at hd
    obtain ⟨r, hr, hd⟩ := except_bind_ok hd
    cases hd
    obtain ⟨a1, a2, a3⟩ := C01_stored _ _ _ _ hr
    have hrv : r.values = .array .float [x, x] := (Except.ok.inj a3).symm
    have hl1 : lower "wavelength" = "wavelength" := by decide +kernel
    have hl2 : lower "m" = "m" := by decide +kernel
    rw [hl1] at a1
    have hru : r.unit = "m" := by
      rw [hl1, hl2] at a2
      exact names_functional _ a2 ("wavelength", "m", "m") (by decide +kernel) rfl rfl
    have hc : r.contains q = .ok true := by
      refine (contains_iff r q q.std ?_ ?_ hne ?_ hnq ?_).1 ?_
      · rw [hrv]; simp [Vals.toList]
      · rw [a1, hru]; exact hconv
      · rw [hrv]
        intro z hz
        simp only [Vals.toList, List.mem_cons, List.not_mem_nil, or_false, or_self] at hz
        exact hnn z (by simp [hz])
      · rw [hru]; decide +kernel
      · rw [hrv]
        intro y hy
        obtain ⟨⟨a, ha, hay⟩, ⟨b, hb, hyb⟩⟩ := hwi y hy
        simp only [List.map_cons, List.map_nil, List.mem_singleton] at ha hb
        exact ⟨⟨a, by simp [Vals.toList, ha], hay⟩, ⟨b, by simp [Vals.toList, hb], hyb⟩⟩
    have hrow : ∀ (i : ℕ) (r : ℝ × ℝ), l[i]? = some r → i = 0 ∧ c.val = .fin r.2 := by
      intro i r hr
      cases hl with
      | cons h t =>
        cases t
        cases i with
        | zero =>
          simp only [List.getElem?_cons_zero, Option.some.injEq] at hr
          subst hr
          exact ⟨rfl, h.2⟩
        | succ i => simp at hr
    have hz : ∀ y : ℝ, |y - y| ≤ |y| * 9 / 2 ^ 53 + ((10 : ℝ) ^ 190)⁻¹ := by
      intro y; rw [sub_self, abs_zero]; positivity
    rcases hq with ⟨x', y', g1, g2⟩ | ⟨xs, ys, g1, g2, g3⟩
    · refine ⟨.scalar c, ?_, ?_, ?_⟩
      · unfold RealData.evaluate
        rw [hc]
        simp only [bind, Except.bind, g1]
      · rw [g2]; trivial
      · intro i r hr
        obtain ⟨rfl, hv⟩ := hrow i r hr
        exact ⟨c, r.2, rfl, hv, hz _⟩
    · refine ⟨.array .float (xs.map (fun _ => c * lit 1)), ?_, ?_, ?_⟩
      · unfold RealData.evaluate
        rw [hc]
        simp only [bind, Except.bind, g1]
      · rw [g2]
        show (xs.map _).length = ys.length
        rw [List.length_map, g3]
      · intro i r hr
        obtain ⟨rfl, hv⟩ := hrow i r hr
        have hys : ys.length = 1 := by
          rw [g2] at hqs
          rw [show ys = [x] from hqs]
          rfl
        have : xs.length = 1 := g3.trans hys
        obtain ⟨x', rfl⟩ := List.length_eq_one_iff.1 this
        refine ⟨c, r.2, ?_, hv, hz _⟩
        simp [Vals.toList, LawfulOne.mul_one]
  · have hd' : RealData.newInterp .float ps "wavelength" "m" 1 = .ok d := by
      unfold tableData at hd
      split at hd
      · exact absurd ⟨_, rfl⟩ h1
      · exact hd
    have hlen : 2 ≤ ps.length := by
      obtain ⟨-, -, -, -, -, -, h4, -, -⟩ := newInterp_ok hd'
      exact h4
    have hne : q.std.toList ≠ [] := by
      rw [hqs]
      intro h
      have : ps = [] := by simpa using h
      rw [this] at hlen; simp at hlen
    have he := (table_evaluate ps "wavelength" "m" "m" (by decide +kernel) 1 d hd' hnn q q.std hconv
      hne hnq).1 hwi
    have hq' : ∃ ys, q.std = .array .float ys := by
      rcases hq with ⟨x', y', g1, g2⟩ | ⟨xs, ys, g1, g2, g3⟩
      · rw [g2] at hqs
        have := congrArg List.length hqs
        simp only [Vals.toList, List.length_singleton, List.length_map] at this
        omega
      · exact ⟨ys, g2⟩
    obtain ⟨ys, hys⟩ := hq'
    obtain ⟨vs, hvs, hvl⟩ := mapM_total (interpAt 1 ps) ys (by
      intro a ha
      have ha' : a ∈ q.std.toList := by rw [hys]; exact ha
      have : ∃ y, interpLinear ps a = .ok y := interpLinear_within ps hnn a (hnq a ha') (by
        intro y hy
        rw [List.mem_singleton] at hy
        subst hy
        exact hwi y ha')
      simpa [interpAt] using this)
    have hval : (d.evaluate q).1 = .ok (.array .float vs) := by
      rw [he, hys]
      simp only [Vals.mapRes, hvs, bind, Except.bind]
    refine ⟨.array .float vs, Prod.ext hval hsnd, ?_, ?_⟩
    · rw [hys]; exact hvl
    · intro i r hr
      have hi : ∃ z, q.std.toList[i]? = some z ∧ z.val = .fin r.1 := by
        obtain ⟨hil, hir⟩ := List.getElem?_eq_some_iff.1 hr
        have hpl : i < ps.length := by rw [hl.length_eq]; exact hil
        have hrow := List.forall₂_iff_get.1 hl
        have := hrow.2 i hpl hil
        refine ⟨ps[i].1, ?_, ?_⟩
        · rw [hqs, List.getElem?_map, List.getElem?_eq_getElem hpl]; rfl
        · rw [← hir]; exact this.1
      obtain ⟨z, hz1, hz2⟩ := hi
      exact entries_any ps l hl hm "wavelength" "m" d hd' q _ q.std hval hconv i z r
        (List.mem_of_getElem? hr) hz1 hz2

omit [SciPy Dbl] in
/-- The rows of the table of a medium on paper. -/
theorem medium_rows_any (g : Cx Dbl → Dbl) :
    ∀ (xs : List Dbl) (zs : List (Cx Dbl)), xs.length = zs.length →
      (∀ x ∈ xs, ∃ r, x.val = .fin r ∧ Mag 60 r) →
      (∀ z ∈ zs, ∃ a, (g z).val = .fin a ∧ |a| ≤ 10 ^ 60) →
      ∃ l, DblTable (List.zipWith (fun x z => (x, g z)) xs zs) l ∧ BoundedTable l ∧
        ∀ (i : ℕ) (z : Cx Dbl), zs[i]? = some z → ∃ r : ℝ × ℝ, l[i]? = some r ∧ (g z).val = .fin r.2
  | [], [], _, _, _ => ⟨[], .nil, by simp [BoundedTable], by simp⟩
  | x :: xs, z :: zs, hlen, hx, hz => by
    obtain ⟨l, h1, h2, h3⟩ := medium_rows_any g xs zs (by simpa using hlen)
      (fun x h => hx x (by simp [h])) (fun z h => hz z (by simp [h]))
    obtain ⟨r, r1, r2⟩ := hx x (by simp)
    obtain ⟨a, a1, a2⟩ := hz z (by simp)
    refine ⟨(r, a) :: l, .cons ⟨r1, a1⟩ h1, ?_, ?_⟩
    · intro p hp
      rcases List.mem_cons.1 hp with rfl | hp
      · exact ⟨r2, a2⟩
      · exact h2 p hp
    · intro i w hw
      cases i with
      | zero =>
        simp only [List.getElem?_cons_zero, Option.some.injEq] at hw
        subst hw
        exact ⟨(r, a), rfl, a1⟩
      | succ i =>
        simp only [List.getElem?_cons_succ] at hw
        exact h3 i w hw
  | [], _ :: _, h, _, _ => by simp at h
  | _ :: _, [], h, _, _ => by simp at h

/-- A medium asked at the wavelengths it was built with: it reports the mixed permittivities up to
9·2⁻⁵³ of each part and 10⁻¹⁹⁰. -/
theorem medium_entries_any {k : Mixing} {s : Spectrum Dbl} (hal : Aligned s)
    (hx : ∀ x ∈ s.std.toList, ∃ r, x.val = .fin r ∧ Mag 60 r) {m1 m2 m : Material Dbl} {f : Dbl}
    (hm : (effectiveMedium k s m1 m2 f).1 = .ok m) :
    PyFloat.lt f (lit 0) = false ∧ PyFloat.lt (lit 1) f = false ∧
    ∃ e1 e2 eps, (m1.getPermittivity s).1 = .ok e1 ∧ (m2.getPermittivity s).1 = .ok e2 ∧
      mixVals k f e1 e2 = .ok eps ∧
      ((∀ z ∈ points eps, (∃ a, z.re.val = .fin a ∧ |a| ≤ 10 ^ 60) ∧
          ∃ b, z.im.val = .fin b ∧ |b| ≤ 10 ^ 60) →
        ∀ q, Aligned q → q.std = s.std → ∃ c, (m.getPermittivity q).1 = .ok c ∧
          ∀ (i : ℕ) (z : Cx Dbl) (a b : ℝ), (points eps)[i]? = some z → z.re.val = .fin a → z.im.val = .fin b →
            ∃ w : Cx Dbl, (points c)[i]? = some w ∧ CloseAny a w.re ∧ CloseAny b w.im) := by
  have hf : PyFloat.lt f (lit 0) = false ∧ PyFloat.lt (lit 1) f = false := by
    by_contra hc
    unfold effectiveMedium at hm
    rw [if_pos (by
      by_contra h
      apply hc
      simpa using h)] at hm
    cases hm
  refine ⟨hf.1, hf.2, ?_⟩
  rw [(medium_outcome k hal m1 m2 f hf.1 hf.2).1] at hm
  obtain ⟨e1, h1, hm⟩ := except_bind_ok hm
  obtain ⟨e2, h2, hm⟩ := except_bind_ok hm
  obtain ⟨eps, h3, hm⟩ := except_bind_ok hm
  obtain ⟨t, h4, hm⟩ := except_bind_ok hm
  refine ⟨e1, e2, eps, h1, h2, h3, ?_⟩
  intro hz q hq hqs
  have hpe : eps.elems = points eps := by cases eps <;> rfl
  unfold mediumTable at h4
  split at h4
  rotate_left
  · cases h4
  rename_i hlen
  cases h4
  unfold processTable at hm
  simp only at hm
  rw [if_neg (by decide), if_neg (by decide), if_neg (by decide), if_neg (by decide),
    if_pos trivial] at hm
  have hw : ∀ r ∈ List.zipWith (fun x (z : Cx Dbl) => [x, z.re, z.im]) s.std.toList eps.elems,
      r.length = 3 := by
    intro r hr
    rw [← List.map_uncurry_zip_eq_zipWith] at hr
    obtain ⟨⟨x, z⟩, -, rfl⟩ := List.mem_map.1 hr
    rfl
  rw [specData_eq hw (by norm_num), specData_eq hw (by norm_num)] at hm
  obtain ⟨dr, g1, hm⟩ := except_bind_ok hm
  obtain ⟨di, g2, hm⟩ := except_bind_ok hm
  cases hm
  have hp1 : pairsOf (List.zipWith (fun x (z : Cx Dbl) => [x, z.re, z.im]) s.std.toList eps.elems) 1
      = List.zipWith (fun x z => (x, z.re)) s.std.toList eps.elems := by
    unfold pairsOf
    rw [List.map_zipWith]
    rfl
  have hp2 : pairsOf (List.zipWith (fun x (z : Cx Dbl) => [x, z.re, z.im]) s.std.toList eps.elems) 2
      = List.zipWith (fun x z => (x, z.im)) s.std.toList eps.elems := by
    unfold pairsOf
    rw [List.map_zipWith]
    rfl
  have hfst : ∀ g : Cx Dbl → Dbl,
      (List.zipWith (fun x z => (x, g z)) s.std.toList eps.elems).map (·.1) = s.std.toList := by
    intro g
    rw [List.map_zipWith]
    have := List.map_fst_zip (l₁ := s.std.toList) (l₂ := eps.elems) hlen.le
    rw [← List.map_uncurry_zip_eq_zipWith]
    exact this
  rw [hp1] at g1
  rw [hp2] at g2
  rw [← hpe] at hz
  obtain ⟨l1, a1, a2, a3⟩ := medium_rows_any (fun z => z.re) _ _ hlen hx (fun z h => (hz z h).1)
  obtain ⟨l2, b1, b2, b3⟩ := medium_rows_any (fun z => z.im) _ _ hlen hx (fun z h => (hz z h).2)
  obtain ⟨vr, c1, c2, c3⟩ := tableData_entries_any a1 a2 g1 hq (by rw [hqs, hfst])
  obtain ⟨vi, d1, d2, d3⟩ := tableData_entries_any b1 b2 g2 hq (by rw [hqs, hfst])
  obtain ⟨c, k1, k2⟩ := combine_points c2 d2
  refine ⟨c, ?_, ?_⟩
  · rw [getPermittivity_eq _ _ (.inr rfl)]
    unfold Material.evalStored
    simp only [blankMedium, evalPart, c1, d1, k1]
    rfl
  · intro i z a b hi ha hb
    rw [← hpe] at hi
    obtain ⟨r, r1, r2⟩ := a3 i z hi
    obtain ⟨r', r1', r2'⟩ := b3 i z hi
    obtain ⟨w, y, w1, w2, w3⟩ := c3 i r r1
    obtain ⟨w', y', w1', w2', w3'⟩ := d3 i r' r1'
    obtain ⟨v1, v2⟩ := cplxOf_val w2 w2'
    have e1 : r.2 = a := XR.fin.inj (r2.symm.trans ha)
    have e2 : r'.2 = b := XR.fin.inj (r2'.symm.trans hb)
    rw [e1] at w3
    rw [e2] at w3'
    exact ⟨_, k2 i w w' w1 w1', ⟨y, v1, w3⟩, ⟨y', v2, w3'⟩⟩

end

end

end Disp

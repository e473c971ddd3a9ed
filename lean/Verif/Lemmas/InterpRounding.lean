import Verif.Props.DoubleRange
/-!
# Rounding errors of the linear B-spline in binary64
-/

namespace Disp

/-! ### The segment that is used, in every arithmetic -/

section generic
variable {F : Type} [PyFloat F] [LawfulCmp F]

theorem evalSegments_find (a : F × F) (rest : List (F × F)) (hne : rest ≠ [])
    (hs : StrictSorted (a :: rest)) (v : F) (h1 : PyFloat.lt v a.1 = false)
    (h2 : ∃ z ∈ rest, PyFloat.lt z.1 v = false) :
    ∃ l1 p q l2, a :: rest = l1 ++ p :: q :: l2 ∧ PyFloat.lt v p.1 = false ∧
      PyFloat.lt q.1 v = false ∧ evalSegments a rest v = segment p q v := by
  induction rest generalizing a with
  | nil => exact absurd rfl hne
  | cons b rest ih =>
    cases rest with
    | nil =>
      obtain ⟨z, hz, hz'⟩ := h2
      rw [List.mem_singleton] at hz
      subst hz
      exact ⟨[], a, z, [], rfl, h1, hz', rfl⟩
    | cons c rest =>
      by_cases hb : PyFloat.lt v b.1 = true
      · refine ⟨[], a, b, c :: rest, rfl, h1, ?_, by simp [evalSegments, hb]⟩
        by_contra h
        have h : PyFloat.lt b.1 v = true := by simpa using h
        have := LawfulCmp.lt_trans _ _ _ h hb
        rw [LawfulCmp.lt_irrefl] at this
        cases this
      · have hb : PyFloat.lt v b.1 = false := by simpa using hb
        have hs' := (List.pairwise_cons.1 hs).2
        have h2' : ∃ z ∈ c :: rest, PyFloat.lt z.1 v = false := by
          obtain ⟨z, hz, hz'⟩ := h2
          rcases List.mem_cons.1 hz with rfl | hz
          · refine ⟨c, by simp, ?_⟩
            by_contra h
            have h : PyFloat.lt c.1 v = true := by simpa using h
            have hbc := (List.pairwise_cons.1 hs').1 c (by simp)
            rw [LawfulCmp.lt_trans _ _ _ hbc h] at hz'
            cases hz'
          · exact ⟨z, hz, hz'⟩
        obtain ⟨l1, p, q, l2, e1, e2, e3, e4⟩ := ih b (by simp) hs' hb h2'
        refine ⟨a :: l1, p, q, l2, by rw [e1]; rfl, e2, e3, ?_⟩
        rw [← e4]
        simp [evalSegments, hb]

/-- A value of linear interpolation is that of the segment between two neighbouring rows. -/
theorem interpLinear_find (rows : List (F × F)) (hlen : 2 ≤ rows.length)
    (hd : noDuplicates (sortRows rows) = true) (v y : F) (hy : interpLinear rows v = .ok y) :
    ∃ p ∈ rows, ∃ q ∈ rows, PyFloat.lt p.1 q.1 = true ∧ PyFloat.lt v p.1 = false ∧
      PyFloat.lt q.1 v = false ∧
      (∀ r ∈ rows, ¬ (PyFloat.lt p.1 r.1 = true ∧ PyFloat.lt r.1 q.1 = true)) ∧
      y = segment p q v := by
  have hs := (noDuplicates_strict _).1 hd
  have hp := sortRows_perm rows
  unfold interpLinear at hy
  cases hl : sortRows rows with
  | nil => rw [hl] at hy; cases hy
  | cons a rest =>
    rw [hl] at hy hs hp
    have hrest : rest ≠ [] := by
      rintro rfl
      have := hp.length_eq
      simp at this
      omega
    simp only at hy
    split at hy
    · cases hy
    · rename_i hc
      simp only [Bool.or_eq_true, not_or, Bool.not_eq_true] at hc
      have h2 : ∃ z ∈ rest, PyFloat.lt z.1 v = false := by
        cases hg : rest.getLast? with
        | none => exact absurd (List.getLast?_eq_none_iff.1 hg) hrest
        | some z =>
          have h' := hc.2
          rw [hg] at h'
          exact ⟨z, List.mem_of_getLast? hg, h'⟩
      obtain ⟨l1, p, q, l2, e1, e2, e3, e4⟩ := evalSegments_find a rest hrest hs v hc.1 h2
      have s0 := hs
      rw [e1] at s0
      obtain ⟨s1, s2, s3⟩ := List.pairwise_append.1 s0
      obtain ⟨s5, s4⟩ := List.pairwise_cons.1 s2
      have asym : ∀ x z : F, PyFloat.lt x z = true → PyFloat.lt z x = true → False := by
        intro x z h h'
        have := LawfulCmp.lt_trans _ _ _ h h'
        rw [LawfulCmp.lt_irrefl] at this
        cases this
      refine ⟨p, hp.mem_iff.1 (by rw [e1]; simp), q, hp.mem_iff.1 (by rw [e1]; simp),
        s5 q (by simp), e2, e3, ?_, ?_⟩
      · rintro r hr ⟨hr1, hr2⟩
        have hr' := hp.mem_iff.2 hr
        rw [e1] at hr'
        rcases List.mem_append.1 hr' with h | h
        · exact asym _ _ hr1 (s3 r h p (by simp))
        · rcases List.mem_cons.1 h with rfl | h
          · exact asym _ _ hr1 hr1
          · rcases List.mem_cons.1 h with rfl | h
            · exact asym _ _ hr2 hr2
            · exact asym _ _ hr2 ((List.pairwise_cons.1 s4).1 r h)
      · rw [← e4]; exact (Except.ok.inj hy).symm

end generic

/-! ### Differences and sums of doubles -/

noncomputable section

theorem double_multiple {x : ℝ} (h : IsDouble x) : ∃ k : ℤ, x = k * (2 : ℝ) ^ (-1074 : ℤ) := by
  obtain ⟨m, e, -, he, -, rfl⟩ := h
  obtain ⟨n, hn⟩ := Int.eq_ofNat_of_zero_le (show 0 ≤ e + 1074 by omega)
  refine ⟨m * 2 ^ n, ?_⟩
  have : e = n + (-1074) := by omega
  rw [this, zpow_add₀ (by norm_num), zpow_natCast]
  push_cast
  ring

/-- The relative error of a sum of doubles; sums do not underflow. -/
theorem nearest_add {x y : ℝ} (hx : IsDouble x) (hy : IsDouble y) :
    |nearest (x + y) - (x + y)| ≤ |x + y| / 2 ^ 53 := by
  by_cases h : (2 : ℝ) ^ (-1022 : ℤ) ≤ |x + y|
  · exact nearest_rel h
  · push Not at h
    obtain ⟨k, hk⟩ := double_multiple hx
    obtain ⟨l, hl⟩ := double_multiple hy
    have e : x + y = ((k + l : ℤ) : ℝ) * (2 : ℝ) ^ (-1074 : ℤ) := by rw [hk, hl]; push_cast; ring
    have hd : IsDouble (x + y) := by
      refine ⟨k + l, -1074, ?_, le_rfl, by norm_num, e⟩
      have h1 : |((k + l : ℤ) : ℝ)| < 2 ^ 53 := by
        rw [e, abs_mul, abs_of_pos (two_zpow_pos _)] at h
        have h2 : (2 : ℝ) ^ (-1022 : ℤ) = 2 ^ (52 : ℤ) * 2 ^ (-1074 : ℤ) := by
          rw [← zpow_add₀ (by norm_num)]; norm_num
        rw [h2] at h
        have h3 := lt_of_mul_lt_mul_right h (two_zpow_pos _).le
        refine h3.trans ?_
        norm_num
      exact_mod_cast h1
    rw [nearest_of_double hd, sub_self, abs_zero]
    positivity

/-- Doubles from `10^-60` upwards are multiples of `2^-252`. -/
theorem double_grid {x : ℝ} (h : IsDouble x) (hx : ((10 : ℝ) ^ 60)⁻¹ ≤ x) :
    ∃ k : ℤ, x = k * (2 : ℝ) ^ (-252 : ℤ) := by
  have hx0 : 0 < x := lt_of_lt_of_le (by positivity) hx
  have hlog : -200 ≤ Int.log 2 |x| := by
    have : (2 : ℝ) ^ (-200 : ℤ) ≤ |x| := by
      rw [abs_of_pos hx0]
      refine le_trans ?_ hx
      rw [zpow_neg]
      refine inv_anti₀ (by positivity) ?_
      norm_num
    exact (Int.zpow_le_iff_le_log (b := 2) (R := ℝ) (by norm_num) (abs_pos.2 hx0.ne')).1
      (by exact_mod_cast this)
  have hu : -252 ≤ ulpExp x := le_max_of_le_left (by omega)
  obtain ⟨n, hn⟩ := Int.eq_ofNat_of_zero_le (show 0 ≤ ulpExp x + 252 by omega)
  have e := nearest_of_double h
  refine ⟨XR.rint (x / 2 ^ ulpExp x) * 2 ^ n, ?_⟩
  conv_lhs => rw [← e]
  unfold nearest
  have : (2 : ℝ) ^ ulpExp x = 2 ^ n * 2 ^ (-252 : ℤ) := by
    rw [show ulpExp x = n + (-252) by omega, zpow_add₀ (by norm_num), zpow_natCast]
  push_cast
  rw [mul_assoc, ← this]

/-- The difference of two doubles. -/
theorem Approx.sub {x y : ℝ} {a b : Dbl} (ha : a.val = .fin x) (hb : b.val = .fin y)
    (hx : Mag 60 x) (hy : Mag 60 y) (hxy : x < y) : Approx 1 80 (y - x) (b - a) := by
  obtain ⟨k, hk⟩ := double_grid (Dbl.isDouble_val ha) hx.low
  obtain ⟨l, hl⟩ := double_grid (Dbl.isDouble_val hb) hy.low
  have hp := two_zpow_pos (-252)
  have hkl : k < l := by
    by_contra h
    push Not at h
    have : (l : ℝ) ≤ k := by exact_mod_cast h
    rw [hk, hl] at hxy
    have := mul_le_mul_of_nonneg_right this hp.le
    linarith
  have hm : Mag 80 (y - x) := by
    constructor
    · have h1 : (1 : ℝ) ≤ l - k := by exact_mod_cast (by omega : (1 : ℤ) ≤ l - k)
      have h2 : (2 : ℝ) ^ (-252 : ℤ) ≤ y - x := by
        rw [hk, hl, ← sub_mul]
        exact le_mul_of_one_le_left hp.le h1
      refine le_trans ?_ h2
      rw [zpow_neg]
      refine inv_anti₀ (by positivity) ?_
      norm_num
    · have := hx.pos
      have := hy.high
      have h3 : (10 : ℝ) ^ 60 ≤ 10 ^ 80 := by norm_num
      linarith
  refine ⟨?_, hm⟩
  show ∃ z, (Dbl.rnd (b.val - a.val)).val = .fin z ∧ _
  rw [ha, hb, XR.sub_fin]
  exact Dbl.rnd_near (Near.refl hm.pos) hm (by norm_num) (by norm_num)

theorem Dbl.sub_self_val {x : ℝ} {a b : Dbl} (ha : a.val = .fin x) (hb : b.val = .fin x) :
    (b - a).val = .fin 0 := by
  show (Dbl.rnd (b.val - a.val)).val = _
  rw [ha, hb, XR.sub_fin, sub_self]
  exact Dbl.rnd_double ⟨0, 0, by norm_num, by norm_num, by norm_num, by simp⟩

theorem Dbl.mul_zero_val {x : ℝ} {a b : Dbl} (ha : a.val = .fin x) (hb : b.val = .fin 0) :
    (a * b).val = .fin 0 := by
  rw [Dbl.val_mul, ha, hb, XR.mul_fin, mul_zero]
  exact Dbl.rnd_double ⟨0, 0, by norm_num, by norm_num, by norm_num, by simp⟩

theorem Dbl.zero_mul_val {x : ℝ} {a b : Dbl} (ha : a.val = .fin 0) (hb : b.val = .fin x) :
    (a * b).val = .fin 0 := by
  rw [Dbl.val_mul, ha, hb, XR.mul_fin, zero_mul]
  exact Dbl.rnd_double ⟨0, 0, by norm_num, by norm_num, by norm_num, by simp⟩

/-! ### One segment -/

/-- The double is a weight `p` of a segment, up to four roundings. -/
def Weight (p : ℝ) (a : Dbl) : Prop :=
  ∃ p', a.val = .fin p' ∧ |p' - p| ≤ p * 5 / 2 ^ 53 ∧ ((p = 0 ∧ p' = 0) ∨ Mag 160 p)

theorem weight {D d : ℝ} {W e : Dbl} (hW : Approx 2 80 (1 / D) W) (he : (d = 0 ∧ e.val = .fin 0) ∨
    Approx 1 80 d e) : Weight (d / D) (W * e) := by
  rcases he with ⟨rfl, h0⟩ | he
  · obtain ⟨⟨w, hw, -⟩, -⟩ := hW
    refine ⟨0, Dbl.mul_zero_val hw h0, by simp, Or.inl ⟨by simp, rfl⟩⟩
  · have := hW.mul he (by norm_num) (by norm_num)
    obtain ⟨⟨z, hz, hz'⟩, hm⟩ := this
    have e1 : 1 / D * d = d / D := by ring
    rw [e1] at hz' hm
    refine ⟨z, hz, ?_, Or.inr hm⟩
    have := hz'.abs_sub_le (by norm_num)
    refine this.trans (le_of_eq ?_)
    norm_num

/-- A tabulated value: zero, or of a magnitude between `10^-60` and `10^60`. -/
def Ordinary (y : ℝ) : Prop := y = 0 ∨ Mag 60 |y|

theorem Ordinary.le {y : ℝ} (h : Ordinary y) : |y| ≤ 10 ^ 60 := by
  rcases h with rfl | h
  · simp
  · exact h.high

/-- One term of the sum. -/
theorem weighted {y p : ℝ} {a w : Dbl} (ha : a.val = .fin y) (hw : Weight p w) (hp0 : 0 ≤ p)
    (hy : Ordinary y) : ∃ t, (a * w).val = .fin t ∧ |t - y * p| ≤ |y| * p * 7 / 2 ^ 53 := by
  obtain ⟨p', h1, h2, h3⟩ := hw
  rcases h3 with ⟨rfl, rfl⟩ | hm
  · exact ⟨0, Dbl.mul_zero_val ha h1, by simp⟩
  rcases hy with rfl | hy
  · exact ⟨0, Dbl.zero_mul_val ha h1, by simp⟩
  have hy0 := hy.pos
  have hp := hm.pos
  have hb := abs_le.1 h2
  have hlo : p / 2 ≤ p' := by
    have : p * 5 / 2 ^ 53 ≤ p / 2 := by
      rw [div_le_div_iff₀ (by positivity) (by norm_num)]; nlinarith
    linarith [hb.1]
  have hhi : p' ≤ 2 * p := by
    have : p * 5 / 2 ^ 53 ≤ p := by
      rw [div_le_iff₀ (by positivity)]; nlinarith
    linarith [hb.2]
  have hp' : 0 < p' := by linarith
  have hM := (hy.mul hm).safe (by norm_num)
  have habs : |y * p'| = |y| * p' := by rw [abs_mul, abs_of_pos hp']
  have hnorm : (2 : ℝ) ^ (-1022 : ℤ) ≤ |y * p'| := by
    rw [habs]
    have e : (2 : ℝ) ^ (-1000 : ℤ) / 2 = 2 ^ (-1001 : ℤ) := by
      rw [show (-1000 : ℤ) = -1001 + 1 by norm_num, zpow_add_one₀ (by norm_num)]; ring
    have h5 : (2 : ℝ) ^ (-1022 : ℤ) ≤ 2 ^ (-1001 : ℤ) :=
      zpow_le_zpow_right₀ (by norm_num) (by norm_num)
    have h6 : |y| * p / 2 ≤ |y| * p' := by
      have := mul_le_mul_of_nonneg_left hlo hy0.le
      linarith
    linarith [hM.1]
  have hr := nearest_rel hnorm
  have hup : |y| * p' ≤ 2 * 2 ^ 1000 := by
    have h6 : |y| * p' ≤ 2 * (|y| * p) := by
      have := mul_le_mul_of_nonneg_left hhi hy0.le
      linarith
    linarith [hM.2]
  have hfin : |nearest (y * p')| < 2 ^ 1024 := by
    have h6 : |nearest (y * p')| ≤ |nearest (y * p') - y * p'| + |y * p'| := by
      have := abs_add_le (nearest (y * p') - y * p') (y * p')
      rwa [sub_add_cancel] at this
    have h7 : |y * p'| / 2 ^ 53 ≤ |y * p'| := div_le_self (abs_nonneg _) (by norm_num)
    have h8 : |nearest (y * p')| ≤ 2 * (2 * 2 ^ 1000) := by
      rw [habs] at h6 h7
      have hr' := hr
      rw [habs] at hr'
      generalize (2 : ℝ) ^ 1000 = B at hup ⊢
      linarith
    calc |nearest (y * p')| ≤ 2 * (2 * 2 ^ 1000) := h8
      _ = 2 ^ 1002 := by rw [pow_add 2 1000 2]; ring
      _ < 2 ^ 1024 := by gcongr <;> norm_num
  refine ⟨nearest (y * p'), ?_, ?_⟩
  · rw [Dbl.val_mul, ha, h1, XR.mul_fin]
    exact Dbl.rnd_fin hfin
  · have h6 : |nearest (y * p') - y * p| ≤ |nearest (y * p') - y * p'| + |y| * |p' - p| := by
      have := abs_add_le (nearest (y * p') - y * p') (y * (p' - p))
      rw [abs_mul] at this
      have i3 : nearest (y * p') - y * p' + y * (p' - p) = nearest (y * p') - y * p := by ring
      rwa [i3] at this
    have h7 : |y| * |p' - p| ≤ |y| * (p * 5 / 2 ^ 53) := mul_le_mul_of_nonneg_left h2 hy0.le
    have h8 : |y| * p' ≤ |y| * (p + p * 5 / 2 ^ 53) :=
      mul_le_mul_of_nonneg_left (by linarith [hb.2]) hy0.le
    rw [habs] at hr
    have h9 : |y| * p' / 2 ^ 53 ≤ |y| * (p + p * 5 / 2 ^ 53) / 2 ^ 53 :=
      div_le_div_of_nonneg_right h8 (by positivity)
    have h10 : |y| * (p + p * 5 / 2 ^ 53) / 2 ^ 53 + |y| * (p * 5 / 2 ^ 53) =
        |y| * p * (6 + 5 / 2 ^ 53) / 2 ^ 53 := by ring
    have h11 : |y| * p * (6 + 5 / 2 ^ 53) / 2 ^ 53 ≤ |y| * p * 7 / 2 ^ 53 := by
      have : (6 + 5 / 2 ^ 53 : ℝ) ≤ 7 := by norm_num
      gcongr
    linarith

/-- The linear B-spline on one segment, in double precision. -/
theorem segment_err {a b : Dbl × Dbl} {v : Dbl} {xa ya xb yb x : ℝ} (ha : a.1.val = .fin xa)
    (ha' : a.2.val = .fin ya) (hb : b.1.val = .fin xb) (hb' : b.2.val = .fin yb)
    (hv : v.val = .fin x) (mxa : Mag 60 xa) (mxb : Mag 60 xb) (hab : xa < xb) (h1 : xa ≤ x)
    (h2 : x ≤ xb) (hya : Ordinary ya) (hyb : Ordinary yb) :
    ∃ y, (segment a b v).val = .fin y ∧
      |y - (ya + (yb - ya) * ((x - xa) / (xb - xa)))| ≤
        (|ya| + (|yb| - |ya|) * ((x - xa) / (xb - xa))) * 9 / 2 ^ 53 := by
  have mx : Mag 60 x := ⟨mxa.low.trans h1, h2.trans mxb.high⟩
  have hD := Approx.sub ha hb mxa mxb hab
  have hone : Approx 0 0 1 (lit 1 : Dbl) := by
    have := Approx.int (n := 1) (k := 0) ⟨by norm_num, by norm_num⟩ (by norm_num)
    exact_mod_cast this
  have hW : Approx 2 80 (1 / (xb - xa)) (lit 1 / (b.1 - a.1)) := by
    have := hone.div hD (by norm_num) (by norm_num)
    exact this.mono (by norm_num) (by norm_num)
  have hl : (xb - x = 0 ∧ (b.1 - v).val = .fin 0) ∨ Approx 1 80 (xb - x) (b.1 - v) := by
    rcases h2.eq_or_lt with rfl | h
    · exact Or.inl ⟨by ring, Dbl.sub_self_val hv hb⟩
    · exact Or.inr (Approx.sub hv hb mx mxb h)
  have hr : (x - xa = 0 ∧ (v - a.1).val = .fin 0) ∨ Approx 1 80 (x - xa) (v - a.1) := by
    rcases h1.eq_or_lt with rfl | h
    · exact Or.inl ⟨by ring, Dbl.sub_self_val ha hv⟩
    · exact Or.inr (Approx.sub ha hv mxa mx h)
  have hpos : 0 < xb - xa := sub_pos.2 hab
  set q := (x - xa) / (xb - xa) with hq
  have hp : (xb - x) / (xb - xa) = 1 - q := by rw [hq]; field_simp; ring
  have hq0 : 0 ≤ q := div_nonneg (by linarith) hpos.le
  have hq1 : q ≤ 1 := by rw [hq, div_le_one hpos]; linarith
  have w1 := weight hW hl
  have w2 := weight hW hr
  rw [hp] at w1
  obtain ⟨t1, k1, k1'⟩ := weighted ha' w1 (by linarith) hya
  obtain ⟨t2, k2, k2'⟩ := weighted hb' w2 hq0 hyb
  have hs := nearest_add (Dbl.isDouble_val k1) (Dbl.isDouble_val k2)
  have A1 : 0 ≤ |ya| * (1 - q) := mul_nonneg (abs_nonneg _) (by linarith)
  have A2 : 0 ≤ |yb| * q := mul_nonneg (abs_nonneg _) hq0
  have b1 : |t1| ≤ |ya| * (1 - q) * (1 + 7 / 2 ^ 53) := by
    have h := abs_add_le (t1 - ya * (1 - q)) (ya * (1 - q))
    rw [sub_add_cancel, abs_mul, abs_of_nonneg (by linarith : 0 ≤ 1 - q)] at h
    have e : |ya| * (1 - q) * (1 + 7 / 2 ^ 53) = |ya| * (1 - q) * 7 / 2 ^ 53 + |ya| * (1 - q) := by
      ring
    rw [e]; linarith
  have b2 : |t2| ≤ |yb| * q * (1 + 7 / 2 ^ 53) := by
    have h := abs_add_le (t2 - yb * q) (yb * q)
    rw [sub_add_cancel, abs_mul, abs_of_nonneg hq0] at h
    have e : |yb| * q * (1 + 7 / 2 ^ 53) = |yb| * q * 7 / 2 ^ 53 + |yb| * q := by ring
    rw [e]; linarith
  set A := |ya| * (1 - q) + |yb| * q with hA
  have hA' : |ya| + (|yb| - |ya|) * q = A := by rw [hA]; ring
  have hT : |t1 + t2| ≤ A * (1 + 7 / 2 ^ 53) := by
    have := abs_add_le t1 t2
    have e : A * (1 + 7 / 2 ^ 53) =
      |ya| * (1 - q) * (1 + 7 / 2 ^ 53) + |yb| * q * (1 + 7 / 2 ^ 53) := by rw [hA]; ring
    rw [e]; linarith
  have hA0 : 0 ≤ A := by linarith
  have hAle : A ≤ 2 * 10 ^ 60 := by
    have h3 : |ya| * (1 - q) ≤ 10 ^ 60 * 1 :=
      mul_le_mul hya.le (by linarith) (by linarith) (by positivity)
    have h4 : |yb| * q ≤ 10 ^ 60 * 1 := mul_le_mul hyb.le hq1 hq0 (by positivity)
    linarith
  have hfin : |nearest (t1 + t2)| < 2 ^ 1024 := by
    have h6 : |nearest (t1 + t2)| ≤ |nearest (t1 + t2) - (t1 + t2)| + |t1 + t2| := by
      have := abs_add_le (nearest (t1 + t2) - (t1 + t2)) (t1 + t2)
      rwa [sub_add_cancel] at this
    have h7 : |t1 + t2| / 2 ^ 53 ≤ |t1 + t2| := div_le_self (abs_nonneg _) (by norm_num)
    have h8 : A * (1 + 7 / 2 ^ 53) ≤ A * 2 := by
      have : (1 + 7 / 2 ^ 53 : ℝ) ≤ 2 := by norm_num
      gcongr
    have h9 : |nearest (t1 + t2)| ≤ 8 * 10 ^ 60 := by linarith
    calc |nearest (t1 + t2)| ≤ 8 * 10 ^ 60 := h9
      _ ≤ 2 ^ 250 := by norm_num
      _ < 2 ^ 1024 := by gcongr <;> norm_num
  refine ⟨nearest (t1 + t2), ?_, ?_⟩
  · show (Dbl.rnd ((a.2 * (lit 1 / (b.1 - a.1) * (b.1 - v))).val +
      (b.2 * (lit 1 / (b.1 - a.1) * (v - a.1))).val)).val = _
    rw [k1, k2, XR.add_fin]
    exact Dbl.rnd_fin hfin
  · rw [hA']
    have e0 : ya + (yb - ya) * q = ya * (1 - q) + yb * q := by ring
    rw [e0]
    have h6 : |nearest (t1 + t2) - (ya * (1 - q) + yb * q)| ≤
        |nearest (t1 + t2) - (t1 + t2)| + (|t1 - ya * (1 - q)| + |t2 - yb * q|) := by
      have i1 := abs_add_le (nearest (t1 + t2) - (t1 + t2)) ((t1 - ya * (1 - q)) + (t2 - yb * q))
      have i2 := abs_add_le (t1 - ya * (1 - q)) (t2 - yb * q)
      have i3 : nearest (t1 + t2) - (t1 + t2) + ((t1 - ya * (1 - q)) + (t2 - yb * q)) =
        nearest (t1 + t2) - (ya * (1 - q) + yb * q) := by ring
      rw [i3] at i1
      linarith
    have h7 : |t1 + t2| / 2 ^ 53 ≤ A * (1 + 7 / 2 ^ 53) / 2 ^ 53 :=
      div_le_div_of_nonneg_right hT (by positivity)
    have h8 : A * (1 + 7 / 2 ^ 53) / 2 ^ 53 + (|ya| * (1 - q) * 7 / 2 ^ 53 + |yb| * q * 7 / 2 ^ 53) =
        A * (8 + 7 / 2 ^ 53) / 2 ^ 53 := by rw [hA]; ring
    have h9 : A * (8 + 7 / 2 ^ 53) / 2 ^ 53 ≤ A * 9 / 2 ^ 53 := by
      have : (8 + 7 / 2 ^ 53 : ℝ) ≤ 9 := by norm_num
      gcongr
    linarith

end
end Disp

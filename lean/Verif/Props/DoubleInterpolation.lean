import Verif.Lemmas.InterpRounding
/-!
# C90, C91: linear interpolation in double precision
-/

namespace Disp

open Spec

noncomputable section

/-! ## C90: the accuracy -/

/-- A row of a table of doubles, on paper. -/
def DblRow (p : Dbl × Dbl) (r : ℝ × ℝ) : Prop := p.1.val = .fin r.1 ∧ p.2.val = .fin r.2

/-- The table of doubles `rows` is, on paper, the table `l`. -/
def DblTable (rows : List (Dbl × Dbl)) (l : List (ℝ × ℝ)) : Prop := List.Forall₂ DblRow rows l

/-- Magnitudes of a table: abscissae between `10^-60` and `10^60`, ordinates zero or of an absolute
value in this range. -/
def ModerateTable (l : List (ℝ × ℝ)) : Prop :=
  ∀ r ∈ l, (((10 : ℝ) ^ 60)⁻¹ ≤ r.1 ∧ r.1 ≤ 10 ^ 60) ∧
    (r.2 = 0 ∨ (((10 : ℝ) ^ 60)⁻¹ ≤ |r.2| ∧ |r.2| ≤ 10 ^ 60))

/-- The straight line through two points. -/
def line (a b : ℝ × ℝ) (x : ℝ) : ℝ := a.2 + (b.2 - a.2) * ((x - a.1) / (b.1 - a.1))

/-- Specification: `y` is the straight-line value at `x` between two neighbouring rows, with an
error of at most 9·2⁻⁵³ times the straight-line value of the absolute values. -/
def NearLine (l : List (ℝ × ℝ)) (x y : ℝ) : Prop :=
  ∃ a ∈ l, ∃ b ∈ l, a.1 < b.1 ∧ a.1 ≤ x ∧ x ≤ b.1 ∧ (∀ r ∈ l, ¬ (a.1 < r.1 ∧ r.1 < b.1)) ∧
    |y - line a b x| ≤ line (a.1, |a.2|) (b.1, |b.2|) x * 9 / 2 ^ 53

theorem DblTable.mem {rows : List (Dbl × Dbl)} {l : List (ℝ × ℝ)} (h : DblTable rows l)
    {p : Dbl × Dbl} (hp : p ∈ rows) : ∃ r ∈ l, DblRow p r := by
  induction h with
  | nil => cases hp
  | cons h1 _ ih =>
    rcases List.mem_cons.1 hp with rfl | hp
    · exact ⟨_, by simp, h1⟩
    · obtain ⟨r, hr, hr'⟩ := ih hp
      exact ⟨r, by simp [hr], hr'⟩

theorem DblTable.mem' {rows : List (Dbl × Dbl)} {l : List (ℝ × ℝ)} (h : DblTable rows l)
    {r : ℝ × ℝ} (hr : r ∈ l) : ∃ p ∈ rows, DblRow p r := by
  induction h with
  | nil => cases hr
  | cons h1 _ ih =>
    rcases List.mem_cons.1 hr with rfl | hr
    · exact ⟨_, by simp, h1⟩
    · obtain ⟨p, hp, hp'⟩ := ih hr
      exact ⟨p, by simp [hp], hp'⟩

theorem Dbl.lt_real {a b : Dbl} {x y : ℝ} (ha : a.val = .fin x) (hb : b.val = .fin y) :
    PyFloat.lt a b = decide (x < y) := by
  show PyFloat.lt a.val b.val = _
  rw [ha, hb, XR.lt_fin]

theorem mapRes_get {F : Type} [PyFloat F] {f : F → Res F} {ov v : Vals F} (h : ov.mapRes f = .ok v)
    {i : ℕ} {z : F} (hz : ov.toList[i]? = some z) : ∃ w, f z = .ok w ∧ v.toList[i]? = some w := by
  cases ov with
  | scalar z' =>
    have hi0 : i = 0 ∧ z' = z := by
      cases i with
      | zero => simpa [Vals.toList] using hz
      | succ i => simp [Vals.toList] at hz
    obtain ⟨rfl, rfl⟩ := hi0
    simp only [Vals.mapRes, bind, Except.bind] at h
    cases hy : f z' with
    | error e => rw [hy] at h; cases h
    | ok y => rw [hy] at h; cases h; exact ⟨y, rfl, rfl⟩
  | array dt xs =>
    simp only [Vals.mapRes, bind, Except.bind] at h
    cases hm : xs.mapM f with
    | error e => rw [hm] at h; cases h
    | ok ys =>
      rw [hm] at h
      cases h
      obtain ⟨-, hg⟩ := mapM_getElem _ _ _ hm
      obtain ⟨y, e1, e2⟩ := hg i _ hz
      exact ⟨y, e1, e2⟩

/-- What linear interpolation returns is the spline on a segment between neighbouring rows. -/
theorem linear_find {rows : List (Dbl × Dbl)} {l : List (ℝ × ℝ)} (hl : DblTable rows l)
    (hlen : 2 ≤ rows.length) (hd : noDuplicates (sortRows rows) = true) {z w : Dbl} {x : ℝ}
    (hz : z.val = .fin x) (hw : interpLinear rows z = .ok w) :
    ∃ p a q b, a ∈ l ∧ b ∈ l ∧ DblRow p a ∧ DblRow q b ∧ a.1 < b.1 ∧ a.1 ≤ x ∧ x ≤ b.1 ∧
      (∀ r ∈ l, ¬ (a.1 < r.1 ∧ r.1 < b.1)) ∧ w = segment p q z := by
  obtain ⟨p, hp, q, hq, h1, h2, h3, h4, h5⟩ := interpLinear_find rows hlen hd z w hw
  obtain ⟨a, ha, hpa⟩ := hl.mem hp
  obtain ⟨b, hb, hqb⟩ := hl.mem hq
  rw [Dbl.lt_real hpa.1 hqb.1, decide_eq_true_eq] at h1
  rw [Dbl.lt_real hz hpa.1, decide_eq_false_iff_not, not_lt] at h2
  rw [Dbl.lt_real hqb.1 hz, decide_eq_false_iff_not, not_lt] at h3
  refine ⟨p, a, q, b, ha, hb, hpa, hqb, h1, h2, h3, ?_, h5⟩
  rintro r hr ⟨k1, k2⟩
  obtain ⟨s, hs, hsr⟩ := hl.mem' hr
  refine h4 s hs ⟨?_, ?_⟩
  · rw [Dbl.lt_real hpa.1 hsr.1]; simpa using k1
  · rw [Dbl.lt_real hsr.1 hqb.1]; simpa using k2

/-- The values of a table of order one are those of linear interpolation at the converted points. -/
theorem evaluate_linear {F : Type} [PyFloat F] [SciPy F] {rows : List (F × F)} {t u : String}
    {d : RealData F} (hd : RealData.newInterp .float rows t u 1 = .ok d) {s : Spectrum F}
    {v ov : Vals F} (hv : (d.evaluate s).1 = .ok v) (hov : s.convertTo t u = .ok ov) {i : ℕ} {z : F}
    (hz : ov.toList[i]? = some z) : ∃ w, interpLinear rows z = .ok w ∧ v.toList[i]? = some w := by
  obtain ⟨lo, hi, r, h1, h2, h3, h4, h5, rfl⟩ := newInterp_ok hd
  simp only [RealData.evaluate, bind, Except.bind] at hv
  cases hc : r.contains s with
  | error e => rw [hc] at hv; cases hv
  | ok b =>
    rw [hc, hov] at hv
    simp only at hv
    obtain ⟨w, k1, k2⟩ := mapRes_get hv hz
    exact ⟨w, by simpa [interpAt] using k1, k2⟩

/-- C90: in double precision, every value that tabulated data of order one return is the
straight-line value between the two neighbouring rows, up to a few units in the last place. -/
theorem C90_accuracy [SciPy Dbl] (rows : List (Dbl × Dbl)) (l : List (ℝ × ℝ))
    (hl : DblTable rows l) (hm : ModerateTable l) (t u : String) (d : RealData Dbl)
    (hd : RealData.newInterp .float rows t u 1 = .ok d) (s : Spectrum Dbl) (v ov : Vals Dbl)
    (hv : (d.evaluate s).1 = .ok v) (hov : s.convertTo t u = .ok ov) (i : ℕ) (z : Dbl) (x : ℝ)
    (hz : ov.toList[i]? = some z) (hx : z.val = .fin x) :
    ∃ w y, v.toList[i]? = some w ∧ w.val = .fin y ∧ NearLine l x y := by
  obtain ⟨lo, hi, r, h1, h2, h3, h4, h5, -⟩ := newInterp_ok hd
  obtain ⟨w, k1, k2⟩ := evaluate_linear hd hv hov hz
  obtain ⟨p, a, q, b, ha, hb, hpa, hqb, e1, e2, e3, e4, rfl⟩ := linear_find hl h4 h5 hx k1
  obtain ⟨m1, m2⟩ := hm a ha
  obtain ⟨m3, m4⟩ := hm b hb
  have o1 : Ordinary a.2 := m2.imp id (fun h => ⟨h.1, h.2⟩)
  have o2 : Ordinary b.2 := m4.imp id (fun h => ⟨h.1, h.2⟩)
  obtain ⟨y, n1, n2⟩ := segment_err hpa.1 hpa.2 hqb.1 hqb.2 hx ⟨m1.1, m1.2⟩ ⟨m3.1, m3.2⟩ e1 e2 e3
    o1 o2
  exact ⟨_, y, k2, n1, a, ha, b, hb, e1, e2, e3, e4, n2⟩

/-- The relative error for a table without negative ordinates. -/
theorem C90_relative (l : List (ℝ × ℝ)) (hpos : ∀ r ∈ l, 0 ≤ r.2) (x y : ℝ) (h : NearLine l x y) :
    ∃ a ∈ l, ∃ b ∈ l, a.1 ≤ x ∧ x ≤ b.1 ∧ (∀ r ∈ l, ¬ (a.1 < r.1 ∧ r.1 < b.1)) ∧
      |y - line a b x| ≤ line a b x * 9 / 2 ^ 53 := by
  obtain ⟨a, ha, b, hb, -, h2, h3, h4, h5⟩ := h
  refine ⟨a, ha, b, hb, h2, h3, h4, ?_⟩
  rw [abs_of_nonneg (hpos a ha), abs_of_nonneg (hpos b hb)] at h5
  exact h5

theorem table_distinct {rows : List (Dbl × Dbl)} {l : List (ℝ × ℝ)} (hl : DblTable rows l)
    (hd : noDuplicates (sortRows rows) = true) {a b : ℝ × ℝ} (ha : a ∈ l) (hb : b ∈ l)
    (hab : a.1 = b.1) : a = b := by
  have hs := (noDuplicates_strict _).1 hd
  obtain ⟨p, hp, hpa⟩ := hl.mem' ha
  obtain ⟨q, hq, hqb⟩ := hl.mem' hb
  by_cases hne : p = q
  · subst hne
    have e2 : XR.fin a.2 = .fin b.2 := hpa.2.symm.trans hqb.2
    exact Prod.ext hab (XR.fin.inj e2)
  · exfalso
    have hs' : (sortRows rows).Pairwise
        (fun a b => PyFloat.lt a.1 b.1 = true ∨ PyFloat.lt b.1 a.1 = true) := hs.imp Or.inl
    haveI : Std.Symm (fun a b : Dbl × Dbl => PyFloat.lt a.1 b.1 = true ∨ PyFloat.lt b.1 a.1 = true) :=
      ⟨fun _ _ h => h.symm⟩
    have hp' := (sortRows_perm rows).mem_iff.2 hp
    have hq' := (sortRows_perm rows).mem_iff.2 hq
    have := hs'.forall hp' hq' hne
    rw [Dbl.lt_real hpa.1 hqb.1, Dbl.lt_real hqb.1 hpa.1, hab] at this
    simp at this

/-- C90: at a tabulated abscissa the table returns the tabulated ordinate up to 9·2⁻⁵³ of it. -/
theorem C90_entries [SciPy Dbl] (rows : List (Dbl × Dbl)) (l : List (ℝ × ℝ))
    (hl : DblTable rows l) (hm : ModerateTable l) (t u : String) (d : RealData Dbl)
    (hd : RealData.newInterp .float rows t u 1 = .ok d) (s : Spectrum Dbl) (v ov : Vals Dbl)
    (hv : (d.evaluate s).1 = .ok v) (hov : s.convertTo t u = .ok ov) (i : ℕ) (z : Dbl)
    (r : ℝ × ℝ) (hr : r ∈ l) (hz : ov.toList[i]? = some z) (hx : z.val = .fin r.1) :
    ∃ w y, v.toList[i]? = some w ∧ w.val = .fin y ∧ |y - r.2| ≤ |r.2| * 9 / 2 ^ 53 := by
  obtain ⟨w, y, k1, k2, a, ha, b, hb, e1, e2, e3, e4, e5⟩ :=
    C90_accuracy rows l hl hm t u d hd s v ov hv hov i z r.1 hz hx
  obtain ⟨-, -, -, -, -, -, -, h5, -⟩ := newInterp_ok hd
  refine ⟨w, y, k1, k2, ?_⟩
  have hne : b.1 - a.1 ≠ 0 := by linarith
  unfold line at e5
  rcases e2.lt_or_eq with h | h
  · rcases e3.lt_or_eq with h' | h'
    · exact absurd ⟨h, h'⟩ (e4 r hr)
    · rw [table_distinct hl h5 hr hb h', div_self hne] at e5
      rw [table_distinct hl h5 hr hb h']
      simpa using e5
  · rw [← table_distinct hl h5 ha hr h] at e5 ⊢
    simpa using e5

/-- C90, wavelengths: a table over decimal wavelengths, requested at its own wavelengths written in
any unit of length, returns the tabulated values up to 9·2⁻⁵³. -/
theorem C90_wavelengths [SciPy Dbl] (t u c t' u' c' : String) (hc : (lower t, lower u, c) ∈ names)
    (hc' : (lower t', u', c') ∈ names) (ht : lower t = "wavelength")
    (ht' : lower t' = "wavelength") (dd : ℕ) (hdd : decimals "wavelength" c' = some dd)
    (req : List (ℚ × ℕ)) (hne : req ≠ []) (hreq : Requests c c' dd req)
    (rows : List (ℕ × Dbl)) (hrows : ∀ p ∈ rows, Good p.1) (ys : List ℝ)
    (hys : List.Forall₂ (fun (p : ℕ × Dbl) y => p.2.val = .fin y) rows ys)
    (hy : ∀ y ∈ ys, Ordinary y) (data : RealData Dbl)
    (hdata : RealData.newInterp .float (rows.map (fun p => (dec p.1 dd, p.2))) t' u' 1 = .ok data)
    (s : Spectrum Dbl) (hs : Spectrum.new (.list .float (req.map (fun p => lit p.1))) t u = .ok s)
    (hall : ∀ q ∈ req, ∃ p ∈ rows, p.1 = q.2) :
    ∃ v, (data.evaluate s).1 = .ok v ∧
      ∀ (i : ℕ) (q : ℚ × ℕ), req[i]? = some q → ∀ (j : ℕ) (p : ℕ × Dbl) (y0 : ℝ), rows[j]? = some p →
        ys[j]? = some y0 → p.1 = q.2 →
        ∃ w y, v.toList[i]? = some w ∧ w.val = .fin y ∧ |y - y0| ≤ |y0| * 9 / 2 ^ 53 := by
  have hd' := decimals_le hdd
  have hb : Between (rows.map (·.1)) (req.map (·.2)) := by
    intro n hn
    obtain ⟨q, hq, rfl⟩ := List.mem_map.1 hn
    obtain ⟨p, hp, hpq⟩ := hall q hq
    exact ⟨⟨p.1, List.mem_map.2 ⟨p, hp, rfl⟩, hpq.le⟩, ⟨p.1, List.mem_map.2 ⟨p, hp, rfl⟩, hpq.ge⟩⟩
  obtain ⟨v, hv⟩ := (C84_linear t u c t' u' c' hc hc' ht ht' dd hdd req hne hreq rows hrows data hdata s
    hs).2 hb
  refine ⟨v, hv, ?_⟩
  have hconv := convert_requests hc hc' ht ht' hdd hreq hs
  -- the table on paper
  have hval : ∀ m, Good m → ∃ x, (dec m dd).val = .fin x ∧ ((10 : ℝ) ^ 60)⁻¹ ≤ x ∧ x ≤ 10 ^ 60 := by
    intro m hg
    obtain ⟨y, h1, h2⟩ := dec_val hg.1 hg.2 hd'
    obtain ⟨a1, a2⟩ := h2.half (by norm_num)
    have hm1 : (1 : ℝ) ≤ m := by exact_mod_cast hg.1
    have hm2 : (m : ℝ) ≤ 10 ^ 16 := by
      have : m ≤ 10 ^ 16 := by have := hg.2; omega
      exact_mod_cast this
    have hP : (10 : ℝ) ^ dd ≤ 10 ^ 13 := pow_le_pow_right₀ (by norm_num) hd'
    have hP1 : (1 : ℝ) ≤ 10 ^ dd := one_le_pow₀ (by norm_num)
    refine ⟨y, h1, ?_, ?_⟩
    · refine le_trans ?_ a1
      rw [div_div, le_div_iff₀ (by positivity)]
      have : ((10 : ℝ) ^ 60)⁻¹ * (10 ^ dd * 2) ≤ ((10 : ℝ) ^ 60)⁻¹ * (10 ^ 13 * 2) := by gcongr
      refine this.trans (le_trans ?_ hm1)
      norm_num
    · have : (m : ℝ) / 10 ^ dd ≤ m := div_le_self (by linarith) hP1
      have h3 : (2 : ℝ) * 10 ^ 16 ≤ 10 ^ 60 := by norm_num
      linarith
  have htab : ∃ l, DblTable (rows.map (fun p => (dec p.1 dd, p.2))) l ∧ ModerateTable l ∧
      ∀ (j : ℕ) (p : ℕ × Dbl) (y0 : ℝ), rows[j]? = some p → ys[j]? = some y0 →
        ∃ x, (dec p.1 dd).val = .fin x ∧ (x, y0) ∈ l := by
    clear hb hv hconv hall hdata
    induction hys with
    | nil => exact ⟨[], .nil, by simp [ModerateTable], by simp⟩
    | @cons p y rows ys h1 _ ih =>
      obtain ⟨l, i1, i2, i3⟩ := ih (fun p hp => hrows p (by simp [hp])) (fun y h => hy y (by simp [h]))
      obtain ⟨x, x1, x2, x3⟩ := hval p.1 (hrows p (by simp))
      refine ⟨(x, y) :: l, .cons ⟨x1, h1⟩ i1, ?_, ?_⟩
      · intro r hr
        rcases List.mem_cons.1 hr with rfl | hr
        · exact ⟨⟨x2, x3⟩, (hy y (by simp)).imp id (fun h => ⟨h.low, h.high⟩)⟩
        · exact i2 r hr
      · intro j p' y0 hj hj'
        cases j with
        | zero =>
          simp only [List.getElem?_cons_zero, Option.some.injEq] at hj hj'
          subst hj hj'
          exact ⟨x, x1, by simp⟩
        | succ j =>
          simp only [List.getElem?_cons_succ] at hj hj'
          obtain ⟨x', k1, k2⟩ := i3 j p' y0 hj hj'
          exact ⟨x', k1, by simp [k2]⟩
  obtain ⟨l, hl, hm, hmem⟩ := htab
  intro i q hi j p y0 hj hj' hpq
  obtain ⟨x, x1, x2⟩ := hmem j p y0 hj hj'
  refine C90_entries _ l hl hm t' u' data hdata s v _ hv hconv i (dec q.2 dd) (x, y0) x2 ?_ ?_
  · simp [Vals.toList, hi]
  · rw [← hpq]; exact x1


/-- The hypotheses of C90 are met: a table from 400 nm to 600 nm, requested in micrometres. -/
example : Requests "um" "nm" 12 [(0.5, 500000000000000)] ∧ (∀ p ∈ [(400000000000000, (lit 1 : Dbl)),
      (500000000000000, lit 0), (600000000000000, lit (-3))], Good p.1) ∧
    List.Forall₂ (fun (p : ℕ × Dbl) y => p.2.val = .fin y) [(400000000000000, (lit 1 : Dbl)),
      (500000000000000, lit 0), (600000000000000, lit (-3))] [1, 0, -3] ∧
    ∀ y ∈ [(1 : ℝ), 0, -3], Ordinary y := by
  refine ⟨?_, ?_, ?_, ?_⟩
  · intro p hp
    simp only [List.mem_cons, List.not_mem_nil, or_false] at hp
    subst hp
    refine ⟨⟨by norm_num, by norm_num⟩, ?_⟩
    simp [ofMetres, metres, lengthUnit]; norm_num
  · intro p hp
    simp only [List.mem_cons, List.not_mem_nil, or_false] at hp
    rcases hp with rfl | rfl | rfl <;> exact ⟨by norm_num, by norm_num⟩
  · have h : ∀ n : ℤ, |n| ≤ 2 ^ 53 → (lit (n : ℚ) : Dbl).val = .fin n := fun n hn => Dbl.lit_int hn
    refine .cons ?_ (.cons ?_ (.cons ?_ .nil))
    · exact_mod_cast h 1 (by norm_num)
    · exact_mod_cast h 0 (by norm_num)
    · exact_mod_cast h (-3) (by norm_num)
  · intro y hy
    simp only [List.mem_cons, List.not_mem_nil, or_false] at hy
    rcases hy with rfl | rfl | rfl
    · exact Or.inr ⟨by norm_num, by norm_num⟩
    · exact Or.inl rfl
    · exact Or.inr ⟨by norm_num, by norm_num⟩

/-! ## C91: tabulated values are not always returned -/

/-- C91 (full statement, refuted below): in double precision, a table of order one returns at its
own abscissae exactly the tabulated values. -/
def C91_statement [SciPy Dbl] : Prop :=
  ∀ (rows : List (Dbl × Dbl)) (l : List (ℝ × ℝ)), DblTable rows l → ModerateTable l →
    ∀ (t u : String) (d : RealData Dbl), RealData.newInterp .float rows t u 1 = .ok d →
    ∀ (s : Spectrum Dbl) (v ov : Vals Dbl), (d.evaluate s).1 = .ok v → s.convertTo t u = .ok ov →
    ∀ (i : ℕ) (p : Dbl × Dbl), p ∈ rows → ov.toList[i]? = some p.1 → v.toList[i]? = some p.2

/-- Spacings with at most two binary digits. -/
def TwoDigits (D : ℝ) : Prop :=
  ∃ (i : ℤ) (j : ℕ), -300 ≤ i ∧ i ≤ 300 ∧ j ≤ 52 ∧ D = 2 ^ i * (1 + 2 ^ j)

theorem rint_half : XR.rint (2 ^ 53 - 1 / 2 : ℝ) = 2 ^ 53 := by
  have hf : ⌊(2 ^ 53 - 1 / 2 : ℝ)⌋ = 2 ^ 53 - 1 := by
    rw [Int.floor_eq_iff]; constructor <;> norm_num
  unfold XR.rint
  rw [hf]
  have hodd : ¬ Even (2 ^ 53 - 1 : ℤ) := by decide
  have e : (2 ^ 53 - 1 / 2 : ℝ) - ((2 ^ 53 - 1 : ℤ) : ℝ) = 1 / 2 := by norm_num
  rw [e, if_neg (lt_irrefl _), if_neg (lt_irrefl _), if_neg hodd]
  norm_num

/-- Numbers that round to one. -/
theorem nearest_one {z : ℝ} (h : |z - 1| ≤ 2 ^ (-54 : ℤ)) : nearest z = 1 := by
  have e54 : (2 : ℝ) ^ (-54 : ℤ) = 1 / 2 ^ 54 := by norm_num
  rw [e54] at h
  have hb := abs_le.1 h
  rcases le_or_gt 1 z with hz | hz
  · have := nearest_eq (x := z) (2 ^ 52) (-52) (by norm_num) (by norm_num; exact hz)
      (by norm_num at hb ⊢; linarith [hb.2]) (by
        have e : z / 2 ^ (-52 : ℤ) - ((2 ^ 52 : ℤ) : ℝ) = (z - 1) * 2 ^ 52 := by
          push_cast
          rw [zpow_neg]
          norm_num
          ring
        rw [e, abs_mul]
        calc |z - 1| * |(2 : ℝ) ^ 52| ≤ 1 / 2 ^ 54 * |(2 : ℝ) ^ 52| := by gcongr
          _ < 1 / 2 := by norm_num)
    rw [this]; norm_num
  · rcases hb.1.lt_or_eq with hlt | heq
    · have := nearest_eq (x := z) (2 ^ 53) (-53) (by norm_num) (by norm_num at hb ⊢; linarith [hb.1])
        (by norm_num; exact hz) (by
          have e : z / 2 ^ (-53 : ℤ) - ((2 ^ 53 : ℤ) : ℝ) = (z - 1) * 2 ^ 53 := by
            push_cast
            rw [zpow_neg]
            norm_num
            ring
          rw [e, abs_lt]
          constructor
          · norm_num at hlt ⊢; linarith
          · norm_num; linarith)
      rw [this]; norm_num
    · have hz' : z = 1 - 1 / 2 ^ 54 := by linarith
      have hlog : Int.log 2 |z| = -1 := by
        have hz0 : 0 < z := by rw [hz']; norm_num
        rw [abs_of_pos hz0]
        have a1 := (Int.zpow_le_iff_le_log (b := 2) (R := ℝ) (by norm_num) hz0 (x := -1)).1
          (by rw [hz']; norm_num)
        have a2 := (Int.lt_zpow_iff_log_lt (b := 2) (R := ℝ) (by norm_num) hz0 (x := 0)).1
          (by simpa using hz)
        omega
      have hE : ulpExp z = -53 := by unfold ulpExp; rw [hlog]; norm_num
      unfold nearest
      have e : z / 2 ^ (-53 : ℤ) = 2 ^ 53 - 1 / 2 := by rw [hz', zpow_neg]; norm_num
      rw [hE, e, rint_half]
      norm_num

/-- Kahan's theorem for the reciprocal: with two binary digits, dividing and multiplying gives one. -/
theorem reciprocal_exact {D : ℝ} (h : TwoDigits D) : nearest (nearest (1 / D) * D) = 1 := by
  obtain ⟨i, j, hi, hi', hj, rfl⟩ := h
  rcases Nat.eq_zero_or_pos j with rfl | hj0
  · have e : (1 : ℝ) / (2 ^ i * (1 + 2 ^ 0)) = 2 ^ (-(i + 1)) := by
      rw [zpow_neg, zpow_add_one₀ (by norm_num)]; norm_num
    have hd : IsDouble ((2 : ℝ) ^ (-(i + 1))) :=
      ⟨1, -(i + 1), by norm_num, by omega, by omega, by simp⟩
    rw [e, nearest_of_double hd, show (2 : ℝ) ^ i * (1 + 2 ^ 0) = 2 ^ (i + 1) by
      rw [zpow_add_one₀ (by norm_num)]; norm_num, ← zpow_add₀ (by norm_num), neg_add_cancel, zpow_zero]
    exact nearest_one (by simp)
  · have hN : (0 : ℝ) < 1 + 2 ^ j := by positivity
    have hD : (0 : ℝ) < 2 ^ i * (1 + 2 ^ j) := mul_pos (two_zpow_pos i) hN
    set D := (2 : ℝ) ^ i * (1 + 2 ^ j) with hDdef
    have hlo : (2 : ℝ) ^ (i + j) ≤ D := by
      rw [zpow_add₀ (by norm_num), zpow_natCast, hDdef]
      exact mul_le_mul_of_nonneg_left (by linarith) (two_zpow_pos i).le
    have hlo' : (2 : ℝ) ^ (i + j) < D := by
      rw [zpow_add₀ (by norm_num), zpow_natCast, hDdef]
      exact mul_lt_mul_of_pos_left (by linarith) (two_zpow_pos i)
    have hhi : D ≤ (2 : ℝ) ^ (i + j + 1) := by
      rw [zpow_add_one₀ (by norm_num), zpow_add₀ (by norm_num), zpow_natCast, hDdef, mul_assoc]
      refine mul_le_mul_of_nonneg_left ?_ (two_zpow_pos i).le
      have : (1 : ℝ) ≤ 2 ^ j := one_le_pow₀ (by norm_num)
      linarith
    have hlog : Int.log 2 |1 / D| = -(i + j + 1) := by
      have h0 : 0 < 1 / D := by positivity
      rw [abs_of_pos h0]
      have a1 := (Int.zpow_le_iff_le_log (b := 2) (R := ℝ) (by norm_num) h0 (x := -(i + j + 1))).1
        (by
          rw [zpow_neg, one_div]
          exact inv_anti₀ hD (by exact_mod_cast hhi))
      have a2 := (Int.lt_zpow_iff_log_lt (b := 2) (R := ℝ) (by norm_num) h0 (x := -(i + j))).1
        (by
          rw [zpow_neg, one_div]
          exact inv_strictAnti₀ (by positivity) (by exact_mod_cast hlo'))
      omega
    have hE : ulpExp (1 / D) = -(i + j + 53) := by
      unfold ulpExp; rw [hlog]; exact (max_eq_left (by omega)).trans (by omega)
    have herr := nearest_err (1 / D)
    have hdef : nearest (1 / D) = (XR.rint (1 / D / 2 ^ ulpExp (1 / D)) : ℝ) * 2 ^ ulpExp (1 / D) := rfl
    rw [hE] at herr hdef
    generalize XR.rint (1 / D / 2 ^ (-(i + j + 53))) = M at hdef
    generalize nearest (1 / D) = w at herr hdef
    -- 1 - D w is a multiple of 2^-(j+53)
    have hK : w * D - 1 = (((1 + 2 ^ j) * M - 2 ^ (j + 53) : ℤ) : ℝ) * 2 ^ (-(j + 53 : ℤ)) := by
      have e1 : (2 : ℝ) ^ (-(i + j + 53)) * 2 ^ i = 2 ^ (-(j + 53 : ℤ)) := by
        rw [← zpow_add₀ (by norm_num)]; congr 1; ring
      have e2 : (2 : ℝ) ^ (j + 53) * 2 ^ (-(j + 53 : ℤ)) = 1 := by
        rw [← zpow_natCast, ← zpow_add₀ (by norm_num)]; push_cast; rw [add_neg_cancel, zpow_zero]
      push_cast
      rw [sub_mul, e2, hdef, hDdef, ← e1]
      ring
    have hbound : |w * D - 1| ≤ 2 ^ (-(i + j + 53)) / 2 * D := by
      have e : w * D - 1 = (w - 1 / D) * D := by field_simp
      rw [e, abs_mul, abs_of_pos hD]
      exact mul_le_mul_of_nonneg_right herr hD.le
    refine nearest_one ?_
    set K : ℤ := (1 + 2 ^ j) * M - 2 ^ (j + 53) with hKdef
    have hK2 : 2 * |K| ≤ 1 + 2 ^ j := by
      have hp := two_zpow_pos (-(j + 53 : ℤ))
      rw [hK, abs_mul, abs_of_pos hp] at hbound
      have e1 : (2 : ℝ) ^ (-(i + j + 53)) / 2 * D = (1 + 2 ^ j) / 2 * 2 ^ (-(j + 53 : ℤ)) := by
        have : (2 : ℝ) ^ (-(i + j + 53)) * 2 ^ i = 2 ^ (-(j + 53 : ℤ)) := by
          rw [← zpow_add₀ (by norm_num)]; congr 1; ring
        rw [hDdef, ← this]; ring
      rw [e1] at hbound
      have h2 := le_of_mul_le_mul_right hbound hp
      have h3 : (2 : ℝ) * |(K : ℝ)| ≤ 1 + 2 ^ j := by linarith
      exact_mod_cast h3
    have hK3 : |K| ≤ 2 ^ (j - 1) := by
      have e : (2 : ℤ) ^ j = 2 * 2 ^ (j - 1) := by
        rw [← pow_succ']; congr 1; omega
      omega
    rw [hK, abs_mul, abs_of_pos (two_zpow_pos _)]
    have h4 : |(K : ℝ)| ≤ 2 ^ (j - 1) := by exact_mod_cast hK3
    calc |(K : ℝ)| * 2 ^ (-(j + 53 : ℤ)) ≤ 2 ^ (j - 1) * 2 ^ (-(j + 53 : ℤ)) :=
          mul_le_mul_of_nonneg_right h4 (two_zpow_pos _).le
      _ = 2 ^ (-54 : ℤ) := by
        rw [← zpow_natCast, ← zpow_add₀ (by norm_num)]
        congr 1
        omega

theorem Dbl.rnd_inv {x y : ℝ} (h : (Dbl.rnd (.fin x)).val = .fin y) : y = nearest x := by
  by_cases hb : |nearest x| < 2 ^ 1024
  · rw [Dbl.rnd_fin hb] at h; exact (XR.fin.inj h).symm
  · exfalso
    have e : Dbl.rnd (.fin x) = if 0 < x then ⟨.pinf, trivial⟩ else ⟨.ninf, trivial⟩ := dif_neg hb
    by_cases h0 : 0 < x
    · have e' : Dbl.rnd (.fin x) = ⟨.pinf, trivial⟩ := e.trans (if_pos h0)
      rw [e'] at h; cases h
    · have e' : Dbl.rnd (.fin x) = ⟨.ninf, trivial⟩ := e.trans (if_neg h0)
      rw [e'] at h; cases h

theorem twoDigits_double {D : ℝ} (h : TwoDigits D) : IsDouble D := by
  obtain ⟨i, j, hi, hi', hj, rfl⟩ := h
  refine ⟨1 + 2 ^ j, i, ?_, by omega, by omega, by push_cast; ring⟩
  rw [abs_of_pos (by positivity)]
  calc (1 : ℤ) + 2 ^ j ≤ 1 + 2 ^ 52 := by gcongr; norm_num
    _ < 2 ^ 53 := by norm_num

/-- The weight of the end of a segment whose length has two binary digits. -/
theorem weight_one {a b : Dbl} {xa xb : ℝ} (ha : a.val = .fin xa) (hb : b.val = .fin xb)
    (mxa : Mag 60 xa) (mxb : Mag 60 xb) (hab : xa < xb) (hD : TwoDigits (xb - xa)) :
    (lit 1 / (b - a) * (b - a)).val = .fin 1 := by
  have hpos : xb - xa ≠ 0 := by linarith
  have hd : (b - a).val = .fin (xb - xa) := by
    show (Dbl.rnd (b.val - a.val)).val = _
    rw [ha, hb, XR.sub_fin]
    exact Dbl.rnd_double (twoDigits_double hD)
  have hone : (lit 1 : Dbl).val = .fin 1 := by exact_mod_cast Dbl.lit_int (n := 1) (by norm_num)
  have hW : Approx 2 80 (1 / (xb - xa)) (lit 1 / (b - a)) := by
    have h1 : Approx 0 0 1 (lit 1 : Dbl) := Approx.exact hone ⟨by norm_num, by norm_num⟩
    exact (h1.div (Approx.sub ha hb mxa mxb hab) (by norm_num) (by norm_num)).mono
      (by norm_num) (by norm_num)
  obtain ⟨⟨w, hw, -⟩, -⟩ := hW
  have hw' : w = nearest (1 / (xb - xa)) := by
    rw [Dbl.val_div, hone, hd, XR.div_fin_of_ne _ hpos] at hw
    exact Dbl.rnd_inv hw
  rw [Dbl.val_mul, hw, hd, XR.mul_fin, hw']
  have h1 := reciprocal_exact hD
  rw [Dbl.rnd_fin (by rw [h1, abs_one]; exact one_lt_pow₀ (by norm_num) (by norm_num)), h1]

theorem weight_zero {a b c : Dbl} {xa xb x : ℝ} (ha : a.val = .fin xa) (hb : b.val = .fin xb)
    (hc : c.val = .fin x) (mxa : Mag 60 xa) (mxb : Mag 60 xb) (hab : xa < xb) :
    (lit 1 / (b - a) * (c - c)).val = .fin 0 := by
  have hone : (lit 1 : Dbl).val = .fin 1 := by exact_mod_cast Dbl.lit_int (n := 1) (by norm_num)
  have h1 : Approx 0 0 1 (lit 1 : Dbl) := Approx.exact hone ⟨by norm_num, by norm_num⟩
  obtain ⟨⟨w, hw, -⟩, -⟩ := h1.div (Approx.sub ha hb mxa mxb hab) (by norm_num) (by norm_num)
  exact Dbl.mul_zero_val hw (Dbl.sub_self_val hc hc)

theorem Dbl.mul_one_val {y : ℝ} {a b : Dbl} (ha : a.val = .fin y) (hb : b.val = .fin 1) :
    (a * b).val = .fin y := by
  rw [Dbl.val_mul, ha, hb, XR.mul_fin, mul_one]
  exact Dbl.rnd_double (Dbl.isDouble_val ha)

theorem Dbl.add_val {x y : ℝ} {a b : Dbl} (ha : a.val = .fin x) (hb : b.val = .fin y)
    (h : IsDouble (x + y)) : (a + b).val = .fin (x + y) := by
  show (Dbl.rnd (a.val + b.val)).val = _
  rw [ha, hb, XR.add_fin]
  exact Dbl.rnd_double h

/-- C91, the part that holds: if the distances of neighbouring abscissae have at most two binary
digits (1, 2, 3, 5, 6, 10, 12, 20, 40, ... and their binary multiples), the tabulated values are
returned exactly. -/
theorem C91_partial [SciPy Dbl] (rows : List (Dbl × Dbl)) (l : List (ℝ × ℝ)) (hl : DblTable rows l)
    (hm : ModerateTable l)
    (hsp : ∀ a ∈ l, ∀ b ∈ l, a.1 < b.1 → (∀ r ∈ l, ¬ (a.1 < r.1 ∧ r.1 < b.1)) →
      TwoDigits (b.1 - a.1)) (t u : String) (d : RealData Dbl)
    (hd : RealData.newInterp .float rows t u 1 = .ok d) (s : Spectrum Dbl) (v ov : Vals Dbl)
    (hv : (d.evaluate s).1 = .ok v) (hov : s.convertTo t u = .ok ov) (i : ℕ) (p : Dbl × Dbl)
    (hp : p ∈ rows) (hz : ov.toList[i]? = some p.1) : v.toList[i]? = some p.2 := by
  obtain ⟨-, -, -, -, -, -, h4, h5, -⟩ := newInterp_ok hd
  obtain ⟨w, k1, k2⟩ := evaluate_linear hd hv hov hz
  obtain ⟨r, hr, hpr⟩ := hl.mem hp
  obtain ⟨pa, a, qb, b, ha, hb, hpa, hqb, e1, e2, e3, e4, rfl⟩ := linear_find hl h4 h5 hpr.1 k1
  rw [k2]
  congr 1
  have ma : Mag 60 a.1 := ⟨(hm a ha).1.1, (hm a ha).1.2⟩
  have mb : Mag 60 b.1 := ⟨(hm b hb).1.1, (hm b hb).1.2⟩
  have hD := hsp a ha b hb e1 e4
  have w1 := weight_one hpa.1 hqb.1 ma mb e1 hD
  have w0 : ∀ c : Dbl, ∀ x, c.val = .fin x → _ := fun c x hc => weight_zero hpa.1 hqb.1 hc ma mb e1
  apply Dbl.ext
  rcases e2.lt_or_eq with h | h
  · rcases e3.lt_or_eq with h' | h'
    · exact absurd ⟨h, h'⟩ (e4 r hr)
    · -- the right end
      have hrb := table_distinct hl h5 hr hb h'
      have hx : p.1 = qb.1 := Dbl.ext (by rw [hpr.1, hqb.1, h'])
      show (pa.2 * (lit 1 / (qb.1 - pa.1) * (qb.1 - p.1)) +
        qb.2 * (lit 1 / (qb.1 - pa.1) * (p.1 - pa.1))).val = _
      rw [hx]
      have t1 := Dbl.mul_zero_val hpa.2 (w0 qb.1 _ hqb.1)
      have t2 := Dbl.mul_one_val hqb.2 w1
      rw [Dbl.add_val t1 t2 (by rw [zero_add]; exact Dbl.isDouble_val hqb.2), zero_add, hpr.2, hrb]
  · -- the left end
    have hra := table_distinct hl h5 ha hr h
    have hx : p.1 = pa.1 := Dbl.ext (by rw [hpr.1, hpa.1, h])
    show (pa.2 * (lit 1 / (qb.1 - pa.1) * (qb.1 - p.1)) +
      qb.2 * (lit 1 / (qb.1 - pa.1) * (p.1 - pa.1))).val = _
    rw [hx]
    have t1 := Dbl.mul_one_val hpa.2 w1
    have t2 := Dbl.mul_zero_val hqb.2 (w0 pa.1 _ hpa.1)
    rw [Dbl.add_val t1 t2 (by rw [add_zero]; exact Dbl.isDouble_val hpa.2), add_zero, hpr.2, ← hra]

/-- Steps of 10 have two binary digits. -/
example : TwoDigits 10 ∧ TwoDigits 5 ∧ TwoDigits 20 ∧ TwoDigits 0.5 :=
  ⟨⟨1, 2, by norm_num, by norm_num, by norm_num, by norm_num⟩,
    ⟨0, 2, by norm_num, by norm_num, by norm_num, by norm_num⟩,
    ⟨2, 2, by norm_num, by norm_num, by norm_num, by norm_num⟩,
    ⟨-2, 0, by norm_num, by norm_num, by norm_num, by norm_num⟩⟩

/-! ### A table that does not return its values -/

/-- The reciprocal of 49, times 49. -/
theorem weight_49 {a b : Dbl} (ha : a.val = .fin 400) (hb : b.val = .fin 449) :
    (lit 1 / (b - a) * (b - a)).val = .fin (9007199254740991 * 2 ^ (-53 : ℤ)) := by
  have hd : (b - a).val = .fin 49 := by
    show (Dbl.rnd (b.val - a.val)).val = _
    rw [ha, hb, XR.sub_fin, show (449 - 400 : ℝ) = ((49 : ℤ) : ℝ) by norm_num]
    exact Dbl.rnd_double (Dbl.double_int (by norm_num))
  have hone : (lit 1 : Dbl).val = .fin 1 := by exact_mod_cast Dbl.lit_int (n := 1) (by norm_num)
  have v1 := Dbl.div_hand hone hd (by norm_num) 5882252574524729 (-58) (by norm_num) (by norm_num)
    (by norm_num) (by norm_num) (by norm_num) (by norm_num [abs_lt])
  have v2 := Dbl.mul_hand v1 hd 9007199254740991 (-53) (by norm_num) (by norm_num)
    (by norm_num) (by norm_num) (by norm_num) (by norm_num [abs_lt])
  exact_mod_cast v2

/-- A table of two rows can be made. -/
theorem newInterp_two [SciPy Dbl] (t u c : String) (hc : (lower t, u, c) ∈ names) (a b y z : Dbl)
    (xa xb : ℝ) (ha : a.val = .fin xa) (hb : b.val = .fin xb) (hab : xa < xb) :
    sortRows [(a, y), (b, z)] = [(a, y), (b, z)] ∧
      ∃ data, RealData.newInterp .float [(a, y), (b, z)] t u 1 = .ok data := by
  have hl : lower u = u := (names_lower _ hc).2
  have hc2 : (lower t, lower u, c) ∈ names := by rw [hl]; exact hc
  have lab : PyFloat.lt a b = true := by rw [Dbl.lt_real ha hb]; simpa using hab
  have na : PyFloat.isNaN a = false := by
    show PyFloat.isNaN a.val = false
    rw [ha]; rfl
  have nb : PyFloat.isNaN b = false := by
    show PyFloat.isNaN b.val = false
    rw [hb]; rfl
  have hnn : NoNaN [a, b] := by
    intro x hx
    simp only [List.mem_cons, List.not_mem_nil, or_false] at hx
    rcases hx with rfl | rfl
    · exact na
    · exact nb
  obtain ⟨lo, h1, -, -⟩ := npMin_spec (.array .float [a, b]) (by simp [Vals.toList]) hnn
  obtain ⟨hi, h2, -, -⟩ := npMax_spec (.array .float [a, b]) (by simp [Vals.toList]) hnn
  have hs : sortRows [(a, y), (b, z)] = [(a, y), (b, z)] := by simp [sortRows, insertRow, lab]
  have hinit : interpInit 1 [(a, y), (b, z)] = .ok () := by
    unfold interpInit
    rw [hs]
    simp [noDuplicates, lab]
  refine ⟨hs, ?_⟩
  unfold RealData.newInterp
  simp only [List.map_cons, List.map_nil, h1, h2, bind, Except.bind, new_list hc2, hinit]
  exact ⟨_, rfl⟩

/-- C91: the table that is 1 at 400 nm and at 449 nm is 0.9999999999999999 at 400 nm. -/
theorem C91_value [SciPy Dbl] : ∃ data s w,
    RealData.newInterp .float [((lit 400 : Dbl), (lit 1 : Dbl)), (lit 449, lit 1)] "wavelength" "nm" 1 =
        .ok data ∧
      Spectrum.new (.float (lit 400)) "wavelength" "nm" = .ok s ∧
      s.convertTo "wavelength" "nm" = .ok (.scalar (lit 400)) ∧
      (data.evaluate s).1 = .ok (.scalar w) ∧ w.val = .fin (1 - 1 / 2 ^ 53) := by
  have v0 : (lit 400 : Dbl).val = .fin 400 := by
    exact_mod_cast Dbl.lit_int (n := 400) (by norm_num)
  have v1 : (lit 449 : Dbl).val = .fin 449 := by
    exact_mod_cast Dbl.lit_int (n := 449) (by norm_num)
  have o1 : (lit 1 : Dbl).val = .fin 1 := by exact_mod_cast Dbl.lit_int (n := 1) (by norm_num)
  have hc : (lower "wavelength", "nm", "nm") ∈ names := by decide +kernel
  have hc2 : (lower "wavelength", lower "nm", "nm") ∈ names := by decide +kernel
  have hw : lower "wavelength" = "wavelength" := by decide +kernel
  obtain ⟨hsort, data, hdata⟩ := newInterp_two "wavelength" "nm" "nm" hc (lit 400) (lit 449) (lit 1)
    (lit 1) 400 449 v0 v1 (by norm_num)
  have d0 : dec 400000000000000 12 = lit 400 := by unfold dec; congr 1; norm_num
  have d1 : dec 449000000000000 12 = lit 449 := by unfold dec; congr 1; norm_num
  have hdata' : RealData.newInterp .float ([(400000000000000, (lit 1 : Dbl)),
      (449000000000000, lit 1)].map (fun p => (dec p.1 12, p.2))) "wavelength" "nm" 1 = .ok data := by
    simp only [List.map_cons, List.map_nil, d0, d1]
    exact hdata
  have hq : Requests "nm" "nm" 12 [(400, 400000000000000)] := by
    intro p hp
    rw [List.mem_singleton] at hp
    subst hp
    refine ⟨⟨by norm_num, by norm_num⟩, ?_⟩
    simp [ofMetres, metres, lengthUnit]; norm_num
  have hgood : ∀ p ∈ [(400000000000000, (lit 1 : Dbl)), (449000000000000, lit 1)], Good p.1 := by
    intro p hp
    simp only [List.mem_cons, List.not_mem_nil, or_false] at hp
    rcases hp with rfl | rfl <;> exact ⟨by norm_num, by norm_num⟩
  have hnew := new_scalar hc2 (lit 400 : Dbl)
  have heval := (C84_scalar "wavelength" "nm" "nm" "wavelength" "nm" "nm" hc2 hc hw hw 12 (by decide)
    400 400000000000000 hq _ hgood 1 data hdata' _ hnew).1 (by
      intro n hn
      rw [List.mem_singleton] at hn
      subst hn
      simp)
  have hconv : Spectrum.convertTo (F := Dbl) 
      { values := .scalar (lit 400), stype := lower "wavelength", unit := "nm",
        std := .scalar (fromElem safeInverseScalar (lower "wavelength") "nm" (lit 400)) }
      "wavelength" "nm" = .ok (.scalar (lit 400)) := by
    rw [Spectrum.convertTo_eq, specLookup_ok_iff.2 hc]
    simp only
    obtain ⟨hg, hq'⟩ := hq (400, 400000000000000) (by simp)
    rw [convertVals_scalar (names_pairs _ hc), hw,
      elem_decimal (hw ▸ names_pairs _ hc2) (hw ▸ names_pairs _ hc) 400 400000000000000 12 (by decide)
        hg.1 hq' hg.2, d0]
  simp only [List.map_cons, List.map_nil, d0, d1, Vals.mapRes, interpAt, if_true, bind, Except.bind]
    at heval
  have hlin : interpLinear [((lit 400 : Dbl), (lit 1 : Dbl)), (lit 449, lit 1)] (lit 400) =
      .ok (segment (lit 400, lit 1) (lit 449, lit 1) (lit 400)) := by
    unfold interpLinear
    rw [hsort]
    have e1 : PyFloat.lt (lit 400 : Dbl) (lit 400) = false := LawfulCmp.lt_irrefl _
    have e2 : PyFloat.lt (lit 449 : Dbl) (lit 400) = false := by
      rw [Dbl.lt_real v1 v0]; norm_num
    simp [e1, e2, evalSegments]
  rw [hlin] at heval
  refine ⟨data, _, _, hdata, hnew, hconv, heval, ?_⟩
  have mag : ∀ x : ℝ, 1 ≤ x → x ≤ 1000 → Mag 60 x := fun x h h' =>
    ⟨le_trans (by norm_num) h, h'.trans (by norm_num)⟩
  have t0 := weight_49 v0 v1
  have t1 : ((lit 1 : Dbl) * (lit 1 / (lit 449 - lit 400) * (lit 449 - lit 400))).val =
      .fin (1 - 1 / 2 ^ 53) := by
    rw [Dbl.val_mul, o1, t0, XR.mul_fin, one_mul]
    have e : (9007199254740991 * 2 ^ (-53 : ℤ) : ℝ) = 1 - 1 / 2 ^ 53 := by
      rw [zpow_neg]; norm_num
    rw [e]
    exact Dbl.rnd_double (by rw [← e]; exact ⟨9007199254740991, -53, by norm_num, by norm_num,
      by norm_num, by norm_num⟩)
  have t2 := Dbl.mul_zero_val o1 (weight_zero v0 v1 v0 (mag 400 (by norm_num) (by norm_num))
    (mag 449 (by norm_num) (by norm_num)) (by norm_num))
  have := Dbl.add_val t1 t2 (by rw [add_zero]; exact Dbl.isDouble_val t1)
  rw [add_zero] at this
  exact this

/-- C91 fails. -/
theorem C91_refuted [SciPy Dbl] : ¬ C91_statement := by
  intro h
  obtain ⟨data, s, w, h1, h2, h3, h4, h5⟩ := C91_value
  have v0 : (lit 400 : Dbl).val = .fin 400 := by
    exact_mod_cast Dbl.lit_int (n := 400) (by norm_num)
  have v1 : (lit 449 : Dbl).val = .fin 449 := by
    exact_mod_cast Dbl.lit_int (n := 449) (by norm_num)
  have o1 : (lit 1 : Dbl).val = .fin 1 := by exact_mod_cast Dbl.lit_int (n := 1) (by norm_num)
  have := h _ [(400, 1), (449, 1)] (.cons ⟨v0, o1⟩ (.cons ⟨v1, o1⟩ .nil)) (by
    intro r hr
    simp only [List.mem_cons, List.not_mem_nil, or_false] at hr
    rcases hr with rfl | rfl
    · exact ⟨⟨by norm_num, by norm_num⟩, Or.inr ⟨by norm_num, by norm_num⟩⟩
    · exact ⟨⟨by norm_num, by norm_num⟩, Or.inr ⟨by norm_num, by norm_num⟩⟩) "wavelength" "nm" data h1 s
    _ _ h4 h3 0 (lit 400, lit 1) (by simp) rfl
  simp only [Vals.toList, List.getElem?_cons_zero, Option.some.injEq] at this
  rw [this, o1, XR.fin.injEq] at h5
  norm_num at h5

end
end Disp

import Verif.Lemmas.Splines
import Verif.Lemmas.Metres
import Verif.Props.Extrapolation
import Verif.Props.DataEval
/-!
# C107, C16: what extrapolated data return beyond their range

Data in metres. An extrapolation returns the values of a spline through 1000 points of the
original data as soon as one requested point lies outside the original range. So data on a
polynomial whose degree is at most the order of the spline are continued by this polynomial, and a
table extended with order one is continued by the straight lines of its outer segments, if these
are wide enough to hold two of the 1000 points. Between the points the spline differs from the
table at every bend, so that the value at a point inside the range depends on the other points of
the request (C16).
-/

namespace Disp

open Spec

section
variable [SciPy XR]

/-- Data in metres between `a` and `b` with the values `f`. -/
structure MetreData (base : RealData XR) (a b : ℝ) (f : ℝ → ℝ) : Prop where
  range : base.range = metreSpectrum ([a, b].map XR.fin)
  stype : base.stype = "wavelength"
  unit : base.unit = "m"
  values : ∀ xs : List ℝ, xs ≠ [] → (∀ x ∈ xs, a ≤ x ∧ x ≤ b) →
    base.evaluate (metreSpectrum (xs.map XR.fin)) =
      (.ok (.array .float (xs.map (fun x => XR.fin (f x)))), metreSpectrum (xs.map XR.fin))

/-- Tables. -/
theorem table_metres {rows : List (ℝ × ℝ)} {base : RealData XR}
    (hd : RealData.newInterp .float (xrows rows) "wavelength" "m" 1 = .ok base) :
    ∃ a b f, MetreData base a b f ∧ (∃ r ∈ rows, r.1 = a) ∧ (∃ r ∈ rows, r.1 = b) ∧
      (∀ r ∈ rows, a ≤ r.1 ∧ r.1 ≤ b) ∧ ∀ x, a ≤ x → x ≤ b → OnLine rows x (f x) := by
  obtain ⟨lo, hi, r, h1, h2, h3, h4, h5, rfl⟩ := newInterp_ok hd
  have hlen : 2 ≤ rows.length := by simpa [xrows] using h4
  have hfst : (xrows rows).map (·.1) = (rows.map (·.1)).map XR.fin := by
    unfold xrows
    rw [List.map_map, List.map_map]
    rfl
  rw [hfst] at h1 h2
  have hne : (Vals.array DType.float ((rows.map (·.1)).map XR.fin)).toList ≠ [] := by
    intro h
    have : rows = [] := by simpa [Vals.toList] using h
    rw [this] at hlen
    simp at hlen
  obtain ⟨m, e1, e2, e3⟩ := npMin_spec _ hne (noNaN_fin (rows.map (fun p : ℝ × ℝ => p.1)))
  obtain ⟨M, E1, E2, E3⟩ := npMax_spec _ hne (noNaN_fin (rows.map (fun p : ℝ × ℝ => p.1)))
  rw [h1] at e1
  rw [h2] at E1
  cases e1
  cases E1
  simp only [Vals.toList, List.map_map, List.mem_map, Function.comp_apply] at e2 E2 e3 E3
  obtain ⟨p, hp, rfl⟩ := e2
  obtain ⟨q, hq, rfl⟩ := E2
  rw [metreSpectrum_new] at h3
  cases h3
  have hall : ∀ r ∈ rows, p.1 ≤ r.1 ∧ r.1 ≤ q.1 := by
    intro r hr
    have a1 := e3 (XR.fin r.1) ⟨r, hr, rfl⟩
    have a2 := E3 (XR.fin r.1) ⟨r, hr, rfl⟩
    rw [XR.lt_fin] at a1 a2
    exact ⟨not_lt.1 (of_decide_eq_false a1), not_lt.1 (of_decide_eq_false a2)⟩
  have hval : ∀ x, p.1 ≤ x → x ≤ q.1 →
      ∃ y, interpLinear (xrows rows) (XR.fin x) = .ok (XR.fin y) ∧ OnLine rows x y := fun x k1 k2 =>
    (interpLinear_real rows hlen h5 x).1 ⟨⟨p, hp, k1⟩, ⟨q, hq, k2⟩⟩
  classical
  let f : ℝ → ℝ := fun x => if h : p.1 ≤ x ∧ x ≤ q.1 then (hval x h.1 h.2).choose else 0
  have hf : ∀ x, p.1 ≤ x → x ≤ q.1 →
      interpLinear (xrows rows) (XR.fin x) = .ok (XR.fin (f x)) ∧ OnLine rows x (f x) := by
    intro x k1 k2
    have := (hval x k1 k2).choose_spec
    simp only [f]
    rw [dif_pos ⟨k1, k2⟩]
    exact this
  refine ⟨p.1, q.1, f, ⟨rfl, rfl, rfl, ?_⟩, ⟨p, hp, rfl⟩, ⟨q, hq, rfl⟩, hall,
    fun x k1 k2 => (hf x k1 k2).2⟩
  intro xs hxs hin
  simp only [RealData.evaluate]
  rw [show metreSpectrum [XR.fin p.1, XR.fin q.1] = metreSpectrum ([p.1, q.1].map XR.fin) from rfl,
    metre_contains [p.1, q.1] xs (by simp) hxs (fun y hym =>
      ⟨⟨p.1, by simp, (hin y hym).1⟩, ⟨q.1, by simp, (hin y hym).2⟩⟩), metreSpectrum_convert]
  simp only [bind, Except.bind, Vals.mapRes]
  have : (xs.map XR.fin).mapM (interpAt 1 (xrows rows)) = .ok (xs.map (fun y => XR.fin (f y))) := by
    clear hxs
    induction xs with
    | nil => rfl
    | cons y ys ih =>
      have hy := hin y (by simp)
      rw [List.map_cons, List.mapM_cons, ih (fun z hz => hin z (by simp [hz]))]
      simp only [interpAt, if_true, (hf y hy.1 hy.2).1, bind, Except.bind, pure, Except.pure,
        List.map_cons]
  rw [this]

omit [SciPy XR] in
/-- On a segment of the table the value is that of the segment. -/
theorem onLine_segment {rows : List (ℝ × ℝ)} (hinj : ∀ a ∈ rows, ∀ b ∈ rows, a.1 = b.1 → a = b)
    {p q : ℝ × ℝ} (hp : p ∈ rows) (hq : q ∈ rows) (hpq : p.1 < q.1)
    (hno : ∀ r ∈ rows, ¬ (p.1 < r.1 ∧ r.1 < q.1)) {x y : ℝ} (h1 : p.1 ≤ x) (h2 : x ≤ q.1)
    (h : OnLine rows x y) : y = p.2 + (q.2 - p.2) * ((x - p.1) / (q.1 - p.1)) := by
  obtain ⟨a, ha, b, hb, hab, hax, hxb, hn, rfl⟩ := h
  have hne : b.1 - a.1 ≠ 0 := by linarith
  have hne' : q.1 - p.1 ≠ 0 := by linarith
  have value : ∀ r ∈ rows, r.1 = x → a.2 + (b.2 - a.2) * ((x - a.1) / (b.1 - a.1)) = r.2 := by
    rintro r hr rfl
    rcases hax.lt_or_eq with h | h
    · rcases hxb.lt_or_eq with h' | h'
      · exact absurd ⟨h, h'⟩ (hn r hr)
      · rw [hinj r hr b hb h', div_self hne]; ring
    · rw [← hinj a ha r hr h]; simp
  rcases h1.lt_or_eq with k1 | k1
  · rcases h2.lt_or_eq with k2 | k2
    · have ea : a = p := by
        refine hinj a ha p hp (le_antisymm ?_ ?_)
        · by_contra hc
          exact hno a ha ⟨not_le.1 hc, by linarith⟩
        · by_contra hc
          exact hn p hp ⟨not_le.1 hc, by linarith⟩
      have eb : b = q := by
        refine hinj b hb q hq (le_antisymm ?_ ?_)
        · by_contra hc
          exact hn q hq ⟨by linarith, not_le.1 hc⟩
        · by_contra hc
          exact hno b hb ⟨by linarith, not_le.1 hc⟩
      rw [ea, eb]
    · rw [value q hq k2.symm, k2, div_self hne']; ring
  · rw [value p hp k1, ← k1, sub_self, zero_div]; ring

omit [SciPy XR] in
theorem geomReal_last_two {a b : ℝ} (ha : 0 < a) (n : ℕ) :
    ∃ l, geomReal a b (n + 2) = l ++ [a * (b / a) ^ ((n : ℝ) / ((n : ℝ) + 1)), b] := by
  have hn : (n : ℝ) + 1 ≠ 0 := by positivity
  refine ⟨List.ofFn (fun i : Fin n => a * (b / a) ^ ((i : ℝ) / ((n : ℝ) + 1))), ?_⟩
  have e : ((n + 2 : ℕ) : ℝ) - 1 = n + 1 := by push_cast; ring
  unfold geomReal
  rw [List.ofFn_succ_last, List.ofFn_succ_last]
  simp only [e, Fin.val_last, Fin.val_castSucc, List.append_assoc, List.singleton_append]
  congr 4
  push_cast
  rw [div_self hn, Real.rpow_one]
  field_simp

omit [SciPy XR] in
theorem geomReal_first_two {a b : ℝ} (n : ℕ) :
    ∃ l, geomReal a b (n + 2) = a :: a * (b / a) ^ (1 / ((n : ℝ) + 1)) :: l := by
  have e : ((n + 2 : ℕ) : ℝ) - 1 = n + 1 := by push_cast; ring
  unfold geomReal
  rw [List.ofFn_succ, List.ofFn_succ]
  refine ⟨_, congrArg₂ List.cons ?_ (congrArg₂ List.cons ?_ rfl)⟩
  · simp
  · simp only [e, Fin.val_zero, Fin.val_succ]
    norm_num

/-- The points through which the spline is drawn. -/
noncomputable def knots (a b : ℝ) (f : ℝ → ℝ) : List (ℝ × ℝ) :=
  (geomReal a b 1000).map (fun x => (x, f x))

omit [SciPy XR] in
theorem knots_fst (a b : ℝ) (f : ℝ → ℝ) : (knots a b f).map (·.1) = geomReal a b 1000 := by
  unfold knots
  generalize geomReal a b 1000 = l
  rw [List.map_map]
  exact List.map_id'' (fun _ => rfl) l

omit [SciPy XR] in
theorem knots_length (a b : ℝ) (f : ℝ → ℝ) : (knots a b f).length = 1000 := by
  unfold knots
  rw [List.length_map, geomReal_length]

variable [SciPyLaws]

/-- An extrapolation of such data. -/
theorem extrap_shape {base d : RealData XR} {a b : ℝ} {f : ℝ → ℝ} (hb : MetreData base a b f)
    (ha : 0 < a) (hab : a < b) {ext : Spectrum XR} {k : ℕ}
    (hd : (RealData.newExtrap base ext k).1 = .ok d) :
    ∃ spl r, d = .extrap base k spl r "wavelength" "m" ∧
      SciPy.splrep ((knots a b f).map (fun p => XR.fin p.1)) ((knots a b f).map (fun p => XR.fin p.2)) k =
        .ok spl := by
  have hmin : npMin (metreSpectrum ([a, b].map XR.fin)).values = .ok (XR.fin a) := by
    simp [metreSpectrum, npMin, Vals.toList, npMinList, hab.le]
  have hmax : npMax (metreSpectrum ([a, b].map XR.fin)).values = .ok (XR.fin b) := by
    simp [metreSpectrum, npMax, Vals.toList, npMaxList, hab]
  have hs : base.suggestSpectrum = .ok (metreSpectrum ((geomReal a b 1000).map XR.fin)) := by
    unfold RealData.suggestSpectrum
    rw [hb.range, hmin, hmax, hb.stype, hb.unit]
    simp only [bind, Except.bind, SciPyLaws.geom a b 1000 ha (ha.trans hab) (by norm_num)]
    exact metreSpectrum_new' _
  have hev := hb.values (geomReal a b 1000)
    (List.ne_nil_of_mem (geomReal_first (a := a) (b := b) (by norm_num)))
    (fun y hy => geomReal_mem ha hab.le (by norm_num) hy)
  have hx : extrapolateData base k =
      SciPy.splrep ((knots a b f).map (fun p => XR.fin p.1)) ((knots a b f).map (fun p => XR.fin p.2)) k := by
    unfold extrapolateData knots
    rw [hs]
    simp only [bind, Except.bind, hev]
    generalize geomReal a b 1000 = l
    simp only [List.map_map, Function.comp_def, metreSpectrum, Vals.toList]
  unfold RealData.newExtrap at hd
  cases hg : getExtrapSpectrum base.range ext with
  | mk res ext' =>
    rw [hg] at hd
    cases res with
    | error e => cases hd
    | ok es =>
      simp only [bind, Except.bind] at hd
      cases hr : extrapRange base es with
      | error e => rw [hr] at hd; cases hd
      | ok r =>
        rw [hr, hx] at hd
        simp only at hd
        cases hsp : SciPy.splrep ((knots a b f).map (fun p => XR.fin p.1))
            ((knots a b f).map (fun p => XR.fin p.2)) k with
        | error e => rw [hsp] at hd; cases hd
        | ok spl =>
          rw [hsp] at hd
          refine ⟨spl, r, ?_, rfl⟩
          rw [← Except.ok.inj hd, hb.stype, hb.unit]

omit [SciPyLaws] in
/-- Evaluating an extrapolation: the original values if all points are in the original range,
otherwise the spline at all points. -/
theorem extrap_evaluate {base : RealData XR} {a b : ℝ} {f : ℝ → ℝ} (hb : MetreData base a b f)
    (hab : a ≤ b) {k : ℕ} {spl : SciPy.Spl XR} {r : Spectrum XR} {xs : List ℝ} (hne : xs ≠ [])
    {v : Vals XR} (hv : ((RealData.extrap base k spl r "wavelength" "m").evaluate
      (metreSpectrum (xs.map XR.fin))).1 = .ok v) :
    ((∀ x ∈ xs, a ≤ x ∧ x ≤ b) ∧ v = .array .float (xs.map (fun x => XR.fin (f x)))) ∨
    ((∃ x ∈ xs, x < a ∨ b < x) ∧ v = .array .float (xs.map (fun x => SciPy.splev spl (XR.fin x)))) := by
  by_cases hin : ∀ x ∈ xs, a ≤ x ∧ x ≤ b
  · left
    refine ⟨hin, ?_⟩
    have hc : base.range.contains (metreSpectrum (xs.map XR.fin)) = .ok true := by
      rw [hb.range]
      exact metre_contains [a, b] xs (by simp) hne (fun x hx =>
        ⟨⟨a, by simp, (hin x hx).1⟩, ⟨b, by simp, (hin x hx).2⟩⟩)
    simp only [RealData.evaluate, hc, hb.values xs hne hin] at hv
    exact (Except.ok.inj hv).symm
  · right
    push Not at hin
    obtain ⟨x, hx, hx'⟩ := hin
    have hout : x < a ∨ b < x := by
      by_cases h : a ≤ x
      · exact .inr (hx' h)
      · exact .inl (not_le.1 h)
    refine ⟨⟨x, hx, hout⟩, ?_⟩
    have hc : base.range.contains (metreSpectrum (xs.map XR.fin)) = .error .value := by
      rw [hb.range]
      refine metre_not_contains [a, b] xs (by simp) hx ?_
      simp only [List.mem_cons, List.not_mem_nil, or_false, forall_eq_or_imp, forall_eq]
      rcases hout with h | h
      · exact .inl ⟨h, by linarith⟩
      · exact .inr ⟨by linarith, h⟩
    simp only [RealData.evaluate, hc, show PyErr.value.isA PyErr.value = true from rfl, if_true,
      metre_convertInPlace, bind, Except.bind] at hv
    cases hr : r.contains (metreSpectrum (xs.map XR.fin)) with
    | error e => rw [hr] at hv; cases hv
    | ok _ =>
      rw [hr] at hv
      have := (Except.ok.inj hv).symm
      rw [this]
      simp only [metreSpectrum, Vals.map, List.map_map, Function.comp_def]

variable [SplineLaws]

/-- C107: data whose values are those of a polynomial of degree at most the order of the spline
are continued by this polynomial: whatever is requested of the extended data is on it. -/
theorem C107_polynomial (base d : RealData XR) (a b : ℝ) (f : ℝ → ℝ) (hb : MetreData base a b f)
    (ha : 0 < a) (hab : a < b) (p : Polynomial ℝ) (k : ℕ) (hk : 1 ≤ k) (hk' : k ≤ 5)
    (hp : p.natDegree ≤ k) (hf : ∀ x, a ≤ x → x ≤ b → f x = p.eval x) (ext : Spectrum XR)
    (hd : (RealData.newExtrap base ext k).1 = .ok d) (xs : List ℝ) (hne : xs ≠ []) (v : Vals XR)
    (hv : (d.evaluate (metreSpectrum (xs.map XR.fin))).1 = .ok v) :
    v = .array .float (xs.map (fun x => XR.fin (p.eval x))) := by
  obtain ⟨spl, r, rfl, hs⟩ := extrap_shape hb ha hab hd
  rcases extrap_evaluate hb hab.le hne hv with ⟨h1, rfl⟩ | ⟨-, rfl⟩
  · congr 1
    refine List.map_congr_left (fun x hx => ?_)
    rw [hf x (h1 x hx).1 (h1 x hx).2]
  · congr 1
    refine List.map_congr_left (fun x hx => ?_)
    refine SplineLaws.poly (knots a b f) k p spl hk hk' (by rw [knots_length]; omega) ?_ hp ?_ hs x
    · rw [knots_fst]; exact geomReal_pairwise ha hab (by norm_num)
    · intro q hq
      unfold knots at hq
      obtain ⟨y, hy, rfl⟩ := List.mem_map.1 hq
      obtain ⟨h1, h2⟩ := geomReal_mem ha hab.le (by norm_num) hy
      exact (hf y h1 h2).symm

/-- C107: a table extended with a spline of order one is continued by the straight line of its
last segment, provided that at least two of the 1000 sample points lie on this segment. -/
theorem C107_upper (rows : List (ℝ × ℝ)) (base d : RealData XR)
    (hbase : RealData.newInterp .float (xrows rows) "wavelength" "m" 1 = .ok base)
    (p q lo : ℝ × ℝ) (hp : p ∈ rows) (hq : q ∈ rows) (hlo : lo ∈ rows) (hpq : p.1 < q.1)
    (h0 : 0 < lo.1) (hall : ∀ r ∈ rows, lo.1 ≤ r.1 ∧ (r.1 ≤ p.1 ∨ r = q))
    (hwide : p.1 ≤ lo.1 * (q.1 / lo.1) ^ ((998 : ℝ) / 999)) (ext : Spectrum XR)
    (hd : (RealData.newExtrap base ext 1).1 = .ok d) (xs : List ℝ) (v : Vals XR)
    (hv : (d.evaluate (metreSpectrum (xs.map XR.fin))).1 = .ok v) (i : ℕ) (x : ℝ)
    (hi : xs[i]? = some x) (hx : q.1 ≤ x) :
    v.toList[i]? = some (XR.fin (p.2 + (q.2 - p.2) * ((x - p.1) / (q.1 - p.1)))) := by
  obtain ⟨a, b, f, hm, ⟨ra, hra, rfl⟩, ⟨rb, hrb, rfl⟩, hab, hf⟩ := table_metres hbase
  obtain ⟨_, _, _, _, _, _, _, hdup, _⟩ := newInterp_ok hbase
  have hinj : ∀ a ∈ rows, ∀ b ∈ rows, a.1 = b.1 → a = b := fun a ha b hb =>
    noDuplicates_distinct hdup ha hb
  have ea : ra.1 = lo.1 := le_antisymm (hab lo hlo).1 (hall ra hra).1
  have eb : rb = q := by
    rcases (hall rb hrb).2 with h | h
    · have := (hab q hq).2
      linarith
    · exact h
  subst eb
  rw [ea] at hm hab hf
  have hlq : lo.1 < rb.1 := lt_of_le_of_lt (hall p hp).1 hpq
  have hno : ∀ r ∈ rows, ¬ (p.1 < r.1 ∧ r.1 < rb.1) := by
    rintro r hr ⟨h1, h2⟩
    rcases (hall r hr).2 with h | h
    · linarith
    · rw [h] at h2; exact lt_irrefl _ h2
  have seg : ∀ y, p.1 ≤ y → y ≤ rb.1 →
      f y = p.2 + (rb.2 - p.2) * ((y - p.1) / (rb.1 - p.1)) := fun y h1 h2 =>
    onLine_segment hinj hp hq hpq hno h1 h2 (hf y ((hall p hp).1.trans h1) h2)
  have hne : xs ≠ [] := by rintro rfl; simp at hi
  obtain ⟨spl, r, rfl, hs⟩ := extrap_shape hm h0 hlq hd
  rcases extrap_evaluate hm hlq.le hne hv with ⟨h1, rfl⟩ | ⟨-, rfl⟩
  · have := h1 x (List.mem_of_getElem? hi)
    simp only [Vals.toList, List.getElem?_map, hi, Option.map_some]
    rw [seg x (by linarith) this.2]
  · simp only [Vals.toList, List.getElem?_map, hi, Option.map_some]
    congr 1
    obtain ⟨l, hl⟩ := geomReal_last_two (b := rb.1) h0 998
    have hw : p.1 ≤ lo.1 * (rb.1 / lo.1) ^ (((998 : ℕ) : ℝ) / (((998 : ℕ) : ℝ) + 1)) := by
      norm_num
      exact hwide
    generalize lo.1 * (rb.1 / lo.1) ^ (((998 : ℕ) : ℝ) / (((998 : ℕ) : ℝ) + 1)) = z at hl hw
    have hkn : knots lo.1 rb.1 f = l.map (fun x => (x, f x)) ++ [(z, f z), (rb.1, f rb.1)] := by
      unfold knots
      rw [show (1000 : ℕ) = 998 + 2 from rfl, hl, List.map_append]
      rfl
    have hpw : ((knots lo.1 rb.1 f).map (·.1)).Pairwise (· < ·) := by
      rw [knots_fst]; exact geomReal_pairwise h0 hlq (by norm_num)
    have hzb : z < rb.1 := by
      rw [hkn, List.pairwise_map, List.pairwise_append] at hpw
      exact (List.pairwise_cons.1 hpw.2.1).1 (rb.1, f rb.1) (by simp)
    refine SplineLaws.line (knots lo.1 rb.1 f) spl (by rw [knots_length]; norm_num) hpw hs x _
      ⟨_, (z, f z), (rb.1, f rb.1), [], hkn, .inr ?_, .inl rfl, ?_⟩
    · simp only; linarith
    · simp only
      rw [seg z hw hzb.le, seg rb.1 hpq.le le_rfl]
      have d1 : rb.1 - p.1 ≠ 0 := by linarith
      have d2 : rb.1 - z ≠ 0 := by linarith
      field_simp
      ring

/-- C107: likewise below the table, by the straight line of its first segment. -/
theorem C107_lower (rows : List (ℝ × ℝ)) (base d : RealData XR)
    (hbase : RealData.newInterp .float (xrows rows) "wavelength" "m" 1 = .ok base)
    (p q hi : ℝ × ℝ) (hp : p ∈ rows) (hq : q ∈ rows) (hhi : hi ∈ rows) (hpq : p.1 < q.1)
    (h0 : 0 < p.1) (hall : ∀ r ∈ rows, r.1 ≤ hi.1 ∧ (r = p ∨ q.1 ≤ r.1))
    (hwide : p.1 * (hi.1 / p.1) ^ ((1 : ℝ) / 999) ≤ q.1) (ext : Spectrum XR)
    (hd : (RealData.newExtrap base ext 1).1 = .ok d) (xs : List ℝ) (v : Vals XR)
    (hv : (d.evaluate (metreSpectrum (xs.map XR.fin))).1 = .ok v) (i : ℕ) (x : ℝ)
    (hi' : xs[i]? = some x) (hx : x ≤ p.1) :
    v.toList[i]? = some (XR.fin (p.2 + (q.2 - p.2) * ((x - p.1) / (q.1 - p.1)))) := by
  obtain ⟨a, b, f, hm, ⟨ra, hra, rfl⟩, ⟨rb, hrb, rfl⟩, hab, hf⟩ := table_metres hbase
  obtain ⟨_, _, _, _, _, _, _, hdup, _⟩ := newInterp_ok hbase
  have hinj : ∀ a ∈ rows, ∀ b ∈ rows, a.1 = b.1 → a = b := fun a ha b hb =>
    noDuplicates_distinct hdup ha hb
  have eb : rb.1 = hi.1 := le_antisymm (hall rb hrb).1 (hab hi hhi).2
  have ea : ra = p := by
    rcases (hall ra hra).2 with h | h
    · exact h
    · have := (hab p hp).1
      linarith
  subst ea
  rw [eb] at hm hab hf
  have hlq : ra.1 < hi.1 := lt_of_lt_of_le hpq (hall q hq).1
  have hno : ∀ r ∈ rows, ¬ (ra.1 < r.1 ∧ r.1 < q.1) := by
    rintro r hr ⟨h1, h2⟩
    rcases (hall r hr).2 with h | h
    · rw [h] at h1; exact lt_irrefl _ h1
    · linarith
  have seg : ∀ y, ra.1 ≤ y → y ≤ q.1 →
      f y = ra.2 + (q.2 - ra.2) * ((y - ra.1) / (q.1 - ra.1)) := fun y h1 h2 =>
    onLine_segment hinj hp hq hpq hno h1 h2 (hf y h1 (h2.trans (hall q hq).1))
  have hne : xs ≠ [] := by rintro rfl; simp at hi'
  obtain ⟨spl, r, rfl, hs⟩ := extrap_shape hm h0 hlq hd
  rcases extrap_evaluate hm hlq.le hne hv with ⟨h1, rfl⟩ | ⟨-, rfl⟩
  · have := h1 x (List.mem_of_getElem? hi')
    simp only [Vals.toList, List.getElem?_map, hi', Option.map_some]
    rw [seg x this.1 (by linarith)]
  · simp only [Vals.toList, List.getElem?_map, hi', Option.map_some]
    congr 1
    obtain ⟨l, hl⟩ := geomReal_first_two (a := ra.1) (b := hi.1) 998
    have hw : ra.1 * (hi.1 / ra.1) ^ (1 / (((998 : ℕ) : ℝ) + 1)) ≤ q.1 := by
      norm_num at hwide ⊢
      exact hwide
    generalize ra.1 * (hi.1 / ra.1) ^ (1 / (((998 : ℕ) : ℝ) + 1)) = z at hl hw
    have hkn : knots ra.1 hi.1 f = [] ++ (ra.1, f ra.1) :: (z, f z) :: l.map (fun x => (x, f x)) := by
      unfold knots
      rw [show (1000 : ℕ) = 998 + 2 from rfl, hl]
      rfl
    have hpw : ((knots ra.1 hi.1 f).map (·.1)).Pairwise (· < ·) := by
      rw [knots_fst]; exact geomReal_pairwise h0 hlq (by norm_num)
    have hzb : ra.1 < z := by
      rw [hkn, List.pairwise_map] at hpw
      exact (List.pairwise_cons.1 hpw).1 (z, f z) (by simp)
    refine SplineLaws.line (knots ra.1 hi.1 f) spl (by rw [knots_length]; norm_num) hpw hs x _
      ⟨[], (ra.1, f ra.1), (z, f z), _, hkn, .inl rfl, .inr ?_, ?_⟩
    · simp only; linarith
    · simp only
      rw [seg z hzb.le hw, seg ra.1 le_rfl hpq.le]
      have d1 : q.1 - ra.1 ≠ 0 := by linarith
      have d2 : z - ra.1 ≠ 0 := by linarith
      field_simp
      ring

omit [SplineLaws] in
/-- Data in metres can be extended upwards. -/
theorem extrap_up {base : RealData XR} {a b : ℝ} {f : ℝ → ℝ} (hb : MetreData base a b f)
    (ha : 0 < a) (hab : a < b) {e : ℝ} (he : b < e) {k : ℕ} (hk : 1 ≤ k) (hk' : k ≤ 5) :
    ∃ spl, (RealData.newExtrap base (metreSpectrum ([e].map XR.fin)) k).1 =
      .ok (.extrap base k spl (metreSpectrum ([a, e].map XR.fin)) "wavelength" "m") ∧
      SciPy.splrep ((knots a b f).map (fun p => XR.fin p.1)) ((knots a b f).map (fun p => XR.fin p.2)) k =
        .ok spl := by
  have hae : a < e := hab.trans he
  have hmin : ∀ b', a < b' → npMin (metreSpectrum ([a, b'].map XR.fin)).values = .ok (XR.fin a) := by
    intro b' hb'
    simp [metreSpectrum, npMin, Vals.toList, npMinList, hb'.le]
  have hmax : ∀ b', a < b' → npMax (metreSpectrum ([a, b'].map XR.fin)).values = .ok (XR.fin b') := by
    intro b' hb'
    simp [metreSpectrum, npMax, Vals.toList, npMaxList, hb']
  have hcip := metre_convertInPlace ([e].map XR.fin)
  have hge : getExtrapSpectrum base.range (metreSpectrum ([e].map XR.fin)) =
      (.ok (metreSpectrum ([a, e].map XR.fin)), metreSpectrum ([e].map XR.fin)) := by
    rw [hb.range]
    unfold getExtrapSpectrum
    rw [show (metreSpectrum ([a, b].map XR.fin)).stype = "wavelength" from rfl,
      show (metreSpectrum ([a, b].map XR.fin)).unit = "m" from rfl, hcip]
    simp only [metreSpectrum, List.map_cons, List.map_nil, List.length_cons, List.length_nil]
    have hval : validateExtrapVal .float (XR.fin e) [XR.fin a, XR.fin b] =
        .ok [XR.fin a, XR.fin e] := by
      simp [validateExtrapVal, pyIdx, bind, Except.bind, he, storeEntry, not_lt.2 hae.le]
    simp only [List.foldlM_cons, List.foldlM_nil, hval, bind, Except.bind, pure, Except.pure]
    have := metreSpectrum_new' [XR.fin a, XR.fin e]
    rw [this]
    simp [metreSpectrum]
  have hr : extrapRange base (metreSpectrum ([a, e].map XR.fin)) =
      .ok (metreSpectrum ([a, e].map XR.fin)) := by
    unfold extrapRange
    rw [hmin e hae, hmax e hae, hb.stype, hb.unit]
    have := metreSpectrum_new [XR.fin a, XR.fin e]
    simp only [bind, Except.bind]
    exact this
  have hs : base.suggestSpectrum = .ok (metreSpectrum ((geomReal a b 1000).map XR.fin)) := by
    unfold RealData.suggestSpectrum
    rw [hb.range, hmin b hab, hmax b hab, hb.stype, hb.unit]
    simp only [bind, Except.bind, SciPyLaws.geom a b 1000 ha (ha.trans hab) (by norm_num)]
    exact metreSpectrum_new' _
  have hev := hb.values (geomReal a b 1000)
    (List.ne_nil_of_mem (geomReal_first (a := a) (b := b) (by norm_num)))
    (fun y hy => geomReal_mem ha hab.le (by norm_num) hy)
  obtain ⟨spl, hspl, -⟩ := SciPyLaws.spline (knots a b f) k hk hk' (by rw [knots_length]; omega)
    (by rw [knots_fst]; exact geomReal_pairwise ha hab (by norm_num))
  have hx : extrapolateData base k = .ok spl := by
    rw [← hspl]
    unfold extrapolateData knots
    rw [hs]
    simp only [bind, Except.bind, hev]
    generalize geomReal a b 1000 = l
    simp only [List.map_map, Function.comp_def, metreSpectrum, Vals.toList]
  refine ⟨spl, ?_, hspl⟩
  unfold RealData.newExtrap
  rw [hge]
  simp only [hr, hx, bind, Except.bind, hb.stype, hb.unit]

/-- C16 is false of every library with the properties of splines: there is a table with a bend
between two of the 1000 sample points, extended to 3 m by a spline of order one, whose value at
the bend is 1 if asked alone and less than 1 if asked together with 3 m. -/
theorem C16_bend_refuted : ∃ (x0 : ℝ) (base d : RealData XR),
    RealData.newInterp .float (xrows [(1, 0), (x0, 1), (2, 0)]) "wavelength" "m" 1 = .ok base ∧
    (RealData.newExtrap base (metreSpectrum ([3].map XR.fin)) 1).1 = .ok d ∧
    (d.evaluate (metreSpectrum ([x0].map XR.fin))).1 = .ok (.array .float [XR.fin 1]) ∧
    (∃ y z : ℝ, (d.evaluate (metreSpectrum ([x0, 3].map XR.fin))).1 =
      .ok (.array .float [XR.fin y, XR.fin z]) ∧ y < 1) ∧ ¬ C16_statement XR d := by
  obtain ⟨x0, hx0, hx0'⟩ : ∃ x ∈ Set.Ioo (1 : ℝ) 2, x ∉ (geomReal 1 2 1000).toFinset :=
    (Set.Ioo_infinite (by norm_num)).exists_notMem_finset _
  rw [List.mem_toFinset] at hx0'
  obtain ⟨hx1, hx2⟩ := hx0
  obtain ⟨base, hbase⟩ : ∃ base : RealData XR,
      RealData.newInterp .float (xrows [(1, 0), (x0, 1), (2, 0)]) "wavelength" "m" 1 = .ok base := by
    have h1 : npMin (Vals.array DType.float [XR.fin 1, XR.fin x0, XR.fin 2]) = .ok (XR.fin 1) := by
      simp [npMin, Vals.toList, npMinList, not_lt.2 hx1.le]
    have h2 : npMax (Vals.array DType.float [XR.fin 1, XR.fin x0, XR.fin 2]) = .ok (XR.fin 2) := by
      simp [npMax, Vals.toList, npMaxList, hx1, hx2]
    have hsort : sortRows (xrows [(1, 0), (x0, 1), (2, 0)]) =
        [(XR.fin 1, XR.fin 0), (XR.fin x0, XR.fin 1), (XR.fin 2, XR.fin 0)] := by
      simp [xrows, sortRows, insertRow, hx1, hx2]
    have h3 : interpInit 1 (xrows [(1, 0), (x0, 1), (2, 0)]) = .ok () := by
      simp only [interpInit, hsort, noDuplicates]
      simp [xrows, hx1, hx2]
    refine ⟨.interp 1 (xrows [(1, 0), (x0, 1), (2, 0)]) (metreSpectrum [XR.fin 1, XR.fin 2])
      "wavelength" "m", ?_⟩
    unfold RealData.newInterp
    rw [h3]
    simp only [xrows, List.map_cons, List.map_nil, h1, h2, metreSpectrum_new, bind, Except.bind]
  obtain ⟨a, b, f, hm, ⟨ra, hra, rfl⟩, ⟨rb, hrb, rfl⟩, hall, hf⟩ := table_metres hbase
  obtain ⟨_, _, _, _, _, _, _, hdup, _⟩ := newInterp_ok hbase
  have hinj : ∀ a ∈ [((1 : ℝ), (0 : ℝ)), (x0, 1), (2, 0)], ∀ b ∈ [((1 : ℝ), (0 : ℝ)), (x0, 1), (2, 0)],
      a.1 = b.1 → a = b := fun a ha b hb => noDuplicates_distinct hdup ha hb
  have ea : ra.1 = 1 := by
    have h1 := (hall (1, 0) (by simp)).1
    simp only [List.mem_cons, List.not_mem_nil, or_false] at hra
    rcases hra with rfl | rfl | rfl
    · rfl
    · simp only at h1; linarith
    · norm_num at h1
  have eb : rb.1 = 2 := by
    have h1 := (hall (2, 0) (by simp)).2
    simp only [List.mem_cons, List.not_mem_nil, or_false] at hrb
    rcases hrb with rfl | rfl | rfl
    · norm_num at h1
    · simp only at h1; linarith
    · rfl
  rw [ea, eb] at hm hf
  have left : ∀ y, 1 ≤ y → y ≤ x0 → f y = (y - 1) / (x0 - 1) := by
    intro y h1 h2
    have := onLine_segment hinj (p := (1, 0)) (q := (x0, 1)) (by simp) (by simp) hx1 (by
      intro r hr
      simp only [List.mem_cons, List.not_mem_nil, or_false] at hr
      rcases hr with rfl | rfl | rfl <;> simp only [not_and, not_lt] <;> intros <;> linarith)
      h1 h2 (hf y h1 (by linarith))
    simpa using this
  have right : ∀ y, x0 ≤ y → y ≤ 2 → f y = 1 - (y - x0) / (2 - x0) := by
    intro y h1 h2
    have := onLine_segment hinj (p := (x0, 1)) (q := (2, 0)) (by simp) (by simp) hx2 (by
      intro r hr
      simp only [List.mem_cons, List.not_mem_nil, or_false] at hr
      rcases hr with rfl | rfl | rfl <;> simp only [not_and, not_lt] <;> intros <;> linarith)
      h1 h2 (hf y (by linarith) h2)
    rw [this]
    ring
  obtain ⟨spl, hd, hspl⟩ := extrap_up hm (by norm_num) (by norm_num) (e := 3) (by norm_num)
    (k := 1) le_rfl (by norm_num)
  -- the two neighbouring sample points
  have hgm : ∀ {y : ℝ}, y ∈ geomReal 1 2 1000 → 1 ≤ y ∧ y ≤ 2 := fun hy =>
    geomReal_mem (by norm_num) (by norm_num) (by norm_num) hy
  have hpw : ((knots 1 2 f).map (·.1)).Pairwise (· < ·) := by
    rw [knots_fst]; exact geomReal_pairwise (by norm_num) (by norm_num) (by norm_num)
  obtain ⟨l1, p, q, l2, hl, hp1, hq1⟩ : ∃ l1 p q l2, geomReal 1 2 1000 = l1 ++ p :: q :: l2 ∧
      p < x0 ∧ x0 < q := by
    obtain ⟨l, hfirst⟩ := geomReal_first_two (a := 1) (b := 2) 998
    obtain ⟨l', hlast⟩ := geomReal_last_two (a := 1) (b := 2) (by norm_num) 998
    rw [show (998 : ℕ) + 2 = 1000 from rfl] at hfirst hlast
    have hmem : (2 : ℝ) ∈ geomReal 1 2 1000 := by rw [hlast]; simp
    generalize 1 * ((2 : ℝ) / 1) ^ (1 / (((998 : ℕ) : ℝ) + 1)) = z at hfirst
    rw [hfirst] at hmem hx0'
    rw [hfirst]
    clear hfirst hlast hpw
    have key : ∀ (l : List ℝ) (a : ℝ), a < x0 → (∃ y ∈ l, x0 < y) → x0 ∉ l →
        ∃ l1 p q l2, a :: l = l1 ++ p :: q :: l2 ∧ p < x0 ∧ x0 < q := by
      intro l
      induction l with
      | nil => rintro a _ ⟨y, hy, -⟩ _; cases hy
      | cons c l ih =>
        rintro a ha ⟨y, hy, hxy⟩ hn
        simp only [List.mem_cons, not_or] at hn
        rcases lt_or_gt_of_ne hn.1 with h | h
        · exact ⟨[], a, c, l, rfl, ha, h⟩
        · rcases List.mem_cons.1 hy with rfl | hy
          · linarith
          · obtain ⟨l1, p, q, l2, e, h1, h2⟩ := ih c h ⟨y, hy, hxy⟩ hn.2
            exact ⟨a :: l1, p, q, l2, by rw [e]; rfl, h1, h2⟩
    refine key _ _ hx1 ⟨2, ?_, hx2⟩ (fun h => hx0' (List.mem_cons_of_mem _ h))
    rcases List.mem_cons.1 hmem with h | h
    · norm_num at h
    · exact h
  have hp2 := hgm (y := p) (by rw [hl]; simp)
  have hq2 := hgm (y := q) (by rw [hl]; simp)
  have hkn : knots 1 2 f = l1.map (fun x => (x, f x)) ++ (p, f p) :: (q, f q) ::
      l2.map (fun x => (x, f x)) := by
    unfold knots
    rw [hl, List.map_append]
    rfl
  have hbend := SplineLaws.line (knots 1 2 f) spl (by rw [knots_length]; norm_num) hpw hspl x0 _
    ⟨_, (p, f p), (q, f q), _, hkn, .inr hp1.le, .inr hq1.le, rfl⟩
  have hylt : f p + (f q - f p) * ((x0 - p) / (q - p)) < 1 := by
    rw [left p hp2.1 hp1.le, right q hq1.le hq2.2]
    have d1 : 0 < x0 - 1 := by linarith
    have d2 : 0 < 2 - x0 := by linarith
    have d3 : 0 < q - p := by linarith
    have e1 : (p - 1) / (x0 - 1) < 1 := by rw [div_lt_one d1]; linarith
    have e2 : 0 < (q - x0) / (2 - x0) := div_pos (by linarith) d2
    have w0 : 0 < (x0 - p) / (q - p) := div_pos (by linarith) d3
    have w1 : (x0 - p) / (q - p) < 1 := by rw [div_lt_one d3]; linarith
    generalize (p - 1) / (x0 - 1) = s at *
    generalize (q - x0) / (2 - x0) = t at *
    generalize (x0 - p) / (q - p) = w at *
    nlinarith
  -- beyond the table
  obtain ⟨z, hz⟩ : ∃ z, SciPy.splev spl (XR.fin 3) = XR.fin z := by
    obtain ⟨l', hlast⟩ := geomReal_last_two (a := 1) (b := 2) (by norm_num) 998
    rw [show (998 : ℕ) + 2 = 1000 from rfl] at hlast
    generalize 1 * ((2 : ℝ) / 1) ^ (((998 : ℕ) : ℝ) / (((998 : ℕ) : ℝ) + 1)) = c at hlast
    have hc := hgm (y := c) (by rw [hlast]; simp)
    have hkn' : knots 1 2 f = l'.map (fun x => (x, f x)) ++ (c, f c) :: (2, f 2) :: [] := by
      unfold knots
      rw [hlast, List.map_append]
      rfl
    exact ⟨_, SplineLaws.line (knots 1 2 f) spl (by rw [knots_length]; norm_num) hpw hspl 3 _
      ⟨_, (c, f c), (2, f 2), [], hkn', .inr (by simp only; linarith), .inl rfl, rfl⟩⟩
  have hc1 : base.range.contains (metreSpectrum ([x0].map XR.fin)) = .ok true := by
    rw [hm.range]
    refine metre_contains [1, 2] [x0] (by simp) (by simp) (fun y hy => ?_)
    rw [List.mem_singleton.1 hy]
    exact ⟨⟨1, by simp, hx1.le⟩, ⟨2, by simp, hx2.le⟩⟩
  have hv1 := hm.values [x0] (by simp) (fun y hy => by
    rw [List.mem_singleton.1 hy]; exact ⟨hx1.le, hx2.le⟩)
  have hf0 : f x0 = 1 := by
    rw [left x0 hx1.le le_rfl, div_self (by linarith)]
  have ev1 : ((RealData.extrap base 1 spl (metreSpectrum ([1, 3].map XR.fin)) "wavelength"
      "m").evaluate (metreSpectrum ([x0].map XR.fin))).1 = .ok (.array .float [XR.fin 1]) := by
    simp only [RealData.evaluate, hc1, hv1]
    simp only [List.map_cons, List.map_nil, hf0]
  have hc2 : base.range.contains (metreSpectrum ([x0, 3].map XR.fin)) = .error .value := by
    rw [hm.range]
    refine metre_not_contains [1, 2] [x0, 3] (by simp) (y := 3) (by simp) (.inr ?_)
    simp only [List.mem_cons, List.not_mem_nil, or_false, forall_eq_or_imp, forall_eq]
    norm_num
  have hc3 : (metreSpectrum ([1, 3].map XR.fin)).contains (metreSpectrum ([x0, 3].map XR.fin)) =
      .ok true := by
    refine metre_contains [1, 3] [x0, 3] (by simp) (by simp) (fun y hy => ?_)
    simp only [List.mem_cons, List.not_mem_nil, or_false] at hy
    rcases hy with rfl | rfl
    · exact ⟨⟨1, by simp, hx1.le⟩, ⟨3, by simp, by linarith⟩⟩
    · exact ⟨⟨1, by simp, by norm_num⟩, ⟨3, by simp, le_rfl⟩⟩
  have ev2 : ((RealData.extrap base 1 spl (metreSpectrum ([1, 3].map XR.fin)) "wavelength"
      "m").evaluate (metreSpectrum ([x0, 3].map XR.fin))).1 =
      .ok (.array .float [XR.fin (f p + (f q - f p) * ((x0 - p) / (q - p))), XR.fin z]) := by
    simp only [RealData.evaluate, hc2, show PyErr.value.isA PyErr.value = true from rfl, if_true,
      metre_convertInPlace, hc3, bind, Except.bind]
    simp only [metreSpectrum, Vals.map, List.map_cons, List.map_nil]
    rw [hbend, hz]
  refine ⟨x0, base, _, hbase, hd, ev1, ⟨_, z, ev2, hylt⟩, ?_⟩
  intro hst
  obtain ⟨y, h3, h4⟩ := hst "wavelength" "m" ([x0].map XR.fin) ([x0, 3].map XR.fin)
    (metreSpectrum ([x0].map XR.fin)) (metreSpectrum ([x0, 3].map XR.fin)) _ _ 0 0 (XR.fin x0)
    (metreSpectrum_new _) (metreSpectrum_new _) ev1 ev2 rfl rfl
  have h5 : XR.fin 1 = y := Option.some.inj h3
  have h6 : XR.fin (f p + (f q - f p) * ((x0 - p) / (q - p))) = y := Option.some.inj h4
  rw [← h5] at h6
  rw [XR.fin_inj.1 h6] at hylt
  exact lt_irrefl _ hylt

omit [SciPyLaws] [SplineLaws] in
/-- Concrete case for the segments: with rows at 1, 2 and 3 m both outer segments hold two of the
1000 points. -/
example : (2 : ℝ) ≤ 1 * (3 / 1) ^ ((998 : ℝ) / 999) ∧ (1 : ℝ) * (3 / 1) ^ ((1 : ℝ) / 999) ≤ 2 := by
  constructor
  · have h1 : (3 : ℝ) ^ ((998 : ℝ) / 999) ≥ (3 : ℝ) ^ ((2 : ℝ) / 3) :=
      Real.rpow_le_rpow_of_exponent_le (by norm_num) (by norm_num)
    have h2 : (2 : ℝ) ≤ (3 : ℝ) ^ ((2 : ℝ) / 3) := by
      have : ((2 : ℝ) ^ (3 : ℝ)) ^ ((1 : ℝ) / 3) ≤ ((3 : ℝ) ^ (2 : ℝ)) ^ ((1 : ℝ) / 3) :=
        Real.rpow_le_rpow (by positivity) (by norm_num) (by norm_num)
      rw [← Real.rpow_mul (by norm_num), ← Real.rpow_mul (by norm_num)] at this
      norm_num at this
      exact this
    rw [one_mul, div_one]
    exact h2.trans h1
  · have h1 : (3 : ℝ) ^ ((1 : ℝ) / 999) ≤ (3 : ℝ) ^ ((1 : ℝ) / 2) :=
      Real.rpow_le_rpow_of_exponent_le (by norm_num) (by norm_num)
    have h2 : (3 : ℝ) ^ ((1 : ℝ) / 2) ≤ 2 := by
      rw [← Real.sqrt_eq_rpow]
      rw [Real.sqrt_le_left (by norm_num)]
      norm_num
    rw [one_mul, div_one]
    exact h1.trans h2

/-- Concrete case for `C107_polynomial`: the two-row table from 1 to 2 m. -/
example (ya yb : ℝ) : ∃ (f : ℝ → ℝ) (p : Polynomial ℝ) (d : RealData XR),
    MetreData (lineData 1 2 ya yb) 1 2 f ∧ p.natDegree ≤ 2 ∧ (∀ x, 1 ≤ x → x ≤ 2 → f x = p.eval x) ∧
    (RealData.newExtrap (lineData 1 2 ya yb) (metreSpectrum ([3].map XR.fin)) 2).1 = .ok d ∧
    (d.evaluate (metreSpectrum ([2.5].map XR.fin))).1 =
      .ok (.array .float [XR.fin (ya + (yb - ya) * 1.5)]) := by
  have hm : MetreData (lineData 1 2 ya yb) 1 2 (lineAt 1 2 ya yb) :=
    ⟨rfl, rfl, rfl, fun xs h1 h2 => lineData_evaluate (by norm_num) xs h1 h2⟩
  let p : Polynomial ℝ := Polynomial.C (yb - ya) * Polynomial.X + Polynomial.C (ya - (yb - ya))
  have hp : p.natDegree ≤ 2 := (Polynomial.natDegree_linear_le).trans (by norm_num)
  have hf : ∀ x, 1 ≤ x → x ≤ 2 → lineAt 1 2 ya yb x = p.eval x := by
    intro x _ _
    simp only [lineAt, p, Polynomial.eval_add, Polynomial.eval_mul, Polynomial.eval_C, Polynomial.eval_X]
    norm_num
    ring
  obtain ⟨spl, hd, -⟩ := extrap_up hm (by norm_num) (by norm_num) (e := 3) (by norm_num) (k := 2)
    (by norm_num) (by norm_num)
  refine ⟨_, p, _, hm, hp, hf, hd, ?_⟩
  have hc2 : (lineData 1 2 ya yb).range.contains (metreSpectrum (([2.5] : List ℝ).map XR.fin)) =
      .error .value := by
    rw [hm.range]
    refine metre_not_contains [1, 2] [2.5] (by simp) (y := 2.5) (by simp) (.inr ?_)
    simp only [List.mem_cons, List.not_mem_nil, or_false, forall_eq_or_imp, forall_eq]
    norm_num
  have hc3 : (metreSpectrum ([1, 3].map XR.fin)).contains
      (metreSpectrum (([2.5] : List ℝ).map XR.fin)) = .ok true := by
    refine metre_contains [1, 3] [2.5] (by simp) (by simp) (fun y hy => ?_)
    rw [List.mem_singleton.1 hy]
    exact ⟨⟨1, by simp, by norm_num⟩, ⟨3, by simp, by norm_num⟩⟩
  have ev : ∃ v, ((RealData.extrap (lineData 1 2 ya yb) 2 spl (metreSpectrum ([1, 3].map XR.fin))
      "wavelength" "m").evaluate (metreSpectrum (([2.5] : List ℝ).map XR.fin))).1 = .ok v := by
    simp only [RealData.evaluate, hc2, show PyErr.value.isA PyErr.value = true from rfl, if_true,
      metre_convertInPlace, hc3, bind, Except.bind]
    exact ⟨_, rfl⟩
  obtain ⟨v, hv⟩ := ev
  rw [hv, C107_polynomial _ _ 1 2 _ hm (by norm_num) (by norm_num) p 2 (by norm_num) (by norm_num) hp
    hf _ hd [2.5] (by simp) v hv]
  simp only [List.map_cons, List.map_nil, p, Polynomial.eval_add, Polynomial.eval_mul,
    Polynomial.eval_C, Polynomial.eval_X]
  norm_num
  ring

end

/-- Both contracts can be met together. -/
example : ∃ (_ : SciPy XR) (_ : SciPyLaws), SplineLaws :=
  ⟨splineDemo, splineDemo_laws, splineDemo_splines⟩

end Disp

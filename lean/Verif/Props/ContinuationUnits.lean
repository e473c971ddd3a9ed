import Verif.Props.Continuation
import Verif.Props.UnitRange
/-!
# C107 in the other units: how tables are continued

A table over values of any type and unit but wavenumbers is sampled at 1000 points that conversions
round to the decimals they keep. So a first-order extrapolation continues the outer segments of the
table up to this rounding, which is amplified by the distance from the table; exactly, where
conversions do not round.
-/

namespace Disp

open Spec

/-- Half a unit in the last decimal that conversions keep. -/
noncomputable def Spec.halfUnit : Option ℕ → ℝ
  | none => 0
  | some d => 1 / 2 / 10 ^ d

theorem roundOpt_near (o : Option ℕ) (x : ℝ) : |roundOpt o x - x| ≤ halfUnit o := by
  cases o with
  | none => simp [roundOpt, halfUnit]
  | some d => exact XR.roundDec_sub_le d x

section
variable [SciPy XR]

/-- The value of a table at one point. -/
noncomputable def tableAt (rows : List (ℝ × ℝ)) (x : ℝ) : ℝ :=
  match interpLinear (xrows rows) (XR.fin x) with
  | .ok (.fin y) => y
  | _ => 0

omit [SciPy XR] in
theorem mapRes_toList {f : XR → Res XR} {v w : Vals XR} (h : v.mapRes f = .ok w) :
    v.toList.mapM f = .ok w.toList := by
  cases v with
  | scalar x =>
    simp only [Vals.mapRes, bind, Except.bind] at h
    cases hx : f x with
    | error e => rw [hx] at h; cases h
    | ok y =>
      rw [hx] at h
      cases h
      simp [Vals.toList, hx, bind, Except.bind, pure, Except.pure]
  | array dt xs =>
    simp only [Vals.mapRes, bind, Except.bind] at h
    cases hx : xs.mapM f with
    | error e => rw [hx] at h; cases h
    | ok y =>
      rw [hx] at h
      cases h
      simp [Vals.toList, hx]

/-- What tables return. -/
theorem table_values {rows : List (ℝ × ℝ)} {tt uu : String} {base : RealData XR}
    (hd : RealData.newInterp .float (xrows rows) tt uu 1 = .ok base) {s : Spectrum XR} {v ov : Vals XR}
    (hv : (base.evaluate s).1 = .ok v) (hov : s.convertTo tt uu = .ok ov) {xs : List ℝ}
    (hx : ov.toList = xs.map XR.fin) :
    v.toList = xs.map (fun x => XR.fin (tableAt rows x)) ∧ ∀ x ∈ xs, OnLine rows x (tableAt rows x) := by
  obtain ⟨lo, hi, r, h1, h2, h3, h4, h5, rfl⟩ := newInterp_ok hd
  have hlen : 2 ≤ rows.length := by simpa [xrows] using h4
  simp only [RealData.evaluate] at hv
  obtain ⟨_, -, hv⟩ := except_bind_ok hv
  rw [hov] at hv
  have hm := mapRes_toList (show ov.mapRes (interpAt 1 (xrows rows)) = .ok v from hv)
  rw [hx] at hm
  clear hx hv hov
  generalize v.toList = w at hm
  induction xs generalizing w with
  | nil =>
    simp only [List.map_nil, List.mapM_nil, pure, Except.pure] at hm
    cases hm
    simp
  | cons x xs ih =>
    rw [List.map_cons, List.mapM_cons] at hm
    obtain ⟨z, hz, hm⟩ := except_bind_ok hm
    obtain ⟨zs, hzs, hm⟩ := except_bind_ok hm
    cases hm
    obtain ⟨i1, i2⟩ := ih zs hzs
    have hz' : interpLinear (xrows rows) (XR.fin x) = .ok z := by simpa [interpAt] using hz
    obtain ⟨k1, k2⟩ := interpLinear_real rows hlen h5 x
    by_cases hin : (∃ a ∈ rows, a.1 ≤ x) ∧ (∃ b ∈ rows, x ≤ b.1)
    · obtain ⟨y, e, hy⟩ := k1 hin
      have ht : tableAt rows x = y := by unfold tableAt; rw [e]
      rw [hz'] at e
      cases e
      rw [List.map_cons, i1, ht]
      refine ⟨rfl, ?_⟩
      intro x' hx'
      rcases List.mem_cons.1 hx' with rfl | h
      · rw [ht]; exact hy
      · exact i2 x' h
    · rw [k2 hin] at hz'
      cases hz'

variable [SciPyLaws]

/-- The points through which the spline of an extrapolated table is drawn. -/
theorem table_sampled {rows : List (ℝ × ℝ)} {tt uu c : String} (hc : (lower tt, uu, c) ∈ names)
    (hk : lower tt ≠ "wavenumber") {base : RealData XR}
    (hbase : RealData.newInterp .float (xrows rows) tt uu 1 = .ok base) {lo hi : ℝ}
    (hb : Band (lower tt) c lo hi) (hlt : lo < hi) (h1 : ∃ p ∈ rows, p.1 = lo) (h2 : ∃ p ∈ rows, p.1 = hi)
    (h3 : ∀ p ∈ rows, lo ≤ p.1 ∧ p.1 ≤ hi) (k : ℕ) :
    extrapolateData base k =
      SciPy.splrep ((knots lo hi (fun x => tableAt rows (roundOpt (decimals (lower tt) c) x))).map
          (fun p => XR.fin p.1))
        ((knots lo hi (fun x => tableAt rows (roundOpt (decimals (lower tt) c) x))).map
          (fun p => XR.fin p.2)) k ∧
      ∀ x, lo ≤ x → x ≤ hi → OnLine rows (roundOpt (decimals (lower tt) c) x)
        (tableAt rows (roundOpt (decimals (lower tt) c) x)) := by
  have hpart : BandPart (lower tt) c base lo hi :=
    .table rows tt uu lo hi base rfl hc hb h1 h2 h3 hbase
  have hl : lower uu = uu := (names_lower _ hc).2
  have hu' : (lower tt, lower uu, c) ∈ names := by rw [hl]; exact hc
  obtain ⟨hrange, -⟩ := hpart.spec
  obtain ⟨lo', hi', r0, -, -, -, -, -, hshape⟩ := newInterp_ok hbase
  have hst : base.stype = tt := by rw [hshape]; rfl
  have hun : base.unit = uu := by rw [hshape]; rfl
  have hsame : ∀ s, (base.evaluate s).2 = s := by
    intro s
    rw [hshape]
    rfl
  -- requests at points of the range
  have ask : ∀ xs : List ℝ, xs ≠ [] → (∀ x ∈ xs, lo ≤ x ∧ x ≤ hi) →
      ∃ s v, Spectrum.new (.ndarray .float (xs.map XR.fin)) tt uu = .ok s ∧
        s.values = .array .float (xs.map XR.fin) ∧ (base.evaluate s).1 = .ok v ∧
        v.toList = xs.map (fun x => XR.fin (tableAt rows (roundOpt (decimals (lower tt) c) x))) ∧
        ∀ x ∈ xs, OnLine rows (roundOpt (decimals (lower tt) c) x)
          (tableAt rows (roundOpt (decimals (lower tt) c) x)) := by
    intro xs hne hxs
    have hnew := new_list (F := XR) hu' (xs.map XR.fin)
    have hpos : ∀ x ∈ xs, 0 < x := fun x hx => lt_of_lt_of_le hb.pos (hxs x hx).1
    have hstd : (xs.map XR.fin).map (fromElem safeInverseElem (lower tt) c) =
        (xs.map (metres (lower tt) c)).map XR.fin := by
      rw [List.map_map, List.map_map]
      refine List.map_congr_left fun x hx => ?_
      simp only [Function.comp]
      rw [fromElem_fin (names_pairs _ hu') (hpos x hx) (fun hw => XR.inv_elem_fin (by
        rw [abs_of_pos (hpos x hx)]; exact lt_of_lt_of_le (hb.big hw).1 (hxs x hx).1))]
    rw [hstd] at hnew
    have hasks : Asks (lower tt) ⟨.array .float (xs.map XR.fin), lower tt, c,
        .array .float ((xs.map (metres (lower tt) c)).map XR.fin)⟩ (xs.map (metres (lower tt) c)) := by
      refine ⟨⟨by simpa using hne, .inr rfl⟩, ?_, ?_⟩
      · intro y hy
        obtain ⟨x, hx, rfl⟩ := List.mem_map.1 hy
        exact metres_pos _ _ (hpos x hx)
      · intro hw
        right
        intro y hy
        obtain ⟨x, hx, rfl⟩ := List.mem_map.1 hy
        exact lt_of_lt_of_le (hb.big hw).2 (metres_anti (names_pairs _ hc) hw (hpos x hx) (hxs x hx).2)
    have hshown : ∀ x ∈ xs, shown (lower tt) c (metres (lower tt) c x) =
        roundOpt (decimals (lower tt) c) x := by
      intro x hx
      unfold shown
      rw [ofMetres_metres _ _ (hpos x hx)]
    obtain ⟨v, hv⟩ := (hpart.evaluate hk hasks).2 (by
      intro y hy
      obtain ⟨x, hx, rfl⟩ := List.mem_map.1 hy
      rw [hshown x hx]
      have r1 := roundOpt_mono (decimals (lower tt) c) (hxs x hx).1
      have r2 := roundOpt_mono (decimals (lower tt) c) (hxs x hx).2
      rw [rounded_of_grid hb.gridLo] at r1
      rw [rounded_of_grid hb.gridHi] at r2
      exact ⟨r1, r2⟩)
    obtain ⟨ov, o1, o2⟩ := hasks.convert hc hk
    have o3 : ov.toList = (xs.map (roundOpt (decimals (lower tt) c))).map XR.fin := by
      rw [o2, List.map_map, List.map_map]
      refine List.map_congr_left (fun x hx => ?_)
      simp only [Function.comp]
      rw [hshown x hx]
    obtain ⟨t1, t2⟩ := table_values hbase hv o1 o3
    refine ⟨_, v, hnew, rfl, hv, ?_, ?_⟩
    · rw [t1, List.map_map]; rfl
    · intro x hx
      exact t2 _ (List.mem_map_of_mem hx)
  have hmin : npMin base.range.values = .ok (XR.fin lo) := by
    rw [hrange]
    simp only
    rw [npMin_two, min_eq_left hlt.le]
  have hmax : npMax base.range.values = .ok (XR.fin hi) := by
    rw [hrange]
    simp only
    rw [npMax_two, max_eq_right hlt.le]
  obtain ⟨S, w, hS, hSv, hw, hwl, -⟩ := ask (geomReal lo hi 1000)
    (List.ne_nil_of_mem (geomReal_first (a := lo) (b := hi) (by norm_num)))
    (fun y hy => geomReal_mem hb.pos hlt.le (by norm_num) hy)
  have hs : base.suggestSpectrum = .ok S := by
    unfold RealData.suggestSpectrum
    rw [hmin, hmax, hst, hun]
    simp only [bind, Except.bind, SciPyLaws.geom lo hi 1000 hb.pos (hb.pos.trans hlt) (by norm_num)]
    exact hS
  have hx : extrapolateData base k =
      SciPy.splrep ((knots lo hi (fun x => tableAt rows (roundOpt (decimals (lower tt) c) x))).map
          (fun p => XR.fin p.1))
        ((knots lo hi (fun x => tableAt rows (roundOpt (decimals (lower tt) c) x))).map
          (fun p => XR.fin p.2)) k := by
    unfold extrapolateData knots
    rw [hs]
    have hS2 := hsame S
    cases he : base.evaluate S with
    | mk res S' =>
      rw [he] at hw hS2
      simp only at hw hS2
      subst hw hS2
      simp only [bind, Except.bind, he, hwl, hSv]
      generalize geomReal lo hi 1000 = l
      simp only [List.map_map, Function.comp_def, Vals.toList]
  refine ⟨hx, ?_⟩
  intro x k1 k2
  obtain ⟨_, _, _, _, _, _, hon⟩ := ask [x] (by simp) (by simpa using ⟨k1, k2⟩)
  exact hon x (by simp)

/-- The spline of an extrapolated table. -/
theorem extrap_table {rows : List (ℝ × ℝ)} {tt uu c : String} (hc : (lower tt, uu, c) ∈ names)
    (hk : lower tt ≠ "wavenumber") {base d : RealData XR}
    (hbase : RealData.newInterp .float (xrows rows) tt uu 1 = .ok base) {lo hi : ℝ}
    (hb : Band (lower tt) c lo hi) (hlt : lo < hi) (h1 : ∃ p ∈ rows, p.1 = lo) (h2 : ∃ p ∈ rows, p.1 = hi)
    (h3 : ∀ p ∈ rows, lo ≤ p.1 ∧ p.1 ≤ hi) {ext : Spectrum XR} {k : ℕ}
    (hd : (RealData.newExtrap base ext k).1 = .ok d) :
    ∃ spl r, d = .extrap base k spl r tt uu ∧
      (∀ x, lo ≤ x → x ≤ hi → OnLine rows (roundOpt (decimals (lower tt) c) x)
        (tableAt rows (roundOpt (decimals (lower tt) c) x))) ∧
      SciPy.splrep ((knots lo hi (fun x => tableAt rows (roundOpt (decimals (lower tt) c) x))).map
          (fun p => XR.fin p.1))
        ((knots lo hi (fun x => tableAt rows (roundOpt (decimals (lower tt) c) x))).map
          (fun p => XR.fin p.2)) k = .ok spl := by
  obtain ⟨hx, hon⟩ := table_sampled hc hk hbase hb hlt h1 h2 h3 k
  obtain ⟨lo', hi', r0, -, -, -, -, -, hshape⟩ := newInterp_ok hbase
  have hst : base.stype = tt := by rw [hshape]; rfl
  have hun : base.unit = uu := by rw [hshape]; rfl
  unfold RealData.newExtrap at hd
  cases hg : getExtrapSpectrum base.range ext with
  | mk res ext' =>
    rw [hg] at hd
    cases res with
    | error e => cases hd
    | ok es =>
      obtain ⟨r, hr, hd⟩ := except_bind_ok hd
      obtain ⟨spl, hsp, hd⟩ := except_bind_ok hd
      refine ⟨spl, r, ?_, ?_, hx ▸ hsp⟩
      · rw [← Except.ok.inj hd, hst, hun]
      · exact hon

/-- A table can be extended upwards by a value of its own type and unit. -/
theorem table_extends {rows : List (ℝ × ℝ)} {tt uu c : String} (hc : (lower tt, uu, c) ∈ names)
    (hk : lower tt ≠ "wavenumber") {base : RealData XR}
    (hbase : RealData.newInterp .float (xrows rows) tt uu 1 = .ok base) {lo hi : ℝ}
    (hb : Band (lower tt) c lo hi) (hlt : lo < hi) (h1 : ∃ p ∈ rows, p.1 = lo) (h2 : ∃ p ∈ rows, p.1 = hi)
    (h3 : ∀ p ∈ rows, lo ≤ p.1 ∧ p.1 ≤ hi) {e : ℝ} (he : hi < e) {ext : Spectrum XR}
    (hext : Asks (lower tt) ext [metres (lower tt) c e]) (hge : OnGrid (decimals (lower tt) c) e)
    {k : ℕ} (hk1 : 1 ≤ k) (hk5 : k ≤ 5) : ∃ d, (RealData.newExtrap base ext k).1 = .ok d := by
  obtain ⟨hx, -⟩ := table_sampled hc hk hbase hb hlt h1 h2 h3 k
  have hpart : BandPart (lower tt) c base lo hi :=
    .table rows tt uu lo hi base rfl hc hb h1 h2 h3 hbase
  obtain ⟨hrange, -⟩ := hpart.spec
  have hn := hpart.known
  have hl2 : lower (lower tt) = lower tt := (names_lower _ hn).1
  have hlc : lower c = c := (names_lower _ hn).2
  have hl : lower uu = uu := (names_lower _ hc).2
  have hu' : (lower tt, lower uu, c) ∈ names := by rw [hl]; exact hc
  have hn' : (lower (lower tt), lower c, c) ∈ names := by rw [hl2, hlc]; exact hn
  obtain ⟨lo', hi', r0, -, -, -, -, -, hshape⟩ := newInterp_ok hbase
  have hst : base.stype = tt := by rw [hshape]; rfl
  have hun : base.unit = uu := by rw [hshape]; rfl
  have he0 : 0 < e := hb.pos.trans (hlt.trans he)
  have hsh : shown (lower tt) c (metres (lower tt) c e) = e := by
    unfold shown
    rw [ofMetres_metres _ _ he0, rounded_of_grid hge]
  obtain ⟨ov, o1, o2⟩ := Asks.convert (t := lower tt) (by rw [hl2]; exact hn) (by rwa [hl2])
    (by rw [hl2]; exact hext)
  rw [hl2] at o2
  simp only [List.map_cons, List.map_nil, hsh] at o2
  obtain ⟨s2, hs2, hs2v⟩ : ∃ s2 : Spectrum XR,
      ext.convertInPlace (lower tt) c = (.ok (), s2) ∧ s2.values = ov := by
    unfold Spectrum.convertTo at o1
    obtain ⟨⟨t', u', z⟩, hz, o1⟩ := except_bind_ok o1
    cases o1
    unfold Spectrum.convertInPlace
    rw [hz]
    exact ⟨_, rfl, rfl⟩
  have hval : validateExtrapVal .float (XR.fin e) [XR.fin lo, XR.fin hi] =
      .ok [XR.fin lo, XR.fin e] := by
    simp [validateExtrapVal, pyIdx, bind, Except.bind, he, storeEntry, not_lt.2 (hlt.trans he).le]
  obtain ⟨es0, hnew, hnewv⟩ : ∃ es0 : Spectrum XR,
      Spectrum.new (.list .float [XR.fin lo, XR.fin e]) (lower tt) c = .ok es0 ∧
      es0.values = .array .float [XR.fin lo, XR.fin e] :=
    ⟨_, new_list (F := XR) hn' [XR.fin lo, XR.fin e], rfl⟩
  obtain ⟨es, ext', hes, hesv⟩ : ∃ es ext', getExtrapSpectrum base.range ext = (.ok es, ext') ∧
      es.values = .array .float [XR.fin lo, XR.fin e] := by
    rw [hrange]
    unfold getExtrapSpectrum
    simp only [hs2, hs2v]
    refine ⟨es0, s2, ?_, hnewv⟩
    cases ov with
    | scalar x =>
      have hx : x = XR.fin e := by simpa [Vals.toList] using o2
      subst hx
      simp only [hval, bind, Except.bind]
      exact congrArg (fun z => (z, s2)) hnew
    | array dt xs =>
      have hx : xs = [XR.fin e] := o2
      subst hx
      simp only [List.length_cons, List.length_nil, List.foldlM_cons, List.foldlM_nil, hval, bind,
        Except.bind, pure, Except.pure]
      rw [if_neg (by norm_num)]
      exact congrArg (fun z => (z, s2)) hnew
  obtain ⟨spl, hspl, -⟩ := SciPyLaws.spline
    (knots lo hi (fun x => tableAt rows (roundOpt (decimals (lower tt) c) x))) k hk1 hk5
    (by rw [knots_length]; omega) (by rw [knots_fst]; exact geomReal_pairwise hb.pos hlt (by norm_num))
  rw [hspl] at hx
  have hr := new_list (F := XR) hu' [XR.fin lo, XR.fin e]
  unfold RealData.newExtrap
  rw [hes]
  unfold extrapRange
  simp only [hesv, npMin_two, npMax_two, min_eq_left (hlt.trans he).le, max_eq_right (hlt.trans he).le,
    hx, hst, hun, bind, Except.bind, hr]
  exact ⟨_, rfl⟩

omit [SciPyLaws] in
/-- Evaluating an extrapolated table: the value of the table, or the spline at the value shown in
the unit of the table. -/
theorem extrap_table_evaluate {rows : List (ℝ × ℝ)} {tt uu c : String} (hc : (lower tt, uu, c) ∈ names)
    (hk : lower tt ≠ "wavenumber") {base : RealData XR}
    (hbase : RealData.newInterp .float (xrows rows) tt uu 1 = .ok base) {k : ℕ} {spl : SciPy.Spl XR}
    {r s : Spectrum XR} {ys : List ℝ} (hs : Asks (lower tt) s ys) {v : Vals XR}
    (hv : ((RealData.extrap base k spl r tt uu).evaluate s).1 = .ok v) :
    (v.toList = ys.map (fun y => XR.fin (tableAt rows (shown (lower tt) c y))) ∧
      ∀ y ∈ ys, OnLine rows (shown (lower tt) c y) (tableAt rows (shown (lower tt) c y))) ∨
    v.toList = ys.map (fun y => SciPy.splev spl (XR.fin (shown (lower tt) c y))) := by
  obtain ⟨ov, o1, o2⟩ := hs.convert hc hk
  obtain ⟨lo', hi', r0, -, -, -, -, -, hshape⟩ := newInterp_ok hbase
  have hsame : ∀ s, (base.evaluate s).2 = s := by
    intro s
    rw [hshape]
    rfl
  obtain ⟨s2, hs2, hs2v⟩ : ∃ s2 : Spectrum XR, s.convertInPlace tt uu = (.ok (), s2) ∧ s2.values = ov := by
    unfold Spectrum.convertTo at o1
    obtain ⟨⟨t', u', z⟩, hz, o1⟩ := except_bind_ok o1
    cases o1
    unfold Spectrum.convertInPlace
    rw [hz]
    exact ⟨_, rfl, rfl⟩
  have spline : ∀ w, (do
          let _ ← r.contains s2
          .ok (s2.values.map (SciPy.splev spl))) = Except.ok w →
      w.toList = ys.map (fun y => SciPy.splev spl (XR.fin (shown (lower tt) c y))) := by
    intro w hw
    obtain ⟨_, -, hw⟩ := except_bind_ok hw
    rw [← Except.ok.inj hw, hs2v]
    have : (Vals.map (SciPy.splev spl) ov).toList = ov.toList.map (SciPy.splev spl) := by
      cases ov <;> rfl
    rw [this, o2, List.map_map]
    rfl
  simp only [RealData.evaluate] at hv
  cases hcon : base.range.contains s with
  | error e =>
    rw [hcon] at hv
    simp only at hv
    by_cases he : e.isA .value = true
    · rw [if_pos he, hs2] at hv
      exact .inr (spline v hv)
    · rw [if_neg he] at hv
      cases hv
  | ok b =>
    rw [hcon] at hv
    simp only at hv
    cases hev : base.evaluate s with
    | mk res s' =>
      have h2 := hsame s
      rw [hev] at hv h2
      simp only at hv h2
      subst h2
      cases res with
      | ok w =>
        simp only at hv
        cases hv
        left
        have o3 : ov.toList = (ys.map (shown (lower tt) c)).map XR.fin := by
          rw [o2, List.map_map]; rfl
        obtain ⟨t1, t2⟩ := table_values hbase (show (base.evaluate s').1 = .ok v by rw [hev]) o1 o3
        refine ⟨by rw [t1, List.map_map]; rfl, fun y hy => t2 _ (List.mem_map_of_mem hy)⟩
      | error e =>
        simp only at hv
        by_cases he : e.isA .value = true
        · rw [if_pos he, hs2] at hv
          exact .inr (spline v hv)
        · rw [if_neg he] at hv
          cases hv

variable [SplineLaws]

/-- C107 in every type and unit but wavenumbers: above a table extended with order one the values
are those of the straight line through its last two rows, up to the rounding of the last sample
point but one, which grows with the distance from the table. -/
theorem C107_upper_units (rows : List (ℝ × ℝ)) (tt uu c : String) (hc : (lower tt, uu, c) ∈ names)
    (hk : lower tt ≠ "wavenumber") (base d : RealData XR)
    (hbase : RealData.newInterp .float (xrows rows) tt uu 1 = .ok base)
    (p q lo : ℝ × ℝ) (hp : p ∈ rows) (hq : q ∈ rows) (hlo : lo ∈ rows) (hpq : p.1 < q.1)
    (hb : Band (lower tt) c lo.1 q.1) (hgrid : OnGrid (decimals (lower tt) c) p.1)
    (hall : ∀ r ∈ rows, lo.1 ≤ r.1 ∧ (r.1 ≤ p.1 ∨ r = q)) (g : ℝ)
    (hg : g = lo.1 * (q.1 / lo.1) ^ ((998 : ℝ) / 999)) (hwide : p.1 ≤ g) (ext : Spectrum XR)
    (hd : (RealData.newExtrap base ext 1).1 = .ok d) (s : Spectrum XR) (ys : List ℝ)
    (hs : Asks (lower tt) s ys) (v : Vals XR) (hv : (d.evaluate s).1 = .ok v) (i : ℕ) (y : ℝ)
    (hi : ys[i]? = some y) (hx : q.1 ≤ shown (lower tt) c y) :
    ∃ z, v.toList[i]? = some (XR.fin z) ∧
      |z - (p.2 + (q.2 - p.2) * ((shown (lower tt) c y - p.1) / (q.1 - p.1)))| ≤
        |(q.2 - p.2) / (q.1 - p.1)| * halfUnit (decimals (lower tt) c) *
          ((shown (lower tt) c y - q.1) / (q.1 - g)) := by
  obtain ⟨_, _, _, _, _, _, _, hdup, _⟩ := newInterp_ok hbase
  have hinj : ∀ a ∈ rows, ∀ b ∈ rows, a.1 = b.1 → a = b := fun a ha b hb =>
    noDuplicates_distinct hdup ha hb
  have hlq : lo.1 < q.1 := lt_of_le_of_lt (hall p hp).1 hpq
  have hle : ∀ r ∈ rows, lo.1 ≤ r.1 ∧ r.1 ≤ q.1 := by
    intro r hr
    refine ⟨(hall r hr).1, ?_⟩
    rcases (hall r hr).2 with h | h
    · linarith
    · rw [h]
  have hno : ∀ r ∈ rows, ¬ (p.1 < r.1 ∧ r.1 < q.1) := by
    rintro r hr ⟨h1, h2⟩
    rcases (hall r hr).2 with h | h
    · linarith
    · rw [h] at h2; exact lt_irrefl _ h2
  have h0 : 0 < lo.1 := hb.pos
  obtain ⟨spl, r, rfl, hon, hspl⟩ := extrap_table hc hk hbase hb hlq ⟨lo, hlo, rfl⟩ ⟨q, hq, rfl⟩ hle hd
  have hgh := hb.gridHi
  generalize ho : decimals (lower tt) c = o at *
  generalize hf : (fun x => tableAt rows (roundOpt o x)) = f at hspl
  obtain ⟨l, hl⟩ := geomReal_last_two (b := q.1) h0 998
  rw [show lo.1 * (q.1 / lo.1) ^ (((998 : ℕ) : ℝ) / (((998 : ℕ) : ℝ) + 1)) = g by
    rw [hg]; norm_num] at hl
  have hkn : knots lo.1 q.1 f = l.map (fun x => (x, f x)) ++ [(g, f g), (q.1, f q.1)] := by
    unfold knots
    rw [show (1000 : ℕ) = 998 + 2 from rfl, hl, List.map_append]
    rfl
  have hpw : ((knots lo.1 q.1 f).map (·.1)).Pairwise (· < ·) := by
    rw [knots_fst]; exact geomReal_pairwise h0 hlq (by norm_num)
  have hgq : g < q.1 := by
    rw [hkn, List.pairwise_map, List.pairwise_append] at hpw
    exact (List.pairwise_cons.1 hpw.2.1).1 (q.1, f q.1) (by simp)
  have seg : ∀ x w, p.1 ≤ x → x ≤ q.1 → OnLine rows x w →
      w = p.2 + (q.2 - p.2) * ((x - p.1) / (q.1 - p.1)) := fun x w h1 h2 h =>
    onLine_segment hinj hp hq hpq hno h1 h2 h
  have d1 : 0 < q.1 - p.1 := by linarith
  have d2 : 0 < q.1 - g := by linarith
  -- the values at the two sample points
  have hfq : f q.1 = q.2 := by
    have := hon q.1 hlq.le le_rfl
    rw [← hf]
    simp only
    rw [rounded_of_grid hgh] at this ⊢
    rw [seg _ _ hpq.le le_rfl this, div_self d1.ne']
    ring
  have r1 : p.1 ≤ roundOpt o g := by
    have := roundOpt_mono o hwide
    rwa [rounded_of_grid hgrid] at this
  have r2 : roundOpt o g ≤ q.1 := by
    have := roundOpt_mono o hgq.le
    rwa [rounded_of_grid hgh] at this
  have hfg : f g = p.2 + (q.2 - p.2) * ((roundOpt o g - p.1) / (q.1 - p.1)) := by
    have := hon g ((hall p hp).1.trans hwide) hgq.le
    rw [← hf]
    exact seg _ _ r1 r2 this
  generalize hX : shown (lower tt) c y = x at hx ⊢
  have hnn : 0 ≤ |(q.2 - p.2) / (q.1 - p.1)| * halfUnit o * ((x - q.1) / (q.1 - g)) := by
    have : 0 ≤ halfUnit o := (abs_nonneg _).trans (roundOpt_near o 0)
    have : 0 ≤ (x - q.1) / (q.1 - g) := div_nonneg (by linarith) d2.le
    positivity
  rcases extrap_table_evaluate hc hk hbase hs hv with ⟨e1, e2⟩ | e1
  · refine ⟨tableAt rows x, ?_, ?_⟩
    · rw [e1, List.getElem?_map, hi, Option.map_some, hX]
    · have := e2 y (List.mem_of_getElem? hi)
      rw [hX] at this
      obtain ⟨a, ha, b, hb', -, hax, hxb, -, -⟩ := id this
      rw [seg x _ (by linarith) (hxb.trans (hle b hb').2) this, sub_self, abs_zero]
      exact hnn
  · refine ⟨f g + (f q.1 - f g) * ((x - g) / (q.1 - g)), ?_, ?_⟩
    · rw [e1, List.getElem?_map, hi, Option.map_some, hX]
      refine congrArg some ?_
      exact SplineLaws.line (knots lo.1 q.1 f) spl (by rw [knots_length]; norm_num) hpw hspl x _
        ⟨_, (g, f g), (q.1, f q.1), [], hkn, .inr (by simp only; linarith), .inl rfl, rfl⟩
    · rw [hfq, hfg]
      have key : p.2 + (q.2 - p.2) * ((roundOpt o g - p.1) / (q.1 - p.1)) +
          (q.2 - (p.2 + (q.2 - p.2) * ((roundOpt o g - p.1) / (q.1 - p.1)))) * ((x - g) / (q.1 - g)) -
          (p.2 + (q.2 - p.2) * ((x - p.1) / (q.1 - p.1))) =
          -((q.2 - p.2) / (q.1 - p.1) * (roundOpt o g - g) * ((x - q.1) / (q.1 - g))) := by
        field_simp
        ring
      rw [key, abs_neg, abs_mul, abs_mul, abs_of_nonneg (div_nonneg (sub_nonneg.2 hx) d2.le)]
      have h5 : 0 ≤ (x - q.1) / (q.1 - g) := div_nonneg (by linarith) d2.le
      exact mul_le_mul_of_nonneg_right (mul_le_mul_of_nonneg_left (roundOpt_near o g) (abs_nonneg _)) h5

/-- C107 in every type and unit but wavenumbers: likewise below the table. -/
theorem C107_lower_units (rows : List (ℝ × ℝ)) (tt uu c : String) (hc : (lower tt, uu, c) ∈ names)
    (hk : lower tt ≠ "wavenumber") (base d : RealData XR)
    (hbase : RealData.newInterp .float (xrows rows) tt uu 1 = .ok base)
    (p q hi : ℝ × ℝ) (hp : p ∈ rows) (hq : q ∈ rows) (hhi : hi ∈ rows) (hpq : p.1 < q.1)
    (hb : Band (lower tt) c p.1 hi.1) (hgrid : OnGrid (decimals (lower tt) c) q.1)
    (hall : ∀ r ∈ rows, r.1 ≤ hi.1 ∧ (r = p ∨ q.1 ≤ r.1)) (g : ℝ)
    (hg : g = p.1 * (hi.1 / p.1) ^ ((1 : ℝ) / 999)) (hwide : g ≤ q.1) (ext : Spectrum XR)
    (hd : (RealData.newExtrap base ext 1).1 = .ok d) (s : Spectrum XR) (ys : List ℝ)
    (hs : Asks (lower tt) s ys) (v : Vals XR) (hv : (d.evaluate s).1 = .ok v) (i : ℕ) (y : ℝ)
    (hi' : ys[i]? = some y) (hx : shown (lower tt) c y ≤ p.1) :
    ∃ z, v.toList[i]? = some (XR.fin z) ∧
      |z - (p.2 + (q.2 - p.2) * ((shown (lower tt) c y - p.1) / (q.1 - p.1)))| ≤
        |(q.2 - p.2) / (q.1 - p.1)| * halfUnit (decimals (lower tt) c) *
          ((p.1 - shown (lower tt) c y) / (g - p.1)) := by
  obtain ⟨_, _, _, _, _, _, _, hdup, _⟩ := newInterp_ok hbase
  have hinj : ∀ a ∈ rows, ∀ b ∈ rows, a.1 = b.1 → a = b := fun a ha b hb =>
    noDuplicates_distinct hdup ha hb
  have hlq : p.1 < hi.1 := lt_of_lt_of_le hpq (hall q hq).1
  have hle : ∀ r ∈ rows, p.1 ≤ r.1 ∧ r.1 ≤ hi.1 := by
    intro r hr
    refine ⟨?_, (hall r hr).1⟩
    rcases (hall r hr).2 with h | h
    · rw [h]
    · linarith
  have hno : ∀ r ∈ rows, ¬ (p.1 < r.1 ∧ r.1 < q.1) := by
    rintro r hr ⟨h1, h2⟩
    rcases (hall r hr).2 with h | h
    · rw [h] at h1; exact lt_irrefl _ h1
    · linarith
  have h0 : 0 < p.1 := hb.pos
  obtain ⟨spl, r, rfl, hon, hspl⟩ := extrap_table hc hk hbase hb hlq ⟨p, hp, rfl⟩ ⟨hi, hhi, rfl⟩ hle hd
  have hgl := hb.gridLo
  generalize ho : decimals (lower tt) c = o at *
  generalize hf : (fun x => tableAt rows (roundOpt o x)) = f at hspl
  obtain ⟨l, hl⟩ := geomReal_first_two (a := p.1) (b := hi.1) 998
  rw [show p.1 * (hi.1 / p.1) ^ (1 / (((998 : ℕ) : ℝ) + 1)) = g by
    rw [hg]; norm_num] at hl
  have hkn : knots p.1 hi.1 f = [] ++ (p.1, f p.1) :: (g, f g) :: l.map (fun x => (x, f x)) := by
    unfold knots
    rw [show (1000 : ℕ) = 998 + 2 from rfl, hl]
    rfl
  have hpw : ((knots p.1 hi.1 f).map (·.1)).Pairwise (· < ·) := by
    rw [knots_fst]; exact geomReal_pairwise h0 hlq (by norm_num)
  have hgq : p.1 < g := by
    rw [hkn, List.pairwise_map] at hpw
    exact (List.pairwise_cons.1 hpw).1 (g, f g) (by simp)
  have seg : ∀ x w, p.1 ≤ x → x ≤ q.1 → OnLine rows x w →
      w = p.2 + (q.2 - p.2) * ((x - p.1) / (q.1 - p.1)) := fun x w h1 h2 h =>
    onLine_segment hinj hp hq hpq hno h1 h2 h
  have d1 : 0 < q.1 - p.1 := by linarith
  have d2 : 0 < g - p.1 := by linarith
  have hfp : f p.1 = p.2 := by
    have := hon p.1 le_rfl hlq.le
    rw [← hf]
    simp only
    rw [rounded_of_grid hgl] at this ⊢
    rw [seg _ _ le_rfl hpq.le this, sub_self, zero_div]
    ring
  have r1 : p.1 ≤ roundOpt o g := by
    have := roundOpt_mono o hgq.le
    rwa [rounded_of_grid hgl] at this
  have r2 : roundOpt o g ≤ q.1 := by
    have := roundOpt_mono o hwide
    rwa [rounded_of_grid hgrid] at this
  have hfg : f g = p.2 + (q.2 - p.2) * ((roundOpt o g - p.1) / (q.1 - p.1)) := by
    have := hon g hgq.le (hwide.trans (hall q hq).1)
    rw [← hf]
    exact seg _ _ r1 r2 this
  generalize hX : shown (lower tt) c y = x at hx ⊢
  have h5 : 0 ≤ (p.1 - x) / (g - p.1) := div_nonneg (by linarith) d2.le
  have hnn : 0 ≤ |(q.2 - p.2) / (q.1 - p.1)| * halfUnit o * ((p.1 - x) / (g - p.1)) := by
    have : 0 ≤ halfUnit o := (abs_nonneg _).trans (roundOpt_near o 0)
    positivity
  rcases extrap_table_evaluate hc hk hbase hs hv with ⟨e1, e2⟩ | e1
  · refine ⟨tableAt rows x, ?_, ?_⟩
    · rw [e1, List.getElem?_map, hi', Option.map_some, hX]
    · have := e2 y (List.mem_of_getElem? hi')
      rw [hX] at this
      obtain ⟨a, ha, b, hb', -, hax, hxb, -, -⟩ := id this
      rw [seg x _ ((hle a ha).1.trans hax) (by linarith) this, sub_self, abs_zero]
      exact hnn
  · refine ⟨f p.1 + (f g - f p.1) * ((x - p.1) / (g - p.1)), ?_, ?_⟩
    · rw [e1, List.getElem?_map, hi', Option.map_some, hX]
      refine congrArg some ?_
      exact SplineLaws.line (knots p.1 hi.1 f) spl (by rw [knots_length]; norm_num) hpw hspl x _
        ⟨[], (p.1, f p.1), (g, f g), _, hkn, .inl rfl, .inr (by simp only; linarith), rfl⟩
    · rw [hfp, hfg]
      have key : p.2 + (p.2 + (q.2 - p.2) * ((roundOpt o g - p.1) / (q.1 - p.1)) - p.2) *
          ((x - p.1) / (g - p.1)) - (p.2 + (q.2 - p.2) * ((x - p.1) / (q.1 - p.1))) =
          -((q.2 - p.2) / (q.1 - p.1) * (roundOpt o g - g) * ((p.1 - x) / (g - p.1))) := by
        field_simp
        ring
      rw [key, abs_neg, abs_mul, abs_mul, abs_of_nonneg h5]
      exact mul_le_mul_of_nonneg_right (mul_le_mul_of_nonneg_left (roundOpt_near o g) (abs_nonneg _)) h5

omit [SplineLaws] in
/-- Concrete case: a table in micrometres extended to 1 um; the hypotheses of `C107_upper_units`
about the table are met and the extension exists. -/
example (base : RealData XR) (hbase : RealData.newInterp .float
      (xrows [(2 / 5, 3 / 2), (3 / 5, 29 / 20), (4 / 5, 7 / 5)]) "wavelength" "um" 1 = .ok base) :
    Band "wavelength" "um" (2 / 5) (4 / 5) ∧ OnGrid (decimals "wavelength" "um") (3 / 5 : ℝ) ∧
    (3 / 5 : ℝ) ≤ 2 / 5 * ((4 / 5) / (2 / 5)) ^ ((998 : ℝ) / 999) ∧
    ∃ ext d, Spectrum.new (.float (XR.fin 1)) "wavelength" "um" = .ok ext ∧
      (RealData.newExtrap base ext 1).1 = .ok d := by
  have hl : lower "wavelength" = "wavelength" := by decide +kernel
  have hlu : lower "um" = "um" := by decide +kernel
  have hc : (lower "wavelength", "um", "um") ∈ names := by rw [hl]; decide +kernel
  have hc' : (lower "wavelength", lower "um", "um") ∈ names := by rw [hlu]; exact hc
  have hdec : decimals "wavelength" "um" = some 9 := by simp [decimals]
  have hb : Band "wavelength" "um" (2 / 5) (4 / 5) := by
    refine ⟨by norm_num, by norm_num, ?_, ?_, fun h => absurd rfl h⟩
    · rw [hdec]; exact ⟨400000000, by norm_num⟩
    · rw [hdec]; exact ⟨800000000, by norm_num⟩
  refine ⟨hb, ?_, ?_, ?_⟩
  · rw [hdec]; exact ⟨600000000, by norm_num⟩
  · have h1 : (2 : ℝ) ^ ((3 : ℝ) / 4) ≤ (2 : ℝ) ^ ((998 : ℝ) / 999) :=
      Real.rpow_le_rpow_of_exponent_le (by norm_num) (by norm_num)
    have h2 : (3 / 2 : ℝ) ≤ (2 : ℝ) ^ ((3 : ℝ) / 4) := by
      have : ((3 / 2 : ℝ) ^ (4 : ℝ)) ^ ((1 : ℝ) / 4) ≤ ((2 : ℝ) ^ (3 : ℝ)) ^ ((1 : ℝ) / 4) :=
        Real.rpow_le_rpow (by positivity) (by norm_num) (by norm_num)
      rw [← Real.rpow_mul (by norm_num), ← Real.rpow_mul (by norm_num)] at this
      norm_num at this ⊢
      exact this
    rw [show ((4 / 5 : ℝ) / (2 / 5)) = 2 by norm_num]
    linarith
  · have hnew := new_scalar (F := XR) hc' (XR.fin 1)
    have hd := table_extends hc (by rw [hl]; decide) hbase (by rw [hl]; exact hb) (by norm_num)
      ⟨(2 / 5, 3 / 2), by simp, rfl⟩ ⟨(4 / 5, 7 / 5), by simp, rfl⟩ (by
        intro r hr
        simp only [List.mem_cons, List.not_mem_nil, or_false] at hr
        rcases hr with rfl | rfl | rfl <;> norm_num) (e := 1) (by norm_num)
      (asks_value hc one_pos hnew) (by rw [hl, hdec]; exact ⟨1000000000, by norm_num⟩)
      (k := 1) le_rfl (by norm_num)
    obtain ⟨d, hd⟩ := hd
    exact ⟨_, d, hnew, hd⟩

end

end Disp

import Verif.Props.MaterialRange
import Verif.Props.TextFiles
/-!
# C32, C33 in the other units: the valid range of a material and its sample spectrum
-/

namespace Disp

open Spec

section ideal
variable [SciPy XR]

/-! ## Requests -/

/-- The value shown for the wavelength `y` (in metres) in a type and unit: the exact value,
rounded as conversions to that unit round. -/
noncomputable def Spec.shown (t c : String) (y : ℝ) : ℝ := roundOpt (decimals t c) (ofMetres t c y)

/-- A Spectrum that asks for the positive wavelengths `ys` (in metres). If it is an array, and is
to be converted to a reciprocal type, the wavelengths exceed 10 nm (see C06). -/
structure Spec.Asks (t : String) (s : Spectrum XR) (ys : List ℝ) : Prop where
  stands : StandsFor s ys
  pos : ∀ y ∈ ys, 0 < y
  big : t ≠ "wavelength" → (∃ x, s.std = .scalar x) ∨ ∀ y ∈ ys, 1 / 10 ^ 8 < y

omit [SciPy XR] in
theorem Spec.Asks.convert {t u c : String} (hc : (lower t, u, c) ∈ names)
    (hk : lower t ≠ "wavenumber") {s : Spectrum XR} {ys : List ℝ} (h : Asks (lower t) s ys) :
    ∃ ov, s.convertTo t u = .ok ov ∧
      ov.toList = ys.map (fun y => XR.fin (shown (lower t) c y)) := by
  rw [Spectrum.convertTo_eq, specLookup_ok_iff.2 hc]
  simp only
  rcases h.stands.2 with ⟨y, hys, hy⟩ | hy
  · subst hys
    have hy0 := h.pos y (by simp)
    rw [hy, convertVals_scalar (names_pairs _ hc)]
    refine ⟨_, rfl, ?_⟩
    simp only [Vals.toList, List.map_cons, List.map_nil]
    rw [toElem_fin (names_pairs _ hc) hy0 hk (fun _ => XR.inv_scalar_fin hy0.ne')]
    rfl
  · rw [hy, convertVals_array (names_pairs _ hc)]
    refine ⟨_, rfl, ?_⟩
    simp only [Vals.toList, List.map_map]
    refine List.map_congr_left fun y hy' => ?_
    have hy0 := h.pos y hy'
    simp only [Function.comp]
    rw [toElem_fin (names_pairs _ hc) hy0 hk (fun hw => XR.inv_elem_fin (by
      rw [abs_of_pos hy0]
      rcases h.big hw with ⟨x, hx⟩ | hb
      · rw [hy] at hx; cases hx
      · exact hb y hy'))]
    rfl

/-! ## Parts -/

/-- A range of positive values of a type and unit that survives being converted to metres and
back: the ends have no more decimals than conversions keep, and neither they nor the wavelengths
they stand for are taken for zero. -/
structure Spec.Band (t c : String) (lo hi : ℝ) : Prop where
  pos : 0 < lo
  le : lo ≤ hi
  gridLo : OnGrid (decimals t c) lo
  gridHi : OnGrid (decimals t c) hi
  big : t ≠ "wavelength" → 1 / 10 ^ 8 < lo ∧ 1 / 10 ^ 8 < metres t c hi

/-- A Constant, a linearly interpolated table or a formula that has a value everywhere, valid
from `lo` to `hi` in the type `t` and the unit `c`, as constructed. -/
inductive BandPart (t c : String) : RealData XR → ℝ → ℝ → Prop
  | const (v : XR) (tt uu : String) (lo hi : ℝ) (d : RealData XR) : lower tt = t →
      (t, lower uu, c) ∈ names → Band t c lo hi →
      RealData.newConstant v (.list .float [XR.fin lo, XR.fin hi]) tt uu = .ok d →
      BandPart t c d lo hi
  | table (rows : List (ℝ × ℝ)) (tt uu : String) (lo hi : ℝ) (d : RealData XR) : lower tt = t →
      (t, uu, c) ∈ names → Band t c lo hi → (∃ p ∈ rows, p.1 = lo) → (∃ p ∈ rows, p.1 = hi) →
      (∀ p ∈ rows, lo ≤ p.1 ∧ p.1 ≤ hi) →
      RealData.newInterp .float (xrows rows) tt uu 1 = .ok d → BandPart t c d lo hi
  | model (k : Formula) (ps : List XR) (tt uu : String) (lo hi : ℝ) (d : RealData XR) :
      lower tt = t → (t, uu, c) ∈ names → Band t c lo hi → (∀ x, ∃ y, k.at ps x = .ok y) →
      RealData.newModel k ps (.list .float [XR.fin lo, XR.fin hi]) tt uu = .ok d →
      BandPart t c d lo hi

omit [SciPy XR] in
/-- The range of a Spectrum object made from the two ends. -/
theorem band_range {t c lo hi} (hb : Band t c lo hi) {tt uu : String} (ht : lower tt = t)
    (hc : (t, lower uu, c) ∈ names) {r : Spectrum XR}
    (hr : Spectrum.new (.list .float [XR.fin lo, XR.fin hi]) tt uu = .ok r) :
    r = { values := .array .float [XR.fin lo, XR.fin hi], stype := t, unit := c,
          std := .array .float [XR.fin (metres t c lo), XR.fin (metres t c hi)] } := by
  subst ht
  rw [new_list hc, Except.ok.injEq] at hr
  have h2 := lt_of_lt_of_le hb.pos hb.le
  rw [← hr]
  simp only [List.map_cons, List.map_nil]
  rw [fromElem_fin (names_pairs _ hc) hb.pos (fun hw => XR.inv_elem_fin (by
      rw [abs_of_pos hb.pos]; exact (hb.big hw).1)),
    fromElem_fin (names_pairs _ hc) h2 (fun hw => XR.inv_elem_fin (by
      rw [abs_of_pos h2]; exact lt_of_lt_of_le (hb.big hw).1 hb.le))]

omit [SciPy XR] in
theorem npMin_two (a b : ℝ) : npMin (.array .float [XR.fin a, XR.fin b]) = .ok (XR.fin (min a b)) := by
  obtain ⟨m, h1, h2, h3⟩ := npMin_spec (.array .float [XR.fin a, XR.fin b]) (by simp [Vals.toList])
    (noNaN_map [a, b])
  rw [h1]
  simp only [Vals.toList, List.mem_cons, List.not_mem_nil, or_false, forall_eq_or_imp,
    forall_eq] at h2 h3
  rcases h2 with rfl | rfl
  · rw [min_eq_left]; simpa using h3.2
  · rw [min_eq_right]; simpa using h3.1

omit [SciPy XR] in
theorem npMax_two (a b : ℝ) : npMax (.array .float [XR.fin a, XR.fin b]) = .ok (XR.fin (max a b)) := by
  obtain ⟨m, h1, h2, h3⟩ := npMax_spec (.array .float [XR.fin a, XR.fin b]) (by simp [Vals.toList])
    (noNaN_map [a, b])
  rw [h1]
  simp only [Vals.toList, List.mem_cons, List.not_mem_nil, or_false, forall_eq_or_imp,
    forall_eq] at h2 h3
  rcases h2 with rfl | rfl
  · rw [max_eq_left]; simpa using h3.2
  · rw [max_eq_right]; simpa using h3.1

omit [SciPy XR] in
/-- The smallest and the largest abscissa of a table. -/
theorem table_ends {rows : List (ℝ × ℝ)} {lo hi : ℝ} (h1 : ∃ p ∈ rows, p.1 = lo)
    (h2 : ∃ p ∈ rows, p.1 = hi) (h3 : ∀ p ∈ rows, lo ≤ p.1 ∧ p.1 ≤ hi) :
    npMin (.array .float ((xrows rows).map (·.1))) = .ok (XR.fin lo) ∧
    npMax (.array .float ((xrows rows).map (·.1))) = .ok (XR.fin hi) := by
  have hm : ((xrows rows).map (fun p : XR × XR => p.1)) = (rows.map (·.1)).map XR.fin := by
    simp [xrows, Function.comp_def]
  obtain ⟨p, hp, rfl⟩ := h1
  obtain ⟨q, hq, rfl⟩ := h2
  have hne : (Vals.array .float ((xrows rows).map (fun p : XR × XR => p.1))).toList ≠ [] := by
    simp only [Vals.toList, hm]
    exact List.ne_nil_of_mem (List.mem_map_of_mem (List.mem_map_of_mem hp))
  have hnn : NoNaN (Vals.array .float ((xrows rows).map (fun p : XR × XR => p.1))).toList := by
    simp only [Vals.toList, hm]; exact noNaN_map _
  obtain ⟨a, a1, a2, a3⟩ := npMin_spec _ hne hnn
  obtain ⟨b, b1, b2, b3⟩ := npMax_spec _ hne hnn
  rw [a1, b1]
  simp only [Vals.toList, hm, List.map_map, List.mem_map, forall_exists_index, and_imp,
    forall_apply_eq_imp_iff₂, Function.comp] at a2 a3 b2 b3
  obtain ⟨x, hx, rfl⟩ := a2
  obtain ⟨y, hy, rfl⟩ := b2
  have := a3 p hp
  have := b3 q hq
  simp only [XR.lt_fin, decide_eq_false_iff_not, not_lt] at *
  exact ⟨by rw [le_antisymm (a3 p hp) (h3 x hx).1], by rw [le_antisymm (h3 y hy).2 (b3 q hq)]⟩

theorem BandPart.band {t c : String} {d : RealData XR} {lo hi : ℝ} (h : BandPart t c d lo hi) :
    Band t c lo hi := by
  cases h <;> assumption

theorem BandPart.known {t c : String} {d : RealData XR} {lo hi : ℝ} (h : BandPart t c d lo hi) :
    (t, c, c) ∈ names := by
  cases h with
  | const v tt uu _ _ _ ht hc => exact pairs_names _ (names_pairs _ hc)
  | table rows tt uu _ _ _ ht hc => exact pairs_names _ (names_pairs _ hc)
  | model k ps tt uu _ _ _ ht hc => exact pairs_names _ (names_pairs _ hc)

theorem BandPart.spec {t c : String} {d : RealData XR} {lo hi : ℝ} (h : BandPart t c d lo hi) :
    d.range = { values := .array .float [XR.fin lo, XR.fin hi], stype := t, unit := c,
                std := .array .float [XR.fin (metres t c lo), XR.fin (metres t c hi)] } ∧ Plain d := by
  cases h with
  | const v tt uu _ _ _ ht hc hb hd =>
    unfold RealData.newConstant at hd
    obtain ⟨r, h1, h2⟩ := except_bind_ok hd
    cases h2
    exact ⟨band_range hb ht hc h1, trivial⟩
  | table rows tt uu _ _ _ ht hc hb h1 h2 h3 hd =>
    obtain ⟨lo', hi', r, e1, e2, e3, e4, e5, rfl⟩ := newInterp_ok hd
    obtain ⟨k1, k2⟩ := table_ends h1 h2 h3
    have a1 : lo' = XR.fin lo := Except.ok.inj (e1.symm.trans k1)
    have a2 : hi' = XR.fin hi := Except.ok.inj (e2.symm.trans k2)
    subst a1; subst a2
    have hl : lower uu = uu := (names_lower _ hc).2
    exact ⟨band_range hb ht (by rw [hl]; exact hc) e3, trivial⟩
  | model k ps tt uu _ _ _ ht hc hb hk hd =>
    unfold RealData.newModel at hd
    obtain ⟨r, h1, h2⟩ := except_bind_ok hd
    obtain ⟨_, -, h3⟩ := except_bind_ok h2
    cases h3
    have hl : lower uu = uu := (names_lower _ hc).2
    exact ⟨band_range hb ht (by rw [hl]; exact hc) h1, trivial⟩

omit [SciPy XR] in
theorem mapRes_total {f : XR → Res XR} (hf : ∀ x, ∃ y, f x = .ok y) (v : Vals XR) :
    ∃ w, v.mapRes f = .ok w := by
  choose g hg using hf
  have : f = fun x => .ok (g x) := funext hg
  subst this
  cases v with
  | scalar x => exact ⟨_, rfl⟩
  | array dt xs =>
    simp only [Vals.mapRes, mapM_ok, bind, Except.bind]
    exact ⟨_, rfl⟩

/-- Such a part can be evaluated exactly at the wavelengths whose value in its unit lies within
its range. -/
theorem BandPart.evaluate {t c : String} {d : RealData XR} {lo hi : ℝ} (h : BandPart t c d lo hi)
    (hk : t ≠ "wavenumber") {s : Spectrum XR} {ys : List ℝ} (hs : Asks t s ys) :
    (∃ v, (d.evaluate s).1 = .ok v) ↔ ∀ y ∈ ys, lo ≤ shown t c y ∧ shown t c y ≤ hi := by
  obtain ⟨h1, h2⟩ := h.spec
  have hn := h.known
  have hl : lower t = t := (names_lower _ hn).1
  obtain ⟨ov, o1, o2⟩ := Asks.convert (t := t) (by rw [hl]; exact hn) (by rwa [hl])
    (by rw [hl]; exact hs)
  rw [hl] at o2
  have hne : ov.toList ≠ [] := by rw [o2]; simpa using hs.stands.1
  have hon : NoNaN ov.toList := by
    rw [o2, ← Function.comp_def XR.fin, ← List.map_map]; exact noNaN_map _
  have hrn : NoNaN d.range.values.toList := by rw [h1]; exact noNaN_map [lo, hi]
  have hcs := contains_spec d.range s ov (by rw [h1]; simp [Vals.toList])
    (by rw [h1]; exact o1) hne hrn hon
  have hw := within_iff (xs := d.range.values.toList) (by rw [h1]; simp [Vals.toList]) hrn hon
  have hw' : Within d.range.values.toList ov.toList ↔
      ∀ y ∈ ys, lo ≤ shown t c y ∧ shown t c y ≤ hi := by
    rw [o2, h1]
    have hle := h.band.le
    constructor
    · intro w y hy
      obtain ⟨⟨a, ha, ha'⟩, b, hb, hb'⟩ := w _ (List.mem_map_of_mem hy)
      simp only [Vals.toList, List.mem_cons, List.not_mem_nil, or_false] at ha hb
      constructor
      · rcases ha with rfl | rfl
        · simpa using ha'
        · exact hle.trans (by simpa using ha')
      · rcases hb with rfl | rfl
        · exact (by simpa using hb' : shown t c y ≤ lo).trans hle
        · simpa using hb'
    · intro w z hz
      obtain ⟨y, hy, rfl⟩ := List.mem_map.1 hz
      exact ⟨⟨XR.fin lo, by simp [Vals.toList], by simpa using (w y hy).1⟩,
        XR.fin hi, by simp [Vals.toList], by simpa using (w y hy).2⟩
  rw [← hw']
  by_cases hin : Within d.range.values.toList ov.toList
  · refine iff_of_true ?_ hin
    rw [if_neg (hw.1 hin)] at hcs
    cases h with
    | const v tt uu _ _ _ ht hc hb hd =>
      unfold RealData.newConstant at hd
      obtain ⟨r, -, e⟩ := except_bind_ok hd
      cases e
      simp only [RealData.range] at hcs
      simp only [RealData.evaluate, hcs, bind, Except.bind]
      cases s.values <;> exact ⟨_, rfl⟩
    | table rows tt uu _ _ _ ht hc hb k1 k2 k3 hd =>
      subst ht
      obtain ⟨ov', p1, p2⟩ := Asks.convert hc hk hs
      refine C14_total rows tt uu d hd s ov' p1 (by rw [p2]; simpa using hs.stands.1) ?_
      intro z hz
      rw [p2] at hz
      obtain ⟨y, hy, rfl⟩ := List.mem_map.1 hz
      obtain ⟨w1, w2⟩ := hw'.1 hin y hy
      obtain ⟨p, hp, rfl⟩ := k1
      obtain ⟨q, hq, rfl⟩ := k2
      exact ⟨_, rfl, ⟨p, hp, w1⟩, q, hq, w2⟩
    | model k ps tt uu _ _ _ ht hc hb hk' hd =>
      subst ht
      unfold RealData.newModel at hd
      obtain ⟨r, -, e⟩ := except_bind_ok hd
      obtain ⟨_, -, e⟩ := except_bind_ok e
      cases e
      obtain ⟨ov', p1, p2⟩ := Asks.convert hc hk hs
      simp only [RealData.range] at hcs
      simp only [RealData.evaluate, hcs, bind, Except.bind, p1]
      exact mapRes_total hk' _
  · refine iff_of_false ?_ hin
    rintro ⟨v, hv⟩
    rw [if_pos (by by_contra hno; exact hin (hw.2 hno))] at hcs
    have hne' : ∀ b, d.range.contains s ≠ .ok b := by
      intro b hb
      rw [hcs] at hb
      cases hd : dictGet displayNames d.range.unit <;> rw [hd] at hb <;> cases hb
    cases d with
    | constant v r t u =>
      simp only [RealData.range] at hne'
      simp only [RealData.evaluate] at hv
      obtain ⟨b, hb, -⟩ := except_bind_ok hv
      exact hne' _ hb
    | interp o rows r t u =>
      simp only [RealData.range] at hne'
      simp only [RealData.evaluate] at hv
      obtain ⟨b, hb, -⟩ := except_bind_ok hv
      exact hne' _ hb
    | model k p r t u =>
      simp only [RealData.range] at hne'
      simp only [RealData.evaluate] at hv
      obtain ⟨b, hb, -⟩ := except_bind_ok hv
      exact hne' _ hb
    | extrap => exact h2.elim

/-- The part a material gets when only the other one is given: the constant 0 on the default
range. It can be evaluated at all positive wavelengths. -/
theorem zero_evaluate {v : XR} {t : String} {s : Spectrum XR} {ys : List ℝ} (hs : Asks t s ys) :
    ∃ w, ((cdata v).evaluate s).1 = .ok w := by
  have hp : MetrePart (cdata v) [XR.fin 0, XR.pinf] := by
    unfold cdata
    rw [defaultSpec_metres]
    exact .const _ _ (by simp) (by intro x hx; simp at hx; rcases hx with rfl | rfl <;> rfl)
  refine (hp.evaluate hs.stands).2 ?_
  intro z hz
  obtain ⟨y, hy, rfl⟩ := List.mem_map.1 hz
  refine ⟨⟨XR.fin 0, by simp, ?_⟩, XR.pinf, by simp, rfl⟩
  simpa using (hs.pos y hy).le

/-- The two parts of a material, of which at least one has its own range, and the common range. -/
inductive BandParts (t c : String) : RealData XR → RealData XR → ℝ → ℝ → Prop
  | both {r i : RealData XR} {lo hi lo' hi' : ℝ} : BandPart t c r lo hi → BandPart t c i lo' hi' →
      BandParts t c r i (max lo lo') (min hi hi')
  | first {r : RealData XR} (v : XR) {lo hi : ℝ} : BandPart t c r lo hi →
      BandParts t c r (cdata v) lo hi
  | second {i : RealData XR} (v : XR) {lo hi : ℝ} : BandPart t c i lo hi →
      BandParts t c (cdata v) i lo hi

theorem BandParts.plain {t c : String} {r i : RealData XR} {lo hi : ℝ}
    (h : BandParts t c r i lo hi) : Plain r ∧ Plain i := by
  cases h with
  | both h1 h2 => exact ⟨h1.spec.2, h2.spec.2⟩
  | first v h1 => exact ⟨h1.spec.2, trivial⟩
  | second v h1 => exact ⟨trivial, h1.spec.2⟩

theorem BandParts.known {t c : String} {r i : RealData XR} {lo hi : ℝ}
    (h : BandParts t c r i lo hi) : (t, c, c) ∈ names := by
  cases h with
  | both h1 h2 => exact h1.known
  | first v h1 => exact h1.known
  | second v h1 => exact h1.known

theorem BandParts.evaluate {t c : String} {r i : RealData XR} {lo hi : ℝ}
    (h : BandParts t c r i lo hi) (hk : t ≠ "wavenumber") {s : Spectrum XR} {ys : List ℝ}
    (hs : Asks t s ys) :
    ((∃ v, (r.evaluate s).1 = .ok v) ∧ ∃ v, (i.evaluate s).1 = .ok v) ↔
      ∀ y ∈ ys, lo ≤ shown t c y ∧ shown t c y ≤ hi := by
  cases h with
  | both h1 h2 =>
    rw [h1.evaluate hk hs, h2.evaluate hk hs]
    simp only [max_le_iff, le_min_iff]
    constructor
    · rintro ⟨a, b⟩ y hy
      exact ⟨⟨(a y hy).1, (b y hy).1⟩, (a y hy).2, (b y hy).2⟩
    · intro a
      exact ⟨fun y hy => ⟨(a y hy).1.1, (a y hy).2.1⟩, fun y hy => ⟨(a y hy).1.2, (a y hy).2.2⟩⟩
  | first v h1 =>
    rw [h1.evaluate hk hs]
    exact ⟨fun a => a.1, fun a => ⟨a, zero_evaluate hs⟩⟩
  | second v h1 =>
    rw [h1.evaluate hk hs]
    exact ⟨fun a => a.2, fun a => ⟨zero_evaluate hs, a⟩⟩

/-! ## The two numbers returned -/

omit [SciPy XR] in
theorem metres_mono_length {c : String} {x y : ℝ} (h : x ≤ y) :
    metres "wavelength" c x ≤ metres "wavelength" c y := by
  have := lengthUnit_pos c
  simp only [metres, String.reduceEq, if_false]
  gcongr

omit [SciPy XR] in
theorem metres_anti {t c : String} (hp : (t, c) ∈ pairs) (ht : t ≠ "wavelength") {x y : ℝ}
    (hx : 0 < x) (h : x ≤ y) : metres t c y ≤ metres t c x := by
  have := c_pos; have := h_pos; have := e_pos; have := Real.pi_pos
  rcases pairs_cases hp with ⟨rfl, rfl⟩ | ⟨rfl, rfl⟩ | ⟨rfl, rfl⟩ | ⟨rfl, rfl⟩ | ⟨rfl, rfl⟩ |
    ⟨rfl, rfl⟩ | ⟨rfl, rfl⟩ | ⟨rfl, rfl⟩ | ⟨rfl, rfl⟩ <;> first
    | exact absurd rfl ht
    | (simp only [metres, String.reduceEq, if_false, if_true]; gcongr)

/-- The ends of a range in metres, in increasing order. -/
noncomputable def shortEnd (t c : String) (lo hi : ℝ) : ℝ :=
  metres t c (if t = "wavelength" then lo else hi)
noncomputable def longEnd (t c : String) (lo hi : ℝ) : ℝ :=
  metres t c (if t = "wavelength" then hi else lo)

omit [SciPy XR] in
theorem band_ends {t c : String} (hn : (t, c, c) ∈ names) {lo hi : ℝ} (h0 : 0 < lo) (h : lo ≤ hi) :
    min (metres t c lo) (metres t c hi) = shortEnd t c lo hi ∧
    max (metres t c lo) (metres t c hi) = longEnd t c lo hi := by
  unfold shortEnd longEnd
  by_cases ht : t = "wavelength"
  · subst ht
    have := metres_mono_length (c := c) h
    simp only [if_true]
    exact ⟨min_eq_left this, max_eq_right this⟩
  · have := metres_anti (names_pairs _ hn) ht h0 h
    simp only [if_neg ht]
    exact ⟨min_eq_right this, max_eq_left this⟩

omit [SciPy XR] in
theorem npMax_zero {a : ℝ} (ha : 0 < a) :
    npMax (.array .float [XR.fin a, XR.fin 0]) = .ok (XR.fin a) ∧
    npMax (.array .float [XR.fin 0, XR.fin a]) = .ok (XR.fin a) := by
  rw [npMax_two, npMax_two, max_eq_left ha.le, max_eq_right ha.le]
  exact ⟨rfl, rfl⟩

omit [SciPy XR] in
theorem npMin_inf (a : ℝ) :
    npMin (.array .float [XR.fin a, XR.pinf]) = .ok (XR.fin a) ∧
    npMin (.array .float [XR.pinf, XR.fin a]) = .ok (XR.fin a) := by
  have h1 : PyFloat.lt XR.pinf (XR.fin a) = false := rfl
  have h2 : PyFloat.lt (XR.fin a) XR.pinf = true := rfl
  have h3 : PyFloat.isNaN XR.pinf = false := rfl
  have h4 : PyFloat.isNaN (XR.fin a) = false := rfl
  constructor <;> simp [npMin, Vals.toList, npMinList, h1, h2, h3, h4]

theorem default_ends (v : XR) : npMin (cdata v).range.std = .ok (XR.fin 0) ∧
    npMax (cdata v).range.std = .ok XR.pinf ∧ (cdata v).range.std.dtype = .float := by
  simp only [cdata, RealData.range, defaultSpec_metres, metreSpectrum]
  have h1 : PyFloat.lt XR.pinf (XR.fin 0) = false := rfl
  have h2 : PyFloat.lt (XR.fin 0) XR.pinf = true := rfl
  have h3 : PyFloat.isNaN XR.pinf = false := rfl
  have h4 : PyFloat.isNaN (XR.fin 0) = false := rfl
  refine ⟨?_, ?_, rfl⟩ <;> simp [npMin, npMax, Vals.toList, npMinList, npMaxList, h1, h2, h3, h4]

theorem BandPart.ends {t c : String} {d : RealData XR} {lo hi : ℝ} (h : BandPart t c d lo hi) :
    npMin d.range.std = .ok (XR.fin (shortEnd t c lo hi)) ∧
    npMax d.range.std = .ok (XR.fin (longEnd t c lo hi)) ∧ d.range.std.dtype = .float := by
  obtain ⟨h1, -⟩ := h.spec
  obtain ⟨h2, h3⟩ := band_ends h.known h.band.pos h.band.le
  rw [h1]
  simp only
  rw [npMin_two, npMax_two, h2, h3]
  exact ⟨rfl, rfl, rfl⟩

/-- The common range in metres. -/
theorem BandParts.rangeArray {t c : String} {r i : RealData XR} {lo hi : ℝ}
    (h : BandParts t c r i lo hi) {m : Material XR} (hc : m.cplx = none) (hr : m.real = some r)
    (hi' : m.imag = some i) : m.rangeArray =
      .ok (.float, XR.fin (shortEnd t c lo hi), XR.fin (longEnd t c lo hi)) := by
  unfold Material.rangeArray
  rw [hc, hr, hi']
  simp only [bind, Except.bind]
  cases h with
  | @both _ _ lo hi lo' hi' h1 h2 =>
    obtain ⟨a1, a2, a3⟩ := h1.ends
    obtain ⟨b1, b2, b3⟩ := h2.ends
    simp only [a1, a2, a3, b1, b2, b3, DType.join, npMin_two, npMax_two]
    have hb := h1.band; have hb' := h2.band
    have q1 := lt_of_lt_of_le hb.pos hb.le
    have q2 := lt_of_lt_of_le hb'.pos hb'.le
    congr 3
    · unfold shortEnd
      by_cases ht : t = "wavelength"
      · subst ht
        simp only [if_true]
        congr 1
        rcases le_total lo lo' with hl | hl
        · rw [max_eq_right hl, max_eq_right (metres_mono_length hl)]
        · rw [max_eq_left hl, max_eq_left (metres_mono_length hl)]
      · simp only [if_neg ht]
        congr 1
        rcases le_total hi hi' with hl | hl
        · rw [min_eq_left hl, max_eq_left (metres_anti (names_pairs _ h1.known) ht q1 hl)]
        · rw [min_eq_right hl, max_eq_right (metres_anti (names_pairs _ h1.known) ht q2 hl)]
    · unfold longEnd
      by_cases ht : t = "wavelength"
      · subst ht
        simp only [if_true]
        rcases le_total hi hi' with hl | hl
        · rw [min_eq_left hl, min_eq_left (metres_mono_length hl)]
        · rw [min_eq_right hl, min_eq_right (metres_mono_length hl)]
      · simp only [if_neg ht]
        rcases le_total lo lo' with hl | hl
        · rw [max_eq_right hl, min_eq_right (metres_anti (names_pairs _ h1.known) ht hb.pos hl)]
        · rw [max_eq_left hl, min_eq_left (metres_anti (names_pairs _ h1.known) ht hb'.pos hl)]
  | first v h1 =>
    obtain ⟨a1, a2, a3⟩ := h1.ends
    obtain ⟨b1, b2, b3⟩ := default_ends v
    have hp : 0 < shortEnd t c lo hi := by
      unfold shortEnd
      apply metres_pos
      split_ifs
      · exact h1.band.pos
      · exact lt_of_lt_of_le h1.band.pos h1.band.le
    simp only [a1, a2, a3, b1, b2, b3, DType.join, (npMin_inf _).1, (npMax_zero hp).1]
  | second v h1 =>
    obtain ⟨a1, a2, a3⟩ := h1.ends
    obtain ⟨b1, b2, b3⟩ := default_ends v
    have hp : 0 < shortEnd t c lo hi := by
      unfold shortEnd
      apply metres_pos
      split_ifs
      · exact h1.band.pos
      · exact lt_of_lt_of_le h1.band.pos h1.band.le
    simp only [a1, a2, a3, b1, b2, b3, DType.join, (npMin_inf _).2, (npMax_zero hp).2]

/-- What is known of the common range of two parts. -/
theorem BandParts.common {t c : String} {r i : RealData XR} {lo hi : ℝ}
    (h : BandParts t c r i lo hi) : 0 < lo ∧ 0 < hi ∧ OnGrid (decimals t c) lo ∧
      OnGrid (decimals t c) hi ∧ (t ≠ "wavelength" → 1 / 10 ^ 8 < lo ∧
        1 / 10 ^ 8 < metres t c lo ∧ 1 / 10 ^ 8 < metres t c hi) := by
  have key : ∀ {lo hi}, Band t c lo hi → t ≠ "wavelength" → (t, c, c) ∈ names → 1 / 10 ^ 8 < lo ∧
        1 / 10 ^ 8 < metres t c lo ∧ 1 / 10 ^ 8 < metres t c hi := by
    intro lo hi hb ht hn
    have := metres_anti (names_pairs _ hn) ht hb.pos hb.le
    exact ⟨(hb.big ht).1, lt_of_lt_of_le (hb.big ht).2 this, (hb.big ht).2⟩
  cases h with
  | @both _ _ lo hi lo' hi' h1 h2 =>
    have hb := h1.band; have hb' := h2.band
    have q1 := lt_of_lt_of_le hb.pos hb.le
    have q2 := lt_of_lt_of_le hb'.pos hb'.le
    refine ⟨lt_of_lt_of_le hb.pos (le_max_left _ _), lt_min q1 q2, ?_, ?_, fun ht => ?_⟩
    · rcases max_choice lo lo' with e | e <;> rw [e]
      · exact hb.gridLo
      · exact hb'.gridLo
    · rcases min_choice hi hi' with e | e <;> rw [e]
      · exact hb.gridHi
      · exact hb'.gridHi
    · have k1 := key hb ht h1.known
      have k2 := key hb' ht h1.known
      refine ⟨lt_of_lt_of_le k1.1 (le_max_left _ _), ?_, ?_⟩
      · rcases max_choice lo lo' with e | e <;> rw [e]
        · exact k1.2.1
        · exact k2.2.1
      · rcases min_choice hi hi' with e | e <;> rw [e]
        · exact k1.2.2
        · exact k2.2.2
  | first v h1 =>
    have hb := h1.band
    exact ⟨hb.pos, lt_of_lt_of_le hb.pos hb.le, hb.gridLo, hb.gridHi, fun ht => key hb ht h1.known⟩
  | second v h1 =>
    have hb := h1.band
    exact ⟨hb.pos, lt_of_lt_of_le hb.pos hb.le, hb.gridLo, hb.gridHi, fun ht => key hb ht h1.known⟩

omit [SciPy XR] in
/-- A value with few enough decimals is shown as it is. -/
theorem shown_metres {t c : String} {x : ℝ} (hx : 0 < x) (hg : OnGrid (decimals t c) x) :
    shown t c (metres t c x) = x := by
  unfold shown
  rw [ofMetres_metres _ _ hx, rounded_of_grid hg]

/-- Wavelengths: the returned pair is the common range. Reciprocal types: the returned pair is
the common range with its ends exchanged. -/
theorem BandParts.maxRange {c : String} {r i : RealData XR} {lo hi : ℝ} {m : Material XR}
    (h : BandParts (lower m.defType) c r i lo hi) (hc : m.cplx = none)
    (hn : m.name = "nk" ∨ m.name = "eps") (hr : m.real = some r)
    (hi' : m.imag = some i) (hu : (lower m.defType, m.defUnit, c) ∈ names)
    (hk : lower m.defType ≠ "wavenumber") :
    m.maxRange = .ok (.array .float
      (if lower m.defType = "wavelength" then [XR.fin lo, XR.fin hi] else [XR.fin hi, XR.fin lo])) := by
  obtain ⟨k1, k2, k3, k4, k5⟩ := h.common
  unfold Material.maxRange
  rw [if_neg (not_not.2 hn), h.rangeArray hc hr hi']
  simp only [bind, Except.bind]
  rw [metreSpectrum_new']
  simp only
  rw [Spectrum.convertTo_eq, specLookup_ok_iff.2 hu]
  simp only [metreSpectrum]
  rw [convertVals_array (names_pairs _ hu)]
  have conv : ∀ x, 0 < x → OnGrid (decimals (lower m.defType) c) x →
      (lower m.defType ≠ "wavelength" → 1 / 10 ^ 8 < metres (lower m.defType) c x) →
      toElem safeInverseElem (lower m.defType) c (XR.fin (metres (lower m.defType) c x)) = XR.fin x := by
    intro x hx hg hb
    have hm := metres_pos (lower m.defType) c hx
    rw [toElem_fin (names_pairs _ hu) hm hk (fun hw => XR.inv_elem_fin (by
      rw [abs_of_pos hm]; exact hb hw))]
    exact congrArg XR.fin (shown_metres hx hg)
  have c1 := conv lo k1 k3 (fun hw => (k5 hw).2.1)
  have c2 := conv hi k2 k4 (fun hw => (k5 hw).2.2)
  simp only [List.map_cons, List.map_nil, shortEnd, longEnd]
  by_cases ht : lower m.defType = "wavelength"
  · rw [if_pos ht, if_pos ht, if_pos ht, c1, c2]
  · rw [if_neg ht, if_neg ht, if_neg ht, c1, c2]

/-! ## C32 -/

/-- C32 in every type and unit but wavenumber, for materials whose parts are Constants, linear
tables or total formulas in the default unit (a missing part being the default constant): a
request can be evaluated exactly when every value shown in the default unit lies in the common
range. The returned pair is this range for wavelengths, and its reversal for frequencies, energies
and angular frequencies. Missing for the full claim: the order of the pair for the reciprocal
types, complex data and wavenumbers, for which it is false. -/
theorem C32_units_partial (m : Material XR) (r i : RealData XR) (c : String) (lo hi : ℝ)
    (hc : m.cplx = none) (hn : m.name = "nk" ∨ m.name = "eps") (hr : m.real = some r)
    (hi' : m.imag = some i) (hu : (lower m.defType, m.defUnit, c) ∈ names)
    (hk : lower m.defType ≠ "wavenumber") (hp : BandParts (lower m.defType) c r i lo hi) :
    m.maxRange = .ok (.array .float
      (if lower m.defType = "wavelength" then [XR.fin lo, XR.fin hi] else [XR.fin hi, XR.fin lo])) ∧
    ∀ (raw : Raw XR) (t u : String) (s : Spectrum XR), FloatInput raw →
      Spectrum.new raw t u = .ok s → ∀ ys, Asks (lower m.defType) s ys →
      ((∃ v, reported m s = .ok v) ↔
        ∀ y ∈ ys, lo ≤ shown (lower m.defType) c y ∧ shown (lower m.defType) c y ≤ hi) := by
  refine ⟨hp.maxRange hc hn hr hi' hu hk, fun raw t u s hraw hnew ys hs => ?_⟩
  rw [reported_stored hn ⟨raw, t, u, hnew⟩,
    stored_both hc hr hi' hp.plain.1 hp.plain.2 (aligned_new hraw hnew), hp.evaluate hk hs]

/-- The request for one value in the default unit. -/
theorem asks_value {t u c : String} (hu : (lower t, u, c) ∈ names) {x : ℝ} (hx : 0 < x)
    {s : Spectrum XR} (hs : Spectrum.new (.float (XR.fin x)) t u = .ok s) :
    Asks (lower t) s [metres (lower t) c x] := by
  have hl : lower u = u := (names_lower _ hu).2
  have hu' : (lower t, lower u, c) ∈ names := by rw [hl]; exact hu
  rw [new_scalar hu', Except.ok.injEq] at hs
  subst hs
  rw [fromElem_fin (names_pairs _ hu') hx (fun _ => XR.inv_scalar_fin hx.ne')]
  exact ⟨⟨by simp, .inl ⟨_, rfl, rfl⟩⟩, by simpa using metres_pos _ c hx, fun _ => .inl ⟨_, rfl⟩⟩

/-- C32 for one value in the default type and unit, of no more decimals than conversions keep:
it can be evaluated exactly when it lies between the two returned numbers, for wavelengths in the
order returned. -/
theorem C32_value_partial (m : Material XR) (r i : RealData XR) (c : String) (lo hi : ℝ)
    (hc : m.cplx = none) (hn : m.name = "nk" ∨ m.name = "eps") (hr : m.real = some r)
    (hi' : m.imag = some i) (hu : (lower m.defType, m.defUnit, c) ∈ names)
    (hk : lower m.defType ≠ "wavenumber") (hp : BandParts (lower m.defType) c r i lo hi)
    (x : ℝ) (hx : 0 < x) (hg : OnGrid (decimals (lower m.defType) c) x) (s : Spectrum XR)
    (hs : Spectrum.new (.float (XR.fin x)) m.defType m.defUnit = .ok s) :
    (∃ v, reported m s = .ok v) ↔ lo ≤ x ∧ x ≤ hi := by
  obtain ⟨-, h⟩ := C32_units_partial m r i c lo hi hc hn hr hi' hu hk hp
  have := h (.float (XR.fin x)) _ _ s trivial hs _ (asks_value hu hx hs)
  simpa [shown_metres hx hg] using this

/-! ## C33 -/

omit [SciPy XR] in
theorem geomReal_mem_down {a b : ℝ} (ha : 0 < a) (hab : a ≤ b) {n : ℕ} (hn : 2 ≤ n) {x : ℝ}
    (h : x ∈ geomReal b a n) : a ≤ x ∧ x ≤ b := by
  simp only [geomReal, List.mem_ofFn] at h
  obtain ⟨i, rfl⟩ := h
  have hb : 0 < b := lt_of_lt_of_le ha hab
  have hq : 0 < a / b := by positivity
  have h1 : a / b ≤ 1 := by rwa [div_le_one hb]
  have hn' : (0 : ℝ) < (n : ℝ) - 1 := by
    have : (2 : ℝ) ≤ n := by exact_mod_cast hn
    linarith
  have hi : (i : ℝ) ≤ (n : ℝ) - 1 := by
    have : (i : ℕ) + 1 ≤ n := i.2
    have : ((i : ℕ) : ℝ) + 1 ≤ n := by exact_mod_cast this
    linarith
  have he0 : (0 : ℝ) ≤ (i : ℝ) / ((n : ℝ) - 1) := by positivity
  have he1 : (i : ℝ) / ((n : ℝ) - 1) ≤ 1 := by rw [div_le_one hn']; exact hi
  constructor
  · have h2 := Real.rpow_le_rpow_of_exponent_ge hq h1 he1
    rw [Real.rpow_one] at h2
    calc a = b * (a / b) := by field_simp
      _ ≤ _ := by gcongr
  · have := Real.rpow_le_one hq.le h1 he0
    nlinarith

omit [SciPy XR] in
theorem roundOpt_mono (o : Option ℕ) {x y : ℝ} (h : x ≤ y) : roundOpt o x ≤ roundOpt o y := by
  cases o with
  | none => exact h
  | some d => exact XR.roundDec_mono d h

omit [SciPy XR] in
theorem geomReal_first' (a b : ℝ) {n : ℕ} (hn : 2 ≤ n) : (geomReal a b n)[0]? = some a := by
  unfold geomReal
  rw [List.getElem?_ofFn]
  simp [show 0 < n by omega]

omit [SciPy XR] in
theorem geomReal_last' {a b : ℝ} (ha : a ≠ 0) {n : ℕ} (hn : 2 ≤ n) :
    (geomReal a b n)[n - 1]? = some b := by
  unfold geomReal
  rw [List.getElem?_ofFn]
  have h1 : ((n - 1 : ℕ) : ℝ) = (n : ℝ) - 1 := by
    rw [Nat.cast_sub (by omega)]; simp
  have h2 : (n : ℝ) - 1 ≠ 0 := by
    have : (2 : ℝ) ≤ n := by exact_mod_cast hn
    linarith
  simp [show n - 1 < n by omega, h1, div_self h2]
  field_simp

omit [SciPy XR] in
/-- The ends of the geometric sequence are the ends of the range already. -/
theorem clampEnds_geom {a b : ℝ} (ha : a ≠ 0) {n : ℕ} (hn : 2 ≤ n) :
    clampEnds (XR.fin a) (XR.fin b) ((geomReal a b n).map XR.fin) = (geomReal a b n).map XR.fin := by
  have h0 := geomReal_first' a b hn
  have h1 := geomReal_last' (b := b) ha hn
  have hlen := geomReal_length a b n
  cases hg : geomReal a b n with
  | nil => rfl
  | cons x xs =>
    rw [hg] at h0 h1 hlen
    have hx : x = a := by simpa using h0
    subst hx
    unfold clampEnds
    have hxx : PyFloat.lt (XR.fin x) (XR.fin x) = false := by rw [XR.lt_fin]; simp
    simp only [List.map_cons, hxx, Bool.false_eq_true, if_false]
    have hlast : (XR.fin x :: xs.map XR.fin).getLast? = some (XR.fin b) := by
      rw [List.getLast?_eq_getElem?, ← List.map_cons, List.getElem?_map, List.length_map, hlen, h1]
      rfl
    have hbb : PyFloat.lt (XR.fin b) (XR.fin b) = false := by rw [XR.lt_fin]; simp
    rw [hlast]
    simp only [hbb, Bool.false_eq_true, if_false]

/-- C33 for materials as in `C32_units_partial` whose parts have a range in common: the sample
spectrum consists of 1000 geometrically spaced values of the default type and unit from one end of
the common range to the other (from the larger to the smaller for the reciprocal types), and the
material can be evaluated there. Missing for the full claim: complex data, disjoint ranges and
constants with energies or frequencies as default, for which it is false. -/
theorem C33_units_partial [SciPyLaws] (m : Material XR) (r i : RealData XR) (c : String) (lo hi : ℝ)
    (hc : m.cplx = none) (hn : m.name = "nk" ∨ m.name = "eps") (hr : m.real = some r)
    (hi' : m.imag = some i) (hu : (lower m.defType, m.defUnit, c) ∈ names)
    (hk : lower m.defType ≠ "wavenumber") (hp : BandParts (lower m.defType) c r i lo hi)
    (hle : lo ≤ hi) :
    ∃ s, m.sampleSpectrum = .ok s ∧ s.stype = lower m.defType ∧ s.unit = c ∧
      s.values = .array .float ((if lower m.defType = "wavelength" then geomReal lo hi 1000
        else geomReal hi lo 1000).map XR.fin) ∧ ∃ v, reported m s = .ok v := by
  obtain ⟨k1, k2, k3, k4, k5⟩ := hp.common
  obtain ⟨hrange, hev⟩ := C32_units_partial m r i c lo hi hc hn hr hi' hu hk hp
  have hl : lower m.defUnit = m.defUnit := (names_lower _ hu).2
  have hu' : (lower m.defType, lower m.defUnit, c) ∈ names := by rw [hl]; exact hu
  -- the points of the sample
  let xs : List ℝ := if lower m.defType = "wavelength" then geomReal lo hi 1000
    else geomReal hi lo 1000
  have hxs : ∀ x ∈ xs, lo ≤ x ∧ x ≤ hi := by
    intro x hx
    by_cases ht : lower m.defType = "wavelength"
    · rw [show xs = geomReal lo hi 1000 from if_pos ht] at hx
      exact geomReal_mem k1 hle (by norm_num) hx
    · rw [show xs = geomReal hi lo 1000 from if_neg ht] at hx
      exact geomReal_mem_down k1 hle (by norm_num) hx
  have hne : xs ≠ [] := by
    intro h0
    have : xs.length = 1000 := by
      show (if lower m.defType = "wavelength" then geomReal lo hi 1000
        else geomReal hi lo 1000).length = 1000
      split_ifs <;> exact geomReal_length _ _ _
    rw [h0] at this
    simp at this
  have e0 : ∀ a b : ℝ, 0 < a →
      (PyFloat.eq (XR.fin a) (lit 0 : XR) || PyFloat.eq (XR.fin b) (PyFloat.inf : XR)) = false := by
    intro a b ha
    have h0 : (lit 0 : XR) = XR.fin 0 := by show XR.fin _ = _; norm_num
    have hb : PyFloat.eq (XR.fin b) (PyFloat.inf : XR) = false := rfl
    rw [h0, hb, Bool.or_false]
    have h1 : PyFloat.eq (XR.fin a) (XR.fin 0) =
      (PyFloat.le (XR.fin a) (XR.fin 0) && PyFloat.le (XR.fin 0) (XR.fin a)) := rfl
    rw [h1, XR.le_fin, decide_eq_false (not_le.2 ha)]
    rfl
  have hnew := new_list (F := XR) hu' (xs.map XR.fin)
  have hs : m.sampleSpectrum = Spectrum.new (.ndarray .float (xs.map XR.fin)) m.defType m.defUnit := by
    unfold Material.sampleSpectrum
    rw [hrange]
    by_cases ht : lower m.defType = "wavelength"
    · have hx : xs = geomReal lo hi 1000 := if_pos ht
      rw [if_pos ht, hx]
      have p0 : pyIdx (Vals.array DType.float [XR.fin lo, XR.fin hi]).toList 0 = .ok (XR.fin lo) := rfl
      have p1 : pyIdx (Vals.array DType.float [XR.fin lo, XR.fin hi]).toList 1 = .ok (XR.fin hi) := rfl
      simp only [bind, Except.bind, p0, p1, e0 lo hi k1, Bool.false_eq_true, if_false,
        SciPyLaws.geom lo hi 1000 k1 k2 (by norm_num), clampEnds_geom k1.ne' (by norm_num : 2 ≤ 1000)]
    · have hx : xs = geomReal hi lo 1000 := if_neg ht
      rw [if_neg ht, hx]
      have p0 : pyIdx (Vals.array DType.float [XR.fin hi, XR.fin lo]).toList 0 = .ok (XR.fin hi) := rfl
      have p1 : pyIdx (Vals.array DType.float [XR.fin hi, XR.fin lo]).toList 1 = .ok (XR.fin lo) := rfl
      simp only [bind, Except.bind, p0, p1, e0 hi lo k2, Bool.false_eq_true, if_false,
        SciPyLaws.geom hi lo 1000 k2 k1 (by norm_num), clampEnds_geom k2.ne' (by norm_num : 2 ≤ 1000)]
  rw [show Spectrum.new (.ndarray .float (xs.map XR.fin)) m.defType m.defUnit =
    Spectrum.new (.list .float (xs.map XR.fin)) m.defType m.defUnit from rfl] at hs
  have hpos : ∀ x ∈ xs, 0 < x := fun x hx => lt_of_lt_of_le k1 (hxs x hx).1
  have hstd : (xs.map XR.fin).map (fromElem safeInverseElem (lower m.defType) c) =
      (xs.map (metres (lower m.defType) c)).map XR.fin := by
    rw [List.map_map, List.map_map]
    refine List.map_congr_left fun x hx => ?_
    simp only [Function.comp]
    rw [fromElem_fin (names_pairs _ hu') (hpos x hx) (fun hw => XR.inv_elem_fin (by
      rw [abs_of_pos (hpos x hx)]; exact lt_of_lt_of_le (k5 hw).1 (hxs x hx).1))]
  refine ⟨_, hs.trans hnew, rfl, rfl, rfl, ?_⟩
  refine (hev (.list .float (xs.map XR.fin)) m.defType m.defUnit _ rfl hnew
    (xs.map (metres (lower m.defType) c)) ⟨⟨by simpa using hne, .inr (congrArg _ hstd)⟩, ?_, ?_⟩).2 ?_
  · intro y hy
    obtain ⟨x, hx, rfl⟩ := List.mem_map.1 hy
    exact metres_pos _ _ (hpos x hx)
  · intro hw
    right
    intro y hy
    obtain ⟨x, hx, rfl⟩ := List.mem_map.1 hy
    exact lt_of_lt_of_le (k5 hw).2.2 (metres_anti (names_pairs _ hu) hw (hpos x hx) (hxs x hx).2)
  · intro y hy
    obtain ⟨x, hx, rfl⟩ := List.mem_map.1 hy
    unfold shown
    rw [ofMetres_metres _ _ (hpos x hx)]
    have r1 := roundOpt_mono (decimals (lower m.defType) c) (hxs x hx).1
    have r2 := roundOpt_mono (decimals (lower m.defType) c) (hxs x hx).2
    rw [rounded_of_grid k3] at r1
    rw [rounded_of_grid k4] at r2
    exact ⟨r1, r2⟩

/-! ## Tables given to the constructor -/

/-- The first number of a row. -/
def Spec.abscissa (r : List ℝ) : ℝ := r.getD 0 0

omit [SciPy XR] in
theorem rowX_fin {k : ℕ} (hk : 0 < k) {r : List ℝ} (hr : r.length = k) :
    rowX (r.map XR.fin) = XR.fin (abscissa r) := by
  cases r with
  | nil => simp at hr; omega
  | cons x xs => rfl

omit [SciPy XR] in
theorem pairsOf_fin {k j : ℕ} (hj : j < k) {rows : List (List ℝ)} (hw : ∀ r ∈ rows, r.length = k) :
    pairsOf (rows.map (·.map XR.fin)) j = xrows (rows.map (fun r => (abscissa r, r.getD j 0))) := by
  unfold pairsOf xrows
  rw [List.map_map, List.map_map]
  refine List.map_congr_left fun r hr => ?_
  simp only [Function.comp, rowX_fin (by omega : 0 < k) (hw r hr), Prod.mk.injEq, true_and]
  have : j < r.length := by rw [hw r hr]; exact hj
  simp [List.getD_eq_getElem?_getD, this]

/-- The data of a column of a table: a constant for one row, an interpolation for more. -/
theorem tabled_part {t u c : String} (hc : (lower t, u, c) ∈ names) {rows : List (ℝ × ℝ)}
    {lo hi : ℝ} (hb : Band (lower t) c lo hi) (h1 : ∃ p ∈ rows, p.1 = lo) (h2 : ∃ p ∈ rows, p.1 = hi)
    (h3 : ∀ p ∈ rows, lo ≤ p.1 ∧ p.1 ≤ hi) {d : RealData XR}
    (hd : tableData .float (xrows rows) t u = .ok d) : BandPart (lower t) c d lo hi := by
  have hl : lower u = u := (names_lower _ hc).2
  match rows, h1, h2, h3, hd with
  | [], h1, _, _, _ => simp at h1
  | [(x, y)], h1, h2, _, hd =>
    simp only [List.mem_singleton, exists_eq_left] at h1 h2
    subst h1; subst h2
    exact .const (XR.fin y) t u _ _ d rfl (by rw [hl]; exact hc) hb hd
  | p :: q :: rest, h1, h2, h3, hd => exact .table _ t u _ _ d rfl hc hb h1 h2 h3 hd

/-- A table of reals in the units of the call: `Material(tabulated_nk=rows, …)`. -/
structure Spec.RealTable (kw : Kwargs XR) (n : String) (k : ℕ) (rows : List (List ℝ)) : Prop where
  only : Only kw n (.table k) (.arr (.d2 k .float (rows.map (·.map XR.fin))))
  options : PlainOptions kw
  keys : (kw.map Prod.fst).Nodup
  notAlpha : n ≠ "tabulated_n_alpha"
  width : ∀ r ∈ rows, r.length = k
  distinct : rows.Pairwise (fun r q => abscissa r ≠ abscissa q)

/-- The abscissae of a table run from `lo` to `hi`. -/
structure Spec.Spans (rows : List (List ℝ)) (lo hi : ℝ) : Prop where
  first : ∃ r ∈ rows, abscissa r = lo
  last : ∃ r ∈ rows, abscissa r = hi
  between : ∀ r ∈ rows, lo ≤ abscissa r ∧ abscissa r ≤ hi

theorem table_material [NumText XR] (rd : String → Res (FileDict XR)) {kw : Kwargs XR} {n : String}
    {k : ℕ} {rows : List (List ℝ)} (ht : RealTable kw n k rows) {c : String}
    (hc : (lower (defaultsOf kw).1, (defaultsOf kw).2, c) ∈ names) {lo hi : ℝ}
    (hs : Spans rows lo hi) (hb : Band (lower (defaultsOf kw).1) c lo hi) :
    ∃ (m : Material XR) (r i : RealData XR), Material.new rd kw = .ok m ∧ m.cplx = none ∧
      (m.name = "nk" ∨ m.name = "eps") ∧ m.real = some r ∧ m.imag = some i ∧
      m.defType = (defaultsOf kw).1 ∧ m.defUnit = (defaultsOf kw).2 ∧
      BandParts (lower (defaultsOf kw).1) c r i lo hi := by
  have hl : lower (defaultsOf kw).2 = (defaultsOf kw).2 := (names_lower _ hc).2
  have hk : 0 < k := by
    have := ht.only.source
    simp only [sources, List.mem_cons, Prod.mk.injEq, reduceCtorEq, and_false, DocType.table.injEq,
      List.not_mem_nil, or_false, false_or] at this
    omega
  have hg : GoodTable k (rows.map (·.map XR.fin)) := by
    refine ⟨?_, ?_, ?_, ?_⟩
    · obtain ⟨r, hr, -⟩ := hs.first
      exact List.ne_nil_of_mem (List.mem_map_of_mem hr)
    · intro r hr
      obtain ⟨q, hq, rfl⟩ := List.mem_map.1 hr
      simpa using ht.width q hq
    · intro r hr
      obtain ⟨q, hq, rfl⟩ := List.mem_map.1 hr
      rw [rowX_fin hk (ht.width q hq)]; rfl
    · rw [List.pairwise_map]
      refine ht.distinct.imp_of_mem fun {a b} ha hb' hab => ?_
      rw [rowX_fin hk (ht.width a ha), rowX_fin hk (ht.width b hb')]
      simpa using hab
  have part : ∀ j, j < k → ∀ d, tableData .float (pairsOf (rows.map (·.map XR.fin)) j)
      (defaultsOf kw).1 (defaultsOf kw).2 = .ok d → BandPart (lower (defaultsOf kw).1) c d lo hi := by
    intro j hj d hd
    rw [pairsOf_fin hj ht.width] at hd
    refine tabled_part hc hb ?_ ?_ ?_ hd
    · obtain ⟨r, hr, e⟩ := hs.first
      exact ⟨_, List.mem_map_of_mem hr, e⟩
    · obtain ⟨r, hr, e⟩ := hs.last
      exact ⟨_, List.mem_map_of_mem hr, e⟩
    · intro p hp
      obtain ⟨r, hr, rfl⟩ := List.mem_map.1 hp
      exact hs.between r hr
  have twice : ∀ {r i}, BandPart (lower (defaultsOf kw).1) c r lo hi →
      BandPart (lower (defaultsOf kw).1) c i lo hi → BandParts (lower (defaultsOf kw).1) c r i lo hi := by
    intro r i h1 h2
    have := BandParts.both h1 h2
    rwa [max_self, min_self] at this
  obtain ⟨f1, f2, f3⟩ := C24_table_partial rd kw ht.keys ht.options (by rw [hl]; exact hc)
    (rows.map (·.map XR.fin))
  have hcase : n = "tabulated_n" ∧ k = 2 ∨ n = "tabulated_nk" ∧ k = 3 ∨
      n = "tabulated_eps" ∧ k = 3 := by
    have hs := ht.only.source
    simp only [sources, List.mem_cons, Prod.mk.injEq, reduceCtorEq, and_false, DocType.table.injEq,
      List.not_mem_nil, or_false, false_or] at hs
    rcases hs with e | e | e | e
    · exact .inl e
    · exact .inr (.inl e)
    · exact absurd e.1 ht.notAlpha
    · exact .inr (.inr e)
  have ho := ht.only
  rcases hcase with ⟨rfl, rfl⟩ | ⟨rfl, rfl⟩ | ⟨rfl, rfl⟩
  · obtain ⟨r, hr, hm⟩ := f1 ho hg
    exact ⟨_, r, _, hm, rfl, .inl rfl, rfl, rfl, rfl, rfl, .first _ (part 1 (by omega) r hr)⟩
  · obtain ⟨r, i, hr, hi, hm⟩ := f2 ho hg
    exact ⟨_, r, i, hm, rfl, .inl rfl, rfl, rfl, rfl, rfl,
      twice (part 1 (by omega) r hr) (part 2 (by omega) i hi)⟩
  · obtain ⟨r, i, hr, hi, hm⟩ := f3 ho hg
    exact ⟨_, r, i, hm, rfl, .inr rfl, rfl, rfl, rfl, rfl,
      twice (part 1 (by omega) r hr) (part 2 (by omega) i hi)⟩

/-- C81: the range of a material built from a table is the range of the table. -/
theorem C81_table_range [NumText XR] (rd : String → Res (FileDict XR)) (kw : Kwargs XR) (n : String)
    (k : ℕ) (rows : List (List ℝ)) (ht : RealTable kw n k rows) (c : String)
    (hc : (lower (defaultsOf kw).1, (defaultsOf kw).2, c) ∈ names)
    (hk : lower (defaultsOf kw).1 ≠ "wavenumber") (lo hi : ℝ)
    (hs : Spans rows lo hi) (hb : Band (lower (defaultsOf kw).1) c lo hi) :
    ∃ m : Material XR, Material.new rd kw = .ok m ∧
      m.maxRange = .ok (.array .float (if lower (defaultsOf kw).1 = "wavelength"
        then [XR.fin lo, XR.fin hi] else [XR.fin hi, XR.fin lo])) ∧
      ∀ x : ℝ, 0 < x → OnGrid (decimals (lower (defaultsOf kw).1) c) x → ∀ s : Spectrum XR,
        Spectrum.new (.float (XR.fin x)) (defaultsOf kw).1 (defaultsOf kw).2 = .ok s →
        ((∃ v, reported m s = .ok v) ↔ lo ≤ x ∧ x ≤ hi) := by
  obtain ⟨m, r, i, h1, h2, h3, h4, h5, h6, h7, h8⟩ := table_material rd ht hc hs hb
  rw [← h6] at hc hk h8 ⊢
  rw [← h7] at hc ⊢
  exact ⟨m, h1, (C32_units_partial m r i c lo hi h2 h3 h4 h5 hc hk h8).1,
    fun x hx hg s hs' => C32_value_partial m r i c lo hi h2 h3 h4 h5 hc hk h8 x hx hg s hs'⟩

/-- C82: a material built from a table can be evaluated at all points of its sample spectrum,
which runs geometrically from one end of the table to the other. -/
theorem C82_table_sample [NumText XR] [SciPyLaws] (rd : String → Res (FileDict XR)) (kw : Kwargs XR)
    (n : String) (k : ℕ) (rows : List (List ℝ)) (ht : RealTable kw n k rows) (c : String)
    (hc : (lower (defaultsOf kw).1, (defaultsOf kw).2, c) ∈ names)
    (hk : lower (defaultsOf kw).1 ≠ "wavenumber") (lo hi : ℝ)
    (hs : Spans rows lo hi) (hb : Band (lower (defaultsOf kw).1) c lo hi) :
    ∃ (m : Material XR) (s : Spectrum XR), Material.new rd kw = .ok m ∧ m.sampleSpectrum = .ok s ∧
      s.stype = lower (defaultsOf kw).1 ∧ s.unit = c ∧
      s.values = .array .float ((if lower (defaultsOf kw).1 = "wavelength" then geomReal lo hi 1000
        else geomReal hi lo 1000).map XR.fin) ∧ ∃ v, reported m s = .ok v := by
  obtain ⟨m, r, i, h1, h2, h3, h4, h5, h6, h7, h8⟩ := table_material rd ht hc hs hb
  rw [← h6] at hc hk h8 ⊢
  rw [← h7] at hc
  obtain ⟨s, g⟩ := C33_units_partial m r i c lo hi h2 h3 h4 h5 hc hk h8 hb.le
  exact ⟨m, s, h1, g⟩

/-! ## Concrete cases -/

/-- `Material(tabulated_n=[[400, 1.5], [800, 1.4]])`, in nanometres. -/
noncomputable def nanoKw : Kwargs XR :=
  [("tabulated_n", .arr (.d2 2 .float [[XR.fin 400, XR.fin 1.5], [XR.fin 800, XR.fin 1.4]]))]

/-- `Material(tabulated_n=[[1.5, 1.4], [3, 1.5]], spectrum_type='energy', unit='ev')`. -/
noncomputable def voltKw : Kwargs XR :=
  [("tabulated_n", .arr (.d2 2 .float [[XR.fin 1.5, XR.fin 1.4], [XR.fin 3, XR.fin 1.5]])),
   ("spectrum_type", .str "energy"), ("unit", .str "ev")]

theorem nano_table [NumText XR] : RealTable nanoKw "tabulated_n" 2 [[400, 1.5], [800, 1.4]] where
  only := (only_single (by decide) (by simp)).2
  options := plain_single (by decide) (by decide)
  keys := by simp [nanoKw]
  notAlpha := by decide
  width := by simp
  distinct := by norm_num [abscissa]

omit [SciPy XR] in
theorem volt_table : RealTable voltKw "tabulated_n" 2 [[1.5, 1.4], [3, 1.5]] where
  only := by
    refine ⟨by decide, by simp [voltKw], by simp, ?_⟩
    rintro m ty hs ⟨w, hw, -⟩
    simp only [voltKw, List.mem_cons, List.not_mem_nil, or_false, Prod.mk.injEq] at hw
    rcases hw with hw | hw | hw
    · exact hw.1
    · rw [hw.1] at hs; revert hs; simp [sources]
    · rw [hw.1] at hs; revert hs; simp [sources]
  options := by
    constructor
    · intro n hn w hw
      simp only [voltKw, List.mem_cons, List.not_mem_nil, or_false, Prod.mk.injEq] at hw
      rcases hw with hw | hw | hw
      · rw [hw.1] at hn; exact absurd hn (by decide)
      · exact .inr ⟨_, hw.2⟩
      · exact .inr ⟨_, hw.2⟩
    · rintro ⟨w, hw, -⟩
      simp [voltKw] at hw
  keys := by simp [voltKw]
  notAlpha := by decide
  width := by simp
  distinct := by norm_num [abscissa]

/-- A table from 400 nm to 800 nm: the range is [400, 800], 600 nm can be evaluated, 900 nm
cannot, and the sample spectrum can be evaluated. -/
example [NumText XR] [SciPyLaws] (rd : String → Res (FileDict XR)) : ∃ m : Material XR,
    Material.new rd nanoKw = .ok m ∧ m.maxRange = .ok (.array .float [XR.fin 400, XR.fin 800]) ∧
    (∃ s v, Spectrum.new (.float (XR.fin 600)) "wavelength" "nanometer" = .ok s ∧
      reported m s = .ok v) ∧
    (∃ s, Spectrum.new (.float (XR.fin 900)) "wavelength" "nanometer" = .ok s ∧
      ∀ v, reported m s ≠ .ok v) ∧
    ∃ s v, m.sampleSpectrum = .ok s ∧ reported m s = .ok v := by
  have hl : lower "wavelength" = "wavelength" := by decide +kernel
  have hd : (lower (defaultsOf nanoKw).1, (defaultsOf nanoKw).2, "nm") ∈ names := by
    show (lower "wavelength", "nanometer", "nm") ∈ names
    decide +kernel
  have hs : Spans [[400, 1.5], [800, 1.4]] 400 800 :=
    ⟨⟨[400, 1.5], by simp, rfl⟩, ⟨[800, 1.4], by simp, rfl⟩, by norm_num [abscissa]⟩
  have gr : ∀ k : ℕ, OnGrid (decimals (lower (defaultsOf nanoKw).1) "nm") (k : ℝ) := by
    intro k
    show OnGrid (decimals (lower "wavelength") "nm") _
    rw [hl]
    simp only [decimals, String.reduceEq, if_true, if_false, OnGrid]
    exact ⟨k * 10 ^ 12, by push_cast; field_simp; norm_num⟩
  have hb : Band (lower (defaultsOf nanoKw).1) "nm" 400 800 :=
    ⟨by norm_num, by norm_num, by exact_mod_cast gr 400, by exact_mod_cast gr 800,
      fun h => absurd hl h⟩
  have hk : lower (defaultsOf nanoKw).1 ≠ "wavenumber" := by
    show lower "wavelength" ≠ _
    rw [hl]; decide
  obtain ⟨m, h1, h2, h3⟩ := C81_table_range rd nanoKw _ _ _ nano_table "nm" hd hk 400 800 hs hb
  obtain ⟨m', s, g1, g2, -, -, -, v, g3⟩ :=
    C82_table_sample rd nanoKw _ _ _ nano_table "nm" hd hk 400 800 hs hb
  have e : m' = m := Except.ok.inj (g1.symm.trans h1)
  subst e
  have hn : (lower "wavelength", lower "nanometer", "nm") ∈ names := by decide +kernel
  refine ⟨m', h1, ?_, ?_, ?_, s, v, g2, g3⟩
  · rw [h2, if_pos (show lower (defaultsOf nanoKw).1 = "wavelength" from hl)]
  · obtain ⟨w, hw⟩ := (h3 600 (by norm_num) (by exact_mod_cast gr 600) _ (new_scalar hn _)).2
      (by norm_num)
    exact ⟨_, w, new_scalar hn _, hw⟩
  · refine ⟨_, new_scalar hn _, fun w hw => ?_⟩
    have := (h3 900 (by norm_num) (by exact_mod_cast gr 900) _ (new_scalar hn _)).1 ⟨w, hw⟩
    norm_num at this

/-- A table from 1.5 eV to 3 eV: the returned range is [3, 1.5]. -/
example [NumText XR] [SciPyLaws] (rd : String → Res (FileDict XR)) : ∃ m : Material XR,
    Material.new rd voltKw = .ok m ∧ m.maxRange = .ok (.array .float [XR.fin 3, XR.fin 1.5]) ∧
    ∃ s v, m.sampleSpectrum = .ok s ∧ reported m s = .ok v := by
  have hl : lower "energy" = "energy" := by decide +kernel
  have hd : (lower (defaultsOf voltKw).1, (defaultsOf voltKw).2, "ev") ∈ names := by
    show (lower "energy", "ev", "ev") ∈ names
    decide +kernel
  have hs : Spans [[1.5, 1.4], [3, 1.5]] 1.5 3 :=
    ⟨⟨[1.5, 1.4], by simp, rfl⟩, ⟨[3, 1.5], by simp, rfl⟩, by norm_num [abscissa]⟩
  have hb : Band (lower (defaultsOf voltKw).1) "ev" 1.5 3 := by
    show Band (lower "energy") "ev" 1.5 3
    rw [hl]
    refine ⟨by norm_num, by norm_num, ⟨1500000000, by norm_num⟩, ⟨3000000000, by norm_num⟩, ?_⟩
    intro _
    refine ⟨by norm_num, ?_⟩
    simp only [metres, String.reduceEq, if_true, if_false, Spec.h, Spec.c, Spec.e]
    norm_num
  have hk : lower (defaultsOf voltKw).1 ≠ "wavenumber" := by
    show lower "energy" ≠ _
    rw [hl]; decide
  obtain ⟨m, h1, h2, h3⟩ := C81_table_range rd voltKw _ _ _ volt_table "ev" hd hk _ _ hs hb
  obtain ⟨m', s, g1, g2, -, -, -, v, g3⟩ :=
    C82_table_sample rd voltKw _ _ _ volt_table "ev" hd hk _ _ hs hb
  have e : m' = m := Except.ok.inj (g1.symm.trans h1)
  subst e
  refine ⟨m', h1, ?_, s, v, g2, g3⟩
  rw [h2, if_neg (show ¬ lower (defaultsOf voltKw).1 = "wavelength" from by
    show ¬ lower "energy" = _; rw [hl]; decide)]

end ideal
end Disp

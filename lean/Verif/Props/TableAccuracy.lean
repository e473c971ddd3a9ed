import Verif.Props.DoubleConversions
import Verif.Props.DoubleInterpolation
import Verif.Props.DoublePermittivity
import Verif.Props.DoubleRange
/-!
# C112: tables of interpolation order one, asked in any unit, in double precision
-/

namespace Disp

open Spec

namespace Spec

/-- `Y` lies, at the abscissa `X`, on the broken line through the points `l`. -/
def OnTable (l : List (ℝ × ℝ)) (X Y : ℝ) : Prop :=
  ∃ a ∈ l, ∃ b ∈ l, a.1 < b.1 ∧ a.1 ≤ X ∧ X ≤ b.1 ∧ (∀ r ∈ l, ¬ (a.1 < r.1 ∧ r.1 < b.1)) ∧
    (Y - a.2) * (b.1 - a.1) = (b.2 - a.2) * (X - a.1)

/-- No two rows are further apart than `M` times the distance of their abscissae. -/
def Slopes (l : List (ℝ × ℝ)) (M : ℝ) : Prop :=
  ∀ a ∈ l, ∀ b ∈ l, |b.2 - a.2| ≤ M * |b.1 - a.1|

/-- The ordinates are at most `B` in size. -/
def Sizes (l : List (ℝ × ℝ)) (B : ℝ) : Prop := ∀ a ∈ l, |a.2| ≤ B

/-- The uncertainty of a converted value: a relative error of `2^-49` and half a unit of the last
decimal that conversions keep. -/
noncomputable def slack (d : Option ℕ) (X : ℝ) : ℝ :=
  X / 2 ^ 49 + match d with
    | none => 0
    | some d => (1 / 2 + 1 / 2 ^ 50) / 10 ^ d

end Spec

/-! ## The broken line -/

theorem on_line {a b : ℝ × ℝ} {X Y : ℝ} (hab : a.1 < b.1)
    (h : (Y - a.2) * (b.1 - a.1) = (b.2 - a.2) * (X - a.1)) : Y = line a b X := by
  have : b.1 - a.1 ≠ 0 := by linarith
  unfold line
  field_simp
  linarith

theorem line_on {a b : ℝ × ℝ} (hab : a.1 < b.1) (X : ℝ) :
    (line a b X - a.2) * (b.1 - a.1) = (b.2 - a.2) * (X - a.1) := by
  have : b.1 - a.1 ≠ 0 := by linarith
  unfold line
  field_simp
  ring

/-- On one piece the line is as steep as its end points are. -/
theorem piece_lipschitz {a b : ℝ × ℝ} {M X Y X' Y' : ℝ} (hab : a.1 < b.1)
    (hM : |b.2 - a.2| ≤ M * |b.1 - a.1|)
    (h : (Y - a.2) * (b.1 - a.1) = (b.2 - a.2) * (X - a.1))
    (h' : (Y' - a.2) * (b.1 - a.1) = (b.2 - a.2) * (X' - a.1)) : |Y - Y'| ≤ M * |X - X'| := by
  have hpos : 0 < b.1 - a.1 := by linarith
  have e : (Y - Y') * (b.1 - a.1) = (b.2 - a.2) * (X - X') := by linarith
  have e2 : |Y - Y'| * (b.1 - a.1) = |b.2 - a.2| * |X - X'| := by
    rw [← abs_mul, ← e, abs_mul, abs_of_pos hpos]
  rw [abs_of_pos hpos] at hM
  have := mul_le_mul_of_nonneg_right hM (abs_nonneg (X - X'))
  have h3 : |Y - Y'| * (b.1 - a.1) ≤ (M * |X - X'|) * (b.1 - a.1) := by rw [e2]; linarith
  exact le_of_mul_le_mul_right h3 hpos

/-- The broken line is as steep as the table. -/
theorem Spec.OnTable.lipschitz {l : List (ℝ × ℝ)} {M X Y X' Y' : ℝ} (hs : Slopes l M)
    (hd : ∀ a ∈ l, ∀ b ∈ l, a.1 = b.1 → a = b) (h : OnTable l X Y) (h' : OnTable l X' Y') :
    |Y - Y'| ≤ M * |X - X'| := by
  have far : ∀ {X Y X' Y' : ℝ} {a b c d : ℝ × ℝ}, a ∈ l → b ∈ l → c ∈ l → d ∈ l → a.1 < b.1 →
      c.1 < d.1 → X ≤ b.1 → c.1 ≤ X' → b.1 ≤ c.1 →
      (Y - a.2) * (b.1 - a.1) = (b.2 - a.2) * (X - a.1) →
      (Y' - c.2) * (d.1 - c.1) = (d.2 - c.2) * (X' - c.1) → |Y - Y'| ≤ M * |X - X'| := by
    intro X Y X' Y' a b c d ha hb hc hd hab hcd h1 h2 h3 e e'
    have k1 := piece_lipschitz hab (hs a ha b hb) e (X' := b.1) (Y' := b.2) rfl
    have k2 := piece_lipschitz hcd (hs c hc d hd) e' (X' := c.1) (Y' := c.2) (by ring)
    have k3 := hs c hc b hb
    rw [abs_of_nonpos (by linarith : X - b.1 ≤ 0)] at k1
    rw [abs_of_nonneg (by linarith : 0 ≤ X' - c.1)] at k2
    rw [abs_of_nonpos (by linarith : b.1 - c.1 ≤ 0)] at k3
    rw [abs_of_nonpos (by linarith : X - X' ≤ 0)]
    have t : Y - Y' = (Y - b.2) + (b.2 - c.2) + -(Y' - c.2) := by ring
    rw [t]
    calc |(Y - b.2) + (b.2 - c.2) + -(Y' - c.2)| ≤ |Y - b.2| + |b.2 - c.2| + |Y' - c.2| := by
          have := abs_add_three (Y - b.2) (b.2 - c.2) (-(Y' - c.2))
          rwa [abs_neg (Y' - c.2)] at this
      _ ≤ M * -(X - X') := by linarith
  obtain ⟨a, ha, b, hb, hab, a1, a2, a3, a4⟩ := h
  obtain ⟨c, hc, d, hd', hcd, c1, c2, c3, c4⟩ := h'
  by_cases h1 : b.1 ≤ c.1
  · exact far ha hb hc hd' hab hcd a2 c1 h1 a4 c4
  · by_cases h2 : d.1 ≤ a.1
    · have := far hc hd' ha hb hcd hab c2 a1 h2 c4 a4
      rwa [abs_sub_comm Y', abs_sub_comm X'] at this
    · rw [not_le] at h1 h2
      have e1 : a.1 = c.1 := le_antisymm (not_lt.1 fun h => c3 a ha ⟨h, h2⟩)
        (not_lt.1 fun h => a3 c hc ⟨h, h1⟩)
      have e2 : b.1 = d.1 := le_antisymm (not_lt.1 fun h => a3 d hd' ⟨h2, h⟩)
        (not_lt.1 fun h => c3 b hb ⟨h1, h⟩)
      obtain rfl := hd a ha c hc e1
      obtain rfl := hd b hb d hd' e2
      exact piece_lipschitz hab (hs a ha b hb) a4 c4

theorem line_size {a b : ℝ × ℝ} {B x : ℝ} (hab : a.1 < b.1) (h1 : a.1 ≤ x) (h2 : x ≤ b.1)
    (ha : |a.2| ≤ B) (hb : |b.2| ≤ B) : line (a.1, |a.2|) (b.1, |b.2|) x ≤ B := by
  have hpos : 0 < b.1 - a.1 := by linarith
  have t0 : 0 ≤ (x - a.1) / (b.1 - a.1) := div_nonneg (by linarith) hpos.le
  have t1 : (x - a.1) / (b.1 - a.1) ≤ 1 := by rw [div_le_one hpos]; linarith
  unfold line
  simp only
  nlinarith

/-- What a computed value at a computed abscissa says about the value at the exact abscissa. -/
theorem near_line {l : List (ℝ × ℝ)} {M B x X y Y δ : ℝ} (hs : Slopes l M) (hB : Sizes l B)
    (hM : 0 ≤ M) (hd : ∀ a ∈ l, ∀ b ∈ l, a.1 = b.1 → a = b) (h : NearLine l x y)
    (hx : |x - X| ≤ δ) (hY : OnTable l X Y) : |y - Y| ≤ M * δ + B * 9 / 2 ^ 53 := by
  obtain ⟨a, ha, b, hb, hab, h1, h2, h3, h4⟩ := h
  have k1 := OnTable.lipschitz hs hd ⟨a, ha, b, hb, hab, h1, h2, h3, line_on hab x⟩ hY
  have k2 := line_size hab h1 h2 (hB a ha) (hB b hb)
  have k3 : M * |x - X| ≤ M * δ := mul_le_mul_of_nonneg_left hx hM
  have k4 : line (a.1, |a.2|) (b.1, |b.2|) x * 9 / 2 ^ 53 ≤ B * 9 / 2 ^ 53 := by
    have : (0 : ℝ) < 2 ^ 53 := by positivity
    rw [div_le_div_iff_of_pos_right this]
    linarith
  have := abs_sub_le y (line a b x) Y
  linarith

/-! ## Data objects -/

theorem closeTo_slack {o : Option ℕ} {r v : ℝ} (h : CloseTo o r v) : |r - v| ≤ slack o v := by
  cases o with
  | none => simpa [CloseTo, slack] using h
  | some d => exact h


namespace Spec

/-- `raw` asks for the values `xs`: a single float or a list of floats, of moderate size; those of
a list are not within NumPy's tolerance of zero when they are inverted (C06). -/
inductive AsksFor (t c t' : String) : Raw Dbl → List ℝ → Prop
  | scalar {a : Dbl} {x : ℝ} : a.val = .fin x → Moderate x → AsksFor t c t' (.float a) [x]
  | list {as : List Dbl} {xs : List ℝ} : as.map Dbl.val = xs.map XR.fin →
      (∀ x ∈ xs, Moderate x) → (∀ x ∈ xs, FarFromTolerance t c t' x) →
      AsksFor t c t' (.list .float as) xs

/-- The number in the type `t'` and unit `c'` that stands for the same light as `x` in the type `t`
and unit `c`. -/
noncomputable def counterpart (t c t' c' : String) (x : ℝ) : ℝ := ofMetres t' c' (metres t c x)

end Spec

/-- The converted values of a request. -/
theorem asked_converted {t u c t' u' c' : String} (hc : (lower t, lower u, c) ∈ names)
    (hc' : (lower t', u', c') ∈ names) (hw : lower t' ≠ "wavenumber") {raw : Raw Dbl}
    {xs : List ℝ} (ha : AsksFor (lower t) c (lower t') raw xs) {s : Spectrum Dbl}
    (hs : Spectrum.new raw t u = .ok s) :
    ∃ ov rs, s.convertTo t' u' = .ok ov ∧ ov.toList.map Dbl.val = rs.map XR.fin ∧
      List.Forall₂ (fun r x => |r - counterpart (lower t) c (lower t') c' x| ≤
        slack (decimals (lower t') c') (counterpart (lower t) c (lower t') c' x)) rs xs := by
  cases ha with
  | @scalar a x h1 h2 =>
    obtain ⟨b, r, e1, e2, e3⟩ := C85_scalar t u c t' u' c' hc hc' a x h1 h2
    unfold convertScalar at e1
    rw [hs] at e1
    simp only [bind, Except.bind] at e1
    cases hov : s.convertTo t' u' with
    | error e => rw [hov] at e1; cases e1
    | ok ov =>
      rw [hov] at e1
      cases ov with
      | array dt zs => cases e1
      | scalar y =>
        cases e1
        refine ⟨_, [r], rfl, by simp [Vals.toList, e2], .cons ?_ .nil⟩
        have := closeTo_slack e3
        rwa [computed, if_neg hw] at this
  | @list as xs h1 h2 h3 =>
    obtain ⟨bs, rs, e1, e2, e3⟩ := C85_array t u c t' u' c' hc hc' as xs h1 h2 h3
    unfold convertList at e1
    rw [hs] at e1
    simp only [bind, Except.bind] at e1
    refine ⟨_, rs, e1, e2, e3.imp ?_⟩
    intro r x hr
    have := closeTo_slack hr
    rwa [computed, if_neg hw] at this

theorem forall₂_get {α β : Type} {R : α → β → Prop} {l : List α} {m : List β}
    (h : List.Forall₂ R l m) {i : ℕ} {b : β} (hb : m[i]? = some b) : ∃ a, l[i]? = some a ∧ R a b := by
  induction h generalizing i with
  | nil => simp at hb
  | @cons x y l m hx _ ih =>
    cases i with
    | zero =>
      simp only [List.getElem?_cons_zero, Option.some.injEq] at hb
      subst hb
      exact ⟨x, by simp, hx⟩
    | succ i =>
      simp only [List.getElem?_cons_succ] at hb ⊢
      exact ih hb

/-- C112, data objects: a table of interpolation order one that is asked in any type and unit
returns, up to the stated error, the value of the broken line at the exact counterpart of the
question. -/
theorem C112_data [SciPy Dbl] (rows : List (Dbl × Dbl)) (l : List (ℝ × ℝ)) (hl : DblTable rows l)
    (hm : ModerateTable l) {M B : ℝ} (hM : 0 ≤ M) (hs : Slopes l M) (hB : Sizes l B)
    (t u c t' u' c' : String) (hc : (lower t, lower u, c) ∈ names)
    (hc' : (lower t', u', c') ∈ names) (hw : lower t' ≠ "wavenumber") (d : RealData Dbl)
    (hd : RealData.newInterp .float rows t' u' 1 = .ok d) (raw : Raw Dbl) (xs : List ℝ)
    (ha : AsksFor (lower t) c (lower t') raw xs) (s : Spectrum Dbl)
    (hsp : Spectrum.new raw t u = .ok s) (v : Vals Dbl) (hv : (d.evaluate s).1 = .ok v)
    (i : ℕ) (x Y : ℝ) (hx : xs[i]? = some x)
    (hY : OnTable l (counterpart (lower t) c (lower t') c' x) Y) :
    ∃ w y, v.toList[i]? = some w ∧ w.val = .fin y ∧
      |y - Y| ≤ M * slack (decimals (lower t') c') (counterpart (lower t) c (lower t') c' x) +
        B * 9 / 2 ^ 53 := by
  obtain ⟨ov, rs, h1, h2, h3⟩ := asked_converted hc hc' hw ha hsp
  obtain ⟨r, hr, h4⟩ := forall₂_get h3 hx
  have hz : ∃ z, ov.toList[i]? = some z ∧ z.val = .fin r := by
    have := congrArg (·[i]?) h2
    simp only [List.getElem?_map, hr, Option.map_some] at this
    cases hz : ov.toList[i]? with
    | none => rw [hz] at this; cases this
    | some z => rw [hz] at this; exact ⟨z, rfl, by simpa using this⟩
  obtain ⟨z, hz, hzr⟩ := hz
  obtain ⟨w, y, k1, k2, k3⟩ := C90_accuracy rows l hl hm t' u' d hd s v ov hv h1 i z r hz hzr
  obtain ⟨-, -, -, -, -, -, -, h5, -⟩ := newInterp_ok hd
  exact ⟨w, y, k1, k2,
    near_line hs hB hM (fun a ha b hb e => table_distinct hl h5 ha hb e) k3 h4 hY⟩

/-! ## Which questions are answered -/

theorem le_of_real {a b : Dbl} {x y : ℝ} (ha : a.val = .fin x) (hb : b.val = .fin y) :
    PyFloat.le a b = true ↔ x ≤ y := by
  have na : PyFloat.isNaN a = false := by
    show PyFloat.isNaN a.val = false
    rw [ha]; rfl
  have nb : PyFloat.isNaN b = false := by
    show PyFloat.isNaN b.val = false
    rw [hb]; rfl
  rw [LawfulCmp.le_eq_not_lt _ _ na nb, Dbl.lt_real hb ha]
  simp

theorem mapM_total {α β : Type} (f : α → Res β) (l : List α) (h : ∀ a ∈ l, ∃ b, f a = .ok b) :
    ∃ m, l.mapM f = .ok m ∧ m.length = l.length := by
  induction l with
  | nil => exact ⟨[], rfl, rfl⟩
  | cons a l ih =>
    obtain ⟨b, hb⟩ := h a (by simp)
    obtain ⟨m, hm, hlm⟩ := ih (fun a ha => h a (by simp [ha]))
    exact ⟨b :: m, by rw [List.mapM_cons, hb, hm]; rfl, by simp [hlm]⟩

theorem mem_of_forall₂ {α β : Type} {R : α → β → Prop} {l : List α} {m : List β}
    (h : List.Forall₂ R l m) {a : α} (ha : a ∈ l) : ∃ b ∈ m, R a b := by
  induction h with
  | nil => cases ha
  | @cons x y l m hx _ ih =>
    rcases List.mem_cons.1 ha with rfl | ha
    · exact ⟨y, by simp, hx⟩
    · obtain ⟨b, hb, hr⟩ := ih ha
      exact ⟨b, by simp [hb], hr⟩

theorem mem_of_forall₂' {α β : Type} {R : α → β → Prop} {l : List α} {m : List β}
    (h : List.Forall₂ R l m) {b : β} (hb : b ∈ m) : ∃ a ∈ l, R a b := by
  induction h with
  | nil => cases hb
  | @cons x y l m hx _ ih =>
    rcases List.mem_cons.1 hb with rfl | hb
    · exact ⟨x, by simp, hx⟩
    · obtain ⟨a, ha, hr⟩ := ih hb
      exact ⟨a, by simp [ha], hr⟩

/-- C112, answered questions: a table of interpolation order one answers all questions whose exact
counterparts lie inside its ends by more than the uncertainty of the conversion, and refuses them
all, with the error for the range, if one lies outside by more. -/
theorem C112_answered [SciPy Dbl] (rows : List (Dbl × Dbl)) (l : List (ℝ × ℝ)) (hl : DblTable rows l)
    (t u c t' u' c' : String) (hc : (lower t, lower u, c) ∈ names)
    (hc' : (lower t', u', c') ∈ names) (hw : lower t' ≠ "wavenumber") (d : RealData Dbl)
    (hd : RealData.newInterp .float rows t' u' 1 = .ok d) (raw : Raw Dbl) (xs : List ℝ)
    (ha : AsksFor (lower t) c (lower t') raw xs) (hne : xs ≠ []) (s : Spectrum Dbl)
    (hsp : Spectrum.new raw t u = .ok s) :
    ((∀ x ∈ xs, ∀ X, X = counterpart (lower t) c (lower t') c' x →
        (∃ a ∈ l, a.1 + slack (decimals (lower t') c') X ≤ X) ∧
        (∃ b ∈ l, X + slack (decimals (lower t') c') X ≤ b.1)) →
      ∃ v, (d.evaluate s).1 = .ok v ∧ v.toList.length = xs.length) ∧
    ((∃ x ∈ xs, ∃ X, X = counterpart (lower t) c (lower t') c' x ∧
        ((∀ a ∈ l, X + slack (decimals (lower t') c') X < a.1) ∨
        (∀ b ∈ l, b.1 + slack (decimals (lower t') c') X < X))) →
      (d.evaluate s).1 = .error (rangeError c')) := by
  obtain ⟨ov, rs, h1, h2, h3⟩ := asked_converted hc hc' hw ha hsp
  have hmem : ∀ z ∈ ov.toList, ∃ r ∈ rs, z.val = .fin r := by
    intro z hz
    have : z.val ∈ rs.map XR.fin := h2 ▸ List.mem_map_of_mem hz
    obtain ⟨r, hr, e⟩ := List.mem_map.1 this
    exact ⟨r, hr, e.symm⟩
  have hmem' : ∀ r ∈ rs, ∃ z ∈ ov.toList, z.val = .fin r := by
    intro r hr
    have : XR.fin r ∈ ov.toList.map Dbl.val := h2 ▸ List.mem_map_of_mem hr
    obtain ⟨z, hz, e⟩ := List.mem_map.1 this
    exact ⟨z, hz, e⟩
  have hnn : NoNaN ov.toList := by
    intro z hz
    obtain ⟨r, -, hr⟩ := hmem z hz
    show PyFloat.isNaN z.val = false
    rw [hr]; rfl
  have hnx : NoNaN (rows.map (·.1)) := by
    intro z hz
    obtain ⟨p, hp, rfl⟩ := List.mem_map.1 hz
    obtain ⟨r, -, hr⟩ := hl.mem hp
    show PyFloat.isNaN p.1.val = false
    rw [hr.1]; rfl
  have hlen : ov.toList.length = xs.length := by
    have := congrArg List.length h2
    rw [List.length_map, List.length_map] at this
    rw [this, h3.length_eq]
  have hne' : ov.toList ≠ [] := by
    intro h
    rw [h] at hlen
    exact hne (List.length_eq_zero_iff.1 hlen.symm)
  obtain ⟨k1, k2⟩ := table_evaluate rows t' u' c' hc' 1 d hd hnx s ov h1 hne' hnn
  constructor
  · intro hin
    have hwi : ∀ z ∈ ov.toList, Within (rows.map (·.1)) [z] := by
      intro z hz z' hz'
      rw [List.mem_singleton] at hz'
      subst hz'
      obtain ⟨r, hr, hzr⟩ := hmem _ hz
      obtain ⟨x, hx, hrx⟩ := mem_of_forall₂ h3 hr
      obtain ⟨⟨a, hal, hax⟩, ⟨b, hbl, hbx⟩⟩ := hin x hx _ rfl
      obtain ⟨p, hp, hpa⟩ := hl.mem' hal
      obtain ⟨q, hq, hqb⟩ := hl.mem' hbl
      rw [abs_le] at hrx
      refine ⟨⟨p.1, List.mem_map_of_mem hp, (le_of_real hpa.1 hzr).2 (by linarith [hrx.1])⟩,
        ⟨q.1, List.mem_map_of_mem hq, (le_of_real hzr hqb.1).2 (by linarith [hrx.2])⟩⟩
    rw [k1 (fun z hz => hwi z hz z (by simp))]
    have hat : ∀ z ∈ ov.toList, ∃ y, interpAt 1 rows z = .ok y := by
      intro z hz
      obtain ⟨y, hy⟩ := interpLinear_within rows hnx z (hnn z hz) (hwi z hz)
      exact ⟨y, by simpa [interpAt] using hy⟩
    cases ov with
    | scalar z =>
      obtain ⟨y, hy⟩ := hat z (by simp [Vals.toList])
      refine ⟨.scalar y, ?_, by simpa [Vals.toList] using hlen⟩
      simp only [Vals.mapRes, hy, bind, Except.bind]
    | array dt zs =>
      obtain ⟨ys, hys, hl2⟩ := mapM_total _ zs hat
      refine ⟨.array .float ys, by simp only [Vals.mapRes, hys, bind, Except.bind], ?_⟩
      rw [← hlen]
      exact hl2
  · rintro ⟨x, hx, X, rfl, hout⟩
    apply k2
    intro hcon
    obtain ⟨r, hr, hrx⟩ := mem_of_forall₂' h3 hx
    obtain ⟨z, hz, hzr⟩ := hmem' r hr
    obtain ⟨⟨a, ha', haz⟩, ⟨b, hb', hzb⟩⟩ := hcon z hz
    obtain ⟨p, hp, rfl⟩ := List.mem_map.1 ha'
    obtain ⟨q, hq, rfl⟩ := List.mem_map.1 hb'
    obtain ⟨a, hal, hpa⟩ := hl.mem hp
    obtain ⟨b, hbl, hqb⟩ := hl.mem hq
    rw [le_of_real hpa.1 hzr] at haz
    rw [le_of_real hzr hqb.1] at hzb
    rw [abs_le] at hrx
    rcases hout with h | h
    · have := h a hal
      linarith [hrx.2]
    · have := h b hbl
      linarith [hrx.1]

/-! ## Materials -/

theorem cplxOf_val {a b : Dbl} {x y : ℝ} (ha : a.val = .fin x) (hb : b.val = .fin y) :
    (cplxOf a b).re.val = .fin x ∧ (cplxOf a b).im.val = .fin y := by
  have h0 : (lit 0 : Dbl).val = .fin 0 := by exact_mod_cast Dbl.lit_int (n := 0) (by norm_num)
  have h1 : (lit 1 : Dbl).val = .fin 1 := by exact_mod_cast Dbl.lit_int (n := 1) (by norm_num)
  have dx := Dbl.isDouble_val ha
  have dy := Dbl.isDouble_val hb
  have d0 := Dbl.isDouble_val h0
  have k1 : (lit 0 * b : Dbl).val = .fin 0 := Dbl.zero_mul_val h0 hb
  have k2 : (lit 1 * lit 0 : Dbl).val = .fin 0 := Dbl.mul_zero_val h1 h0
  have k3 : (lit 0 * b - lit 1 * lit 0 : Dbl).val = .fin 0 := Dbl.sub_self_val k2 k1
  have k4 : (lit 0 * lit 0 : Dbl).val = .fin 0 := Dbl.mul_zero_val h0 h0
  have k5 : (lit 1 * b : Dbl).val = .fin y := by
    rw [Dbl.val_mul, h1, hb, XR.mul_fin, one_mul]
    exact Dbl.rnd_double dy
  have k6 := Dbl.add_val k4 k5 (by rwa [zero_add])
  have k7 := Dbl.add_val ha k3 (by rwa [add_zero])
  have k8 := Dbl.add_val h0 k6 (by rwa [zero_add, zero_add])
  rw [add_zero] at k7
  rw [zero_add, zero_add] at k8
  exact ⟨k7, k8⟩

theorem combine_get {F : Type} [PyFloat F] {r i : Vals F} {v : CVals F}
    (h : combineParts r i = .ok v) {j : ℕ} {a b : F} (ha : r.toList[j]? = some a)
    (hb : i.toList[j]? = some b) : v.toList[j]? = some (cplxOf a b) := by
  have one : ∀ {x : F} {j : ℕ} {a : F}, [x][j]? = some a → j = 0 ∧ x = a := by
    intro x j a h
    cases j with
    | zero => simpa using h
    | succ j => simp at h
  cases r with
  | scalar x =>
    obtain ⟨rfl, rfl⟩ := one ha
    cases i with
    | scalar y =>
      obtain ⟨-, rfl⟩ := one hb
      cases h
      rfl
    | array dt ys =>
      cases h
      simp only [CVals.toList, List.getElem?_map]
      rw [show ys[0]? = some b from hb]
      rfl
  | array dt xs =>
    cases i with
    | scalar y =>
      obtain ⟨rfl, rfl⟩ := one hb
      cases h
      simp only [CVals.toList, List.getElem?_map]
      rw [show xs[0]? = some a from ha]
      rfl
    | array dt' ys =>
      simp only [combineParts] at h
      split at h
      · cases h
        simp only [CVals.toList, List.getElem?_zipWith]
        rw [show xs[j]? = some a from ha, show ys[j]? = some b from hb]
      · cases h

namespace Spec

/-- A part of a material that was made from a table of order one over the type `t'` and the unit
`u'`, or a constant; at the abscissa `X` it has the value `Y`, with the uncertainty `e`. -/
inductive PartValue [SciPy Dbl] (t' u' c' : String) (X : ℝ) : RealData Dbl → ℝ → ℝ → Prop
  | table {rows : List (Dbl × Dbl)} {l : List (ℝ × ℝ)} {d : RealData Dbl} {M B Y : ℝ} :
      RealData.newInterp .float rows t' u' 1 = .ok d → DblTable rows l → ModerateTable l →
      0 ≤ M → Slopes l M → Sizes l B → OnTable l X Y →
      PartValue t' u' c' X d Y (M * slack (decimals (lower t') c') X + B * 9 / 2 ^ 53)
  | constant {a : Dbl} {Y : ℝ} {r : Spectrum Dbl} {t u : String} : a.val = .fin Y →
      PartValue t' u' c' X (.constant a r t u) Y 0

end Spec

theorem part_value [SciPy Dbl] {t u c t' u' c' : String} (hc : (lower t, lower u, c) ∈ names)
    (hc' : (lower t', u', c') ∈ names) (hw : lower t' ≠ "wavenumber") {raw : Raw Dbl}
    {xs : List ℝ} (ha : AsksFor (lower t) c (lower t') raw xs) {s : Spectrum Dbl}
    (hsp : Spectrum.new raw t u = .ok s) {i : ℕ} {x : ℝ} (hx : xs[i]? = some x) {d : RealData Dbl}
    {Y e : ℝ} (hp : PartValue t' u' c' (counterpart (lower t) c (lower t') c' x) d Y e)
    {v : Vals Dbl} {s' : Spectrum Dbl} (hv : d.evaluate s = (.ok v, s')) :
    s' = s ∧ ∃ w y, v.toList[i]? = some w ∧ w.val = .fin y ∧ |y - Y| ≤ e := by
  cases hp with
  | @table rows l _ M B _ h1 h2 h3 h4 h5 h6 h7 =>
    refine ⟨?_, C112_data rows l h2 h3 h4 h5 h6 t u c t' u' c' hc hc' hw d h1 raw xs ha s hsp v
      (by rw [hv]) i x Y hx h7⟩
    obtain ⟨lo, hi, r, -, -, -, -, -, rfl⟩ := newInterp_ok h1
    exact (congrArg Prod.snd hv).symm
  | @constant a _ r t0 u0 h1 =>
    refine ⟨(congrArg Prod.snd hv).symm, ?_⟩
    have hv' := congrArg Prod.fst hv
    simp only [RealData.evaluate, bind, Except.bind] at hv'
    cases hcon : r.contains s with
    | error e => rw [hcon] at hv'; cases hv'
    | ok b =>
      rw [hcon] at hv'
      simp only at hv'
      cases ha with
      | @scalar a' x' g1 g2 =>
        rw [new_scalar hc] at hsp
        cases hsp
        cases hv'
        cases i with
        | zero => exact ⟨a, Y, rfl, h1, by simp⟩
        | succ i => simp at hx
      | @list as xs' g1 g2 g3 =>
        rw [new_list hc] at hsp
        cases hsp
        cases hv'
        have hlen : as.length = xs.length := by
          have := congrArg List.length g1
          simpa using this
        have hi : i < as.length := by
          rw [hlen]
          exact (List.getElem?_eq_some_iff.1 hx).1
        refine ⟨a * lit 1, Y, ?_, ?_, by simp⟩
        · simp only [Vals.toList, List.getElem?_map, List.getElem?_eq_getElem hi, Option.map_some]
        · exact Dbl.mul_one_val h1 (by exact_mod_cast Dbl.lit_int (n := 1) (by norm_num))

/-- A material of two parts, asked for the refractive index: both parts are evaluated at the spectrum
of the request, and the results are combined. -/
theorem nkCore_parts {F : Type} [PyFloat F] [SciPy F] {m : Material F} (hm : m.name = "nk")
    (hcx : m.cplx = none) {dr di : RealData F} (hr : m.real = some dr) (hi : m.imag = some di)
    {raw : Raw F} {t u : String} {v : CVals F} (hv : m.nkCore raw t u = .ok v) :
    ∃ s s1 s2 vr vi, Spectrum.new raw t u = .ok s ∧ dr.evaluate s = (.ok vr, s1) ∧
      di.evaluate s1 = (.ok vi, s2) ∧ combineParts vr vi = .ok v := by
  unfold Material.nkCore at hv
  simp only [bind, Except.bind] at hv
  cases hsp : Spectrum.new raw t u with
  | error e => rw [hsp] at hv; cases hv
  | ok s =>
    rw [hsp] at hv
    simp only at hv
    rw [if_neg (not_not.2 (.inl hm))] at hv
    unfold Material.evalStored at hv
    rw [hcx, hr, hi] at hv
    simp only [evalPart] at hv
    cases h1 : dr.evaluate s with
    | mk res1 s1 =>
      rw [h1] at hv
      cases res1 with
      | error e => cases hv
      | ok vr =>
        simp only at hv
        cases h2 : di.evaluate s1 with
        | mk res2 s2 =>
          rw [h2] at hv
          cases res2 with
          | error e => cases hv
          | ok vi =>
            simp only at hv
            cases h3 : combineParts vr vi with
            | error e => rw [h3] at hv; cases hv
            | ok cv =>
              rw [h3] at hv
              simp only [hm] at hv
              rw [if_neg (by decide)] at hv
              cases hv
              exact ⟨s, s1, s2, vr, vi, rfl, h1, h2, h3⟩

/-- C112, materials: `get_nk_data` of a material whose parts are tables of interpolation order one
or constants, asked for a number or a list in any type and unit, returns in double precision the
values of the tables at the exact counterparts of the questions, up to the slope of the table times
the uncertainty of the conversion and 9·2⁻⁵³ of the largest ordinate. -/
theorem C112_material [SciPy Dbl] (m : Material Dbl) (hm : m.name = "nk") (hcx : m.cplx = none)
    (dr di : RealData Dbl) (hr : m.real = some dr) (hi : m.imag = some di)
    (t u c t' u' c' : String) (hc : (lower t, lower u, c) ∈ names)
    (hc' : (lower t', u', c') ∈ names) (hw : lower t' ≠ "wavenumber") (raw : Raw Dbl)
    (xs : List ℝ) (ha : AsksFor (lower t) c (lower t') raw xs) (v : CVals Dbl)
    (hv : m.nkCore raw t u = .ok v) (i : ℕ) (x N K en ek : ℝ) (hx : xs[i]? = some x)
    (hN : PartValue t' u' c' (counterpart (lower t) c (lower t') c' x) dr N en)
    (hK : PartValue t' u' c' (counterpart (lower t) c (lower t') c' x) di K ek) :
    ∃ z n k, v.toList[i]? = some z ∧ z.re.val = .fin n ∧ z.im.val = .fin k ∧
      |n - N| ≤ en ∧ |k - K| ≤ ek := by
  obtain ⟨s, s1, s2, vr, vi, hsp, h1, h2, h3⟩ := nkCore_parts hm hcx hr hi hv
  obtain ⟨rfl, w1, n, a1, a2, a3⟩ := part_value hc hc' hw ha hsp hx hN h1
  obtain ⟨-, w2, k, b1, b2, b3⟩ := part_value hc hc' hw ha hsp hx hK h2
  obtain ⟨e1, e2⟩ := cplxOf_val a2 b2
  exact ⟨_, n, k, combine_get h3 a1 b1, e1, e2, a3, b3⟩

/-- C112, units: two questions about the same light, in whatever types and units, get answers that
agree up to twice the error. -/
theorem C112_units [SciPy Dbl] (m : Material Dbl) (hm : m.name = "nk") (hcx : m.cplx = none)
    (dr di : RealData Dbl) (hr : m.real = some dr) (hi : m.imag = some di)
    (t₁ u₁ c₁ t₂ u₂ c₂ t' u' c' : String) (hc₁ : (lower t₁, lower u₁, c₁) ∈ names)
    (hc₂ : (lower t₂, lower u₂, c₂) ∈ names)
    (hc' : (lower t', u', c') ∈ names) (hw : lower t' ≠ "wavenumber") (raw₁ raw₂ : Raw Dbl)
    (xs₁ xs₂ : List ℝ) (ha₁ : AsksFor (lower t₁) c₁ (lower t') raw₁ xs₁)
    (ha₂ : AsksFor (lower t₂) c₂ (lower t') raw₂ xs₂) (v₁ v₂ : CVals Dbl)
    (hv₁ : m.nkCore raw₁ t₁ u₁ = .ok v₁) (hv₂ : m.nkCore raw₂ t₂ u₂ = .ok v₂)
    (i j : ℕ) (x₁ x₂ N K en ek : ℝ) (hx₁ : xs₁[i]? = some x₁) (hx₂ : xs₂[j]? = some x₂)
    (hsame : metres (lower t₁) c₁ x₁ = metres (lower t₂) c₂ x₂)
    (hN : PartValue t' u' c' (counterpart (lower t₁) c₁ (lower t') c' x₁) dr N en)
    (hK : PartValue t' u' c' (counterpart (lower t₁) c₁ (lower t') c' x₁) di K ek) :
    ∃ z₁ z₂ n₁ k₁ n₂ k₂, v₁.toList[i]? = some z₁ ∧ v₂.toList[j]? = some z₂ ∧
      z₁.re.val = .fin n₁ ∧ z₁.im.val = .fin k₁ ∧ z₂.re.val = .fin n₂ ∧ z₂.im.val = .fin k₂ ∧
      |n₁ - n₂| ≤ 2 * en ∧ |k₁ - k₂| ≤ 2 * ek := by
  have hX : counterpart (lower t₁) c₁ (lower t') c' x₁ =
      counterpart (lower t₂) c₂ (lower t') c' x₂ := by
    unfold counterpart
    rw [hsame]
  obtain ⟨z₁, n₁, k₁, a1, a2, a3, a4, a5⟩ := C112_material m hm hcx dr di hr hi t₁ u₁ c₁ t' u' c' hc₁
    hc' hw raw₁ xs₁ ha₁ v₁ hv₁ i x₁ N K en ek hx₁ hN hK
  rw [hX] at hN hK
  obtain ⟨z₂, n₂, k₂, b1, b2, b3, b4, b5⟩ := C112_material m hm hcx dr di hr hi t₂ u₂ c₂ t' u' c' hc₂
    hc' hw raw₂ xs₂ ha₂ v₂ hv₂ j x₂ N K en ek hx₂ hN hK
  refine ⟨z₁, z₂, n₁, k₁, n₂, k₂, a1, b1, a2, a3, b2, b3, ?_, ?_⟩
  · have := abs_sub_le n₁ N n₂
    rw [abs_sub_comm N n₂] at this
    linarith
  · have := abs_sub_le k₁ K k₂
    rw [abs_sub_comm K k₂] at this
    linarith

/-! ## A concrete case -/

/-- A photon of 3 eV has a wavelength of about 413.3 nm. -/
theorem three_ev : 413.28 < counterpart "energy" "ev" "wavelength" "nm" 3 ∧
    counterpart "energy" "ev" "wavelength" "nm" 3 < 413.281 := by
  unfold counterpart
  have e1 : metres "energy" "ev" 3 = h * c / (e * 3) := by simp [metres]
  have e2 : ∀ L, ofMetres "wavelength" "nm" L = L / (1 / 10 ^ 9) := by
    intro L
    simp [ofMetres, lengthUnit]
  rw [e1, e2]
  unfold Spec.h Spec.c Spec.e
  norm_num

/-- The table 2 at 400 nm, 1 at 500 nm, asked at 3 eV: it answers, with the value of the straight
line at the wavelength of 3 eV up to 10⁻¹³. -/
example [SciPy Dbl] : ∃ d s v w y,
    RealData.newInterp .float [((lit 400 : Dbl), (lit 2 : Dbl)), (lit 500, lit 1)] "wavelength" "nm" 1 =
      .ok d ∧
    Spectrum.new (.float (lit 3 : Dbl)) "energy" "ev" = .ok s ∧ (d.evaluate s).1 = .ok v ∧
    v.toList[0]? = some w ∧ w.val = .fin y ∧
    |y - (2 - (counterpart "energy" "ev" "wavelength" "nm" 3 - 400) / 100)| ≤ 1 / 10 ^ 13 := by
  have v4 : (lit 400 : Dbl).val = .fin 400 := by exact_mod_cast Dbl.lit_int (n := 400) (by norm_num)
  have v5 : (lit 500 : Dbl).val = .fin 500 := by exact_mod_cast Dbl.lit_int (n := 500) (by norm_num)
  have v3 : (lit 3 : Dbl).val = .fin 3 := by exact_mod_cast Dbl.lit_int (n := 3) (by norm_num)
  have v2 : (lit 2 : Dbl).val = .fin 2 := by exact_mod_cast Dbl.lit_int (n := 2) (by norm_num)
  have v1 : (lit 1 : Dbl).val = .fin 1 := by exact_mod_cast Dbl.lit_int (n := 1) (by norm_num)
  have hc' : (lower "wavelength", "nm", "nm") ∈ names := by decide +kernel
  have hc : (lower "energy", lower "ev", "ev") ∈ names := by decide +kernel
  have hlw : lower "wavelength" = "wavelength" := by decide +kernel
  have hle : lower "energy" = "energy" := by decide +kernel
  obtain ⟨-, d, hd⟩ := newInterp_two "wavelength" "nm" "nm" hc' (lit 400) (lit 500) (lit 2) (lit 1)
    400 500 v4 v5 (by norm_num)
  have hl : DblTable [((lit 400 : Dbl), (lit 2 : Dbl)), (lit 500, lit 1)] [(400, 2), (500, 1)] :=
    .cons ⟨v4, v2⟩ (.cons ⟨v5, v1⟩ .nil)
  have hmod : ModerateTable [(400, 2), (500, 1)] := by
    intro r hr
    simp only [List.mem_cons, List.not_mem_nil, or_false] at hr
    rcases hr with rfl | rfl <;> norm_num
  have hsl : Slopes [(400, 2), (500, 1)] (1 / 100) := by
    intro a ha b hb
    simp only [List.mem_cons, List.not_mem_nil, or_false] at ha hb
    rcases ha with rfl | rfl <;> rcases hb with rfl | rfl <;> norm_num [abs_le]
  have hsz : Sizes [(400, 2), (500, 1)] 2 := by
    intro a ha
    simp only [List.mem_cons, List.not_mem_nil, or_false] at ha
    rcases ha with rfl | rfl <;> norm_num
  have hask : AsksFor (lower "energy") "ev" (lower "wavelength") (.float (lit 3)) [3] :=
    .scalar v3 ⟨by norm_num, by norm_num⟩
  obtain ⟨x1, x2⟩ := three_ev
  have hsk : slack (decimals "wavelength" "nm") (counterpart "energy" "ev" "wavelength" "nm" 3) ≤
      2 / 10 ^ 12 := by
    rw [show decimals "wavelength" "nm" = some 12 by decide]
    simp only [slack]
    norm_num
    linarith
  have hnew := new_scalar hc (lit 3 : Dbl)
  obtain ⟨v, hv, -⟩ := (C112_answered _ _ hl "energy" "ev" "ev" "wavelength" "nm" "nm" hc hc'
    (by decide +kernel) d hd _ _ hask (by simp) _ hnew).1 (by
      rw [hle, hlw]
      intro x hx X hX
      rw [List.mem_singleton] at hx
      subst hx
      rw [← hX] at x1 x2 hsk
      exact ⟨⟨(400, 2), by simp, by norm_num at x1 hsk ⊢; linarith⟩,
        ⟨(500, 1), by simp, by norm_num at x2 hsk ⊢; linarith⟩⟩)
  obtain ⟨w, y, k1, k2, k3⟩ := C112_data _ _ hl hmod (by norm_num) hsl hsz "energy" "ev" "ev"
    "wavelength" "nm" "nm" hc hc' (by decide +kernel) d hd _ _ hask _ hnew v hv 0 3
    (2 - (counterpart "energy" "ev" "wavelength" "nm" 3 - 400) / 100) rfl (by
      rw [hle, hlw]
      refine ⟨(400, 2), by simp, (500, 1), by simp, by norm_num, by linarith, by linarith, ?_, by ring⟩
      intro r hr
      simp only [List.mem_cons, List.not_mem_nil, or_false] at hr
      rcases hr with rfl | rfl <;> norm_num)
  rw [hle, hlw] at k3
  refine ⟨d, _, v, w, y, hd, hnew, hv, k1, k2, k3.trans ?_⟩
  norm_num at hsk ⊢
  linarith

end Disp

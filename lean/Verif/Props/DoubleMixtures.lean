import Verif.Props.DoublePassive
import Verif.Props.MediumBuild
import Verif.Props.MaterialBuild
import Verif.Lemmas.InterpRounding
import Verif.Lemmas.PrintRounding
import Verif.Props.TextDriftCase
/-!
# C130: tables and mixtures without gain in double precision

The imaginary part of a permittivity is the loss of a material. Tables whose entries are not
negative and mixtures of two materials without gain should not report gain, whatever the rounding
errors are. A NaN is not negative.
-/

namespace Disp

noncomputable section

open XR (NN NP ZN SN)
open Dbl Spec

/-! ## Linear interpolation keeps the sign -/

theorem sub_nn {a b : Dbl} (h : PyFloat.lt a b = false) : NN (a - b).val := by
  refine rnd_nn ?_
  change PyFloat.lt a.val b.val = false at h
  cases ha : a.val <;> cases hb : b.val <;> rw [ha, hb] at h
  all_goals first
    | trivial
    | exact absurd h (by decide)
    | skip
  rename_i x y
  rw [XR.lt_fin] at h
  show 0 ≤ x + -y
  have h : y ≤ x := by simpa using h
  linarith

theorem segment_nn {p q : Dbl × Dbl} {v : Dbl} (hp : NN p.2.val) (hq : NN q.2.val)
    (h0 : PyFloat.lt q.1 p.1 = false) (h1 : PyFloat.lt v p.1 = false)
    (h2 : PyFloat.lt q.1 v = false) : NN (segment p q v).val := by
  have hw := nn_div (nn_lit (q := 1) (by norm_num)) (sub_nn h0)
  exact nn_add (nn_mul hp (nn_mul hw (sub_nn h2))) (nn_mul hq (nn_mul hw (sub_nn h1)))

theorem interpLinear_nn {rows : List (Dbl × Dbl)} (hi : interpInit 1 rows = .ok ())
    (hn : ∀ r ∈ rows, NN r.2.val) {v y : Dbl} (hy : interpLinear rows v = .ok y) : NN y.val := by
  unfold interpInit at hi
  split at hi
  · cases hi
  · rename_i hlen
    split at hi
    · rename_i hd
      obtain ⟨p, hp, q, hq, h0, h1, h2, -, rfl⟩ := interpLinear_find rows (by omega) hd v y hy
      refine segment_nn (hn p hp) (hn q hq) ?_ h1 h2
      by_contra h
      have h := LawfulCmp.lt_trans _ _ _ h0 (by simpa using h)
      rw [LawfulCmp.lt_irrefl] at h
      cases h
    · cases hi

namespace Spec

/-- A constant, or a table interpolated linearly, whose entries are not negative. -/
inductive PassivePart [SciPy Dbl] : RealData Dbl → Prop
  | constant {c : Dbl} {range : Raw Dbl} {t u : String} {d : RealData Dbl} (hc : NotNegative c)
      (h : RealData.newConstant c range t u = .ok d) : PassivePart d
  | table {dt : DType} {rows : List (Dbl × Dbl)} {t u : String} {d : RealData Dbl}
      (hr : ∀ r ∈ rows, NotNegative r.2) (h : RealData.newInterp dt rows t u 1 = .ok d) :
      PassivePart d

/-- No value has a negative imaginary part. -/
def NoGain (v : CVals Dbl) : Prop := ∀ z ∈ v.toList, NotNegative z.im

/-- No value has a negative real or a negative imaginary part. -/
def FirstQuadrant (v : CVals Dbl) : Prop := ∀ z ∈ v.toList, NotNegative z.re ∧ NotNegative z.im

/-- A material that reports neither gain nor a negative refractive index, however it is asked. -/
def NeverActive [SciPy Dbl] (m : Material Dbl) : Prop :=
  ∀ q : Spectrum Dbl,
    (∀ v, (m.getPermittivity q).1 = .ok v → NoGain v) ∧
    (∀ v, (m.getNk q).1 = .ok v → FirstQuadrant v)

end Spec

section
variable [SciPy Dbl]

theorem mapRes_nn {f : Dbl → Res Dbl} (hf : ∀ x y, f x = .ok y → NN y.val) {v w : Vals Dbl}
    (h : v.mapRes f = .ok w) : AllNN w := by
  cases v with
  | scalar x =>
    unfold Vals.mapRes at h
    obtain ⟨y, h1, h⟩ := except_bind_ok h
    cases h
    intro z hz
    simp only [Vals.toList, List.mem_singleton] at hz
    subst hz
    exact hf _ _ h1
  | array dt xs =>
    unfold Vals.mapRes at h
    obtain ⟨ys, h1, h⟩ := except_bind_ok h
    cases h
    intro z hz
    simp only [Vals.toList] at hz
    obtain ⟨i, hi⟩ := List.mem_iff_getElem?.1 hz
    obtain ⟨g1, g2⟩ := mapM_getElem _ _ _ h1
    have hlt : i < xs.length := by
      rw [g1]; exact (List.getElem?_eq_some_iff.1 hi).1
    obtain ⟨y, g3, g4⟩ := g2 i _ (List.getElem?_eq_getElem hlt)
    rw [hi] at g4
    cases g4
    exact hf _ _ g3

/-- Values of a part. -/
theorem part_nn {d : RealData Dbl} (hd : PassivePart d) {s : Spectrum Dbl} {v : Vals Dbl}
    (h : (d.evaluate s).1 = .ok v) : AllNN v := by
  cases hd with
  | @constant c range t u d hc h0 =>
    unfold RealData.newConstant at h0
    obtain ⟨r, -, h0⟩ := except_bind_ok h0
    cases h0
    unfold RealData.evaluate at h
    obtain ⟨_, -, h⟩ := except_bind_ok h
    have hn := notNegative_iff.1 hc
    split at h
    · cases h
      intro x hx
      simp only [Vals.toList, List.mem_map] at hx
      obtain ⟨_, -, rfl⟩ := hx
      exact nn_mul hn (nn_lit (by norm_num))
    · cases h
      intro x hx
      simp only [Vals.toList, List.mem_singleton] at hx
      subst hx
      exact hn
  | @table dt rows t u d hr h0 =>
    unfold RealData.newInterp at h0
    obtain ⟨_, -, h0⟩ := except_bind_ok h0
    obtain ⟨_, -, h0⟩ := except_bind_ok h0
    obtain ⟨_, -, h0⟩ := except_bind_ok h0
    obtain ⟨_, hi, h0⟩ := except_bind_ok h0
    cases h0
    unfold RealData.evaluate at h
    obtain ⟨_, -, h⟩ := except_bind_ok h
    obtain ⟨ws, -, h⟩ := except_bind_ok h
    refine mapRes_nn (fun x y hy => ?_) h
    unfold interpAt at hy
    rw [if_pos rfl] at hy
    exact interpLinear_nn hi (fun r hr' => notNegative_iff.1 (hr r hr')) hy

/-- `real + 1j*imag` has the imaginary part `imag`, and a real part of the sign of `real`. -/
theorem combine_nn {r i : Vals Dbl} {v : CVals Dbl} (h : combineParts r i = .ok v) :
    (AllNN i → ∀ z ∈ v.toList, NN z.im.val) ∧ (AllNN r → ∀ z ∈ v.toList, NN z.re.val) := by
  have h1 : NN (lit 1 : Dbl).val := nn_lit (by norm_num)
  have key : ∀ z ∈ v.toList, ∃ x ∈ r.toList, ∃ y ∈ i.toList, z = cplxOf x y := by
    intro z hz
    cases r <;> cases i <;> simp only [combineParts] at h
    · cases h
      simp only [CVals.toList, List.mem_singleton] at hz
      exact ⟨_, by simp [Vals.toList], _, by simp [Vals.toList], hz⟩
    · cases h
      simp only [CVals.toList, List.mem_map] at hz
      obtain ⟨y, hy, rfl⟩ := hz
      exact ⟨_, by simp [Vals.toList], y, hy, rfl⟩
    · cases h
      simp only [CVals.toList, List.mem_map] at hz
      obtain ⟨x, hx, rfl⟩ := hz
      exact ⟨x, hx, _, by simp [Vals.toList], rfl⟩
    · split at h
      · cases h
        simp only [CVals.toList] at hz
        rw [List.zipWith_eq_zipWith_take_min, ← List.map_uncurry_zip_eq_zipWith] at hz
        obtain ⟨⟨x, y⟩, hxy, rfl⟩ := List.mem_map.1 hz
        obtain ⟨hx, hy⟩ := List.of_mem_zip hxy
        exact ⟨x, List.mem_of_mem_take hx, y, List.mem_of_mem_take hy, rfl⟩
      · cases h
  constructor
  · intro hi z hz
    obtain ⟨x, -, y, hy, rfl⟩ := key z hz
    exact nn_add zn_zero.nn (nn_add (zn_mul zn_zero _).nn (nn_mul h1 (hi y hy)))
  · intro hr z hz
    obtain ⟨x, hx, y, -, rfl⟩ := key z hz
    exact nn_add (hr x hx) (zn_sub (zn_mul zn_zero _) (zn_mul_left zn_zero _)).nn

theorem stored_parts {m : Material Dbl} (hc : m.cplx = none) {r i : RealData Dbl}
    (hr : m.real = some r) (hi : m.imag = some i) {s : Spectrum Dbl} {v : CVals Dbl}
    (h : (m.evalStored s).1 = .ok v) :
    (PassivePart i → ∀ z ∈ v.toList, NN z.im.val) ∧
    (PassivePart r → ∀ z ∈ v.toList, NN z.re.val) := by
  unfold Material.evalStored at h
  rw [hc, hr, hi] at h
  simp only [evalPart] at h
  split at h
  · cases h
  · rename_i x s1 hx
    split at h
    · cases h
    · rename_i y s2 hy
      simp only at h
      obtain ⟨c1, c2⟩ := combine_nn h
      exact ⟨fun hp => c1 (part_nn hp (by rw [hy])), fun hp => c2 (part_nn hp (by rw [hx]))⟩

theorem sq_quadrant {z : Cx Dbl} (h1 : NN z.re.val) (h2 : NN z.im.val) : NN (Cx.sq z).im.val :=
  nn_add (nn_mul h1 h2) (nn_mul h2 h1)

theorem nk_of_stored {m : Material Dbl} (hn : m.name = "nk" ∨ m.name = "eps") {q : Spectrum Dbl}
    {v : CVals Dbl} (h : (m.getNk q).1 = .ok v) : ∃ s w, (m.evalStored s).1 = .ok w ∧
      v = if m.name = "eps" then w.map PyFloat.csqrt else w := by
  unfold Material.getNk Material.nkCore at h
  obtain ⟨s, -, h⟩ := except_bind_ok h
  rw [if_neg (not_not.2 hn)] at h
  obtain ⟨w, h1, h⟩ := except_bind_ok h
  cases h
  exact ⟨s, w, h1, rfl⟩

/-- Materials with parts that are not negative. -/
theorem parts_never_active {m : Material Dbl} (hc : m.cplx = none) {r i : RealData Dbl}
    (hr : m.real = some r) (hi : m.imag = some i) (hi' : PassivePart i)
    (hn : m.name = "eps" ∨ (m.name = "nk" ∧ PassivePart r)) : NeverActive m := by
  intro q
  rcases hn with hn | ⟨hn, hr'⟩
  · constructor
    · intro v h
      rw [getPermittivity_eq m q (.inr hn)] at h
      cases hz : (m.evalStored q).1 with
      | error e => rw [hz] at h; cases h
      | ok w =>
        rw [hz] at h
        simp only [Except.map] at h
        rw [if_neg (by rw [hn]; decide)] at h
        cases h
        exact fun z hz' => notNegative_iff.2 ((stored_parts hc hr hi hz).1 hi' z hz')
    · intro v h
      obtain ⟨s, w, h1, rfl⟩ := nk_of_stored (.inr hn) h
      rw [if_pos hn]
      intro z hz
      rw [CVals.toList_map, List.mem_map] at hz
      obtain ⟨z0, h0, rfl⟩ := hz
      obtain ⟨q1, q2⟩ := csqrt_quadrant ((stored_parts hc hr hi h1).1 hi' z0 h0)
      exact ⟨notNegative_iff.2 q1, notNegative_iff.2 q2⟩
  · constructor
    · intro v h
      rw [getPermittivity_eq m q (.inl hn)] at h
      cases hz : (m.evalStored q).1 with
      | error e => rw [hz] at h; cases h
      | ok w =>
        rw [hz] at h
        simp only [Except.map] at h
        rw [if_pos hn] at h
        cases h
        intro z hz'
        rw [CVals.toList_map, List.mem_map] at hz'
        obtain ⟨z0, h0, rfl⟩ := hz'
        obtain ⟨s1, s2⟩ := stored_parts hc hr hi hz
        exact notNegative_iff.2 (sq_quadrant (s2 hr' z0 h0) (s1 hi' z0 h0))
    · intro v h
      obtain ⟨s, w, h1, rfl⟩ := nk_of_stored (.inl hn) h
      rw [if_neg (by rw [hn]; decide)]
      intro z hz
      obtain ⟨s1, s2⟩ := stored_parts hc hr hi h1
      exact ⟨notNegative_iff.2 (s2 hr' z hz), notNegative_iff.2 (s1 hi' z hz)⟩

/-! ## Mixtures of values -/

theorem zip_elems {f : Cx Dbl → Cx Dbl → Cx Dbl} {a b c : CVals Dbl}
    (h : CVals.zip f a b = .ok c) : ∀ z ∈ c.toList, ∃ x ∈ a.toList, ∃ y ∈ b.toList, z = f x y := by
  intro z hz
  cases a <;> cases b <;> simp only [CVals.zip] at h
  · cases h
    simp only [CVals.toList, List.mem_singleton] at hz
    exact ⟨_, by simp [CVals.toList], _, by simp [CVals.toList], hz⟩
  · cases h
    simp only [CVals.toList, List.mem_map] at hz
    obtain ⟨y, hy, rfl⟩ := hz
    exact ⟨_, by simp [CVals.toList], y, hy, rfl⟩
  · cases h
    simp only [CVals.toList, List.mem_map] at hz
    obtain ⟨x, hx, rfl⟩ := hz
    exact ⟨x, hx, _, by simp [CVals.toList], rfl⟩
  · split at h
    · cases h
      simp only [CVals.toList] at hz
      rw [List.zipWith_eq_zipWith_take_min, ← List.map_uncurry_zip_eq_zipWith] at hz
      obtain ⟨⟨x, y⟩, hxy, rfl⟩ := List.mem_map.1 hz
      obtain ⟨hx, hy⟩ := List.of_mem_zip hxy
      exact ⟨x, List.mem_of_mem_take hx, y, List.mem_of_mem_take hy, rfl⟩
    · cases h

theorem simple_nn {f : Dbl} (h0 : PyFloat.lt f (lit 0) = false) (h1 : PyFloat.lt (lit 1) f = false)
    {a b : Cx Dbl} (ha : NN a.im.val) (hb : NN b.im.val) : NN (simpleMix f a b).im.val :=
  nn_add (nn_add (zn_mul_left zn_zero _).nn (nn_mul ha (sub_nn h1)))
    (nn_add (zn_mul_left zn_zero _).nn (nn_mul hb (notNegative_iff.1 h0)))

theorem le_zero_nn {x : Dbl} (h : PyFloat.le (lit 0) x = true) : NN x.val := by
  refine notNegative_iff.1 ?_
  unfold NotNegative
  by_contra hc
  have hc : PyFloat.lt x (lit 0) = true := by simpa using hc
  have n0 : PyFloat.isNaN (lit 0 : Dbl) = false := by
    by_contra hn
    rw [LawfulCmp.lt_nan_right _ _ (by simpa using hn)] at hc
    cases hc
  have n1 : PyFloat.isNaN x = false := by
    by_contra hn
    rw [LawfulCmp.lt_nan_left _ _ (by simpa using hn)] at hc
    cases hc
  rw [LawfulCmp.le_eq_not_lt _ _ n0 n1, hc] at h
  cases h

theorem brug_nn (f : Dbl) (a b : Cx Dbl) : NN (brugMix f a b).im.val := by
  unfold brugMix
  split
  · rename_i h; exact le_zero_nn h
  · split
    · rename_i h; exact le_zero_nn h
    · exact zn_zero.nn

/-! ## Media -/

theorem tableData_passive {dt : DType} {ps : List (Dbl × Dbl)} {t u : String} {d : RealData Dbl}
    (hp : ∀ p ∈ ps, NotNegative p.2) (h : tableData dt ps t u = .ok d) : PassivePart d := by
  unfold tableData at h
  split at h
  · rename_i x y
    exact .constant (hp (x, y) (List.mem_singleton.2 rfl)) h
  · exact .table hp h

/-- A medium whose mixed permittivities have no gain. -/
theorem medium_never_active {k : Mixing} {s : Spectrum Dbl} (hal : Aligned s)
    {m1 m2 m : Material Dbl} {f : Dbl} (hm : (effectiveMedium k s m1 m2 f).1 = .ok m)
    (hmix : ∀ e1 e2 eps, PyFloat.lt f (lit 0) = false → PyFloat.lt (lit 1) f = false →
      (m1.getPermittivity s).1 = .ok e1 → (m2.getPermittivity s).1 = .ok e2 →
      mixVals k f e1 e2 = .ok eps → NoGain eps) : NeverActive m := by
  have hf : PyFloat.lt f (lit 0) = false ∧ PyFloat.lt (lit 1) f = false := by
    by_contra hc
    unfold effectiveMedium at hm
    rw [if_pos (by
      by_contra h
      apply hc
      simpa using h)] at hm
    cases hm
  rw [(medium_outcome k hal m1 m2 f hf.1 hf.2).1] at hm
  obtain ⟨e1, h1, hm⟩ := except_bind_ok hm
  obtain ⟨e2, h2, hm⟩ := except_bind_ok hm
  obtain ⟨eps, h3, hm⟩ := except_bind_ok hm
  obtain ⟨t, h4, hm⟩ := except_bind_ok hm
  have hg := hmix e1 e2 eps hf.1 hf.2 h1 h2 h3
  unfold mediumTable at h4
  split at h4
  · cases h4
    unfold processTable at hm
    simp only at hm
    rw [if_neg (by decide), if_neg (by decide), if_neg (by decide), if_neg (by decide),
      if_pos trivial] at hm
    have hw : ∀ r ∈ List.zipWith (fun x (z : Cx Dbl) => [x, z.re, z.im]) s.std.toList eps.elems,
        r.length = 3 := by
      intro r hr
      rw [← List.map_uncurry_zip_eq_zipWith] at hr
      obtain ⟨⟨x, z⟩, -, rfl⟩ := List.mem_map.1 hr
      rfl
    rw [specData_eq hw (by norm_num), specData_eq hw (by norm_num)] at hm
    obtain ⟨r, g1, hm⟩ := except_bind_ok hm
    obtain ⟨i, g2, hm⟩ := except_bind_ok hm
    cases hm
    refine parts_never_active (r := r) (i := i) rfl rfl rfl (tableData_passive ?_ g2) (.inl rfl)
    intro p hp
    unfold pairsOf at hp
    obtain ⟨row, hrow, rfl⟩ := List.mem_map.1 hp
    rw [← List.map_uncurry_zip_eq_zipWith] at hrow
    obtain ⟨⟨x, z⟩, hxz, rfl⟩ := List.mem_map.1 hrow
    refine hg z ?_
    have := (List.of_mem_zip hxz).2
    cases eps <;> exact this
  · cases h4

/-! ## C130: tables -/

omit [SciPy Dbl] in
theorem pairs_notNegative {rows : List (List Dbl)} {j : ℕ}
    (h : ∀ r ∈ rows, NotNegative (r.getD j (lit 0))) : ∀ p ∈ pairsOf rows j, NotNegative p.2 := by
  intro p hp
  obtain ⟨r, hr, rfl⟩ := List.mem_map.1 hp
  exact h r hr

theorem cdata_passive {c : Dbl} (h : NotNegative c) : PassivePart (cdata c) :=
  .constant (range := defaultRange) (t := "wavelength") (u := "m") h (by
    unfold RealData.newConstant
    rw [defaultSpec_new]
    rfl)

theorem zero_notNegative : NotNegative (lit 0 : Dbl) := notNegative_iff.2 zn_zero.nn

/-- C130 for the tables: a table whose refractive indices and extinction coefficients (or whose
imaginary parts of the permittivity) are not negative gives a material that never reports gain, in
whatever unit, at however many points, and however the table is ordered. -/
theorem C130_tables [NumText Dbl] (rd : String → Res (FileDict Dbl)) (kw : Kwargs Dbl)
    (hnd : (kw.map Prod.fst).Nodup) (hp : PlainOptions kw) {c : String}
    (hc : (lower (defaultsOf kw).1, lower (defaultsOf kw).2, c) ∈ names)
    (rows : List (List Dbl)) :
    (Only kw "tabulated_n" (.table 2) (.arr (.d2 2 .float rows)) → GoodTable 2 rows →
      (∀ r ∈ rows, NotNegative (r.getD 1 (lit 0))) →
      ∃ m, Material.new rd kw = .ok m ∧ NeverActive m) ∧
    (Only kw "tabulated_nk" (.table 3) (.arr (.d2 3 .float rows)) → GoodTable 3 rows →
      (∀ r ∈ rows, NotNegative (r.getD 1 (lit 0)) ∧ NotNegative (r.getD 2 (lit 0))) →
      ∃ m, Material.new rd kw = .ok m ∧ NeverActive m) ∧
    (Only kw "tabulated_eps" (.table 3) (.arr (.d2 3 .float rows)) → GoodTable 3 rows →
      (∀ r ∈ rows, NotNegative (r.getD 2 (lit 0))) →
      ∃ m, Material.new rd kw = .ok m ∧ NeverActive m) := by
  obtain ⟨h1, h2, h3⟩ := C24_table_partial rd kw hnd hp hc rows
  refine ⟨fun h hg hr => ?_, fun h hg hr => ?_, fun h hg hr => ?_⟩
  · obtain ⟨r, g1, hm⟩ := h1 h hg
    exact ⟨_, hm, parts_never_active rfl rfl rfl (cdata_passive zero_notNegative)
      (.inr ⟨rfl, tableData_passive (pairs_notNegative hr) g1⟩)⟩
  · obtain ⟨r, i, g1, g2, hm⟩ := h2 h hg
    exact ⟨_, hm, parts_never_active rfl rfl rfl
      (tableData_passive (pairs_notNegative fun r h => (hr r h).2) g2)
      (.inr ⟨rfl, tableData_passive (pairs_notNegative fun r h => (hr r h).1) g1⟩)⟩
  · obtain ⟨r, i, g1, g2, hm⟩ := h3 h hg
    exact ⟨_, hm, parts_never_active rfl rfl rfl (tableData_passive (pairs_notNegative hr) g2)
      (.inl rfl)⟩

/-- C130 for the constants. -/
theorem C130_constants [NumText Dbl] (rd : String → Res (FileDict Dbl)) (kw : Kwargs Dbl)
    (hnd : (kw.map Prod.fst).Nodup) (hp : PlainOptions kw) :
    (∀ x, Only kw "fixed_n" .real (.float x) → NotNegative x →
      ∃ m, Material.new rd kw = .ok m ∧ NeverActive m) ∧
    (∀ z, Only kw "fixed_nk" .complex (.cplx z) → NotNegative z.re → NotNegative z.im →
      ∃ m, Material.new rd kw = .ok m ∧ NeverActive m) ∧
    (∀ x, Only kw "fixed_eps_r" .real (.float x) →
      ∃ m, Material.new rd kw = .ok m ∧ NeverActive m) ∧
    (∀ z, Only kw "fixed_eps" .complex (.cplx z) → NotNegative z.im →
      ∃ m, Material.new rd kw = .ok m ∧ NeverActive m) := by
  obtain ⟨h1, h2, h3, h4⟩ := C24_fixed_partial rd kw hnd hp
  have h0 := cdata_passive zero_notNegative
  exact ⟨fun x h hx => ⟨_, h1 x h, parts_never_active rfl rfl rfl h0 (.inr ⟨rfl, cdata_passive hx⟩)⟩,
    fun z h hr hi => ⟨_, h2 z h, parts_never_active rfl rfl rfl (cdata_passive hi)
      (.inr ⟨rfl, cdata_passive hr⟩)⟩,
    fun x h => ⟨_, h3 x h, parts_never_active rfl rfl rfl h0 (.inl rfl)⟩,
    fun z h hi => ⟨_, h4 z h, parts_never_active rfl rfl rfl (cdata_passive hi) (.inl rfl)⟩⟩

/-! ## C131: media -/

/-- C131 (full statement, refuted below): a medium of two materials that report no gain at the
wavelengths of the mixture never reports gain. -/
def C131_statement : Prop :=
  ∀ (k : Mixing) (s : Spectrum Dbl) (m1 m2 m : Material Dbl) (f : Dbl), Aligned s →
    (∀ v, (m1.getPermittivity s).1 = .ok v → NoGain v) →
    (∀ v, (m2.getPermittivity s).1 = .ok v → NoGain v) →
    (effectiveMedium k s m1 m2 f).1 = .ok m → NeverActive m

/-- C131 for the linear mixture. Missing for the full claim: the Maxwell-Garnett formula, for which
it is false. -/
theorem C131_simple_partial (s : Spectrum Dbl) (hal : Aligned s) (m1 m2 m : Material Dbl) (f : Dbl)
    (h1 : ∀ v, (m1.getPermittivity s).1 = .ok v → NoGain v)
    (h2 : ∀ v, (m2.getPermittivity s).1 = .ok v → NoGain v)
    (hm : (effectiveMedium .simple s m1 m2 f).1 = .ok m) : NeverActive m := by
  refine medium_never_active hal hm fun e1 e2 eps f0 f1 g1 g2 hx => ?_
  intro z hz
  obtain ⟨a, ha, b, hb, rfl⟩ := zip_elems hx z hz
  exact notNegative_iff.2 (simple_nn f0 f1 (notNegative_iff.1 (h1 _ g1 a ha))
    (notNegative_iff.1 (h2 _ g2 b hb)))

/-- C131 for the Bruggeman medium, of whatever constituents. -/
theorem C131_bruggeman_partial (s : Spectrum Dbl) (hal : Aligned s) (m1 m2 m : Material Dbl)
    (f : Dbl) (hm : (effectiveMedium .bruggeman s m1 m2 f).1 = .ok m) : NeverActive m := by
  refine medium_never_active hal hm fun e1 e2 eps f0 f1 g1 g2 hx => ?_
  unfold mixVals at hx
  simp only at hx
  obtain ⟨w, hw, hx⟩ := except_bind_ok hx
  cases w with
  | scalar z => cases hx
  | array zs =>
    cases hx
    intro z hz
    obtain ⟨a, ha, b, hb, rfl⟩ := zip_elems hw z hz
    exact notNegative_iff.2 (brug_nn _ _ _)

omit [SciPy Dbl] in
theorem rmul_zn (x : Dbl) {z : Cx Dbl} (h : ZN z.im.val) : ZN (rmul x z).im.val :=
  zn_add (zn_mul_left h _) (zn_mul zn_zero _)

omit [SciPy Dbl] in
theorem abs_nan {a : Dbl} (h : (Dbl.abs a).val = .nan) : a.val = .nan := by
  rw [← rnd_val a] at h
  cases ha : a.val with
  | fin x =>
    have hd : IsDouble |x| := by
      have hx := isDouble_val ha
      obtain ⟨m, e, hm, h1, h2, rfl⟩ := hx
      refine ⟨|m|, e, by rwa [abs_abs], h1, h2, ?_⟩
      rw [abs_mul, abs_of_pos (two_zpow_pos e)]
      push_cast
      rfl
    rw [rnd_val] at h
    have : (Dbl.abs a).val = .fin |x| := by
      unfold Dbl.abs
      rw [ha]
      exact rnd_double hd
    rw [this] at h
    cases h
  | nan => rfl
  | pinf =>
    rw [rnd_val] at h
    unfold Dbl.abs at h
    rw [ha] at h
    cases h
  | ninf =>
    rw [rnd_val] at h
    unfold Dbl.abs at h
    rw [ha] at h
    cases h

omit [SciPy Dbl] in
/-- A quotient of numbers without imaginary part has none. -/
theorem zn_cdiv {a b : Cx Dbl} (ha : ZN a.im.val) (hb : ZN b.im.val) : ZN (a / b).im.val := by
  show ZN (cdiv a b).im.val
  unfold cdiv
  split
  · split
    · rename_i hz
      rw [Bool.and_eq_true] at hz
      refine rnd_zn ?_
      show ZN (XR.div a.im.val (Dbl.abs b.re).val)
      have hn := nn_abs b.re
      generalize (Dbl.abs b.re).val = v at hn
      cases h1 : a.im.val with
      | fin x =>
        rw [h1] at ha
        replace ha : x = 0 := ha
        rw [ha]
        cases v with
        | fin y =>
          by_cases hy : y = 0
          · rw [hy]; simp [XR.div, XR.signInf, ZN]
          · simp [XR.div, hy, ZN]
        | _ => simp [ZN, XR.div]
      | nan => cases v <;> trivial
      | pinf => rw [h1] at ha; exact ha.elim
      | ninf => rw [h1] at ha; exact ha.elim
    have hrat : ZN (b.im / b.re).val := by
      refine rnd_zn ?_
      show ZN (XR.div b.im.val b.re.val)
      cases h1 : b.im.val with
      | fin x =>
        rw [h1] at hb
        replace hb : x = 0 := hb
        rw [hb]
        cases h2 : b.re.val with
        | fin y =>
          by_cases hy : y = 0
          · rw [hy]; simp [XR.div, XR.signInf, ZN]
          · simp [XR.div, hy, ZN]
        | _ => simp [ZN, XR.div]
      | nan => cases h2 : b.re.val <;> trivial
      | pinf => rw [h1] at hb; exact hb.elim
      | ninf => rw [h1] at hb; exact hb.elim
    exact zn_mul (zn_sub ha (zn_mul_left hrat _)) _
  · rename_i hle
    have hn : (b.re / b.im).val = .nan := by
      have hor : b.im.val = .nan ∨ b.re.val = .nan := by
        by_contra hc
        rw [not_or] at hc
        apply hle
        have z1 : ZN (Dbl.abs b.im).val := by
          refine rnd_zn ?_
          show ZN (XR.abs b.im.val)
          cases h1 : b.im.val <;> rw [h1] at hb <;> simp_all [ZN, XR.abs]
        have z2 := nn_abs b.re
        have n1 : (Dbl.abs b.im).val ≠ .nan := fun h => hc.1 (abs_nan h)
        have n2 : (Dbl.abs b.re).val ≠ .nan := fun h => hc.2 (abs_nan h)
        show XR.le (Dbl.abs b.im).val (Dbl.abs b.re).val = true
        change NN (Dbl.abs b.re).val at z2
        cases h1 : (Dbl.abs b.im).val with
        | fin x =>
          rw [h1] at z1
          replace z1 : x = 0 := z1
          subst z1
          cases h2 : (Dbl.abs b.re).val with
          | fin y =>
            rw [h2] at z2
            replace z2 : 0 ≤ y := z2
            simp [XR.le, XR.isNaN, XR.lt, z2]
          | pinf => rfl
          | ninf => rw [h2] at z2; exact z2.elim
          | nan => exact absurd h2 n2
        | pinf => rw [h1] at z1; exact z1.elim
        | ninf => rw [h1] at z1; exact z1.elim
        | nan => exact absurd h1 n1
      show (rnd (XR.div b.re.val b.im.val)).val = _
      have : XR.div b.re.val b.im.val = .nan := by
        rcases hor with h | h
        · rw [h]; cases b.re.val <;> rfl
        · rw [h]; cases b.im.val <;> rfl
      rw [this]
      rfl
    have hz : ZN (b.re / b.im).val := by rw [hn]; trivial
    have hm : (a.im * (b.re / b.im)).val = .nan := by
      show (rnd (XR.mul a.im.val (b.re / b.im).val)).val = _
      rw [hn]
      have : XR.mul a.im.val .nan = .nan := by cases a.im.val <;> rfl
      rw [this]
      rfl
    have hs : (a.im * (b.re / b.im) - a.re).val = .nan := by
      show (rnd ((a.im * (b.re / b.im)).val - a.re.val)).val = _
      rw [hm]
      have : XR.nan - a.re.val = .nan := by cases a.re.val <;> rfl
      rw [this]
      rfl
    refine zn_mul ?_ _
    rw [hs]
    trivial

namespace Spec

/-- Neither loss nor gain. -/
def Lossless (v : CVals Dbl) : Prop :=
  ∀ z ∈ v.toList, NotNegative z.im ∧ PyFloat.lt (lit 0) z.im = false

end Spec

omit [SciPy Dbl] in
theorem lossless_zn {x : Dbl} (h1 : NotNegative x) (h2 : PyFloat.lt (lit 0) x = false) :
    ZN x.val := by
  have h1 := notNegative_iff.1 h1
  have hz : (lit 0 : Dbl).val = .fin 0 := by
    have := rnd_double (double_int (n := 0) (by norm_num))
    rw [val_lit]
    push_cast at this ⊢
    exact this
  change PyFloat.lt (lit 0 : Dbl).val x.val = false at h2
  rw [hz] at h2
  cases hx : x.val with
  | fin y =>
    rw [hx] at h1 h2
    replace h1 : 0 ≤ y := h1
    rw [XR.lt_fin] at h2
    have h2 : y ≤ 0 := by simpa using h2
    exact le_antisymm h2 h1
  | nan => trivial
  | pinf => rw [hx] at h2; cases h2
  | ninf => rw [hx] at h1; exact h1.elim

/-- C131 for the Maxwell-Garnett medium of two materials without loss. Missing for the full claim:
constituents with loss, for which it is false. -/
theorem C131_lossless_partial (s : Spectrum Dbl) (hal : Aligned s) (m1 m2 m : Material Dbl)
    (f : Dbl) (h1 : ∀ v, (m1.getPermittivity s).1 = .ok v → Lossless v)
    (h2 : ∀ v, (m2.getPermittivity s).1 = .ok v → Lossless v)
    (hm : (effectiveMedium .maxwellGarnett s m1 m2 f).1 = .ok m) : NeverActive m := by
  refine medium_never_active hal hm fun e1 e2 eps f0 f1 g1 g2 hx => ?_
  unfold mixVals at hx
  simp only at hx
  obtain ⟨w, hw, hx⟩ := except_bind_ok hx
  split at hx
  · intro z hz
    obtain ⟨a, ha, b, hb, rfl⟩ := zip_elems hx z hz
    have za := lossless_zn (h1 _ g1 a ha).1 (h1 _ g1 a ha).2
    have zb := lossless_zn (h2 _ g2 b hb).1 (h2 _ g2 b hb).2
    refine notNegative_iff.2 (ZN.nn ?_)
    have hu : ZN (mgUp f a b).im.val := zn_add (rmul_zn _ za) (rmul_zn _ zb)
    have hd : ZN (mgDown f a b).im.val := zn_add (rmul_zn _ za) (rmul_zn _ zb)
    exact zn_cdiv (a := a * mgUp f a b) (zn_add (zn_mul_left hu _) (zn_mul za _)) hd
  · cases hx

/-! ## A medium with gain -/

omit [SciPy Dbl] in
theorem add_is {a b : Dbl} {x y z : ℝ} (ha : a.val = .fin x) (hb : b.val = .fin y)
    (h : nearest (x + y) = z) (hz : |z| < 2 ^ 1024) : (a + b).val = .fin z := by
  show (rnd (a.val + b.val)).val = _
  rw [ha, hb]
  subst h
  exact rnd_fin hz

omit [SciPy Dbl] in
theorem sub_is {a b : Dbl} {x y z : ℝ} (ha : a.val = .fin x) (hb : b.val = .fin y)
    (h : nearest (x - y) = z) (hz : |z| < 2 ^ 1024) : (a - b).val = .fin z := by
  show (rnd (a.val - b.val)).val = _
  rw [ha, hb]
  subst h
  rw [sub_eq_add_neg] at hz ⊢
  exact rnd_fin hz

omit [SciPy Dbl] in
theorem mul_is {a b : Dbl} {x y z : ℝ} (ha : a.val = .fin x) (hb : b.val = .fin y)
    (h : nearest (x * y) = z) (hz : |z| < 2 ^ 1024) : (a * b).val = .fin z := by
  show (rnd (a.val * b.val)).val = _
  rw [ha, hb]
  subst h
  exact rnd_fin hz

omit [SciPy Dbl] in
theorem div_is {a b : Dbl} {x y z : ℝ} (ha : a.val = .fin x) (hb : b.val = .fin y) (hy : y ≠ 0)
    (h : nearest (x / y) = z) (hz : |z| < 2 ^ 1024) : (a / b).val = .fin z := by
  show (rnd (XR.div a.val b.val)).val = _
  rw [ha, hb]
  subst h
  simp only [XR.div, if_neg hy]
  exact rnd_fin hz

omit [SciPy Dbl] in
theorem small_int {n : ℤ} (h : |n| ≤ 2 ^ 53) : nearest (n : ℝ) = n ∧ |(n : ℝ)| < 2 ^ 1024 :=
  ⟨nearest_of_double (double_int h), double_lt (double_int h)⟩

omit [SciPy Dbl] in
theorem add_int {a b : Dbl} {m n k : ℤ} (ha : a.val = .fin m) (hb : b.val = .fin n)
    (h : m + n = k) (hk : |k| ≤ 2 ^ 53) : (a + b).val = .fin k :=
  add_is ha hb (by rw [← (small_int hk).1, ← h]; push_cast; rfl) (small_int hk).2

omit [SciPy Dbl] in
theorem sub_int {a b : Dbl} {m n k : ℤ} (ha : a.val = .fin m) (hb : b.val = .fin n)
    (h : m - n = k) (hk : |k| ≤ 2 ^ 53) : (a - b).val = .fin k :=
  sub_is ha hb (by rw [← (small_int hk).1, ← h]; push_cast; rfl) (small_int hk).2

omit [SciPy Dbl] in
theorem mul_int {a b : Dbl} {m n k : ℤ} (ha : a.val = .fin m) (hb : b.val = .fin n)
    (h : m * n = k) (hk : |k| ≤ 2 ^ 53) : (a * b).val = .fin k :=
  mul_is ha hb (by rw [← (small_int hk).1, ← h]; push_cast; rfl) (small_int hk).2

omit [SciPy Dbl] in
theorem lit_val {q : ℚ} {n : ℤ} (h : q = n) (hn : |n| ≤ 2 ^ 53) : (lit q : Dbl).val = .fin n := by
  subst h
  have := rnd_double (double_int hn)
  rw [val_lit]
  push_cast at this ⊢
  exact this

/-- A complex number of integers. -/
structure IntCx (z : Cx Dbl) (m n : ℤ) : Prop where
  re : z.re.val = .fin m
  im : z.im.val = .fin n

omit [SciPy Dbl] in
theorem IntCx.add {z w : Cx Dbl} {a b c d k l : ℤ} (hz : IntCx z a b) (hw : IntCx w c d)
    (h1 : a + c = k) (h2 : b + d = l) (hk : |k| ≤ 2 ^ 53) (hl : |l| ≤ 2 ^ 53) :
    IntCx (z + w) k l :=
  ⟨add_int hz.re hw.re h1 hk, add_int hz.im hw.im h2 hl⟩

omit [SciPy Dbl] in
theorem IntCx.mul {z w : Cx Dbl} {a b c d : ℤ} (hz : IntCx z a b) (hw : IntCx w c d)
    (h1 : |a * c| ≤ 2 ^ 53) (h2 : |b * d| ≤ 2 ^ 53) (h3 : |a * d| ≤ 2 ^ 53)
    (h4 : |b * c| ≤ 2 ^ 53) {k l : ℤ} (hk : a * c - b * d = k) (hl : a * d + b * c = l)
    (hk' : |k| ≤ 2 ^ 53) (hl' : |l| ≤ 2 ^ 53) : IntCx (z * w) k l :=
  ⟨sub_int (mul_int hz.re hw.re rfl h1) (mul_int hz.im hw.im rfl h2) hk hk',
   add_int (mul_int hz.re hw.im rfl h3) (mul_int hz.im hw.re rfl h4) hl hl'⟩

omit [SciPy Dbl] in
theorem IntCx.real {x : Dbl} {n : ℤ} (h : x.val = .fin n) : IntCx (Cx.ofReal x) n 0 :=
  ⟨h, lit_val (by norm_num) (by norm_num)⟩

omit [SciPy Dbl] in
theorem cplx_int {x y : Dbl} {m n : ℤ} (hx : x.val = .fin m) (hy : y.val = .fin n)
    (hm : |m| ≤ 2 ^ 53) (hn : |n| ≤ 2 ^ 53) : IntCx (cplxOf x y) m n := by
  have hI : IntCx (Cx.I : Cx Dbl) 0 1 :=
    ⟨lit_val (by norm_num) (by norm_num), lit_val (by norm_num) (by norm_num)⟩
  refine (IntCx.real hx).add (hI.mul (IntCx.real hy) (k := 0) (l := n) (by simp) (by simp) (by simp)
    (by simpa using hn) (by simp) (by simp) (by simp) hn) (by simp) (by simp) hm hn

omit [SciPy Dbl] in
/-- Inclusions of permittivity 3 in a host of permittivity `12 + 7j`: with nothing but inclusions
the Maxwell-Garnett formula gives an imaginary part of -1.5e-16. -/
theorem mg_gain {e1 e2 : Cx Dbl} {q : Dbl} (hq : q.val = .fin (1 : ℤ))
    (h1 : IntCx e1 12 7) (h2 : IntCx e2 3 0) :
    (mgMix q e1 e2).im.val = .fin (-(5973686552367083 * 2 ^ (-105 : ℤ))) := by
  have l1 : (lit 1 : Dbl).val = .fin (1 : ℤ) := lit_val (by norm_num) (by norm_num)
  have l2 : (lit 2 : Dbl).val = .fin (2 : ℤ) := lit_val (by norm_num) (by norm_num)
  have c0 : (lit 1 - q).val = .fin (0 : ℤ) := sub_int l1 hq (by norm_num) (by norm_num)
  have c1 : (lit 2 * (lit 1 - q)).val = .fin (0 : ℤ) := mul_int l2 c0 (by norm_num) (by norm_num)
  have c2 : (lit 1 + lit 2 * q).val = .fin (3 : ℤ) :=
    add_int l1 (mul_int (k := 2) l2 hq (by norm_num) (by norm_num)) (by norm_num) (by norm_num)
  have c3 : (lit 2 + q).val = .fin (3 : ℤ) := add_int l2 hq (by norm_num) (by norm_num)
  have u : IntCx (mgUp q e1 e2) 9 0 :=
    ((IntCx.real c1).mul h1 (k := 0) (l := 0) (by norm_num) (by norm_num) (by norm_num)
      (by norm_num) (by norm_num) (by norm_num) (by norm_num) (by norm_num)).add
    ((IntCx.real c2).mul h2 (k := 9) (l := 0) (by norm_num) (by norm_num) (by norm_num)
      (by norm_num) (by norm_num) (by norm_num) (by norm_num) (by norm_num))
      (by norm_num) (by norm_num) (by norm_num) (by norm_num)
  have d : IntCx (mgDown q e1 e2) 36 21 :=
    ((IntCx.real c3).mul h1 (k := 36) (l := 21) (by norm_num) (by norm_num) (by norm_num)
      (by norm_num) (by norm_num) (by norm_num) (by norm_num) (by norm_num)).add
    ((IntCx.real c0).mul h2 (k := 0) (l := 0) (by norm_num) (by norm_num) (by norm_num)
      (by norm_num) (by norm_num) (by norm_num) (by norm_num) (by norm_num))
      (by norm_num) (by norm_num) (by norm_num) (by norm_num)
  have n : IntCx (e1 * mgUp q e1 e2) 108 63 :=
    h1.mul u (by norm_num) (by norm_num) (by norm_num)
      (by norm_num) (by norm_num) (by norm_num) (by norm_num) (by norm_num)
  unfold mgMix
  show (cdiv _ _).im.val = _
  generalize e1 * mgUp q e1 e2 = N at n
  generalize mgDown q e1 e2 = D at d
  have big : (2 : ℝ) ^ 10 < 2 ^ 1024 := by
    exact_mod_cast (by decide +kernel : (2 : ℕ) ^ 10 < 2 ^ 1024)
  have bd : ∀ z : ℝ, |z| ≤ 2 ^ 10 → |z| < 2 ^ 1024 := fun z h => h.trans_lt big
  have a1 : (Dbl.abs D.im).val = .fin 21 := by
    unfold Dbl.abs
    rw [d.im]
    show (rnd (.fin |((21 : ℤ) : ℝ)|)).val = _
    have := rnd_double (double_int (n := 21) (by norm_num))
    push_cast at this ⊢
    rwa [abs_of_pos (by norm_num)]
  have a2 : (Dbl.abs D.re).val = .fin 36 := by
    unfold Dbl.abs
    rw [d.re]
    show (rnd (.fin |((36 : ℤ) : ℝ)|)).val = _
    have := rnd_double (double_int (n := 36) (by norm_num))
    push_cast at this ⊢
    rwa [abs_of_pos (by norm_num)]
  have hle : Dbl.le (Dbl.abs D.im) (Dbl.abs D.re) = true := by
    show PyFloat.le (Dbl.abs D.im).val (Dbl.abs D.re).val = true
    rw [a1, a2, XR.le_fin]
    norm_num
  unfold cdiv
  rw [if_pos hle, if_neg (Dbl.not_both_zero d.re d.im (Or.inl (by norm_num)))]
  simp only
  have r1 : (D.im / D.re).val = .fin (5254199565265579 * 2 ^ (-53 : ℤ)) := by
    refine div_is d.im d.re (by norm_num) ?_ (bd _ ?_)
    · have h := nearest_eq (x := ((21 : ℤ) : ℝ) / ((36 : ℤ) : ℝ)) 5254199565265579 (-53)
        (by norm_num) (by norm_num) (by norm_num) (by rw [abs_lt]; constructor <;> norm_num)
      rw [h]; norm_num
    · rw [abs_of_pos (by positivity)]; norm_num
  have r2 : (D.im * (D.im / D.re)).val = .fin (6896136929411072 * 2 ^ (-49 : ℤ)) := by
    refine mul_is d.im r1 ?_ (bd _ ?_)
    · have h := nearest_eq (x := ((21 : ℤ) : ℝ) * (5254199565265579 * 2 ^ (-53 : ℤ)))
        6896136929411072 (-49) (by norm_num) (by norm_num) (by norm_num)
        (by rw [abs_lt]; constructor <;> norm_num)
      rw [h]; norm_num
    · rw [abs_of_pos (by positivity)]; norm_num
  have r3 : (D.re + D.im * (D.im / D.re)).val = .fin (6790583813144576 * 2 ^ (-47 : ℤ)) := by
    refine add_is d.re r2 ?_ (bd _ ?_)
    · have h := nearest_eq (x := ((36 : ℤ) : ℝ) + 6896136929411072 * 2 ^ (-49 : ℤ))
        6790583813144576 (-47) (by norm_num) (by norm_num) (by norm_num)
        (by rw [abs_lt]; constructor <;> norm_num)
      rw [h]; norm_num
    · rw [abs_of_pos (by positivity)]; norm_num
  have r4 : (ofRat 1 / (D.re + D.im * (D.im / D.re))).val =
      .fin (5973686552367083 * 2 ^ (-58 : ℤ)) := by
    refine div_is (a := ofRat 1) l1 r3
      (by positivity : (0 : ℝ) < 6790583813144576 * 2 ^ (-47 : ℤ)).ne' ?_ (bd _ ?_)
    · have h := nearest_eq (x := ((1 : ℤ) : ℝ) / (6790583813144576 * 2 ^ (-47 : ℤ)))
        5973686552367083 (-58) (by norm_num) (by norm_num) (by norm_num)
        (by rw [abs_lt]; constructor <;> norm_num)
      rw [h]; norm_num
    · rw [abs_of_pos (by positivity)]; norm_num
  have r5 : (N.re * (D.im / D.re)).val = .fin (8866461766385665 * 2 ^ (-47 : ℤ)) := by
    refine mul_is n.re r1 ?_ (bd _ ?_)
    · have h := nearest_eq (x := ((108 : ℤ) : ℝ) * (5254199565265579 * 2 ^ (-53 : ℤ)))
        8866461766385665 (-47) (by norm_num) (by norm_num) (by norm_num)
        (by rw [abs_lt]; constructor <;> norm_num)
      rw [h]; norm_num
    · rw [abs_of_pos (by positivity)]; norm_num
  have r6 : (N.im - N.re * (D.im / D.re)).val = .fin (-2 ^ (-47 : ℤ)) := by
    refine sub_is n.im r5 ?_ (bd _ ?_)
    · rw [show ((63 : ℤ) : ℝ) - 8866461766385665 * 2 ^ (-47 : ℤ) = -2 ^ (-47 : ℤ) by norm_num]
      exact nearest_of_double ⟨-1, -47, by norm_num, by norm_num, by norm_num, by norm_num⟩
    · rw [abs_neg, abs_of_pos (by positivity)]; norm_num
  refine mul_is r6 r4 ?_ (bd _ ?_)
  · rw [neg_mul, nearest_neg]
    have h := nearest_eq (x := (2 : ℝ) ^ (-47 : ℤ) * (5973686552367083 * 2 ^ (-58 : ℤ)))
      5973686552367083 (-105) (by norm_num) (by norm_num) (by norm_num)
      (by rw [abs_lt]; constructor <;> norm_num)
    rw [h]; norm_num
  · rw [abs_neg, abs_of_pos (by positivity)]; norm_num

/-- One wavelength of one metre. -/
def oneMetre : Spectrum Dbl :=
  { values := .array .float [lit 1], stype := "wavelength", unit := "m", std := .array .float [lit 1] }

omit [SciPy Dbl] in
theorem oneMetre_new : Spectrum.new (.list .float [lit 1]) "wavelength" "m" = .ok oneMetre := by
  have hl : lower "wavelength" = "wavelength" := by decide +kernel
  rw [new_list (c := "m") (by decide +kernel), hl]
  simp [oneMetre, fromElem]

omit [SciPy Dbl] in
theorem oneMetre_convert : oneMetre.convertTo "wavelength" "m" = .ok (.array .float [lit 1]) := by
  have hl : lower "wavelength" = "wavelength" := by decide +kernel
  rw [Spectrum.convertTo_eq, hl, show specLookup "wavelength" "m" = .ok "m" by decide +kernel]
  simp only [oneMetre]
  rw [convertVals_array (by decide +kernel)]
  simp [toElem]

omit [SciPy Dbl] in
theorem oneMetre_aligned : Aligned oneMetre := .inr ⟨_, _, rfl, rfl, rfl⟩

omit [SciPy Dbl] in
theorem one_nn : NN (lit 1 : Dbl).val := nn_lit (by norm_num)

theorem cdata_oneMetre (c : Dbl) :
    (cdata c).evaluate oneMetre = (.ok (.array .float [c]), oneMetre) := by
  have h := all_inside (r := (defaultSpec : Spectrum Dbl)) rfl (s := oneMetre) oneMetre_convert
    (by simp) (fun x hx => by
      simp only [Vals.toList, List.mem_singleton] at hx
      subst hx
      exact one_nn)
  unfold cdata RealData.evaluate
  rw [h]
  simp only [bind, Except.bind, oneMetre, List.map_cons, List.map_nil, LawfulOne.mul_one]

/-- Materials of fixed permittivity and their values at one metre. -/
theorem fixed_oneMetre [NumText Dbl] (rd : String → Res (FileDict Dbl)) (z : Cx Dbl) :
    ∃ m : Material Dbl, Material.new rd [("fixed_eps", .cplx z)] = .ok m ∧
      (m.getPermittivity oneMetre).1 = .ok (.array [cplxOf z.re z.im]) := by
  obtain ⟨h1, h2⟩ := only_single (F := Dbl) (n := "fixed_eps") (t := .complex) (by decide)
    (v := .cplx z) (by simp)
  have hp := plain_single (F := Dbl) (n := "fixed_eps") (v := .cplx z) (by decide) (by decide)
  obtain ⟨-, -, -, h⟩ := C24_fixed_partial rd _ h1 hp
  refine ⟨_, h z h2, ?_⟩
  rw [getPermittivity_eq _ _ (.inr rfl)]
  unfold Material.evalStored
  simp only [evalPart, cdata_oneMetre]
  rfl

/-- A medium tabulated at one metre. -/
theorem medium_oneMetre (k : Mixing) {m1 m2 : Material Dbl} {e1 e2 z : Cx Dbl} {f : Dbl}
    (h0 : PyFloat.lt f (lit 0) = false) (h1 : PyFloat.lt (lit 1) f = false)
    (he1 : (m1.getPermittivity oneMetre).1 = .ok (.array [e1]))
    (he2 : (m2.getPermittivity oneMetre).1 = .ok (.array [e2]))
    (hmix : mixVals k f (.array [e1]) (.array [e2]) = .ok (.array [z])) :
    ∃ m, (effectiveMedium k oneMetre m1 m2 f).1 = .ok m ∧
      (m.getPermittivity oneMetre).1 = .ok (.array [cplxOf z.re z.im]) := by
  have hr : Spectrum.new (.list .float [lit 1, lit 1]) "wavelength" "m" = .ok
      (⟨.array .float [lit 1, lit 1], "wavelength", "m", .array .float [lit 1, lit 1]⟩ : Spectrum Dbl) := by
    have hl : lower "wavelength" = "wavelength" := by decide +kernel
    rw [new_list (c := "m") (by decide +kernel), hl]
    simp [fromElem]
  have hin : (⟨.array .float [lit 1, lit 1], "wavelength", "m",
      .array .float [lit 1, lit 1]⟩ : Spectrum Dbl).contains oneMetre = .ok true := by
    unfold Spectrum.contains
    have n1 : PyFloat.isNaN (lit 1 : Dbl) = false := by
      have : (lit 1 : Dbl).val = .fin (1 : ℤ) := lit_val (by norm_num) (by norm_num)
      show PyFloat.isNaN (lit 1 : Dbl).val = false
      rw [this]; rfl
    simp only [oneMetre_convert, bind, Except.bind, npMin, npMax, Vals.toList, npMinList, npMaxList,
      List.foldl, n1]
    have hi : PyFloat.lt (lit 1 : Dbl) (lit 1) = false := LawfulCmp.lt_irrefl _
    simp [hi]
  have hev : ∀ c : Dbl, (RealData.constant c (⟨.array .float [lit 1, lit 1], "wavelength", "m",
      .array .float [lit 1, lit 1]⟩ : Spectrum Dbl) "wavelength" "m").evaluate oneMetre =
      (.ok (.array .float [c]), oneMetre) := by
    intro c
    unfold RealData.evaluate
    rw [hin]
    simp only [bind, Except.bind, oneMetre, List.map_cons, List.map_nil, LawfulOne.mul_one]
  refine ⟨{ blankMedium with
             name := "eps"
             real := some (.constant z.re ⟨.array .float [lit 1, lit 1], "wavelength", "m",
               .array .float [lit 1, lit 1]⟩ "wavelength" "m")
             imag := some (.constant z.im ⟨.array .float [lit 1, lit 1], "wavelength", "m",
               .array .float [lit 1, lit 1]⟩ "wavelength" "m") }, ?_, ?_⟩
  · rw [(medium_outcome k oneMetre_aligned m1 m2 f h0 h1).1, he1, he2]
    simp only [bind, Except.bind, hmix]
    simp only [mediumTable, oneMetre, Vals.toList, CVals.elems, List.length_cons, List.length_nil,
      if_true, List.zipWith]
    unfold processTable
    simp only
    rw [if_neg (by decide), if_neg (by decide), if_neg (by decide), if_neg (by decide),
      if_pos trivial]
    rw [specData_eq (by simp) (by norm_num), specData_eq (by simp) (by norm_num)]
    simp only [pairsOf, rowX, List.map_cons, List.map_nil, tableData, RealData.newConstant,
      List.getD_cons_zero, List.getD_cons_succ]
    have hd : ((Dataset.get ([] : Dataset Dbl) "SpectrumType").nonEmptyStr).getD
        (blankMedium : Material Dbl).defType = "wavelength" := rfl
    have hu : ((Dataset.get ([] : Dataset Dbl) "Unit").nonEmptyStr).getD
        (blankMedium : Material Dbl).defUnit = "m" := rfl
    simp only [hd, hu, bind, Except.bind, hr]
    rfl
  · rw [getPermittivity_eq _ _ (.inr rfl)]
    unfold Material.evalStored
    simp only [blankMedium, evalPart, hev]
    rfl

/-- The numbers of the cases below. -/
def host : Cx Dbl := ⟨intDbl 12, intDbl 7⟩
def guest : Cx Dbl := ⟨intDbl 3, intDbl 0⟩

omit [SciPy Dbl] in
theorem host_int : IntCx (cplxOf host.re host.im) 12 7 :=
  cplx_int (intDbl_val (by norm_num)) (intDbl_val (by norm_num)) (by norm_num) (by norm_num)

omit [SciPy Dbl] in
theorem guest_int : IntCx (cplxOf guest.re guest.im) 3 0 :=
  cplx_int (intDbl_val (by norm_num)) (intDbl_val (by norm_num)) (by norm_num) (by norm_num)

omit [SciPy Dbl] in
theorem IntCx.noGain {z : Cx Dbl} {m n : ℤ} (h : IntCx z m n) (hn : 0 ≤ n) :
    NoGain (.array [z]) := by
  intro w hw
  simp only [CVals.toList, List.mem_singleton] at hw
  subst hw
  refine notNegative_iff.2 ?_
  rw [h.im]
  show (0 : ℝ) ≤ n
  exact_mod_cast hn

omit [SciPy Dbl] in
theorem one_fraction : PyFloat.lt (lit 1 : Dbl) (lit 0) = false ∧
    PyFloat.lt (lit 1 : Dbl) (lit 1) = false :=
  ⟨notNegative_iff.2 one_nn, LawfulCmp.lt_irrefl _⟩

omit [SciPy Dbl] in
theorem cplxOf_im (x : Dbl) {y : Dbl} {r : ℝ} (h : y.val = .fin r) :
    (cplxOf x y).im.val = .fin r := by
  have l0 : (lit 0 : Dbl).val = .fin (0 : ℤ) := lit_val (by norm_num) (by norm_num)
  have l1 : (lit 1 : Dbl).val = .fin (1 : ℤ) := lit_val (by norm_num) (by norm_num)
  have hr := isDouble_val h
  have m0 : (lit 0 * lit 0 : Dbl).val = .fin (0 : ℤ) := mul_int l0 l0 (by norm_num) (by norm_num)
  have m1 : (lit 1 * y : Dbl).val = .fin r := mul_is l1 h
    (by rw [Int.cast_one, one_mul]; exact nearest_of_double hr) (double_lt hr)
  exact add_is l0 (add_is m0 m1 (by rw [Int.cast_zero, zero_add]; exact nearest_of_double hr)
    (double_lt hr)) (by rw [Int.cast_zero, zero_add]; exact nearest_of_double hr) (double_lt hr)

/-- C131 is false: inclusions of permittivity 3 that fill the whole of a host of permittivity
`12 + 7j` give a medium whose permittivity has the imaginary part -1.5e-16. -/
theorem C131_refuted [NumText Dbl] : ¬ C131_statement := by
  intro h
  let rd : String → Res (FileDict Dbl) := fun _ => .error .os
  obtain ⟨m1, -, p1⟩ := fixed_oneMetre rd host
  obtain ⟨m2, -, p2⟩ := fixed_oneMetre rd guest
  have l1 : (lit 1 : Dbl).val = .fin (1 : ℤ) := lit_val (by norm_num) (by norm_num)
  have hg := mg_gain l1 host_int guest_int
  set e1 := cplxOf host.re host.im with he1
  set e2 := cplxOf guest.re guest.im with he2
  have hmix : mixVals .maxwellGarnett (lit 1) (.array [e1]) (.array [e2]) =
      .ok (.array [mgMix (lit 1) e1 e2]) := by
    have hd : absTrue (mgDown (lit 1) e1 e2) = true := by
      have c0 : (lit 1 - lit 1 : Dbl).val = .fin (0 : ℤ) := sub_int l1 l1 (by norm_num) (by norm_num)
      have c3 : (lit 2 + lit 1 : Dbl).val = .fin (3 : ℤ) :=
        add_int (m := 2) (lit_val (by norm_num) (by norm_num)) l1 (by norm_num) (by norm_num)
      have d : IntCx (mgDown (lit 1) e1 e2) 36 21 :=
        ((IntCx.real c3).mul host_int (k := 36) (l := 21) (by norm_num) (by norm_num) (by norm_num)
          (by norm_num) (by norm_num) (by norm_num) (by norm_num) (by norm_num)).add
        ((IntCx.real c0).mul guest_int (k := 0) (l := 0) (by norm_num) (by norm_num) (by norm_num)
          (by norm_num) (by norm_num) (by norm_num) (by norm_num) (by norm_num))
          (by norm_num) (by norm_num) (by norm_num) (by norm_num)
      have l0 : (lit 0 : Dbl).val = .fin (0 : ℤ) := lit_val (by norm_num) (by norm_num)
      have hq : PyFloat.eq (mgDown (lit 1) e1 e2).re (lit 0) = false := by
        show XR.eq (mgDown (lit 1) e1 e2).re.val (lit 0 : Dbl).val = false
        rw [d.re, l0]
        simp [XR.eq, XR.le, XR.isNaN, XR.lt]
      unfold absTrue
      rw [hq]
      rfl
    simp only [mixVals, CVals.zip, List.length_cons, List.length_nil, if_true, bind, Except.bind,
      CVals.elems, List.zipWith, List.any, hd, Bool.true_or]
  obtain ⟨m, hm, hv⟩ := medium_oneMetre .maxwellGarnett one_fraction.1 one_fraction.2 p1 p2 hmix
  have hna := h .maxwellGarnett oneMetre m1 m2 m (lit 1) oneMetre_aligned
    (fun v hv => by rw [p1] at hv; cases hv; exact host_int.noGain (by norm_num))
    (fun v hv => by rw [p2] at hv; cases hv; exact guest_int.noGain (by norm_num)) hm
  have := (hna oneMetre).1 _ hv _ (List.mem_singleton.2 rfl)
  have := notNegative_iff.1 this
  rw [cplxOf_im _ hg] at this
  change (0 : ℝ) ≤ -(5973686552367083 * (2 : ℝ) ^ (-105 : ℤ)) at this
  have : (0 : ℝ) < 5973686552367083 * (2 : ℝ) ^ (-105 : ℤ) := by positivity
  linarith

/-- Beside `C131_simple_partial` and `C131_bruggeman_partial`: the same constituents make a linear
mixture and a Bruggeman medium. -/
example [NumText Dbl] (rd : String → Res (FileDict Dbl)) : ∃ m1 m2 a b : Material Dbl,
    Material.new rd [("fixed_eps", .cplx host)] = .ok m1 ∧
    Material.new rd [("fixed_eps", .cplx guest)] = .ok m2 ∧
    (effectiveMedium .simple oneMetre m1 m2 (lit 1)).1 = .ok a ∧ NeverActive a ∧
    (effectiveMedium .bruggeman oneMetre m1 m2 (lit 1)).1 = .ok b ∧ NeverActive b := by
  obtain ⟨m1, n1, p1⟩ := fixed_oneMetre rd host
  obtain ⟨m2, n2, p2⟩ := fixed_oneMetre rd guest
  obtain ⟨a, ha, -⟩ := medium_oneMetre .simple one_fraction.1 one_fraction.2 p1 p2 rfl
  obtain ⟨b, hb, -⟩ := medium_oneMetre .bruggeman one_fraction.1 one_fraction.2 p1 p2 rfl
  exact ⟨m1, m2, a, b, n1, n2, ha, C131_simple_partial _ oneMetre_aligned m1 m2 a _
    (fun v hv => by rw [p1] at hv; cases hv; exact host_int.noGain (by norm_num))
    (fun v hv => by rw [p2] at hv; cases hv; exact guest_int.noGain (by norm_num)) ha,
    hb, C131_bruggeman_partial _ oneMetre_aligned m1 m2 b _ hb⟩

/-- Beside `C131_lossless_partial`: two materials of permittivity 3. -/
example [NumText Dbl] (rd : String → Res (FileDict Dbl)) : ∃ m2 c : Material Dbl,
    Material.new rd [("fixed_eps", .cplx guest)] = .ok m2 ∧
    (effectiveMedium .maxwellGarnett oneMetre m2 m2 (lit 1)).1 = .ok c ∧ NeverActive c := by
  obtain ⟨m2, n2, p2⟩ := fixed_oneMetre rd guest
  have l1 : (lit 1 : Dbl).val = .fin (1 : ℤ) := lit_val (by norm_num) (by norm_num)
  have l0 : (lit 0 : Dbl).val = .fin (0 : ℤ) := lit_val (by norm_num) (by norm_num)
  have hl : Lossless (.array [cplxOf guest.re guest.im]) := by
    intro z hz
    simp only [CVals.toList, List.mem_singleton] at hz
    subst hz
    refine ⟨guest_int.noGain le_rfl _ (List.mem_singleton.2 rfl), ?_⟩
    show PyFloat.lt (lit 0 : Dbl).val (cplxOf guest.re guest.im).im.val = false
    rw [guest_int.im, l0, XR.lt_fin]
    simp
  set e2 := cplxOf guest.re guest.im with he2
  have hmix : mixVals .maxwellGarnett (lit 1) (.array [e2]) (.array [e2]) =
      .ok (.array [mgMix (lit 1) e2 e2]) := by
    have hd : absTrue (mgDown (lit 1) e2 e2) = true := by
      have c0 : (lit 1 - lit 1 : Dbl).val = .fin (0 : ℤ) := sub_int l1 l1 (by norm_num) (by norm_num)
      have c3 : (lit 2 + lit 1 : Dbl).val = .fin (3 : ℤ) :=
        add_int (m := 2) (lit_val (by norm_num) (by norm_num)) l1 (by norm_num) (by norm_num)
      have d : IntCx (mgDown (lit 1) e2 e2) 9 0 :=
        ((IntCx.real c3).mul guest_int (k := 9) (l := 0) (by norm_num) (by norm_num) (by norm_num)
          (by norm_num) (by norm_num) (by norm_num) (by norm_num) (by norm_num)).add
        ((IntCx.real c0).mul guest_int (k := 0) (l := 0) (by norm_num) (by norm_num) (by norm_num)
          (by norm_num) (by norm_num) (by norm_num) (by norm_num) (by norm_num))
          (by norm_num) (by norm_num) (by norm_num) (by norm_num)
      have hq : PyFloat.eq (mgDown (lit 1) e2 e2).re (lit 0) = false := by
        show XR.eq (mgDown (lit 1) e2 e2).re.val (lit 0 : Dbl).val = false
        rw [d.re, l0]
        simp [XR.eq, XR.le, XR.isNaN, XR.lt]
      unfold absTrue
      rw [hq]
      rfl
    simp only [mixVals, CVals.zip, List.length_cons, List.length_nil, if_true, bind, Except.bind,
      CVals.elems, List.zipWith, List.any, hd, Bool.true_or]
  obtain ⟨c, hc, -⟩ := medium_oneMetre .maxwellGarnett one_fraction.1 one_fraction.2 p2 p2 hmix
  have hh : ∀ v, (m2.getPermittivity oneMetre).1 = .ok v → Lossless v := by
    intro v hv
    rw [p2] at hv
    cases hv
    exact hl
  exact ⟨m2, c, n2, hc, C131_lossless_partial _ oneMetre_aligned m2 m2 c _ hh hh hc⟩

/-- Beside `C130_tables` and `C130_constants`: indices 2 and 1 with extinctions 0 and 1 at 500 and
400 nm, and the permittivity `12 + 7j`. -/
example [NumText Dbl] (rd : String → Res (FileDict Dbl)) : ∃ m1 m2 : Material Dbl,
    Material.new rd [("tabulated_nk", .arr (.d2 3 .float [[intDbl 500, intDbl 2, intDbl 0],
      [intDbl 400, intDbl 1, intDbl 1]]))] = .ok m1 ∧ NeverActive m1 ∧
    Material.new rd [("fixed_eps", .cplx host)] = .ok m2 ∧ NeverActive m2 := by
  have hint : ∀ n : ℤ, 0 ≤ n → NotNegative (intDbl n) := fun n hn =>
    notNegative_iff.2 (rnd_nn (show (0 : ℝ) ≤ n by exact_mod_cast hn))
  have v5 : (intDbl 500).val = .fin (500 : ℤ) := intDbl_val (by norm_num)
  have v4 : (intDbl 400).val = .fin (400 : ℤ) := intDbl_val (by norm_num)
  obtain ⟨h1, h2⟩ := only_single (F := Dbl) (n := "tabulated_nk") (t := .table 3) (by decide)
    (v := .arr (.d2 3 .float [[intDbl 500, intDbl 2, intDbl 0],
      [intDbl 400, intDbl 1, intDbl 1]])) (by simp)
  have hp := plain_single (F := Dbl) (n := "tabulated_nk") (v := .arr (.d2 3 .float
    [[intDbl 500, intDbl 2, intDbl 0], [intDbl 400, intDbl 1, intDbl 1]])) (by decide) (by decide)
  obtain ⟨-, g, -⟩ := C130_tables rd _ h1 hp (c := "nm")
    (by rw [defaults_single (by decide)]; decide +kernel)
    [[intDbl 500, intDbl 2, intDbl 0], [intDbl 400, intDbl 1, intDbl 1]]
  obtain ⟨m1, a1, a2⟩ := g h2 ⟨by simp, by simp, by
      intro r hr
      simp only [List.mem_cons, List.not_mem_nil, or_false] at hr
      rcases hr with rfl | rfl
      · show PyFloat.isNaN (intDbl 500).val = false
        rw [v5]; rfl
      · show PyFloat.isNaN (intDbl 400).val = false
        rw [v4]; rfl, by
      refine List.pairwise_pair.2 ?_
      show XR.eq (intDbl 500).val (intDbl 400).val = false
      rw [v5, v4]
      simp [XR.eq, XR.le, XR.isNaN, XR.lt]
      norm_num⟩ (by
      intro r hr
      simp only [List.mem_cons, List.not_mem_nil, or_false] at hr
      rcases hr with rfl | rfl
      · exact ⟨hint _ (by norm_num), hint _ (by norm_num)⟩
      · exact ⟨hint _ (by norm_num), hint _ (by norm_num)⟩)
  obtain ⟨k1, k2⟩ := only_single (F := Dbl) (n := "fixed_eps") (t := .complex) (by decide)
    (v := .cplx host) (by simp)
  obtain ⟨-, -, -, g'⟩ := C130_constants rd _ k1
    (plain_single (F := Dbl) (n := "fixed_eps") (v := .cplx host) (by decide) (by decide))
  obtain ⟨m2, b1, b2⟩ := g' host k2 (hint _ (by norm_num))
  exact ⟨m1, m2, a1, a2, b1, b2⟩

end

end

end Disp

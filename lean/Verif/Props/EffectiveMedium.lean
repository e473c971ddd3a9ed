import Verif.Props.MediumBuild
/-!
# C37–C40: effective media

The specification speaks of the wavelengths `ys` (in metres) for which a Spectrum object stands
and of functions giving the permittivity at a wavelength.
-/

namespace Disp

open Spec

section generic
variable {F : Type} [PyFloat F] [SciPy F]

/-- C37, every arithmetic and every kind of medium: a fraction below 0 or above 1 is rejected,
and neither material nor the Spectrum object is used. -/
theorem C37_rejects (k : Mixing) (s : Spectrum F) (m1 m2 : Material F) (frac : F)
    (h : PyFloat.lt frac (lit 0) = true ∨ PyFloat.lt (lit 1) frac = true) :
    effectiveMedium k s m1 m2 frac = (.error .value, s) := by
  unfold effectiveMedium
  rw [if_pos (by rcases h with h | h <;> rw [h] <;> simp)]

end generic

section ideal
variable [SciPy XR]

/-- `get_permittivity` at a Spectrum object that stands for the wavelengths `ys` returns the
finite numbers `A y`: an array for an array, one number for one number. -/
def PermittivityAt (m : Material XR) (s : Spectrum XR) (ys : List ℝ) (A : ℝ → ℂ) : Prop :=
  ∃ e, (m.getPermittivity s).1 = .ok e ∧ Numbers e s.std.isArray (ys.map A)

omit [SciPy XR] in
theorem numbers_zip {g : Cx XR → Cx XR → Cx XR} {e1 e2 : CVals XR} {b : Bool} {ys : List ℝ}
    {A B E : ℝ → ℂ} (h1 : Numbers e1 b (ys.map A)) (h2 : Numbers e2 b (ys.map B))
    (hg : ∀ y ∈ ys, g (toCx (A y)) (toCx (B y)) = toCx (E y)) :
    ∃ eps, CVals.zip g e1 e2 = .ok eps ∧ Numbers eps b (ys.map E) := by
  cases b with
  | false =>
    generalize hz : ys.map A = zs at h1
    generalize hw : ys.map B = ws at h2
    cases h1 with
    | scalar z =>
      cases h2 with
      | scalar w =>
        obtain ⟨y, rfl⟩ : ∃ y, ys = [y] := by
          match ys, hz with
          | [y], _ => exact ⟨y, rfl⟩
        have ez : A y = z := by simpa using hz
        have ew : B y = w := by simpa using hw
        refine ⟨_, rfl, ?_⟩
        rw [← ez, ← ew, hg y (by simp)]
        exact .scalar _
  | true =>
    generalize hz : ys.map A = zs at h1
    generalize hw : ys.map B = ws at h2
    cases h1 with
    | array =>
      cases h2 with
      | array =>
        subst hz; subst hw
        have hl : ((ys.map A).map toCx).length = ((ys.map B).map toCx).length := by simp
        refine ⟨.array ((ys.map E).map toCx), ?_, .array _⟩
        simp only [CVals.zip, if_pos hl]
        congr 2
        clear hl
        induction ys with
        | nil => rfl
        | cons y ys ih =>
          simp only [List.map_cons, List.zipWith_cons_cons, hg y (by simp)]
          congr 1
          exact ih (fun z hz => hg z (List.mem_cons_of_mem _ hz))

omit [SciPy XR] in
theorem Numbers.elems {e : CVals XR} {b : Bool} {zs : List ℂ} (h : Numbers e b zs) :
    e.elems = zs.map toCx := by
  cases h <;> rfl

omit [SciPy XR] in
theorem StandsFor.list {s : Spectrum XR} {ys : List ℝ} (h : StandsFor s ys) :
    s.std.toList = ys.map XR.fin := by
  rcases h.2 with ⟨y, rfl, hy⟩ | hy
  · rw [hy]; rfl
  · rw [hy]; rfl

theorem combine_numbers {r i w : Vals XR} (h1 : SameForm r w) (h2 : SameForm i w) {qs : List ℝ}
    {E : ℝ → ℂ} (hr : r.toList = qs.map (fun y => XR.fin (E y).re))
    (hi : i.toList = qs.map (fun y => XR.fin (E y).im)) :
    ∃ v, combineParts r i = .ok v ∧ Numbers v w.isArray (qs.map E) := by
  cases w with
  | scalar z =>
    cases r with
    | array _ _ => exact h1.elim
    | scalar x =>
      cases i with
      | array _ _ => exact h2.elim
      | scalar y =>
        match qs, hr, hi with
        | [q], hr, hi =>
          simp only [Vals.toList, List.map_cons, List.map_nil, List.cons.injEq, and_true] at hr hi
          refine ⟨_, rfl, ?_⟩
          rw [hr, hi, cplxOf_fin]
          exact .scalar _
  | array _ zs =>
    cases r with
    | scalar _ => exact h1.elim
    | array _ xs =>
      cases i with
      | scalar _ => exact h2.elim
      | array _ ws =>
        simp only [Vals.toList] at hr hi
        subst hr; subst hi
        refine ⟨.array ((qs.map E).map toCx), ?_, .array _⟩
        simp only [combineParts, List.length_map, if_true]
        congr 2
        clear h1 h2
        induction qs with
        | nil => rfl
        | cons q qs ih =>
          simp only [List.map_cons, List.zipWith_cons_cons]
          rw [ih, cplxOf_fin]

omit [SciPy XR] in
theorem sameForm_isArray {v w : Vals XR} (h : SameForm v w) : v.isArray = w.isArray := by
  cases v <;> cases w <;> first | rfl | exact h.elim

omit [SciPy XR] in
theorem aligned_isArray {s : Spectrum XR} (h : Aligned s) : s.values.isArray = s.std.isArray := by
  rcases h with ⟨x, y, h1, h2⟩ | ⟨xs, ys, h1, h2, -⟩ <;> rw [h1, h2] <;> rfl

/-- What is built from mixed permittivities `E y` at distinct wavelengths `ys`. -/
theorem medium_tabulated {s : Spectrum XR} {ys : List ℝ} (hs : StandsFor s ys) (hnd : ys.Nodup)
    {eps : CVals XR} {b : Bool} {E : ℝ → ℂ} (hE : Numbers eps b (ys.map E)) :
    ∃ t m lo hi, mediumTable s.std eps = .ok t ∧ processTable blankMedium t "eps" [] = .ok m ∧
      lo ∈ ys ∧ hi ∈ ys ∧ (∀ y ∈ ys, lo ≤ y ∧ y ≤ hi) ∧
      m.maxRange = .ok (.array .float [XR.fin lo, XR.fin hi]) ∧
      (∀ (q : Spectrum XR) (qs : List ℝ), Aligned q → StandsFor q qs →
        ((∃ v, (m.getPermittivity q).1 = .ok v) ↔ ∀ y ∈ qs, lo ≤ y ∧ y ≤ hi)) ∧
      ∀ (q : Spectrum XR) (qs : List ℝ), Aligned q → StandsFor q qs → (∀ y ∈ qs, y ∈ ys) →
        PermittivityAt m q qs E := by
  obtain ⟨dr, lo, hi, r1, r2, r3, r4, r5, r6⟩ := table_part ys hs.1 hnd (fun y => (E y).re)
  obtain ⟨di, lo', hi', i1, i2, i3, i4, i5, i6⟩ := table_part ys hs.1 hnd (fun y => (E y).im)
  have el : lo' = lo := le_antisymm (i5 lo r3).1 (r5 lo' i3).1
  have eh : hi' = hi := le_antisymm (r5 hi' i4).2 (i5 hi r4).2
  subst el; subst eh
  let rows : List (List XR) := ys.map (fun y => [XR.fin y, XR.fin (E y).re, XR.fin (E y).im])
  have ht : mediumTable s.std eps = .ok (.d2 3 .float rows) := by
    unfold mediumTable
    rw [hs.list, hE.elems, if_pos (by simp)]
    congr 2
    show _ = ys.map _
    clear hs hnd hE r1 r2 r3 r4 r5 r6 i1 i2 i3 i4 i5 i6
    induction ys with
    | nil => rfl
    | cons y ys ih =>
      simp only [List.map_cons, List.zipWith_cons_cons]
      congr 1
  have hw : ∀ r ∈ rows, r.length = 3 := by
    intro r hr
    obtain ⟨y, -, rfl⟩ := List.mem_map.1 hr
    rfl
  have p1 : pairsOf rows 1 = xrows (pointRows ys (fun y => (E y).re)) := by
    simp only [rows, pairsOf, xrows, pointRows, List.map_map]; rfl
  have p2 : pairsOf rows 2 = xrows (pointRows ys (fun y => (E y).im)) := by
    simp only [rows, pairsOf, xrows, pointRows, List.map_map]; rfl
  let m : Material XR :=
    { (blankMedium : Material XR) with name := "eps", real := some dr, imag := some di }
  have hm : processTable blankMedium (.d2 3 .float rows) "eps" [] = .ok m := by
    have g1 : ((Dataset.get ([] : Dataset XR) "SpectrumType").nonEmptyStr) = none := rfl
    have g2 : ((Dataset.get ([] : Dataset XR) "Unit").nonEmptyStr) = none := rfl
    unfold processTable
    simp only [g1, g2, Option.getD_none]
    rw [if_neg (by decide), if_neg (by decide), if_neg (by decide), if_neg (by decide),
      if_pos trivial, specData_eq hw (by norm_num), specData_eq hw (by norm_num), p1, p2]
    rw [show (blankMedium : Material XR).defType = "wavelength" from rfl,
      show (blankMedium : Material XR).defUnit = "m" from rfl, r1, i1]
    rfl
  obtain ⟨a1, a2, a3, a4⟩ := r2.spec
  obtain ⟨b1, b2, b3, b4⟩ := i2.spec
  have hn : m.name = "nk" ∨ m.name = "eps" := .inr rfl
  obtain ⟨l, h, g1, g2, g3, g4⟩ := maxRange_metres (m := m) rfl hn rfl rfl a1 b1 a2 b2 a3 b3 rfl rfl
  have hle : ∀ x y : ℝ, PyFloat.le (XR.fin x) (XR.fin y) = true ↔ x ≤ y := by simp
  have hlh : lo' ≤ hi' := (r5 hi' r4).1
  have key : ∀ y : XR, PyFloat.isNaN y = false →
      ((PyFloat.le l y = true ∧ PyFloat.le y h = true) ↔
        PyFloat.le (XR.fin lo') y = true ∧ PyFloat.le y (XR.fin hi') = true) := by
    intro y hy
    rw [g4 y hy]
    simp only [List.mem_cons, List.not_mem_nil, or_false, exists_eq_or_imp, exists_eq_left]
    constructor
    · rintro ⟨c1, c2, -⟩
      refine ⟨c1.elim id (fun c => le_trans' ((hle _ _).2 hlh) c),
        c2.elim (fun c => le_trans' c ((hle _ _).2 hlh)) id⟩
    · rintro ⟨c1, c2⟩
      exact ⟨.inl c1, .inr c2, .inl c1, .inr c2⟩
  have hmax : m.maxRange = .ok (.array .float [XR.fin lo', XR.fin hi']) := by
    rw [g1]
    obtain ⟨k1, k2⟩ := (key (XR.fin lo') rfl).2 ⟨(hle _ _).2 le_rfl, (hle _ _).2 hlh⟩
    obtain ⟨k3, k4⟩ := (key (XR.fin hi') rfl).2 ⟨(hle _ _).2 hlh, (hle _ _).2 le_rfl⟩
    have hlh' : PyFloat.le l h = true := le_trans' k1 k2
    have hll : PyFloat.le l l = true := by
      rw [LawfulCmp.le_eq_not_lt _ _ g2 g2, LawfulCmp.lt_irrefl]; rfl
    have hhh : PyFloat.le h h = true := by
      rw [LawfulCmp.le_eq_not_lt _ _ g3 g3, LawfulCmp.lt_irrefl]; rfl
    obtain ⟨k5, -⟩ := (key l g2).1 ⟨hll, hlh'⟩
    obtain ⟨-, k6⟩ := (key h g3).1 ⟨hlh', hhh⟩
    have anti : ∀ x y : XR, PyFloat.le x y = true → PyFloat.le y x = true → x = y := by
      intro x y h1 h2
      cases x <;> cases y <;> first | rfl | (simp at h1 h2; done) | skip
      all_goals first
        | (cases h1; done)
        | (cases h2; done)
        | (simp only [XR.le_fin, decide_eq_true_eq] at h1 h2; rw [le_antisymm h1 h2])
    rw [anti _ _ k1 k5, anti _ _ k4 k6]
  refine ⟨_, m, lo', hi', ht, hm, r3, r4, r5, hmax, ?_, ?_⟩
  · intro q qs hal hq
    rw [getPermittivity_eq m q hn]
    have := stored_within (m := m) rfl rfl rfl r2 i2 hal hq
    have hs' : (∃ v, (m.evalStored q).1 = .ok v) ↔ ∀ y ∈ qs, lo' ≤ y ∧ y ≤ hi' := by
      rw [this]
      constructor
      · rintro ⟨w, -⟩ y hy
        obtain ⟨⟨a, ha, ha'⟩, c, hc, hc'⟩ := w _ (List.mem_map_of_mem hy)
        simp only [List.mem_cons, List.not_mem_nil, or_false] at ha hc
        constructor
        · rcases ha with rfl | rfl
          · exact (hle _ _).1 ha'
          · exact hlh.trans ((hle _ _).1 ha')
        · rcases hc with rfl | rfl
          · exact ((hle _ _).1 hc').trans hlh
          · exact (hle _ _).1 hc'
      · intro hb
        have : Within [XR.fin lo', XR.fin hi'] (qs.map XR.fin) := by
          intro z hz
          obtain ⟨y, hy, rfl⟩ := List.mem_map.1 hz
          exact ⟨⟨_, by simp, (hle _ _).2 (hb y hy).1⟩, _, by simp, (hle _ _).2 (hb y hy).2⟩
        exact ⟨this, this⟩
    rw [← hs']
    cases (m.evalStored q).1 <;> simp [Except.map]
  · intro q qs hal hq hsub
    obtain ⟨v1, u1, u2, u3⟩ := r6 q qs hal hq hsub
    obtain ⟨v2, w1, w2, w3⟩ := i6 q qs hal hq hsub
    have s1 : (dr.evaluate q).2 = q := evalPart_plain (d := some dr) a4 q
    have s2 : (di.evaluate q).2 = q := evalPart_plain (d := some di) b4 q
    have t1 : dr.evaluate q = (.ok v1, q) := Prod.ext u1 s1
    have t2 : di.evaluate q = (.ok v2, q) := Prod.ext w1 s2
    obtain ⟨v, c1, c2⟩ := combine_numbers u2 w2 u3 w3
    refine ⟨v, ?_, ?_⟩
    · rw [getPermittivity_eq m q hn]
      have : m.evalStored q = (.ok v, q) := by
        unfold Material.evalStored
        simp only [m, blankMedium, evalPart, t1, t2, c1]
      rw [this]
      rfl
    · rw [aligned_isArray hal] at c2
      exact c2

/-- C40 on the ideal arithmetic, for every kind of medium, every Spectrum object of distinct
finite points and constituents for which the formula gives finite numbers `E y`: the medium is
constructed; the caller's object stands for the same wavelengths and is expressed in metres; the
valid range consists of the smallest and the largest wavelength; the medium can be evaluated
exactly in it, and at the points of the spectrum it returns `E y`, for requests in every type,
unit and order. -/
theorem C40_medium (k : Mixing) (s : Spectrum XR) (hal : Aligned s) (ys : List ℝ)
    (hs : StandsFor s ys) (hnd : ys.Nodup) (m1 m2 : Material XR) (f : ℝ) (h0 : 0 ≤ f) (h1 : f ≤ 1)
    (e1 e2 eps : CVals XR) (he1 : (m1.getPermittivity s).1 = .ok e1)
    (he2 : (m2.getPermittivity s).1 = .ok e2) (hmix : mixVals k (XR.fin f) e1 e2 = .ok eps)
    (E : ℝ → ℂ) (b : Bool) (hE : Numbers eps b (ys.map E)) :
    ∃ m lo hi, effectiveMedium k s m1 m2 (XR.fin f) =
        (.ok m, { values := s.std, stype := "wavelength", unit := "m", std := s.std }) ∧
      lo ∈ ys ∧ hi ∈ ys ∧ (∀ y ∈ ys, lo ≤ y ∧ y ≤ hi) ∧
      m.maxRange = .ok (.array .float [XR.fin lo, XR.fin hi]) ∧
      (∀ (q : Spectrum XR) (qs : List ℝ), Aligned q → StandsFor q qs →
        ((∃ v, (m.getPermittivity q).1 = .ok v) ↔ ∀ y ∈ qs, lo ≤ y ∧ y ≤ hi)) ∧
      ∀ (q : Spectrum XR) (qs : List ℝ), Aligned q → StandsFor q qs → (∀ y ∈ qs, y ∈ ys) →
        PermittivityAt m q qs E := by
  obtain ⟨t, m, lo, hi, a1, a2, a3⟩ := medium_tabulated hs hnd hE
  have z0 : PyFloat.lt (XR.fin f) (lit 0) = false := by
    show decide (f < ((0 : ℚ) : ℝ)) = false
    simpa using h0
  have z1 : PyFloat.lt (lit 1) (XR.fin f) = false := by
    show decide (((1 : ℚ) : ℝ) < f) = false
    simpa using h1
  obtain ⟨o1, o2, -⟩ := medium_outcome k hal m1 m2 (XR.fin f) z0 z1
  rw [he1, he2] at o1
  simp only [bind, Except.bind, hmix, a1, a2] at o1
  exact ⟨m, lo, hi, Prod.ext o1 (o2 m o1), a3⟩

/-! ## C37 -/

/-- C37, ideal arithmetic: for constituents with finite permittivities `A y`, `B y` at the
distinct wavelengths of the spectrum, the medium has the permittivity `(1-f) A y + f B y`, hence
that of the host for `f = 0` and of the inclusion for `f = 1`, and its real and imaginary parts
lie between those of the constituents. -/
theorem C37_mixture (s : Spectrum XR) (hal : Aligned s) (ys : List ℝ) (hs : StandsFor s ys)
    (hnd : ys.Nodup) (m1 m2 : Material XR) (A B : ℝ → ℂ) (h1 : PermittivityAt m1 s ys A)
    (h2 : PermittivityAt m2 s ys B) (f : ℝ) (f0 : 0 ≤ f) (f1 : f ≤ 1) :
    ∃ m E, (effectiveMedium .simple s m1 m2 (XR.fin f)).1 = .ok m ∧
      (∀ (q : Spectrum XR) (qs : List ℝ), Aligned q → StandsFor q qs → (∀ y ∈ qs, y ∈ ys) →
        PermittivityAt m q qs E) ∧
      (∀ y, E y = (1 - f) * A y + f * B y) ∧ (f = 0 → ∀ y, E y = A y) ∧
      (f = 1 → ∀ y, E y = B y) ∧
      ∀ y, (min (A y).re (B y).re ≤ (E y).re ∧ (E y).re ≤ max (A y).re (B y).re) ∧
        (min (A y).im (B y).im ≤ (E y).im ∧ (E y).im ≤ max (A y).im (B y).im) := by
  obtain ⟨e1, he1, n1⟩ := h1
  obtain ⟨e2, he2, n2⟩ := h2
  obtain ⟨eps, hz, hE⟩ := numbers_zip (g := simpleMix (XR.fin f))
    (E := fun y => (1 - f) * A y + f * B y) n1 n2 (fun y _ => by
      rw [simpleMix_toCx]; congr 1; ring)
  obtain ⟨m, lo, hi, a1, -, -, -, -, -, a2⟩ := C40_medium .simple s hal ys hs hnd m1 m2 f f0 f1 e1 e2
    eps he1 he2 hz _ _ hE
  refine ⟨m, _, by rw [a1], a2, fun y => rfl, ?_, ?_, ?_⟩
  · rintro rfl y; simp
  · rintro rfl y; simp
  · intro y
    have bt : ∀ p q : ℝ, min p q ≤ (1 - f) * p + f * q ∧ (1 - f) * p + f * q ≤ max p q := by
      intro p q
      have l1 := min_le_left p q; have l2 := min_le_right p q
      have u1 := le_max_left p q; have u2 := le_max_right p q
      constructor <;> nlinarith
    have hre : ((1 - (f : ℂ)) * A y + f * B y).re = (1 - f) * (A y).re + f * (B y).re := by
      simp
    have him : ((1 - (f : ℂ)) * A y + f * B y).im = (1 - f) * (A y).im + f * (B y).im := by
      simp
    simp only [hre, him]
    exact ⟨bt _ _, bt _ _⟩

omit [SciPy XR] in
theorem XR.add_comm' (x y : XR) : x + y = y + x := by
  cases x <;> cases y <;> first | rfl | skip
  show XR.fin _ = XR.fin _
  rw [add_comm]

omit [SciPy XR] in
theorem simpleMix_swap (f : ℝ) (z w : Cx XR) :
    simpleMix (XR.fin (1 - f)) z w = simpleMix (XR.fin f) w z := by
  unfold simpleMix
  have e1 : (lit 1 - XR.fin (1 - f) : XR) = XR.fin f := by
    rw [lit_fin, XR.sub_fin]; congr 1; push_cast; ring
  have e2 : (lit 1 - XR.fin f : XR) = XR.fin (1 - f) := by
    rw [lit_fin, XR.sub_fin]; congr 1; push_cast; ring
  rw [e1, e2]
  have : ∀ p q : Cx XR, p + q = q + p := by
    intro p q
    show Cx.mk _ _ = Cx.mk _ _
    rw [XR.add_comm', XR.add_comm' p.im]
  exact this _ _

omit [SciPy XR] in
theorem zip_swap {g h : Cx XR → Cx XR → Cx XR} (hgh : ∀ z w, g z w = h w z) (a b : CVals XR) :
    CVals.zip g a b = CVals.zip h b a := by
  cases a with
  | scalar z =>
    cases b with
    | scalar w => simp only [CVals.zip, hgh]
    | array ws => simp only [CVals.zip, hgh]
  | array zs =>
    cases b with
    | scalar w => simp only [CVals.zip, hgh]
    | array ws =>
      simp only [CVals.zip, eq_comm (a := ws.length)]
      congr 3
      rw [List.zipWith_comm]
      congr 1
      funext w z
      exact hgh z w

/-- C37: exchanging the materials and replacing `f` by `1-f` gives the same medium, for all
materials and spectra (also with infinite or undefined permittivities). -/
theorem C37_exchange (s : Spectrum XR) (hal : Aligned s) (m1 m2 : Material XR) (f : ℝ)
    (f0 : 0 ≤ f) (f1 : f ≤ 1) (m : Material XR) :
    (effectiveMedium .simple s m1 m2 (XR.fin f)).1 = .ok m ↔
      (effectiveMedium .simple s m2 m1 (XR.fin (1 - f))).1 = .ok m := by
  have z0 : ∀ x : ℝ, 0 ≤ x → PyFloat.lt (XR.fin x) (lit 0) = false := by
    intro x hx
    show decide (x < ((0 : ℚ) : ℝ)) = false
    simpa using hx
  have z1 : ∀ x : ℝ, x ≤ 1 → PyFloat.lt (lit 1) (XR.fin x) = false := by
    intro x hx
    show decide (((1 : ℚ) : ℝ) < x) = false
    simpa using hx
  rw [(medium_outcome .simple hal m1 m2 _ (z0 f f0) (z1 f f1)).1,
    (medium_outcome .simple hal m2 m1 _ (z0 (1 - f) (by linarith)) (z1 (1 - f) (by linarith))).1]
  cases (m1.getPermittivity s).1 with
  | error e =>
    cases (m2.getPermittivity s).1 with
    | error e' => simp [bind, Except.bind]
    | ok e2 => simp [bind, Except.bind]
  | ok e1 =>
    cases (m2.getPermittivity s).1 with
    | error e' => simp [bind, Except.bind]
    | ok e2 =>
      simp only [bind, Except.bind, mixVals, zip_swap (simpleMix_swap f) e2 e1]

/-! ## C38 -/

/-- The number by which the Maxwell-Garnett formula divides. -/
noncomputable def mgDen (f : ℝ) (A B : ℂ) : ℂ := (2 + f) * A + (1 - f) * B

/-- C38 (full statement, refuted below): limits, the mixing relation
`(ε-ε_h)/(ε+2ε_h) = f (ε_i-ε_h)/(ε_i+2ε_h)` without denominators, and refusal of mixtures that
are singular to 1e-6 somewhere. -/
def C38_statement : Prop :=
  ∀ (s : Spectrum XR) (ys : List ℝ) (m1 m2 : Material XR) (A B : ℝ → ℂ) (f : ℝ), Aligned s →
    StandsFor s ys → ys.Nodup → PermittivityAt m1 s ys A → PermittivityAt m2 s ys B → 0 ≤ f → f ≤ 1 →
    ((∃ y ∈ ys, ‖mgDen f (A y) (B y)‖ < 1e-6) →
      (effectiveMedium .maxwellGarnett s m1 m2 (XR.fin f)).1 = .error .value) ∧
    ((∀ y ∈ ys, 1e-6 ≤ ‖mgDen f (A y) (B y)‖) →
      ∃ m E, (effectiveMedium .maxwellGarnett s m1 m2 (XR.fin f)).1 = .ok m ∧
        (∀ (q : Spectrum XR) (qs : List ℝ), Aligned q → StandsFor q qs → (∀ y ∈ qs, y ∈ ys) →
          PermittivityAt m q qs E) ∧
        ∀ y ∈ ys, (E y - A y) * (B y + 2 * A y) = f * (B y - A y) * (E y + 2 * A y) ∧
          (f = 0 → E y = A y) ∧ (f = 1 → E y = B y))

omit [SciPy XR] in
theorem absTrue_toCx (z : ℂ) : absTrue (toCx z) = true ↔ z ≠ 0 := by
  have h0 : (lit 0 : XR) = XR.fin 0 := by show XR.fin _ = _; norm_num
  unfold absTrue
  rw [h0]
  show (!(PyFloat.eq (XR.fin z.re) (XR.fin 0) && PyFloat.eq (XR.fin z.im) (XR.fin 0))) = true ↔ _
  rw [Ne, Complex.ext_iff]
  simp [imp_iff_not_or]

/-- C38, the true half: wherever no denominator vanishes, the medium is constructed and at every
point of the spectrum its permittivity satisfies the mixing relation, which determines it; it is
that of the host for `f = 0` and of the inclusion for `f = 1`. -/
theorem C38_relation_partial (s : Spectrum XR) (hal : Aligned s) (ys : List ℝ)
    (hs : StandsFor s ys) (hnd : ys.Nodup) (m1 m2 : Material XR) (A B : ℝ → ℂ)
    (h1 : PermittivityAt m1 s ys A) (h2 : PermittivityAt m2 s ys B) (f : ℝ) (f0 : 0 ≤ f)
    (f1 : f ≤ 1) (hden : ∀ y ∈ ys, mgDen f (A y) (B y) ≠ 0) :
    ∃ m E, (effectiveMedium .maxwellGarnett s m1 m2 (XR.fin f)).1 = .ok m ∧
      (∀ (q : Spectrum XR) (qs : List ℝ), Aligned q → StandsFor q qs → (∀ y ∈ qs, y ∈ ys) →
        PermittivityAt m q qs E) ∧
      ∀ y ∈ ys, (E y - A y) * (B y + 2 * A y) = f * (B y - A y) * (E y + 2 * A y) ∧
        (∀ e, (e - A y) * (B y + 2 * A y) = f * (B y - A y) * (e + 2 * A y) → e = E y) ∧
        (f = 0 → E y = A y) ∧ (f = 1 → E y = B y) := by
  obtain ⟨e1, he1, n1⟩ := h1
  obtain ⟨e2, he2, n2⟩ := h2
  obtain ⟨down, hd, hD⟩ := numbers_zip (g := mgDown (XR.fin f))
    (E := fun y => mgDen f (A y) (B y)) n1 n2 (fun y _ => mgDown_toCx f _ _)
  obtain ⟨eps, hz, hE⟩ := numbers_zip (g := mgMix (XR.fin f))
    (E := fun y => A y * (2 * (1 - f) * A y + (1 + 2 * f) * B y) / mgDen f (A y) (B y)) n1 n2
    (fun y hy => mgMix_toCx f _ _ (hden y hy))
  have hany : down.elems.any absTrue = true := by
    rw [hD.elems, List.any_eq_true]
    obtain ⟨y, hy⟩ := List.exists_mem_of_ne_nil _ hs.1
    exact ⟨toCx (mgDen f (A y) (B y)), List.mem_map_of_mem (List.mem_map_of_mem hy),
      (absTrue_toCx _).2 (hden y hy)⟩
  have hmix : mixVals .maxwellGarnett (XR.fin f) e1 e2 = .ok eps := by
    simp only [mixVals, hd, bind, Except.bind, hany, if_true, hz]
  obtain ⟨m, lo, hi, a1, -, -, -, -, -, a2⟩ := C40_medium .maxwellGarnett s hal ys hs hnd m1 m2 f f0 f1
    e1 e2 eps he1 he2 hmix _ _ hE
  refine ⟨m, _, by rw [a1], a2, ?_⟩
  intro y hy
  have hne := hden y hy
  generalize A y = a at *
  generalize B y = b at *
  unfold mgDen at hne ⊢
  have hE' : a * (2 * (1 - f) * a + (1 + 2 * f) * b) / ((2 + f) * a + (1 - f) * b) *
      ((2 + f) * a + (1 - f) * b) = a * (2 * (1 - f) * a + (1 + 2 * f) * b) := div_mul_cancel₀ _ hne
  generalize a * (2 * (1 - f) * a + (1 + 2 * f) * b) / ((2 + f) * a + (1 - f) * b) = e at *
  refine ⟨by linear_combination hE', ?_, ?_, ?_⟩
  · intro e' he'
    have : (e' - e) * ((2 + f) * a + (1 - f) * b) = 0 := by linear_combination he' - hE'
    exact sub_eq_zero.1 ((mul_eq_zero.1 this).resolve_right hne)
  · rintro rfl
    have : (e - a) * ((2 + (0 : ℝ)) * a + (1 - (0 : ℝ)) * b) = 0 := by
      push_cast at hE' ⊢
      linear_combination hE'
    exact sub_eq_zero.1 ((mul_eq_zero.1 this).resolve_right hne)
  · rintro rfl
    have : (e - b) * ((2 + (1 : ℝ)) * a + (1 - (1 : ℝ)) * b) = 0 := by
      push_cast at hE' ⊢
      linear_combination hE'
    exact sub_eq_zero.1 ((mul_eq_zero.1 this).resolve_right hne)

/-- C38, the refusal that the code does make: if every denominator is exactly zero, `ValueError`
is raised. -/
theorem C38_all_singular_partial (s : Spectrum XR) (hal : Aligned s) (ys : List ℝ) (m1 m2 : Material XR)
    (A B : ℝ → ℂ) (h1 : PermittivityAt m1 s ys A) (h2 : PermittivityAt m2 s ys B) (f : ℝ)
    (f0 : 0 ≤ f) (f1 : f ≤ 1) (hden : ∀ y ∈ ys, mgDen f (A y) (B y) = 0) :
    (effectiveMedium .maxwellGarnett s m1 m2 (XR.fin f)).1 = .error .value := by
  obtain ⟨e1, he1, n1⟩ := h1
  obtain ⟨e2, he2, n2⟩ := h2
  obtain ⟨down, hd, hD⟩ := numbers_zip (g := mgDown (XR.fin f))
    (E := fun y => mgDen f (A y) (B y)) n1 n2 (fun y _ => mgDown_toCx f _ _)
  have hany : down.elems.any absTrue = false := by
    rw [hD.elems, List.any_eq_false]
    intro z hz
    obtain ⟨w, hw, rfl⟩ := List.mem_map.1 hz
    obtain ⟨y, hy, rfl⟩ := List.mem_map.1 hw
    rw [absTrue_toCx, hden y hy]
    simp
  have z0 : PyFloat.lt (XR.fin f) (lit 0) = false := by
    show decide (f < ((0 : ℚ) : ℝ)) = false
    simpa using f0
  have z1 : PyFloat.lt (lit 1) (XR.fin f) = false := by
    show decide (((1 : ℚ) : ℝ) < f) = false
    simpa using f1
  rw [(medium_outcome .maxwellGarnett hal m1 m2 _ z0 z1).1, he1, he2]
  simp only [bind, Except.bind, mixVals, hd, hany, Bool.false_eq_true, if_false]

/-- Materials of fixed permittivity exist and have it at every wavelength in metres. -/
theorem fixed_eps_at [NumText XR] (rd : String → Res (FileDict XR)) (z : ℂ) (ys : List ℝ)
    (hne : ys ≠ []) (hy : ∀ y ∈ ys, 0 ≤ y) : ∃ m : Material XR,
    Material.new rd [("fixed_eps", .cplx (toCx z))] = .ok m ∧
    PermittivityAt m (metreSpectrum (ys.map XR.fin)) ys (fun _ => z) := by
  obtain ⟨h1, h2⟩ := only_single (F := XR) (n := "fixed_eps") (t := .complex) (by decide)
    (v := .cplx (toCx z)) (by simp)
  have hp := plain_single (F := XR) (n := "fixed_eps") (v := .cplx (toCx z)) (by decide) (by decide)
  obtain ⟨-, -, -, h⟩ := C29_fixed rd _ h1 hp (.list .float (ys.map XR.fin)) rfl _ _ _
    (metreSpectrum_new _) (by simpa [metreSpectrum, Vals.toList] using hne) (by
      intro x hx
      simp only [metreSpectrum, Vals.toList] at hx
      obtain ⟨y, hy', rfl⟩ := List.mem_map.1 hx
      exact hy y hy')
  obtain ⟨m, hm, he⟩ := h z h2
  refine ⟨m, hm, _, he, ?_⟩
  simp only [everywhere, metreSpectrum, Vals.isArray, List.map_map]
  have : (List.map ((fun _ => toCx z) ∘ XR.fin) ys) = (ys.map (fun _ => z)).map toCx := by
    rw [List.map_map]; rfl
  rw [this]
  exact .array _

omit [SciPy XR] in
theorem metre_aligned (xs : List XR) : Aligned (metreSpectrum xs) := .inr ⟨xs, xs, rfl, rfl, rfl⟩

omit [SciPy XR] in
theorem metre_stands {ys : List ℝ} (h : ys ≠ []) : StandsFor (metreSpectrum (ys.map XR.fin)) ys :=
  ⟨h, .inr rfl⟩

/-- C38 is false: the guard compares a truth value with 1e-6. A mixture of 1 and `-2 + 1e-9`
with `f = 0` is accepted although the denominator is 1e-9. -/
theorem C38_refuted [NumText XR] : ¬ C38_statement := by
  intro h
  let rd : String → Res (FileDict XR) := fun _ => .error .os
  have hy : ∀ y ∈ ([1] : List ℝ), (0 : ℝ) ≤ y := by simp
  obtain ⟨m1, -, p1⟩ := fixed_eps_at rd 1 [1] (by simp) hy
  obtain ⟨m2, -, p2⟩ := fixed_eps_at rd (-2 + 1e-9) [1] (by simp) hy
  have hal := metre_aligned (([1] : List ℝ).map XR.fin)
  have hst := metre_stands (ys := [1]) (by simp)
  have hval : mgDen 0 1 (-2 + 1e-9) = ((1e-9 : ℝ) : ℂ) := by
    unfold mgDen; push_cast; ring
  obtain ⟨h1, -⟩ := h _ [1] m1 m2 _ _ 0 hal hst (by simp) p1 p2 le_rfl (by norm_num)
  have e1 := h1 ⟨1, by simp, by
    rw [hval, Complex.norm_real, Real.norm_eq_abs, abs_of_pos (by norm_num)]; norm_num⟩
  obtain ⟨m, E, e2, -⟩ := C38_relation_partial _ hal [1] hst (by simp) m1 m2 _ _ p1 p2 0 le_rfl
    (by norm_num) (by
      intro y _
      rw [hval]
      norm_num)
  rw [e1] at e2
  cases e2

/-! ## C39 -/

/-- C39 (full statement, refuted below). -/
def C39_statement : Prop :=
  ∀ (s : Spectrum XR) (ys : List ℝ) (m1 m2 : Material XR) (A B : ℝ → ℂ) (f : ℝ), Aligned s →
    StandsFor s ys → ys.Nodup → PermittivityAt m1 s ys A → PermittivityAt m2 s ys B → 0 ≤ f → f ≤ 1 →
    (∀ y ∈ ys, 0 ≤ (A y).im ∧ 0 ≤ (B y).im) →
    ∃ m E, (effectiveMedium .bruggeman s m1 m2 (XR.fin f)).1 = .ok m ∧
      (∀ (q : Spectrum XR) (qs : List ℝ), Aligned q → StandsFor q qs → (∀ y ∈ qs, y ∈ ys) →
        PermittivityAt m q qs E) ∧
      ∀ y ∈ ys, BruggemanEq f (A y) (B y) (E y) ∧ 0 ≤ (E y).im ∧
        (f = 0 → E y = A y) ∧ (f = 1 → E y = B y)

/-- C39, for array spectra: for passive constituents the medium is constructed, and at every
point of the spectrum its permittivity solves the Bruggeman equation and has a non-negative
imaginary part. For `f = 0` it is that of the host if the inclusion absorbs or if the host has the
larger real part than minus half the inclusion; for `f = 1` it is that of the inclusion under the
same condition with the roles exchanged. Missing for the full claim: the limits in the other
cases, and scalar spectra, for both of which it is false. -/
theorem C39_physical_partial (s : Spectrum XR) (hal : Aligned s) (harr : s.std.isArray = true)
    (ys : List ℝ) (hs : StandsFor s ys) (hnd : ys.Nodup) (m1 m2 : Material XR) (A B : ℝ → ℂ)
    (h1 : PermittivityAt m1 s ys A) (h2 : PermittivityAt m2 s ys B) (f : ℝ) (f0 : 0 ≤ f)
    (f1 : f ≤ 1) (hp : ∀ y ∈ ys, 0 ≤ (A y).im ∧ 0 ≤ (B y).im) :
    ∃ m E, (effectiveMedium .bruggeman s m1 m2 (XR.fin f)).1 = .ok m ∧
      (∀ (q : Spectrum XR) (qs : List ℝ), Aligned q → StandsFor q qs → (∀ y ∈ qs, y ∈ ys) →
        PermittivityAt m q qs E) ∧
      ∀ y ∈ ys, BruggemanEq f (A y) (B y) (E y) ∧ 0 ≤ (E y).im ∧
        (f = 0 → (0 < (B y).im ∨ -((B y).re / 2) < (A y).re) → E y = A y) ∧
        (f = 1 → (0 < (A y).im ∨ -((A y).re / 2) < (B y).re) → E y = B y) := by
  obtain ⟨e1, he1, n1⟩ := h1
  obtain ⟨e2, he2, n2⟩ := h2
  have hch : ∀ y : ℝ, ∃ e : ℂ, y ∈ ys → brugMix (XR.fin f) (toCx (A y)) (toCx (B y)) = toCx e ∧
      0 ≤ e.im ∧ BruggemanEq f (A y) (B y) e := by
    intro y
    by_cases hy : y ∈ ys
    · obtain ⟨e, he⟩ := brugMix_spec f f0 f1 (A y) (B y) (hp y hy).1 (hp y hy).2
      exact ⟨e, fun _ => he⟩
    · exact ⟨0, fun h => absurd h hy⟩
  choose E hEs using hch
  obtain ⟨eps, hz, hE⟩ := numbers_zip (g := brugMix (XR.fin f)) (E := E) n1 n2
    (fun y hy => (hEs y hy).1)
  have hmix : mixVals .bruggeman (XR.fin f) e1 e2 = .ok eps := by
    rw [harr] at hE
    generalize hl : ys.map E = l at hE
    cases hE with
    | array =>
      simp only [mixVals, hz, bind, Except.bind]
  obtain ⟨m, lo, hi, a1, -, -, -, -, -, a2⟩ := C40_medium .bruggeman s hal ys hs hnd m1 m2 f f0 f1
    e1 e2 eps he1 he2 hmix _ _ hE
  refine ⟨m, E, by rw [a1], a2, ?_⟩
  intro y hy
  obtain ⟨g1, g2, g3⟩ := hEs y hy
  refine ⟨g3, g2, ?_, ?_⟩
  · rintro rfl hc
    rw [brugMix_zero _ _ (hp y hy).1 hc] at g1
    exact (Cx.toCx_inj.1 g1).symm
  · rintro rfl hc
    rw [brugMix_swap, show (1 : ℝ) - 1 = 0 by norm_num, brugMix_zero _ _ (hp y hy).2 hc] at g1
    exact (Cx.toCx_inj.1 g1).symm

/-- C39: a scalar spectrum raises `IndexError` whatever the materials. -/
theorem C39_scalar_partial (s : Spectrum XR) (hal : Aligned s) (hsc : s.std.isArray = false)
    (ys : List ℝ) (m1 m2 : Material XR) (A B : ℝ → ℂ) (h1 : PermittivityAt m1 s ys A)
    (h2 : PermittivityAt m2 s ys B) (f : ℝ) (f0 : 0 ≤ f) (f1 : f ≤ 1) :
    (effectiveMedium .bruggeman s m1 m2 (XR.fin f)).1 = .error .index := by
  obtain ⟨e1, he1, n1⟩ := h1
  obtain ⟨e2, he2, n2⟩ := h2
  rw [hsc] at n1 n2
  have z0 : PyFloat.lt (XR.fin f) (lit 0) = false := by
    show decide (f < ((0 : ℚ) : ℝ)) = false
    simpa using f0
  have z1 : PyFloat.lt (lit 1) (XR.fin f) = false := by
    show decide (((1 : ℚ) : ℝ) < f) = false
    simpa using f1
  rw [(medium_outcome .bruggeman hal m1 m2 _ z0 z1).1, he1, he2]
  generalize ys.map A = l1 at n1
  generalize ys.map B = l2 at n2
  cases n1
  cases n2
  simp only [bind, Except.bind, mixVals, CVals.zip]

/-- C39 is false: without inclusions (`f = 0`) a metal of permittivity `-10 + i` with inclusions
of permittivity 2 is reported as -1. -/
theorem C39_refuted [NumText XR] : ¬ C39_statement := by
  intro h
  let rd : String → Res (FileDict XR) := fun _ => .error .os
  have hy : ∀ y ∈ ([1] : List ℝ), (0 : ℝ) ≤ y := by simp
  obtain ⟨m1, -, p1⟩ := fixed_eps_at rd ⟨-10, 1⟩ [1] (by simp) hy
  obtain ⟨m2, -, p2⟩ := fixed_eps_at rd ⟨2, 0⟩ [1] (by simp) hy
  have hal := metre_aligned (([1] : List ℝ).map XR.fin)
  have hst := metre_stands (ys := [1]) (by simp)
  obtain ⟨m, E, e1, e2, e3⟩ := h _ [1] m1 m2 _ _ 0 hal hst (by simp) p1 p2 le_rfl (by norm_num)
    (by intro y _; constructor <;> norm_num)
  obtain ⟨-, -, e4, -⟩ := e3 1 (by simp)
  obtain ⟨v, ev, en⟩ := e2 _ [1] hal hst (by simp)
  obtain ⟨x1, hx1, n1⟩ := p1
  obtain ⟨x2, hx2, n2⟩ := p2
  obtain ⟨r1, r2, q1, q2, hsum, hprod, hre⟩ := brug_toCx 0 ⟨-10, 1⟩ ⟨2, 0⟩
  have hsum' : r1 + r2 = ⟨-11, 1⟩ := by
    rw [hsum]; apply Complex.ext <;> norm_num
  have hprod' : r1 * r2 = ⟨10, -1⟩ := by
    rw [hprod]
    apply Complex.ext <;> simp <;> norm_num
  have hroot : (r1 - ⟨-10, 1⟩) * (r1 - ⟨-1, 0⟩) = 0 := by
    have : (r1 - ⟨-10, 1⟩) * (r1 - ⟨-1, 0⟩) =
        r1 * r1 - (⟨-11, 1⟩ : ℂ) * r1 + ⟨10, -1⟩ := by
      apply Complex.ext <;> simp <;> ring
    rw [this, ← hsum', ← hprod']; ring
  have hr1 : r1 = ⟨-1, 0⟩ := by
    rcases mul_eq_zero.1 hroot with h | h
    · exfalso
      have h1 : r1 = ⟨-10, 1⟩ := sub_eq_zero.1 h
      have h2 : r2 = ⟨-1, 0⟩ := by
        have := hsum'
        rw [h1] at this
        have h3 : r2 = ⟨-11, 1⟩ - ⟨-10, 1⟩ := by rw [← this]; ring
        rw [h3]; apply Complex.ext <;> norm_num
      rw [h1, h2] at hre
      norm_num at hre
    · exact sub_eq_zero.1 h
  have hbm : brugMix (XR.fin 0) (toCx ⟨-10, 1⟩) (toCx ⟨2, 0⟩) = toCx ⟨-1, 0⟩ := by
    unfold brugMix
    rw [q1, hr1]
    apply if_pos
    show PyFloat.le (XR.fin ((0 : ℚ) : ℝ)) (XR.fin 0) = true
    rw [XR.le_fin]
    norm_num
  obtain ⟨eps, hz, hE⟩ := numbers_zip (g := brugMix (XR.fin 0)) (E := fun _ => ⟨-1, 0⟩) n1 n2
    (fun y _ => hbm)
  have hmix : mixVals .bruggeman (XR.fin 0) x1 x2 = .ok eps := by
    simp only [metreSpectrum, Vals.isArray] at hE
    generalize ([1] : List ℝ).map (fun _ => (⟨-1, 0⟩ : ℂ)) = l at hE
    cases hE with
    | array => simp only [mixVals, hz, bind, Except.bind]
  obtain ⟨m', lo, hi, a1, -, -, -, -, -, a2⟩ := C40_medium .bruggeman _ hal [1] hst (by simp) m1 m2 0
    le_rfl (by norm_num) x1 x2 eps hx1 hx2 hmix _ _ hE
  rw [a1] at e1
  have hm : m' = m := by cases e1; rfl
  subst hm
  obtain ⟨v', ev', en'⟩ := a2 _ [1] hal hst (by simp)
  rw [ev] at ev'
  have hv : v = v' := Except.ok.inj ev'
  subst hv
  have := en.elems.symm.trans en'.elems
  simp only [List.map_cons, List.map_nil, List.cons.injEq, and_true] at this
  have := Cx.toCx_inj.1 this
  rw [e4 rfl] at this
  have := congrArg Complex.re this
  norm_num at this

/-- Concrete case for C37, C38 and C40: glass in water at two wavelengths. -/
example [NumText XR] (rd : String → Res (FileDict XR)) : ∃ (s : Spectrum XR) (ys : List ℝ)
    (m1 m2 : Material XR) (A B : ℝ → ℂ), Aligned s ∧ StandsFor s ys ∧ ys.Nodup ∧ 2 ≤ ys.length ∧
    PermittivityAt m1 s ys A ∧ PermittivityAt m2 s ys B ∧
    (∀ y ∈ ys, mgDen 0.5 (A y) (B y) ≠ 0) ∧ (∀ y ∈ ys, 0 ≤ (A y).im ∧ 0 ≤ (B y).im) := by
  have hy : ∀ y ∈ ([5e-7, 6e-7] : List ℝ), (0 : ℝ) ≤ y := by
    intro y hy
    simp only [List.mem_cons, List.not_mem_nil, or_false] at hy
    rcases hy with rfl | rfl <;> norm_num
  obtain ⟨m1, -, p1⟩ := fixed_eps_at rd ⟨1.7, 0.01⟩ [5e-7, 6e-7] (by simp) hy
  obtain ⟨m2, -, p2⟩ := fixed_eps_at rd ⟨2.25, 0⟩ [5e-7, 6e-7] (by simp) hy
  refine ⟨_, [5e-7, 6e-7], m1, m2, _, _, metre_aligned _, metre_stands (by simp), ?_, by simp, p1, p2,
    ?_, ?_⟩
  · simp; norm_num
  · intro y _ h
    have := congrArg Complex.re h
    unfold mgDen at this
    simp at this
    norm_num at this
  · intro y _
    constructor <;> norm_num

end ideal

end Disp

import Verif.Props.MaterialEval
/-!
# C29–C31: constants, absorption and the caller's spectrum
-/

namespace Disp

open Spec

section generic
variable {F : Type} [PyFloat F] [SciPy F]

/-- Values and wavelengths of a Spectrum are both one number or arrays of the same length. -/
def Aligned (s : Spectrum F) : Prop :=
  (∃ x y, s.values = .scalar x ∧ s.std = .scalar y) ∨
  ∃ xs ys, s.values = .array .float xs ∧ s.std = .array .float ys ∧ xs.length = ys.length

/-- Two results of the same form. -/
def SameForm : Vals F → Vals F → Prop
  | .scalar _, .scalar _ => True
  | .array _ xs, .array _ ys => xs.length = ys.length
  | _, _ => False

omit [SciPy F] in
theorem aligned_new {raw : Raw F} (hraw : FloatInput raw) {t u : String} {s : Spectrum F}
    (h : Spectrum.new raw t u = .ok s) : Aligned s := by
  have hlist : ∀ xs : List F, Spectrum.new (.list .float xs) t u = .ok s → Aligned s := by
    intro xs h
    rw [Spectrum.new_eq] at h
    cases hl : specLookup (lower t) (lower u) with
    | error e => rw [hl] at h; cases h
    | ok c =>
      have := new_list (specLookup_ok_iff.1 hl) xs
      rw [Spectrum.new_eq] at this
      rw [this] at h
      cases h
      exact .inr ⟨_, _, rfl, rfl, by simp⟩
  cases raw with
  | float x =>
    rw [Spectrum.new_eq] at h
    cases hl : specLookup (lower t) (lower u) with
    | error e => rw [hl] at h; cases h
    | ok c =>
      have := new_scalar (specLookup_ok_iff.1 hl) x
      rw [Spectrum.new_eq] at this
      rw [this] at h
      cases h
      exact .inl ⟨_, _, rfl, rfl⟩
  | list dt xs =>
    obtain rfl : dt = .float := hraw
    exact hlist xs h
  | ndarray dt xs =>
    obtain rfl : dt = .float := hraw
    exact hlist xs h
  | other => exact hraw.elim

omit [SciPy F] in
theorem convertTo_sameForm {s : Spectrum F} (h : Aligned s) {t u : String} {v : Vals F}
    (hv : s.convertTo t u = .ok v) : SameForm v s.values := by
  rw [Spectrum.convertTo_eq] at hv
  cases hl : specLookup (lower t) u with
  | error e => rw [hl] at hv; cases hv
  | ok c =>
    rw [hl] at hv
    have hp := names_pairs _ (specLookup_ok_iff.1 hl)
    simp only at hv hp
    rcases h with ⟨x, y, h1, h2⟩ | ⟨xs, ys, h1, h2, h3⟩
    · rw [h2, convertVals_scalar hp] at hv
      cases hv
      rw [h1]; trivial
    · rw [h2, convertVals_array hp] at hv
      cases hv
      rw [h1]
      simp only [SameForm, List.length_map, h3]

omit [SciPy F] in
theorem aligned_convert {s : Spectrum F} (h : Aligned s) (t u : String) :
    Aligned (s.convertInPlace t u).2 := by
  unfold Spectrum.convertInPlace
  rw [Spectrum.convertCore_eq]
  cases hl : specLookup (lower t) u with
  | error e => exact h
  | ok c =>
    have hp := names_pairs _ (specLookup_ok_iff.1 hl)
    simp only at hp
    rcases h with ⟨x, y, h1, h2⟩ | ⟨xs, ys, h1, h2, h3⟩
    · rw [h2]
      simp only [bind, Except.bind, convertVals_scalar hp]
      exact .inl ⟨_, _, rfl, rfl⟩
    · rw [h2]
      simp only [bind, Except.bind, convertVals_array hp]
      exact .inr ⟨_, _, rfl, rfl, by simp⟩

omit [SciPy F] in
theorem aligned_after {s : Spectrum F} (h : Aligned s) (hist : List (String × String)) :
    Aligned (afterConversions s hist) := by
  unfold afterConversions
  induction hist generalizing s with
  | nil => exact h
  | cons p hist ih => exact ih (aligned_convert h p.1 p.2)

omit [PyFloat F] [SciPy F] in
theorem mapRes_sameForm {f : F → Res F} {v w : Vals F} (h : v.mapRes f = .ok w) :
    SameForm w v := by
  cases v with
  | scalar x =>
    simp only [Vals.mapRes, bind, Except.bind] at h
    cases hf : f x with
    | error e => rw [hf] at h; cases h
    | ok y => rw [hf] at h; cases h; trivial
  | array dt xs =>
    simp only [Vals.mapRes, bind, Except.bind] at h
    cases hf : xs.mapM f with
    | error e => rw [hf] at h; cases h
    | ok ys =>
      rw [hf] at h
      cases h
      have := (mapM_getElem f xs ys hf).1
      simpa [SameForm] using this.symm

omit [PyFloat F] [SciPy F] in
theorem SameForm.trans {a b c : Vals F} (h : SameForm a b) (h' : SameForm b c) : SameForm a c := by
  cases a <;> cases b <;> cases c <;> simp_all [SameForm]

/-- The result of an evaluation has the form of the Spectrum's values, before and after. -/
theorem evaluate_form (d : RealData F) (s : Spectrum F) (h : Aligned s) {v : Vals F}
    (hv : (d.evaluate s).1 = .ok v) : SameForm v (d.evaluate s).2.values := by
  induction d generalizing s v with
  | constant c r t u =>
    simp only [RealData.evaluate, bind, Except.bind] at hv ⊢
    cases hc : r.contains s with
    | error e => rw [hc] at hv; cases hv
    | ok b =>
      rw [hc] at hv
      cases hs : s.values with
      | scalar x => rw [hs] at hv; cases hv; trivial
      | array dt xs => rw [hs] at hv; cases hv; simp [SameForm]
  | interp o rows r t u =>
    simp only [RealData.evaluate, bind, Except.bind] at hv ⊢
    cases hc : r.contains s with
    | error e => rw [hc] at hv; cases hv
    | ok b =>
      rw [hc] at hv
      cases hs : s.convertTo t u with
      | error e => rw [hs] at hv; cases hv
      | ok w =>
        rw [hs] at hv
        exact (mapRes_sameForm hv).trans (convertTo_sameForm h hs)
  | model k p r t u =>
    simp only [RealData.evaluate, bind, Except.bind] at hv ⊢
    cases hc : r.contains s with
    | error e => rw [hc] at hv; cases hv
    | ok b =>
      rw [hc] at hv
      cases hs : s.convertTo t u with
      | error e => rw [hs] at hv; cases hv
      | ok w =>
        rw [hs] at hv
        exact (mapRes_sameForm hv).trans (convertTo_sameForm h hs)
  | extrap base order spl r t u ih =>
    have key : ∀ (s1 : Spectrum F) (e : PyErr) (x : Res (Vals F) × Spectrum F), x =
        (if e.isA .value then
          match s1.convertInPlace t u with
          | (.error e', s'') => (.error e', s'')
          | (.ok _, s'') =>
            (do
              let _ ← r.contains s''
              .ok (s''.values.map (SciPy.splev spl)), s'')
         else (.error e, s1)) → x.1 = .ok v → SameForm v x.2.values := by
      intro s1 e x hx hxv
      subst hx
      split at hxv
      · rename_i he
        rw [if_pos he]
        cases hcp : s1.convertInPlace t u with
        | mk y s'' =>
          rw [hcp] at hxv
          cases y with
          | error e' => cases hxv
          | ok _ =>
            simp only [bind, Except.bind] at hxv ⊢
            cases hc : r.contains s'' with
            | error e => rw [hc] at hxv; cases hxv
            | ok b =>
              rw [hc] at hxv
              cases hxv
              cases s''.values <;> simp [Vals.map, SameForm]
      · cases hxv
    simp only [RealData.evaluate] at hv ⊢
    cases hc : base.range.contains s with
    | error e =>
      rw [hc] at hv
      exact key s e _ rfl hv
    | ok b =>
      rw [hc] at hv
      simp only at hv ⊢
      cases hev : base.evaluate s with
      | mk x s1 =>
        rw [hev] at hv
        cases x with
        | ok w =>
          cases hv
          have := ih s h (v := v) (by rw [hev])
          rw [hev] at this
          exact this
        | error e => exact key s1 e _ rfl hv

end generic

section ideal
variable [SciPy XR]

/-- A Constant of default range at everything that stands for wavelengths in [0, inf]. -/
theorem cdata_evaluate (c : XR) {raw : Raw XR} (hraw : FloatInput raw) {t u : String}
    {s : Spectrum XR} (hs : Spectrum.new raw t u = .ok s) (hne : s.values.toList ≠ [])
    (hv : ∀ x ∈ s.values.toList, NonNeg x) {s1 : Spectrum XR} (h1 : s1.std = s.std) :
    (cdata c).evaluate s1 = (.ok (constLike s1.values c), s1) := by
  have hd : RealData.newConstant c (defaultRange : Raw XR) "wavelength" "m" = .ok (cdata c) :=
    constantOf_eq c
  have h0 := C12_default_range c _ _ _ hd raw hraw t u s hs hne hv
  obtain ⟨e1, e2, e3⟩ := C12_constant c defaultRange _ _ _ hd s1
  refine Prod.ext (e3 ?_) e1
  rw [contains_congr h1]
  obtain ⟨g1, g2, g3⟩ := C12_constant c defaultRange _ _ _ hd s
  cases hc : (cdata c).range.contains s with
  | error e => rw [h0] at g2; cases g2 e hc
  | ok b =>
    have : b = true := by
      unfold Spectrum.contains at hc
      simp only [bind, Except.bind] at hc
      revert hc
      repeat' split
      all_goals intro hc
      all_goals first
        | cases hc
        | skip
      all_goals first
        | rfl
        | exact (Except.ok.inj hc).symm
        | skip
    rw [this]

/-- `real + 1j*imag` of finite numbers. -/
theorem cplxOf_fin (x y : ℝ) : cplxOf (XR.fin x) (XR.fin y) = toCx ⟨x, y⟩ := by
  unfold cplxOf
  rw [Cx.ofReal_toCx, Cx.ofReal_toCx, Cx.I_toCx, Cx.mul_toCx, Cx.add_toCx]
  congr 1
  apply Complex.ext <;> simp

/-- One number per requested point: a single one for a scalar, an array for an array. -/
noncomputable def everywhere (v : Vals XR) (z : ℂ) : CVals XR :=
  match v with
  | .scalar _ => .scalar (toCx z)
  | .array _ xs => .array (xs.map (fun _ => toCx z))

theorem combine_const (v : Vals XR) (x y : ℝ) :
    combineParts (constLike v (XR.fin x)) (constLike v (XR.fin y)) = .ok (everywhere v ⟨x, y⟩) := by
  cases v with
  | scalar z => simp only [constLike, combineParts, cplxOf_fin, everywhere]
  | array dt xs =>
    simp only [constLike, combineParts, List.length_replicate, if_true, everywhere,
      List.zipWith_replicate, min_self, cplxOf_fin, List.map_const']

theorem constant_stored {m : Material XR} {x y : ℝ} (hr : m.real = some (cdata (XR.fin x)))
    (hi : m.imag = some (cdata (XR.fin y))) (hc : m.cplx = none)
    {raw : Raw XR} (hraw : FloatInput raw) {t u : String}
    {s : Spectrum XR} (hs : Spectrum.new raw t u = .ok s) (hne : s.values.toList ≠ [])
    (hv : ∀ x ∈ s.values.toList, NonNeg x) :
    m.evalStored s = (.ok (everywhere s.values ⟨x, y⟩), s) := by
  unfold Material.evalStored
  rw [hr, hi, hc]
  simp only [evalPart, cdata_evaluate _ hraw hs hne hv rfl, combine_const]

/-- C29: the fixed values are reported exactly, one per requested point, at every spectrum of
values in [0, inf] of every type and unit, whatever the default unit of the material is. -/
theorem C29_fixed [NumText XR] (rd : String → Res (FileDict XR)) (kw : Kwargs XR)
    (hnd : (kw.map Prod.fst).Nodup) (hp : PlainOptions kw) (raw : Raw XR) (hraw : FloatInput raw)
    (t u : String) (s : Spectrum XR) (hs : Spectrum.new raw t u = .ok s)
    (hne : s.values.toList ≠ []) (hv : ∀ x ∈ s.values.toList, NonNeg x) :
    (∀ x : ℝ, Only kw "fixed_n" .real (.float (XR.fin x)) → ∃ m, Material.new rd kw = .ok m ∧
      (m.getNk s).1 = .ok (everywhere s.values ⟨x, 0⟩)) ∧
    (∀ z : ℂ, Only kw "fixed_nk" .complex (.cplx (toCx z)) → ∃ m, Material.new rd kw = .ok m ∧
      (m.getNk s).1 = .ok (everywhere s.values z)) ∧
    (∀ x : ℝ, Only kw "fixed_eps_r" .real (.float (XR.fin x)) → ∃ m, Material.new rd kw = .ok m ∧
      (m.getPermittivity s).1 = .ok (everywhere s.values ⟨x, 0⟩)) ∧
    (∀ z : ℂ, Only kw "fixed_eps" .complex (.cplx (toCx z)) → ∃ m, Material.new rd kw = .ok m ∧
      (m.getPermittivity s).1 = .ok (everywhere s.values z)) := by
  obtain ⟨h1, h2, h3, h4⟩ := C24_fixed_partial rd kw hnd hp
  have hf : Fresh s := ⟨raw, t, u, hs⟩
  have h0 : (lit 0 : XR) = XR.fin 0 := by show XR.fin _ = _; norm_num
  refine ⟨fun x h => ⟨_, h1 _ h, ?_⟩, fun z h => ⟨_, h2 _ h, ?_⟩, fun x h => ⟨_, h3 _ h, ?_⟩,
    fun z h => ⟨_, h4 _ h, ?_⟩⟩
  · rw [getNk_fresh _ hf (.inl rfl), constant_stored rfl (by rw [h0]) rfl hraw hs hne hv]
    simp only [Except.map]
    rw [if_neg (by decide)]
  · rw [getNk_fresh _ hf (.inl rfl), constant_stored (x := z.re) (y := z.im) rfl rfl rfl hraw hs hne hv]
    simp only [Except.map]
    rw [if_neg (by decide)]
  · rw [getPermittivity_eq _ _ (.inr rfl), constant_stored rfl (by rw [h0]) rfl hraw hs hne hv]
    simp only [Except.map]
    rw [if_neg (by decide)]
  · rw [getPermittivity_eq _ _ (.inr rfl), constant_stored (x := z.re) (y := z.im) rfl rfl rfl hraw hs
      hne hv]
    simp only [Except.map]
    rw [if_neg (by decide)]

/-- Concrete case for `C29_fixed`: glass at a photon energy of 2 eV and at three wavelengths. -/
example [NumText XR] (rd : String → Res (FileDict XR)) :
    let kw : Kwargs XR := [("fixed_n", .float (XR.fin 1.5))]
    (kw.map Prod.fst).Nodup ∧ PlainOptions kw ∧ Only kw "fixed_n" .real (.float (XR.fin 1.5)) ∧
    (∃ s : Spectrum XR, Spectrum.new (.float (XR.fin 2)) "energy" "eV" = .ok s ∧
      s.values.toList ≠ [] ∧ ∀ x ∈ s.values.toList, NonNeg x) := by
  obtain ⟨h1, h2⟩ := only_single (F := XR) (n := "fixed_n") (t := .real) (by decide)
    (v := .float (XR.fin 1.5)) (by simp)
  refine ⟨h1, plain_single (by decide) (by decide), h2, ?_⟩
  refine ⟨_, new_scalar (c := "ev") (by decide +kernel) _, by simp [Vals.toList], ?_⟩
  intro x hx
  simp only [Vals.toList, List.mem_singleton] at hx
  subst hx
  show (0 : ℝ) ≤ 2
  norm_num

/-- Concrete case for C27 and C28: a material of fixed permittivity has a finite index at 2 eV. -/
example [NumText XR] (rd : String → Res (FileDict XR)) (z : ℂ) : ∃ (m : Material XR)
    (s : Spectrum XR) (n : CVals XR) (ns : List ℂ), Fresh s ∧ m.name = "eps" ∧
    (m.getNk s).1 = .ok n ∧ Numbers n false ns := by
  obtain ⟨h1, h2⟩ := only_single (F := XR) (n := "fixed_eps") (t := .complex) (by decide)
    (v := .cplx (toCx z)) (by simp)
  have hs := new_scalar (F := XR) (t := "energy") (u := "eV") (c := "ev") (by decide +kernel)
    (XR.fin 2)
  have hp := plain_single (F := XR) (n := "fixed_eps") (v := .cplx (toCx z)) (by decide) (by decide)
  obtain ⟨-, -, -, h⟩ := C29_fixed rd _ h1 hp (.float (XR.fin 2)) trivial _ _ _ hs (by simp [Vals.toList]) (by
    intro x hx
    simp only [Vals.toList, List.mem_singleton] at hx
    subst hx
    show (0 : ℝ) ≤ 2
    norm_num)
  obtain ⟨m, hm, he⟩ := h z h2
  obtain ⟨-, -, -, h4⟩ := C24_fixed_partial rd _ h1 hp
  have hname : m.name = "eps" := by
    rw [h4 _ h2] at hm
    cases hm; rfl
  obtain ⟨n, ns, e1, e2, -⟩ := C28_passive m _ ⟨_, _, _, hs⟩ hname _ false [z] he (.scalar z)
  exact ⟨m, _, n, ns, ⟨_, _, _, hs⟩, hname, e1, e2⟩

/-! ## C30 -/

/-- The quantity a material describes: its permittivity or its refractive index. -/
noncomputable def reported (m : Material XR) (s : Spectrum XR) : Res (CVals XR) :=
  if m.name = "eps" then (m.getPermittivity s).1 else (m.getNk s).1

/-- C30 (full statement, refuted below). -/
def C30_statement [NumText XR] : Prop :=
  ∀ (rd : String → Res (FileDict XR)) (kw : Kwargs XR) (m : Material XR),
    Material.new rd kw = .ok m →
    m.removeAbsorption.1 = .ok () ∧
    m.removeAbsorption.2.removeAbsorption.2 = m.removeAbsorption.2 ∧
    (m.cplx.isSome → ∀ s, m.removeAbsorption.2.getNk s = m.getNk s ∧
      m.removeAbsorption.2.getPermittivity s = m.getPermittivity s) ∧
    (m.cplx = none → ∀ (s : Spectrum XR), Fresh s → ∀ v b zs, reported m s = .ok v →
      Numbers v b zs → ∃ v', reported m.removeAbsorption.2 s = .ok v' ∧
        Numbers v' b (zs.map (fun z => (⟨z.re, 0⟩ : ℂ))))

omit [SciPy XR] in
theorem removeAbsorption_eq {F : Type} [PyFloat F] [SciPy F] (m : Material F) :
    m.removeAbsorption = (.ok (), { m with imag := some (cdata (lit 0)) }) := by
  have hz : constantZero (F := F) = .ok (cdata (lit 0)) := constantOf_eq (lit 0)
  unfold Material.removeAbsorption
  rw [hz]

omit [SciPy XR] in
/-- C30, every arithmetic and material: the call succeeds, is idempotent and does not change what
a material stored as complex data returns. -/
theorem C30_idempotent {F : Type} [PyFloat F] [SciPy F] (m : Material F) :
    m.removeAbsorption.1 = .ok () ∧
    m.removeAbsorption.2.removeAbsorption.2 = m.removeAbsorption.2 ∧
    (m.cplx.isSome → ∀ s, m.removeAbsorption.2.getNk s = m.getNk s ∧
      m.removeAbsorption.2.getPermittivity s = m.getPermittivity s) := by
  simp only [removeAbsorption_eq]
  refine ⟨trivial, trivial, fun h s => ?_⟩
  obtain ⟨d, hd⟩ := Option.isSome_iff_exists.1 h
  have : ∀ s, Material.evalStored { m with imag := some (cdata (lit 0)) } s = m.evalStored s := by
    intro s
    unfold Material.evalStored
    simp only [hd]
  constructor
  · unfold Material.getNk Material.nkCore
    simp only [this]
  · unfold Material.getPermittivity
    simp only [this]

theorem cplxOf_finite {x y : XR} {z : ℂ} (h : cplxOf x y = toCx z) :
    x = XR.fin z.re ∧ y = XR.fin z.im := by
  have hre : x + (lit 0 * y - lit 1 * lit 0) = XR.fin z.re := congrArg Cx.re h
  have him : lit 0 + (lit 0 * lit 0 + lit 1 * y) = XR.fin z.im := congrArg Cx.im h
  have h0 : (lit 0 : XR) = XR.fin 0 := by show XR.fin _ = _; norm_num
  have h1 : (lit 1 : XR) = XR.fin 1 := by show XR.fin _ = _; norm_num
  rw [h0, h1] at hre him
  have hy : y = XR.fin z.im := by
    cases y with
    | fin y =>
      simp only [XR.mul_fin, XR.add_fin] at him
      rw [← him]; congr 1; ring
    | pinf =>
      exfalso
      rw [XR.mul_fin] at him
      have : XR.fin 1 * XR.pinf = XR.pinf := XR.signInf_pos one_pos
      rw [this] at him
      cases him
    | ninf =>
      exfalso
      rw [XR.mul_fin] at him
      have : XR.fin 1 * XR.ninf = XR.signInf (-1) := rfl
      rw [this] at him
      unfold XR.signInf at him
      rw [if_neg (by norm_num), if_pos (by norm_num)] at him
      cases him
    | nan => cases him
  refine ⟨?_, hy⟩
  rw [hy, XR.mul_fin, XR.mul_fin, XR.sub_fin] at hre
  cases x with
  | fin x =>
    rw [XR.add_fin] at hre
    rw [← hre]; congr 1; ring
  | pinf => cases hre
  | ninf => cases hre
  | nan => cases hre

theorem combine_zero {r i w : Vals XR} (h1 : SameForm r w) (h2 : SameForm i w) {v : CVals XR}
    {b : Bool} {zs : List ℂ} (hc : combineParts r i = .ok v) (hf : Numbers v b zs) :
    ∃ v', combineParts r (constLike w (XR.fin 0)) = .ok v' ∧
      Numbers v' b (zs.map (fun z => (⟨z.re, 0⟩ : ℂ))) := by
  cases r with
  | scalar x =>
    cases w with
    | array _ _ => exact h1.elim
    | scalar w =>
      cases i with
      | array _ _ => exact h2.elim
      | scalar y =>
        simp only [combineParts, Except.ok.injEq] at hc
        subst hc
        generalize hz : cplxOf x y = z' at hf
        cases hf with
        | scalar z =>
          obtain ⟨rfl, -⟩ := cplxOf_finite hz
          refine ⟨_, rfl, ?_⟩
          rw [cplxOf_fin]
          exact .scalar _
  | array dt xs =>
    cases w with
    | scalar _ => exact h1.elim
    | array dw ws =>
      cases i with
      | scalar _ => exact h2.elim
      | array di ys =>
        simp only [SameForm] at h1 h2
        simp only [combineParts, if_pos (h1.trans h2.symm), Except.ok.injEq] at hc
        subst hc
        simp only [combineParts, constLike, List.length_replicate, if_pos h1]
        refine ⟨_, rfl, ?_⟩
        generalize hz : List.zipWith cplxOf xs ys = z' at hf
        cases hf with
        | array =>
          have key : ∀ (xs ys : List XR) (zs : List ℂ), xs.length = ys.length →
              List.zipWith cplxOf xs ys = zs.map toCx →
              List.zipWith cplxOf xs (List.replicate xs.length (XR.fin 0)) =
                (zs.map (fun z => (⟨z.re, 0⟩ : ℂ))).map toCx := by
            intro xs
            induction xs with
            | nil =>
              intro ys zs _ h
              cases zs with
              | nil => rfl
              | cons z zs => cases h
            | cons x xs ih =>
              intro ys zs hl h
              cases ys with
              | nil => cases hl
              | cons y ys =>
                cases zs with
                | nil => cases h
                | cons z zs =>
                  simp only [List.zipWith_cons_cons, List.map_cons, List.cons.injEq] at h
                  obtain ⟨rfl, -⟩ := cplxOf_finite h.1
                  simp only [List.length_cons, List.replicate_succ, List.zipWith_cons_cons,
                    List.map_cons]
                  rw [ih ys zs (by simpa using hl) h.2, cplxOf_fin]
          rw [← h1, key xs ys zs (h1.trans h2.symm) hz]
          exact .array _

omit [SciPy XR] in
theorem aligned_sameForm {F : Type} {s s' : Spectrum F} (h : Aligned s) (h' : Aligned s')
    (hs : s'.std = s.std) : SameForm s'.values s.values := by
  rcases h with ⟨x, y, h1, h2⟩ | ⟨xs, ys, h1, h2, h3⟩ <;>
  rcases h' with ⟨x', y', h1', h2'⟩ | ⟨xs', ys', h1', h2', h3'⟩ <;>
  rw [h2, h2'] at hs <;> cases hs
  · rw [h1, h1']; trivial
  · rw [h1, h1']; simp only [SameForm]; omega

theorem stored_absorption {m : Material XR} (hcp : m.cplx = none) {raw : Raw XR}
    (hraw : FloatInput raw) {t u : String} {s : Spectrum XR} (hs : Spectrum.new raw t u = .ok s)
    (hne : s.values.toList ≠ []) (hv : ∀ x ∈ s.values.toList, NonNeg x) {v : CVals XR} {b : Bool}
    {zs : List ℂ} (he : (m.evalStored s).1 = .ok v) (hf : Numbers v b zs) :
    ∃ v', (m.removeAbsorption.2.evalStored s).1 = .ok v' ∧
      Numbers v' b (zs.map (fun z => (⟨z.re, 0⟩ : ℂ))) := by
  have h0 : (lit 0 : XR) = XR.fin 0 := by show XR.fin _ = _; norm_num
  have hal := aligned_new hraw hs
  unfold Material.evalStored at he ⊢
  simp only [removeAbsorption_eq]
  rw [hcp] at he ⊢
  simp only at he ⊢
  cases hr : m.real with
  | none => rw [hr] at he; cases he
  | some dr =>
    cases hi : m.imag with
    | none =>
      rw [hr, hi] at he
      simp only [evalPart] at he
      cases hx : dr.evaluate s with
      | mk x s1 => rw [hx] at he; cases x <;> cases he
    | some di =>
      rw [hr, hi] at he
      simp only [evalPart] at he ⊢
      obtain ⟨hist, hh⟩ := evaluate_history dr s
      have hform := fun v => evaluate_form dr s hal (v := v)
      have hstd := evaluate_std dr s
      cases hx : dr.evaluate s with
      | mk x s1 =>
        rw [hx] at he hh hform hstd
        cases x with
        | error e => cases he
        | ok r =>
          simp only at he hh hform hstd ⊢
          have hal1 : Aligned s1 := hh ▸ aligned_after hal hist
          have hr1 := hform r rfl
          obtain ⟨hist2, hh2⟩ := evaluate_history di s1
          have hform2 := fun v => evaluate_form di s1 hal1 (v := v)
          have hstd2 := evaluate_std di s1
          cases hy : di.evaluate s1 with
          | mk y s2 =>
            rw [hy] at he hh2 hform2 hstd2
            cases y with
            | error e => cases he
            | ok i =>
              simp only at he hh2 hform2 hstd2
              have hal2 : Aligned s2 := hh2 ▸ aligned_after hal1 hist2
              have hi1 := (hform2 i rfl).trans (aligned_sameForm hal1 hal2 hstd2)
              rw [cdata_evaluate _ hraw hs hne hv hstd, h0]
              exact combine_zero hr1 hi1 he hf

/-- C30 on the ideal arithmetic, for every material and every spectrum of values in [0, inf] of
every type and unit at which the described quantity was finite: afterwards it has the same real
parts and vanishing imaginary parts. Missing for the full claim: spectra with negative values,
for which it is false. -/
theorem C30_real_part_partial (m : Material XR) (hcp : m.cplx = none)
    (hn : m.name = "nk" ∨ m.name = "eps") (raw : Raw XR)
    (hraw : FloatInput raw) (t u : String) (s : Spectrum XR) (hs : Spectrum.new raw t u = .ok s)
    (hne : s.values.toList ≠ []) (hv : ∀ x ∈ s.values.toList, NonNeg x) (v : CVals XR) (b : Bool)
    (zs : List ℂ) (he : reported m s = .ok v) (hf : Numbers v b zs) :
    ∃ v', reported m.removeAbsorption.2 s = .ok v' ∧
      Numbers v' b (zs.map (fun z => (⟨z.re, 0⟩ : ℂ))) := by
  have hname : m.removeAbsorption.2.name = m.name := by rw [removeAbsorption_eq]
  have hfr : Fresh s := ⟨raw, t, u, hs⟩
  have key : ∀ m' : Material XR, m'.name = "nk" ∨ m'.name = "eps" →
      reported m' s = (m'.evalStored s).1 := by
    intro m' hn'
    unfold reported
    rcases hn' with h | h
    · rw [if_neg (by rw [h]; decide), getNk_fresh m' hfr (.inl h), h]
      cases (m'.evalStored s).1 with
      | error e => rfl
      | ok v => simp only [Except.map]; rw [if_neg (by decide)]
    · rw [if_pos h, getPermittivity_eq m' s (.inr h), h]
      cases (m'.evalStored s).1 with
      | error e => rfl
      | ok v => simp only [Except.map]; rw [if_neg (by decide)]
  rw [key m hn] at he
  rw [key _ (by rw [hname]; exact hn)]
  exact stored_absorption hcp hraw hs hne hv he hf

/-- C30 is false: tables of n and k at wavelengths from -2 to -1 can be evaluated at -1.5; after
`remove_absorption` this raises. -/
theorem C30_refuted [NumText XR] : ¬ C30_statement := by
  intro hst
  have hab : (-2 : ℝ) < -1 := by norm_num
  obtain ⟨m, hm, hn, hc, hr, hi, -⟩ := two_tables (a := -2) (b := -1) (ya := 1.5) (yb := 1.6)
    (a' := -2) (b' := -1) (ya' := 0) (yb' := 1) hab hab
  obtain ⟨-, -, -, h⟩ := hst _ _ m hm
  let s := metreSpectrum (([-1.5] : List ℝ).map XR.fin)
  have hs : Fresh s := ⟨_, _, _, metreSpectrum_new _⟩
  have hev : ∀ ya yb : ℝ, (lineData (-2) (-1) ya yb).evaluate s =
      (.ok (.array .float [XR.fin (lineAt (-2) (-1) ya yb (-1.5))]), s) := by
    intro ya yb
    exact lineData_evaluate hab [-1.5] (by simp)
      (by intro y hy; simp only [List.mem_singleton] at hy; subst hy; norm_num)
  have hrep : reported m s = .ok (.array [toCx ⟨lineAt (-2) (-1) 1.5 1.6 (-1.5),
      lineAt (-2) (-1) 0 1 (-1.5)⟩]) := by
    unfold reported
    rw [if_neg (by rw [hn]; decide), getNk_fresh m hs (.inl hn), hn]
    unfold Material.evalStored
    rw [hc, hr, hi]
    simp only [evalPart, hev, combineParts, List.length_cons, if_true, Except.map,
      List.zipWith_cons_cons, List.zipWith_nil_left, cplxOf_fin]
    rw [if_neg (by decide)]
  obtain ⟨v', hv', -⟩ := h hc s hs _ true [_] hrep (.array [_])
  have herr : (cdata (lit 0 : XR)).evaluate s = (.error .value, s) := by
    simp only [cdata, RealData.evaluate]
    have hov : s.convertTo (defaultSpec : Spectrum XR).stype (defaultSpec : Spectrum XR).unit =
        .ok (.array .float (([-1.5] : List ℝ).map XR.fin)) := metreSpectrum_convert _
    have h0 : (lit 0 : XR) = XR.fin 0 := by show XR.fin _ = _; norm_num
    have hdv : (defaultSpec : Spectrum XR).values.toList = [XR.fin 0, XR.pinf] := by
      simp only [defaultSpec, Vals.toList, h0]; rfl
    have := contains_spec (defaultSpec : Spectrum XR) s _ (by rw [hdv]; simp) hov
      (by simp [Vals.toList]) (by rw [hdv]; intro x hx; simp at hx; rcases hx with rfl | rfl <;> rfl)
      (by intro x hx; simp [Vals.toList] at hx; subst hx; rfl)
    rw [this, hdv, if_pos]
    · have hu : (defaultSpec : Spectrum XR).unit = "m" := rfl
      rw [hu, show dictGet displayNames "m" = .ok _ from rfl]
      rfl
    · refine ⟨XR.fin (-1.5), by simp [Vals.toList], .inl ?_⟩
      intro a ha
      simp only [List.mem_cons, List.not_mem_nil, or_false] at ha
      rcases ha with rfl | rfl
      · simp only [XR.lt_fin]; norm_num
      · rfl
  have hname : m.removeAbsorption.2.name = "nk" := by rw [removeAbsorption_eq]; exact hn
  unfold reported at hv'
  rw [if_neg (by rw [hname]; decide), getNk_fresh _ hs (.inl hname)] at hv'
  unfold Material.evalStored at hv'
  simp only [removeAbsorption_eq, hc, hr, evalPart, hev, herr] at hv'
  cases hv'

/-- Concrete case for `C30_real_part_partial`: an absorbing glass at 1.5 m. -/
example [NumText XR] : ∃ m : Material XR, ∃ v zs, m.cplx = none ∧ m.name = "nk" ∧
    reported m (metreSpectrum (([1.5] : List ℝ).map XR.fin)) = .ok v ∧ Numbers v true zs ∧
    ∀ z ∈ zs, z.im ≠ 0 := by
  have hab : (1 : ℝ) < 2 := by norm_num
  obtain ⟨m, hm, hn, hc, hr, hi, -⟩ := two_tables (a := 1) (b := 2) (ya := 1.5) (yb := 1.6)
    (a' := 1) (b' := 2) (ya' := 0) (yb' := 1) hab hab
  have hev : ∀ ya yb : ℝ, (lineData 1 2 ya yb).evaluate
      (metreSpectrum (([1.5] : List ℝ).map XR.fin)) =
      (.ok (.array .float [XR.fin (lineAt 1 2 ya yb 1.5)]),
        metreSpectrum (([1.5] : List ℝ).map XR.fin)) := by
    intro ya yb
    exact lineData_evaluate hab [1.5] (by simp)
      (by intro y hy; simp only [List.mem_singleton] at hy; subst hy; norm_num)
  refine ⟨m, .array [toCx ⟨lineAt 1 2 1.5 1.6 1.5, lineAt 1 2 0 1 1.5⟩], [_], hc, hn, ?_,
    .array [_], ?_⟩
  · unfold reported
    rw [if_neg (by rw [hn]; decide), getNk_fresh m ⟨_, _, _, metreSpectrum_new _⟩ (.inl hn), hn]
    unfold Material.evalStored
    rw [hc, hr, hi]
    simp only [evalPart, hev, combineParts, List.length_cons, if_true, Except.map,
      List.zipWith_cons_cons, List.zipWith_nil_left, cplxOf_fin]
    rw [if_neg (by decide)]
  · intro z hz
    simp only [List.mem_singleton] at hz
    subst hz
    simp only [lineAt]
    norm_num

/-! ## C31 -/

/-- C31 is false in its strong form: a table from 1 m to 2 m extrapolated to 3 m, evaluated at
2.5e9 nm, leaves a Spectrum in metres. -/
theorem C31_refuted [NumText XR] [SciPyLaws] : ¬ C31_statement XR := by
  intro hst
  have hab : (1 : ℝ) < 2 := by norm_num
  obtain ⟨m, hm, hn, hc, hr, hi, -⟩ := two_tables (a := 1) (b := 2) (ya := 1.5) (yb := 1.6)
    (a' := 1) (b' := 2) (ya' := 0) (yb' := 1) hab hab
  obtain ⟨spl, h1, -⟩ := lineData_extrap (a := 1) (b := 2) (ya := 1.5) (yb := 1.6) (e := 3)
    (by norm_num) hab (by norm_num) 1 (by norm_num) (by norm_num)
  obtain ⟨spl', h2, -⟩ := lineData_extrap (a := 1) (b := 2) (ya := 0) (yb := 1) (e := 3)
    (by norm_num) hab (by norm_num) 1 (by norm_num) (by norm_num)
  have hx : m.extrapolate (metreSpectrum ([3].map XR.fin)) 1 = (.ok (), { m with
      real := some (.extrap (lineData 1 2 1.5 1.6) 1 spl (metreSpectrum ([1, 3].map XR.fin))
        "wavelength" "m")
      imag := some (.extrap (lineData 1 2 0 1) 1 spl' (metreSpectrum ([1, 3].map XR.fin))
        "wavelength" "m") }, metreSpectrum ([3].map XR.fin)) := by
    unfold Material.extrapolate
    rw [hc, hr, hi]
    rw [part_line_ok h1]
    simp only
    rw [part_line_ok h2]
  let s : Spectrum XR :=
    { values := .array .float [XR.fin 2500000000]
      stype := "wavelength"
      unit := "nm"
      std := .array .float [XR.fin 2.5] }
  have hs : Fresh s := by
    have hl : lower "wavelength" = "wavelength" := by decide +kernel
    refine ⟨.list .float [XR.fin 2500000000], "wavelength", "nm", ?_⟩
    rw [new_list (c := "nm") (by decide +kernel), hl]
    simp only [List.map_cons, List.map_nil, fromElem, String.reduceEq, if_false, if_true, s]
    rw [show (lit 1e-9 : XR) = XR.fin ((1e-9 : ℚ) : ℝ) from rfl, XR.mul_fin]
    norm_num
  obtain ⟨-, -, -, h⟩ := hst _ _ m hm (metreSpectrum ([3].map XR.fin)) s 1
    ⟨_, _, _, metreSpectrum_new _⟩ hs
  rw [hx] at h
  have hcon : (lineData 1 2 1.5 1.6).range.contains s = .error .value := by
    have : (lineData 1 2 1.5 1.6).range.contains s =
        (lineData 1 2 1.5 1.6).range.contains (metreSpectrum ([2.5].map XR.fin)) :=
      contains_congr rfl _
    rw [this]
    exact metre_not_contains [1, 2] [2.5] (by simp) (y := 2.5) (by simp)
      (.inr (by intro a ha; simp only [List.mem_cons, List.not_mem_nil, or_false] at ha
                rcases ha with rfl | rfl <;> norm_num))
  have hin : s.convertInPlace "wavelength" "m" =
      (.ok (), metreSpectrum ([2.5].map XR.fin)) := by
    have h1 := metre_convertInPlace ([2.5].map XR.fin)
    unfold Spectrum.convertInPlace at h1 ⊢
    rw [Spectrum.convertCore_eq] at h1 ⊢
    simp only [s, metreSpectrum] at h1 ⊢
    exact h1
  have hreal : ((RealData.extrap (lineData 1 2 1.5 1.6) 1 spl (metreSpectrum ([1, 3].map XR.fin))
      "wavelength" "m").evaluate s).2 = metreSpectrum ([2.5].map XR.fin) := by
    simp only [RealData.evaluate, hcon, hin]
    rfl
  have himag : ((RealData.extrap (lineData 1 2 0 1) 1 spl' (metreSpectrum ([1, 3].map XR.fin))
      "wavelength" "m").evaluate (metreSpectrum ([2.5].map XR.fin))).2 =
      metreSpectrum ([2.5].map XR.fin) := by
    have hcon' : (lineData 1 2 0 1).range.contains (metreSpectrum ([2.5].map XR.fin)) =
        .error .value :=
      metre_not_contains [1, 2] [2.5] (by simp) (y := 2.5) (by simp)
        (.inr (by intro a ha; simp only [List.mem_cons, List.not_mem_nil, or_false] at ha
                  rcases ha with rfl | rfl <;> norm_num))
    simp only [RealData.evaluate, hcon', metre_convertInPlace]
    rfl
  have hfin : ∀ m' : Material XR, m'.name = "nk" → m'.cplx = none →
      m'.real = some (.extrap (lineData 1 2 1.5 1.6) 1 spl (metreSpectrum ([1, 3].map XR.fin))
        "wavelength" "m") →
      m'.imag = some (.extrap (lineData 1 2 0 1) 1 spl' (metreSpectrum ([1, 3].map XR.fin))
        "wavelength" "m") → (m'.getPermittivity s).2 = metreSpectrum ([2.5].map XR.fin) := by
    intro m' hn' hc' hr' hi'
    have : (m'.evalStored s).2 = metreSpectrum ([2.5].map XR.fin) := by
      unfold Material.evalStored
      rw [hc', hr', hi']
      simp only [evalPart]
      generalize (RealData.extrap (lineData 1 2 1.5 1.6) 1 spl (metreSpectrum ([1, 3].map XR.fin))
        "wavelength" "m").evaluate s = q at hreal
      obtain ⟨x, s1⟩ := q
      obtain rfl : s1 = _ := hreal
      cases x with
      | error e => rfl
      | ok r =>
        simp only
        generalize (RealData.extrap (lineData 1 2 0 1) 1 spl'
          (metreSpectrum ([1, 3].map XR.fin)) "wavelength" "m").evaluate
          (metreSpectrum ([2.5].map XR.fin)) = q at himag
        obtain ⟨y, s2⟩ := q
        cases y <;> exact himag
    unfold Material.getPermittivity
    rw [if_neg (not_not.2 (.inl hn'))]
    cases he : m'.evalStored s with
    | mk x s' =>
      rw [he] at this
      cases x <;> exact this
  have h := (hfin { m with
      real := some (.extrap (lineData 1 2 1.5 1.6) 1 spl (metreSpectrum ([1, 3].map XR.fin))
        "wavelength" "m")
      imag := some (.extrap (lineData 1 2 0 1) 1 spl' (metreSpectrum ([1, 3].map XR.fin))
        "wavelength" "m") } hn hc rfl rfl).symm.trans h
  have := congrArg Spectrum.unit h
  simp only [s, metreSpectrum] at this
  exact absurd this (by decide)

end ideal

end Disp

import Verif.Props.DoubleMixtures
import Verif.Props.DoubleInterpolation
import Verif.Props.DoubleRange
import Verif.Props.TableAccuracy
import Verif.Props.Plots
/-!
# What an effective medium reports at the wavelengths it was built with, in double precision

The medium keeps a table of the mixed permittivities. Asked at the wavelengths of this table it
interpolates, with an error of at most 9·2⁻⁵³ of each stored part; a medium of a single wavelength
returns the stored number.
-/

namespace Disp

noncomputable section

open Dbl Spec

section

variable {F : Type} [PyFloat F]

/-- A spectrum expressed in metres is its reference form. -/
theorem converts_metres {q : Spectrum F} (hal : Aligned q) :
    q.convertTo "wavelength" "m" = .ok q.std := by
  rw [Spectrum.convertTo_eq]
  have hl : lower "wavelength" = "wavelength" := by decide +kernel
  rw [hl, (specLookup_ok_iff (c := "m")).2 (by decide +kernel)]
  simp only
  rcases hal with ⟨x, y, h1, h2⟩ | ⟨xs, ys, h1, h2, h3⟩
  · rw [h2, convertVals_scalar (by decide +kernel)]; simp [toElem]
  · rw [h2, convertVals_array (by decide +kernel)]
    congr 2
    conv_rhs => rw [← List.map_id ys]
    exact List.map_congr_left fun a _ => by simp [toElem]

end

variable [SciPy Dbl]

omit [SciPy Dbl] in
theorem fin_noNaN {x : Dbl} {r : ℝ} (h : x.val = .fin r) : PyFloat.isNaN x = false := by
  show PyFloat.isNaN x.val = false
  rw [h]; rfl

omit [SciPy Dbl] in
theorem le_self {x : Dbl} (h : PyFloat.isNaN x = false) : PyFloat.le x x = true := by
  rw [LawfulCmp.le_eq_not_lt _ _ h h, LawfulCmp.lt_irrefl]; rfl

/-- What the data of a table report at the abscissae of the table. -/
theorem tableData_entries {ps : List (Dbl × Dbl)} {l : List (ℝ × ℝ)} (hl : DblTable ps l)
    (hm : ModerateTable l) {d : RealData Dbl} (hd : tableData .float ps "wavelength" "m" = .ok d)
    {q : Spectrum Dbl} (hq : Aligned q) (hqs : q.std.toList = ps.map (·.1)) :
    ∃ v, d.evaluate q = (.ok v, q) ∧ SameForm v q.std ∧
      ∀ (i : ℕ) (r : ℝ × ℝ), l[i]? = some r →
        ∃ w y, v.toList[i]? = some w ∧ w.val = .fin y ∧ |y - r.2| ≤ |r.2| * 9 / 2 ^ 53 := by
  have hconv := converts_metres hq
  have hnn : NoNaN (ps.map (·.1)) := by
    intro x hx
    obtain ⟨p, hp, rfl⟩ := List.mem_map.1 hx
    obtain ⟨r, -, hr⟩ := hl.mem hp
    exact fin_noNaN hr.1
  have hnq : NoNaN q.std.toList := by rw [hqs]; exact hnn
  have hwi : Within (ps.map (·.1)) q.std.toList := by
    rw [hqs]
    intro y hy
    exact ⟨⟨y, hy, le_self (hnn y hy)⟩, ⟨y, hy, le_self (hnn y hy)⟩⟩
  have hsnd : (d.evaluate q).2 = q := by
    unfold tableData at hd
    split at hd
    · unfold RealData.newConstant at hd
      obtain ⟨r, -, hd⟩ := except_bind_ok hd
      cases hd; rfl
    · obtain ⟨lo, hi, r, -, -, -, -, -, rfl⟩ := newInterp_ok hd
      rfl
  by_cases h1 : ∃ p, ps = [p]
  · obtain ⟨⟨x, c⟩, rfl⟩ := h1
    have hne : q.std.toList ≠ [] := by rw [hqs]; simp
    simp only [tableData] at hd
    unfold RealData.newConstant at hd
    obtain ⟨r, hr, hd⟩ := except_bind_ok hd
    cases hd
    obtain ⟨a1, a2, a3⟩ := C01_stored _ _ _ _ hr
    have hrv : r.values = .array .float [x, x] := (Except.ok.inj a3).symm
    have hl1 : lower "wavelength" = "wavelength" := by decide +kernel
    have hl2 : lower "m" = "m" := by decide +kernel
    rw [hl1] at a1
    have hru : r.unit = "m" := by
      rw [hl1, hl2] at a2
      exact names_functional _ a2 ("wavelength", "m", "m") (by decide +kernel) rfl rfl
    have hc : r.contains q = .ok true := by
      refine (contains_iff r q q.std ?_ ?_ hne ?_ hnq ?_).1 ?_
      · rw [hrv]; simp [Vals.toList]
      · rw [a1, hru]; exact hconv
      · rw [hrv]
        intro z hz
        simp only [Vals.toList, List.mem_cons, List.not_mem_nil, or_false, or_self] at hz
        exact hnn z (by simp [hz])
      · rw [hru]; decide +kernel
      · rw [hrv]
        intro y hy
        obtain ⟨⟨a, ha, hay⟩, ⟨b, hb, hyb⟩⟩ := hwi y hy
        simp only [List.map_cons, List.map_nil, List.mem_singleton] at ha hb
        exact ⟨⟨a, by simp [Vals.toList, ha], hay⟩, ⟨b, by simp [Vals.toList, hb], hyb⟩⟩
    have hrow : ∀ (i : ℕ) (r : ℝ × ℝ), l[i]? = some r → i = 0 ∧ c.val = .fin r.2 := by
      intro i r hr
      cases hl with
      | cons h t =>
        cases t
        cases i with
        | zero =>
          simp only [List.getElem?_cons_zero, Option.some.injEq] at hr
          subst hr
          exact ⟨rfl, h.2⟩
        | succ i => simp at hr
    have hz : ∀ y : ℝ, |y - y| ≤ |y| * 9 / 2 ^ 53 := by
      intro y; rw [sub_self, abs_zero]; positivity
    rcases hq with ⟨x', y', g1, g2⟩ | ⟨xs, ys, g1, g2, g3⟩
    · refine ⟨.scalar c, ?_, ?_, ?_⟩
      · unfold RealData.evaluate
        rw [hc]
        simp only [bind, Except.bind, g1]
      · rw [g2]; trivial
      · intro i r hr
        obtain ⟨rfl, hv⟩ := hrow i r hr
        exact ⟨c, r.2, rfl, hv, hz _⟩
    · refine ⟨.array .float (xs.map (fun _ => c * lit 1)), ?_, ?_, ?_⟩
      · unfold RealData.evaluate
        rw [hc]
        simp only [bind, Except.bind, g1]
      · rw [g2]
        show (xs.map _).length = ys.length
        rw [List.length_map, g3]
      · intro i r hr
        obtain ⟨rfl, hv⟩ := hrow i r hr
        have hys : ys.length = 1 := by
          rw [g2] at hqs
          rw [show ys = [x] from hqs]
          rfl
        have : xs.length = 1 := g3.trans hys
        obtain ⟨x', rfl⟩ := List.length_eq_one_iff.1 this
        refine ⟨c, r.2, ?_, hv, hz _⟩
        simp [Vals.toList, LawfulOne.mul_one]
  · have hd' : RealData.newInterp .float ps "wavelength" "m" 1 = .ok d := by
      unfold tableData at hd
      split at hd
      · exact absurd ⟨_, rfl⟩ h1
      · exact hd
    have hlen : 2 ≤ ps.length := by
      obtain ⟨-, -, -, -, -, -, h4, -, -⟩ := newInterp_ok hd'
      exact h4
    have hne : q.std.toList ≠ [] := by
      rw [hqs]
      intro h
      have : ps = [] := by simpa using h
      rw [this] at hlen; simp at hlen
    have he := (table_evaluate ps "wavelength" "m" "m" (by decide +kernel) 1 d hd' hnn q q.std hconv
      hne hnq).1 hwi
    have hq' : ∃ ys, q.std = .array .float ys := by
      rcases hq with ⟨x', y', g1, g2⟩ | ⟨xs, ys, g1, g2, g3⟩
      · rw [g2] at hqs
        have := congrArg List.length hqs
        simp only [Vals.toList, List.length_singleton, List.length_map] at this
        omega
      · exact ⟨ys, g2⟩
    obtain ⟨ys, hys⟩ := hq'
    obtain ⟨vs, hvs, hvl⟩ := mapM_total (interpAt 1 ps) ys (by
      intro a ha
      have ha' : a ∈ q.std.toList := by rw [hys]; exact ha
      have : ∃ y, interpLinear ps a = .ok y := interpLinear_within ps hnn a (hnq a ha') (by
        intro y hy
        rw [List.mem_singleton] at hy
        subst hy
        exact hwi y ha')
      simpa [interpAt] using this)
    have hval : (d.evaluate q).1 = .ok (.array .float vs) := by
      rw [he, hys]
      simp only [Vals.mapRes, hvs, bind, Except.bind]
    refine ⟨.array .float vs, Prod.ext hval hsnd, ?_, ?_⟩
    · rw [hys]; exact hvl
    · intro i r hr
      have hi : ∃ z, q.std.toList[i]? = some z ∧ z.val = .fin r.1 := by
        obtain ⟨hil, hir⟩ := List.getElem?_eq_some_iff.1 hr
        have hpl : i < ps.length := by rw [hl.length_eq]; exact hil
        have hrow := List.forall₂_iff_get.1 hl
        have := hrow.2 i hpl hil
        refine ⟨ps[i].1, ?_, ?_⟩
        · rw [hqs, List.getElem?_map, List.getElem?_eq_getElem hpl]; rfl
        · rw [← hir]; exact this.1
      obtain ⟨z, hz1, hz2⟩ := hi
      exact C90_entries ps l hl hm "wavelength" "m" d hd' q _ q.std hval hconv i z r
        (List.mem_of_getElem? hr) hz1 hz2

/-- Specification: the numbers that a result consists of. -/
def Spec.points (v : CVals Dbl) : List (Cx Dbl) :=
  match v with
  | .scalar z => [z]
  | .array zs => zs

/-- Specification: the part `w` is the number `x` up to a relative error of `k` units of 2⁻⁵³. -/
def Spec.Close (k : ℕ) (x : ℝ) (w : Dbl) : Prop :=
  ∃ y, w.val = .fin y ∧ |y - x| ≤ |x| * k / 2 ^ 53

omit [SciPy Dbl] in
theorem combine_points {vr vi v : Vals Dbl} (hr : SameForm vr v) (hi : SameForm vi v) :
    ∃ c, combineParts vr vi = .ok c ∧
      ∀ (i : ℕ) (x y : Dbl), vr.toList[i]? = some x → vi.toList[i]? = some y →
        (points c)[i]? = some (cplxOf x y) := by
  cases v with
  | scalar _ =>
    cases vr with
    | array _ _ => exact hr.elim
    | scalar x =>
      cases vi with
      | array _ _ => exact hi.elim
      | scalar y =>
        refine ⟨_, rfl, ?_⟩
        intro i x' y' h1 h2
        cases i with
        | zero =>
          simp only [Vals.toList, List.getElem?_cons_zero, Option.some.injEq] at h1 h2
          subst h1 h2
          rfl
        | succ i => simp [Vals.toList] at h1
  | array _ vs =>
    cases vr with
    | scalar _ => exact hr.elim
    | array _ xs =>
      cases vi with
      | scalar _ => exact hi.elim
      | array _ ys =>
        have hr : xs.length = vs.length := hr
        have hi : ys.length = vs.length := hi
        refine ⟨.array (List.zipWith cplxOf xs ys), by simp [combineParts, hr, hi], ?_⟩
        intro i x' y' h1 h2
        have h1 : xs[i]? = some x' := h1
        have h2 : ys[i]? = some y' := h2
        show (List.zipWith cplxOf xs ys)[i]? = _
        rw [List.getElem?_zipWith, h1, h2]

omit [SciPy Dbl] in
/-- The rows of the table of a medium on paper. -/
theorem medium_rows (g : Cx Dbl → Dbl) :
    ∀ (xs : List Dbl) (zs : List (Cx Dbl)), xs.length = zs.length →
      (∀ x ∈ xs, ∃ r, x.val = .fin r ∧ Mag 60 r) →
      (∀ z ∈ zs, ∃ a, (g z).val = .fin a ∧ Ordinary a) →
      ∃ l, DblTable (List.zipWith (fun x z => (x, g z)) xs zs) l ∧ ModerateTable l ∧
        ∀ (i : ℕ) (z : Cx Dbl), zs[i]? = some z → ∃ r : ℝ × ℝ, l[i]? = some r ∧ (g z).val = .fin r.2
  | [], [], _, _, _ => ⟨[], .nil, by simp [ModerateTable], by simp⟩
  | x :: xs, z :: zs, hlen, hx, hz => by
    obtain ⟨l, h1, h2, h3⟩ := medium_rows g xs zs (by simpa using hlen)
      (fun x h => hx x (by simp [h])) (fun z h => hz z (by simp [h]))
    obtain ⟨r, r1, r2⟩ := hx x (by simp)
    obtain ⟨a, a1, a2⟩ := hz z (by simp)
    refine ⟨(r, a) :: l, .cons ⟨r1, a1⟩ h1, ?_, ?_⟩
    · intro p hp
      rcases List.mem_cons.1 hp with rfl | hp
      · exact ⟨⟨r2.low, r2.high⟩, a2.imp id (fun h => ⟨h.low, h.high⟩)⟩
      · exact h2 p hp
    · intro i w hw
      cases i with
      | zero =>
        simp only [List.getElem?_cons_zero, Option.some.injEq] at hw
        subst hw
        exact ⟨(r, a), rfl, a1⟩
      | succ i =>
        simp only [List.getElem?_cons_succ] at hw
        exact h3 i w hw
  | [], _ :: _, h, _, _ => by simp at h
  | _ :: _, [], h, _, _ => by simp at h

/-- A medium asked at the wavelengths it was built with: it reports the mixed permittivities up to
9·2⁻⁵³ of each part. -/
theorem medium_entries {k : Mixing} {s : Spectrum Dbl} (hal : Aligned s)
    (hx : ∀ x ∈ s.std.toList, ∃ r, x.val = .fin r ∧ Mag 60 r) {m1 m2 m : Material Dbl} {f : Dbl}
    (hm : (effectiveMedium k s m1 m2 f).1 = .ok m) :
    PyFloat.lt f (lit 0) = false ∧ PyFloat.lt (lit 1) f = false ∧
    ∃ e1 e2 eps, (m1.getPermittivity s).1 = .ok e1 ∧ (m2.getPermittivity s).1 = .ok e2 ∧
      mixVals k f e1 e2 = .ok eps ∧
      ((∀ z ∈ points eps, (∃ a, z.re.val = .fin a ∧ Ordinary a) ∧
          ∃ b, z.im.val = .fin b ∧ Ordinary b) →
        ∀ q, Aligned q → q.std = s.std → ∃ c, (m.getPermittivity q).1 = .ok c ∧
          ∀ (i : ℕ) (z : Cx Dbl) (a b : ℝ), (points eps)[i]? = some z → z.re.val = .fin a → z.im.val = .fin b →
            ∃ w : Cx Dbl, (points c)[i]? = some w ∧ Close 9 a w.re ∧ Close 9 b w.im) := by
  have hf : PyFloat.lt f (lit 0) = false ∧ PyFloat.lt (lit 1) f = false := by
    by_contra hc
    unfold effectiveMedium at hm
    rw [if_pos (by
      by_contra h
      apply hc
      simpa using h)] at hm
    cases hm
  refine ⟨hf.1, hf.2, ?_⟩
  rw [(medium_outcome k hal m1 m2 f hf.1 hf.2).1] at hm
  obtain ⟨e1, h1, hm⟩ := except_bind_ok hm
  obtain ⟨e2, h2, hm⟩ := except_bind_ok hm
  obtain ⟨eps, h3, hm⟩ := except_bind_ok hm
  obtain ⟨t, h4, hm⟩ := except_bind_ok hm
  refine ⟨e1, e2, eps, h1, h2, h3, ?_⟩
  intro hz q hq hqs
  have hpe : eps.elems = points eps := by cases eps <;> rfl
  unfold mediumTable at h4
  split at h4
  rotate_left
  · cases h4
  rename_i hlen
  cases h4
  unfold processTable at hm
  simp only at hm
  rw [if_neg (by decide), if_neg (by decide), if_neg (by decide), if_neg (by decide),
    if_pos trivial] at hm
  have hw : ∀ r ∈ List.zipWith (fun x (z : Cx Dbl) => [x, z.re, z.im]) s.std.toList eps.elems,
      r.length = 3 := by
    intro r hr
    rw [← List.map_uncurry_zip_eq_zipWith] at hr
    obtain ⟨⟨x, z⟩, -, rfl⟩ := List.mem_map.1 hr
    rfl
  rw [specData_eq hw (by norm_num), specData_eq hw (by norm_num)] at hm
  obtain ⟨dr, g1, hm⟩ := except_bind_ok hm
  obtain ⟨di, g2, hm⟩ := except_bind_ok hm
  cases hm
  have hp1 : pairsOf (List.zipWith (fun x (z : Cx Dbl) => [x, z.re, z.im]) s.std.toList eps.elems) 1
      = List.zipWith (fun x z => (x, z.re)) s.std.toList eps.elems := by
    unfold pairsOf
    rw [List.map_zipWith]
    rfl
  have hp2 : pairsOf (List.zipWith (fun x (z : Cx Dbl) => [x, z.re, z.im]) s.std.toList eps.elems) 2
      = List.zipWith (fun x z => (x, z.im)) s.std.toList eps.elems := by
    unfold pairsOf
    rw [List.map_zipWith]
    rfl
  have hfst : ∀ g : Cx Dbl → Dbl,
      (List.zipWith (fun x z => (x, g z)) s.std.toList eps.elems).map (·.1) = s.std.toList := by
    intro g
    rw [List.map_zipWith]
    have := List.map_fst_zip (l₁ := s.std.toList) (l₂ := eps.elems) hlen.le
    rw [← List.map_uncurry_zip_eq_zipWith]
    exact this
  rw [hp1] at g1
  rw [hp2] at g2
  rw [← hpe] at hz
  obtain ⟨l1, a1, a2, a3⟩ := medium_rows (fun z => z.re) _ _ hlen hx (fun z h => (hz z h).1)
  obtain ⟨l2, b1, b2, b3⟩ := medium_rows (fun z => z.im) _ _ hlen hx (fun z h => (hz z h).2)
  obtain ⟨vr, c1, c2, c3⟩ := tableData_entries a1 a2 g1 hq (by rw [hqs, hfst])
  obtain ⟨vi, d1, d2, d3⟩ := tableData_entries b1 b2 g2 hq (by rw [hqs, hfst])
  obtain ⟨c, k1, k2⟩ := combine_points c2 d2
  refine ⟨c, ?_, ?_⟩
  · rw [getPermittivity_eq _ _ (.inr rfl)]
    unfold Material.evalStored
    simp only [blankMedium, evalPart, c1, d1, k1]
    rfl
  · intro i z a b hi ha hb
    rw [← hpe] at hi
    obtain ⟨r, r1, r2⟩ := a3 i z hi
    obtain ⟨r', r1', r2'⟩ := b3 i z hi
    obtain ⟨w, y, w1, w2, w3⟩ := c3 i r r1
    obtain ⟨w', y', w1', w2', w3'⟩ := d3 i r' r1'
    obtain ⟨v1, v2⟩ := cplxOf_val w2 w2'
    have e1 : r.2 = a := XR.fin.inj (r2.symm.trans ha)
    have e2 : r'.2 = b := XR.fin.inj (r2'.symm.trans hb)
    rw [e1] at w3
    rw [e2] at w3'
    exact ⟨_, k2 i w w' w1 w1', ⟨y, v1, by exact_mod_cast w3⟩, ⟨y', v2, by exact_mod_cast w3'⟩⟩

/-! ## A medium is built -/

section

variable {F : Type} [PyFloat F] [LawfulCmp F] [SciPy F]

/-- A medium is built if the mixing formula succeeds and no wavelength is given twice. -/
theorem medium_builds {k : Mixing} {s : Spectrum F} (hal : Aligned s) (hne : s.std.toList ≠ [])
    (hnn : NoNaN s.std.toList)
    (hd : s.std.toList.Pairwise (fun x y => PyFloat.eq x y = false)) {m1 m2 : Material F} {f : F}
    (h0 : PyFloat.lt f (lit 0) = false) (h1 : PyFloat.lt (lit 1) f = false) {e1 e2 eps : CVals F}
    (he1 : (m1.getPermittivity s).1 = .ok e1) (he2 : (m2.getPermittivity s).1 = .ok e2)
    (hmix : mixVals k f e1 e2 = .ok eps) (hlen : s.std.toList.length = eps.elems.length) :
    ∃ m, (effectiveMedium k s m1 m2 f).1 = .ok m := by
  rw [(medium_outcome k hal m1 m2 f h0 h1).1, he1, he2]
  simp only [bind, Except.bind, hmix]
  unfold mediumTable
  rw [if_pos hlen]
  simp only
  unfold processTable
  simp only
  rw [if_neg (by decide), if_neg (by decide), if_neg (by decide), if_neg (by decide),
    if_pos trivial]
  have hX : (List.zipWith (fun x (z : Cx F) => [x, z.re, z.im]) s.std.toList eps.elems).map rowX =
      s.std.toList := by
    rw [List.map_zipWith, ← List.map_uncurry_zip_eq_zipWith]
    exact List.map_fst_zip (l₁ := s.std.toList) (l₂ := eps.elems) hlen.le
  have hg : GoodTable 3 (List.zipWith (fun x (z : Cx F) => [x, z.re, z.im]) s.std.toList
      eps.elems) := by
    refine ⟨?_, ?_, ?_, ?_⟩
    · intro h
      rw [h] at hX
      exact hne hX.symm
    · intro r hr
      rw [← List.map_uncurry_zip_eq_zipWith] at hr
      obtain ⟨⟨x, z⟩, -, rfl⟩ := List.mem_map.1 hr
      rfl
    · intro r hr
      refine hnn _ ?_
      rw [← hX]
      exact List.mem_map.2 ⟨r, hr, rfl⟩
    · rw [← hX, List.pairwise_map] at hd
      exact hd
  have hc : ∀ t u : String, t = "wavelength" → u = "m" → (lower t, lower u, "m") ∈ names := by
    rintro t u rfl rfl; decide +kernel
  obtain ⟨dr, g1⟩ := tableData_ok hg 1 (hc (((Dataset.get ([] : Dataset F) "SpectrumType").nonEmptyStr).getD
    (blankMedium : Material F).defType) (((Dataset.get ([] : Dataset F) "Unit").nonEmptyStr).getD
    (blankMedium : Material F).defUnit) rfl rfl)
  obtain ⟨di, g2⟩ := tableData_ok hg 2 (hc (((Dataset.get ([] : Dataset F) "SpectrumType").nonEmptyStr).getD
    (blankMedium : Material F).defType) (((Dataset.get ([] : Dataset F) "Unit").nonEmptyStr).getD
    (blankMedium : Material F).defUnit) rfl rfl)
  rw [specData_eq hg.width (by norm_num), specData_eq hg.width (by norm_num), g1, g2]
  simp only [bind, Except.bind]
  exact ⟨_, rfl⟩

omit [LawfulCmp F] in
/-- A permittivity has the form of the spectrum. -/
theorem permittivity_form (m : Material F) {s : Spectrum F} (h : Aligned s) {v : CVals F}
    (hv : (m.getPermittivity s).1 = .ok v) : CForm v s.values := by
  by_cases hn : m.name = "nk" ∨ m.name = "eps"
  · rw [getPermittivity_eq m s hn] at hv
    cases hs : (m.evalStored s).1 with
    | error e => rw [hs] at hv; cases hv
    | ok w =>
      rw [hs] at hv
      cases hv
      have := evalStored_form m h hs
      split
      · exact this.map _
      · exact this
  · unfold Material.getPermittivity at hv
    rw [if_pos hn] at hv
    cases hv

omit [LawfulCmp F] [SciPy F] in
/-- Elementwise operations on results for the same spectrum succeed. -/
theorem zip_form {g : Cx F → Cx F → Cx F} {a b : CVals F} {v : Vals F} (ha : CForm a v)
    (hb : CForm b v) : ∃ c, CVals.zip g a b = .ok c ∧ CForm c v := by
  cases v with
  | scalar x =>
    cases a with
    | array _ => exact ha.elim
    | scalar a =>
      cases b with
      | array _ => exact hb.elim
      | scalar b => exact ⟨_, rfl, trivial⟩
  | array dt xs =>
    cases a with
    | scalar _ => exact ha.elim
    | array a =>
      cases b with
      | scalar _ => exact hb.elim
      | array b =>
        have ha : a.length = xs.length := ha
        have hb : b.length = xs.length := hb
        refine ⟨.array (List.zipWith g a b), by simp [CVals.zip, ha, hb], ?_⟩
        show (List.zipWith g a b).length = _
        rw [List.length_zipWith, ha, hb, min_self]

omit [LawfulCmp F] [SciPy F] in
theorem CForm.length_std {c : CVals F} {s : Spectrum F} (hal : Aligned s) (h : CForm c s.values) :
    s.std.toList.length = c.elems.length := by
  rcases hal with ⟨x, y, h1, h2⟩ | ⟨xs, ys, h1, h2, h3⟩
  · rw [h1] at h
    cases c with
    | array _ => exact h.elim
    | scalar z => rw [h2]; rfl
  · rw [h1] at h
    cases c with
    | scalar _ => exact h.elim
    | array zs =>
      have h : zs.length = xs.length := h
      rw [h2]
      show ys.length = zs.length
      omega

end

end

end Disp

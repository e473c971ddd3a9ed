import Verif.Props.AbsorbingMixtures
import Verif.Props.DoubleMixtures
/-!
# C145: mixtures of mixtures

An effective medium is a material and can be mixed again. All media of such a hierarchy are built
at one Spectrum object, which every step converts to metres (`inMetres`), so the object is handed on
from step to step as Python does.
-/

namespace Disp

open Spec

namespace Spec

/-- How a mixture is made: a material, or a medium of a host and a fraction of inclusions which may
be mixtures themselves. -/
inductive Recipe (F : Type)
  | only (i : ℕ)
  | mix (k : Mixing) (f : F) (host incl : Recipe F)

variable {F : Type}

/-- The materials that occur. -/
def Recipe.parts : Recipe F → List ℕ
  | .only i => [i]
  | .mix _ _ a b => a.parts ++ b.parts

/-- The kinds of media that occur. -/
def Recipe.kinds : Recipe F → List Mixing
  | .only _ => []
  | .mix k _ a b => k :: (a.kinds ++ b.kinds)

/-- Every fraction satisfies a condition. -/
def Recipe.Fractions (P : F → Prop) : Recipe F → Prop
  | .only _ => True
  | .mix _ f a b => P f ∧ a.Fractions P ∧ b.Fractions P

end Spec

/-- The calls of a program that makes the mixture: first the host, then the inclusions, then the
medium, all at the same Spectrum object (material.py 911-927 for each medium). -/
def make {F : Type} [PyFloat F] [SciPy F] (mats : ℕ → Material F) :
    Recipe F → Spectrum F → Res (Material F) × Spectrum F
  | .only i, s => (.ok (mats i), s)
  | .mix k f a b, s =>
    match make mats a s with
    | (.error e, s1) => (.error e, s1)
    | (.ok m1, s1) =>
      match make mats b s1 with
      | (.error e, s2) => (.error e, s2)
      | (.ok m2, s2) => effectiveMedium k s2 m1 m2 f

section generic
variable {F : Type} [PyFloat F] [SciPy F]

omit [PyFloat F] [SciPy F] in
theorem aligned_inMetres {s : Spectrum F} (h : Aligned s) : Aligned (inMetres s) := by
  rcases h with ⟨x, y, -, h2⟩ | ⟨xs, ys, -, h2, -⟩
  · exact .inl ⟨y, y, h2, h2⟩
  · exact .inr ⟨ys, ys, h2, h2, rfl⟩

/-- A medium is only built for fractions that are not outside 0 to 1, and its Spectrum object still
stands for the same wavelengths. -/
theorem medium_keeps {k : Mixing} {s : Spectrum F} (hal : Aligned s) {m1 m2 m : Material F} {f : F}
    (h : (effectiveMedium k s m1 m2 f).1 = .ok m) :
    Aligned (effectiveMedium k s m1 m2 f).2 ∧ (effectiveMedium k s m1 m2 f).2.std = s.std := by
  by_cases hf : PyFloat.lt f (lit 0) = true ∨ PyFloat.lt (lit 1) f = true
  · rw [C37_rejects k s m1 m2 f hf] at h
    cases h
  · push Not at hf
    obtain ⟨-, o2, o3⟩ := medium_outcome k hal m1 m2 f (by simpa using hf.1) (by simpa using hf.2)
    rw [o2 m h]
    exact ⟨aligned_inMetres hal, rfl⟩

/-- Making a mixture leaves the wavelengths of the Spectrum object as they are. -/
theorem C145_same_wavelengths (mats : ℕ → Material F) (r : Recipe F) {s : Spectrum F}
    (hal : Aligned s) {m : Material F} (h : (make mats r s).1 = .ok m) :
    Aligned (make mats r s).2 ∧ (make mats r s).2.std = s.std := by
  induction r generalizing s m with
  | only i => exact ⟨hal, rfl⟩
  | mix k f a b iha ihb =>
    unfold make at h ⊢
    cases ha : make mats a s with
    | mk r1 s1 =>
      rw [ha] at h
      cases r1 with
      | error e => cases h
      | ok m1 =>
        obtain ⟨a1, a2⟩ := iha hal (m := m1) (by rw [ha])
        rw [ha] at a1 a2
        cases hb : make mats b s1 with
        | mk r2 s2 =>
          simp only [hb] at h ⊢
          cases r2 with
          | error e => cases h
          | ok m2 =>
            obtain ⟨b1, b2⟩ := ihb a1 (m := m2) (by rw [hb])
            rw [hb] at b1 b2
            obtain ⟨c1, c2⟩ := medium_keeps b1 h
            exact ⟨c1, c2.trans (b2.trans a2)⟩

end generic

section ideal
variable [SciPy XR]

theorem PermittivityAt.congr {m : Material XR} {s s' : Spectrum XR} (hal : Aligned s)
    (hal' : Aligned s') (h : s'.std = s.std) {ys : List ℝ} {A : ℝ → ℂ}
    (hp : PermittivityAt m s ys A) : PermittivityAt m s' ys A := by
  obtain ⟨e, h1, h2⟩ := hp
  exact ⟨e, by rw [getPermittivity_congr m hal hal' h, h1], by rw [h]; exact h2⟩

omit [SciPy XR] in
theorem StandsFor.congr {s s' : Spectrum XR} (h : s'.std = s.std) {ys : List ℝ}
    (hs : StandsFor s ys) : StandsFor s' ys := by
  unfold StandsFor at hs ⊢
  rw [h]; exact hs

/-- C145: every mixture of absorbing materials can be made, however often it is mixed again, and at
each wavelength it absorbs at least as strongly as one of the materials in it. -/
theorem C145_absorbs (mats : ℕ → Material XR) (A : ℕ → ℝ → ℂ) (r : Recipe XR)
    (hf : r.Fractions fun f => ∃ x : ℝ, f = XR.fin x ∧ 0 ≤ x ∧ x ≤ 1) (s : Spectrum XR)
    (hal : Aligned s) (harr : s.std.isArray = true) (ys : List ℝ) (hs : StandsFor s ys)
    (hnd : ys.Nodup) (hm : ∀ i ∈ r.parts, PermittivityAt (mats i) s ys (A i))
    (hp : ∀ i ∈ r.parts, ∀ y ∈ ys, 0 < (A i y).im) :
    ∃ m E, (make mats r s).1 = .ok m ∧ PermittivityAt m s ys E ∧
      ∀ y ∈ ys, ∃ i ∈ r.parts, (A i y).im ≤ (E y).im := by
  induction r generalizing s with
  | only i =>
    exact ⟨mats i, A i, rfl, hm i (by simp [Recipe.parts]),
      fun y _ => ⟨i, by simp [Recipe.parts], le_rfl⟩⟩
  | mix k f a b iha ihb =>
    obtain ⟨⟨x, rfl, x0, x1⟩, fa, fb⟩ := hf
    have pa : ∀ i ∈ a.parts, i ∈ (Recipe.mix k (XR.fin x) a b).parts := fun i h => by
      simp [Recipe.parts, h]
    have pb : ∀ i ∈ b.parts, i ∈ (Recipe.mix k (XR.fin x) a b).parts := fun i h => by
      simp [Recipe.parts, h]
    obtain ⟨m1, E1, a1, a2, a3⟩ := iha fa s hal harr hs (fun i h => hm i (pa i h))
      (fun i h => hp i (pa i h))
    obtain ⟨k1, k2⟩ := C145_same_wavelengths mats a hal a1
    obtain ⟨m2, E2, b1, b2, b3⟩ := ihb fb (make mats a s).2 k1 (by rw [k2]; exact harr)
      (StandsFor.congr k2 hs) (fun i h => (hm i (pb i h)).congr hal k1 k2) (fun i h => hp i (pb i h))
    obtain ⟨l1, l2⟩ := C145_same_wavelengths mats b k1 b1
    have hpos : ∀ y ∈ ys, 0 < (E1 y).im ∧ 0 < (E2 y).im := by
      intro y hy
      obtain ⟨i, i1, i2⟩ := a3 y hy
      obtain ⟨j, j1, j2⟩ := b3 y hy
      exact ⟨(hp i (pa i i1) y hy).trans_le i2, (hp j (pb j j1) y hy).trans_le j2⟩
    obtain ⟨m, E, c1, c2, c3, -⟩ := C143_absorbs k (make mats b (make mats a s).2).2 l1
      (by rw [l2, k2]; exact harr) ys (StandsFor.congr (l2.trans k2) hs) hnd m1 m2 E1 E2
      (a2.congr hal l1 (l2.trans k2)) (b2.congr k1 l1 l2) x x0 x1 hpos
    refine ⟨m, E, ?_, c2 s ys hal hs fun _ h => h, fun y hy => ?_⟩
    · unfold make
      rw [show make mats a s = (.ok m1, (make mats a s).2) from Prod.ext a1 rfl]
      simp only
      rw [show make mats b (make mats a s).2 = (.ok m2, (make mats b (make mats a s).2).2) from
        Prod.ext b1 rfl]
      exact c1
    · rcases min_le_iff.1 (c3 y hy) with h | h
      · obtain ⟨i, i1, i2⟩ := a3 y hy
        exact ⟨i, pa i i1, i2.trans h⟩
      · obtain ⟨j, j1, j2⟩ := b3 y hy
        exact ⟨j, pb j j1, j2.trans h⟩

/-- C145: every mixture of transparent materials can be made, is transparent, and its permittivity
lies between those of two of its materials at each wavelength. -/
theorem C145_transparent (mats : ℕ → Material XR) (a : ℕ → ℝ → ℝ) (r : Recipe XR)
    (hf : r.Fractions fun f => ∃ x : ℝ, f = XR.fin x ∧ 0 ≤ x ∧ x ≤ 1) (s : Spectrum XR)
    (hal : Aligned s) (harr : s.std.isArray = true) (ys : List ℝ) (hs : StandsFor s ys)
    (hnd : ys.Nodup) (hm : ∀ i ∈ r.parts, PermittivityAt (mats i) s ys fun y => a i y)
    (hp : ∀ i ∈ r.parts, ∀ y ∈ ys, 0 < a i y) :
    ∃ (m : Material XR) (e : ℝ → ℝ), (make mats r s).1 = .ok m ∧
      PermittivityAt m s ys (fun y => e y) ∧
      ∀ y ∈ ys, (∃ i ∈ r.parts, a i y ≤ e y) ∧ ∃ j ∈ r.parts, e y ≤ a j y := by
  induction r generalizing s with
  | only i =>
    have h : i ∈ (Recipe.only i : Recipe XR).parts := by simp [Recipe.parts]
    exact ⟨mats i, a i, rfl, hm i h, fun y _ => ⟨⟨i, h, le_rfl⟩, ⟨i, h, le_rfl⟩⟩⟩
  | mix k f p q ihp ihq =>
    obtain ⟨⟨x, rfl, x0, x1⟩, fp, fq⟩ := hf
    have pp : ∀ i ∈ p.parts, i ∈ (Recipe.mix k (XR.fin x) p q).parts := fun i h => by
      simp [Recipe.parts, h]
    have pq : ∀ i ∈ q.parts, i ∈ (Recipe.mix k (XR.fin x) p q).parts := fun i h => by
      simp [Recipe.parts, h]
    obtain ⟨m1, e1, a1, a2, a3⟩ := ihp fp s hal harr hs (fun i h => hm i (pp i h))
      (fun i h => hp i (pp i h))
    obtain ⟨k1, k2⟩ := C145_same_wavelengths mats p hal a1
    obtain ⟨m2, e2, b1, b2, b3⟩ := ihq fq (make mats p s).2 k1 (by rw [k2]; exact harr)
      (StandsFor.congr k2 hs) (fun i h => (hm i (pq i h)).congr hal k1 k2) (fun i h => hp i (pq i h))
    obtain ⟨l1, l2⟩ := C145_same_wavelengths mats q k1 b1
    have hpos : ∀ y ∈ ys, 0 < e1 y ∧ 0 < e2 y := by
      intro y hy
      obtain ⟨⟨i, i1, i2⟩, -⟩ := a3 y hy
      obtain ⟨⟨j, j1, j2⟩, -⟩ := b3 y hy
      exact ⟨(hp i (pp i i1) y hy).trans_le i2, (hp j (pq j j1) y hy).trans_le j2⟩
    obtain ⟨m, e, c1, c2, c3⟩ := C110_transparent k (make mats q (make mats p s).2).2 l1
      (by rw [l2, k2]; exact harr) ys (StandsFor.congr (l2.trans k2) hs) hnd m1 m2 e1 e2
      (a2.congr hal l1 (l2.trans k2)) (b2.congr k1 l1 l2) x x0 x1 hpos
    refine ⟨m, e, ?_, c2 s ys hal hs fun _ h => h, fun y hy => ?_⟩
    · unfold make
      rw [show make mats p s = (.ok m1, (make mats p s).2) from Prod.ext a1 rfl]
      simp only
      rw [show make mats q (make mats p s).2 = (.ok m2, (make mats q (make mats p s).2).2) from
        Prod.ext b1 rfl]
      exact c1
    · obtain ⟨g1, g2⟩ := hpos y hy
      obtain ⟨w1, w2⟩ := (c3 y hy).bounds g1 g2 x0 x1
      have w3 := (harmonic_between g1 g2 x0 x1).trans w1
      have w4 := w2.trans (mean_between x0 x1)
      obtain ⟨⟨i, i1, i2⟩, i', i3, i4⟩ := a3 y hy
      obtain ⟨⟨j, j1, j2⟩, j', j3, j4⟩ := b3 y hy
      constructor
      · rcases min_le_iff.1 w3 with h | h
        · exact ⟨i, pp i i1, i2.trans h⟩
        · exact ⟨j, pq j j1, j2.trans h⟩
      · rcases le_max_iff.1 w4 with h | h
        · exact ⟨i', pp i' i3, h.trans i4⟩
        · exact ⟨j', pq j' j3, h.trans j4⟩

/-- A case of both: gold particles in glass, this composite as inclusions in a dye, the whole as host
of glass again; three kinds of media in one hierarchy. -/
example [NumText XR] (rd : String → Res (FileDict XR)) :
    ∃ (mats : ℕ → Material XR) (s : Spectrum XR) (m : Material XR) (E : ℝ → ℂ),
    (make mats (.mix .bruggeman (XR.fin 0.2) (.mix .simple (XR.fin 0.5) (.only 1)
      (.mix .maxwellGarnett (XR.fin 0.1) (.only 0) (.only 2))) (.only 0)) s).1 = .ok m ∧
    PermittivityAt m s [5e-7, 6e-7] E ∧ 0.01 ≤ (E 5e-7).im ∧ 0.01 ≤ (E 6e-7).im := by
  have hy : ∀ y ∈ ([5e-7, 6e-7] : List ℝ), (0 : ℝ) ≤ y := by
    intro y hy
    simp only [List.mem_cons, List.not_mem_nil, or_false] at hy
    rcases hy with rfl | rfl <;> norm_num
  let z : ℕ → ℂ := fun i => if i = 0 then ⟨2.25, 0.01⟩ else if i = 1 then ⟨2, 0.25⟩ else ⟨-10, 1.5⟩
  have hz : ∀ i, 0.01 ≤ (z i).im := by
    intro i
    simp only [z]
    split_ifs <;> norm_num
  choose mats h1 h2 using fun i => fixed_eps_at rd (z i) [5e-7, 6e-7] (by simp) hy
  obtain ⟨m, E, e1, e2, e3⟩ := C145_absorbs mats (fun i _ => z i)
    (.mix .bruggeman (XR.fin 0.2) (.mix .simple (XR.fin 0.5) (.only 1)
      (.mix .maxwellGarnett (XR.fin 0.1) (.only 0) (.only 2))) (.only 0))
    ⟨⟨0.2, rfl, by norm_num, by norm_num⟩, ⟨⟨0.5, rfl, by norm_num, by norm_num⟩, trivial,
      ⟨0.1, rfl, by norm_num, by norm_num⟩, trivial, trivial⟩, trivial⟩ _ (metre_aligned _) rfl
    [5e-7, 6e-7] (metre_stands (by simp)) (by simp; norm_num) (fun i _ => h2 i)
    (fun i _ y _ => lt_of_lt_of_le (by norm_num) (hz i))
  refine ⟨mats, _, m, E, e1, e2, ?_, ?_⟩
  · obtain ⟨i, -, h⟩ := e3 5e-7 (by simp)
    exact (hz i).trans h
  · obtain ⟨i, -, h⟩ := e3 6e-7 (by simp)
    exact (hz i).trans h

end ideal

section doubles
variable [SciPy Dbl]

/-- C145 in double precision: hierarchies of linear mixtures and Bruggeman media of materials
without gain never report gain or a negative refractive index, however they are asked. -/
theorem C145_doubles (mats : ℕ → Material Dbl) (r : Recipe Dbl) (hk : .maxwellGarnett ∉ r.kinds)
    (hm : ∀ i ∈ r.parts, NeverActive (mats i)) {s : Spectrum Dbl} (hal : Aligned s)
    {m : Material Dbl} (h : (make mats r s).1 = .ok m) : NeverActive m := by
  induction r generalizing s m with
  | only i =>
    cases h
    exact hm i (by simp [Recipe.parts])
  | mix k f a b iha ihb =>
    simp only [Recipe.kinds, List.mem_cons, List.mem_append, not_or] at hk
    unfold make at h
    cases ha : make mats a s with
    | mk r1 s1 =>
      rw [ha] at h
      cases r1 with
      | error e => cases h
      | ok m1 =>
        have n1 := iha hk.2.1 (fun i hi => hm i (by simp [Recipe.parts, hi])) hal (m := m1)
          (by rw [ha])
        have a1 := (C145_same_wavelengths mats a hal (m := m1) (by rw [ha])).1
        rw [ha] at a1
        cases hb : make mats b s1 with
        | mk r2 s2 =>
          simp only [hb] at h
          cases r2 with
          | error e => cases h
          | ok m2 =>
            have n2 := ihb hk.2.2 (fun i hi => hm i (by simp [Recipe.parts, hi])) a1 (m := m2)
              (by rw [hb])
            have b1 := (C145_same_wavelengths mats b a1 (m := m2) (by rw [hb])).1
            rw [hb] at b1
            cases k with
            | simple => exact C131_simple_partial s2 b1 m1 m2 m f (n1 s2).1 (n2 s2).1 h
            | maxwellGarnett => exact absurd rfl hk.1
            | bruggeman => exact C131_bruggeman_partial s2 b1 m1 m2 m f h

/-- A case of `C145_doubles`: the linear mixture of 3 in 12+7i, as host of a Bruggeman medium with
inclusions of 3, is built and never active. -/
example [NumText Dbl] (rd : String → Res (FileDict Dbl)) :
    ∃ (mats : ℕ → Material Dbl) (m : Material Dbl),
    Material.new rd [("fixed_eps", .cplx host)] = .ok (mats 0) ∧
    Material.new rd [("fixed_eps", .cplx guest)] = .ok (mats 1) ∧
    (make mats (.mix .bruggeman (lit 1) (.mix .simple (lit 1) (.only 0) (.only 1)) (.only 1))
      oneMetre).1 = .ok m ∧ NeverActive m := by
  have hint : ∀ n : ℤ, 0 ≤ n → NotNegative (intDbl n) := fun n hn =>
    notNegative_iff.2 (Dbl.rnd_nn (show (0 : ℝ) ≤ n by exact_mod_cast hn))
  have hconst : ∀ z : Cx Dbl, NotNegative z.im → ∃ m : Material Dbl,
      Material.new rd [("fixed_eps", .cplx z)] = .ok m ∧ NeverActive m ∧
      (m.getPermittivity oneMetre).1 = .ok (.array [cplxOf z.re z.im]) := by
    intro z hz
    obtain ⟨k1, k2⟩ := only_single (F := Dbl) (n := "fixed_eps") (t := .complex) (by decide)
      (v := .cplx z) (by simp)
    obtain ⟨-, -, -, g'⟩ := C130_constants rd _ k1
      (plain_single (F := Dbl) (n := "fixed_eps") (v := .cplx z) (by decide) (by decide))
    obtain ⟨m2, b1, b2⟩ := g' z k2 hz
    obtain ⟨m3, c1, c2⟩ := fixed_oneMetre rd z
    rw [b1] at c1
    cases c1
    exact ⟨m2, b1, b2, c2⟩
  obtain ⟨m1, n1, q1, p1⟩ := hconst host (hint _ (by norm_num))
  obtain ⟨m2, n2, q2, p2⟩ := hconst guest (hint _ (by norm_num))
  obtain ⟨a, ha, hap⟩ := medium_oneMetre .simple one_fraction.1 one_fraction.2 p1 p2 rfl
  obtain ⟨b, hb, -⟩ := medium_oneMetre .bruggeman one_fraction.1 one_fraction.2 hap p2 rfl
  have hs : effectiveMedium .simple oneMetre m1 m2 (lit 1) = (.ok a, oneMetre) :=
    Prod.ext ha ((medium_outcome .simple oneMetre_aligned m1 m2 _ one_fraction.1
      one_fraction.2).2.1 a ha)
  have hmake : (make (fun i => if i = 0 then m1 else m2) (.mix .bruggeman (lit 1)
      (.mix .simple (lit 1) (.only 0) (.only 1)) (.only 1)) oneMetre).1 = .ok b := by
    simp only [make, if_true, one_ne_zero, if_false, hs]
    exact hb
  refine ⟨fun i => if i = 0 then m1 else m2, b, n1, n2, hmake, ?_⟩
  refine C145_doubles _ _ (by simp [Recipe.kinds]) (fun i _ => ?_) oneMetre_aligned hmake
  split_ifs
  · exact q1
  · exact q2

end doubles

end Disp

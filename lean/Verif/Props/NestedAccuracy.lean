import Verif.Props.NestedMixtures
import Verif.Props.MixtureAccuracy
/-!
# C146: the accuracy of hierarchies of linear mixtures in double precision
-/

namespace Disp

open Spec

noncomputable section

namespace Spec

variable {F : Type}

/-- How often one mixes at most until a material is part of the whole. -/
def Recipe.depth : Recipe F → ℕ
  | .only _ => 0
  | .mix _ _ a b => max a.depth b.depth + 1

/-- The mean of the numbers `x i` of the materials, weighted as in a linear mixture. -/
def Recipe.mean (φ : F → ℝ) (x : ℕ → ℝ) : Recipe F → ℝ
  | .only i => x i
  | .mix _ f a b => (1 - φ f) * a.mean φ x + φ f * b.mean φ x

/-- Numbers that are all zero, or all positive and of ordinary size. -/
def Level (is : List ℕ) (x : ℕ → ℝ) : Prop :=
  (∀ i ∈ is, x i = 0) ∨ ∀ i ∈ is, ((10 : ℝ) ^ 10)⁻¹ ≤ x i ∧ x i ≤ 10 ^ 10

/-- `w` is the number `x`, up to the relative error that `d` mixtures make. -/
def MixedClose (d : ℕ) (x : ℝ) (w : Dbl) : Prop :=
  ∃ v, w.val = .fin v ∧ |v - x| ≤ x * ((1 + 15 / 2 ^ 53) ^ d - 1)

end Spec

/-- Even `2^20` mixtures change numbers by less than a third. -/
theorem depth_growth {d : ℕ} (hd : d ≤ 2 ^ 20) : ((1 : ℝ) + 15 / 2 ^ 53) ^ d ≤ 4 / 3 := by
  have h1 : ((1 : ℝ) + 15 / 2 ^ 53) ^ d ≤ Real.exp (d * (15 / 2 ^ 53)) := by
    rw [Real.exp_nat_mul]
    gcongr
    linarith [Real.add_one_le_exp ((15 : ℝ) / 2 ^ 53)]
  have h2 : (d : ℝ) * (15 / 2 ^ 53) ≤ 1 / 4 := by
    have : (d : ℝ) ≤ 2 ^ 20 := by exact_mod_cast hd
    calc (d : ℝ) * (15 / 2 ^ 53) ≤ 2 ^ 20 * (15 / 2 ^ 53) := by gcongr
      _ ≤ 1 / 4 := by norm_num
  refine (h1.trans (Real.exp_le_exp.2 h2)).trans ?_
  have h3 := Real.add_one_le_exp (-(1 / 4 : ℝ))
  have h4 : Real.exp (1 / 4) * Real.exp (-(1 / 4 : ℝ)) = 1 := by rw [← Real.exp_add]; simp
  nlinarith [Real.exp_pos (1 / 4 : ℝ)]

theorem growth_one (d : ℕ) : (1 : ℝ) ≤ (1 + 15 / 2 ^ 53) ^ d := one_le_pow₀ (by norm_num)

/-- Means stay on their level. -/
theorem mean_level {F : Type} (φ : F → ℝ) (r : Recipe F)
    (hf : r.Fractions fun f => 0 ≤ φ f ∧ φ f ≤ 1) {x : ℕ → ℝ} (hx : Level r.parts x) :
    r.mean φ x = 0 ∨ ((10 : ℝ) ^ 10)⁻¹ ≤ r.mean φ x ∧ r.mean φ x ≤ 10 ^ 10 := by
  have key : ∀ l u : ℝ, (∀ i ∈ r.parts, l ≤ x i ∧ x i ≤ u) → l ≤ r.mean φ x ∧ r.mean φ x ≤ u := by
    intro l u h
    clear hx
    induction r with
    | only i => exact h i (by simp [Recipe.parts])
    | mix k f a b iha ihb =>
      obtain ⟨⟨f0, f1⟩, fa, fb⟩ := hf
      obtain ⟨a1, a2⟩ := iha fa (fun i hi => h i (by simp [Recipe.parts, hi]))
      obtain ⟨b1, b2⟩ := ihb fb (fun i hi => h i (by simp [Recipe.parts, hi]))
      simp only [Recipe.mean]
      constructor <;> nlinarith
  rcases hx with h | h
  · left
    obtain ⟨g1, g2⟩ := key 0 0 (fun i hi => by rw [h i hi]; exact ⟨le_rfl, le_rfl⟩)
    linarith
  · exact .inr (key _ _ h)

/-- The computed number is of ordinary size, too. -/
theorem mixedClose_size {d : ℕ} (hd : d ≤ 2 ^ 20) {x : ℝ}
    (hx : x = 0 ∨ ((10 : ℝ) ^ 10)⁻¹ ≤ x ∧ x ≤ 10 ^ 10) {w : Dbl} (h : MixedClose d x w) :
    ∃ v, w.val = .fin v ∧ PartSize v ∧ |v - x| ≤ x * ((1 + 15 / 2 ^ 53) ^ d - 1) := by
  obtain ⟨v, h1, h2⟩ := h
  refine ⟨v, h1, ?_, h2⟩
  rcases hx with rfl | ⟨l, u⟩
  · left
    rw [zero_mul, sub_zero] at h2
    exact abs_nonpos_iff.1 h2
  · right
    have hx0 : 0 < x := lt_of_lt_of_le (by positivity) l
    have h3 : ((1 : ℝ) + 15 / 2 ^ 53) ^ d - 1 ≤ 1 / 2 := by linarith [depth_growth hd]
    have h4 : |v - x| ≤ x / 2 := h2.trans (by nlinarith)
    obtain ⟨h5, h6⟩ := abs_le.1 h4
    rw [abs_of_pos (by linarith)]
    norm_num at l u ⊢
    constructor <;> linarith

/-- One more mixture. -/
theorem mixedClose_step {φ x x' v v' ε : ℝ} (f0 : 0 ≤ φ) (f1 : φ ≤ 1) (hx : 0 ≤ x) (hx' : 0 ≤ x')
    (hε : 0 ≤ ε) (h : |v - x| ≤ x * ε) (h' : |v' - x'| ≤ x' * ε) {k : ℕ} {w : Dbl}
    (hw : MeanClose k φ v v' w) :
    ∃ y, w.val = .fin y ∧ |y - ((1 - φ) * x + φ * x')| ≤
      ((1 - φ) * x + φ * x') * ((1 + k / 2 ^ 53) * (1 + ε) - 1) := by
  obtain ⟨y, h1, h2⟩ := hw
  refine ⟨y, h1, ?_⟩
  have g : 0 ≤ 1 - φ := by linarith
  have a1 : |v| ≤ x * (1 + ε) := by
    have := abs_sub_abs_le_abs_sub v x
    rw [abs_of_nonneg hx] at this
    linarith
  have a2 : |v'| ≤ x' * (1 + ε) := by
    have := abs_sub_abs_le_abs_sub v' x'
    rw [abs_of_nonneg hx'] at this
    linarith
  have a3 : ((1 - φ) * |v| + φ * |v'|) * k / 2 ^ 53 ≤
      ((1 - φ) * (x * (1 + ε)) + φ * (x' * (1 + ε))) * k / 2 ^ 53 := by gcongr
  have a4 : |((1 - φ) * v + φ * v') - ((1 - φ) * x + φ * x')| ≤
      (1 - φ) * (x * ε) + φ * (x' * ε) := by
    rw [show ((1 - φ) * v + φ * v') - ((1 - φ) * x + φ * x') = (1 - φ) * (v - x) + φ * (v' - x')
      by ring]
    refine (abs_add_le _ _).trans ?_
    rw [abs_mul, abs_mul, abs_of_nonneg f0, abs_of_nonneg g]
    gcongr
  refine (abs_sub_le _ ((1 - φ) * v + φ * v') _).trans ?_
  refine (add_le_add (h2.trans a3) a4).trans (le_of_eq ?_)
  ring

theorem Spec.MixedClose.mono {d d' : ℕ} (h : d ≤ d') {x : ℝ} (hx : 0 ≤ x) {w : Dbl}
    (hw : MixedClose d x w) : MixedClose d' x w := by
  obtain ⟨v, h1, h2⟩ := hw
  refine ⟨v, h1, h2.trans ?_⟩
  gcongr
  norm_num

section
variable [SciPy Dbl]

/-- What a material reports at the wavelengths of `s`, in whatever unit they are given. -/
def Reports (m : Material Dbl) (s : Spectrum Dbl) (P : ℕ → Cx Dbl → Prop) : Prop :=
  ∀ q : Spectrum Dbl, Aligned q → q.std = s.std → ∃ c, (m.getPermittivity q).1 = .ok c ∧
    (points c).length = s.std.toList.length ∧ ∀ (i : ℕ) (w : Cx Dbl), (points c)[i]? = some w → P i w

/-- C146: a hierarchy of linear mixtures, at most `2^20` deep, of materials with positive real parts
and imaginary parts that are positive or all zero, is built in double precision; at the wavelengths
it was built with, in whatever unit, it reports the weighted means of the permittivities of its
materials with a relative error of `(1 + 15 * 2^-53)^depth - 1`. -/
theorem C146_linear (mats : ℕ → Material Dbl) (r : Recipe Dbl) (φ : Dbl → ℝ)
    (hk : ∀ k ∈ r.kinds, k = .simple)
    (hf : r.Fractions fun f => f.val = .fin (φ f) ∧ FractionSize (φ f)) (hd : r.depth ≤ 2 ^ 20)
    (s : Spectrum Dbl) (hal : Aligned s) (hs : GoodMetres s) (X Y : ℕ → ℕ → ℝ)
    (hm : ∀ j ∈ r.parts, ∃ e, ((mats j).getPermittivity s).1 = .ok e ∧ ∀ (i : ℕ) (w : Cx Dbl),
      (points e)[i]? = some w → w.re.val = .fin (X i j) ∧ w.im.val = .fin (Y i j))
    (hX : ∀ i < s.std.toList.length, Level r.parts (X i))
    (hY : ∀ i < s.std.toList.length, Level r.parts (Y i)) :
    ∃ m, (make mats r s).1 = .ok m ∧ Reports m s fun i w =>
      MixedClose r.depth (r.mean φ (X i)) w.re ∧ MixedClose r.depth (r.mean φ (Y i)) w.im := by
  induction r generalizing s with
  | only j =>
    obtain ⟨e, e1, e2⟩ := hm j (by simp [Recipe.parts])
    refine ⟨mats j, rfl, fun q hq hqs => ⟨e, ?_, ?_, fun i w hw => ?_⟩⟩
    · rw [getPermittivity_congr (mats j) hal hq hqs, e1]
    · have := (permittivity_form (mats j) hal e1).length_std hal
      rw [this]
      cases e <;> rfl
    · obtain ⟨w1, w2⟩ := e2 i w hw
      exact ⟨⟨_, w1, by simp [Recipe.mean, Recipe.depth]⟩, ⟨_, w2, by simp [Recipe.mean, Recipe.depth]⟩⟩
  | mix k f a b iha ihb =>
    obtain ⟨⟨hfv, hfs⟩, fa, fb⟩ := hf
    have hks : k = .simple := hk k (by simp [Recipe.kinds])
    subst hks
    have pa : ∀ i ∈ a.parts, i ∈ (Recipe.mix .simple f a b).parts := fun i h => by
      simp [Recipe.parts, h]
    have pb : ∀ i ∈ b.parts, i ∈ (Recipe.mix .simple f a b).parts := fun i h => by
      simp [Recipe.parts, h]
    have hda : a.depth ≤ max a.depth b.depth := le_max_left _ _
    have hdb : b.depth ≤ max a.depth b.depth := le_max_right _ _
    simp only [Recipe.depth] at hd
    have lv : ∀ {x : ℕ → ℝ}, Level (Recipe.mix .simple f a b).parts x →
        Level a.parts x ∧ Level b.parts x := by
      intro x h
      rcases h with h | h
      · exact ⟨.inl fun i hi => h i (pa i hi), .inl fun i hi => h i (pb i hi)⟩
      · exact ⟨.inr fun i hi => h i (pa i hi), .inr fun i hi => h i (pb i hi)⟩
    obtain ⟨m1, a1, a2⟩ := iha (fun k hk' => hk k (by simp [Recipe.kinds, hk'])) fa (by omega) s hal
      hs (fun j hj => hm j (pa j hj)) (fun i hi => (lv (hX i hi)).1) (fun i hi => (lv (hY i hi)).1)
    obtain ⟨k1, k2⟩ := C145_same_wavelengths mats a hal a1
    have hs1 : GoodMetres (make mats a s).2 := by unfold GoodMetres at hs ⊢; rw [k2]; exact hs
    obtain ⟨m2, b1, b2⟩ := ihb (fun k hk' => hk k (by simp [Recipe.kinds, hk'])) fb (by omega)
      (make mats a s).2 k1 hs1 (fun j hj => by
        obtain ⟨e, e1, e2⟩ := hm j (pb j hj)
        exact ⟨e, by rw [getPermittivity_congr (mats j) hal k1 k2, e1], e2⟩)
      (fun i hi => (lv (hX i (by rw [← k2]; exact hi))).2)
      (fun i hi => (lv (hY i (by rw [← k2]; exact hi))).2)
    obtain ⟨l1, l2⟩ := C145_same_wavelengths mats b k1 b1
    set s2 := (make mats b (make mats a s).2).2 with hs2
    have l3 : s2.std = s.std := l2.trans k2
    have hs3 : GoodMetres s2 := by unfold GoodMetres at hs ⊢; rw [l3]; exact hs
    obtain ⟨e1, p1, p2, p3⟩ := a2 s2 l1 l3
    obtain ⟨e2, q1, q2, q3⟩ := b2 s2 l1 l2
    rw [k2] at q2
    -- bounds of the means
    have f01 : ∀ {r : Recipe Dbl}, r.Fractions (fun f => f.val = .fin (φ f) ∧ FractionSize (φ f)) →
        r.Fractions fun f => 0 ≤ φ f ∧ φ f ≤ 1 := by
      intro r hr
      induction r with
      | only i => trivial
      | mix k f a b iha ihb =>
        obtain ⟨⟨-, g⟩, ga, gb⟩ := hr
        exact ⟨FractionSize_bounds g, iha ga, ihb gb⟩
    have sz1 : ∀ i w, (points e1)[i]? = some w →
        ∃ v v', w.re.val = .fin v ∧ w.im.val = .fin v' ∧ PartSize v ∧ PartSize v' ∧
          |v - a.mean φ (X i)| ≤ a.mean φ (X i) * ((1 + 15 / 2 ^ 53) ^ max a.depth b.depth - 1) ∧
          |v' - a.mean φ (Y i)| ≤ a.mean φ (Y i) * ((1 + 15 / 2 ^ 53) ^ max a.depth b.depth - 1) ∧
          0 ≤ a.mean φ (X i) ∧ 0 ≤ a.mean φ (Y i) := by
      intro i w hw
      have hi : i < s.std.toList.length := by
        rw [← p2]; exact (List.getElem?_eq_some_iff.1 hw).1
      have mx := mean_level φ a (f01 fa) (lv (hX i hi)).1
      have my := mean_level φ a (f01 fa) (lv (hY i hi)).1
      have nn : ∀ {x : ℝ}, (x = 0 ∨ ((10 : ℝ) ^ 10)⁻¹ ≤ x ∧ x ≤ 10 ^ 10) → 0 ≤ x := by
        rintro x (rfl | h)
        · exact le_rfl
        · exact le_trans (by positivity) h.1
      obtain ⟨c1, c2⟩ := p3 i w hw
      obtain ⟨v, g1, g2, g3⟩ := mixedClose_size (d := max a.depth b.depth) (by omega) mx (c1.mono hda (nn mx))
      obtain ⟨v', g4, g5, g6⟩ := mixedClose_size (d := max a.depth b.depth) (by omega) my (c2.mono hda (nn my))
      exact ⟨v, v', g1, g4, g2, g5, g3, g6, nn mx, nn my⟩
    have sz2 : ∀ i w, (points e2)[i]? = some w →
        ∃ v v', w.re.val = .fin v ∧ w.im.val = .fin v' ∧ PartSize v ∧ PartSize v' ∧
          |v - b.mean φ (X i)| ≤ b.mean φ (X i) * ((1 + 15 / 2 ^ 53) ^ max a.depth b.depth - 1) ∧
          |v' - b.mean φ (Y i)| ≤ b.mean φ (Y i) * ((1 + 15 / 2 ^ 53) ^ max a.depth b.depth - 1) ∧
          0 ≤ b.mean φ (X i) ∧ 0 ≤ b.mean φ (Y i) := by
      intro i w hw
      have hi : i < s.std.toList.length := by
        rw [← q2]; exact (List.getElem?_eq_some_iff.1 hw).1
      have mx := mean_level φ b (f01 fb) (lv (hX i hi)).2
      have my := mean_level φ b (f01 fb) (lv (hY i hi)).2
      have nn : ∀ {x : ℝ}, (x = 0 ∨ ((10 : ℝ) ^ 10)⁻¹ ≤ x ∧ x ≤ 10 ^ 10) → 0 ≤ x := by
        rintro x (rfl | h)
        · exact le_rfl
        · exact le_trans (by positivity) h.1
      obtain ⟨c1, c2⟩ := q3 i w hw
      obtain ⟨v, g1, g2, g3⟩ := mixedClose_size (d := max a.depth b.depth) (by omega) mx (c1.mono hdb (nn mx))
      obtain ⟨v', g4, g5, g6⟩ := mixedClose_size (d := max a.depth b.depth) (by omega) my (c2.mono hdb (nn my))
      exact ⟨v, v', g1, g4, g2, g5, g3, g6, nn mx, nn my⟩
    obtain ⟨m, c1, c2⟩ := C133_linear s2 l1 hs3 m1 m2 f (φ f) hfv hfs e1 e2 p1 q1
      (fun z hz => by
        obtain ⟨i, hi⟩ := List.mem_iff_getElem?.1 hz
        obtain ⟨v, v', g1, g2, g3, g4, -⟩ := sz1 i z hi
        exact ⟨v, v', g1, g2, g3, g4⟩)
      (fun z hz => by
        obtain ⟨i, hi⟩ := List.mem_iff_getElem?.1 hz
        obtain ⟨v, v', g1, g2, g3, g4, -⟩ := sz2 i z hi
        exact ⟨v, v', g1, g2, g3, g4⟩)
    refine ⟨m, ?_, fun q hq hqs => ?_⟩
    · unfold make
      rw [show make mats a s = (.ok m1, (make mats a s).2) from Prod.ext a1 rfl]
      simp only
      rw [show make mats b (make mats a s).2 = (.ok m2, s2) from Prod.ext b1 rfl]
      exact c1
    · obtain ⟨c, d1, d2⟩ := c2 q hq (hqs.trans l3.symm)
      have hlen : (points c).length = s.std.toList.length := by
        have := (permittivity_form m hq d1).length_std hq
        rw [← hqs, this]
        cases c <;> rfl
      refine ⟨c, d1, hlen, fun i w hw => ?_⟩
      have hi : i < s.std.toList.length := by
        rw [← hlen]; exact (List.getElem?_eq_some_iff.1 hw).1
      have hu1 := List.getElem?_eq_getElem (l := points e1) (i := i) (by rw [p2]; exact hi)
      have hu2 := List.getElem?_eq_getElem (l := points e2) (i := i) (by rw [q2]; exact hi)
      obtain ⟨x, y, x1, x2, -, -, x3, x4, x5, x6⟩ := sz1 i _ hu1
      obtain ⟨x', y', y1, y2, -, -, y3, y4, y5, y6⟩ := sz2 i _ hu2
      obtain ⟨w', hw', o1, o2⟩ := d2 i _ _ x y x' y' hu1 hu2 x1 x2 y1 y2
      rw [hw] at hw'
      cases hw'
      obtain ⟨f0, f1⟩ := FractionSize_bounds hfs
      have hε : (0 : ℝ) ≤ (1 + 15 / 2 ^ 53) ^ max a.depth b.depth - 1 := by
        linarith [growth_one (max a.depth b.depth)]
      have fac : ((1 : ℝ) + (15 : ℕ) / 2 ^ 53) * (1 + ((1 + 15 / 2 ^ 53) ^ max a.depth b.depth - 1)) - 1
          = (1 + 15 / 2 ^ 53) ^ (max a.depth b.depth + 1) - 1 := by
        push_cast; ring
      obtain ⟨r1, r2, r3⟩ := mixedClose_step f0 f1 x5 y5 hε x3 y3 o1
      obtain ⟨t1, t2, t3⟩ := mixedClose_step f0 f1 x6 y6 hε x4 y4 o2
      rw [fac] at r3 t3
      exact ⟨⟨r1, r2, r3⟩, ⟨t1, t2, t3⟩⟩

/-- A case: half of 12+7i in a mixture of a quarter of 3+i in 12+7i, at one metre. -/
example [NumText Dbl] (rd : String → Res (FileDict Dbl)) :
    ∃ (mats : ℕ → Material Dbl) (m : Material Dbl) (c : CVals Dbl) (w : Cx Dbl),
    Material.new rd [("fixed_eps", .cplx host)] = .ok (mats 0) ∧
    Material.new rd [("fixed_eps", .cplx ⟨intDbl 3, intDbl 1⟩)] = .ok (mats 1) ∧
    (make mats (.mix .simple (lit 0.5) (.mix .simple (lit 0.25) (.only 0) (.only 1)) (.only 0))
      oneMetre).1 = .ok m ∧ (m.getPermittivity oneMetre).1 = .ok c ∧ (points c)[0]? = some w ∧
    MixedClose 2 10.875 w.re ∧ MixedClose 2 6.25 w.im := by
  obtain ⟨m0, a1, a2⟩ := fixed_oneMetre rd host
  obtain ⟨m1, b1, b2⟩ := fixed_oneMetre rd ⟨intDbl 3, intDbl 1⟩
  have hh := host_int
  have hg : IntCx (cplxOf (intDbl 3) (intDbl 1)) 3 1 :=
    cplx_int (intDbl_val (by norm_num)) (intDbl_val (by norm_num)) (by norm_num) (by norm_num)
  have hq : (lit 0.25 : Dbl).val = .fin 0.25 := by
    rw [Dbl.val_lit]
    have := Dbl.rnd_double (x := 0.25) ⟨1, -2, by norm_num, by norm_num, by norm_num, by norm_num⟩
    push_cast
    exact this
  have hf : (lit 0.5 : Dbl).val = .fin 0.5 := by
    rw [Dbl.val_lit]
    have := Dbl.rnd_double (x := 0.5) ⟨1, -1, by norm_num, by norm_num, by norm_num, by norm_num⟩
    push_cast
    exact this
  have hgm : GoodMetres oneMetre := by
    refine ⟨by simp [oneMetre, Vals.toList], by simp [oneMetre, Vals.toList], ?_⟩
    intro x hx
    simp only [oneMetre, Vals.toList, List.mem_singleton] at hx
    subst hx
    exact ⟨1, by exact_mod_cast Dbl.lit_int (n := 1) (by norm_num), by norm_num, by norm_num⟩
  let mats : ℕ → Material Dbl := fun j => if j = 0 then m0 else m1
  let φ : Dbl → ℝ := fun f => match f.val with | .fin x => x | _ => 0
  have φq : φ (lit 0.25) = 0.25 := by simp only [φ, hq]
  have φf : φ (lit 0.5) = 0.5 := by simp only [φ, hf]
  let r : Recipe Dbl := .mix .simple (lit 0.5) (.mix .simple (lit 0.25) (.only 0) (.only 1)) (.only 0)
  obtain ⟨m, c1, c2⟩ := C146_linear mats r φ (by simp [r, Recipe.kinds])
    ⟨⟨by rw [φf]; exact hf, .inr (by rw [φf]; norm_num)⟩, ⟨⟨by rw [φq]; exact hq,
      .inr (by rw [φq]; norm_num)⟩, trivial, trivial⟩, trivial⟩ (by simp [r, Recipe.depth])
    oneMetre oneMetre_aligned hgm (fun _ j => if j = 0 then 12 else 3)
    (fun _ j => if j = 0 then 7 else 1) (by
      intro j hj
      simp only [mats]
      split_ifs
      · refine ⟨_, a2, fun i w hw => ?_⟩
        rw [show w = _ from List.mem_singleton.1 (List.mem_of_getElem? hw)]
        exact ⟨by exact_mod_cast hh.re, by exact_mod_cast hh.im⟩
      · refine ⟨_, b2, fun i w hw => ?_⟩
        rw [show w = _ from List.mem_singleton.1 (List.mem_of_getElem? hw)]
        exact ⟨by exact_mod_cast hg.re, by exact_mod_cast hg.im⟩)
    (fun _ _ => .inr fun j _ => by dsimp only; split_ifs <;> norm_num)
    (fun _ _ => .inr fun j _ => by dsimp only; split_ifs <;> norm_num)
  obtain ⟨c, d1, d2, d3⟩ := c2 oneMetre oneMetre_aligned rfl
  have hl : (points c).length = 1 := by rw [d2]; rfl
  have hw := List.getElem?_eq_getElem (l := points c) (i := 0) (by omega)
  obtain ⟨w1, w2⟩ := d3 0 _ hw
  have e1 : r.mean φ (fun j => if j = 0 then 12 else 3) = 10.875 := by
    simp only [r, Recipe.mean, φq, φf]; norm_num
  have e2 : r.mean φ (fun j => if j = 0 then 7 else 1) = 6.25 := by
    simp only [r, Recipe.mean, φq, φf]; norm_num
  rw [e1] at w1
  rw [e2] at w2
  exact ⟨mats, m, c, _, a1, b1, c1, d1, hw, w1, w2⟩

end

end

end Disp

import Verif.Spec.KramersKronig
/-!
# Principal values from antiderivatives
-/

namespace Disp
open MeasureTheory Filter Topology Set Spec

variable {f F : ℝ → ℝ} {a b e l F0 : ℝ}

/-- The integral over a bounded interval of a function of constant sign, from the limit of the
antiderivative at the left end. -/
theorem ioc_of_antideriv (hab : a < b) (hd : ∀ x, a < x → x ≤ b → HasDerivAt F (f x) x)
    (hs : ∀ x, a < x → x < b → f x ≤ 0) (h1 : Tendsto F (𝓝[>] a) (𝓝 F0)) :
    IntegrableOn f (Ioc a b) ∧ ∫ x in Ioc a b, f x = F b - F0 := by
  set G := Function.update F a F0 with hG
  have hGx : ∀ x, x ≠ a → G x = F x := fun x hx => Function.update_of_ne hx _ _
  have hGa : G a = F0 := Function.update_self _ _ _
  have hGd : ∀ x, a < x → x ≤ b → HasDerivAt G (f x) x := by
    intro x hx hxb
    refine (hd x hx hxb).congr_of_eventuallyEq ?_
    filter_upwards [lt_mem_nhds hx] with y hy
    exact hGx y hy.ne'
  have hc : ContinuousOn G (Icc a b) := by
    intro x hx
    rcases eq_or_lt_of_le hx.1 with rfl | h
    · have : ContinuousWithinAt G (Ioi a) a := by
        show Tendsto G (𝓝[>] a) (𝓝 (G a))
        rw [hGa]
        refine h1.congr' ?_
        filter_upwards [self_mem_nhdsWithin] with y hy
        exact (hGx y (ne_of_gt hy)).symm
      have := continuousWithinAt_Ioi_iff_Ici.1 this
      exact this.mono Icc_subset_Ici_self
    · exact (hGd x h hx.2).continuousAt.continuousWithinAt
  have hi : IntegrableOn f (Ioc a b) := by
    have := intervalIntegral.integrableOn_deriv_of_nonneg (g := fun x => -G x) (g' := fun x => -f x)
      hc.neg (fun x hx => (hGd x hx.1 hx.2.le).neg) (fun x hx => neg_nonneg.2 (hs x hx.1 hx.2))
    have h2 := this.neg
    simpa using h2
  refine ⟨hi, ?_⟩
  have h3 := intervalIntegral.integral_eq_sub_of_hasDerivAt_of_le hab.le hc
    (fun x hx => hGd x hx.1 hx.2.le) ((intervalIntegrable_iff_integrableOn_Ioc_of_le hab.le).2 hi)
  rw [intervalIntegral.integral_of_le hab.le] at h3
  rw [h3, hGa, hGx b hab.ne']

/-- Likewise for an unbounded interval. -/
theorem ioi_of_antideriv (hd : ∀ x, b < x → HasDerivAt F (f x) x)
    (hs : ∀ x, b < x → 0 ≤ f x) (h1 : Tendsto F (𝓝[>] b) (𝓝 F0))
    (h2 : Tendsto F atTop (𝓝 l)) :
    IntegrableOn f (Ioi b) ∧ ∫ x in Ioi b, f x = l - F0 := by
  set G := Function.update F b F0 with hG
  have hGx : ∀ x, x ≠ b → G x = F x := fun x hx => Function.update_of_ne hx _ _
  have hGa : G b = F0 := Function.update_self _ _ _
  have hGd : ∀ x, b < x → HasDerivAt G (f x) x := by
    intro x hx
    refine (hd x hx).congr_of_eventuallyEq ?_
    filter_upwards [lt_mem_nhds hx] with y hy
    exact hGx y hy.ne'
  have hc : ContinuousWithinAt G (Ici b) b := by
    refine continuousWithinAt_Ioi_iff_Ici.1 ?_
    show Tendsto G (𝓝[>] b) (𝓝 (G b))
    rw [hGa]
    refine h1.congr' ?_
    filter_upwards [self_mem_nhdsWithin] with y hy
    exact (hGx y (ne_of_gt hy)).symm
  have hl : Tendsto G atTop (𝓝 l) := by
    refine h2.congr' ?_
    filter_upwards [eventually_gt_atTop b] with y hy
    exact (hGx y hy.ne').symm
  refine ⟨integrableOn_Ioi_deriv_of_nonneg hc (fun x hx => hGd x hx) (fun x hx => hs x hx) hl, ?_⟩
  rw [integral_Ioi_of_hasDerivAt_of_nonneg hc (fun x hx => hGd x hx) (fun x hx => hs x hx) hl, hGa]

theorem away_eq {d : ℝ} (hd : 0 < d) (hde : d < e) : away e d = Ioc 0 (e - d) ∪ Ici (e + d) := by
  ext x
  simp only [away, mem_setOf_eq, mem_union, mem_Ioc, mem_Ici, le_abs]
  constructor
  · rintro ⟨h0, h | h⟩
    · right; linarith
    · left; constructor <;> linarith
  · rintro (⟨h0, h⟩ | h)
    · exact ⟨h0, .inr (by linarith)⟩
    · exact ⟨by linarith, .inl (by linarith)⟩

theorem away_mono {d d' : ℝ} (h : d ≤ d') : away e d' ⊆ away e d :=
  fun _ hx => ⟨hx.1, h.trans hx.2⟩

/-- A principal value from small windows. -/
theorem pv_of_small {v r : ℝ} (hr : 0 < r) {g : ℝ → ℝ}
    (hi : ∀ d, 0 < d → d < r → IntegrableOn f (away e d) ∧ ∫ x in away e d, f x = g d)
    (hg : Tendsto g (𝓝[>] 0) (𝓝 v)) : PrincipalValue f e v := by
  constructor
  · intro d hd
    have hm : 0 < min d (r / 2) := lt_min hd (by linarith)
    have hm' : min d (r / 2) < r := (min_le_right _ _).trans_lt (by linarith)
    exact (hi _ hm hm').1.mono_set (away_mono (min_le_left _ _))
  · refine hg.congr' ?_
    have : Ioo (0 : ℝ) r ∈ 𝓝[>] (0 : ℝ) := Ioo_mem_nhdsGT hr
    filter_upwards [this] with d hd
    exact (hi d hd.1 hd.2).2.symm

/-- The principal value of a function with a known antiderivative that vanishes up to `a` and
changes its sign at most at the singularity. -/
theorem pv_of_antideriv (ha : 0 ≤ a) (he : 0 < e) (hea : e ≠ a)
    (h0 : ∀ x, 0 < x → x ≤ a → f x = 0)
    (hd : ∀ x, a < x → x ≠ e → HasDerivAt F (f x) x)
    (hs : ∀ x, a < x → x ≠ e → 0 ≤ f x * (x - e))
    (h1 : Tendsto F (𝓝[>] a) (𝓝 F0)) (h2 : Tendsto F atTop (𝓝 l))
    (h3 : a < e → Tendsto (fun d => F (e - d) - F (e + d)) (𝓝[>] 0) (𝓝 0)) :
    PrincipalValue f e (l - F0) := by
  have hz : ∀ s : Set ℝ, MeasurableSet s → s ⊆ Ioc 0 a → IntegrableOn f s ∧ ∫ x in s, f x = 0 := by
    intro s hs hsub
    have hzero : EqOn f (fun _ => 0) s := fun x hx => h0 x (hsub hx).1 (hsub hx).2
    refine ⟨(integrableOn_zero).congr_fun (fun x hx => (hzero hx).symm) hs, ?_⟩
    rw [setIntegral_congr_fun hs hzero]; simp
  have hpos : ∀ x, a < x → e < x → 0 ≤ f x := fun x hx hxe =>
    nonneg_of_mul_nonneg_left (hs x hx hxe.ne') (sub_pos.2 hxe)
  have hneg : ∀ x, a < x → x < e → f x ≤ 0 := by
    intro x hx hxe
    have := hs x hx hxe.ne
    nlinarith [sub_neg.2 hxe]
  rcases lt_or_gt_of_ne hea with hlt | hgt
  · -- the singularity is below `a`
    refine pv_of_small (r := min e (a - e)) (lt_min he (sub_pos.2 hlt)) (g := fun _ => l - F0) ?_
      tendsto_const_nhds
    intro d hd0 hdr
    have hde : d < e := hdr.trans_le (min_le_left _ _)
    have hda : e + d < a := by have := hdr.trans_le (min_le_right _ _); linarith
    have hset : away e d = (Ioc 0 (e - d) ∪ Icc (e + d) a) ∪ Ioi a := by
      rw [away_eq hd0 hde, union_assoc, Icc_union_Ioi_eq_Ici hda.le]
    have hA := hz (Ioc 0 (e - d) ∪ Icc (e + d) a) (measurableSet_Ioc.union measurableSet_Icc) (by
      rintro x (hx | hx)
      · exact ⟨hx.1, by linarith [hx.2]⟩
      · exact ⟨by linarith [hx.1], hx.2⟩)
    have hB := ioi_of_antideriv (f := f) (F := F) (b := a) (fun x hx => hd x hx (hlt.trans hx).ne')
      (fun x hx => hpos x hx (hlt.trans hx)) h1 h2
    have hdis : Disjoint (Ioc 0 (e - d) ∪ Icc (e + d) a) (Ioi a) := by
      rw [Set.disjoint_left]
      rintro x (hx | hx) hx'
      · have := hx.2; have := mem_Ioi.1 hx'; linarith
      · have := hx.2; have := mem_Ioi.1 hx'; linarith
    rw [hset]
    refine ⟨hA.1.union hB.1, ?_⟩
    rw [setIntegral_union hdis measurableSet_Ioi hA.1 hB.1, hA.2, hB.2, zero_add]
  · -- the singularity is above `a`
    refine pv_of_small (r := e - a) (sub_pos.2 hgt)
      (g := fun d => (l - F0) + (F (e - d) - F (e + d))) ?_ ?_
    · intro d hd0 hdr
      have hde : d < e := by linarith
      have hset : away e d = (Ioc 0 a ∪ Ioc a (e - d)) ∪ Ici (e + d) := by
        rw [away_eq hd0 hde, Ioc_union_Ioc_eq_Ioc ha (by linarith)]
      have hA := hz (Ioc 0 a) measurableSet_Ioc subset_rfl
      have hB := ioc_of_antideriv (f := f) (F := F) (a := a) (b := e - d) (by linarith)
        (fun x hx hxb => hd x hx (by linarith)) (fun x hx hxb => hneg x hx (by linarith)) h1
      have hcont : Tendsto F (𝓝[>] (e + d)) (𝓝 (F (e + d))) :=
        (hd (e + d) (by linarith) (by linarith)).continuousAt.tendsto.mono_left nhdsWithin_le_nhds
      have hC := ioi_of_antideriv (f := f) (F := F) (b := e + d)
        (fun x hx => hd x (by linarith) (by linarith)) (fun x hx => hpos x (by linarith) (by linarith))
        hcont h2
      have hC1 : IntegrableOn f (Ici (e + d)) := by
        rw [integrableOn_Ici_iff_integrableOn_Ioi]; exact hC.1
      have d1 : Disjoint (Ioc 0 a) (Ioc a (e - d)) := by
        rw [Set.disjoint_left]; intro x hx hx'; exact absurd hx.2 (not_le.2 hx'.1)
      have d2 : Disjoint (Ioc 0 a ∪ Ioc a (e - d)) (Ici (e + d)) := by
        rw [Set.disjoint_left]
        rintro x (hx | hx) hx'
        · have := hx.2; have := mem_Ici.1 hx'; linarith
        · have := hx.2; have := mem_Ici.1 hx'; linarith
      rw [hset]
      refine ⟨(hA.1.union hB.1).union hC1, ?_⟩
      rw [setIntegral_union d2 measurableSet_Ici (hA.1.union hB.1) hC1,
        setIntegral_union d1 measurableSet_Ioc hA.1 hB.1, hA.2, hB.2, integral_Ici_eq_integral_Ioi,
        hC.2]
      ring
    · have := (tendsto_const_nhds (x := l - F0)).add (h3 hgt)
      simpa using this

/-- Principal values of multiples. -/
theorem pv_mul {v : ℝ} (c : ℝ) (h : PrincipalValue f e v) :
    PrincipalValue (fun x => c * f x) e (c * v) := by
  constructor
  · intro d hd
    exact (h.integrable d hd).const_mul c
  · simp only [integral_const_mul]
    exact h.tendsto.const_mul c

/-- Principal values depend on the function at positive arguments only. -/
theorem pv_congr {g : ℝ → ℝ} {v : ℝ} (h : PrincipalValue f e v) (hfg : ∀ x, 0 < x → x ≠ e → f x = g x) :
    PrincipalValue g e v := by
  have hm : ∀ d, MeasurableSet (away e d) := fun d =>
    (measurableSet_Ioi (a := (0 : ℝ))).inter
      (isClosed_le continuous_const ((continuous_id.sub continuous_const).abs)).measurableSet
  have he : ∀ d, 0 < d → EqOn f g (away e d) := by
    intro d hd x hx
    refine hfg x hx.1 ?_
    rintro rfl
    have := hx.2
    simp at this
    linarith
  constructor
  · intro d hd
    exact (h.integrable d hd).congr_fun (he d hd) (hm d)
  · refine h.tendsto.congr' ?_
    filter_upwards [self_mem_nhdsWithin] with d hd
    exact setIntegral_congr_fun (hm d) (he d hd)

end Disp

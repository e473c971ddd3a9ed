import Verif.Props.YamlAccuracy
import Verif.Lemmas.RoundingMono
/-!
# C129: saving to YAML files again and again
-/

namespace Disp

open Spec

noncomputable section

/-! ## Printing a list of numbers repeatedly -/

/-- Not a number other than zero that is smaller than `10^-290`. -/
def Spec.Normal (x : Dbl) : Prop := ∀ r, x.val = .fin r → r = 0 ∨ (10 : ℝ) ^ (-290 : ℤ) ≤ |r|

/-- Finite with nine digits, or not finite. -/
def Nine (x : Dbl) : Prop := NineFigures x ∨ ∀ r, x.val ≠ .fin r

theorem cellShown_other {b : Bool} {x : Dbl} (h : ∀ r, x.val ≠ .fin r) : cellShown b x = x := by
  unfold cellShown
  split
  · rename_i r hr; exact absurd hr (h r)
  · rfl

theorem Nine.shown {x : Dbl} (h : Nine x) : cellShown true x = x :=
  h.elim (fun h => h.shown) cellShown_other

/-- Either infinite or rounded. -/
theorem rnd_cases (y : ℝ) : (Dbl.rnd (.fin y)).val = .fin (nearest y) ∨
    ∀ r, (Dbl.rnd (.fin y)).val ≠ .fin r := by
  by_cases hb : |nearest y| < 2 ^ 1024
  · exact .inl (Dbl.rnd_fin hb)
  · right
    intro r
    by_cases hy : 0 < y
    · have e : (Dbl.rnd (.fin y)).val = .pinf := by
        unfold Dbl.rnd Dbl.val; simp [hb, hy]
      rw [e]; exact fun h => by cases h
    · have e : (Dbl.rnd (.fin y)).val = .ninf := by
        unfold Dbl.rnd Dbl.val; simp [hb, hy]
      rw [e]; exact fun h => by cases h

/-- Printing with nine digits leaves nine digits. -/
theorem Spec.Normal.nine {x : Dbl} (h : Normal x) : Nine (cellShown true x) := by
  rcases hx : x.val with r | _ | _ | _
  · have e : cellShown true x = Dbl.rnd (.fin (nineDigits r)) := by
      simp only [cellShown, hx, if_true]
    rw [e]
    rcases rnd_cases (nineDigits r) with hv | hv
    · left
      rcases h r hx with rfl | hr
      · rw [nineDigits_zero] at hv ⊢
        exact ⟨0, 0, by norm_num, by norm_num, by rw [hv]; simp⟩
      have hr0 : r ≠ 0 := by
        rintro rfl
        rw [abs_zero] at hr
        exact absurd hr (not_le.2 (by positivity))
      have hlog : -290 ≤ Int.log 10 |r| := by
        refine (Int.zpow_le_iff_le_log (b := 10) (R := ℝ) (by norm_num) (abs_pos.2 hr0)).1 ?_
        exact_mod_cast hr
      have hb := log_bounds hr0
      have hj : |XR.rint (r / 10 ^ (Int.log 10 |r| - 8))| ≤ 10 ^ 9 := by
        refine rint_abs_le ?_
        rw [abs_div, abs_of_pos (ten_zpow_pos _)]
        have h9 := hb.2.le
        norm_num at h9 ⊢
        exact h9
      rw [nineDigits_eq] at hv ⊢
      generalize XR.rint (r / 10 ^ (Int.log 10 |r| - 8)) = j at hv hj ⊢
      by_cases hj9 : |j| < 10 ^ 9
      · exact ⟨j, Int.log 10 |r| - 8, hj9, by omega, hv⟩
      · have hcase : j = 10 ^ 9 ∨ j = -10 ^ 9 := by
          rcases abs_cases j with ⟨e, _⟩ | ⟨e, _⟩ <;> omega
        have e1 : Int.log 10 |r| - 8 = Int.log 10 |r| - 8 - 1 + 1 := by ring
        rcases hcase with rfl | rfl
        · refine ⟨10 ^ 8, Int.log 10 |r| - 8 + 1, by norm_num, by omega, ?_⟩
          rw [hv]; congr 2
          rw [zpow_add_one₀ (by norm_num)]; push_cast; ring
        · refine ⟨-10 ^ 8, Int.log 10 |r| - 8 + 1, by norm_num, by omega, ?_⟩
          rw [hv]; congr 2
          rw [zpow_add_one₀ (by norm_num)]; push_cast; ring
    · exact .inr hv
  all_goals
    have hne : ∀ r, x.val ≠ .fin r := by rw [hx]; intro r h; cases h
    rw [cellShown_other hne]
    exact .inr hne

/-- A number with nine digits still has nine digits when it is printed with eight decimals. -/
theorem Nine.decimals {x : Dbl} (h : Nine x) : Nine (cellShown false x) := by
  rcases h with ⟨j, q, hj, hq, hx⟩ | h
  · by_cases h8 : -8 ≤ q
    · have h8' : EightDecimals x := by
        intro r hr
        rw [hx] at hr
        refine ⟨j * 10 ^ (q + 8).toNat, ?_⟩
        have : r = nearest (j * 10 ^ q) := by injection hr with hr; exact hr.symm
        rw [this]
        congr 1
        push_cast
        rw [eq_div_iff (by positivity), mul_assoc, ← zpow_natCast (10 : ℝ) 8,
          ← zpow_natCast (10 : ℝ) (q + 8).toNat, ← zpow_add₀ (by norm_num)]
        congr 2
        push_cast
        omega
      rw [h8'.decimals]
      exact .inl ⟨j, q, hj, hq, hx⟩
    · have e : cellShown false x = Dbl.rnd (.fin (XR.roundDec 8 (nearest (j * 10 ^ q)))) := by
        simp only [cellShown, hx, Bool.false_eq_true, if_false]
      have hsmall : |(j : ℝ) * 10 ^ q| ≤ 1 := by
        rw [abs_mul, abs_of_pos (ten_zpow_pos q)]
        have h1 : |(j : ℝ)| ≤ 10 ^ 9 := by exact_mod_cast hj.le
        have h2 : (10 : ℝ) ^ q ≤ 10 ^ (-9 : ℤ) := zpow_le_zpow_right₀ (by norm_num) (by omega)
        calc |(j : ℝ)| * 10 ^ q ≤ 10 ^ 9 * 10 ^ (-9 : ℤ) :=
              mul_le_mul h1 h2 (ten_zpow_pos q).le (by norm_num)
          _ = 1 := by norm_num
      have hn : |nearest (j * 10 ^ q)| ≤ 1 := by
        have d1 : nearest 1 = 1 := nearest_of_double ⟨1, 0, by norm_num, by norm_num, by norm_num,
          by norm_num⟩
        obtain ⟨l, u⟩ := abs_le.1 hsmall
        have m1 := nearest_mono u
        have m2 := nearest_mono l
        rw [d1] at m1
        rw [nearest_neg, d1] at m2
        exact abs_le.2 ⟨m2, m1⟩
      have hk : |XR.rint (nearest (j * 10 ^ q) * 10 ^ 8)| ≤ 10 ^ 8 := by
        refine rint_abs_le ?_
        rw [abs_mul, abs_of_pos (show (0 : ℝ) < 10 ^ 8 by norm_num)]
        push_cast
        linarith
      rw [e]
      unfold XR.roundDec
      generalize XR.rint (nearest (j * 10 ^ q) * 10 ^ 8) = k at hk ⊢
      rcases rnd_cases ((k : ℝ) / 10 ^ 8) with hv | hv
      · refine .inl ⟨k, -8, by omega, by norm_num, ?_⟩
        rw [hv, show (10 : ℝ) ^ (-8 : ℤ) = 1 / 10 ^ 8 by rw [zpow_neg, one_div]; norm_cast]
        congr 2; ring
      · exact .inr hv
  · rw [cellShown_other h]; exact .inr h

/-- How a list of numbers is printed as an array. -/
def shownList (xs : List Dbl) : List Dbl := xs.map (cellShown (useSci xs))

theorem map_self {f : Dbl → Dbl} {xs : List Dbl} (h : ∀ x ∈ xs, f x = x) : xs.map f = xs := by
  rw [List.map_congr_left (g := id) h, List.map_id]

/-- Numbers that have eight decimals and nine digits do not change any more. -/
theorem shownList_fixed {xs : List Dbl} (h : ∀ x ∈ xs, EightDecimals x ∧ cellShown true x = x) :
    shownList xs = xs := by
  unfold shownList
  cases useSci xs with
  | false => exact map_self (fun x hx => (h x hx).1.decimals)
  | true => exact map_self (fun x hx => (h x hx).2)

/-- What is printed for the second time is not changed by printing it. -/
theorem shownList_settles {xs : List Dbl} (h : ∀ x ∈ xs, Normal x) :
    shownList (shownList (shownList xs)) = shownList (shownList xs) := by
  cases hb : useSci xs with
  | false =>
    have e1 : shownList xs = xs.map (cellShown false) := by unfold shownList; rw [hb]
    have g1 : ∀ y ∈ shownList xs, EightDecimals y := by
      rw [e1]
      intro y hy
      obtain ⟨x, _, rfl⟩ := List.mem_map.1 hy
      exact decimals_grid x
    generalize shownList xs = ys at g1
    cases hc : useSci ys with
    | false =>
      have e2 : shownList ys = ys := by
        unfold shownList; rw [hc]; exact map_self (fun x hx => (g1 x hx).decimals)
      rw [e2, e2]
    | true =>
      have e2 : shownList ys = ys.map (cellShown true) := by unfold shownList; rw [hc]
      refine shownList_fixed ?_
      rw [e2]
      intro z hz
      obtain ⟨y, hy, rfl⟩ := List.mem_map.1 hz
      exact (g1 y hy).digits
  | true =>
    have e1 : shownList xs = xs.map (cellShown true) := by unfold shownList; rw [hb]
    have g1 : ∀ y ∈ shownList xs, Nine y := by
      rw [e1]
      intro y hy
      obtain ⟨x, hx, rfl⟩ := List.mem_map.1 hy
      exact (h x hx).nine
    generalize shownList xs = ys at g1
    cases hc : useSci ys with
    | true =>
      have e2 : shownList ys = ys := by
        unfold shownList; rw [hc]; exact map_self (fun x hx => (g1 x hx).shown)
      rw [e2, e2]
    | false =>
      have e2 : shownList ys = ys.map (cellShown false) := by unfold shownList; rw [hc]
      refine shownList_fixed ?_
      rw [e2]
      intro z hz
      obtain ⟨y, hy, rfl⟩ := List.mem_map.1 hz
      exact ⟨decimals_grid y, (g1 y hy).decimals.shown⟩

theorem printed_flatten (rows : List (List Dbl)) : (printed rows).flatten = shownList rows.flatten := by
  rw [printed_dbl, shownList, List.map_flatten]

theorem rows_of_flatten {rows rows' : List (List Dbl)} (hw : ∀ r ∈ rows, r.length = 2)
    (hw' : ∀ r ∈ rows', r.length = 2) (h : rows.flatten = rows'.flatten) : rows = rows' := by
  induction rows generalizing rows' with
  | nil =>
    match rows', hw', h with
    | [], _, _ => rfl
    | r :: _, hw', h =>
      obtain ⟨a, b, rfl⟩ := row_two (hw' r (by simp))
      simp at h
  | cons r rows ih =>
    obtain ⟨a, b, rfl⟩ := row_two (hw r (by simp))
    match rows', hw', h with
    | [], _, h => simp at h
    | r' :: rows', hw', h =>
      obtain ⟨c, d, rfl⟩ := row_two (hw' r' (by simp))
      simp only [List.flatten_cons, List.cons_append, List.nil_append, List.cons.injEq] at h
      obtain ⟨rfl, rfl, h⟩ := h
      rw [ih (fun r hr => hw r (by simp [hr])) (fun r hr => hw' r (by simp [hr])) h]

/-- Printing a table: from the second time on nothing changes. -/
theorem printed_settles {rows : List (List Dbl)} (hw : ∀ r ∈ rows, r.length = 2)
    (h : ∀ r ∈ rows, ∀ x ∈ r, Normal x) :
    printed (printed (printed rows)) = printed (printed rows) := by
  have w1 := printed_width hw
  have w2 := printed_width w1
  refine rows_of_flatten (printed_width w2) w2 ?_
  rw [printed_flatten, printed_flatten, printed_flatten]
  refine shownList_settles (fun x hx => ?_)
  obtain ⟨r, hr, hx⟩ := List.mem_flatten.1 hx
  exact h r hr x hx

/-! ## The metadata of a loaded material -/

theorem strip_mem {c : Char} {l : List Char} (h : c ∈ rstripNl l) : c ∈ l := by
  unfold rstripNl at h
  rw [List.mem_reverse] at h
  exact List.mem_reverse.1 ((List.dropWhile_sublist _).subset h)

/-- What is loaded can be saved again. -/
theorem reloaded_meta {F : Type} [PyFloat F] [SciPy F] [NumText F] {fd : FileDict F} {m' : Material F}
    (h : Material.new (fun _ => .ok fd) (fileKw F "") = .ok m') {md md' : List (String × MetaVal)}
    (he : m'.metaData = some md') (hy : YamlMeta md md') (hok : MetaOk md) (hp : PlainMeta md) :
    MetaOk md' ∧ PlainMeta md' := by
  obtain ⟨md2, e1, e2, -⟩ := file_meta h
  have : md2 = md' := by rw [he] at e1; injection e1 with e1; exact e1.symm
  subst this
  obtain ⟨c, hc⟩ := hok.good.comment
  obtain ⟨s, hs⟩ := hok.good.spec
  have hc' := hy.comment c hc
  obtain ⟨s', hs', hperm⟩ := hy.spec s hs
  have hkey : ∀ p ∈ md2, p.1 ∈ fileKeys := fun p hq => by
    rw [← e2]; exact List.mem_map_of_mem hq
  have hcases : ∀ k v, dictGet md2 k = .ok v → k ∈ ["Reference", "Author", "FullName", "Name", "Comment"] ∨
      k = "MetaComment" ∨ k = "Specification" := by
    intro k v hv
    have hk := hkey _ (dictGet_mem hv)
    simp only [fileKeys, List.mem_cons, List.not_mem_nil, or_false] at hk ⊢
    tauto
  refine ⟨⟨⟨fun k hk => ?_, ⟨_, hc'⟩, ⟨_, hs'⟩, fun p hq => ?_, ?_⟩, fun p hq => ?_⟩,
    ⟨fun k x hx => ?_, fun k x hx => ?_⟩⟩
  · obtain ⟨x, hx⟩ := hok.good.text k hk
    exact ⟨x, by rw [hy.text k hk]; exact hx⟩
  · have : ∀ k ∈ fileKeys, k = "Alias" ∨ k = "MetaComment" ∨ ∃ al, dictGet keyAliases k = .ok al := by
      intro k hk
      simp only [fileKeys, List.mem_cons, List.not_mem_nil, or_false] at hk
      rcases hk with rfl | rfl | rfl | rfl | rfl | rfl | rfl
      · exact .inr (.inr ⟨_, rfl⟩)
      · exact .inr (.inr ⟨_, rfl⟩)
      · exact .inr (.inr ⟨_, rfl⟩)
      · exact .inr (.inr ⟨_, rfl⟩)
      · exact .inr (.inr ⟨_, rfl⟩)
      · exact .inr (.inl rfl)
      · exact .inr (.inr ⟨_, rfl⟩)
    exact this _ (hkey p hq)
  · show (md2.map Prod.fst).Nodup
    rw [e2]; decide
  · have : ∀ k ∈ fileKeys, k ≠ "Datasets" := by decide
    exact this _ (hkey p hq)
  · rcases hcases k _ hx with hk | rfl | rfl
    · rw [hy.text k hk] at hx; exact hp.text k x hx
    · rw [hc'] at hx
      have e : x = String.ofList (rstripNl c.toList).dropLast := by cases hx; rfl
      subst e
      intro ch hch
      rw [String.toList_ofList] at hch
      exact hp.text _ c hc ch (strip_mem (List.mem_of_mem_dropLast hch))
    · rw [hs'] at hx; cases hx
  · rcases hcases k _ hx with hk | rfl | rfl
    · rw [hy.text k hk] at hx; exact hp.spec k x hx
    · rw [hc'] at hx; cases hx
    · rw [hs'] at hx
      have e : x = s' := by cases hx; rfl
      subst e
      obtain ⟨h1, h2⟩ := hp.spec _ s hs
      exact ⟨((hperm.map Prod.fst).nodup_iff).2 (keys_filter h1 _),
        fun p hq => h2 p (List.mem_filter.1 (hperm.mem_iff.1 hq)).1⟩

/-! ## Saving again and again -/

/-- A material was saved to YAML files and loaded, once for each of the orders in which the reader
visits its keys. -/
inductive Spec.Resaved {F : Type} [PyFloat F] [SciPy F] [NumText F] [Printing F] [YamlIO F] :
    List KeyOrder → Material F → Material F → Prop
  | none (m : Material F) : Spec.Resaved [] m m
  | more {o : KeyOrder} {os : List KeyOrder} {m m' m'' : Material F} :
      SavedAndLoaded o ".yml" true false m m' → Spec.Resaved os m' m'' → Spec.Resaved (o :: os) m m''

/-- Two materials give the same data for every spectrum. -/
structure Spec.SameData {F : Type} [PyFloat F] [SciPy F] (m m' : Material F) : Prop where
  name : m'.name = m.name
  real : m'.real = m.real
  imag : m'.imag = m.imag
  cplx : m'.cplx = m.cplx

section doubles
variable [SciPy Dbl] [YamlIO Dbl] [YamlLaws Dbl]

/-- A material with one part that can be saved, and extinction coefficient 0. -/
structure Single (m : Material Dbl) (r : RealData Dbl) : Prop where
  name : m.name = "nk"
  parts : ∃ md, HasParts m md r (cdata (lit 0)) ∧ PlainMeta md

omit [YamlIO Dbl] [YamlLaws Dbl] in
theorem Single.same {m m' : Material Dbl} {r : RealData Dbl} (h : Single m r) (h' : Single m' r) :
    SameData m m' := by
  obtain ⟨_, p, -⟩ := h.parts
  obtain ⟨_, p', -⟩ := h'.parts
  exact ⟨by rw [h.name, h'.name], by rw [p.real, p'.real], by rw [p.imag, p'.imag], by rw [p.cplx, p'.cplx]⟩

/-- One cycle. -/
theorem Single.step {m : Material Dbl} {r : RealData Dbl} (h : Single m r) (hc : isConst r = false)
    (hl : Loadable r) (hf : ∀ o ps s t u, r = .interp o ps s t u → ps ≠ [] ∧ ps.length ≤ 500)
    (hs : ∀ r', Reloaded r r' → Disp.Storable r') {o : KeyOrder} (ho : o.Valid) :
    ∃ m' r', SavedAndLoaded o ".yml" true false m m' ∧ Reloaded r r' ∧ Single m' r' := by
  obtain ⟨md, hp, hpl⟩ := h.parts
  obtain ⟨w, w', text, fd, r1, m', md', r', i', a1, a2, a3, a4, a5, a6, a7, a8, a9, a10, a11⟩ :=
    C50_reload_partial hp h.name hpl ⟨hf, by rintro _ _ _ _ _ ⟨⟩, by rintro _ _ _ _ _ _ _ _ _ _ _ ⟨⟩⟩
      hl (.constant _ _ _ _) (by rintro _ _ _ _ _ ⟨⟩) (by rintro _ _ _ _ _ _ _ _ _ ⟨⟩) true (.inl rfl)
      (by rw [hc]; rintro ⟨⟨⟩, _⟩) ho
  obtain ⟨b1, b2⟩ : Reloaded r r' ∧ i' = cdata (lit 0) := by
    cases a9 with
    | separate b1 b2 => exact ⟨b1, by cases b2; rfl⟩
    | joined _ e => cases e
  subst b2
  obtain ⟨c1, c2⟩ := reloaded_meta a4 a10 a11 hp.ok hpl
  exact ⟨m', r', ⟨w, w', text, fd, r1, a1, a2, a3, a4⟩, b1, a5, md',
    ⟨a10, c1, .inl a5, a8, a6, a7, hs r' b1, cdata_storable _⟩, c2⟩

/-- A material with a table. -/
structure OneTable (m : Material Dbl) (rows : List (List Dbl)) (t u : String) : Prop where
  ex : ∃ r, Single m r ∧ tableData .float (pairsOf rows 1) t u = .ok r
  width : ∀ r ∈ rows, r.length = 2
  two : 2 ≤ rows.length
  most : rows.length ≤ 500

omit [SciPy Dbl] [YamlIO Dbl] [YamlLaws Dbl] in
theorem printed_count (rows : List (List Dbl)) : (printed rows).length = rows.length := by
  rw [printed_dbl, List.length_map]

theorem OneTable.step {m : Material Dbl} {rows : List (List Dbl)} {t u c : String}
    (h : OneTable m rows t u) (hc : (lower t, lower u, c) ∈ names) (hg : GoodTable 2 (printed rows))
    {o : KeyOrder} (ho : o.Valid) :
    ∃ m', SavedAndLoaded o ".yml" true false m m' ∧ OneTable m' (printed rows) t u := by
  obtain ⟨r, h1, h2⟩ := h.ex
  have hl : ∀ q : List (List Dbl), (pairsOf q 1).length = q.length := fun q => by simp [pairsOf]
  obtain ⟨⟨s, rfl⟩, hs, hcst⟩ := tableData_storable (by rw [hl]; exact h.two) h2
  obtain ⟨p1, p2⟩ := names_plain hc
  have hro := rowsOf_pairsOf h.width
  have hrel : ∀ r', Reloaded (.interp 1 (pairsOf rows 1) s t u) r' →
      tableData .float (pairsOf (printed rows) 1) t u = .ok r' := by
    intro r' hr
    cases hr with
    | table b => rw [hro] at b; exact b
  obtain ⟨m', r', e1, e2, e3⟩ := h1.step hcst
    (.table hc p1 p2 (by rw [hl]; exact h.most) (by rw [hro]; exact hg))
    (fun o ps s t u e => by
      have : ps = pairsOf rows 1 := by cases e; rfl
      subst this
      refine ⟨fun e => ?_, by rw [hl]; exact h.most⟩
      have := hl rows
      have h2 := h.two
      rw [e] at this
      simp at this; omega)
    (fun r' hr => (tableData_storable (by rw [hl, printed_count]; exact h.two) (hrel r' hr)).2.1) ho
  exact ⟨m', e1, ⟨r', e3, hrel r' e2⟩, printed_width h.width, by rw [printed_count]; exact h.two,
    by rw [printed_count]; exact h.most⟩

omit [YamlIO Dbl] [YamlLaws Dbl] in
theorem OneTable.same {m m' : Material Dbl} {rows : List (List Dbl)} {t u : String}
    (h : OneTable m rows t u) (h' : OneTable m' rows t u) : SameData m m' := by
  obtain ⟨r, a1, a2⟩ := h.ex
  obtain ⟨r', b1, b2⟩ := h'.ex
  have : r' = r := by rw [a2] at b2; cases b2; rfl
  subst this
  exact a1.same b1

/-- The table after a number of cycles. -/
theorem OneTable.cycles {rows : List (List Dbl)} {t u c : String} (hc : (lower t, lower u, c) ∈ names)
    (hg : ∀ n, GoodTable 2 (printed^[n + 1] rows)) : ∀ (os : List KeyOrder), (∀ o ∈ os, o.Valid) →
    ∀ (n : ℕ) (m : Material Dbl), OneTable m (printed^[n] rows) t u →
    ∃ m', Resaved os m m' ∧ OneTable m' (printed^[n + os.length] rows) t u
  | [], _, n, m, h => ⟨m, .none m, h⟩
  | o :: os, ho, n, m, h => by
    have hs : printed (printed^[n] rows) = printed^[n + 1] rows :=
      (Function.iterate_succ_apply' printed n rows).symm
    obtain ⟨m1, e1, h1⟩ := h.step hc (by rw [hs]; exact hg n) (ho o (by simp))
    rw [hs] at h1
    obtain ⟨m', e2, h2⟩ := cycles hc hg os (fun o h => ho o (by simp [h])) (n + 1) m1 h1
    refine ⟨m', .more e1 e2, ?_⟩
    rw [List.length_cons, show n + (os.length + 1) = n + 1 + os.length by ring]
    exact h2

omit [SciPy Dbl] [YamlIO Dbl] [YamlLaws Dbl] in
theorem iterate_settles {α : Type} {f : α → α} {x : α} (h : f (f (f x)) = f (f x)) (n : ℕ) :
    f^[n + 2] x = f (f x) := by
  induction n with
  | zero => rfl
  | succ n ih => rw [show n + 1 + 2 = (n + 2) + 1 by ring, Function.iterate_succ_apply', ih, h]

omit [SciPy Dbl] [YamlIO Dbl] [YamlLaws Dbl] in
/-- A number that is printed twice. -/
theorem twice_close (b c : Bool) {x : Dbl} {r : ℝ} (hx : x.val = .fin r) (hr : |r| ≤ 10 ^ 100) :
    ∃ s, (cellShown c (cellShown b x)).val = .fin s ∧ |s - r| ≤ 13 / 10 ^ 9 * (1 + |r|) := by
  have hbig : (10 : ℝ) ^ 102 = 100 * 10 ^ 100 := by norm_num
  have hone : (1 : ℝ) ≤ 10 ^ 100 := one_le_pow₀ (by norm_num)
  have h0 := abs_nonneg r
  obtain ⟨s, h1, h2⟩ := array_close b hx hr
  have a := abs_add_le r (s - r)
  rw [add_sub_cancel] at a
  generalize (10 : ℝ) ^ 100 = B at *
  have hs : |s| ≤ 10 ^ 102 := by
    rw [hbig]
    norm_num at h2
    linarith
  obtain ⟨z, h3, h4⟩ := cellShown_close c h1 hs
  have h4' : |z - s| ≤ 6 / 10 ^ 9 * (1 + |s|) := h4.trans (by
    have := abs_nonneg s
    cases c <;> norm_num <;> linarith)
  refine ⟨z, h3, ?_⟩
  have a2 := abs_add_le (z - s) (s - r)
  rw [sub_add_sub_cancel] at a2
  norm_num at h2 h4' ⊢
  linarith

omit [YamlLaws Dbl] in
/-- The printed tables are tables, and their numbers are close to the first ones. -/
theorem printed_iterates {rows : List (List Dbl)} (hg : GoodTable 2 rows)
    (hn : ∀ r ∈ rows, ∀ x ∈ r, Normal x) {vs : List (ℝ × ℝ)} (hv : Readings (pairsOf rows 1) vs)
    (hb : NotHuge vs) (ha : Apart (13 / 10 ^ 9) vs) (n : ℕ) :
    GoodTable 2 (printed^[n] rows) ∧
      ∃ ws, Readings (pairsOf (printed^[n] rows) 1) ws ∧ List.Forall₂ (NearPair (13 / 10 ^ 9)) vs ws := by
  have hset := printed_settles hg.width hn
  have good : ∀ {q : List (List Dbl)}, q.length = rows.length → (∀ r ∈ q, r.length = 2) →
      (∃ ws, Readings (pairsOf q 1) ws ∧ List.Forall₂ (NearPair (13 / 10 ^ 9)) vs ws) →
      GoodTable 2 q := by
    rintro q hl hw ⟨ws, w1, w2⟩
    refine good_of_numbers (j := 1) ?_ hw w1 (distinct_of_near w2 ha)
    rintro rfl
    exact hg.nonempty (List.length_eq_zero_iff.1 hl.symm)
  have h1 : ∃ ws, Readings (pairsOf (printed rows) 1) ws ∧
      List.Forall₂ (NearPair (13 / 10 ^ 9)) vs ws := by
    have key : ∀ x r, Dbl.val x = .fin r → |r| ≤ 10 ^ 100 → ∃ s,
        (cellShown (useSci rows.flatten) x).val = .fin s ∧ |s - r| ≤ 13 / 10 ^ 9 * (1 + |r|) := by
      intro x r h1 h2
      obtain ⟨s, e1, e2⟩ := array_close (useSci rows.flatten) h1 h2
      have := abs_nonneg r
      exact ⟨s, e1, e2.trans (by norm_num; linarith)⟩
    obtain ⟨ws, w1, w2⟩ := readings_map key key hv hb
    rw [← printed_pairs hg.width] at w1
    exact ⟨ws, w1, w2⟩
  have h2 : ∃ ws, Readings (pairsOf (printed (printed rows)) 1) ws ∧
      List.Forall₂ (NearPair (13 / 10 ^ 9)) vs ws := by
    have key : ∀ x r, Dbl.val x = .fin r → |r| ≤ 10 ^ 100 → ∃ s,
        (cellShown (useSci (printed rows).flatten) (cellShown (useSci rows.flatten) x)).val = .fin s ∧
          |s - r| ≤ 13 / 10 ^ 9 * (1 + |r|) :=
      fun x r h1 h2 => twice_close _ _ h1 h2
    obtain ⟨ws, w1, w2⟩ := readings_map key key hv hb
    rw [printed_pairs (printed_width hg.width), printed_pairs hg.width, List.map_map]
    exact ⟨ws, w1, w2⟩
  match n with
  | 0 =>
    refine ⟨hg, vs, hv, ?_⟩
    refine List.forall₂_same.2 (fun v _ => ?_)
    constructor <;> rw [sub_self, abs_zero] <;> positivity
  | 1 => exact ⟨good (printed_count _) (printed_width hg.width) h1, h1⟩
  | n + 2 =>
    rw [iterate_settles hset]
    exact ⟨good (by rw [printed_count, printed_count]) (printed_width (printed_width hg.width)) h2, h2⟩

/-- C129 for tables of the index, what holds: a table whose abscissae are more than `13e-9` apart can
be saved as YAML and loaded any number of times; however often, every number stays within
`13e-9 (1 + |x|)` of the original one; and from the second time on nothing changes any more.
Missing: the first time, see `C129_refuted`; tables with an extinction coefficient, and numbers other than zero
below 1e-290. -/
theorem C129_table_partial (rd : String → Res (FileDict Dbl)) (kw : Kwargs Dbl)
    (hnd : (kw.map Prod.fst).Nodup) (hp : PlainOptions kw) {c : String}
    (hc : (lower (defaultsOf kw).1, lower (defaultsOf kw).2, c) ∈ names)
    (rows : List (List Dbl)) (hk : Only kw "tabulated_n" (.table 2) (.arr (.d2 2 .float rows)))
    (hg : GoodTable 2 rows) (h2 : 2 ≤ rows.length) (h500 : rows.length ≤ 500)
    (hn : ∀ r ∈ rows, ∀ x ∈ r, Normal x) {vs : List (ℝ × ℝ)} (hv : Readings (pairsOf rows 1) vs)
    (hb : NotHuge vs) (ha : Apart (13 / 10 ^ 9) vs) :
    ∃ m, Material.new rd kw = .ok m ∧ ∀ os : List KeyOrder, (∀ o ∈ os, o.Valid) →
      ∃ m' s' ps' ws, Resaved os m m' ∧ m'.name = "nk" ∧
        m'.real = some (.interp 1 ps' s' (defaultsOf kw).1 (defaultsOf kw).2) ∧
        m'.imag = some (cdata (lit 0)) ∧ Readings ps' ws ∧
        List.Forall₂ (NearPair (13 / 10 ^ 9)) vs ws ∧
        (2 ≤ os.length → ∀ (o : KeyOrder) (m'' : Material Dbl), o.Valid →
          SavedAndLoaded o ".yml" true false m' m'' → SameData m' m'') := by
  obtain ⟨r0, hr0, hm0⟩ := (C24_table_partial rd kw hnd hp hc rows).1 hk hg
  have hl : ∀ q : List (List Dbl), (pairsOf q 1).length = q.length := fun q => by simp [pairsOf]
  have hgs := fun n => (printed_iterates hg hn hv hb ha n).1
  have h0 : OneTable { blankMaterial (parsedOf kw) with
      name := "nk", real := some r0, imag := some (cdata (lit 0)) } (printed^[0] rows)
      (defaultsOf kw).1 (defaultsOf kw).2 := by
    refine ⟨⟨r0, ⟨rfl, blankMeta, ⟨rfl, blankMeta_ok, .inl rfl, rfl, rfl, rfl,
      (tableData_storable (by rw [hl]; exact h2) hr0).2.1, cdata_storable _⟩, blankMeta_plain⟩, hr0⟩,
      hg.width, h2, h500⟩
  refine ⟨_, hm0, fun os ho => ?_⟩
  obtain ⟨m', e, h'⟩ := OneTable.cycles hc (fun n => hgs (n + 1)) os ho 0 _ h0
  rw [zero_add] at h'
  obtain ⟨-, ws, w1, w2⟩ := printed_iterates hg hn hv hb ha os.length
  obtain ⟨r', hs, hr'⟩ := h'.ex
  obtain ⟨md, hparts, -⟩ := hs.parts
  obtain ⟨s', rfl, -⟩ := tableData_interp (by rw [hl]; exact h'.two) hr'
  refine ⟨m', s', _, ws, e, hs.name, hparts.real, hparts.imag, w1, w2, fun h o m'' hov e2 => ?_⟩
  obtain ⟨m3, e3, h3⟩ := h'.step hc
    (by rw [← Function.iterate_succ_apply' printed]; exact hgs _) hov
  have := e2.unique e3
  subst this
  obtain ⟨k, hk'⟩ : ∃ k, os.length = k + 2 := ⟨os.length - 2, by omega⟩
  rw [hk', iterate_settles (printed_settles hg.width hn), printed_settles hg.width hn] at h3
  rw [hk', iterate_settles (printed_settles hg.width hn)] at h'
  exact h'.same h3

/-- A material with a model. -/
structure OneModel (m : Material Dbl) (f : Formula) (p xs : List Dbl) (t u : String) : Prop where
  ex : ∃ r, Single m r ∧ RealData.newModel f p (.list .float xs) t u = .ok r
  params : p.length ≤ 1000
  nonempty : xs ≠ []
  range : xs.length ≤ 1000

omit [YamlIO Dbl] [YamlLaws Dbl] in
theorem OneModel.same {m m' : Material Dbl} {f : Formula} {p xs : List Dbl} {t u : String}
    (h : OneModel m f p xs t u) (h' : OneModel m' f p xs t u) : SameData m m' := by
  obtain ⟨r, a1, a2⟩ := h.ex
  obtain ⟨r', b1, b2⟩ := h'.ex
  have : r' = r := by rw [a2] at b2; cases b2; rfl
  subst this
  exact a1.same b1

theorem OneModel.step {m : Material Dbl} {f : Formula} {p xs : List Dbl} {t u : String}
    (h : OneModel m f p xs t u) (hf : f ≠ .fano) (hlt : lower t = "wavelength")
    (hlu : lower u ∈ ["um", "micrometer", "micrometre"]) {o : KeyOrder} (ho : o.Valid) :
    ∃ m', SavedAndLoaded o ".yml" true false m m' ∧ OneModel m' f (shownList p) (shownList xs) t u := by
  obtain ⟨r, h1, h2⟩ := h.ex
  obtain ⟨s, rfl, hs⟩ := newModel_ok h2
  have hc : (lower t, lower u, "um") ∈ names := by
    rw [hlt]
    simp only [List.mem_cons, List.not_mem_nil, or_false] at hlu
    rcases hlu with lu | lu | lu <;> rw [lu] <;> decide +kernel
  obtain ⟨p1, p2⟩ := names_plain hc
  have hrel : ∀ r', Reloaded (.model f p s t u) r' →
      RealData.newModel f (shownList p) (.list .float (shownList xs)) t u = .ok r' := by
    intro r' hr
    cases hr with
    | @model _ _ xs' _ dt _ _ _ b b' =>
      have e : xs' = xs := by rw [hs] at b; cases b; rfl
      rw [e, shown_list, shown_list] at b'
      exact b'
  obtain ⟨m', r', e1, e2, e3⟩ := h1.step rfl
    (.model hf hlt hlu p1 p2 hs h.nonempty h.range h.params) (by rintro _ _ _ _ _ ⟨⟩)
    (fun r' hr => by
      obtain ⟨s', rfl, hs'⟩ := newModel_ok (hrel r' hr)
      exact ⟨⟨_, _, hs'⟩, by rintro _ _ _ _ _ _ ⟨⟩⟩) ho
  refine ⟨m', e1, ⟨r', e3, hrel r' e2⟩, by rw [shownList, List.length_map]; exact h.params, ?_,
    by rw [shownList, List.length_map]; exact h.range⟩
  rw [shownList]
  simpa using h.nonempty

theorem OneModel.cycles {f : Formula} {p xs : List Dbl} {t u : String} (hf : f ≠ .fano)
    (hlt : lower t = "wavelength") (hlu : lower u ∈ ["um", "micrometer", "micrometre"]) :
    ∀ (os : List KeyOrder), (∀ o ∈ os, o.Valid) → ∀ (n : ℕ) (m : Material Dbl),
    OneModel m f (shownList^[n] p) (shownList^[n] xs) t u →
    ∃ m', Resaved os m m' ∧
      OneModel m' f (shownList^[n + os.length] p) (shownList^[n + os.length] xs) t u
  | [], _, n, m, h => ⟨m, .none m, h⟩
  | o :: os, ho, n, m, h => by
    obtain ⟨m1, e1, h1⟩ := h.step hf hlt hlu (ho o (by simp))
    rw [← Function.iterate_succ_apply' shownList, ← Function.iterate_succ_apply' shownList] at h1
    obtain ⟨m', e2, h2⟩ := cycles hf hlt hlu os (fun o h => ho o (by simp [h])) (n + 1) m1 h1
    refine ⟨m', .more e1 e2, ?_⟩
    rw [List.length_cons, show n + (os.length + 1) = n + 1 + os.length by ring]
    exact h2

omit [SciPy Dbl] [YamlIO Dbl] [YamlLaws Dbl] in
theorem shown_iterates {xs : List Dbl} {rs : List ℝ} (hn : ∀ x ∈ xs, Normal x)
    (h : List.Forall₂ (fun x r => Dbl.val x = .fin r ∧ |r| ≤ 10 ^ 100) xs rs) (n : ℕ) :
    List.Forall₂ (fun x r => ∃ s, Dbl.val x = .fin s ∧ |s - r| ≤ 13 / 10 ^ 9 * (1 + |r|))
      (shownList^[n] xs) rs := by
  match n with
  | 0 =>
    refine h.imp (fun x r hx => ⟨r, hx.1, ?_⟩)
    rw [sub_self, abs_zero]; positivity
  | 1 =>
    show List.Forall₂ _ (xs.map _) _
    rw [List.forall₂_map_left_iff]
    refine h.imp (fun x r hx => ?_)
    obtain ⟨s, h1, h2⟩ := array_close (useSci xs) hx.1 hx.2
    have := abs_nonneg r
    exact ⟨s, h1, h2.trans (by norm_num; linarith)⟩
  | n + 2 =>
    rw [iterate_settles (shownList_settles hn)]
    show List.Forall₂ _ ((xs.map _).map _) _
    rw [List.map_map, List.forall₂_map_left_iff]
    exact h.imp (fun x r hx => twice_close _ _ hx.1 hx.2)

/-- C129 for models of the index, what holds: a model can be saved as YAML and loaded any number of
times; however often, every parameter and every bound of the range stays within `13e-9 (1 + |x|)` of the
original one; and from the second time on nothing changes any more. -/
theorem C129_model_partial (rd : String → Res (FileDict Dbl)) (kw : Kwargs Dbl)
    (hnd : (kw.map Prod.fst).Nodup) (hp : PlainOptions kw) (d : ModelKw Dbl)
    (h : Only kw "model_kw" .model (.dict d)) (k : String) (hk : d.name = some k)
    (p : List Dbl) (hpar : d.params = some p) (xs : List Dbl)
    (hr : d.validRange = some (.list .float xs))
    (t u : String) (ht : d.stype = some t) (hu : d.unit = some u) (hki : k ∈ indexModels)
    (hlt : lower t = "wavelength") (hlu : lower u ∈ ["um", "micrometer", "micrometre"])
    (hp1 : p.length ≤ 1000) (hx0 : xs ≠ []) (hx1 : xs.length ≤ 1000)
    (hnp : ∀ x ∈ p, Normal x) (hnx : ∀ x ∈ xs, Normal x) {ps rs : List ℝ}
    (hps : List.Forall₂ (fun x r => Dbl.val x = .fin r ∧ |r| ≤ 10 ^ 100) p ps)
    (hrs : List.Forall₂ (fun x r => Dbl.val x = .fin r ∧ |r| ≤ 10 ^ 100) xs rs) :
    ∃ m f, Material.new rd kw = .ok m ∧ classRef k = .real f ∧ ∀ os : List KeyOrder,
      (∀ o ∈ os, o.Valid) → ∃ m' p' xs' s, Resaved os m m' ∧ m'.name = "nk" ∧
        m'.real = some (.model f p' s t u) ∧ s.values = .array .float xs' ∧
        m'.imag = some (cdata (lit 0)) ∧ m'.cplx = Option.none ∧
        List.Forall₂ (fun x r => ∃ s, Dbl.val x = .fin s ∧ |s - r| ≤ 13 / 10 ^ 9 * (1 + |r|)) p' ps ∧
        List.Forall₂ (fun x r => ∃ s, Dbl.val x = .fin s ∧ |s - r| ≤ 13 / 10 ^ 9 * (1 + |r|)) xs' rs ∧
        (2 ≤ os.length → ∀ (o : KeyOrder) (m'' : Material Dbl), o.Valid →
          SavedAndLoaded o ".yml" true false m' m'' → SameData m' m'') := by
  obtain ⟨f, r, hmd, hf, hm⟩ := ((C24_model_partial rd kw hnd hp d h k hk p hpar _ hr (by trivial)
    t u ht hu).1 hki).1 ⟨hlt, hlu⟩
  obtain ⟨f', hf', hff, _⟩ := indexModel_class k hki
  have e : f' = f := by rw [hf] at hf'; cases hf'; rfl
  subst e
  obtain ⟨s, rfl, hs⟩ := newModel_ok hmd
  have h0 : OneModel { blankMaterial (parsedOf kw) with
      name := "nk", real := some (.model f' p s t u), imag := some (cdata (lit 0)), defType := t,
      defUnit := u } f' (shownList^[0] p) (shownList^[0] xs) t u := by
    refine ⟨⟨_, ⟨rfl, blankMeta, ⟨rfl, blankMeta_ok, .inl rfl, rfl, rfl, rfl,
      ⟨⟨_, _, hs⟩, by rintro _ _ _ _ _ _ ⟨⟩⟩, cdata_storable _⟩, blankMeta_plain⟩, hmd⟩, hp1, hx0, hx1⟩
  refine ⟨_, f', hm, hf, fun os ho => ?_⟩
  obtain ⟨m', e, h'⟩ := OneModel.cycles hff hlt hlu os ho 0 _ h0
  rw [zero_add] at h'
  obtain ⟨r', hs', hr'⟩ := h'.ex
  obtain ⟨md, hparts, -⟩ := hs'.parts
  obtain ⟨s', rfl, hv⟩ := newModel_ok hr'
  refine ⟨m', _, _, s', e, hs'.name, hparts.real, hv, hparts.imag, hparts.cplx, shown_iterates hnp hps _,
    shown_iterates hnx hrs _, fun h2 o m'' hov e2 => ?_⟩
  obtain ⟨m3, e3, h3⟩ := h'.step hff hlt hlu hov
  have := e2.unique e3
  subst this
  obtain ⟨k, hk'⟩ : ∃ k, os.length = k + 2 := ⟨os.length - 2, by omega⟩
  rw [hk', iterate_settles (shownList_settles hnp), iterate_settles (shownList_settles hnx),
    shownList_settles hnp, shownList_settles hnx] at h3
  rw [hk', iterate_settles (shownList_settles hnp), iterate_settles (shownList_settles hnx)] at h'
  exact h'.same h3

/-! ## A table that changes with the second file -/

/-- C129 as stated: a material that was loaded from a YAML file keeps its data when it is saved to a YAML
file and loaded once more. -/
def C129_statement : Prop := ∀ (rd : String → Res (FileDict Dbl)) (kw : Kwargs Dbl)
  (m m' m'' : Material Dbl) (o o' : KeyOrder), o.Valid → o'.Valid → Material.new rd kw = .ok m →
  SavedAndLoaded o ".yml" true false m m' → SavedAndLoaded o' ".yml" true false m' m'' → SameData m' m''

omit [SciPy Dbl] [YamlIO Dbl] [YamlLaws Dbl] in
theorem driftTable_printed : printed (driftTable driftHigh driftLow) = driftTable driftNext (intDbl 1) := by
  have hs : useSci (driftTable driftHigh driftLow).flatten = false := by
    refine positional_of (lo := 1 + 1 / 2 ^ 28) (hi := 1000 + 1 / 2 ^ 19) (by norm_num) (by norm_num)
      (by norm_num) ?_
    intro r hr
    rw [mem_driftTable driftHigh_val driftLow_val] at hr
    rcases hr with rfl | rfl | rfl | rfl <;> norm_num [abs_of_pos]
  rw [printed_dbl, hs, driftTable_map _ _ _ (shown_int (n := 500) (by norm_num))
    (shown_int (n := 600) (by norm_num)), shown_high, shown_low]

omit [SciPy Dbl] [YamlIO Dbl] [YamlLaws Dbl] in
theorem driftTable_reprinted : printed (driftTable driftNext (intDbl 1)) =
    driftTable (intDbl 1000) (intDbl 1) := by
  have hs : useSci (driftTable driftNext (intDbl 1)).flatten = true := by
    have e1 := intDbl_val (n := 1) (by norm_num)
    push_cast at e1
    obtain ⟨h1, h2⟩ := driftNext_bounds
    refine scientific_of (v := nearest (100000000191 / 10 ^ 8)) (by linarith) ?_ ?_
    · rw [mem_driftTable driftNext_val e1]; exact .inr (.inl rfl)
    · rw [mem_driftTable driftNext_val e1]; exact .inr (.inr (.inr rfl))
  rw [printed_dbl, hs,
    driftTable_map _ _ _ (digits_int (L := 2) (by norm_num) (by norm_num) (by norm_num))
      (digits_int (L := 2) (by norm_num) (by norm_num) (by norm_num)),
    digits_next, digits_int (L := 0) (by norm_num) (by norm_num) (by norm_num)]

omit [SciPy Dbl] [YamlIO Dbl] [YamlLaws Dbl] in
theorem driftTable_normal {r : List Dbl} (hr : r ∈ driftTable driftHigh driftLow) {x : Dbl} (hx : x ∈ r) :
    Normal x := by
  have key : ∀ (y : Dbl) (v : ℝ), y.val = .fin v → 1 ≤ v → Normal y := by
    intro y v hy hv z hz
    have : z = v := by rw [hy] at hz; injection hz with hz; exact hz.symm
    subst this
    right
    have : (10 : ℝ) ^ (-290 : ℤ) ≤ 1 := zpow_le_one_of_nonpos₀ (by norm_num) (by norm_num)
    exact this.trans (hv.trans (le_abs_self _))
  have e5 := intDbl_val (n := 500) (by norm_num)
  have e6 := intDbl_val (n := 600) (by norm_num)
  simp only [driftTable, List.mem_cons, List.not_mem_nil, or_false] at hr
  rcases hr with rfl | rfl <;> simp only [List.mem_cons, List.not_mem_nil, or_false] at hx <;>
    rcases hx with rfl | rfl
  · exact key _ _ e5 (by norm_num)
  · exact key _ _ driftHigh_val (by norm_num)
  · exact key _ _ e6 (by norm_num)
  · exact key _ _ driftLow_val (by norm_num)

omit [YamlIO Dbl] [YamlLaws Dbl] in
/-- The material of that table. -/
theorem drift_kw (rd : String → Res (FileDict Dbl)) : ∃ m,
    Material.new rd [("tabulated_n", .arr (.d2 2 .float (driftTable driftHigh driftLow)))] = .ok m ∧
    OneTable m (driftTable driftHigh driftLow) "wavelength" "nanometer" := by
  have hs : ("tabulated_n", DocType.table 2) ∈ sources := by decide
  obtain ⟨h1, h2⟩ := only_single (F := Dbl) hs
    (v := .arr (.d2 2 .float (driftTable driftHigh driftLow))) (by simp)
  have hd := defaults_single (F := Dbl) (n := "tabulated_n")
    (v := .arr (.d2 2 .float (driftTable driftHigh driftLow))) (by decide)
  have hg := driftTable_good driftHigh driftLow
  obtain ⟨r0, hr0, hm0⟩ := (C24_table_partial rd _ h1 (plain_single (by decide) (by decide)) (c := "nm")
    (by rw [hd]; decide +kernel) _).1 h2 hg
  rw [hd] at hr0
  refine ⟨_, hm0, ⟨r0, ⟨rfl, blankMeta, ⟨rfl, blankMeta_ok, .inl rfl, rfl, rfl, rfl,
      (tableData_storable (by simp [pairsOf, driftTable]) hr0).2.1, cdata_storable _⟩, blankMeta_plain⟩, hr0⟩,
      hg.width, by simp [driftTable], by simp [driftTable]⟩

/-- C129 is false: of the indices `1000 + 2^(-19)` and `1 + 2^(-28)` the first file keeps 1000.00000191
and 1.0, the second file 1000.0 and 1.0. -/
theorem C129_refuted : ¬ C129_statement := by
  intro h
  have hc : (lower "wavelength", lower "nanometer", "nm") ∈ names := by decide +kernel
  have ho : (⟨fileMetaKeys, datasetMetaKeys⟩ : KeyOrder).Valid := ⟨.refl _, .refl _⟩
  obtain ⟨m, hm, h0⟩ := drift_kw (fun _ => .error .os)
  obtain ⟨m1, s1, t1⟩ := h0.step hc (by rw [driftTable_printed]; exact driftTable_good _ _) ho
  rw [driftTable_printed] at t1
  obtain ⟨m2, s2, t2⟩ := t1.step hc (by rw [driftTable_reprinted]; exact driftTable_good _ _) ho
  rw [driftTable_reprinted] at t2
  have key := (h _ _ m m1 m2 _ _ ho ho hm s1 s2).real
  obtain ⟨r1, p1, p3⟩ := t1.ex
  obtain ⟨r2, q1, q3⟩ := t2.ex
  obtain ⟨_, pp, -⟩ := p1.parts
  obtain ⟨_, qq, -⟩ := q1.parts
  rw [pp.real, qq.real] at key
  have hl : ∀ a b, 2 ≤ (pairsOf (driftTable a b) 1).length := by intros; simp [driftTable, pairsOf]
  obtain ⟨_, rfl, -⟩ := tableData_interp (hl _ _) p3
  obtain ⟨_, rfl, -⟩ := tableData_interp (hl _ _) q3
  injection key with key
  injection key with _ key
  have e := congrArg (fun l => l.head?) key
  have e2 : (some (intDbl 500, intDbl 1000) : Option (Dbl × Dbl)) = some (intDbl 500, driftNext) := e
  injection e2 with e2
  injection e2 with _ e2
  exact driftNext_ne e2.symm

/-- Beside `C129_table_partial`: the table of `C129_refuted` meets its assumptions; it can be saved
seven times. -/
example (rd : String → Res (FileDict Dbl)) : ∃ (m m' : Material Dbl) (ws : List (ℝ × ℝ)),
    Material.new rd [("tabulated_n", .arr (.d2 2 .float (driftTable driftHigh driftLow)))] = .ok m ∧
    Resaved (List.replicate 7 ⟨fileMetaKeys, datasetMetaKeys⟩) m m' ∧
    List.Forall₂ (NearPair (13 / 10 ^ 9)) [(500, 1000 + 1 / 2 ^ 19), (600, 1 + 1 / 2 ^ 28)] ws := by
  have hs : ("tabulated_n", DocType.table 2) ∈ sources := by decide
  obtain ⟨h1, h2⟩ := only_single (F := Dbl) hs
    (v := .arr (.d2 2 .float (driftTable driftHigh driftLow))) (by simp)
  have hd := defaults_single (F := Dbl) (n := "tabulated_n")
    (v := .arr (.d2 2 .float (driftTable driftHigh driftLow))) (by decide)
  have e5 := intDbl_val (n := 500) (by norm_num)
  have e6 := intDbl_val (n := 600) (by norm_num)
  push_cast at e5 e6
  have hone : (2000 : ℝ) ≤ 10 ^ 100 := by
    have : (1 : ℝ) ≤ 10 ^ 96 := one_le_pow₀ (by norm_num)
    have e : (10 : ℝ) ^ 100 = 10000 * 10 ^ 96 := by norm_num
    rw [e]; linarith
  obtain ⟨m, hm, hcyc⟩ := C129_table_partial rd _ h1 (plain_single (by decide) (by decide)) (c := "nm")
    (by rw [hd]; decide +kernel) _ h2 (driftTable_good _ _) (by simp [driftTable]) (by simp [driftTable])
    (fun r hr x hx => driftTable_normal hr hx)
    (vs := [(500, 1000 + 1 / 2 ^ 19), (600, 1 + 1 / 2 ^ 28)])
    (.cons ⟨e5, driftHigh_val⟩ (.cons ⟨e6, driftLow_val⟩ .nil))
    (by
      intro v hv
      simp only [List.mem_cons, List.not_mem_nil, or_false] at hv
      generalize (10 : ℝ) ^ 100 = B at *
      rcases hv with rfl | rfl <;> constructor <;> refine le_trans ?_ hone <;> norm_num [abs_of_pos])
    (by
      unfold Apart
      rw [List.pairwise_pair]
      norm_num [abs_of_pos, abs_of_neg])
  obtain ⟨m', s', ps', ws, a1, -, -, -, -, a2, -⟩ := hcyc
    (List.replicate 7 ⟨fileMetaKeys, datasetMetaKeys⟩) (fun o ho => by
      rw [List.eq_of_mem_replicate ho]; exact ⟨.refl _, .refl _⟩)
  exact ⟨m, m', ws, hm, a1, a2⟩

omit [SciPy Dbl] [YamlIO Dbl] [YamlLaws Dbl] in
/-- A number that is neither tiny nor huge. -/
theorem normal_of {x : Dbl} {v : ℝ} (hx : x.val = .fin v) (h : v = 0 ∨ 1 / 1024 ≤ v) : Normal x := by
  intro z hz
  have : z = v := by rw [hx] at hz; injection hz with hz; exact hz.symm
  subst this
  refine h.imp id (fun h => ?_)
  have h1 : (10 : ℝ) ^ (-290 : ℤ) ≤ 10 ^ (-4 : ℤ) := zpow_le_zpow_right₀ (by norm_num) (by norm_num)
  have h2 : (10 : ℝ) ^ (-4 : ℤ) ≤ 1 / 1024 := by rw [zpow_neg]; norm_num
  exact h1.trans (h2.trans (h.trans (le_abs_self _)))

/-- Beside `C129_model_partial`: the Sellmeier model of `C122_refuted`, whose last parameter changes with
the first file, can be saved five times. -/
example (rd : String → Res (FileDict Dbl)) : ∃ (m m' : Material Dbl),
    Material.new rd [("model_kw", .dict (sellmeierKw [intDbl 0, halfDbl, small10] [halfDbl, intDbl 2]))] =
      .ok m ∧ Resaved (List.replicate 5 ⟨fileMetaKeys, datasetMetaKeys⟩) m m' := by
  have hs : ("model_kw", DocType.model) ∈ sources := by decide
  obtain ⟨h1, h2⟩ := only_single (F := Dbl) hs
    (v := .dict (sellmeierKw [intDbl 0, halfDbl, small10] [halfDbl, intDbl 2])) (by simp)
  have e0 := intDbl_val (n := 0) (by norm_num)
  have e2 := intDbl_val (n := 2) (by norm_num)
  push_cast at e0 e2
  have hone : (2 : ℝ) ≤ 10 ^ 100 := by
    have : (1 : ℝ) ≤ 10 ^ 96 := one_le_pow₀ (by norm_num)
    have e : (10 : ℝ) ^ 100 = 10000 * 10 ^ 96 := by norm_num
    rw [e]; linarith
  have sized : ∀ r : ℝ, 0 ≤ r → r ≤ 2 → |r| ≤ 10 ^ 100 := fun r a b => by
    rw [abs_of_nonneg a]; exact b.trans hone
  obtain ⟨m, f, hm, -, hcyc⟩ := C129_model_partial rd _ h1
    (plain_single (by decide) (by decide)) _ h2 "Sellmeier" rfl _ rfl _ rfl _ _ rfl rfl (by decide)
    (by decide) (by decide) (by simp) (by simp) (by simp)
    (by
      intro x hx
      simp only [List.mem_cons, List.not_mem_nil, or_false] at hx
      rcases hx with rfl | rfl | rfl
      · exact normal_of e0 (.inl rfl)
      · exact normal_of halfDbl_val (.inr (by norm_num))
      · exact normal_of small10_val (.inr le_rfl))
    (by
      intro x hx
      simp only [List.mem_cons, List.not_mem_nil, or_false] at hx
      rcases hx with rfl | rfl
      · exact normal_of halfDbl_val (.inr (by norm_num))
      · exact normal_of e2 (.inr (by norm_num)))
    (ps := [0, 1 / 2, 1 / 1024]) (rs := [1 / 2, 2])
    (.cons ⟨e0, sized _ le_rfl (by norm_num)⟩ (.cons ⟨halfDbl_val, sized _ (by norm_num) (by norm_num)⟩
      (.cons ⟨small10_val, sized _ (by norm_num) (by norm_num)⟩ .nil)))
    (.cons ⟨halfDbl_val, sized _ (by norm_num) (by norm_num)⟩ (.cons ⟨e2, sized _ (by norm_num) le_rfl⟩ .nil))
  obtain ⟨m', _, _, _, a1, -⟩ := hcyc
    (List.replicate 5 ⟨fileMetaKeys, datasetMetaKeys⟩) (fun o ho => by
      rw [List.eq_of_mem_replicate ho]; exact ⟨.refl _, .refl _⟩)
  exact ⟨m, m', hm, a1⟩

end doubles

end
end Disp

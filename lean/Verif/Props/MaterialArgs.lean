import Verif.Spec.Material
import Verif.Props.DataEval
import Verif.Props.Interpolation
/-!
# C23, C24, C25, C26: the arguments of `Material`
-/

namespace Disp

open Spec

section generic
variable {F : Type}

/-! ## Keyword arguments -/

theorem kwGet_of_mem {kw : Kwargs F} (hnd : (kw.map Prod.fst).Nodup) {n : String} {v : PyVal F}
    (h : (n, v) ∈ kw) : kw.get n = v := by
  unfold Kwargs.get
  induction kw with
  | nil => cases h
  | cons p kw ih =>
    obtain ⟨k, w⟩ := p
    rw [List.map_cons, List.nodup_cons] at hnd
    rcases List.mem_cons.1 h with h | h
    · cases h
      simp [dictGet]
    · have hne : k ≠ n := by
        rintro rfl
        exact hnd.1 (List.mem_map.2 ⟨_, h, rfl⟩)
      simpa [dictGet, hne] using ih hnd.2 h

theorem kwGet_of_not_mem {kw : Kwargs F} {n : String} (h : ∀ v, (n, v) ∉ kw) :
    kw.get n = .none := by
  unfold Kwargs.get
  cases hd : dictGet kw n with
  | ok v => exact absurd (dictGet_mem hd) (h v)
  | error e => rfl

theorem kwGet_given {kw : Kwargs F} (hnd : (kw.map Prod.fst).Nodup) (n : String) :
    Given kw n ↔ kw.get n ≠ .none := by
  constructor
  · rintro ⟨v, hv, hne⟩
    rw [kwGet_of_mem hnd hv]
    exact hne
  · intro h
    by_cases hm : ∃ v, (n, v) ∈ kw
    · obtain ⟨v, hv⟩ := hm
      exact ⟨v, hv, by rwa [kwGet_of_mem hnd hv] at h⟩
    · exact absurd (kwGet_of_not_mem (fun v hv => hm ⟨v, hv⟩)) h

theorem given_iff (v : PyVal F) : v.given = true ↔ v ≠ .none := by
  cases v <;> simp [PyVal.given]

theorem sources_exclusive : ∀ n, n ∈ mutuallyExclusive ↔ n ∈ sources.map Prod.fst := by
  intro n
  simp only [mutuallyExclusive, sources, List.map_cons, List.map_nil, List.mem_cons,
    List.not_mem_nil, or_false]
  tauto

/-- The counter of `_parse_args` is one exactly when one documented source is given. -/
theorem countExclusive_one {kw : Kwargs F} (hnd : (kw.map Prod.fst).Nodup) :
    countExclusive kw = 1 ↔ ∃! n, n ∈ sources.map Prod.fst ∧ Given kw n := by
  unfold countExclusive
  have hmem : ∀ p : String × PyVal F,
      p ∈ kw.filter (fun p => mutuallyExclusive.contains p.1 && p.2.given) ↔
        p ∈ kw ∧ p.1 ∈ sources.map Prod.fst ∧ p.2 ≠ .none := by
    intro p
    rw [List.mem_filter, Bool.and_eq_true, List.contains_iff_mem, sources_exclusive, given_iff]
  have hnd' : ((kw.filter (fun p => mutuallyExclusive.contains p.1 && p.2.given)).map
      Prod.fst).Nodup := hnd.sublist (List.Sublist.map _ List.filter_sublist)
  generalize kw.filter (fun p => mutuallyExclusive.contains p.1 && p.2.given) = l at hmem hnd'
  constructor
  · intro h
    obtain ⟨p, rfl⟩ := List.length_eq_one_iff.1 h
    obtain ⟨h1, h2, h3⟩ := (hmem p).1 (by simp)
    refine ⟨p.1, ⟨h2, p.2, h1, h3⟩, ?_⟩
    rintro n ⟨hn, v, hv, hv'⟩
    have := (hmem (n, v)).2 ⟨hv, hn, hv'⟩
    rw [List.mem_singleton] at this
    rw [← this]
  · rintro ⟨n, ⟨hn, v, hv, hv'⟩, hu⟩
    have h0 := (hmem (n, v)).2 ⟨hv, hn, hv'⟩
    have hall : ∀ p ∈ l, p.1 = n := fun p hp => by
      obtain ⟨h1, h2, h3⟩ := (hmem p).1 hp
      exact hu p.1 ⟨h2, p.2, h1, h3⟩
    match l, hnd', h0, hall with
    | [], _, h0, _ => cases h0
    | [p], _, _, _ => rfl
    | p :: q :: l, hnd', _, hall =>
      rw [List.map_cons, List.map_cons, List.nodup_cons] at hnd'
      exact absurd (by rw [hall p (by simp), hall q (by simp)]; simp) hnd'.1

/-! ## C23 -/

variable [PyFloat F] [SciPy F] [NumText F]

/-- C23: unless exactly one of the documented data arguments is given, the constructor raises
`ValueError`, whatever the other arguments are. -/
theorem C23_exactly_one (rd : String → Res (FileDict F)) (kw : Kwargs F)
    (hnd : (kw.map Prod.fst).Nodup) (h : ¬ ∃! n, n ∈ sources.map Prod.fst ∧ Given kw n) :
    Material.new rd kw = .error .value := by
  rw [← countExclusive_one hnd] at h
  unfold Material.new parseArgs
  by_cases h0 : countExclusive kw = 0
  · rw [if_pos h0]; rfl
  · rw [if_neg h0, if_pos (by omega)]; rfl

/-- Concrete cases for C23: none and two data arguments; a `None` does not count. -/
example (rd : String → Res (FileDict F)) (x : F) :
    Material.new rd [("unit", .str "nm")] = .error .value ∧
    Material.new rd [("fixed_n", .float x), ("fixed_eps_r", .float x)] = .error .value ∧
    (Material.new rd [("fixed_n", .float x), ("fixed_eps_r", .none)]).isOk = true := by
  refine ⟨rfl, rfl, rfl⟩

omit [PyFloat F] [SciPy F] [NumText F]

/-! ## The checks of `_parse_args` -/

/-- One type check. -/
def typeOK (kw : Kwargs F) (names : List String) (t : PyType) : Bool :=
  names.all (fun n => !(kw.get n).given || (kw.get n).isOf t)

/-- All type checks of `_parse_args`. -/
def typesOK (kw : Kwargs F) : Bool :=
  typeOK kw ["file_path", "spectrum_type", "unit"] .str && typeOK kw ["interp_oder"] .int &&
  typeOK kw ["fixed_n", "fixed_eps_r"] .float && typeOK kw ["fixed_nk", "fixed_eps"] .complex &&
  typeOK kw ["model_kw"] .dict &&
  typeOK kw ["tabulated_nk", "tabulated_n", "tabulated_eps", "tabulated_n_alpha"] .ndarray

/-- The shape checks and the result of `_parse_args`. -/
def shapeChecks (kw : Kwargs F) : Res (Parsed F) := do
  if (kw.get "tabulated_nk").given then checkTableShape (kw.get "tabulated_nk") 3 else .ok ()
  if (kw.get "tabulated_n_alpha").given then checkTableShape (kw.get "tabulated_nk") 3
    else .ok ()
  if (kw.get "tabulated_n").given then checkTableShape (kw.get "tabulated_n") 2 else .ok ()
  if (kw.get "tabulated_eps").given then checkTableShape (kw.get "tabulated_eps") 3 else .ok ()
  .ok { kw := kw,
        stype := match kw.get "spectrum_type" with
          | .str s => s
          | _ => "wavelength",
        unit := match kw.get "unit" with
          | .str s => s
          | _ => "nanometer",
        interpOrder := if dictHas kw "interp_order" then kw.get "interp_order" else .int 1 }

theorem parseArgs_eq {kw : Kwargs F} (h : countExclusive kw = 1) :
    parseArgs kw = if typesOK kw then shapeChecks kw else .error .type := by
  unfold parseArgs
  rw [if_neg (by omega), if_neg (by omega)]
  have hc : ∀ ns t, typeOK kw ns t = true → checkType kw ns t = .ok () := by
    intro ns t h
    unfold checkType
    exact if_pos h
  have he : ∀ ns t, typeOK kw ns t = false → checkType kw ns t = .error .type := by
    intro ns t h
    unfold checkType
    exact if_neg (by rw [Bool.not_eq_true]; exact h)
  unfold typesOK
  rcases Bool.eq_false_or_eq_true (typeOK kw ["file_path", "spectrum_type", "unit"] .str) with h0 | h0
  swap
  · rw [he _ _ h0, h0]
    simp only [Bool.and_false, Bool.false_and]
    rfl
  rcases Bool.eq_false_or_eq_true (typeOK kw ["interp_oder"] .int) with h1 | h1
  swap
  · rw [hc _ _ h0, he _ _ h1, h1]
    simp only [Bool.and_false, Bool.false_and]
    rfl
  rcases Bool.eq_false_or_eq_true (typeOK kw ["fixed_n", "fixed_eps_r"] .float) with h2 | h2
  swap
  · rw [hc _ _ h0, hc _ _ h1, he _ _ h2, h2]
    simp only [Bool.and_false, Bool.false_and]
    rfl
  rcases Bool.eq_false_or_eq_true (typeOK kw ["fixed_nk", "fixed_eps"] .complex) with h3 | h3
  swap
  · rw [hc _ _ h0, hc _ _ h1, hc _ _ h2, he _ _ h3, h3]
    simp only [Bool.and_false, Bool.false_and]
    rfl
  rcases Bool.eq_false_or_eq_true (typeOK kw ["model_kw"] .dict) with h4 | h4
  swap
  · rw [hc _ _ h0, hc _ _ h1, hc _ _ h2, hc _ _ h3, he _ _ h4, h4]
    simp only [Bool.and_false, Bool.false_and]
    rfl
  rcases Bool.eq_false_or_eq_true (typeOK kw ["tabulated_nk", "tabulated_n", "tabulated_eps", "tabulated_n_alpha"]
    .ndarray) with h5 | h5
  swap
  · rw [hc _ _ h0, hc _ _ h1, hc _ _ h2, hc _ _ h3, hc _ _ h4, he _ _ h5, h5]
    simp only [Bool.and_false]
    rfl
  rw [hc _ _ h0, hc _ _ h1, hc _ _ h2, hc _ _ h3, hc _ _ h4, hc _ _ h5, h0, h1, h2, h3, h4, h5]
  rfl

theorem Spec.Only.count {kw : Kwargs F} (hnd : (kw.map Prod.fst).Nodup) {n : String} {t : DocType}
    {v : PyVal F} (h : Only kw n t v) : countExclusive kw = 1 := by
  rw [countExclusive_one hnd]
  refine ⟨n, ⟨List.mem_map_of_mem (f := Prod.fst) h.source, v, h.mem, h.given⟩, ?_⟩
  rintro m ⟨hm, hg⟩
  obtain ⟨⟨m', t'⟩, hm', rfl⟩ := List.mem_map.1 hm
  exact h.unique _ _ hm' hg

theorem Spec.Only.get {kw : Kwargs F} (hnd : (kw.map Prod.fst).Nodup) {n : String} {t : DocType}
    {v : PyVal F} (h : Only kw n t v) : kw.get n = v := kwGet_of_mem hnd h.mem

theorem Spec.Only.other {kw : Kwargs F} (hnd : (kw.map Prod.fst).Nodup) {n : String} {t : DocType}
    {v : PyVal F} (h : Only kw n t v) {m : String} (hm : m ∈ sources.map Prod.fst)
    (hne : m ≠ n) : kw.get m = .none := by
  by_contra hc
  obtain ⟨⟨m', t'⟩, hm', rfl⟩ := List.mem_map.1 hm
  exact hne (h.unique _ _ hm' ((kwGet_given hnd _).2 hc))

/-- What the options contribute to the type checks. -/
theorem plain_text {kw : Kwargs F} (hnd : (kw.map Prod.fst).Nodup) (h : PlainOptions kw)
    {n : String} (hn : n ∈ textOptions) : kw.get n = .none ∨ ∃ s, kw.get n = .str s := by
  by_cases hm : ∃ v, (n, v) ∈ kw
  · obtain ⟨v, hv⟩ := hm
    rw [kwGet_of_mem hnd hv]
    exact h.text n hn v hv
  · exact .inl (kwGet_of_not_mem (fun v hv => hm ⟨v, hv⟩))

theorem plain_typo {kw : Kwargs F} (hnd : (kw.map Prod.fst).Nodup) (h : PlainOptions kw) :
    kw.get "interp_oder" = .none := by
  by_contra hc
  exact h.noTypo ((kwGet_given hnd _).2 hc)

/-- The default spectrum type and unit of a new material. -/
def defaultsOf (kw : Kwargs F) : String × String :=
  (match kw.get "spectrum_type" with
    | .str s => s
    | _ => "wavelength",
   match kw.get "unit" with
    | .str s => s
    | _ => "nanometer")

theorem isOf_iff (v : PyVal F) (t : DocType) : HasType t v ↔ v.isOf (match t with
    | .text => .str | .real => .float | .complex => .complex | .table _ => .ndarray
    | .model => .dict) = true := by
  cases t <;> cases v <;> simp [HasType, PyVal.isOf]

/-- The type checks pass if the given source has its documented type and the options are
plain. -/
theorem typesOK_iff {kw : Kwargs F} (hnd : (kw.map Prod.fst).Nodup) (hp : PlainOptions kw)
    {n : String} {t : DocType} {v : PyVal F} (h : Only kw n t v) :
    typesOK kw = true ↔ HasType t v := by
  have h1 : (!(kw.get "spectrum_type").given || (kw.get "spectrum_type").isOf .str) = true := by
    rcases plain_text hnd hp (n := "spectrum_type") (by simp [textOptions]) with h | ⟨s, h⟩ <;>
      simp [h, PyVal.given, PyVal.isOf]
  have h2 : (!(kw.get "unit").given || (kw.get "unit").isOf .str) = true := by
    rcases plain_text hnd hp (n := "unit") (by simp [textOptions]) with h | ⟨s, h⟩ <;>
      simp [h, PyVal.given, PyVal.isOf]
  have h3 := plain_typo hnd hp
  have hg := h.get hnd
  have hv : v.given = true := (given_iff v).2 h.given
  have ho := fun m hm hne => h.other hnd (m := m) hm hne
  have hn : PyVal.given (F := F) .none = false := rfl
  rw [isOf_iff]
  have hs := h.source
  simp only [sources, List.mem_cons, List.not_mem_nil, or_false, Prod.mk.injEq] at hs
  simp only [sources, List.map_cons, List.map_nil, List.mem_cons, List.not_mem_nil, or_false,
    forall_eq_or_imp, forall_eq] at ho
  obtain ⟨o1, o2, o3, o4, o5, o6, o7, o8, o9, o10⟩ := ho
  simp only [typesOK, typeOK, List.all_cons, List.all_nil, h1, h2, h3, Bool.and_true]
  rcases hs with ⟨rfl, rfl⟩ | ⟨rfl, rfl⟩ | ⟨rfl, rfl⟩ | ⟨rfl, rfl⟩ | ⟨rfl, rfl⟩ | ⟨rfl, rfl⟩ |
    ⟨rfl, rfl⟩ | ⟨rfl, rfl⟩ | ⟨rfl, rfl⟩ | ⟨rfl, rfl⟩ <;>
  simp (discharger := decide) [o1, o2, o3, o4, o5, o6, o7, o8, o9, o10, hg, hv, hn]

/-- Without the hypothesis on the options: a wrong type is always noticed. -/
theorem typesOK_wrong {kw : Kwargs F} (hnd : (kw.map Prod.fst).Nodup)
    {n : String} {t : DocType} {v : PyVal F} (h : Only kw n t v) (hw : ¬ HasType t v) :
    typesOK kw = false := by
  rw [isOf_iff] at hw
  have hg := h.get hnd
  have hv : v.given = true := (given_iff v).2 h.given
  have hs := h.source
  simp only [sources, List.mem_cons, List.not_mem_nil, or_false, Prod.mk.injEq] at hs
  simp only [typesOK, typeOK, List.all_cons, List.all_nil, Bool.and_true]
  rcases hs with ⟨rfl, rfl⟩ | ⟨rfl, rfl⟩ | ⟨rfl, rfl⟩ | ⟨rfl, rfl⟩ | ⟨rfl, rfl⟩ | ⟨rfl, rfl⟩ |
    ⟨rfl, rfl⟩ | ⟨rfl, rfl⟩ | ⟨rfl, rfl⟩ | ⟨rfl, rfl⟩ <;>
  simp only [Bool.not_eq_true] at hw <;> simp [hg, hv, hw]

end generic

end Disp

import Verif.Props.MaterialArgs
/-!
# C24, C25 and C26: construction of a Material
-/

namespace Disp

open Spec

section generic
variable {F : Type}

/-! ## The shape checks -/

/-- The parsed arguments. -/
def parsedOf (kw : Kwargs F) : Parsed F :=
  { kw := kw, stype := (defaultsOf kw).1, unit := (defaultsOf kw).2,
    interpOrder := if dictHas kw "interp_order" then kw.get "interp_order" else .int 1 }

open Classical in
theorem hasCols_iff (v : PyVal F) (n : Nat) (ht : HasType (.table n) v) :
    checkTableShape v n = if HasShape (.table n) v then .ok () else .error .value := by
  obtain ⟨a, rfl⟩ := ht
  cases a with
  | d1 dt xs => simp [checkTableShape, HasShape, NDArr.hasCols]
  | other => simp [checkTableShape, HasShape, NDArr.hasCols]
  | d2 m dt rows =>
    by_cases h : m = n
    · subst h; simp [checkTableShape, HasShape, NDArr.hasCols]
    · simp [checkTableShape, HasShape, NDArr.hasCols, h]

open Classical in
theorem shapeChecks_eq {kw : Kwargs F} (hnd : (kw.map Prod.fst).Nodup) {n : String} {t : DocType}
    {v : PyVal F} (h : Only kw n t v) (hty : HasType t v) (hne : n ≠ "tabulated_n_alpha") :
    shapeChecks kw = if HasShape t v then .ok (parsedOf kw) else .error .value := by
  have hg := h.get hnd
  have hv : v.given = true := (given_iff v).2 h.given
  have ho := fun m hm hne => h.other hnd (m := m) hm hne
  have hn : PyVal.given (F := F) .none = false := rfl
  have hs := h.source
  simp only [sources, List.mem_cons, List.not_mem_nil, or_false, Prod.mk.injEq] at hs
  simp only [sources, List.map_cons, List.map_nil, List.mem_cons, List.not_mem_nil, or_false,
    forall_eq_or_imp, forall_eq] at ho
  obtain ⟨o1, o2, o3, o4, o5, o6, o7, o8, o9, o10⟩ := ho
  unfold shapeChecks
  rcases hs with ⟨rfl, rfl⟩ | ⟨rfl, rfl⟩ | ⟨rfl, rfl⟩ | ⟨rfl, rfl⟩ | ⟨rfl, rfl⟩ | ⟨rfl, rfl⟩ |
    ⟨rfl, rfl⟩ | ⟨rfl, rfl⟩ | ⟨rfl, rfl⟩ | ⟨rfl, rfl⟩
  case inr.inr.inr.inr.inr.inr.inr.inl => exact absurd rfl hne
  case inr.inr.inr.inr.inr.inl =>
    rw [o7 (by decide), o8 (by decide), o9 (by decide), hg, hasCols_iff v 2 hty]
    simp only [hn, hv, Bool.false_eq_true, if_false, if_true]
    split
    · rfl
    · rfl
  case inr.inr.inr.inr.inr.inr.inl =>
    rw [o6 (by decide), o8 (by decide), o9 (by decide), hg, hasCols_iff v 3 hty]
    simp only [hn, hv, Bool.false_eq_true, if_false, if_true]
    split
    · rfl
    · rfl
  case inr.inr.inr.inr.inr.inr.inr.inr.inl =>
    rw [o6 (by decide), o7 (by decide), o8 (by decide), hg, hasCols_iff v 3 hty]
    simp only [hn, hv, Bool.false_eq_true, if_false, if_true]
    split
    · rfl
    · rfl
  all_goals
    rw [o6 (by decide), o7 (by decide), o8 (by decide), o9 (by decide)]
    simp only [hn, Bool.false_eq_true, if_false]
    exact (if_pos trivial).symm

variable [PyFloat F] [SciPy F] [NumText F]

/-- The constructor with one documented argument of its documented type and shape. -/
theorem new_eq_dispatch (rd : String → Res (FileDict F)) {kw : Kwargs F}
    (hnd : (kw.map Prod.fst).Nodup) (hp : PlainOptions kw) {n : String} {t : DocType}
    {v : PyVal F} (h : Only kw n t v) (hty : HasType t v) (hsh : HasShape t v)
    (hne : n ≠ "tabulated_n_alpha") :
    Material.new rd kw = (do
      let m ← dispatch rd (blankMaterial (parsedOf kw)) kw
      m.completePartialData) := by
  unfold Material.new
  rw [parseArgs_eq (h.count hnd), if_pos ((typesOK_iff hnd hp h).2 hty),
    shapeChecks_eq hnd h hty hne, if_pos hsh]
  rfl

/-! ## C24 -/

/-- C24: a value of another type raises `TypeError`, for every documented data argument. -/
theorem C24_type_partial (rd : String → Res (FileDict F)) (kw : Kwargs F)
    (hnd : (kw.map Prod.fst).Nodup) (n : String) (t : DocType) (v : PyVal F)
    (h : Only kw n t v) (hw : ¬ HasType t v) : Material.new rd kw = .error .type := by
  unfold Material.new
  rw [parseArgs_eq (h.count hnd), typesOK_wrong hnd h hw]
  rfl

/-- C24: a table with another number of columns or axes raises `ValueError`. Missing for the
full claim: `tabulated_n_alpha`, for which it is false. -/
theorem C24_shape_partial (rd : String → Res (FileDict F)) (kw : Kwargs F)
    (hnd : (kw.map Prod.fst).Nodup) (hp : PlainOptions kw) (n : String) (t : DocType) (v : PyVal F)
    (h : Only kw n t v) (hty : HasType t v) (hsh : ¬ HasShape t v)
    (hne : n ≠ "tabulated_n_alpha") : Material.new rd kw = .error .value := by
  classical
  unfold Material.new
  rw [parseArgs_eq (h.count hnd), if_pos ((typesOK_iff hnd hp h).2 hty),
    shapeChecks_eq hnd h hty hne, if_neg hsh]
  rfl

/-- C24 is false for `tabulated_n_alpha`: with this data argument the constructor always raises
`AttributeError`, for a value of the documented type, whatever its contents. -/
theorem C24_n_alpha_never (rd : String → Res (FileDict F)) (kw : Kwargs F)
    (hnd : (kw.map Prod.fst).Nodup) (hp : PlainOptions kw) (v : PyVal F)
    (h : Only kw "tabulated_n_alpha" (.table 3) v) (hty : HasType (.table 3) v) :
    Material.new rd kw = .error .attribute := by
  have hg := h.get hnd
  have hv : v.given = true := (given_iff v).2 h.given
  have h1 := h.other hnd (m := "tabulated_nk") (by decide) (by decide)
  unfold Material.new
  rw [parseArgs_eq (h.count hnd), if_pos ((typesOK_iff hnd hp h).2 hty)]
  unfold shapeChecks
  rw [h1, hg]
  simp only [hv, if_true]
  rfl

/-! ### Tables -/

/-- The abscissa of a row. -/
def rowX (r : List F) : F := r.getD 0 (lit 0)

/-- A table that can be interpolated: at least one row, rows of the documented length, distinct
abscissae none of which is NaN. -/
structure GoodTable (n : Nat) (rows : List (List F)) : Prop where
  nonempty : rows ≠ []
  width : ∀ r ∈ rows, r.length = n
  noNaN : ∀ r ∈ rows, PyFloat.isNaN (rowX r) = false
  distinct : rows.Pairwise (fun r q => PyFloat.eq (rowX r) (rowX q) = false)

/-- The pairs of the first and the `j`-th column. -/
def pairsOf (rows : List (List F)) (j : Nat) : List (F × F) :=
  rows.map (fun r => (rowX r, r.getD j (lit 0)))

omit [SciPy F] [NumText F] in
theorem col_eq {n : Nat} {dt : DType} {rows : List (List F)} (hw : ∀ r ∈ rows, r.length = n)
    {j : Nat} (hj : j < n) :
    NDArr.col (.d2 n dt rows) j = .ok (rows.map (fun r => r.getD j (lit 0))) := by
  simp only [NDArr.col, if_pos hj]
  apply mapM_ok_of
  intro r hr
  have hlen := hw r hr
  unfold pyIdx
  rw [List.getElem?_eq_getElem (by omega), List.getD_eq_getElem?_getD,
    List.getElem?_eq_getElem (by omega)]
  rfl

omit [SciPy F] [NumText F] in
theorem cols2_eq {n : Nat} {dt : DType} {rows : List (List F)} (hw : ∀ r ∈ rows, r.length = n)
    {j : Nat} (hj : j < n) :
    NDArr.cols2 (.d2 n dt rows) 0 j = .ok (pairsOf rows j) := by
  unfold NDArr.cols2
  rw [col_eq hw (by omega), col_eq hw hj]
  simp only [bind, Except.bind, pairsOf]
  congr 1
  rw [List.zip_map']
  rfl

/-- The data object that a table gives: a constant for one row, an interpolation of first order
for more. -/
def tableData (dt : DType) (ps : List (F × F)) (t u : String) : Res (RealData F) :=
  match ps with
  | [(x, y)] => RealData.newConstant y (.list dt [x, x]) t u
  | ps => RealData.newInterp dt ps t u 1

omit [NumText F] in
theorem specData_eq {n : Nat} {dt : DType} {rows : List (List F)} (hw : ∀ r ∈ rows, r.length = n)
    {j : Nat} (hj : j < n) (t u : String) :
    specDataFromTable t u (.d2 n dt rows) 0 j = tableData dt (pairsOf rows j) t u := by
  unfold specDataFromTable
  rw [cols2_eq hw hj]
  rfl

omit [NumText F] in
theorem tableData_ok [LawfulCmp F] {n : Nat} {rows : List (List F)} (hg : GoodTable n rows)
    (j : Nat) {t u c : String} (hc : (lower t, lower u, c) ∈ names) :
    ∃ d, tableData .float (pairsOf rows j) t u = .ok d := by
  have hX : (pairsOf rows j).map (·.1) = rows.map rowX := by
    simp [pairsOf, Function.comp_def]
  have hnn : NoNaN ((pairsOf rows j).map (·.1)) := by
    rw [hX]
    intro x hx
    obtain ⟨r, hr, rfl⟩ := List.mem_map.1 hx
    exact hg.noNaN r hr
  match hps : pairsOf rows j with
  | [] =>
    exfalso
    have : rows = [] := by simpa [pairsOf] using hps
    exact hg.nonempty this
  | [(x, y)] =>
    simp only [tableData, RealData.newConstant, new_list hc, bind, Except.bind]
    exact ⟨_, rfl⟩
  | p :: q :: rest =>
    simp only [tableData]
    rw [← hps]
    unfold RealData.newInterp
    have hne : (Vals.array DType.float ((pairsOf rows j).map (·.1))).toList ≠ [] := by
      simp [Vals.toList, hps]
    obtain ⟨lo, h1, -, -⟩ := npMin_spec _ hne hnn
    obtain ⟨hi, h2, -, -⟩ := npMax_spec _ hne hnn
    have hd : (pairsOf rows j).Pairwise
        (fun a b => PyFloat.lt a.1 b.1 = true ∨ PyFloat.lt b.1 a.1 = true) := by
      unfold pairsOf
      rw [List.pairwise_map]
      refine hg.distinct.imp_of_mem ?_
      intro a b ha hb hab
      have na := hg.noNaN a ha
      have nb := hg.noNaN b hb
      rw [LawfulCmp.eq_iff, LawfulCmp.le_eq_not_lt _ _ na nb, LawfulCmp.le_eq_not_lt _ _ nb na] at hab
      revert hab
      show _ → PyFloat.lt (rowX a) (rowX b) = true ∨ PyFloat.lt (rowX b) (rowX a) = true
      cases PyFloat.lt (rowX a) (rowX b) <;> cases PyFloat.lt (rowX b) (rowX a) <;> simp
    have hs : StrictSorted (sortRows (pairsOf rows j)) := by
      have hw := sortRows_sorted _ hnn
      have hd' : (sortRows (pairsOf rows j)).Pairwise
          (fun a b => PyFloat.lt a.1 b.1 = true ∨ PyFloat.lt b.1 a.1 = true) :=
        ((sortRows_perm _).pairwise_iff (fun h => h.symm)).2 hd
      exact (hw.and hd').imp (fun ⟨h1, h2⟩ => by
        rcases h2 with h2 | h2
        · exact h2
        · rw [h1] at h2; cases h2)
    have hi' : interpInit 1 (pairsOf rows j) = .ok () := by
      unfold interpInit
      rw [if_neg (by rw [hps]; simp), if_pos ((noDuplicates_strict _).2 hs)]
    simp only [h1, h2, new_list hc, hi', bind, Except.bind]
    exact ⟨_, rfl⟩

/-! ### What is constructed -/

/-- The range `(0, inf)` in metres. -/
def defaultSpec : Spectrum F :=
  { values := .array .float [lit 0, PyFloat.inf], stype := "wavelength", unit := "m",
    std := .array .float [lit 0, PyFloat.inf] }

/-- The object `Constant(x)`. -/
def cdata (x : F) : RealData F := .constant x defaultSpec "wavelength" "m"

omit [SciPy F] [NumText F] in
theorem defaultSpec_new : Spectrum.new (defaultRange : Raw F) "wavelength" "m" = .ok defaultSpec := by
  rw [Spectrum.new_eq, specLookup_ok_iff.2 (show (lower "wavelength", lower "m", "m") ∈ names by
    decide +kernel)]
  have hl : lower "wavelength" = "wavelength" := by decide +kernel
  simp only [hl]
  rfl

omit [NumText F] in
theorem constantOf_eq (x : F) : constantOf x = .ok (cdata x) := by
  unfold constantOf RealData.newConstant
  rw [defaultSpec_new]; rfl

omit [NumText F] in
/-- Completing a material cannot fail. -/
theorem complete_eq (m : Material F) : m.completePartialData =
    .ok { m with real := some (m.real.getD (cdata (lit 0))),
                 imag := some (m.imag.getD (cdata (lit 0))) } := by
  have hz : constantZero (F := F) = .ok (cdata (lit 0)) := constantOf_eq (lit 0)
  unfold Material.completePartialData
  cases m.real <;> cases m.imag <;> simp [hz, bind, Except.bind]

/-- What happens for each data argument. -/
def dispatchOn (rd : String → Res (FileDict F)) (m : Material F) (n : String) (v : PyVal F) :
    Res (Material F) :=
  match n, v with
  | "file_path", .str p => do processFileData m (← rd p)
  | "model_kw", .dict d => processModelDict m d
  | "tabulated_nk", .arr a => processTable m a "nk" []
  | "tabulated_n_alpha", .arr a => processTable m a "n_alpha" []
  | "tabulated_n", .arr a => processTable m a "n" []
  | "tabulated_eps", .arr a => processTable m a "eps" []
  | "fixed_n", .float x => .ok { m with name := "nk", real := some (cdata x) }
  | "fixed_nk", .cplx z =>
    .ok { m with name := "nk", real := some (cdata z.re), imag := some (cdata z.im) }
  | "fixed_eps_r", .float x => .ok { m with name := "eps", real := some (cdata x) }
  | "fixed_eps", .cplx z =>
    .ok { m with name := "eps", real := some (cdata z.re), imag := some (cdata z.im) }
  | _, _ => .error .type

theorem dispatch_eq (rd : String → Res (FileDict F)) (m : Material F) {kw : Kwargs F}
    (hnd : (kw.map Prod.fst).Nodup) {n : String} {t : DocType}
    {v : PyVal F} (h : Only kw n t v) (hty : HasType t v) :
    dispatch rd m kw = dispatchOn rd m n v := by
  have hg := h.get hnd
  have ho := fun m hm hne => h.other hnd (m := m) hm hne
  have hs := h.source
  simp only [sources, List.mem_cons, List.not_mem_nil, or_false, Prod.mk.injEq] at hs
  simp only [sources, List.map_cons, List.map_nil, List.mem_cons, List.not_mem_nil, or_false,
    forall_eq_or_imp, forall_eq] at ho
  obtain ⟨o1, o2, o3, o4, o5, o6, o7, o8, o9, o10⟩ := ho
  clear h
  rcases hs with ⟨rfl, rfl⟩ | ⟨rfl, rfl⟩ | ⟨rfl, rfl⟩ | ⟨rfl, rfl⟩ | ⟨rfl, rfl⟩ | ⟨rfl, rfl⟩ |
    ⟨rfl, rfl⟩ | ⟨rfl, rfl⟩ | ⟨rfl, rfl⟩ | ⟨rfl, rfl⟩ <;>
  obtain ⟨w, rfl⟩ := hty <;>
  simp (discharger := decide) [dispatch, dispatchOn, processFixedValue, constantOf_eq, bind,
    Except.bind, o1, o2, o3, o4, o5, o6, o7, o8, o9, o10, hg]

/-- A successful construction, step by step. -/
theorem new_ok (rd : String → Res (FileDict F)) {kw : Kwargs F} {m : Material F}
    (h : Material.new rd kw = .ok m) : ∃ p m0, parseArgs kw = .ok p ∧
      dispatch rd (blankMaterial p) kw = .ok m0 ∧
      m = { m0 with real := some (m0.real.getD (cdata (lit 0))),
                    imag := some (m0.imag.getD (cdata (lit 0))) } := by
  unfold Material.new at h
  cases hp : parseArgs kw with
  | error e => rw [hp] at h; cases h
  | ok p =>
    rw [hp] at h
    simp only [bind, Except.bind] at h
    cases hd : dispatch rd (blankMaterial p) kw with
    | error e => rw [hd] at h; cases h
    | ok m0 =>
      rw [hd] at h
      simp only [complete_eq] at h
      exact ⟨p, m0, rfl, hd, (Except.ok.inj h).symm⟩

/-- In a successful construction the data argument has its documented type. -/
theorem type_of_ok (rd : String → Res (FileDict F)) {kw : Kwargs F} {m : Material F}
    (hnd : (kw.map Prod.fst).Nodup) {n : String} {t : DocType} {v : PyVal F}
    (h : Only kw n t v) (hm : Material.new rd kw = .ok m) : HasType t v := by
  by_contra hw
  rw [C24_type_partial rd kw hnd n t v h hw] at hm
  cases hm

/-- C24 for the fixed values: every value of the documented type constructs a Material that
holds exactly this value. -/
theorem C24_fixed_partial (rd : String → Res (FileDict F)) (kw : Kwargs F)
    (hnd : (kw.map Prod.fst).Nodup) (hp : PlainOptions kw) :
    (∀ x, Only kw "fixed_n" .real (.float x) → Material.new rd kw =
      .ok { blankMaterial (parsedOf kw) with
              name := "nk", real := some (cdata x), imag := some (cdata (lit 0)) }) ∧
    (∀ z, Only kw "fixed_nk" .complex (.cplx z) → Material.new rd kw =
      .ok { blankMaterial (parsedOf kw) with
              name := "nk", real := some (cdata z.re), imag := some (cdata z.im) }) ∧
    (∀ x, Only kw "fixed_eps_r" .real (.float x) → Material.new rd kw =
      .ok { blankMaterial (parsedOf kw) with
              name := "eps", real := some (cdata x), imag := some (cdata (lit 0)) }) ∧
    (∀ z, Only kw "fixed_eps" .complex (.cplx z) → Material.new rd kw =
      .ok { blankMaterial (parsedOf kw) with
              name := "eps", real := some (cdata z.re), imag := some (cdata z.im) }) := by
  refine ⟨fun x h => ?_, fun z h => ?_, fun x h => ?_, fun z h => ?_⟩
  all_goals
    rw [new_eq_dispatch rd hnd hp h ⟨_, rfl⟩ trivial (by decide),
      dispatch_eq rd _ hnd h ⟨_, rfl⟩]
    simp only [dispatchOn, bind, Except.bind, complete_eq]
    rfl

/-- C24 for the tables: a table of the documented shape with distinct abscissae, none of them
NaN, constructs a Material whose parts are the interpolations of its columns. Missing for the
full claim: `tabulated_n_alpha`, for which it is false. -/
theorem C24_table_partial [LawfulCmp F] (rd : String → Res (FileDict F)) (kw : Kwargs F)
    (hnd : (kw.map Prod.fst).Nodup) (hp : PlainOptions kw) {c : String}
    (hc : (lower (defaultsOf kw).1, lower (defaultsOf kw).2, c) ∈ names)
    (rows : List (List F)) :
    (Only kw "tabulated_n" (.table 2) (.arr (.d2 2 .float rows)) → GoodTable 2 rows →
      ∃ r, tableData .float (pairsOf rows 1) (defaultsOf kw).1 (defaultsOf kw).2 = .ok r ∧
        Material.new rd kw = .ok { blankMaterial (parsedOf kw) with
          name := "nk", real := some r, imag := some (cdata (lit 0)) }) ∧
    (Only kw "tabulated_nk" (.table 3) (.arr (.d2 3 .float rows)) → GoodTable 3 rows →
      ∃ r i, tableData .float (pairsOf rows 1) (defaultsOf kw).1 (defaultsOf kw).2 = .ok r ∧
        tableData .float (pairsOf rows 2) (defaultsOf kw).1 (defaultsOf kw).2 = .ok i ∧
        Material.new rd kw = .ok { blankMaterial (parsedOf kw) with
          name := "nk", real := some r, imag := some i }) ∧
    (Only kw "tabulated_eps" (.table 3) (.arr (.d2 3 .float rows)) → GoodTable 3 rows →
      ∃ r i, tableData .float (pairsOf rows 1) (defaultsOf kw).1 (defaultsOf kw).2 = .ok r ∧
        tableData .float (pairsOf rows 2) (defaultsOf kw).1 (defaultsOf kw).2 = .ok i ∧
        Material.new rd kw = .ok { blankMaterial (parsedOf kw) with
          name := "eps", real := some r, imag := some i }) := by
  have hget : ∀ key, (Dataset.get ([] : Dataset F) key).nonEmptyStr = Option.none := fun _ => rfl
  refine ⟨fun h hg => ?_, fun h hg => ?_, fun h hg => ?_⟩
  · obtain ⟨r, hr⟩ := tableData_ok hg 1 hc
    refine ⟨r, hr, ?_⟩
    rw [new_eq_dispatch rd hnd hp h ⟨_, rfl⟩ ⟨_, _, rfl⟩ (by decide),
      dispatch_eq rd _ hnd h ⟨_, rfl⟩]
    simp only [dispatchOn, processTable, hget, Option.getD_none]
    rw [specData_eq hg.width (by omega)]
    rw [if_neg (by decide), if_neg (by decide), if_pos trivial]
    simp only [blankMaterial, parsedOf, hr, bind, Except.bind, complete_eq]
    rfl
  all_goals
    obtain ⟨r, hr⟩ := tableData_ok hg 1 hc
    obtain ⟨i, hi⟩ := tableData_ok hg 2 hc
    refine ⟨r, i, hr, hi, ?_⟩
    rw [new_eq_dispatch rd hnd hp h ⟨_, rfl⟩ ⟨_, _, rfl⟩ (by decide),
      dispatch_eq rd _ hnd h ⟨_, rfl⟩]
    simp only [dispatchOn, processTable, hget, Option.getD_none]
    rw [specData_eq hg.width (by omega), specData_eq hg.width (by omega)]
  · rw [if_pos trivial]
    simp only [blankMaterial, parsedOf, hr, hi, bind, Except.bind, complete_eq]
    rfl
  · rw [if_neg (by decide), if_neg (by decide), if_neg (by decide), if_neg (by decide), if_pos trivial]
    simp only [blankMaterial, parsedOf, hr, hi, bind, Except.bind, complete_eq]
    rfl

omit [PyFloat F] [SciPy F] [NumText F] in
/-- The model that a name of the documentation denotes. -/
theorem indexModel_class : ∀ k ∈ indexModels, ∃ f : Formula, classRef k = .real f ∧ f ≠ .fano ∧
    f.output = some "n" := by
  intro k hk
  simp only [indexModels, List.mem_cons, List.not_mem_nil, or_false] at hk
  rcases hk with rfl | rfl | rfl | rfl | rfl | rfl | rfl | rfl | rfl
  · exact ⟨.sellmeier, by decide +kernel, by decide, rfl⟩
  · exact ⟨.sellmeier2, by decide +kernel, by decide, rfl⟩
  · exact ⟨.polynomial, by decide +kernel, by decide, rfl⟩
  · exact ⟨.refractiveIndexInfo, by decide +kernel, by decide, rfl⟩
  · exact ⟨.cauchy, by decide +kernel, by decide, rfl⟩
  · exact ⟨.gases, by decide +kernel, by decide, rfl⟩
  · exact ⟨.herzberger, by decide +kernel, by decide, rfl⟩
  · exact ⟨.retro, by decide +kernel, by decide, rfl⟩
  · exact ⟨.exotic, by decide +kernel, by decide, rfl⟩

theorem permittivityModel_class : ∀ k ∈ permittivityModels, ∃ f : EpsFormula,
    classRef k = .cplx f := by
  intro k hk
  simp only [permittivityModels, List.mem_cons, List.not_mem_nil, or_false] at hk
  rcases hk with rfl | rfl | rfl
  · exact ⟨.drude, by decide +kernel⟩
  · exact ⟨.drudeLorentz, by decide +kernel⟩
  · exact ⟨.taucLorentz, by decide +kernel⟩

omit [NumText F] in
theorem processModelDict_eq (m : Material F) {d : ModelKw F} {k : String} {p : List F}
    {raw : Raw F} {t u : String} (hk : d.name = some k) (hpar : d.params = some p)
    (hr : d.validRange = some raw) (ht : d.stype = some t) (hu : d.unit = some u) :
    (∀ f, classRef k = .real f → processModelDict m d = (do
      let md ← RealData.newModel f p raw t u
      storeReal { m with defType := t, defUnit := u } f.output md)) ∧
    (∀ f, classRef k = .cplx f → processModelDict m d = (do
      let md ← CplxData.new f p raw t u
      .ok { m with defType := t, defUnit := u, name := "eps", cplx := some md })) := by
  constructor
  · intro f hf
    simp only [processModelDict, hk, hpar, hr, ht, hu, Option.getD_some, bind, Except.bind, hf]
  · intro f hf
    simp only [processModelDict, hk, hpar, hr, ht, hu, Option.getD_some, bind, Except.bind, hf]

/-- C24 for the models: a refractive-index model given with parameters, a range and wavelengths
in micrometres constructs a Material, and so does a permittivity model with energies in eV; any
other type or unit raises `ValueError`. -/
theorem C24_model_partial (rd : String → Res (FileDict F)) (kw : Kwargs F)
    (hnd : (kw.map Prod.fst).Nodup) (hp : PlainOptions kw) (d : ModelKw F)
    (h : Only kw "model_kw" .model (.dict d)) (k : String) (hk : d.name = some k)
    (p : List F) (hpar : d.params = some p) (raw : Raw F) (hr : d.validRange = some raw)
    (hraw : FloatInput raw) (t u : String) (ht : d.stype = some t) (hu : d.unit = some u) :
    (k ∈ indexModels →
      (lower t = "wavelength" ∧ lower u ∈ ["um", "micrometer", "micrometre"] →
        ∃ f md, RealData.newModel f p raw t u = .ok md ∧ classRef k = .real f ∧
          Material.new rd kw = .ok { blankMaterial (parsedOf kw) with
            name := "nk", real := some md, imag := some (cdata (lit 0)), defType := t,
            defUnit := u }) ∧
      (¬ (lower t = "wavelength" ∧ lower u ∈ ["um", "micrometer", "micrometre"]) →
        Material.new rd kw = .error .value)) ∧
    (k ∈ permittivityModels →
      (lower t = "energy" ∧ lower u ∈ ["ev", "electronvolt"] →
        ∃ f md, CplxData.new f p raw t u = .ok md ∧ classRef k = .cplx f ∧
          Material.new rd kw = .ok { blankMaterial (parsedOf kw) with
            name := "eps", cplx := some md, real := some (cdata (lit 0)),
            imag := some (cdata (lit 0)), defType := t, defUnit := u }) ∧
      (¬ (lower t = "energy" ∧ lower u ∈ ["ev", "electronvolt"]) →
        Material.new rd kw = .error .value)) := by
  rw [new_eq_dispatch rd hnd hp h ⟨_, rfl⟩ trivial (by decide),
    dispatch_eq rd _ hnd h ⟨_, rfl⟩]
  obtain ⟨e1, e2⟩ := processModelDict_eq (blankMaterial (parsedOf kw)) hk hpar hr ht hu
  simp only [dispatchOn]
  constructor
  · intro hki
    obtain ⟨f, hf, hff, ho⟩ := indexModel_class k hki
    rw [e1 f hf]
    obtain ⟨h1, h2⟩ := C19_index_models f hff p raw hraw t u
    constructor
    · intro hh
      obtain ⟨md, hmd, -⟩ := h1 hh
      refine ⟨f, md, hmd, hf, ?_⟩
      simp only [hmd, ho, storeReal, bind, Except.bind, complete_eq]
      rfl
    · intro hh
      simp only [h2 hh, bind, Except.bind]
  · intro hki
    obtain ⟨f, hf⟩ := permittivityModel_class k hki
    rw [e2 f hf]
    obtain ⟨h1, h2⟩ := C19_permittivity_models f p raw hraw t u
    constructor
    · intro hh
      obtain ⟨md, hmd, -⟩ := h1 hh
      refine ⟨f, md, hmd, hf, ?_⟩
      simp only [hmd, bind, Except.bind, complete_eq]
      rfl
    · intro hh
      simp only [h2 hh, bind, Except.bind]

/-- The values that the documentation promises to accept, for fixed values and tables. -/
def Usable : DocType → PyVal F → Prop
  | .real, v => ∃ x, v = .float x
  | .complex, v => ∃ z, v = .cplx z
  | .table n, v => ∃ rows, v = .arr (.d2 n .float rows) ∧ GoodTable n rows
  | _, _ => False

/-- C24 (full statement for fixed values and tables, refuted below): a usable value constructs a
Material, another type raises `TypeError`, another shape `ValueError`. -/
def C24_statement (F : Type) [PyFloat F] [SciPy F] [NumText F] : Prop :=
  ∀ (rd : String → Res (FileDict F)) (kw : Kwargs F) (n : String) (t : DocType) (v : PyVal F),
    (kw.map Prod.fst).Nodup → PlainOptions kw →
    (∃ c, (lower (defaultsOf kw).1, lower (defaultsOf kw).2, c) ∈ names) → Only kw n t v →
    (¬ HasType t v → Material.new rd kw = .error .type) ∧
    (HasType t v → ¬ HasShape t v → Material.new rd kw = .error .value) ∧
    (Usable t v → ∃ m, Material.new rd kw = .ok m)

/-- A call with a single argument. -/
theorem only_single {n : String} {t : DocType} {v : PyVal F} (hs : (n, t) ∈ sources)
    (hv : v ≠ .none) : (([(n, v)] : Kwargs F).map Prod.fst).Nodup ∧ Only [(n, v)] n t v := by
  refine ⟨by simp, hs, by simp, hv, ?_⟩
  rintro m ty - ⟨w, hw, -⟩
  simp only [List.mem_cons, List.not_mem_nil, or_false, Prod.mk.injEq] at hw
  exact hw.1

theorem plain_single {n : String} {v : PyVal F} (h1 : n ∉ textOptions) (h2 : n ≠ "interp_oder") :
    PlainOptions ([(n, v)] : Kwargs F) := by
  constructor
  · intro m hm w hw
    simp only [List.mem_cons, List.not_mem_nil, or_false, Prod.mk.injEq] at hw
    rw [hw.1] at hm
    exact absurd hm h1
  · rintro ⟨w, hw, -⟩
    simp only [List.mem_cons, List.not_mem_nil, or_false, Prod.mk.injEq] at hw
    exact h2 hw.1.symm

omit [PyFloat F] [SciPy F] [NumText F] in
theorem defaults_single {n : String} {v : PyVal F} (h1 : n ∉ textOptions) :
    defaultsOf ([(n, v)] : Kwargs F) = ("wavelength", "nanometer") := by
  simp only [textOptions, List.mem_cons, List.not_mem_nil, or_false, not_or] at h1
  have : ∀ m, n ≠ m → Kwargs.get ([(n, v)] : Kwargs F) m = .none := by
    intro m hm
    simp [Kwargs.get, dictGet, hm]
  unfold defaultsOf
  rw [this _ h1.1, this _ h1.2]

/-- C24 is false, in every arithmetic that has a number besides NaN: a table of one row given as
`tabulated_n_alpha`. -/
theorem C24_refuted (x : F) (hx : PyFloat.isNaN x = false) : ¬ C24_statement F := by
  intro h
  have hs : ("tabulated_n_alpha", DocType.table 3) ∈ sources := by decide
  let v : PyVal F := .arr (.d2 3 .float [[x, x, x]])
  have hv : v ≠ .none := by simp [v]
  obtain ⟨h1, h2⟩ := only_single hs hv
  have hp : PlainOptions [("tabulated_n_alpha", v)] := plain_single (by decide) (by decide)
  obtain ⟨-, -, h3⟩ := h (fun _ => .error .os) [("tabulated_n_alpha", v)] _ _ _ h1 hp
    ⟨"nm", by rw [defaults_single (by decide)]; decide +kernel⟩ h2
  obtain ⟨m, hm⟩ := h3 ⟨_, rfl, by simp, by simp, by simp [rowX, hx], by simp⟩
  rw [C24_n_alpha_never _ _ h1 hp v h2 ⟨_, rfl⟩] at hm
  cases hm

/-- Concrete cases for C24: two rows of `n` given as a table; a list of three columns and a
string instead. -/
example (rd : String → Res (FileDict XR)) [SciPy XR] [NumText XR] :
    (∃ m, Material.new rd [("tabulated_n",
      .arr (.d2 2 .float [[XR.fin 400, XR.fin 1.5], [XR.fin 500, XR.fin 1.4]]))] = .ok m) ∧
    Material.new rd [("tabulated_n", .arr (.d2 3 .float [[XR.fin 400, XR.fin 1.5, XR.fin 0]]))] =
      .error .value ∧
    Material.new rd [("tabulated_n", .str "400 1.5")] = .error .type := by
  have hs : ("tabulated_n", DocType.table 2) ∈ sources := by decide
  refine ⟨?_, ?_, ?_⟩
  · obtain ⟨h1, h2⟩ := only_single hs
      (v := (.arr (.d2 2 .float [[XR.fin 400, XR.fin 1.5], [XR.fin 500, XR.fin 1.4]]))) (by simp)
    obtain ⟨r, -, hr⟩ := (C24_table_partial rd _ h1 (plain_single (by decide) (by decide))
      (c := "nm") (by rw [defaults_single (by decide)]; decide +kernel) _).1 h2
      ⟨by simp, by simp, by simp [rowX], by
        simp only [List.pairwise_cons, List.mem_singleton, forall_eq, List.not_mem_nil,
          IsEmpty.forall_iff, implies_true, List.Pairwise.nil, and_true, and_self, rowX]
        rw [LawfulCmp.eq_iff]
        simp
        norm_num⟩
    exact ⟨_, hr⟩
  · obtain ⟨h1, h2⟩ := only_single hs
      (v := (.arr (.d2 3 .float [[XR.fin 400, XR.fin 1.5, XR.fin 0]]))) (by simp)
    exact C24_shape_partial rd _ h1 (plain_single (by decide) (by decide)) _ _ _ h2 ⟨_, rfl⟩
      (by rintro ⟨dt, rows, h⟩; simp at h) (by decide)
  · obtain ⟨h1, h2⟩ := only_single (F := XR) hs (v := (.str "400 1.5")) (by simp)
    exact C24_type_partial rd _ h1 _ _ _ h2 (by rintro ⟨a, h⟩; cases h)

/-! ## C25 -/

/-- The same material with another stored interpolation order. -/
def Material.withOrder (m : Material F) (o : PyVal F) : Material F := { m with interpOrder := o }

omit [NumText F] in
theorem storeReal_withOrder (m : Material F) (o : PyVal F) (out : Option String) (d : RealData F) :
    storeReal (m.withOrder o) out d = (storeReal m out d).map (·.withOrder o) := by
  unfold storeReal
  split <;> rfl

omit [NumText F] in
theorem processModelDict_withOrder (m : Material F) (o : PyVal F) (d : ModelKw F) :
    processModelDict (m.withOrder o) d = (processModelDict m d).map (·.withOrder o) := by
  unfold processModelDict
  cases d.name with
  | none => rfl
  | some k =>
    simp only [bind, Except.bind]
    cases classRef k with
    | missing => rfl
    | notClass => rfl
    | real f =>
      cases d.params with
      | none => rfl
      | some p =>
        cases d.validRange with
        | none => rfl
        | some r =>
          simp only
          cases RealData.newModel f p r (d.stype.getD "wavelength") (d.unit.getD "m") with
          | error e => rfl
          | ok md =>
            exact storeReal_withOrder
              { m with defType := d.stype.getD m.defType, defUnit := d.unit.getD m.defUnit } o _ md
    | cplx f =>
      cases d.params with
      | none => rfl
      | some p =>
        cases d.validRange with
        | none => rfl
        | some r =>
          simp only
          cases CplxData.new f p r (d.stype.getD "wavelength") (d.unit.getD "m") <;> rfl
    | baseModel =>
      cases d.params with
      | none => rfl
      | some p =>
        cases d.validRange with
        | none => rfl
        | some r =>
          simp only
          cases Spectrum.new r (d.stype.getD "wavelength") (d.unit.getD "m") <;> rfl
    | otherClass => cases d.params <;> cases d.validRange <;> rfl

omit [NumText F] in
theorem processTable_withOrder (m : Material F) (o : PyVal F) (a : NDArr F) (i : String)
    (d : Dataset F) :
    processTable (m.withOrder o) a i d = (processTable m a i d).map (·.withOrder o) := by
  unfold processTable
  simp only [Material.withOrder, bind, Except.bind]
  repeat' split
  all_goals first | rfl | simp_all [Except.map]

theorem processFormulaData_withOrder (m : Material F) (o : PyVal F) (d : Dataset F) :
    processFormulaData (m.withOrder o) d = (processFormulaData m d).map (·.withOrder o) := by
  unfold processFormulaData
  simp only [bind, Except.bind]
  repeat' split
  all_goals first
    | rfl
    | (simp_all [Except.map]; done)
    | exact processModelDict_withOrder m o _

theorem processDataset_withOrder (m : Material F) (o : PyVal F) (d : Dataset F) :
    processDataset (m.withOrder o) d = (processDataset m d).map (·.withOrder o) := by
  unfold processDataset
  simp only [bind, Except.bind, processTable_withOrder, processFormulaData_withOrder]
  repeat' split
  all_goals first
    | rfl
    | (simp_all [Except.map]; done)

theorem processDatasets_withOrder (o : PyVal F) : ∀ (ds : List (Dataset F)) (m : Material F),
    ds.foldlM processDataset (m.withOrder o) = (ds.foldlM processDataset m).map (·.withOrder o)
  | [], m => rfl
  | d :: ds, m => by
    simp only [List.foldlM_cons, bind, Except.bind, processDataset_withOrder]
    cases processDataset m d with
    | error e => rfl
    | ok m' => exact processDatasets_withOrder o ds m'

theorem processFileData_withOrder (m : Material F) (o : PyVal F) (fd : FileDict F) :
    processFileData (m.withOrder o) fd = (processFileData m fd).map (·.withOrder o) := by
  unfold processFileData
  simp only [bind, Except.bind]
  split
  · rfl
  · exact processDatasets_withOrder o _ { m with metaData := _ }

theorem dispatch_withOrder (rd : String → Res (FileDict F)) (m : Material F) (o : PyVal F)
    (kw : Kwargs F) : dispatch rd (m.withOrder o) kw = (dispatch rd m kw).map (·.withOrder o) := by
  unfold dispatch
  repeat' split
  · cases h : rd _ with
    | error e => rfl
    | ok fd => exact processFileData_withOrder m o fd
  · exact processModelDict_withOrder m o _
  · exact processTable_withOrder m o _ _ _
  · exact processTable_withOrder m o _ _ _
  · exact processTable_withOrder m o _ _ _
  · exact processTable_withOrder m o _ _ _
  · unfold processFixedValue
    simp only [constantOf_eq, bind, Except.bind]
    split <;> rfl

/-- C25: what the documentation promises, for a table of `n` (refuted below): the refractive
index is interpolated with the given order. -/
def C25_statement (F : Type) [PyFloat F] [SciPy F] [NumText F] : Prop :=
  ∀ (rd : String → Res (FileDict F)) (kw : Kwargs F) (rows : List (List F)) (k : ℕ)
    (m : Material F) (d : RealData F),
    (kw.map Prod.fst).Nodup → Only kw "tabulated_n" (.table 2) (.arr (.d2 2 .float rows)) →
    (∀ r ∈ rows, r.length = 2) → ("interp_order", .int k) ∈ kw → Material.new rd kw = .ok m →
    RealData.newInterp .float (pairsOf rows 1) (defaultsOf kw).1 (defaultsOf kw).2 k = .ok d →
    ∀ s, (evalPart m.real s).1 = (d.evaluate s).1

/-- C25 in truth: `interp_order` is stored but has no other effect. Two calls that differ at
most in this argument raise the same exception or construct materials that agree in everything
else. -/
theorem C25_ignored (rd : String → Res (FileDict F)) (kw kw' : Kwargs F)
    (hnd : (kw.map Prod.fst).Nodup) (hnd' : (kw'.map Prod.fst).Nodup)
    (h : ∀ n, n ≠ "interp_order" → kw'.get n = kw.get n) :
    (Material.new rd kw').map (·.withOrder .none) = (Material.new rd kw).map (·.withOrder .none) := by
  have hcount : countExclusive kw' = 1 ↔ countExclusive kw = 1 := by
    rw [countExclusive_one hnd, countExclusive_one hnd']
    have : ∀ n, (n ∈ sources.map Prod.fst ∧ Given kw' n) ↔ (n ∈ sources.map Prod.fst ∧ Given kw n) := by
      intro n
      refine and_congr_right fun hn => ?_
      rw [kwGet_given hnd, kwGet_given hnd', h n]
      rintro rfl
      exact absurd hn (by decide)
    exact existsUnique_congr this
  by_cases hc : countExclusive kw = 1
  · have htype : typesOK kw' = typesOK kw := by
      simp only [typesOK, typeOK, List.all_cons, List.all_nil]
      simp (discharger := decide) only [h]
    unfold Material.new
    rw [parseArgs_eq hc, parseArgs_eq (hcount.2 hc), htype]
    split
    · obtain ⟨o, ho⟩ : ∃ o, o = if dictHas kw' "interp_order" then kw'.get "interp_order"
          else .int 1 := ⟨_, rfl⟩
      have hsh : shapeChecks kw' =
          (shapeChecks kw).map (fun p => { p with kw := kw', interpOrder := o }) := by
        unfold shapeChecks
        rw [← ho]
        simp (discharger := decide) only [h]
        simp only [bind, Except.bind]
        repeat' split
        all_goals first | rfl | (simp_all [Except.map]; done)
      rw [hsh]
      cases hp : shapeChecks kw with
      | error e => rfl
      | ok p =>
        have hdisp : ∀ m, dispatch rd m kw' = dispatch rd m kw := by
          intro m
          unfold dispatch processFixedValue
          simp (discharger := decide) only [h]
        simp only [Except.map, bind, Except.bind, hdisp, complete_eq]
        have hb : dispatch rd (blankMaterial { p with kw := kw', interpOrder := o }) kw =
            (dispatch rd (blankMaterial p) kw).map (·.withOrder o) :=
          dispatch_withOrder rd (blankMaterial p) o kw
        rw [hb]
        cases dispatch rd (blankMaterial p) kw with
        | error e => rfl
        | ok m0 => rfl
    · rfl
  · have e1 : Material.new rd kw = .error .value :=
      C23_exactly_one rd kw hnd (fun hh => hc ((countExclusive_one hnd).2 hh))
    have e2 : Material.new rd kw' = .error .value :=
      C23_exactly_one rd kw' hnd' (fun hh => hc (hcount.1 ((countExclusive_one hnd').2 hh)))
    rw [e1, e2]

/-- What a successful construction from a table of `n` holds. -/
theorem tabulated_n_ok (rd : String → Res (FileDict F)) {kw : Kwargs F}
    (hnd : (kw.map Prod.fst).Nodup) {rows : List (List F)}
    (h : Only kw "tabulated_n" (.table 2) (.arr (.d2 2 .float rows)))
    (hw : ∀ r ∈ rows, r.length = 2) {m : Material F} (hm : Material.new rd kw = .ok m) :
    ∃ r, tableData .float (pairsOf rows 1) (defaultsOf kw).1 (defaultsOf kw).2 = .ok r ∧
      m.real = some r := by
  obtain ⟨p, m0, h1, h2, rfl⟩ := new_ok rd hm
  rw [dispatch_eq rd _ hnd h ⟨_, rfl⟩] at h2
  have hp : p = parsedOf kw := by
    rw [parseArgs_eq (h.count hnd)] at h1
    split at h1
    · classical
      rw [shapeChecks_eq hnd h ⟨_, rfl⟩ (by decide), if_pos ⟨_, _, rfl⟩] at h1
      exact (Except.ok.inj h1).symm
    · cases h1
  subst hp
  have hget : ∀ key, (Dataset.get ([] : Dataset F) key).nonEmptyStr = Option.none := fun _ => rfl
  simp only [dispatchOn, processTable, hget, Option.getD_none] at h2
  rw [specData_eq hw (by omega), if_neg (by decide), if_neg (by decide), if_pos trivial] at h2
  simp only [blankMaterial, parsedOf, bind, Except.bind] at h2
  cases hr : tableData .float (pairsOf rows 1) (defaultsOf kw).1 (defaultsOf kw).2 with
  | error e => rw [hr] at h2; cases h2
  | ok r =>
    rw [hr] at h2
    cases h2
    exact ⟨r, rfl, rfl⟩

/-- C25 for order one, which is the order that is always used. Missing for the full claim: all
other orders, for which it is false. -/
theorem C25_order_one_partial (rd : String → Res (FileDict F)) (kw : Kwargs F)
    (rows : List (List F)) (m : Material F) (d : RealData F) (hnd : (kw.map Prod.fst).Nodup)
    (h : Only kw "tabulated_n" (.table 2) (.arr (.d2 2 .float rows)))
    (hw : ∀ r ∈ rows, r.length = 2) (hm : Material.new rd kw = .ok m)
    (hd : RealData.newInterp .float (pairsOf rows 1) (defaultsOf kw).1 (defaultsOf kw).2 1 = .ok d)
    (s : Spectrum F) : (evalPart m.real s).1 = (d.evaluate s).1 := by
  obtain ⟨r, hr, hreal⟩ := tabulated_n_ok rd hnd h hw hm
  obtain ⟨-, -, -, -, -, -, h4, -⟩ := newInterp_ok hd
  have : r = d := by
    unfold tableData at hr
    split at hr
    · rename_i x y hps
      rw [hps] at h4
      simp at h4
    · rw [hd] at hr
      exact (Except.ok.inj hr).symm
  subst this
  rw [hreal]
  rfl

end generic

/-- C25 is false wherever SciPy interpolates the parabola through (1,1), (2,4), (3,9) at 1.5 as
2.25: a material built with `interp_order=2` returns 2.5. -/
theorem C25_refuted [SciPy XR] [NumText XR]
    (hq : SciPy.interpK 2 (xrows [(1, 1), (2, 4), (3, 9)]) (XR.fin 1.5) = .ok (XR.fin 2.25)) :
    ¬ C25_statement XR := by
  intro hst
  let rows : List (List XR) := [[XR.fin 1, XR.fin 1], [XR.fin 2, XR.fin 4], [XR.fin 3, XR.fin 9]]
  let v : PyVal XR := .arr (.d2 2 .float rows)
  let kw : Kwargs XR := [("tabulated_n", v), ("unit", .str "m"), ("interp_order", .int 2)]
  have hnd : (kw.map Prod.fst).Nodup := by simp [kw]
  have honly : Only kw "tabulated_n" (.table 2) v := by
    refine ⟨by decide, by simp [kw], by simp [v], ?_⟩
    rintro m ty hs ⟨w, hw, -⟩
    simp only [kw, List.mem_cons, List.not_mem_nil, or_false, Prod.mk.injEq] at hw
    rcases hw with hw | hw | hw
    · exact hw.1
    · rw [hw.1] at hs; revert hs; simp [sources]
    · rw [hw.1] at hs; revert hs; simp [sources]
  have hpl : PlainOptions kw := by
    constructor
    · intro n hn w hw
      simp only [kw, List.mem_cons, List.not_mem_nil, or_false, Prod.mk.injEq] at hw
      rcases hw with hw | hw | hw
      · rw [hw.1] at hn; exact absurd hn (by decide)
      · exact .inr ⟨_, hw.2⟩
      · rw [hw.1] at hn; exact absurd hn (by decide)
    · rintro ⟨w, hw, -⟩
      simp [kw] at hw
  have hdef : defaultsOf kw = ("wavelength", "m") := by
    simp [defaultsOf, Kwargs.get, kw, dictGet, v]
  have hps : pairsOf rows 1 = xrows [(1, 1), (2, 4), (3, 9)] := by
    simp [pairsOf, rows, rowX, xrows]
  have hgood : GoodTable 2 rows := by
    refine ⟨by simp [rows], by simp [rows], by simp [rows, rowX], ?_⟩
    simp only [rows, List.pairwise_cons, List.mem_cons, List.not_mem_nil, or_false,
      forall_eq_or_imp, forall_eq, IsEmpty.forall_iff, implies_true, List.Pairwise.nil, and_true,
      rowX, LawfulCmp.eq_iff]
    simp
    norm_num
  have hw : ∀ r ∈ rows, r.length = 2 := hgood.width
  obtain ⟨r, hr, hm⟩ := (C24_table_partial (fun _ => .error .os) kw hnd hpl (c := "m")
    (by rw [hdef]; decide +kernel) rows).1 honly hgood
  have hsort : sortRows (xrows [(1, 1), (2, 4), (3, 9)]) = xrows [(1, 1), (2, 4), (3, 9)] := by
    simp only [xrows, sortRows, List.map_cons, List.map_nil, List.foldr_cons, List.foldr_nil,
      insertRow, XR.lt_fin]
    norm_num [insertRow]
  have hnewk : ∀ k : ℕ, k ≤ 2 → RealData.newInterp .float (xrows [(1, 1), (2, 4), (3, 9)])
      "wavelength" "m" k = .ok (.interp k (xrows [(1, 1), (2, 4), (3, 9)])
        (metreSpectrum (([1, 3] : List ℝ).map XR.fin)) "wavelength" "m") := by
    intro k hk
    have h1 : npMin (Vals.array DType.float ((xrows [(1, 1), (2, 4), (3, 9)]).map (·.1))) =
        .ok (XR.fin 1) := by
      simp [npMin, Vals.toList, npMinList, xrows]
    have h2 : npMax (Vals.array DType.float ((xrows [(1, 1), (2, 4), (3, 9)]).map (·.1))) =
        .ok (XR.fin 3) := by
      simp [npMax, Vals.toList, npMaxList, xrows]
      norm_num
    have h3 : interpInit k (xrows [(1, 1), (2, 4), (3, 9)]) = .ok () := by
      simp only [interpInit, hsort]
      rw [if_neg (by simp [xrows]; omega), if_pos]
      simp [noDuplicates, xrows]
      norm_num
    unfold RealData.newInterp
    simp only [h1, h2, h3, bind, Except.bind]
    rw [show ([XR.fin 1, XR.fin 3] : List XR) = ([1, 3] : List ℝ).map XR.fin from rfl,
      metreSpectrum_new]
  have hrr : r = .interp 1 (xrows [(1, 1), (2, 4), (3, 9)])
        (metreSpectrum (([1, 3] : List ℝ).map XR.fin)) "wavelength" "m" := by
    have : tableData .float (pairsOf rows 1) (defaultsOf kw).1 (defaultsOf kw).2 =
        RealData.newInterp .float (xrows [(1, 1), (2, 4), (3, 9)]) "wavelength" "m" 1 := by
      rw [hdef, hps]; rfl
    rw [this, hnewk 1 (by omega)] at hr
    exact (Except.ok.inj hr).symm
  have := hst (fun _ => .error .os) kw rows 2 _ _ hnd honly hw (by simp [kw]) hm
    (by rw [hdef, hps]; exact hnewk 2 (by omega)) (metreSpectrum (([1.5] : List ℝ).map XR.fin))
  rw [hrr] at this
  have hcon := metre_contains [1, 3] [1.5] (by simp) (by simp) (by
    intro y hy
    simp only [List.mem_cons, List.not_mem_nil, or_false] at hy
    subst hy
    exact ⟨⟨1, by simp, by norm_num⟩, ⟨3, by simp, by norm_num⟩⟩)
  have hlin : interpAt 1 (xrows [(1, 1), (2, 4), (3, 9)]) (XR.fin 1.5) = .ok (XR.fin 2.5) := by
    have hseg := segment_real (1, 1) (2, 4) (by norm_num) 1.5
    simp only [interpAt, if_true, interpLinear, hsort]
    simp only [xrows, List.map_cons, List.map_nil, evalSegments, List.getLast?_cons_cons,
      List.getLast?_singleton, Option.getD_some]
    rw [if_neg (by simp only [XR.lt_fin]; norm_num), if_pos (by simp only [XR.lt_fin]; norm_num),
      hseg]
    norm_num
  have hk2 : interpAt 2 (xrows [(1, 1), (2, 4), (3, 9)]) (XR.fin 1.5) = .ok (XR.fin 2.25) := by
    simp only [interpAt, hsort, hq]
    rfl
  have hev : ∀ (k : ℕ) (y : XR), interpAt k (xrows [(1, 1), (2, 4), (3, 9)]) (XR.fin 1.5) = .ok y →
      ((RealData.interp k (xrows [(1, 1), (2, 4), (3, 9)])
        (metreSpectrum (([1, 3] : List ℝ).map XR.fin)) "wavelength" "m").evaluate
        (metreSpectrum (([1.5] : List ℝ).map XR.fin))).1 = .ok (.array .float [y]) := by
    intro k y hy
    simp only [RealData.evaluate]
    rw [hcon, metreSpectrum_convert]
    simp only [bind, Except.bind, Vals.mapRes, List.map_cons, List.map_nil, List.mapM_cons,
      List.mapM_nil, hy, pure, Except.pure]
  rw [hev 2 _ hk2] at this
  have h1 := (hev 1 _ hlin).symm.trans this
  simp only [Except.ok.injEq, Vals.array.injEq, List.cons.injEq, XR.fin.injEq, true_and, and_true]
    at h1
  norm_num at h1

/-- A library that squares its argument at order 2 (right for these three points) meets the
hypothesis of `C25_refuted`. -/
example [NumText XR] : ∃ S : SciPy XR, ¬ @C25_statement XR _ S _ := by
  let S : SciPy XR := { demoSciPy with interpK := fun _ _ v => .ok (v * v) }
  refine ⟨S, @C25_refuted S _ ?_⟩
  show Except.ok (XR.fin 1.5 * XR.fin 1.5) = _
  rw [show (XR.fin 1.5 * XR.fin 1.5 : XR) = XR.fin (1.5 * 1.5) from rfl]
  norm_num

end Disp

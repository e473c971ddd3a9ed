import Verif.Props.CatalogueWhole
import Verif.Props.UnitRange
/-!
# C87: catalogues of tables

Folders and libraries of table files that name no unit: they can be catalogued, the bounds of a row
are the ends of the table, and the reference values are NaN exactly if the reference wavelength lies
outside.
-/

namespace Disp

variable [SciPy XR]

/-! ## Specification -/

namespace Spec

/-- A number that conversions to a length unit do not change: positive and of no more decimals than
are kept. -/
def Kept (c : String) (x : ℝ) : Prop := 0 < x ∧ OnGrid (decimals "wavelength" c) x

/-- A dataset that names no unit and holds a table of numbers, one row for each of the distinct
wavelengths, which run from `lo` to `hi` (in the length unit `c`). -/
structure TableSet [NumText XR] (c kind : String) (k : ℕ) (d : Dataset XR) (lo hi : ℝ) : Prop where
  kind : dictGet d "DataType" = .ok (.str kind)
  noUnit : NoText d "SpectrumType" ∧ NoText d "Unit"
  table : ∃ v, ∃ rows : List (List ℝ), dictGet d "Data" = .ok v ∧
    strTableToNumeric v.asTable = .ok (.d2 k .float (rows.map (·.map XR.fin))) ∧
    (∀ r ∈ rows, r.length = k) ∧ rows.Pairwise (fun r q => abscissa r ≠ abscissa q) ∧
    Spans rows lo hi
  keptLo : Kept c lo
  keptHi : Kept c hi

/-- The tables of a file: index and extinction in one table or in two, or only one of them; the
range that they have in common. -/
inductive TableFile [NumText XR] (c : String) : List (Dataset XR) → ℝ → ℝ → Prop
  | n {d lo hi} : TableSet c "tabulated n" 2 d lo hi → TableFile c [d] lo hi
  | k {d lo hi} : TableSet c "tabulated k" 2 d lo hi → TableFile c [d] lo hi
  | nk {d lo hi} : TableSet c "tabulated nk" 3 d lo hi → TableFile c [d] lo hi
  | both {d e lo hi lo' hi'} : TableSet c "tabulated n" 2 d lo hi →
      TableSet c "tabulated k" 2 e lo' hi' → TableFile c [d, e] (max lo lo') (min hi hi')

/-- What a row says of a material with the range from `lo` to `hi` in its unit, if `x` is the
reference point in that unit. -/
def TellsOf (m : Material XR) (ref : Spectrum XR) (lo hi x : ℝ) (r : Row XR) : Prop :=
  r.lower = XR.fin lo ∧ r.upper = XR.fin hi ∧
  (lo ≤ x ∧ x ≤ hi → ∃ v, (m.getNk ref).1 = .ok v ∧ TwoColumns v r.nRef r.kRef) ∧
  (¬ (lo ≤ x ∧ x ≤ hi) → r.nRef = .scalar PyFloat.nan ∧ r.kRef = .scalar PyFloat.nan)

end Spec

open Spec

/-! ## Evaluation outside the range -/

theorem BandPart.value_error {c : String} (hcm : c ≠ "cm") {d : RealData XR} {lo hi : ℝ}
    (h : BandPart "wavelength" c d lo hi) {s : Spectrum XR} {ys : List ℝ}
    (hs : Asks "wavelength" s ys) :
    (∃ v, (d.evaluate s).1 = .ok v) ∨ (d.evaluate s).1 = .error .value := by
  by_cases hin : ∀ y ∈ ys, lo ≤ shown "wavelength" c y ∧ shown "wavelength" c y ≤ hi
  · exact .inl ((h.evaluate (by decide) hs).2 hin)
  refine .inr ?_
  have hno : ¬ ∃ v, (d.evaluate s).1 = .ok v := fun hv => hin ((h.evaluate (by decide) hs).1 hv)
  obtain ⟨h1, h2⟩ := h.spec
  have hn := h.known
  have hl : lower "wavelength" = "wavelength" := by decide +kernel
  obtain ⟨ov, o1, o2⟩ := Asks.convert (t := "wavelength") (by rw [hl]; exact hn) (by rw [hl]; decide)
    (by rw [hl]; exact hs)
  have hne : ov.toList ≠ [] := by rw [o2]; simpa using hs.stands.1
  have hon : NoNaN ov.toList := by
    rw [o2, ← Function.comp_def XR.fin, ← List.map_map]; exact noNaN_map _
  have hrn : NoNaN d.range.values.toList := by rw [h1]; exact noNaN_map [lo, hi]
  have hcs := contains_spec d.range s ov (by rw [h1]; simp [Vals.toList])
    (by rw [h1]; exact o1) hne hrn hon
  have hw := within_iff (xs := d.range.values.toList) (by rw [h1]; simp [Vals.toList]) hrn hon
  have hout : ¬ Within d.range.values.toList ov.toList := by
    rw [o2, h1, hl]
    intro w
    refine hin fun y hy => ?_
    obtain ⟨⟨a, ha, ha'⟩, b, hb, hb'⟩ := w _ (List.mem_map_of_mem hy)
    simp only [Vals.toList, List.mem_cons, List.not_mem_nil, or_false] at ha hb
    have hle := h.band.le
    constructor
    · rcases ha with rfl | rfl
      · simpa using ha'
      · exact hle.trans (by simpa using ha')
    · rcases hb with rfl | rfl
      · exact (by simpa using hb' : shown "wavelength" c y ≤ lo).trans hle
      · simpa using hb'
  rw [if_pos (by by_contra hno; exact hout (hw.2 hno))] at hcs
  have hdn : ∃ x, dictGet displayNames d.range.unit = .ok x := by
    rw [h1]
    rcases pairs_cases (names_pairs _ hn) with ⟨e, rfl⟩ | ⟨e, rfl⟩ | ⟨e, rfl⟩ | ⟨e, rfl⟩ | ⟨e, rfl⟩ |
      ⟨e, rfl⟩ | ⟨e, rfl⟩ | ⟨e, rfl⟩ | ⟨e, rfl⟩ <;> first
      | exact absurd rfl hcm
      | exact ⟨_, rfl⟩
  obtain ⟨x, hx⟩ := hdn
  rw [hx] at hcs
  simp only at hcs
  cases d with
  | constant v r t u => simp only [RealData.range] at hcs; simp only [RealData.evaluate, hcs, bind, Except.bind]
  | interp o rows r t u => simp only [RealData.range] at hcs; simp only [RealData.evaluate, hcs, bind, Except.bind]
  | model k p r t u => simp only [RealData.range] at hcs; simp only [RealData.evaluate, hcs, bind, Except.bind]
  | extrap => exact h2.elim

/-- A material of such parts is evaluated within the common range, and raises a ValueError
outside. -/
theorem BandParts.stored {c : String} (hcm : c ≠ "cm") {m : Material XR} {r i : RealData XR}
    {lo hi : ℝ} (hc : m.cplx = none) (hr : m.real = some r) (hi' : m.imag = some i)
    (h : BandParts "wavelength" c r i lo hi) {s : Spectrum XR} (hal : Aligned s) {ys : List ℝ}
    (hs : Asks "wavelength" s ys) :
    ((∀ y ∈ ys, lo ≤ shown "wavelength" c y ∧ shown "wavelength" c y ≤ hi) →
      ∃ v, (m.evalStored s).1 = .ok v) ∧
    ((¬ ∀ y ∈ ys, lo ≤ shown "wavelength" c y ∧ shown "wavelength" c y ≤ hi) →
      (m.evalStored s).1 = .error .value) := by
  have key := stored_both hc hr hi' h.plain.1 h.plain.2 hal
  rw [h.evaluate (by decide) hs] at key
  refine ⟨key.2, fun hno => ?_⟩
  have e1 : (∃ v, (r.evaluate s).1 = .ok v) ∨ (r.evaluate s).1 = .error .value := by
    cases h with
    | both a b => exact a.value_error hcm hs
    | first v a => exact a.value_error hcm hs
    | second v a => exact .inl (zero_evaluate hs)
  have e2 : (∃ v, (i.evaluate s).1 = .ok v) ∨ (i.evaluate s).1 = .error .value := by
    cases h with
    | both a b => exact b.value_error hcm hs
    | first v a => exact .inl (zero_evaluate hs)
    | second v a => exact a.value_error hcm hs
  have hno' : ¬ ∃ v, (m.evalStored s).1 = .ok v := fun hv => hno (key.1 hv)
  have h2 : (r.evaluate s).2 = s := evalPart_plain (d := some r) h.plain.1 s
  unfold Material.evalStored at hno' ⊢
  rw [hc, hr, hi'] at hno' ⊢
  simp only [evalPart] at hno' ⊢
  cases hx : r.evaluate s with
  | mk x s1 =>
    rw [hx] at h2 e1 hno'
    obtain rfl : s1 = s := h2
    rcases e1 with ⟨v, rfl⟩ | rfl
    · simp only at hno' ⊢
      cases hy : i.evaluate s1 with
      | mk y s2 =>
        rw [hy] at e2 hno'
        rcases e2 with ⟨w, rfl⟩ | rfl
        · exfalso
          have := (stored_both hc hr hi' h.plain.1 h.plain.2 hal).2 ⟨⟨v, by rw [hx]⟩, w, by rw [hy]⟩
          exact hno (key.1 this)
        · rfl
    · rfl

/-! ## The reference point -/

omit [SciPy XR] in
/-- A reference point of any type and unit, and its wavelength. -/
theorem asks_length {t u c : String} (hu : (lower t, lower u, c) ∈ names) {x : ℝ} (hx : 0 < x)
    {s : Spectrum XR} (hs : Spectrum.new (.float (XR.fin x)) t u = .ok s) :
    Asks "wavelength" s [metres (lower t) c x] := by
  rw [new_scalar hu, Except.ok.injEq] at hs
  subst hs
  rw [fromElem_fin (names_pairs _ hu) hx (fun _ => XR.inv_scalar_fin hx.ne')]
  exact ⟨⟨by simp, .inl ⟨_, rfl, rfl⟩⟩, by simpa using metres_pos _ c hx, fun h => absurd rfl h⟩

/-- The reference values of such a material. -/
theorem BandParts.reference {c : String} (hcm : c ≠ "cm") {m : Material XR} {r i : RealData XR}
    {lo hi : ℝ} (hc : m.cplx = none) (hn : m.name = "nk") (hr : m.real = some r)
    (hi' : m.imag = some i) (h : BandParts "wavelength" c r i lo hi) {t u cr : String}
    (hu : (lower t, lower u, cr) ∈ names) {x : ℝ} (hx : 0 < x) {ref : Spectrum XR}
    (hs : Spectrum.new (.float (XR.fin x)) t u = .ok ref) :
    ∃ v, refIndex m ref = .ok v ∧
      (lo ≤ shown "wavelength" c (metres (lower t) cr x) ∧
        shown "wavelength" c (metres (lower t) cr x) ≤ hi → (m.getNk ref).1 = .ok v) ∧
      (¬ (lo ≤ shown "wavelength" c (metres (lower t) cr x) ∧
        shown "wavelength" c (metres (lower t) cr x) ≤ hi) → v = .scalar ⟨PyFloat.nan, PyFloat.nan⟩) := by
  obtain ⟨h1, h2⟩ := h.stored hcm hc hr hi' (aligned_new (raw := .float (XR.fin x)) trivial hs)
    (asks_length hu hx hs)
  simp only [List.mem_singleton, forall_eq] at h1 h2
  have hnk := getNk_fresh m ⟨.float (XR.fin x), t, u, hs⟩ (.inl hn)
  unfold refIndex
  by_cases hin : lo ≤ shown "wavelength" c (metres (lower t) cr x) ∧
      shown "wavelength" c (metres (lower t) cr x) ≤ hi
  · obtain ⟨v, hv⟩ := h1 hin
    rw [hv] at hnk
    rw [hnk]
    exact ⟨_, rfl, fun _ => rfl, fun h => absurd hin h⟩
  · rw [h2 hin] at hnk
    rw [hnk]
    exact ⟨_, rfl, fun h => absurd h hin, fun _ => rfl⟩

/-! ## The material in a file -/

section files

variable [NumText XR]

/-- What the columns of such a table give. -/
theorem Spec.TableSet.data {c kind : String} {k : ℕ} {d : Dataset XR} {lo hi : ℝ}
    (h : TableSet c kind k d lo hi) (hk : 0 < k) {u : String} (hc : ("wavelength", u, c) ∈ names) :
    ∃ v rows, dictGet d "Data" = .ok v ∧ strTableToNumeric v.asTable = .ok (.d2 k .float rows) ∧
      (∀ r ∈ rows, r.length = k) ∧ ∀ j < k, ∃ b, tableData .float (pairsOf rows j) "wavelength" u =
        .ok b ∧ BandPart "wavelength" c b lo hi := by
  obtain ⟨v, rows, h1, h2, h3, h4, h5⟩ := h.table
  have hl : lower "wavelength" = "wavelength" := by decide +kernel
  have hlu : lower u = u := (names_lower _ hc).2
  have hg : GoodTable k (rows.map (·.map XR.fin)) := by
    refine ⟨?_, ?_, ?_, ?_⟩
    · obtain ⟨r, hr, -⟩ := h5.first
      exact List.ne_nil_of_mem (List.mem_map_of_mem hr)
    · intro r hr
      obtain ⟨q, hq, rfl⟩ := List.mem_map.1 hr
      simpa using h3 q hq
    · intro r hr
      obtain ⟨q, hq, rfl⟩ := List.mem_map.1 hr
      rw [rowX_fin hk (h3 q hq)]; rfl
    · rw [List.pairwise_map]
      refine h4.imp_of_mem fun {a b} ha hb' hab => ?_
      rw [rowX_fin hk (h3 a ha), rowX_fin hk (h3 b hb')]
      simpa using hab
  refine ⟨v, _, h1, h2, hg.width, fun j hj => ?_⟩
  obtain ⟨b, hb⟩ := tableData_ok hg j (t := "wavelength") (u := u) (c := c) (by rw [hl, hlu]; exact hc)
  refine ⟨b, hb, ?_⟩
  rw [pairsOf_fin hj h3] at hb
  have hle : lo ≤ hi := by
    obtain ⟨r, hr, e⟩ := h5.first
    rw [← e]
    exact (h5.between r hr).2
  have := tabled_part (t := "wavelength") (u := u) (c := c) (by rw [hl]; exact hc) (lo := lo) (hi := hi)
    (by rw [hl]; exact ⟨h.keptLo.1, hle, h.keptLo.2, h.keptHi.2, fun h => absurd rfl h⟩)
    (by obtain ⟨r, hr, e⟩ := h5.first
        exact ⟨_, List.mem_map_of_mem hr, e⟩)
    (by obtain ⟨r, hr, e⟩ := h5.last
        exact ⟨_, List.mem_map_of_mem hr, e⟩)
    (by intro p hp
        obtain ⟨r, hr, rfl⟩ := List.mem_map.1 hp
        exact h5.between r hr) hb
  rwa [hl] at this

theorem Spec.TableSet.load_n {d : Dataset XR} {lo hi : ℝ} {u c : String}
    (h : TableSet c "tabulated n" 2 d lo hi) (hc : ("wavelength", u, c) ∈ names) :
    ∃ b, BandPart "wavelength" c b lo hi ∧ ∀ m : Material XR, m.defType = "wavelength" →
      m.defUnit = u → processDataset m d = .ok { m with name := "nk", real := some b } := by
  obtain ⟨v, rows, h1, h2, h3, h4⟩ := h.data (by omega) hc
  obtain ⟨b, hb, hp⟩ := h4 1 (by omega)
  refine ⟨b, hp, fun m ht hu => ?_⟩
  unfold processDataset
  simp only [Dataset.getStr, h.kind, bind, Except.bind,
    show splitTwo "tabulated n" = .ok ("tabulated", "n") from by decide +kernel, if_true, h1, h2]
  unfold processTable
  simp only [noText_get h.noUnit.1, noText_get h.noUnit.2, Option.getD_none,
    specData_eq h3 (show 1 < 2 by omega), ht, hu, hb,
    show ¬ ("n" = "nk") from by decide, show ¬ ("n" = "n_alpha") from by decide, if_false, if_true,
    bind, Except.bind]

theorem Spec.TableSet.load_k {d : Dataset XR} {lo hi : ℝ} {u c : String}
    (h : TableSet c "tabulated k" 2 d lo hi) (hc : ("wavelength", u, c) ∈ names) :
    ∃ b, BandPart "wavelength" c b lo hi ∧ ∀ m : Material XR, m.defType = "wavelength" →
      m.defUnit = u → processDataset m d = .ok { m with name := "nk", imag := some b } := by
  obtain ⟨v, rows, h1, h2, h3, h4⟩ := h.data (by omega) hc
  obtain ⟨b, hb, hp⟩ := h4 1 (by omega)
  refine ⟨b, hp, fun m ht hu => ?_⟩
  unfold processDataset
  simp only [Dataset.getStr, h.kind, bind, Except.bind,
    show splitTwo "tabulated k" = .ok ("tabulated", "k") from by decide +kernel, if_true, h1, h2]
  unfold processTable
  simp only [noText_get h.noUnit.1, noText_get h.noUnit.2, Option.getD_none,
    specData_eq h3 (show 1 < 2 by omega), ht, hu, hb,
    show ¬ ("k" = "nk") from by decide, show ¬ ("k" = "n_alpha") from by decide,
    show ¬ ("k" = "n") from by decide, if_false, if_true, bind, Except.bind]

theorem Spec.TableSet.load_nk {d : Dataset XR} {lo hi : ℝ} {u c : String}
    (h : TableSet c "tabulated nk" 3 d lo hi) (hc : ("wavelength", u, c) ∈ names) :
    ∃ a b, BandPart "wavelength" c a lo hi ∧ BandPart "wavelength" c b lo hi ∧
      ∀ m : Material XR, m.defType = "wavelength" → m.defUnit = u →
        processDataset m d = .ok { m with name := "nk", real := some a, imag := some b } := by
  obtain ⟨v, rows, h1, h2, h3, h4⟩ := h.data (by omega) hc
  obtain ⟨a, ha, hp⟩ := h4 1 (by omega)
  obtain ⟨b, hb, hq⟩ := h4 2 (by omega)
  refine ⟨a, b, hp, hq, fun m ht hu => ?_⟩
  unfold processDataset
  simp only [Dataset.getStr, h.kind, bind, Except.bind,
    show splitTwo "tabulated nk" = .ok ("tabulated", "nk") from by decide +kernel, if_true, h1, h2]
  unfold processTable
  simp only [noText_get h.noUnit.1, noText_get h.noUnit.2, Option.getD_none,
    specData_eq h3 (show 1 < 3 by omega), specData_eq h3 (show 2 < 3 by omega), ht, hu, ha, hb,
    if_true, bind, Except.bind]

/-- The material in such a file. -/
theorem Spec.TableFile.material {c : String} {ds : List (Dataset XR)} {lo hi : ℝ}
    (h : TableFile c ds lo hi) {u : String} (hc : ("wavelength", u, c) ∈ names) (m : Material XR)
    (ht : m.defType = "wavelength") (hu : m.defUnit = u) (hr : m.real = none) (hi' : m.imag = none)
    (hx : m.cplx = none) :
    ∃ m' r i, ds.foldlM processDataset m = .ok m' ∧ m'.metaData = m.metaData ∧
      m'.name = "nk" ∧ m'.defType = "wavelength" ∧ m'.defUnit = u ∧ m'.cplx = none ∧
      (finish m').real = some r ∧ (finish m').imag = some i ∧ BandParts "wavelength" c r i lo hi := by
  cases h with
  | n h =>
    obtain ⟨b, hb, hl⟩ := h.load_n hc
    refine ⟨{ m with name := "nk", real := some b }, b, cdata (lit 0), ?_, rfl, rfl, ht, hu, hx, rfl,
      ?_, .first _ hb⟩
    · rw [List.foldlM_cons, hl m ht hu]; rfl
    · simp [finish, hi']
  | k h =>
    obtain ⟨b, hb, hl⟩ := h.load_k hc
    refine ⟨{ m with name := "nk", imag := some b }, cdata (lit 0), b, ?_, rfl, rfl, ht, hu, hx, ?_,
      rfl, .second _ hb⟩
    · rw [List.foldlM_cons, hl m ht hu]; rfl
    · simp [finish, hr]
  | nk h =>
    obtain ⟨a, b, ha, hb, hl⟩ := h.load_nk hc
    refine ⟨{ m with name := "nk", real := some a, imag := some b }, a, b, ?_, rfl, rfl, ht, hu, hx,
      rfl, rfl, ?_⟩
    · rw [List.foldlM_cons, hl m ht hu]; rfl
    · have := BandParts.both ha hb
      rwa [max_self, min_self] at this
  | both h h' =>
    obtain ⟨a, ha, hl⟩ := h.load_n hc
    obtain ⟨b, hb, hl'⟩ := h'.load_k hc
    refine ⟨{ m with name := "nk", real := some a, imag := some b }, a, b, ?_, rfl, rfl, ht, hu, hx,
      rfl, rfl, .both ha hb⟩
    rw [List.foldlM_cons, hl m ht hu]
    simp only [bind, Except.bind]
    rw [List.foldlM_cons, hl' { m with name := "nk", real := some a } ht hu]
    rfl

omit [NumText XR] in
theorem meta_mapM {md : List (String × MetaVal)} (h : HasMeta md) :
    ∃ md', fileKeys.mapM (fun k => (do
      let v ← dictGet md k
      .ok (k, v) : Res (String × MetaVal))) = .ok md' ∧ ∀ k ∈ fileKeys, ∃ v, dictGet md' k = .ok v := by
  have : ∀ ks : List String, (∀ k ∈ ks, ∃ v, dictGet md k = .ok v) →
      ∃ md', ks.mapM (fun k => (do
        let v ← dictGet md k
        .ok (k, v) : Res (String × MetaVal))) = .ok md' ∧ ∀ k ∈ ks, ∃ v, dictGet md' k = .ok v := by
    intro ks
    induction ks with
    | nil => intro _; exact ⟨[], rfl, by simp⟩
    | cons k ks ih =>
      intro h
      obtain ⟨v, hv⟩ := h k (by simp)
      obtain ⟨l, hl, hl'⟩ := ih (fun k' hk' => h k' (by simp [hk']))
      refine ⟨(k, v) :: l, ?_, ?_⟩
      · rw [List.mapM_cons, hl, hv]
        rfl
      · intro k' hk'
        rw [dictGet]
        split
        · exact ⟨_, rfl⟩
        · rename_i hne
          rcases List.mem_cons.1 hk' with rfl | hk'
          · exact absurd rfl hne
          · exact hl' k' hk'
  exact this fileKeys h

/-- The material loaded from such a file. -/
theorem table_file_new {rd : String → Res (FileDict XR)} {p u c : String} {fd : FileDict XR}
    (hf : rd p = .ok fd) (hm : HasMeta fd.metaData) {lo hi : ℝ} (h : TableFile c fd.datasets lo hi)
    (hc : ("wavelength", u, c) ∈ names) :
    ∃ m r i, Material.new rd (rowKw p (.str "wavelength") (.str u)) = .ok m ∧ m.name = "nk" ∧
      m.defType = "wavelength" ∧ m.defUnit = u ∧ m.cplx = none ∧ m.real = some r ∧ m.imag = some i ∧
      BandParts "wavelength" c r i lo hi ∧ ∀ k ∈ fileKeys, ∃ x, metaCell m k = .ok x := by
  obtain ⟨md, h1, h2⟩ := meta_mapM hm
  obtain ⟨m, r, i, a1, a2, a3, a4, a5, a6, a7, a8, a9⟩ := h.material hc
    { blankMaterial (parsedOf (rowKw (F := XR) p (.str "wavelength") (.str u))) with
      metaData := some md } rfl rfl rfl rfl rfl
  refine ⟨finish m, r, i, ?_, a3, a4, a5, a6, a7, a8, a9, ?_⟩
  · rw [new_row, hf]
    simp only [bind, Except.bind]
    unfold processFileData
    simp only [fileKeys, bind, Except.bind] at h1
    simp only [bind, Except.bind, h1, a1]
  · intro k hk
    obtain ⟨v, hv⟩ := h2 k hk
    have : (finish m).metaData = some md := a2
    unfold metaCell
    rw [this]
    simp only [hv, bind, Except.bind]
    exact ⟨_, rfl⟩

/-! ## C87 -/

/-- The row of such a file. -/
theorem table_row {fs : FileSys XR} {ref : Spectrum XR} {dir modl file : String} {fd : FileDict XR}
    (hf : fs.read (joinPath dir file) = .ok fd) (hm : HasMeta fd.metaData) {lo hi : ℝ}
    (h : TableFile "nm" fd.datasets lo hi) {t u cr : String} (hu : (lower t, lower u, cr) ∈ names)
    {x : ℝ} (hx : 0 < x) (hs : Spectrum.new (.float (XR.fin x)) t u = .ok ref) :
    ∃ r m, textRow fs ref dir modl file = .ok r ∧
      Material.new fs.read (rowKw (joinPath dir file) (.str "wavelength") (.str "nanometer")) = .ok m ∧
      TellsOf m ref lo hi (shown "wavelength" "nm" (metres (lower t) cr x)) r := by
  obtain ⟨m, r, i, a1, a2, a3, a4, a5, a6, a7, a8, a9⟩ := table_file_new hf hm h (u := "nanometer")
    (by decide +kernel)
  have hl : lower "wavelength" = "wavelength" := by decide +kernel
  have hr := (C32_units_partial m r i "nm" lo hi a5 (.inl a2) a6 a7 (by rw [a3, a4, hl]; decide +kernel)
    (by rw [a3, hl]; decide) (by rw [a3, hl]; exact a8)).1
  rw [a3, hl, if_pos rfl] at hr
  obtain ⟨v, v1, v2, v3⟩ := a8.reference (by decide) a5 a2 a6 a7 hu hx hs
  obtain ⟨c1, e1⟩ := a9 "FullName" (by decide)
  obtain ⟨c2, e2⟩ := a9 "Author" (by decide)
  obtain ⟨c3, e3⟩ := a9 "Comment" (by decide)
  obtain ⟨c4, e4⟩ := a9 "Reference" (by decide)
  unfold textRow
  simp only [a1, e1, e2, e3, e4, hr, v1, bind, Except.bind, Vals.toList]
  refine ⟨_, m, rfl, rfl, rfl, rfl, fun hin => ⟨v, v2 hin, .of v⟩, fun hout => ?_⟩
  rw [v3 hout]
  exact ⟨rfl, rfl⟩

open Classical in
/-- C87 for folders: a folder in which every data file holds tables that name no unit can be
catalogued; there is one row for each data file, in the order of the listing, with the name of the
file, the range of its tables in nanometres, and the index at the reference point or NaN. -/
theorem C87_folder {fs : FileSys XR} {ref : Spectrum XR} {dir modl : String} {files : List String}
    (hn : fs.listdir dir = .ok files) {t u cr : String} (hu : (lower t, lower u, cr) ∈ names)
    {x : ℝ} (hx : 0 < x) (hs : Spectrum.new (.float (XR.fin x)) t u = .ok ref)
    (hf : ∀ f ∈ files, fs.isfile (joinPath dir f) = true → DataFile f → ∃ fd lo hi,
      fs.read (joinPath dir f) = .ok fd ∧ HasMeta fd.metaData ∧ TableFile "nm" fd.datasets lo hi) :
    ∃ rows, readTextDb fs ref dir modl = .ok rows ∧ List.Forall₂ (fun f r => ∃ stem fd lo hi m,
      DataName f stem ∧ fs.read (joinPath dir f) = .ok fd ∧ TableFile "nm" fd.datasets lo hi ∧
      Material.new fs.read (rowKw (joinPath dir f) (.str "wavelength") (.str "nanometer")) = .ok m ∧
      r.name = .str stem ∧ r.unit = .str "nanometer" ∧
      TellsOf m ref lo hi (shown "wavelength" "nm" (metres (lower t) cr x)) r)
      (files.filter (fun f => decide (fs.isfile (joinPath dir f) = true ∧ DataFile f))) rows := by
  have hfil : (files.filter (fun f => fs.isfile (joinPath dir f))).filter
      (fun f => allowedExt.contains (splitExt f).2) =
      files.filter (fun f => decide (fs.isfile (joinPath dir f) = true ∧ DataFile f)) := by
    rw [List.filter_filter]
    apply List.filter_congr
    intro f _
    rw [Bool.eq_iff_iff, Bool.and_eq_true, dataFile_iff, decide_eq_true_eq, and_comm]
  unfold readTextDb
  rw [hn]
  simp only [bind, Except.bind]
  rw [hfil]
  have hmem : ∀ f ∈ files.filter (fun f => decide (fs.isfile (joinPath dir f) = true ∧ DataFile f)),
      f ∈ files ∧ fs.isfile (joinPath dir f) = true ∧ DataFile f := by
    intro f hf
    obtain ⟨a, b⟩ := List.mem_filter.1 hf
    exact ⟨a, of_decide_eq_true b⟩
  clear hn hfil
  generalize files.filter (fun f => decide (fs.isfile (joinPath dir f) = true ∧ DataFile f)) = l
    at hmem
  induction l with
  | nil => exact ⟨[], rfl, .nil⟩
  | cons f l ih =>
    obtain ⟨rows, h1, h2⟩ := ih (fun g hg => hmem g (List.mem_cons_of_mem _ hg))
    obtain ⟨m1, m2, m3⟩ := hmem f (List.mem_cons_self ..)
    obtain ⟨fd, lo, hi, k1, k2, k3⟩ := hf f m1 m2 m3
    obtain ⟨r, m, r1, r2, r3⟩ := table_row (modl := modl) k1 k2 k3 hu hx hs
    refine ⟨r :: rows, ?_, .cons ?_ h2⟩
    · rw [List.mapM_cons, r1, h1]; rfl
    · obtain ⟨stem, hst⟩ := m3
      obtain ⟨m', -, -, b1, -, -, -, b2, -⟩ := textRow_spec r1
      exact ⟨stem, fd, lo, hi, m, hst, k1, k3, r2, by rw [b1, ((dataName_iff f stem).1 hst).1], b2, r3⟩

/-! ## Libraries -/

/-- The file of a page. -/
def Spec.pageFile (dir : String) (p : LibPage) : String :=
  joinPath dir (joinPath "database/data" p.data)

/-- The rows of a page: none if its file cannot be opened, and otherwise one that tells of the tables
of its file. -/
def Spec.TellsOfPage (fs : FileSys XR) (ref : Spectrum XR) (dir : String) (x : ℝ) (p : LibPage)
    (rows : List (Row XR)) : Prop :=
  (∃ e, fs.read (pageFile dir p) = .error e ∧ (e = .os ∨ e = .fileNotFound)) ∧ rows = [] ∨
  ∃ r fd lo hi m, rows = [r] ∧ fs.read (pageFile dir p) = .ok fd ∧ TableFile "um" fd.datasets lo hi ∧
    Material.new fs.read (rowKw (pageFile dir p) (.str "wavelength") (.str "micrometer")) = .ok m ∧
    r.name = .str p.book ∧ r.fullName = .str p.fullName ∧ r.author = .str p.page ∧
    r.unit = .str "micrometer" ∧ TellsOf m ref lo hi x r

omit [SciPy XR] [NumText XR] in
theorem mapM_parts {α β γ : Type} {f : α → Res (List β)} {g : α → List γ} {R : γ → List β → Prop}
    {l : List α} (h : ∀ a ∈ l, ∃ parts : List (List β), f a = .ok parts.flatten ∧
      List.Forall₂ R (g a) parts) :
    ∃ ls parts, l.mapM f = .ok ls ∧ ls.flatten = parts.flatten ∧
      List.Forall₂ R (l.flatMap g) parts := by
  induction l with
  | nil => exact ⟨[], [], rfl, rfl, .nil⟩
  | cons a l ih =>
    obtain ⟨ls, ps, h1, h2, h3⟩ := ih (fun b hb => h b (List.mem_cons_of_mem _ hb))
    obtain ⟨qs, k1, k2⟩ := h a (List.mem_cons_self ..)
    refine ⟨qs.flatten :: ls, qs ++ ps, ?_, ?_, ?_⟩
    · rw [List.mapM_cons, k1, h1]; rfl
    · rw [List.flatten_cons, h2, List.flatten_append]
    · rw [List.flatMap_cons]
      exact List.rel_append k2 h3

/-- C87 for libraries: a library whose page files cannot be opened or hold tables that name no unit
can be catalogued; there is one row for every page whose file can be opened, in order, with the range
of its tables in micrometres, and the index at the reference point or NaN. -/
theorem C87_library {fs : FileSys XR} {ref : Spectrum XR} {dir : String} {shelves : List Shelf}
    (hn : readLibrary fs dir = .ok shelves)
    (hd : fs.isdir (joinPath (joinPath dir "database") "data") = true) {t u cr : String}
    (hu : (lower t, lower u, cr) ∈ names)
    {x : ℝ} (hx : 0 < x) (hs : Spectrum.new (.float (XR.fin x)) t u = .ok ref)
    (hf : ∀ p ∈ pagesOf shelves,
      (∃ e, fs.read (pageFile dir p) = .error e ∧ (e = .os ∨ e = .fileNotFound)) ∨
      ∃ fd lo hi, fs.read (pageFile dir p) = .ok fd ∧ HasMeta fd.metaData ∧
        TableFile "um" fd.datasets lo hi) :
    ∃ rows parts, readRii fs ref dir = .ok rows ∧ rows = parts.flatten ∧ List.Forall₂
      (TellsOfPage fs ref dir (shown "wavelength" "um" (metres (lower t) cr x))) (pagesOf shelves)
      parts := by
  have hpage : ∀ (book fullName : String) (p : Page),
      (∀ q ∈ pageOf book fullName p, q ∈ pagesOf shelves) →
      ∃ parts : List (List (Row XR)), readPage fs ref dir book fullName p = .ok parts.flatten ∧
        List.Forall₂ (TellsOfPage fs ref dir (shown "wavelength" "um" (metres (lower t) cr x)))
          (pageOf book fullName p) parts := by
    intro book fullName p hp
    cases p with
    | divider => exact ⟨[], rfl, .nil⟩
    | other => exact ⟨[], rfl, .nil⟩
    | page id data =>
      have hq := hf _ (hp ⟨book, fullName, id, data⟩ (by simp [pageOf]))
      have hfold : dataFolder fs dir = .ok "database/data" := by
        unfold dataFolder; rw [if_pos hd]
      unfold readPage
      simp only [hfold, bind, Except.bind]
      rcases hq with ⟨e, he, he'⟩ | ⟨fd, lo, hi, k1, k2, k3⟩
      · refine ⟨[[]], ?_, .cons (.inl ⟨⟨e, he, he'⟩, rfl⟩) .nil⟩
        have : Material.new fs.read (rowKw (joinPath dir (joinPath "database/data" data))
            (.str "wavelength") (.str "micrometer")) = .error e := by
          rw [new_row]
          have he : fs.read (joinPath dir (joinPath "database/data" data)) = .error e := he
          rw [he]; rfl
        rw [this]
        simp only
        rw [if_pos (by rcases he' with rfl | rfl <;> rfl)]
        rfl
      · obtain ⟨m, r, i, a1, a2, a3, a4, a5, a6, a7, a8, a9⟩ := table_file_new k1 k2 k3
          (u := "micrometer") (by decide +kernel)
        have hl : lower "wavelength" = "wavelength" := by decide +kernel
        have hr := (C32_units_partial m r i "um" lo hi a5 (.inl a2) a6 a7
          (by rw [a3, a4, hl]; decide +kernel) (by rw [a3, hl]; decide) (by rw [a3, hl]; exact a8)).1
        rw [a3, hl, if_pos rfl] at hr
        obtain ⟨v, v1, v2, v3⟩ := a8.reference (by decide) a5 a2 a6 a7 hu hx hs
        obtain ⟨c3, e3⟩ := a9 "Comment" (by decide)
        obtain ⟨c4, e4⟩ := a9 "Reference" (by decide)
        have a1' : Material.new fs.read (rowKw (joinPath dir (joinPath "database/data" data))
            (.str "wavelength") (.str "micrometer")) = .ok m := a1
        rw [a1']
        have : ∃ row, pageRow ref book fullName id (joinPath "database/data" data) m = .ok row ∧
            TellsOf m ref lo hi (shown "wavelength" "um" (metres (lower t) cr x)) row := by
          unfold pageRow
          simp only [e3, e4, hr, v1, bind, Except.bind, Vals.toList]
          refine ⟨_, rfl, rfl, rfl, fun hin => ⟨v, v2 hin, .of v⟩, fun hout => ?_⟩
          rw [v3 hout]
          exact ⟨rfl, rfl⟩
        obtain ⟨row, w1, w2⟩ := this
        obtain ⟨-, b1, b2, b3, -, -, -, b4, -⟩ := pageRow_spec w1
        refine ⟨[[row]], ?_, .cons (.inr ⟨row, fd, lo, hi, m, rfl, k1, k3, a1, b1, b2, b3, b4, w2⟩)
          .nil⟩
        simp only [w1]
        rfl
  have hbook : ∀ b ∈ shelves.flatMap Shelf.books,
      ∃ parts : List (List (Row XR)), readBook fs ref dir b = .ok parts.flatten ∧
        List.Forall₂ (TellsOfPage fs ref dir (shown "wavelength" "um" (metres (lower t) cr x)))
          (pagesOfBook b) parts := by
    intro b hb
    cases b with
    | book id name pages =>
      obtain ⟨ls, parts, h1, h2, h3⟩ := mapM_parts (f := readPage fs ref dir id name)
        (g := pageOf id name) (l := pages)
        (fun p hp => hpage id name p (fun q hq => by
          unfold pagesOf
          rw [← List.flatMap_assoc]
          exact List.mem_flatMap.2 ⟨_, hb, List.mem_flatMap.2 ⟨p, hp, hq⟩⟩))
      refine ⟨parts, ?_, h3⟩
      unfold readBook
      simp only [h1, bind, Except.bind, h2]
    | _ => exact ⟨[], rfl, .nil⟩
  obtain ⟨ls, parts, h1, h2, h3⟩ := mapM_parts (f := readBook fs ref dir) (g := pagesOfBook)
    (l := shelves.flatMap Shelf.books) hbook
  refine ⟨ls.flatten, parts, ?_, h2, ?_⟩
  · unfold readRii
    simp only [hn, h1, bind, Except.bind]
  · unfold pagesOf
    rw [← List.flatMap_assoc]
    exact h3

/-! ## Catalogues -/

namespace Spec

/-- A folder in which every data file holds tables that name no unit. -/
def TableFolder (fs : FileSys XR) (dir : String) : Prop :=
  ∃ files, fs.listdir dir = .ok files ∧
    ∀ f ∈ files, fs.isfile (joinPath dir f) = true → DataFile f → ∃ fd lo hi,
      fs.read (joinPath dir f) = .ok fd ∧ HasMeta fd.metaData ∧ TableFile "nm" fd.datasets lo hi

/-- A library whose page files cannot be opened or hold tables that name no unit. -/
def TableLibrary (fs : FileSys XR) (dir : String) : Prop :=
  fs.isdir (joinPath (joinPath dir "database") "data") = true ∧
  ∃ shelves, readLibrary fs dir = .ok shelves ∧ ∀ p ∈ pagesOf shelves,
    (∃ e, fs.read (pageFile dir p) = .error e ∧ (e = .os ∨ e = .fileNotFound)) ∨
    ∃ fd lo hi, fs.read (pageFile dir p) = .ok fd ∧ HasMeta fd.metaData ∧
      TableFile "um" fd.datasets lo hi

/-- A row tells of the tables of a file, in the unit that it names; `l` is the wavelength of the
reference point in metres. -/
def TellsOfFile (fs : FileSys XR) (ref : Spectrum XR) (l : ℝ) (r : Row XR) : Prop :=
  ∃ uu c file fd lo hi m, r.unit = .str uu ∧ ("wavelength", uu, c) ∈ names ∧
    fs.read file = .ok fd ∧ TableFile c fd.datasets lo hi ∧
    Material.new fs.read (rowKw file (.str "wavelength") (.str uu)) = .ok m ∧
    TellsOf m ref lo hi (shown "wavelength" c l) r

end Spec

/-- C87 for catalogues: if the enabled modules are folders and libraries as above, `rebuild='All'`
builds a catalogue, and in every row of it lower bound, upper bound and reference values are those of
the tables of a file, in the unit of the row. -/
theorem C87_catalogue {fs : FileSys XR} {ref : Spectrum XR} {base : String}
    {ms : List (String × Bool)} (hm : GoodModules ms) (old : Frame XR) {t u cr : String}
    (hu : (lower t, lower u, cr) ∈ names)
    {x : ℝ} (hx : 0 < x) (hs : Spectrum.new (.float (XR.fin x)) t u = .ok ref)
    (hfolder : ∀ modl, (modl, true) ∈ ms → modl ≠ "RefractiveIndexInfo" →
      TableFolder fs (joinPath base modl))
    (hlib : ("RefractiveIndexInfo", true) ∈ ms →
      TableLibrary fs (joinPath base "RefractiveIndexInfo")) :
    ∃ g, buildCatalogue fs ref base ms old (.text "All") = .ok g ∧
      ∀ p ∈ g, TellsOfFile fs ref (metres (lower t) cr x) p.2 := by
  classical
  have hread : ∀ modl, (modl, true) ∈ ms → ∃ rows, readModule fs ref base modl = .ok rows ∧
      ∀ r ∈ rows, TellsOfFile fs ref (metres (lower t) cr x) r := by
    intro modl hmem
    have hmod := hm.2 _ hmem
    simp only [moduleNames, List.mem_cons, List.not_mem_nil, or_false] at hmod
    by_cases hrii : modl = "RefractiveIndexInfo"
    · subst hrii
      obtain ⟨hd, shelves, h1, h2⟩ := hlib hmem
      obtain ⟨rows, parts, k1, k2, k3⟩ := C87_library h1 hd hu hx hs h2
      refine ⟨rows, k1, fun r hr => ?_⟩
      rw [k2] at hr
      obtain ⟨part, q1, q2⟩ := List.mem_flatten.1 hr
      obtain ⟨p, -, q3⟩ := forall₂_mem_right k3 q1
      rcases q3 with ⟨-, rfl⟩ | ⟨r', fd, lo, hi, m, rfl, a1, a2, a3, -, -, -, a4, a5⟩
      · cases q2
      · rw [List.mem_singleton.1 q2]
        exact ⟨_, "um", _, fd, lo, hi, m, a4, by decide +kernel, a1, a2, a3, a5⟩
    · obtain ⟨files, h1, h2⟩ := hfolder modl hmem hrii
      obtain ⟨rows, k1, k2⟩ := C87_folder (modl := modl) h1 hu hx hs h2
      refine ⟨rows, ?_, fun r hr => ?_⟩
      · rw [readModule_user (hmod.resolve_left hrii).symm]; exact k1
      · obtain ⟨f, -, stem, fd, lo, hi, m, -, a1, a2, a3, -, a4, a5⟩ := forall₂_mem_right k2 hr
        exact ⟨_, "nm", _, fd, lo, hi, m, a4, by decide +kernel, a1, a2, a3, a5⟩
  have hbuild : ∀ l : List (String × Bool), (∀ p ∈ l, p ∈ ms) → ∃ parts,
      l.mapM (fun p => buildModule fs ref base old (.text "All") p.1 p.2) = .ok parts ∧
      ∀ r ∈ parts.flatten, TellsOfFile fs ref (metres (lower t) cr x) r := by
    intro l
    induction l with
    | nil => intro _; exact ⟨[], rfl, by simp⟩
    | cons p l ih =>
      intro hl
      obtain ⟨parts, h1, h2⟩ := ih (fun q hq => hl q (List.mem_cons_of_mem _ hq))
      have hp := hl p (List.mem_cons_self ..)
      obtain ⟨modl, en⟩ := p
      have : ∃ rows, buildModule fs ref base old (.text "All") modl en = .ok rows ∧
          ∀ r ∈ rows, TellsOfFile fs ref (metres (lower t) cr x) r := by
        cases en with
        | false =>
          refine ⟨[], ?_, by simp⟩
          have hmod := hm.2 _ hp
          simp only [moduleNames, List.mem_cons, List.not_mem_nil, or_false] at hmod
          unfold buildModule
          rw [if_neg (by decide), if_neg (by rcases hmod with rfl | rfl | rfl <;> decide)]
        | true =>
          obtain ⟨rows, k1, k2⟩ := hread modl hp
          refine ⟨rows, ?_, k2⟩
          unfold buildModule Rebuild.asks
          simp only [if_true, bind, Except.bind]
          rw [if_pos (by simp), k1]
      obtain ⟨rows, k1, k2⟩ := this
      refine ⟨rows :: parts, ?_, ?_⟩
      · rw [List.mapM_cons]
        simp only [k1, h1, bind, Except.bind, pure, Except.pure]
      · intro r hr
        rw [List.flatten_cons, List.mem_append] at hr
        rcases hr with hr | hr
        · exact k2 r hr
        · exact h2 r hr
  obtain ⟨parts, h1, h2⟩ := hbuild ms (fun _ h => h)
  refine ⟨numbered parts.flatten, ?_, ?_⟩
  · unfold buildCatalogue
    simp only [h1, bind, Except.bind]
  · intro p hp
    refine h2 p.2 ?_
    have : p.2 ∈ (numbered parts.flatten).map Prod.snd := List.mem_map_of_mem hp
    rwa [numbered_rows] at this

/-! ## A concrete case -/

/-- A file with a table of index and extinction at 400 nm, 500 nm and 700 nm. -/
noncomputable def nkFile : FileDict XR :=
  { metaData := blankFileMeta,
    datasets := [[("DataType", .str "tabulated nk"), ("Unit", .str ""),
      ("Data", .arr (.d2 3 .float ([[400, 1.5, 0], [500, 1.4, 0.1], [700, 1.3, 0.2]].map
        (·.map XR.fin))))]] }

theorem nkFile_tables : TableFile "nm" nkFile.datasets 400 700 := by
  refine .nk ⟨rfl, ⟨?_, ?_⟩, ⟨_, [[400, 1.5, 0], [500, 1.4, 0.1], [700, 1.3, 0.2]], rfl, ?_, ?_, ?_,
    ?_⟩, ?_, ?_⟩
  · intro s hs; simp at hs
  · intro s hs; simpa using hs
  · simp [strTableToNumeric, DVal.asTable, validateTable, NDArr.col, pyIdx, pure, Except.pure, bind, Except.bind]
  · simp
  · simp [abscissa]
  · exact ⟨⟨_, List.mem_cons_self .., rfl⟩, ⟨[700, 1.3, 0.2], by simp, rfl⟩, by
      simp [abscissa]; norm_num⟩
  · exact ⟨by norm_num, ⟨400 * 10 ^ 12, by norm_num⟩⟩
  · exact ⟨by norm_num, ⟨700 * 10 ^ 12, by norm_num⟩⟩

/-- A file with a table of the index at 0.5 and 2 (in the unit of the module). -/
noncomputable def nFile : FileDict XR :=
  { metaData := blankFileMeta,
    datasets := [[("DataType", .str "tabulated n"),
      ("Data", .arr (.d2 2 .float ([[0.5, 1.5], [2, 1.4]].map (·.map XR.fin))))]] }

theorem nFile_tables : TableFile "um" nFile.datasets 0.5 2 := by
  refine .n ⟨rfl, ⟨?_, ?_⟩, ⟨_, [[0.5, 1.5], [2, 1.4]], rfl, ?_, ?_, ?_, ?_⟩, ?_, ?_⟩
  · intro s hs; simp at hs
  · intro s hs; simp at hs
  · simp [strTableToNumeric, DVal.asTable, validateTable, NDArr.col, pyIdx, pure, Except.pure, bind,
      Except.bind]
  · simp
  · simp [abscissa]; norm_num
  · exact ⟨⟨_, List.mem_cons_self .., rfl⟩, ⟨[2, 1.4], by simp, rfl⟩, by
      simp [abscissa]; norm_num⟩
  · exact ⟨by norm_num, ⟨5 * 10 ^ 8, by norm_num⟩⟩
  · exact ⟨by norm_num, ⟨2 * 10 ^ 9, by norm_num⟩⟩

/-- User data of two files, one of them no data file, and a library of two pages, one of which
has no file. -/
noncomputable def tableFs : FileSys XR where
  listdir _ := .ok ["a.txt", "notes.md"]
  isfile _ := true
  isdir _ := true
  read p := if p = "/cat/UserData/a.txt" then .ok nkFile
    else if p = "/cat/RefractiveIndexInfo/database/data/b.yml" then .ok nFile
    else .error .fileNotFound
  library _ := .ok [⟨[.book "B" "Bismuth" [.divider, .page "P" "b.yml", .page "Q" "c.yml"]]⟩]

omit [SciPy XR] [NumText XR] in
theorem blank_hasMeta : HasMeta blankFileMeta := by
  intro k hk
  simp only [fileKeys, List.mem_cons, List.not_mem_nil, or_false] at hk
  rcases hk with rfl | rfl | rfl | rfl | rfl | rfl | rfl <;> exact ⟨_, rfl⟩

/-- Concrete case for `C87_catalogue`, `C87_folder` and `C87_library`, with the reference point of
the default configuration. -/
example : ∃ ref, Spectrum.new (.float (XR.fin 632.8)) "wavelength" "nanometer" = .ok ref ∧
    GoodModules [("UserData", true), ("RefractiveIndexInfo", true), ("Filmetrics", false)] ∧
    TableFolder tableFs (joinPath "/cat" "UserData") ∧
    TableLibrary tableFs (joinPath "/cat" "RefractiveIndexInfo") := by
  refine ⟨_, new_scalar (c := "nm") (by decide +kernel) _, ⟨by decide, by decide⟩, ?_, rfl, ?_⟩
  · refine ⟨_, rfl, ?_⟩
    intro f hf _ hd
    simp only [List.mem_cons, List.not_mem_nil, or_false] at hf
    rcases hf with rfl | rfl
    · exact ⟨nkFile, 400, 700, by
        rw [show joinPath (joinPath "/cat" "UserData") "a.txt" = "/cat/UserData/a.txt" by decide +kernel]
        rfl, blank_hasMeta, nkFile_tables⟩
    · exfalso
      have := (dataFile_iff "notes.md").2 hd
      revert this
      decide +kernel
  · refine ⟨_, rfl, ?_⟩
    intro p hp
    have hp' : p = ⟨"B", "Bismuth", "P", "b.yml"⟩ ∨ p = ⟨"B", "Bismuth", "Q", "c.yml"⟩ := by
      simpa [pagesOf, pagesOfBook, pageOf] using hp
    rcases hp' with rfl | rfl
    · right
      refine ⟨nFile, 0.5, 2, ?_, blank_hasMeta, nFile_tables⟩
      rw [pageFile, show joinPath (joinPath "/cat" "RefractiveIndexInfo") (joinPath "database/data"
        "b.yml") = "/cat/RefractiveIndexInfo/database/data/b.yml" by decide +kernel]
      rfl
    · left
      refine ⟨.fileNotFound, ?_, .inr rfl⟩
      rw [pageFile, show joinPath (joinPath "/cat" "RefractiveIndexInfo") (joinPath "database/data"
        "c.yml") = "/cat/RefractiveIndexInfo/database/data/c.yml" by decide +kernel]
      rfl

/-- Concrete case for `C61_built_partial` and `C60_built_files_partial`: in that catalogue the row of
the file says 400 and 700, in nanometres. -/
example : ∃ ref g, Spectrum.new (.float (XR.fin 632.8)) "wavelength" "nanometer" = .ok ref ∧
    buildCatalogue tableFs ref "/cat" [("UserData", true)] [] (.text "All") = .ok g ∧
    StatesNoUnit nkFile ∧ ∃ r, rowsOfModule g "UserData" = [r] ∧ r.lower = XR.fin 400 ∧
      r.upper = XR.fin 700 ∧ r.unit = .str "nanometer" := by
  have hs := new_scalar (F := XR) (t := "wavelength") (u := "nanometer") (c := "nm")
    (by decide +kernel) (XR.fin 632.8)
  have hread : tableFs.read (joinPath (joinPath "/cat" "UserData") "a.txt") = .ok nkFile := by
    rw [show joinPath (joinPath "/cat" "UserData") "a.txt" = "/cat/UserData/a.txt" by decide +kernel]
    rfl
  obtain ⟨r, m, r1, -, r2, r3, -⟩ := table_row (modl := "UserData") hread blank_hasMeta nkFile_tables
    (cr := "nm") (by decide +kernel) (by norm_num) hs
  obtain ⟨-, -, -, -, -, h1, -, h2, -⟩ := textRow_spec r1
  refine ⟨_, [(0, r)], hs, ?_, ?_, r, ?_, r2, r3, h2⟩
  · have hdb : readTextDb tableFs (Spectrum.mk (Vals.scalar (XR.fin 632.8)) (lower "wavelength") "nm"
        (Vals.scalar (fromElem safeInverseScalar (lower "wavelength") "nm" (XR.fin 632.8)))) (joinPath "/cat" "UserData") "UserData" = .ok [r] := by
      unfold readTextDb
      rw [show tableFs.listdir (joinPath "/cat" "UserData") = .ok ["a.txt", "notes.md"] from rfl]
      simp only [bind, Except.bind]
      have : ((["a.txt", "notes.md"] : List String).filter (fun f => tableFs.isfile (joinPath (joinPath
          "/cat" "UserData") f))).filter (fun f => allowedExt.contains (splitExt f).2) = ["a.txt"] := by
        have h1 : (["a.txt", "notes.md"] : List String).filter
            (fun f => tableFs.isfile (joinPath (joinPath "/cat" "UserData") f)) =
              ["a.txt", "notes.md"] := rfl
        rw [h1]
        decide +kernel
      rw [this, List.mapM_cons, r1]
      rfl
    have : buildModule tableFs (Spectrum.mk (Vals.scalar (XR.fin 632.8)) (lower "wavelength") "nm"
        (Vals.scalar (fromElem safeInverseScalar (lower "wavelength") "nm" (XR.fin 632.8)))) "/cat" [] (.text "All") "UserData" true = .ok [r] := by
      unfold buildModule Rebuild.asks
      simp only [if_true, bind, Except.bind]
      rw [if_pos (by simp), readModule_user (.inl rfl), hdb]
    unfold buildCatalogue
    simp only [List.mapM_cons, List.mapM_nil, this, bind, Except.bind, pure, Except.pure]
    rfl
  · intro d hd
    rw [show nkFile.datasets = [_] from rfl, List.mem_singleton] at hd
    subst hd
    exact ⟨by intro s hs; simp at hs, by intro s hs; simpa using hs⟩
  · simp [rowsOfModule, h1]

end files

end Disp

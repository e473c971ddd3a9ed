import Verif.Props.CatalogueBuilt
/-!
# C59, C61: bounds of rows, and a catalogue of one file
-/

namespace Disp

/-! ## Specification -/

namespace Spec

/-- `lo` and `hi` (in metres) are the ends of the range that two parts with the limits `vs` and
`ws` (in metres) have in common. -/
def Ends (vs ws : List XR) (lo hi : XR) : Prop :=
  ∀ y : ℝ, (PyFloat.le lo (XR.fin y) = true ∧ PyFloat.le (XR.fin y) hi = true) ↔
    Within vs [XR.fin y] ∧ Within ws [XR.fin y]

/-- `y` is the length `l` (in metres) in the unit `c`, rounded as conversions round. -/
def Shows (c : String) : XR → XR → Prop
  | .fin l, y => ∃ v, y = .fin v ∧ Rounded (decimals "wavelength" c) v (ofMetres "wavelength" c l)
  | .pinf, y => y = .pinf
  | _, _ => False

end Spec

open Spec

section bounds

variable [SciPy XR]

omit [SciPy XR] in
theorem within_one {vs : List XR} {y : XR} : Within vs [y] ↔
    (∃ a ∈ vs, PyFloat.le a y = true) ∧ (∃ a ∈ vs, PyFloat.le y a = true) := by
  simp [Within]

/-- The range in metres of two parts. -/
theorem rangeArray_ends {m : Material XR} {r i : RealData XR} {vs ws : List XR}
    (hc : m.cplx = none) (hr : m.real = some r)
    (hi : m.imag = some i) (hrr : r.range.std = .array .float vs)
    (hir : i.range.std = .array .float ws)
    (hv : vs ≠ []) (hw : ws ≠ []) (nv : NoNaN vs) (nw : NoNaN ws) :
    ∃ lo hi, m.rangeArray = .ok (.float, lo, hi) ∧ (lo ∈ vs ∨ lo ∈ ws) ∧ (hi ∈ vs ∨ hi ∈ ws) ∧
      Ends vs ws lo hi := by
  obtain ⟨rl, r1, r2, r3⟩ := npMin_spec (.array .float vs) hv nv
  obtain ⟨ru, s1, s2, s3⟩ := npMax_spec (.array .float vs) hv nv
  obtain ⟨il, i1, i2, i3⟩ := npMin_spec (.array .float ws) hw nw
  obtain ⟨iu, j1, j2, j3⟩ := npMax_spec (.array .float ws) hw nw
  have nrl := nv rl r2; have nru := nv ru s2; have nil' := nw il i2; have niu := nw iu j2
  obtain ⟨lo, l1, l2, l3⟩ := npMax_spec (.array .float [rl, il]) (by simp [Vals.toList])
    (by intro x hx
        simp only [Vals.toList, List.mem_cons, List.not_mem_nil, or_false] at hx
        rcases hx with rfl | rfl <;> assumption)
  obtain ⟨hi', h1, h2, h3⟩ := npMin_spec (.array .float [ru, iu]) (by simp [Vals.toList])
    (by intro x hx
        simp only [Vals.toList, List.mem_cons, List.not_mem_nil, or_false] at hx
        rcases hx with rfl | rfl <;> assumption)
  simp only [Vals.toList, List.mem_cons, List.not_mem_nil, or_false] at l2 l3 h2 h3
  have nlo : PyFloat.isNaN lo = false := by rcases l2 with rfl | rfl <;> assumption
  have nhi : PyFloat.isNaN hi' = false := by rcases h2 with rfl | rfl <;> assumption
  refine ⟨lo, hi', ?_, ?_, ?_, ?_⟩
  · unfold Material.rangeArray
    rw [hc, hr, hi]
    simp only [bind, Except.bind, hrr, hir, r1, s1, i1, j1, Vals.dtype, DType.join, l1, h1]
  · rcases l2 with rfl | rfl
    · exact .inl r2
    · exact .inr i2
  · rcases h2 with rfl | rfl
    · exact .inl s2
    · exact .inr j2
  · intro y
    rw [within_one, within_one]
    have key : ∀ {p q : XR}, PyFloat.isNaN p = false → PyFloat.isNaN q = false →
        (PyFloat.le p q = true ↔ PyFloat.lt q p = false) := by
      intro p q hp hq
      rw [LawfulCmp.le_eq_not_lt _ _ hp hq]; simp
    constructor
    · rintro ⟨b1, b2⟩
      exact ⟨⟨⟨rl, r2, le_trans' ((key nrl nlo).2 (l3 rl (.inl rfl))) b1⟩,
        ⟨ru, s2, le_trans' b2 ((key nhi nru).2 (h3 ru (.inl rfl)))⟩⟩,
        ⟨il, i2, le_trans' ((key nil' nlo).2 (l3 il (.inr rfl))) b1⟩,
        ⟨iu, j2, le_trans' b2 ((key nhi niu).2 (h3 iu (.inr rfl)))⟩⟩
    · rintro ⟨⟨⟨a, ha, a'⟩, ⟨b, hb, b'⟩⟩, ⟨c, hc', c'⟩, d, hd, d'⟩
      constructor
      · rcases l2 with rfl | rfl
        · exact le_trans' ((key nrl (nv a ha)).2 (r3 a ha)) a'
        · exact le_trans' ((key nil' (nw c hc')).2 (i3 c hc')) c'
      · rcases h2 with rfl | rfl
        · exact le_trans' b' ((key (nv b hb) nru).2 (s3 b hb))
        · exact le_trans' d' ((key (nw d hd) niu).2 (j3 d hd))

omit [SciPy XR] in
theorem shows_toElem {inv : XR → XR} (hi : GoodInv inv) {c : String} (hp : ("wavelength", c) ∈ pairs) {l : XR}
    (hl : NonNeg l) : Shows c l (toElem inv "wavelength" c l) := by
  cases l with
  | nan => cases hl
  | ninf => cases hl
  | pinf =>
    show toElem inv "wavelength" c XR.pinf = XR.pinf
    rw [(toElem_swap hi hp).2, if_pos rfl]
  | fin x =>
    have hx : 0 ≤ x := hl
    rcases hx.eq_or_lt with rfl | hx
    · refine ⟨0, ?_, ?_⟩
      · rw [(toElem_swap hi hp).1, if_pos rfl]
      · have : ofMetres "wavelength" c 0 = 0 := by simp [ofMetres]
        rw [this]
        cases decimals "wavelength" c with
        | none => rfl
        | some d => exact ⟨⟨0, by simp⟩, by simp; positivity⟩
    · exact ⟨_, toElem_fin hp hx (by decide) (fun h => absurd rfl h), rounded_match _ _⟩

/-- C61 for rows whose type and unit are the defaults of the material (files that state no other
unit), and materials of two real parts: the bounds are the ends of the common range of the parts
in the unit of the row, the lower bound first. Missing: files that state their own type or unit,
for which it is false (`C61_refuted`), and materials with a complex model. -/
theorem C61_bounds_partial {m : Material XR} {r i : RealData XR} {vs ws : List XR} {row : Row XR}
    (hb : BoundsOf m row) (hc : m.cplx = none) (hr : m.real = some r) (hi : m.imag = some i)
    (hrr : r.range.std = .array .float vs) (hir : i.range.std = .array .float ws)
    (hv : vs ≠ []) (hw : ws ≠ []) (nv : ∀ v ∈ vs, NonNeg v) (nw : ∀ w ∈ ws, NonNeg w)
    (ht : m.defType = "wavelength") (hru : row.unit = .str m.defUnit) :
    ∃ u c lo hi, row.unit = .str u ∧ ("wavelength", u, c) ∈ names ∧ Ends vs ws lo hi ∧
      Shows c lo row.lower ∧ Shows c hi row.upper ∧
      (PyFloat.le lo hi = true → PyFloat.le row.lower row.upper = true) := by
  obtain ⟨lo, hi', h1, h2, h3, h4⟩ := rangeArray_ends hc hr hi hrr hir hv hw
    (fun x hx => (nv x hx).not_nan) (fun x hx => (nw x hx).not_nan)
  have nlo : NonNeg lo := by rcases h2 with h | h; exacts [nv _ h, nw _ h]
  have nhi : NonNeg hi' := by rcases h3 with h | h; exacts [nv _ h, nw _ h]
  obtain ⟨v, rest, hm, hl⟩ := hb
  unfold Material.maxRange at hm
  split at hm
  · cases hm
  · rw [h1] at hm
    simp only [bind, Except.bind] at hm
    rw [metreSpectrum_new'] at hm
    simp only [ht] at hm
    rw [Spectrum.convertTo_eq, show lower "wavelength" = "wavelength" by decide +kernel] at hm
    cases hs : specLookup "wavelength" m.defUnit with
    | error e => rw [hs] at hm; cases hm
    | ok c =>
    have hu := specLookup_ok_iff.1 hs
    have hp : ("wavelength", c) ∈ pairs := names_pairs _ hu
    rw [hs] at hm
    simp only [metreSpectrum] at hm
    rw [convertVals_array hp] at hm
    have hv : v = .array .float [toElem safeInverseElem "wavelength" c lo,
        toElem safeInverseElem "wavelength" c hi'] := by
      have := Except.ok.inj hm
      rw [← this]; rfl
    subst hv
    simp only [Vals.toList, List.cons.injEq] at hl
    obtain ⟨e1, e2, -⟩ := hl
    refine ⟨m.defUnit, c, lo, hi', hru, hu, h4, e1 ▸ shows_toElem goodInv_elem hp nlo, e2 ▸ shows_toElem goodInv_elem hp nhi, fun hle => ?_⟩
    have := toElem_order goodInv_elem "wavelength" c hp nlo nhi hle
    rw [if_pos rfl] at this
    rw [← e1, ← e2]
    exact this

end bounds

/-! ## A folder of one file -/

section demo

variable [SciPy XR] [NumText XR]

/-- A folder with the file `a.txt` of an index and an extinction table from 1 m to 4 m, with a unit
of its own. -/
noncomputable def demoFs : FileSys XR where
  listdir _ := .ok ["a.txt"]
  isfile _ := true
  isdir _ := false
  read _ := .ok { metaData := blankFileMeta, datasets :=
    [lineDs "tabulated n" 1 4 1.5 1.6, lineDs "tabulated k" 1 4 0 1] }
  library _ := .error .os

/-- The reference point 2 m. -/
noncomputable def demoRef : Spectrum XR :=
  { values := .scalar (XR.fin 2), stype := "wavelength", unit := "m", std := .scalar (XR.fin 2) }

omit [SciPy XR] [NumText XR] in
theorem demoRef_new : Spectrum.new (.float (XR.fin 2)) "wavelength" "m" = .ok demoRef := by
  have hl : lower "wavelength" = "wavelength" := by decide +kernel
  rw [new_scalar (c := "m") (by decide +kernel), hl]
  simp [demoRef, fromElem]

/-- The arguments that the catalogue gives are the defaults. -/
theorem new_row_file (rd : String → Res (FileDict XR)) (p : String) {fd : FileDict XR}
    (h : rd p = .ok fd) :
    Material.new rd (rowKw p (.str "wavelength") (.str "nanometer")) =
      Material.new (fun _ => .ok fd) (fileKw XR "file") := by
  rw [new_row, new_file_eq, h]
  simp only [bind, Except.bind]
  have : blankMaterial (parsedOf (rowKw (F := XR) p (.str "wavelength") (.str "nanometer"))) =
      blankMaterial (parsedOf (fileKw XR "file")) := rfl
  rw [this]
  cases processFileData (blankMaterial (parsedOf (fileKw XR "file"))) fd <;> rfl

/-- The material in the file. -/
noncomputable def demoMaterial : Material XR :=
  { metaData := some blankFileMeta, name := "nk", real := some (lineData 1 4 1.5 1.6),
    imag := some (lineData 1 4 0 1), cplx := none, interpOrder := .int 1, defType := "wavelength",
    defUnit := "m" }

theorem demo_new (p : String) :
    Material.new demoFs.read (rowKw p (.str "wavelength") (.str "nanometer")) = .ok demoMaterial := by
  rw [new_row]
  simp only [demoFs, bind, Except.bind]
  have : ∀ m : Material XR, processFileData m { metaData := blankFileMeta, datasets :=
      [lineDs "tabulated n" 1 4 1.5 1.6, lineDs "tabulated k" 1 4 0 1] } =
      [lineDs "tabulated n" 1 4 1.5 1.6, lineDs "tabulated k" 1 4 0 1].foldlM processDataset
        { m with metaData := some blankFileMeta } := fun m => rfl
  rw [this]
  simp only [List.foldlM_cons, List.foldlM_nil, lineDs_n (show (1 : ℝ) < 4 by norm_num),
    lineDs_k (show (1 : ℝ) < 4 by norm_num), bind, Except.bind, pure, Except.pure]
  rfl

theorem demo_range : ∃ r, demoMaterial.maxRange = .ok r ∧
    r = .array .float [XR.fin 1, XR.fin 4] := by
  obtain ⟨lo, hi, h1, n1, n2, h2⟩ := maxRange_metres (m := demoMaterial)
    (r := lineData 1 4 1.5 1.6) (i := lineData 1 4 0 1) rfl (.inl rfl) rfl rfl
    (lineData_part (show (1 : ℝ) < 4 by norm_num)).spec.1
    (lineData_part (show (1 : ℝ) < 4 by norm_num)).spec.1 (by simp) (by simp)
    (lineData_part (a := 1) (b := 4) (ya := 0) (yb := 1) (by norm_num)).spec.2.2.1
    (lineData_part (a := 1) (b := 4) (ya := 0) (yb := 1) (by norm_num)).spec.2.2.1 rfl rfl
  refine ⟨_, h1, ?_⟩
  have key : ∀ y : XR, PyFloat.isNaN y = false →
      ((PyFloat.le lo y = true ∧ PyFloat.le y hi = true) ↔
        PyFloat.le (XR.fin 1) y = true ∧ PyFloat.le y (XR.fin 4) = true) := by
    intro y hy
    rw [h2 y hy]
    simp only [List.mem_cons, List.not_mem_nil, or_false, exists_eq_or_imp, exists_eq_left]
    constructor
    · rintro ⟨a, b, -, -⟩
      have h14 : PyFloat.le (XR.fin 1) (XR.fin 4) = true := by simp
      constructor
      · rcases a with a | a
        · exact a
        · exact le_trans' h14 a
      · rcases b with b | b
        · exact le_trans' b h14
        · exact b
    · rintro ⟨a, b⟩
      exact ⟨.inl a, .inr b, .inl a, .inr b⟩
  obtain ⟨a1, a2⟩ := (key (XR.fin 1) rfl).2 ⟨by simp, by simp⟩
  obtain ⟨b1, b2⟩ := (key (XR.fin 4) rfl).2 ⟨by simp, by simp⟩
  cases lo with
  | nan => cases n1
  | pinf => cases a1
  | ninf =>
    have := (key (XR.fin 0) rfl).1 ⟨rfl, le_trans' (y := XR.fin 1) (by simp) a2⟩
    simp at this
    norm_num at this
  | fin l =>
    cases hi with
    | nan => cases n2
    | ninf => cases b2
    | pinf =>
      have := (key (XR.fin 5) rfl).1 ⟨le_trans' b1 (by simp; norm_num), rfl⟩
      simp at this
      norm_num at this
    | fin u =>
      simp only [XR.le_fin, decide_eq_true_eq] at a1 a2 b1 b2
      have k1 := (key (XR.fin l) rfl).1 ⟨by simp, by simp; linarith⟩
      have k2 := (key (XR.fin u) rfl).1 ⟨by simp; linarith, by simp⟩
      simp only [XR.le_fin, decide_eq_true_eq] at k1 k2
      have e1 : l = 1 := by linarith [k1.1]
      have e2 : u = 4 := by linarith [k2.2]
      rw [e1, e2]

/-- The row of the file. -/
theorem demo_row (modl : String) : ∃ r, textRow demoFs demoRef (joinPath "/cat" modl) modl "a.txt" =
    .ok r ∧ r.lower = XR.fin 1 ∧ r.upper = XR.fin 4 ∧ r.path = .str "a.txt" ∧
    r.modl = .str modl := by
  obtain ⟨rg, hr, rfl⟩ := demo_range
  have hw : Within [XR.fin 1, XR.fin 4] ([(2 : ℝ)].map XR.fin) := by
    simp [Within]; norm_num
  obtain ⟨v, hv⟩ := (stored_within (m := demoMaterial) rfl rfl rfl
    (lineData_part (a := 1) (b := 4) (ya := 1.5) (yb := 1.6) (by norm_num))
    (lineData_part (a := 1) (b := 4) (ya := 0) (yb := 1) (by norm_num))
    (aligned_new (raw := .float (XR.fin 2)) trivial demoRef_new) (s := demoRef) (ys := [2])
    ⟨by simp, .inl ⟨2, rfl, rfl⟩⟩).2 ⟨hw, hw⟩
  have hnk : (demoMaterial.getNk demoRef).1 = .ok v := by
    rw [getNk_fresh demoMaterial ⟨_, _, _, demoRef_new⟩ (.inl rfl), hv]
    rfl
  have href : refIndex demoMaterial demoRef = .ok v := by
    unfold refIndex; rw [hnk]
  have hmeta : ∀ k ∈ ["FullName", "Author", "Comment", "Reference"],
      metaCell (F := XR) demoMaterial k = .ok (.str "") := by
    intro k hk
    simp only [List.mem_cons, List.not_mem_nil, or_false] at hk
    rcases hk with rfl | rfl | rfl | rfl <;> rfl
  unfold textRow
  rw [demo_new]
  simp only [bind, Except.bind, hmeta _ (show "FullName" ∈ _ by simp),
    hmeta _ (show "Author" ∈ _ by simp), hmeta _ (show "Comment" ∈ _ by simp),
    hmeta _ (show "Reference" ∈ _ by simp), hr, href, Vals.toList]
  refine ⟨_, rfl, rfl, rfl, ?_, rfl⟩
  show Cell.str (normPath "a.txt") = Cell.str "a.txt"
  rw [show normPath "a.txt" = "a.txt" by decide +kernel]

theorem demo_textDb : ∃ r, readTextDb demoFs demoRef (joinPath "/cat" "UserData") "UserData" =
    .ok [r] ∧ r.lower = XR.fin 1 ∧ r.upper = XR.fin 4 ∧ r.path = .str "a.txt" ∧
    r.modl = .str "UserData" := by
  obtain ⟨r, h, h'⟩ := demo_row "UserData"
  refine ⟨r, ?_, h'⟩
  have : ∀ x : String, (demoFs.listdir x) = .ok ["a.txt"] := fun _ => rfl
  unfold readTextDb
  rw [this]
  simp only [bind, Except.bind]
  have : ((["a.txt"] : List String).filter (fun f => demoFs.isfile (joinPath (joinPath "/cat" "UserData") f))).filter
      (fun f => allowedExt.contains (splitExt f).2) = ["a.txt"] := by
    have h1 : (["a.txt"] : List String).filter
        (fun f => demoFs.isfile (joinPath (joinPath "/cat" "UserData") f)) = ["a.txt"] := rfl
    rw [h1]
    decide +kernel
  rw [this, List.mapM_cons, h]
  rfl

theorem demo_build (old : Frame XR) : ∃ r, buildCatalogue demoFs demoRef "/cat"
    [("UserData", true)] old (.text "All") = .ok [(0, r)] ∧ r.path = .str "a.txt" ∧
    r.modl = .str "UserData" ∧ r.al = .str "" := by
  obtain ⟨r, h, -, -, h1, h2⟩ := demo_textDb
  refine ⟨r, ?_, h1, h2, (readTextDb_cells h r (by simp)).1⟩
  unfold buildCatalogue
  have : buildModule demoFs demoRef "/cat" old (.text "All") "UserData" true = .ok [r] := by
    unfold buildModule Rebuild.asks readModule
    simp only [if_true, bind, Except.bind]
    rw [if_pos (by simp), if_neg (by decide), if_neg (by decide), h]
  simp only [List.mapM_cons, List.mapM_nil, this, bind, Except.bind, pure, Except.pure]
  rfl

end demo

/-! ## C59 -/

/-- C59 (full statement, refuted below): rows of files that were in the catalogue before keep
their aliases. -/
def C59_statement (F : Type) [PyFloat F] [SciPy F] [NumText F] : Prop :=
  ∀ (fs : FileSys F) (ref : Spectrum F) (base : String) (ms : List (String × Bool))
    (old g : Frame F) (rb : Rebuild), GoodModules ms → Proper rb →
    buildCatalogue fs ref base ms old rb = .ok g → ∀ p ∈ old, ∀ a, p.2.al = .str a → a ≠ "" →
    ∀ q ∈ g, q.2.modl = p.2.modl → q.2.path = p.2.path → q.2.al = .str a

/-- C59 is false: a catalogue is built, its row gets an alias, and rebuilding removes it. -/
theorem C59_refuted [SciPy XR] [NumText XR] : ¬ C59_statement XR := by
  intro h
  obtain ⟨r, h1, p1, m1, a1⟩ := demo_build []
  have hreg : registerAlias [((0 : Int), r)] (.int 0) "x" = .ok [((0 : Int), { r with al := .str "x" })] := by
    simp [registerAlias, inUse, a1, setAt, setAlias]
  obtain ⟨r', h2, p2, m2, a2⟩ := demo_build [((0 : Int), { r with al := .str "x" })]
  have := h demoFs demoRef "/cat" [("UserData", true)] [((0 : Int), { r with al := .str "x" })]
    [(0, r')] (.text "All") ⟨by simp, by decide⟩ (.inl rfl) h2 (0, { r with al := .str "x" })
    (by simp) "x" rfl (by decide) (0, r') (by simp) (by rw [m2, ← m1]) (by rw [p2, ← p1])
  rw [show ((0 : Int), r').2.al = r'.al from rfl, a2] at this
  exact absurd this (by decide)

/-! ## C61 -/

/-- C61 (full statement, refuted below), for rows of data files and materials of two real parts:
the bounds are the ends of the common range in the unit of the row, which is the nanometre. -/
def C61_statement [SciPy XR] [NumText XR] : Prop :=
  ∀ (fs : FileSys XR) (ref : Spectrum XR) (dir modl file : String) (row : Row XR) (m : Material XR)
    (r i : RealData XR) (vs ws : List XR), textRow fs ref dir modl file = .ok row →
    Material.new fs.read (rowKw (joinPath dir file) (.str "wavelength") (.str "nanometer")) = .ok m →
    m.cplx = none → m.real = some r → m.imag = some i → r.range.std = .array .float vs →
    i.range.std = .array .float ws → vs ≠ [] → ws ≠ [] → (∀ v ∈ vs, NonNeg v) →
    (∀ w ∈ ws, NonNeg w) →
    ∃ lo hi, Ends vs ws lo hi ∧ Shows "nm" lo row.lower ∧ Shows "nm" hi row.upper

/-- C61 is false: the row of a file that states its own unit (metres, here) has the numbers of
that unit, and says nanometer. -/
theorem C61_refuted [SciPy XR] [NumText XR] : ¬ C61_statement := by
  intro h
  obtain ⟨row, hrow, h1, h4, -⟩ := demo_row "UserData"
  have hr1 := (lineData_part (a := 1) (b := 4) (ya := 1.5) (yb := 1.6) (by norm_num)).spec.1
  have hr2 := (lineData_part (a := 1) (b := 4) (ya := 0) (yb := 1) (by norm_num)).spec.1
  have hnn : ∀ v ∈ [XR.fin 1, XR.fin 4], NonNeg v := by
    intro v hv
    simp only [List.mem_cons, List.not_mem_nil, or_false] at hv
    rcases hv with rfl | rfl <;> simp [NonNeg]
  obtain ⟨lo, hi, he, hlo, hhi⟩ := h demoFs demoRef _ "UserData" "a.txt" row demoMaterial _ _
    [XR.fin 1, XR.fin 4] [XR.fin 1, XR.fin 4] hrow (demo_new _) rfl rfl rfl
    (by rw [hr1]; rfl) (by rw [hr2]; rfl) (by simp) (by simp) hnn hnn
  have hw : ∀ y : ℝ, Within [XR.fin 1, XR.fin 4] [XR.fin y] ↔ 1 ≤ y ∧ y ≤ 4 := by
    intro y
    rw [within_one]
    simp only [List.mem_cons, List.not_mem_nil, or_false, exists_eq_or_imp, exists_eq_left,
      XR.le_fin, decide_eq_true_eq]
    constructor
    · rintro ⟨a | a, b | b⟩ <;> constructor <;> linarith
    · rintro ⟨a, b⟩; exact ⟨.inl a, .inr b⟩
  rw [h1] at hlo
  have hin := (he 1).2 ⟨(hw 1).2 ⟨le_refl _, by norm_num⟩, (hw 1).2 ⟨le_refl _, by norm_num⟩⟩
  cases lo with
  | nan => cases hlo
  | ninf => cases hlo
  | pinf => cases hlo
  | fin l =>
    obtain ⟨v, hv, hr⟩ := hlo
    have hv1 : v = 1 := (XR.fin.inj hv).symm
    subst hv1
    simp only [decimals, String.reduceEq, if_false, if_true, Rounded, ofMetres, lengthUnit] at hr
    obtain ⟨-, hr⟩ := hr
    rw [abs_le] at hr
    have hl : l ≤ 1 / 2 := by
      have := hr.1
      have e : l / (1 / 10 ^ 9) = l * 10 ^ 9 := by field_simp
      rw [e] at this
      norm_num at this
      linarith
    have := (he (1 / 2)).1 ⟨by simpa using hl, le_trans' (by simp; norm_num) hin.2⟩
    have := (hw _).1 this.1
    norm_num at this

/-! ## Concrete cases -/

section cases

variable [SciPy XR] [NumText XR]

/-- The range from 400 nm to 700 nm. -/
noncomputable def visible : Spectrum XR :=
  { values := .array .float [XR.fin 400, XR.fin 700], stype := "wavelength", unit := "nm",
    std := .array .float [XR.fin (400 / 10 ^ 9), XR.fin (700 / 10 ^ 9)] }

omit [SciPy XR] [NumText XR] in
theorem visible_new : Spectrum.new (.list .float [XR.fin 400, XR.fin 700]) "wavelength" "nanometer" =
    .ok visible := by
  have hl : lower "wavelength" = "wavelength" := by decide +kernel
  rw [new_list (c := "nm") (by decide +kernel), hl]
  have h : ∀ x : ℝ, 0 < x → fromElem safeInverseElem "wavelength" "nm" (XR.fin x) =
      XR.fin (x / 10 ^ 9) := by
    intro x hx
    rw [fromElem_fin (by decide +kernel) hx (fun h => absurd rfl h)]
    simp [metres, lengthUnit]
    field_simp
  simp only [List.map_cons, List.map_nil, h 400 (by norm_num), h 700 (by norm_num)]
  rfl

/-- An extinction table from 400 nm to 700 nm. -/
noncomputable def visibleData : RealData XR :=
  .interp 1 (xrows [(400, 0), (700, 1)]) visible "wavelength" "nanometer"

omit [NumText XR] in
theorem visibleData_new : RealData.newInterp .float (xrows [(400, 0), (700, 1)]) "wavelength"
    "nanometer" 1 = .ok visibleData := by
  have hab : (400 : ℝ) < 700 := by norm_num
  have h1 : npMin (Vals.array DType.float [XR.fin 400, XR.fin 700]) = .ok (XR.fin 400) := by
    simp [npMin, Vals.toList, npMinList, hab.le]
  have h2 : npMax (Vals.array DType.float [XR.fin 400, XR.fin 700]) = .ok (XR.fin 700) := by
    simp [npMax, Vals.toList, npMaxList, hab]
  have h3 : interpInit 1 (xrows [(400, 0), (700, 1)]) = .ok () := by
    simp only [interpInit, sort_two hab, noDuplicates]
    simp [xrows, hab]
  unfold RealData.newInterp
  rw [h3]
  simp only [xrows, List.map_cons, List.map_nil, h1, h2, visible_new, bind, Except.bind]
  rfl

/-- Concrete case for `C61_bounds_partial`: a file with an extinction table from 400 nm to 700 nm
that states no unit. -/
example : ∃ (rd : String → Res (FileDict XR)) (m : Material XR) (r i : RealData XR) (vs ws : List XR),
    Material.new rd (rowKw "/cat/UserData/a.txt" (.str "wavelength") (.str "nanometer")) = .ok m ∧
    m.cplx = none ∧ m.real = some r ∧ m.imag = some i ∧ r.range.std = .array .float vs ∧
    i.range.std = .array .float ws ∧ vs ≠ [] ∧ ws ≠ [] ∧ (∀ v ∈ vs, NonNeg v) ∧
    (∀ w ∈ ws, NonNeg w) ∧ m.defType = "wavelength" ∧ m.defUnit = "nanometer" ∧
    m.name = "nk" := by
  refine ⟨fun _ => .ok { metaData := blankFileMeta, datasets := [bareDs "tabulated k" 400 700 0 1] },
    finish { metaData := some blankFileMeta, name := "nk", real := none, imag := some visibleData,
             cplx := none, interpOrder := .int 1, defType := "wavelength", defUnit := "nanometer" },
    cdata (lit 0), visibleData, [lit 0, PyFloat.inf], [XR.fin (400 / 10 ^ 9), XR.fin (700 / 10 ^ 9)],
    ?_, rfl, rfl, rfl, rfl, rfl, by simp, by simp, ?_, ?_, rfl, rfl, rfl⟩
  · rw [new_row]
    simp only [bind, Except.bind]
    have : ∀ m : Material XR, processFileData m { metaData := blankFileMeta, datasets :=
        [bareDs "tabulated k" 400 700 0 1] } =
        [bareDs "tabulated k" 400 700 0 1].foldlM processDataset
          { m with metaData := some blankFileMeta } := fun m => rfl
    rw [this, List.foldlM_cons]
    rw [bareDs_k 400 700 0 1 _ visibleData (by
      rw [specData_eq (by simp) (by norm_num)]
      exact visibleData_new)]
    rfl
  · intro v hv
    simp only [List.mem_cons, List.not_mem_nil, or_false] at hv
    rcases hv with rfl | rfl <;> simp [NonNeg]
  · intro v hv
    simp only [List.mem_cons, List.not_mem_nil, or_false] at hv
    rcases hv with rfl | rfl <;> (simp only [NonNeg]; positivity)

/-- Concrete case for `C71_loads` and `C60_files_partial`: the catalogue of the demonstration
folder; its only row loads, and its bounds are those of the material. -/
example : ∃ g : Frame XR, buildCatalogue demoFs demoRef "/cat" [("UserData", true)] [] (.text "All") =
    .ok g ∧ ∃ r m, g = [(0, r)] ∧ getMaterial demoFs.read "/cat" g (.int 0) = .ok m ∧ BoundsOf m r ∧
    RefOf m demoRef r := by
  obtain ⟨r, h, -⟩ := demo_build []
  refine ⟨_, h, r, ?_⟩
  obtain ⟨m, h1, h2⟩ := C71_loads (fs := demoFs) (ref := demoRef) (base := "/cat")
    (fun _ => rfl) ⟨by
      intro dir names hn f hf
      have : names = ["a.txt"] := by cases hn; rfl
      subst this
      rw [List.mem_singleton] at hf
      subst hf
      exact ⟨by decide +kernel, by decide +kernel⟩, by intro p s h; cases h⟩
    (by simp) h 0 (l := 0) (r := r) rfl
  exact ⟨m, rfl, h1, h2⟩

end cases

end Disp

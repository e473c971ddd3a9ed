import Verif.Props.MaterialEquality
/-!
# C35: tables of absorption coefficients
-/

namespace Disp

open Spec

section ideal
variable [SciPy XR] [NumText XR]

/-- The rows `[x, n, alpha]` of a table. -/
noncomputable def alphaRows (rows : List (ℝ × ℝ × ℝ)) : List (List XR) :=
  rows.map (fun r => [XR.fin r.1, XR.fin r.2.1, XR.fin r.2.2])

/-- A file dataset with a table of index and absorption coefficient on values of type `t` and
unit `u`. -/
structure AlphaData (d : Dataset XR) (t u : String) (rows : List (ℝ × ℝ × ℝ)) : Prop where
  keys : Keys d
  kind : ∃ s, ("DataType", DVal.str s) ∈ d ∧ splitTwo s = .ok ("tabulated", "n_alpha")
  data : ("Data", DVal.arr (.d2 3 .float (alphaRows rows))) ∈ d
  stype : ("SpectrumType", DVal.str t) ∈ d ∧ t ≠ ""
  unit : ("Unit", DVal.str u) ∈ d ∧ u ≠ ""

/-- The wavelength in centimetres that belongs to the value `x` of a type and unit. -/
noncomputable def centimetres (t u : String) (x : ℝ) : ℝ := 100 * metres t u x

/-- C35 (full statement, refuted below): a material read from such a file has, at every tabulated
value, the imaginary part `alpha * L / (4 * pi)` with the wavelength `L` in centimetres. -/
def C35_statement : Prop :=
  ∀ (md : List (String × MetaVal)) (d : Dataset XR) (t u c : String) (rows : List (ℝ × ℝ × ℝ))
    (m : Material XR), AlphaData d t u rows → (lower t, lower u, c) ∈ names → 2 ≤ rows.length →
    (∀ r ∈ rows, 1 / 10 ^ 8 < r.1) → loadFile md [d] = .ok m →
    ∃ i, m.imag = some i ∧ ∀ r ∈ rows, ∀ (s : Spectrum XR) (v ov : Vals XR) (j : ℕ),
      (i.evaluate s).1 = .ok v → s.convertTo t u = .ok ov → ov.toList[j]? = some (XR.fin r.1) →
      v.toList[j]? = some (XR.fin (r.2.2 * centimetres (lower t) c r.1 / (4 * Real.pi)))

/-- The value of `k` that the code stores: the wavelength is rounded to five decimals of a
centimetre. -/
noncomputable def storedK (t u : String) (x alpha : ℝ) : ℝ :=
  alpha * XR.roundDec 5 (centimetres t u x) / (4 * Real.pi)

omit [SciPy XR] [NumText XR] in
theorem alphaToK_eq {t u c : String} (hc : (lower t, lower u, c) ∈ names)
    {rows : List (ℝ × ℝ × ℝ)} (hpos : ∀ r ∈ rows, 0 < r.1)
    (hsrc : lower t ≠ "wavelength" → ∀ r ∈ rows, 1 / 10 ^ 8 < r.1) :
    alphaToK t u (.d2 3 .float (alphaRows rows)) = .ok (.d2 2 .float
      (rows.map (fun r => [XR.fin r.1, XR.fin (storedK (lower t) c r.1 r.2.2)]))) := by
  have hw : ∀ r ∈ alphaRows rows, r.length = 3 := by
    intro r hr
    simp only [alphaRows, List.mem_map] at hr
    obtain ⟨p, -, rfl⟩ := hr
    rfl
  have h0 : (alphaRows rows).map (fun r => r.getD 0 (lit 0)) = (rows.map (·.1)).map XR.fin := by
    simp [alphaRows, Function.comp_def]
  have h2 : (alphaRows rows).map (fun r => r.getD 2 (lit 0)) = (rows.map (·.2.2)).map XR.fin := by
    simp [alphaRows, Function.comp_def]
  have hl : lower "wavelength" = "wavelength" := by decide +kernel
  have hcm : (lower "wavelength", "cm", "cm") ∈ names := by decide +kernel
  have hconv := convertList_eq (F := XR) hc hcm ((rows.map (·.1)).map XR.fin)
  unfold convertList at hconv
  have hsame : Spectrum.new (.ndarray .float ((rows.map (·.1)).map XR.fin)) t u =
    Spectrum.new (.list .float ((rows.map (·.1)).map XR.fin)) t u := rfl
  unfold alphaToK
  rw [col_eq hw (by norm_num), col_eq hw (by norm_num), h0, h2, show
    (NDArr.d2 3 DType.float (alphaRows rows)).dtype = .float from rfl]
  simp only [bind, Except.bind] at hconv ⊢
  rw [hsame]
  rw [new_list hc] at hconv ⊢
  simp only at hconv ⊢
  rw [hconv]
  simp only [Vals.toList, List.map_map]
  congr 2
  rw [List.zipWith_map, List.zipWith_self, List.zipWith_map, List.zipWith_self]
  apply List.map_congr_left
  intro r hr
  have hx := hpos r hr
  simp only [Function.comp]
  rw [fromElem_fin (names_pairs _ hc) hx (fun h => XR.inv_elem_fin (by
        rw [abs_of_pos hx]; exact hsrc h r hr)),
    toElem_fin (names_pairs _ hcm) (metres_pos _ _ hx) (by rw [hl]; decide)
      (fun h => absurd hl h), hl]
  have e1 : ofMetres "wavelength" "cm" (metres (lower t) c r.1) = centimetres (lower t) c r.1 := by
    simp only [ofMetres, centimetres, lengthUnit, String.reduceEq, if_false, if_true]
    ring
  have e2 : decimals "wavelength" "cm" = some 5 := by
    simp [decimals]
  rw [e1, e2]
  have hp : (PyFloat.pi * lit 4 : XR) = XR.fin (Real.pi * 4) := by simp
  rw [hp, XR.mul_fin, XR.div_fin_of_ne _ (by positivity)]
  simp only [storedK, roundOpt, mul_comm Real.pi 4]

omit [NumText XR] in
theorem spec_alpha {n : ℕ} {a : List (List XR)} {ps : List (ℝ × ℝ)} {t u : String}
    (hw : ∀ r ∈ a, r.length = n) {j : ℕ} (hj : j < n) (hp : pairsOf a j = xrows ps)
    (hlen : 2 ≤ ps.length) :
    specDataFromTable t u (.d2 n .float a) 0 j = RealData.newInterp .float (xrows ps) t u 1 := by
  rw [specData_eq hw hj, hp]
  match ps, hlen with
  | p :: q :: ps, _ => rfl

/-- What loading such a file gives. -/
theorem alpha_loaded {md : List (String × MetaVal)} {d : Dataset XR} {t u c : String}
    {rows : List (ℝ × ℝ × ℝ)} {m : Material XR} (hd : AlphaData d t u rows)
    (hc : (lower t, lower u, c) ∈ names) (hlen : 2 ≤ rows.length) (hpos : ∀ r ∈ rows, 0 < r.1)
    (hsrc : lower t ≠ "wavelength" → ∀ r ∈ rows, 1 / 10 ^ 8 < r.1) (hm : loadFile md [d] = .ok m) :
    m.name = "nk" ∧ m.defType = t ∧ m.defUnit = u ∧ ∃ r i, m.real = some r ∧ m.imag = some i ∧
      RealData.newInterp .float (xrows (rows.map (fun r => (r.1, r.2.1)))) t u 1 = .ok r ∧
      RealData.newInterp .float
        (xrows (rows.map (fun r => (r.1, storedK (lower t) c r.1 r.2.2)))) t u 1 = .ok i := by
  obtain ⟨p, m0, -, h2, rfl⟩ := new_ok _ hm
  unfold dispatch at h2
  have hf : (fileKw XR "file").get "file_path" = .str "file" := rfl
  rw [hf] at h2
  simp only [bind, Except.bind, processFileData] at h2
  split at h2
  · cases h2
  · rename_i md' hmd'
    simp only [List.foldlM_cons, List.foldlM_nil, bind, Except.bind, pure, Except.pure] at h2
    split at h2
    · cases h2
    · rename_i m1 hm1
      cases h2
      obtain ⟨s, hs, hs'⟩ := hd.kind
      unfold processDataset at hm1
      rw [getStr_of_mem hd.keys hs, dictGet_of_mem hd.keys hd.data] at hm1
      have hw : ∀ r ∈ alphaRows rows, r.length = 3 := by
        intro r hr
        simp only [alphaRows, List.mem_map] at hr
        obtain ⟨p, -, rfl⟩ := hr
        rfl
      have hst : strTableToNumeric (DVal.arr (.d2 3 .float (alphaRows rows))).asTable =
          .ok (.d2 3 .float (alphaRows rows)) := by
        simp only [strTableToNumeric, DVal.asTable, validateTable, col_eq hw (by norm_num : 0 < 3),
          bind, Except.bind]
      have e1 : (d.get "SpectrumType").nonEmptyStr = some t := by
        unfold Dataset.get
        rw [dictGet_of_mem hd.keys hd.stype.1]
        simp [DVal.nonEmptyStr, hd.stype.2]
      have e2 : (d.get "Unit").nonEmptyStr = some u := by
        unfold Dataset.get
        rw [dictGet_of_mem hd.keys hd.unit.1]
        simp [DVal.nonEmptyStr, hd.unit.2]
      simp only [bind, Except.bind, hs', if_true, hst, processTable, e1, e2, Option.getD_some] at hm1
      rw [if_neg (by decide)] at hm1
      rw [spec_alpha (ps := rows.map (fun r => (r.1, r.2.1))) hw (by norm_num)
          (by simp [pairsOf, alphaRows, xrows, rowX, Function.comp_def]) (by simpa using hlen),
        alphaToK_eq hc hpos hsrc] at hm1
      simp only at hm1
      rw [spec_alpha (ps := rows.map (fun r => (r.1, storedK (lower t) c r.1 r.2.2)))
          (by intro r hr; obtain ⟨p, -, rfl⟩ := List.mem_map.1 hr; rfl) (by norm_num)
          (by simp [pairsOf, xrows, rowX, Function.comp_def]) (by simpa using hlen)] at hm1
      split at hm1
      · cases hm1
      · rename_i r hr
        split at hm1
        · cases hm1
        · rename_i i hi
          cases hm1
          exact ⟨rfl, rfl, rfl, r, i, rfl, rfl, hr, hi⟩

/-- C35 with the rounding of the code: at every tabulated value the imaginary part is
`alpha * w / (4 * pi)`, where `w` is the wavelength in centimetres rounded to five decimals.
Missing for the full claim: equality with the unrounded formula, which is false. -/
theorem C35_rounded_partial (md : List (String × MetaVal)) (d : Dataset XR) (t u c : String)
    (rows : List (ℝ × ℝ × ℝ)) (m : Material XR) (hd : AlphaData d t u rows)
    (hc : (lower t, lower u, c) ∈ names) (hlen : 2 ≤ rows.length) (hpos : ∀ r ∈ rows, 0 < r.1)
    (hsrc : lower t ≠ "wavelength" → ∀ r ∈ rows, 1 / 10 ^ 8 < r.1) (hm : loadFile md [d] = .ok m) :
    ∃ i, m.imag = some i ∧ ∀ r ∈ rows,
      ∃ w, Rounded (some 5) w (centimetres (lower t) c r.1) ∧
        ∀ (s : Spectrum XR) (v ov : Vals XR) (j : ℕ),
        (i.evaluate s).1 = .ok v → s.convertTo t u = .ok ov → ov.toList[j]? = some (XR.fin r.1) →
        v.toList[j]? = some (XR.fin (r.2.2 * w / (4 * Real.pi))) := by
  obtain ⟨-, -, -, -, i, -, h1, -, h2⟩ := alpha_loaded hd hc hlen hpos hsrc hm
  refine ⟨i, h1, fun r hr => ⟨XR.roundDec 5 (centimetres (lower t) c r.1),
    rounded_match (some 5) _, fun s v ov j hv hov hj => ?_⟩⟩
  obtain ⟨y, hy, hon⟩ := C14_interpolation _ t u i h2 s v ov hv hov j r.1 hj
  have := C14_knots _ t u i h2 (r.1, storedK (lower t) c r.1 r.2.2)
    (List.mem_map.2 ⟨r, hr, rfl⟩) y hon
  rw [hy, this]
  rfl

/-- C35: the error of the stored value is at most `|alpha| * 5e-6 / (4 * pi)`. -/
theorem C35_error (alpha w l : ℝ) (h : Rounded (some 5) w l) :
    |alpha * w / (4 * Real.pi) - alpha * l / (4 * Real.pi)| ≤ |alpha| * (5 / 10 ^ 6) / (4 * Real.pi) := by
  obtain ⟨-, h⟩ := h
  have hp := Real.pi_pos
  have e : alpha * w / (4 * Real.pi) - alpha * l / (4 * Real.pi) =
      alpha * (w - l) / (4 * Real.pi) := by ring
  rw [e, abs_div, abs_mul, abs_of_pos (by positivity : (0 : ℝ) < 4 * Real.pi)]
  gcongr
  refine h.trans ?_
  norm_num

/-- A table with 1/cm at 540 nm and at 1 m. -/
noncomputable def alphaDs : Dataset XR :=
  [("DataType", .str "tabulated n_alpha"),
   ("Data", .arr (.d2 3 .float (alphaRows [(540 / 10 ^ 9, 1.5, 1), (1, 1.5, 1)]))),
   ("SpectrumType", .str "wavelength"), ("Unit", .str "m")]

theorem alphaDs_ok : AlphaData alphaDs "wavelength" "m" [(540 / 10 ^ 9, 1.5, 1), (1, 1.5, 1)] where
  keys := by simp [Keys, alphaDs]
  kind := ⟨"tabulated n_alpha", by simp [alphaDs], by decide +kernel⟩
  data := by simp [alphaDs]
  stype := ⟨by simp [alphaDs], by decide⟩
  unit := ⟨by simp [alphaDs], by decide⟩

theorem alphaDs_load : ∃ m : Material XR, loadFile blankFileMeta [alphaDs] = .ok m ∧
    ∃ k1 k2, m.imag = some (lineData (540 / 10 ^ 9) 1 k1 k2) := by
  have hn : (lower "wavelength", lower "m", "m") ∈ names := by decide +kernel
  have hl : lower "wavelength" = "wavelength" := by decide +kernel
  obtain ⟨md', hload⟩ := new_file (F := XR) "file" blankFileMeta_ok
  have hab : (540 / 10 ^ 9 : ℝ) < 1 := by norm_num
  have hw : ∀ r ∈ alphaRows [(540 / 10 ^ 9, 1.5, 1), (1, 1.5, 1)], r.length = 3 := by
    intro r hr
    simp only [alphaRows, List.mem_map] at hr
    obtain ⟨p, -, rfl⟩ := hr
    rfl
  obtain ⟨s, hs, hs'⟩ := alphaDs_ok.kind
  have key : ∃ k1 k2, ∀ m : Material XR, processDataset m alphaDs = .ok { m with
      defType := "wavelength", defUnit := "m", name := "nk",
      real := some (lineData (540 / 10 ^ 9) 1 1.5 1.5),
      imag := some (lineData (540 / 10 ^ 9) 1 k1 k2) } := by
    refine ⟨storedK "wavelength" "m" (540 / 10 ^ 9) 1, storedK "wavelength" "m" 1 1, fun m => ?_⟩
    unfold processDataset
    rw [getStr_of_mem alphaDs_ok.keys hs, dictGet_of_mem alphaDs_ok.keys alphaDs_ok.data]
    have hst : strTableToNumeric (DVal.arr (.d2 3 .float
        (alphaRows [(540 / 10 ^ 9, 1.5, 1), (1, 1.5, 1)]))).asTable =
      .ok (.d2 3 .float (alphaRows [(540 / 10 ^ 9, 1.5, 1), (1, 1.5, 1)])) := rfl
    have e1 : (alphaDs.get "SpectrumType").nonEmptyStr = some "wavelength" := rfl
    have e2 : (alphaDs.get "Unit").nonEmptyStr = some "m" := rfl
    simp only [bind, Except.bind, hs', if_true, hst, processTable, e1, e2, Option.getD_some]
    rw [if_neg (by decide)]
    rw [spec_alpha (ps := [(540 / 10 ^ 9, 1.5), (1, 1.5)]) hw (by norm_num) (by
        simp [pairsOf, alphaRows, xrows, rowX]) (by simp), lineData_new hab,
      alphaToK_eq hn (by
        intro r hr
        simp only [List.mem_cons, List.not_mem_nil, or_false] at hr
        rcases hr with rfl | rfl <;> norm_num) (fun h => absurd hl h)]
    simp only [hl]
    rw [spec_alpha (ps := [(540 / 10 ^ 9, storedK "wavelength" "m" (540 / 10 ^ 9) 1),
        (1, storedK "wavelength" "m" 1 1)]) (by
        intro r hr; obtain ⟨p, -, rfl⟩ := List.mem_map.1 hr; rfl) (by norm_num) (by
        simp [pairsOf, xrows, rowX]) (by simp), lineData_new hab]
  obtain ⟨k1, k2, hk⟩ := key
  unfold loadFile
  rw [hload]
  simp only [List.foldlM_cons, List.foldlM_nil, hk, bind, Except.bind, pure, Except.pure]
  exact ⟨_, rfl, k1, k2, rfl⟩

/-- C35 is false: for 1/cm at 540 nm (5.4e-5 cm) the stored value is that of 5e-5 cm. -/
theorem C35_refuted : ¬ C35_statement := by
  intro hst
  obtain ⟨m, hm, k1, k2, hi⟩ := alphaDs_load
  have hn : (lower "wavelength", lower "m", "m") ∈ names := by decide +kernel
  have hl : lower "wavelength" = "wavelength" := by decide +kernel
  have hbig : ∀ r ∈ ([(540 / 10 ^ 9, 1.5, 1), (1, 1.5, 1)] : List (ℝ × ℝ × ℝ)), 1 / 10 ^ 8 < r.1 := by
    intro r hr
    simp only [List.mem_cons, List.not_mem_nil, or_false] at hr
    rcases hr with rfl | rfl <;> norm_num
  obtain ⟨i, h1, h2⟩ := hst blankFileMeta alphaDs "wavelength" "m" "m" _ m alphaDs_ok hn (by simp)
    hbig hm
  obtain ⟨i', h1', h2'⟩ := C35_rounded_partial blankFileMeta alphaDs "wavelength" "m" "m" _ m
    alphaDs_ok hn (by simp) (fun r hr => lt_trans (by norm_num) (hbig r hr))
    (fun _ => hbig) hm
  have e : i' = i := Option.some.inj (h1'.symm.trans h1)
  subst e
  have e : i' = lineData (540 / 10 ^ 9) 1 k1 k2 := Option.some.inj (h1.symm.trans hi)
  subst e
  have hev := lineData_evaluate (a := 540 / 10 ^ 9) (b := 1) (ya := k1) (yb := k2) (by norm_num)
    [540 / 10 ^ 9] (by simp) (by
      intro y hy
      rw [List.mem_singleton.1 hy]
      norm_num)
  have hov := metreSpectrum_convert (([540 / 10 ^ 9] : List ℝ).map XR.fin)
  obtain ⟨w, hw, h3⟩ := h2' (540 / 10 ^ 9, 1.5, 1) (by simp)
  have h4 := h2 (540 / 10 ^ 9, 1.5, 1) (by simp) _ _ _ 0 (by rw [hev]) hov rfl
  have h5 := h3 _ _ _ 0 (by rw [hev]) hov rfl
  rw [h4, Option.some.injEq, XR.fin_inj, hl] at h5
  have hp := Real.pi_pos
  have h6 : w = 54 / 10 ^ 6 := by
    have hcm : centimetres "wavelength" "m" (540 / 10 ^ 9) = 54 / 10 ^ 6 := by
      simp only [centimetres, metres, lengthUnit, String.reduceEq, if_false]
      norm_num
    simp only [hcm] at h5
    field_simp at h5
    linarith
  obtain ⟨⟨z, hz⟩, -⟩ := hw
  rw [h6] at hz
  have h7 : (54 : ℝ) = 10 * z := by
    field_simp at hz
    linarith
  have h8 : (54 : ℤ) = 10 * z := by exact_mod_cast h7
  omega

/-- Concrete case for `C35_rounded_partial`: a file that loads. -/
example : AlphaData alphaDs "wavelength" "m" [(540 / 10 ^ 9, 1.5, 1), (1, 1.5, 1)] ∧
    ∃ m : Material XR, loadFile blankFileMeta [alphaDs] = .ok m :=
  ⟨alphaDs_ok, alphaDs_load.imp fun _ h => h.1⟩

end ideal

end Disp

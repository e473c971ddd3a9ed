import Verif.Props.EffectiveMedium
import Verif.Props.ContinuationUnits
import Verif.Props.ModelRange
import Verif.Props.RiiNames
import Verif.Props.ReaderReuse
import Std.Data.String.ToInt
/-!
# C108: formula files of refractiveindex.info

From the text of the file to the numbers that are returned: the dispersion formula that the
database publishes under the number in the file, with the coefficients in the file, for every
number of terms and at every wavelength of the range in the file.
-/

namespace Disp

open Spec

/-- The dispersion formulas published by refractiveindex.info (w in micrometres), except formula 8:
number, coefficients, wavelength and index. -/
inductive Spec.Published : ℕ → List ℝ → ℝ → ℝ → Prop
  | sellmeier (c : ℝ) (ps : List (ℝ × ℝ)) (w : ℝ) (h : ∀ p ∈ ps, w ^ 2 ≠ p.2 ^ 2)
      (h0 : 0 ≤ 1 + c + (ps.map fun p => p.1 * w ^ 2 / (w ^ 2 - p.2 ^ 2)).sum) :
      Published 1 (c :: ps.flatMap fun p => [p.1, p.2]) w
        (Real.sqrt (1 + c + (ps.map fun p => p.1 * w ^ 2 / (w ^ 2 - p.2 ^ 2)).sum))
  | sellmeier2 (c : ℝ) (ps : List (ℝ × ℝ)) (w : ℝ) (h : ∀ p ∈ ps, w ^ 2 ≠ p.2)
      (h0 : 0 ≤ 1 + c + (ps.map fun p => p.1 * w ^ 2 / (w ^ 2 - p.2)).sum) :
      Published 2 (c :: ps.flatMap fun p => [p.1, p.2]) w
        (Real.sqrt (1 + c + (ps.map fun p => p.1 * w ^ 2 / (w ^ 2 - p.2)).sum))
  | polynomial (c : ℝ) (ps : List (ℝ × ℝ)) (w : ℝ)
      (h0 : 0 ≤ c + (ps.map fun p => p.1 * w ^ p.2).sum) :
      Published 3 (c :: ps.flatMap fun p => [p.1, p.2]) w
        (Real.sqrt (c + (ps.map fun p => p.1 * w ^ p.2).sum))
  | rii (c a p b q a' p' b' q' : ℝ) (ps : List (ℝ × ℝ)) (w : ℝ) (hb : 0 < b) (hb' : 0 < b')
      (h1 : w ^ 2 ≠ b ^ q) (h2 : w ^ 2 ≠ b' ^ q')
      (h0 : 0 ≤ c + a * w ^ p / (w ^ 2 - b ^ q) + a' * w ^ p' / (w ^ 2 - b' ^ q') +
        (ps.map fun p => p.1 * w ^ p.2).sum) :
      Published 4 ([c, a, p, b, q, a', p', b', q'] ++ ps.flatMap fun p => [p.1, p.2]) w
        (Real.sqrt (c + a * w ^ p / (w ^ 2 - b ^ q) + a' * w ^ p' / (w ^ 2 - b' ^ q') +
          (ps.map fun p => p.1 * w ^ p.2).sum))
  | riiOne (c a p b q w : ℝ) (hb : 0 < b) (h1 : w ^ 2 ≠ b ^ q)
      (h0 : 0 ≤ c + a * w ^ p / (w ^ 2 - b ^ q)) :
      Published 4 [c, a, p, b, q] w (Real.sqrt (c + a * w ^ p / (w ^ 2 - b ^ q)))
  | cauchy (c : ℝ) (ps : List (ℝ × ℝ)) (w : ℝ) :
      Published 5 (c :: ps.flatMap fun p => [p.1, p.2]) w (c + (ps.map fun p => p.1 * w ^ p.2).sum)
  | gases (c : ℝ) (ps : List (ℝ × ℝ)) (w : ℝ) (h : ∀ p ∈ ps, p.2 ≠ 1 / w ^ 2) :
      Published 6 (c :: ps.flatMap fun p => [p.1, p.2]) w
        (1 + c + (ps.map fun p => p.1 / (p.2 - 1 / w ^ 2)).sum)
  | herzberger (c0 c1 c2 c3 c4 c5 w : ℝ) (h : w ^ 2 ≠ 0.028) :
      Published 7 [c0, c1, c2, c3, c4, c5] w
        (c0 + c1 / (w ^ 2 - 0.028) + c2 * (1 / (w ^ 2 - 0.028)) ^ 2 + c3 * w ^ 2 + c4 * w ^ 4 +
          c5 * w ^ 6)
  | exotic (c0 c1 c2 c3 c4 c5 w : ℝ) (h1 : w ^ 2 ≠ c2) (h2 : (w - c4) ^ 2 + c5 ≠ 0)
      (h0 : 0 ≤ c0 + c1 * w ^ 2 / (w ^ 2 - c2) + c3 * (w - c4) / ((w - c4) ^ 2 + c5)) :
      Published 9 [c0, c1, c2, c3, c4, c5] w
        (Real.sqrt (c0 + c1 * w ^ 2 / (w ^ 2 - c2) + c3 * (w - c4) / ((w - c4) ^ 2 + c5)))

/-- A text that lists the numbers `cs`, separated by white space. -/
def Spec.ListsNumbers [NumText XR] (x : String) (cs : List ℝ) : Prop :=
  ∃ ts, LineOf ts x.toList ∧ List.Forall₂ (fun t c => NumText.parseFloat t = .ok (XR.fin c)) ts cs

/-- A dataset of a formula file, with its entries in any order. -/
structure Spec.FormulaEntry [NumText XR] (d : Dataset XR) (n : ℕ) (cs : List ℝ) (lo hi : ℝ) :
    Prop where
  keys : Keys d
  only : ∀ p ∈ d, p.1 ∈ ["type", "wavelength_range", "coefficients"]
  kind : dictGet d "type" = .ok (.str ("formula " ++ toString n))
  coefficients : ∃ x, dictGet d "coefficients" = .ok (.str x) ∧ ListsNumbers x cs
  range : ∃ x, dictGet d "wavelength_range" = .ok (.str x) ∧ ListsNumbers x [lo, hi]

/-- The text of a YAML file with the given datasets under `DATA`; the other keys are in upper case,
as in the files of refractiveindex.info, and have texts or mappings of texts. -/
structure Spec.YamlFile {F : Type} [YamlIO F] (text : List Char) (ds : List (Dataset F)) : Prop where
  loads : ∃ yd : YDict F, YamlIO.load (universal text) = .ok yd ∧ Keys yd ∧ UpperKeys yd ∧
    dictGet yd "DATA" = .ok (.data ds) ∧ ∀ p ∈ yd, p.1 ≠ "DATA" → ∃ v, p.2 = .entry v

/-- A dataset with a table of `k` columns, with its entries in any order and its numbers in any
layout. -/
structure Spec.TableEntry [NumText XR] (d : Dataset XR) (kind : String) (k : ℕ)
    (rows : List (List ℝ)) : Prop where
  keys : Keys d
  only : ∀ p ∈ d, p.1 ∈ ["type", "data"]
  kind : dictGet d "type" = .ok (.str kind)
  table : ∃ x toks, dictGet d "data" = .ok (.str x) ∧ TextOf toks x.toList ∧
    List.Forall₂ (List.Forall₂ Reads) toks (rows.map (·.map XR.fin))
  two : 2 ≤ rows.length
  width : ∀ r ∈ rows, r.length = k
  distinct : rows.Pairwise (fun r q => abscissa r ≠ abscissa q)

/-- A column of a table, with the abscissae. -/
def Spec.column (rows : List (List ℝ)) (j : ℕ) : List (ℝ × ℝ) :=
  rows.map (fun r => (abscissa r, r.getD j 0))

/-- A dataset of the refractive index between `lo` and `hi` micrometres: a numbered formula with a
value at every wavelength in between, or a table. -/
inductive Spec.IndexEntry [NumText XR] (d : Dataset XR) (lo hi : ℝ) : (ℝ → ℝ → Prop) → Prop
  | formula {n : ℕ} {cs : List ℝ} (h : FormulaEntry d n cs lo hi)
      (hp : ∀ w, lo ≤ w → w ≤ hi → ∃ v, Published n cs w v) : IndexEntry d lo hi (Published n cs)
  | table {rows : List (List ℝ)} (h : TableEntry d "tabulated n" 2 rows) (hs : Spans rows lo hi) :
      IndexEntry d lo hi (OnLine (column rows 1))

/-- The datasets of a file of refractiveindex.info, the common range of wavelengths in micrometres,
and what the file says about the refractive index and the extinction coefficient. -/
inductive Spec.Content [NumText XR] : List (Dataset XR) → ℝ → ℝ → (ℝ → ℝ → Prop) →
    (ℝ → ℝ → Prop) → Prop
  | index {d : Dataset XR} {lo hi : ℝ} {N : ℝ → ℝ → Prop} (h : IndexEntry d lo hi N)
      (hb : Band "wavelength" "um" lo hi) : Content [d] lo hi N (fun _ k => k = 0)
  | both {d d' : Dataset XR} {lo hi lo' hi' : ℝ} {N : ℝ → ℝ → Prop} {rows : List (List ℝ)}
      (h : IndexEntry d lo hi N) (hb : Band "wavelength" "um" lo hi)
      (h' : TableEntry d' "tabulated k" 2 rows) (hs' : Spans rows lo' hi')
      (hb' : Band "wavelength" "um" lo' hi') :
      Content [d, d'] (max lo lo') (min hi hi') N (OnLine (column rows 1))
  | nk {d : Dataset XR} {lo hi : ℝ} {rows : List (List ℝ)}
      (h : TableEntry d "tabulated nk" 3 rows) (hs : Spans rows lo hi)
      (hb : Band "wavelength" "um" lo hi) :
      Content [d] lo hi (OnLine (column rows 1)) (OnLine (column rows 2))

/-! ## Texts -/

section text
variable [NumText XR]

theorem Spec.ListsNumbers.parse {x : String} {cs : List ℝ} (h : ListsNumbers x cs) :
    (splitSpaces x.toList).mapM NumText.parseFloat = .ok (cs.map XR.fin) := by
  obtain ⟨ts, h1, h2⟩ := h
  rw [splitSpaces_line h1]
  clear h1
  induction h2 with
  | nil => rfl
  | cons h _ ih =>
    rw [List.mapM_cons, h, ih]
    rfl

theorem Spec.ListsNumbers.ne {x : String} {cs : List ℝ} (h : ListsNumbers x cs) (h0 : cs ≠ []) :
    x ≠ "" := by
  rintro rfl
  have := Spec.ListsNumbers.parse h
  rw [show ("" : String).toList = [] from rfl] at this
  cases cs with
  | nil => exact h0 rfl
  | cons c cs => cases this

end text

/-! ## Reading -/

section reading
variable {F : Type}

theorem matStep_keeps {o : KeyOrder} {yd : YDict F} {k : String}
    {s t : List (String × MetaVal) × List (Dataset F)} (h : matStep o yd k s = .ok t) {f : String}
    (hf : ∃ v, dictGet s.1 f = .ok v) : ∃ v, dictGet t.1 f = .ok v := by
  have key : ∀ (g : String) (v : MetaVal), ∃ w, dictGet (dictSet s.1 g v) f = .ok w := by
    intro g v
    rw [dictGet_set]
    split
    · exact ⟨_, rfl⟩
    · exact hf
  unfold matStep at h
  obtain ⟨arg, -, h⟩ := except_bind_ok h
  split at h
  · obtain ⟨ds, -, h⟩ := except_bind_ok h
    cases h
    exact hf
  · cases arg with
    | data x =>
      simp only at h
      split at h
      · cases h
      · split at h
        · cases h
        · cases h; exact hf
    | entry v =>
      simp only at h
      split at h
      · cases h; exact key _ _
      · split at h
        · cases h; exact key _ _
        · cases h; exact hf

theorem matLoop_keeps {o : KeyOrder} {yd : YDict F} {f : String} : ∀ (ks : List String)
    {s t : List (String × MetaVal) × List (Dataset F)}, matLoop o yd ks s = (.ok (), t) →
    (∃ v, dictGet s.1 f = .ok v) → ∃ v, dictGet t.1 f = .ok v := by
  intro ks
  induction ks with
  | nil =>
    intro s t h hf
    rw [matLoop] at h
    cases h
    exact hf
  | cons k ks ih =>
    intro s t h hf
    rw [matLoop] at h
    cases hs : matStep o yd k s with
    | error e => rw [hs] at h; cases h
    | ok s' =>
      rw [hs] at h
      exact ih h (matStep_keeps hs hf)

/-- Reading such a file: the metadata are complete and the datasets are the processed ones. -/
theorem Spec.YamlFile.read [NumText F] [YamlIO F] {o : KeyOrder} (ho : o.Valid) {text : List Char}
    {ds ds' : List (Dataset F)} (h : YamlFile text ds) (hp : ds.mapM (processMatData1 o) = .ok ds') :
    ∃ fd r', (Reader.fresh o : Reader F).readFile o ".yml" text = (.ok fd, r') ∧
      HasMeta fd.metaData ∧ fd.datasets = ds' := by
  obtain ⟨yd, hl, hk, hu, hd, hx⟩ := h.loads
  have hv : Spec.Usable o yd := by
    intro p hp'
    refine ⟨fun he => ?_, hx p hp'⟩
    have : dictGet yd "DATA" = .ok p.2 := dictGet_of_mem hk (by rw [← he]; exact hp')
    rw [hd, Except.ok.injEq] at this
    exact ⟨ds', by rw [← this]; exact hp⟩
  obtain ⟨t, e1, h1, h2, h3, _⟩ := matLoop_ok ho hk hu hv (yd.map Prod.fst) (fun _ h => h) hk
    ((Reader.fresh o : Reader F).metaData, (Reader.fresh o : Reader F).datasets)
  have hr : (Reader.fresh o : Reader F).readFile o ".yml" text = (.ok
      ⟨dictSet t.1 "MetaComment" (.str (String.ofList
        (Reader.readYaml.joinLines (readComment text)).dropLast)), t.2⟩,
      { (Reader.fresh o : Reader F) with metaData := dictSet t.1 "MetaComment" (.str (String.ofList
        (Reader.readYaml.joinLines (readComment text)).dropLast)) }) := by
    rw [Reader.readFile]
    simp only [show textFormat ".yml" = Option.none from by decide, if_true]
    rw [Reader.readYaml, hl]
    simp only [e1]
  refine ⟨_, _, hr, ?_, h3 _ ds' (List.mem_map.2 ⟨_, dictGet_mem hd, rfl⟩) hd hp⟩
  intro k hk'
  show ∃ v, dictGet (dictSet t.1 "MetaComment" _) k = .ok v
  rw [dictGet_set]
  split
  · exact ⟨_, rfl⟩
  rename_i hne
  refine matLoop_keeps _ e1 ?_
  show ∃ v, dictGet (defaultMeta o) k = .ok v
  rw [defaultMeta, dictGet_const]
  split
  · exact ⟨_, rfl⟩
  · rename_i hn
    rw [ho.1.mem_iff] at hn
    have : ∀ k ∈ fileKeys, k ∉ fileMetaKeys → k ≠ "MetaComment" → k = "Specification" := by decide
    obtain rfl := this k hk' hn (Ne.symm hne)
    exact ⟨_, rfl⟩

end reading

section loading
variable [SciPy XR] [NumText XR]

/-! ## Formulas -/

omit [SciPy XR] [NumText XR] in
theorem number_int (n : ℕ) : (toString n).toInt? = some (n : ℤ) := Nat.toInt?_repr n

/-- The formulas of this list. -/
def riiFormula : ℕ → Option (String × Formula)
  | 1 => some ("Sellmeier", .sellmeier)
  | 2 => some ("Sellmeier2", .sellmeier2)
  | 3 => some ("Polynomial", .polynomial)
  | 4 => some ("RefractiveIndexInfo", .refractiveIndexInfo)
  | 5 => some ("Cauchy", .cauchy)
  | 6 => some ("Gases", .gases)
  | 7 => some ("Herzberger", .herzberger)
  | 8 => some ("Retro", .retro)
  | 9 => some ("Exotic", .exotic)
  | _ => Option.none

theorem number_cases {n : ℕ} {k : String} {f : Formula} (h : riiFormula n = some (k, f)) :
    (n, k, f) ∈ ([(1, "Sellmeier", .sellmeier), (2, "Sellmeier2", .sellmeier2),
      (3, "Polynomial", .polynomial), (4, "RefractiveIndexInfo", .refractiveIndexInfo),
      (5, "Cauchy", .cauchy), (6, "Gases", .gases), (7, "Herzberger", .herzberger),
      (8, "Retro", .retro), (9, "Exotic", .exotic)] : List (ℕ × String × Formula)) := by
  unfold riiFormula at h
  split at h <;> first
    | (cases h; simp)
    | exact absurd h (by simp)

theorem number_facts : ∀ p ∈ ([(1, "Sellmeier", .sellmeier), (2, "Sellmeier2", .sellmeier2),
      (3, "Polynomial", .polynomial), (4, "RefractiveIndexInfo", .refractiveIndexInfo),
      (5, "Cauchy", .cauchy), (6, "Gases", .gases), (7, "Herzberger", .herzberger),
      (8, "Retro", .retro), (9, "Exotic", .exotic)] : List (ℕ × String × Formula)),
    splitTwo ("formula " ++ toString p.1) = .ok ("formula", toString p.1) ∧
      methodIds.lookup (p.1 : ℤ) = some p.2.1 ∧ p.2.1 ∈ indexModels ∧
      classRef p.2.1 = .real p.2.2 ∧ p.2.2 ≠ .fano ∧ p.2.2.output = some "n" ∧
      lstrip ("formula " ++ toString p.1).toList = ("formula " ++ toString p.1).toList ∧
      "formula".toList.isPrefixOf ("formula " ++ toString p.1).toList = true := by
  decide +kernel

/-- Processing a numbered formula that does not state its spectrum type and unit. -/
theorem load_formula (m : Material XR) {d : Dataset XR} {n : ℕ} {k : String} {f : Formula}
    (hn : riiFormula n = some (k, f)) {x y : String} {ps rs : List XR}
    (hd : dictGet d "DataType" = .ok (.str ("formula " ++ toString n)))
    (hv : dictGet d "Data" = .ok (.str x)) (hr : dictGet d "ValidRange" = .ok (.str y))
    (hx : (splitSpaces x.toList).mapM NumText.parseFloat = .ok ps)
    (hy : (splitSpaces y.toList).mapM NumText.parseFloat = .ok rs) (hy0 : y ≠ "")
    (ht : dictGet d "SpectrumType" = .ok (.str "")) (hu : dictGet d "Unit" = .ok (.str "")) :
    processDataset m d = (RealData.newModel f ps (.list .float rs) m.defType m.defUnit).map
      (fun r => { m with name := "nk", real := some r }) := by
  obtain ⟨h1, h2, h3, h4, h5, h6, -, -⟩ := number_facts _ (number_cases hn)
  simp only at h1 h2 h3 h4 h5 h6
  have h7 : formulaName "formula" (toString n) = .ok k := by
    simp only [formulaName, if_true, number_int, h2]
  unfold processDataset
  simp only [Dataset.getStr, hd, bind, Except.bind, h1,
    show ¬ ("formula" = "tabulated") from by decide, if_false, true_or, if_true]
  unfold processFormulaData
  have e1 : ∀ z, ((DVal.str "" : DVal XR).nonEmptyStr).getD z = z := fun _ => rfl
  have e2 : ¬ (True ∧ (toString n).toInt? = Option.none) := by
    rw [number_int]; simp
  simp only [Dataset.getStr, hd, hv, bind, Except.bind, h1, true_or, not_true, if_false,
    if_neg e2, parseRange, hr, if_neg hy0, hy, hx, ht, hu, e1, h7]
  unfold processModelDict
  simp only [h4, Option.getD_some, bind, Except.bind]
  cases RealData.newModel f ps (.list .float rs) m.defType m.defUnit with
  | error e => rfl
  | ok r =>
    simp only [h6]
    rfl

/-- A published value: the formula has it, with a suitable number of coefficients. -/
theorem published_at {n : ℕ} {cs : List ℝ} {w v : ℝ} (h : Published n cs w v) (hw : 0 < w) :
    ∃ k f, riiFormula n = some (k, f) ∧ takes k cs.length ∧
      f.at (cs.map XR.fin) (XR.fin w) = .ok (XR.fin v) := by
  have root : ∀ x : ℝ, 0 ≤ x → rootOrNaN x = XR.fin (Real.sqrt x) := by
    intro x hx
    rw [rootOrNaN, if_neg (not_lt.2 hx)]
  have odd : ∀ (c : ℝ) (ps : List (ℝ × ℝ)), (c :: ps.flatMap fun p => [p.1, p.2]).length % 2 = 1 := by
    intro c ps
    induction ps with
    | nil => rfl
    | cons p ps ih =>
      simp only [List.flatMap_cons, List.length_cons, List.length_append, List.length_nil] at ih ⊢
      omega
  cases h with
  | sellmeier c ps _ h h0 =>
    refine ⟨_, _, rfl, odd c ps, ?_⟩
    rw [← root _ h0]
    exact C17_sellmeier c ps w fun p hp => sub_ne_zero.2 (h p hp)
  | sellmeier2 c ps _ h h0 =>
    refine ⟨_, _, rfl, odd c ps, ?_⟩
    rw [← root _ h0]
    exact C17_sellmeier2 c ps w fun p hp => sub_ne_zero.2 (h p hp)
  | polynomial c ps _ h0 =>
    refine ⟨_, _, rfl, odd c ps, ?_⟩
    rw [← root _ h0]
    exact C17_polynomial c ps w hw
  | rii c a p b q a' p' b' q' ps _ hb hb' h1 h2 h0 =>
    refine ⟨_, _, rfl, .inr (.inr ?_), ?_⟩
    · have := odd c ps
      simp only [List.length_append, List.length_cons, List.length_nil] at this ⊢
      omega
    rw [← root _ h0]
    exact C17_refractiveIndexInfo c a p b q a' p' b' q' ps w hw hb hb' (sub_ne_zero.2 h1)
      (sub_ne_zero.2 h2)
  | riiOne c a p b q _ hb h1 h0 =>
    refine ⟨_, _, rfl, .inr (.inl rfl), ?_⟩
    rw [← root _ h0]
    exact (C17_refractiveIndexInfo_short c a p b q w hw hb (sub_ne_zero.2 h1)).1
  | cauchy c ps _ => exact ⟨_, _, rfl, odd c ps, C17_cauchy c ps w hw⟩
  | gases c ps _ h =>
    exact ⟨_, _, rfl, odd c ps, C17_gases c ps w hw fun p hp => sub_ne_zero.2 (h p hp)⟩
  | herzberger c0 c1 c2 c3 c4 c5 _ h =>
    exact ⟨_, _, rfl, le_rfl, C17_herzberger c0 c1 c2 c3 c4 c5 [] w (sub_ne_zero.2 h)⟩
  | exotic c0 c1 c2 c3 c4 c5 _ h1 h2 h0 =>
    refine ⟨_, _, rfl, le_rfl, ?_⟩
    rw [← root _ h0]
    exact C17_exotic c0 c1 c2 c3 c4 c5 [] w (sub_ne_zero.2 h1) h2

/-! ## Reading and loading -/

/-- The processed dataset of a formula file. -/
theorem Spec.FormulaEntry.process {o : KeyOrder} (ho : o.Valid) {d : Dataset XR} {n : ℕ}
    {cs : List ℝ} {lo hi : ℝ} (h : FormulaEntry d n cs lo hi) {k : String} {f : Formula}
    (hn : riiFormula n = some (k, f)) :
    ∃ out, processMatData1 o d = .ok out ∧ ∀ m : Material XR,
      processDataset m out = (RealData.newModel f (cs.map XR.fin)
        (.list .float [XR.fin lo, XR.fin hi]) m.defType m.defUnit).map
        (fun r => { m with name := "nk", real := some r }) := by
  obtain ⟨x, hx, hx'⟩ := h.coefficients
  obtain ⟨y, hy, hy'⟩ := h.range
  obtain ⟨h1, h2, h3, h4, h5, h6, h7, h8⟩ := number_facts _ (number_cases hn)
  simp only at h7 h8
  have he : entryData d ("formula " ++ toString n).toList = .ok (.str x) := by
    rw [entryData, if_pos (by rw [h8]; rfl), getEither, hx]
  obtain ⟨out, o1, o2, o3, o4, o5, o6⟩ := rii_entry ho h.keys (fun p hp => by
    have := h.only p hp
    simp only [List.mem_cons, List.not_mem_nil, or_false] at this
    rcases this with e | e | e <;> rw [e] <;> decide) h.kind h7 he
  refine ⟨out, o1, fun m => ?_⟩
  rw [load_formula m hn o2 o3 (o6 _ hy) hx'.parse hy'.parse (hy'.ne (by simp)) o4 o5]
  rfl

/-- A processed table. -/
theorem Spec.TableEntry.process {o : KeyOrder} (ho : o.Valid) {d : Dataset XR} {kind : String}
    {k : ℕ} {rows : List (List ℝ)} (h : TableEntry d kind k rows)
    (hk : kind ∈ ["tabulated n", "tabulated k", "tabulated nk"]) :
    ∃ out v, processMatData1 o d = .ok out ∧ dictGet out "DataType" = .ok (.str kind) ∧
      dictGet out "Data" = .ok v ∧
      strTableToNumeric v.asTable = .ok (.d2 k .float (rows.map (·.map XR.fin))) ∧
      dictGet out "SpectrumType" = .ok (.str "") ∧ dictGet out "Unit" = .ok (.str "") := by
  obtain ⟨x, toks, h1, h2, h3⟩ := h.table
  have facts : ∀ s ∈ ["tabulated n", "tabulated k", "tabulated nk"], lstrip s.toList = s.toList ∧
      ("formula".toList.isPrefixOf s.toList || "model".toList.isPrefixOf s.toList) = false ∧
      "tabulated".toList.isPrefixOf s.toList = true := by decide +kernel
  obtain ⟨f1, f2, f3⟩ := facts kind hk
  have he : entryData d kind.toList = .ok (.str x) := by
    rw [entryData, if_neg (by rw [f2]; decide), if_pos f3, getEither, h1]
  obtain ⟨out, o1, o2, o3, o4, o5, -⟩ := rii_entry ho h.keys (fun p hp => by
    have := h.only p hp
    simp only [List.mem_cons, List.not_mem_nil, or_false] at this
    rcases this with e | e <;> rw [e] <;> decide) h.kind f1 he
  refine ⟨out, _, o1, o2, o3, ?_, o4, o5⟩
  refine C43_parse h2 h3 ?_ ?_
  · intro e
    have := h.two
    rw [List.map_eq_nil_iff] at e
    rw [e] at this
    simp at this
  · intro r hr
    obtain ⟨q, hq, rfl⟩ := List.mem_map.1 hr
    simpa using h.width q hq

omit [NumText XR] in
theorem good_rows {k : ℕ} (hk : 0 < k) {rows : List (List ℝ)} (h2 : 2 ≤ rows.length)
    (hw : ∀ r ∈ rows, r.length = k) (hd : rows.Pairwise (fun r q => abscissa r ≠ abscissa q)) :
    GoodTable k (rows.map (·.map XR.fin)) := by
  refine ⟨?_, ?_, ?_, ?_⟩
  · intro e
    rw [List.map_eq_nil_iff] at e
    rw [e] at h2
    simp at h2
  · intro r hr
    obtain ⟨q, hq, rfl⟩ := List.mem_map.1 hr
    simpa using hw q hq
  · intro r hr
    obtain ⟨q, hq, rfl⟩ := List.mem_map.1 hr
    rw [rowX_fin hk (hw q hq)]; rfl
  · rw [List.pairwise_map]
    refine hd.imp_of_mem fun {a b} ha hb' hab => ?_
    rw [rowX_fin hk (hw a ha), rowX_fin hk (hw b hb')]
    simpa using hab

/-! ## What the parts return -/

/-- A part whose value at `x` micrometres is `N x`. -/
structure Gives (d : RealData XR) (lo hi : ℝ) (N : ℝ → ℝ) : Prop where
  part : BandPart "wavelength" "um" d lo hi
  val : ∀ {s ys}, Asks "wavelength" s ys → ∀ {v}, (d.evaluate s).1 = .ok v →
    v.toList = ys.map (fun y => XR.fin (N (shown "wavelength" "um" y)))

omit [NumText XR] in
theorem table_gives {rows : List (List ℝ)} {j k : ℕ} (hj : j < k) (h2 : 2 ≤ rows.length)
    (hw : ∀ r ∈ rows, r.length = k) (hd : rows.Pairwise (fun r q => abscissa r ≠ abscissa q))
    {lo hi : ℝ} (hs : Spans rows lo hi) (hb : Band "wavelength" "um" lo hi) {t u : String}
    (ht : lower t = "wavelength") (hu : u ∈ ["um", "micrometer", "micrometre"]) :
    ∃ d N, tableData .float (pairsOf (rows.map (·.map XR.fin)) j) t u = .ok d ∧ Gives d lo hi N ∧
      ∀ x, lo ≤ x → x ≤ hi → OnLine (column rows j) x (N x) := by
  obtain ⟨hul, hn⟩ := micro_names u hu
  have hn' : (lower t, u, "um") ∈ names := by rw [ht]; exact hn
  obtain ⟨d, hd'⟩ := tableData_ok (good_rows (by omega : 0 < k) h2 hw hd) j (t := t) (u := u)
    (c := "um") (by rw [hul]; exact hn')
  have hp : pairsOf (rows.map (·.map XR.fin)) j = xrows (column rows j) := pairsOf_fin hj hw
  have hlen : 2 ≤ (column rows j).length := by simpa [column] using h2
  have hnew : RealData.newInterp .float (xrows (column rows j)) t u 1 = .ok d := by
    rw [hp] at hd'
    revert hd' hlen
    generalize column rows j = rs
    intro h1 h2
    match rs, h1, h2 with
    | p :: q :: rest, h1, h2 => first | exact h2 | exact h1
  have f1 : ∃ p ∈ column rows j, p.1 = lo := by
    obtain ⟨r, hr, e⟩ := hs.first
    exact ⟨_, List.mem_map_of_mem hr, e⟩
  have f2 : ∃ p ∈ column rows j, p.1 = hi := by
    obtain ⟨r, hr, e⟩ := hs.last
    exact ⟨_, List.mem_map_of_mem hr, e⟩
  have f3 : ∀ p ∈ column rows j, lo ≤ p.1 ∧ p.1 ≤ hi := by
    intro p hp
    obtain ⟨r, hr, rfl⟩ := List.mem_map.1 hp
    exact hs.between r hr
  refine ⟨d, tableAt (column rows j), hd', ⟨.table _ t u lo hi d ht hn hb f1 f2 f3 hnew, ?_⟩, ?_⟩
  · intro s ys hs' v hv
    obtain ⟨ov, o1, o2⟩ := Asks.convert hn' (by rw [ht]; decide) (by rw [ht]; exact hs')
    rw [ht, ← Function.comp_def XR.fin, ← List.map_map] at o2
    have := (table_values hnew hv o1 o2).1
    rw [this, List.map_map]
    rfl
  · intro x h1 h2
    obtain ⟨lo', hi', r, -, -, -, -, h5, rfl⟩ := newInterp_ok hnew
    obtain ⟨y, e, hy⟩ := (interpLinear_real (column rows j) hlen h5 x).1
      ⟨by obtain ⟨p, hp, e⟩ := f1; exact ⟨p, hp, by rw [e]; exact h1⟩,
       by obtain ⟨p, hp, e⟩ := f2; exact ⟨p, hp, by rw [e]; exact h2⟩⟩
    have ht : tableAt (column rows j) x = y := by unfold tableAt; rw [e]
    rw [ht]
    exact hy

theorem formula_gives {n : ℕ} {cs : List ℝ} {lo hi : ℝ}
    (hp : ∀ w, lo ≤ w → w ≤ hi → ∃ v, Published n cs w v) (hb : Band "wavelength" "um" lo hi)
    {t u : String} (ht : lower t = "wavelength") (hu : u ∈ ["um", "micrometer", "micrometre"]) :
    ∃ k f d N, riiFormula n = some (k, f) ∧
      RealData.newModel f (cs.map XR.fin) (.list .float [XR.fin lo, XR.fin hi]) t u = .ok d ∧
      Gives d lo hi N ∧ ∀ x, lo ≤ x → x ≤ hi → Published n cs x (N x) := by
  obtain ⟨hul, hn⟩ := micro_names u hu
  have hn' : (lower t, u, "um") ∈ names := by rw [ht]; exact hn
  obtain ⟨v0, h0⟩ := hp lo le_rfl hb.le
  obtain ⟨k, f, hk, htk, -⟩ := published_at h0 hb.pos
  obtain ⟨-, -, h3, h4, h5, -, -, -⟩ := number_facts _ (number_cases hk)
  simp only at h3 h4 h5
  obtain ⟨d, hd, -, -⟩ := (C19_index_models f h5 (cs.map XR.fin)
    (.list .float [XR.fin lo, XR.fin hi]) rfl t u).1 ⟨ht, by rw [hul]; exact hu⟩
  classical
  let N : ℝ → ℝ := fun x => if h : lo ≤ x ∧ x ≤ hi then (hp x h.1 h.2).choose else 0
  have hN : ∀ x, lo ≤ x → x ≤ hi → Published n cs x (N x) := by
    intro x h1 h2
    simp only [N]
    rw [dif_pos ⟨h1, h2⟩]
    exact (hp x h1 h2).choose_spec
  have hpart : BandPart "wavelength" "um" d lo hi :=
    .model f _ t u lo hi d ht hn hb (formula_total h3 h4 (by simpa using htk)) hd
  refine ⟨k, f, d, N, hk, hd, ⟨hpart, ?_⟩, hN⟩
  intro s ys hs v hv
  have hin := (hpart.evaluate (by decide) hs).1 ⟨v, hv⟩
  obtain ⟨ov, o1, o2⟩ := Asks.convert hn' (by rw [ht]; decide) (by rw [ht]; exact hs)
  rw [ht] at o2
  obtain ⟨ws, w1, w2, w3⟩ := C17_evaluate f _ _ t u d hd s v hv
  rw [o1, Except.ok.injEq] at w1
  subst w1
  rw [o2] at w2 w3
  refine List.ext_getElem? fun i => ?_
  cases hi' : ys[i]? with
  | none =>
    rw [List.getElem?_map, hi', Option.map_none, List.getElem?_eq_none_iff, w2, List.length_map]
    exact List.getElem?_eq_none_iff.1 hi'
  | some y =>
    have hy := List.mem_of_getElem? hi'
    obtain ⟨g1, g2⟩ := hin y hy
    obtain ⟨z, z1, z2⟩ := w3 i (XR.fin (shown "wavelength" "um" y)) (by
      rw [List.getElem?_map, hi']; rfl)
    obtain ⟨k', f', e1, -, e2⟩ := published_at (hN _ g1 g2) (lt_of_lt_of_le hb.pos g1)
    rw [hk] at e1
    cases e1
    rw [z2, Except.ok.injEq] at e2
    rw [z1, e2, List.getElem?_map, hi']
    rfl

/-- The index part of a file. -/
theorem Spec.IndexEntry.process {o : KeyOrder} (ho : o.Valid) {d : Dataset XR} {lo hi : ℝ}
    {Q : ℝ → ℝ → Prop} (h : IndexEntry d lo hi Q) (hb : Band "wavelength" "um" lo hi)
    {t u : String} (ht : lower t = "wavelength") (hu : u ∈ ["um", "micrometer", "micrometre"]) :
    ∃ out r N, processMatData1 o d = .ok out ∧ Gives r lo hi N ∧
      (∀ x, lo ≤ x → x ≤ hi → Q x (N x)) ∧
      ∀ m : Material XR, m.defType = t → m.defUnit = u →
        processDataset m out = .ok { m with name := "nk", real := some r } := by
  cases h with
  | formula h hp =>
    obtain ⟨k, f, r, N, hk, hr, hg, hN⟩ := formula_gives hp hb ht hu
    obtain ⟨out, h1, h2⟩ := h.process ho hk
    refine ⟨out, r, N, h1, hg, hN, fun m e1 e2 => ?_⟩
    rw [h2 m, e1, e2, hr]
    rfl
  | table h hs =>
    obtain ⟨r, N, hr, hg, hN⟩ := table_gives (by norm_num : 1 < 2) h.two h.width h.distinct hs hb ht hu
    obtain ⟨out, v, h1, h2, h3, h4, h5, h6⟩ := h.process ho (by simp)
    refine ⟨out, r, N, h1, hg, hN, fun m e1 e2 => ?_⟩
    rw [load_n_as m h2 h3 h4 (good_rows (by norm_num) h.two h.width h.distinct).width h5 h6, e1, e2,
      hr]
    rfl

/-- What the two parts of a material return together. -/
theorem parts_numbers {m : Material XR} {r i : RealData XR} {lo hi : ℝ} {N K : ℝ → ℝ}
    (hc : m.cplx = Option.none) (hn : m.name = "nk") (hr : m.real = some r) (hi' : m.imag = some i)
    (hp : BandParts "wavelength" "um" r i lo hi)
    {raw : Raw XR} {t u : String} {s : Spectrum XR} (hraw : FloatInput raw)
    (hnew : Spectrum.new raw t u = .ok s) {ys : List ℝ} (hs : Asks "wavelength" s ys)
    (vr : ∀ {v}, (r.evaluate s).1 = .ok v →
      v.toList = ys.map (fun y => XR.fin (N (shown "wavelength" "um" y))))
    (vi : ∀ {v}, (i.evaluate s).1 = .ok v →
      v.toList = ys.map (fun y => XR.fin (K (shown "wavelength" "um" y)))) :
    ((∃ v, (m.getNk s).1 = .ok v) ↔
      ∀ y ∈ ys, lo ≤ shown "wavelength" "um" y ∧ shown "wavelength" "um" y ≤ hi) ∧
    ∀ v, (m.getNk s).1 = .ok v → Numbers v s.values.isArray
      (ys.map fun y => ⟨N (shown "wavelength" "um" y), K (shown "wavelength" "um" y)⟩) := by
  have hal := aligned_new hraw hnew
  have e0 : (m.getNk s).1 = (m.evalStored s).1 := by
    have := reported_stored (m := m) (.inl hn) (s := s) ⟨raw, t, u, hnew⟩
    unfold reported at this
    rwa [if_neg (by rw [hn]; decide)] at this
  obtain ⟨p1, p2⟩ := hp.plain
  rw [e0]
  refine ⟨by rw [stored_both hc hr hi' p1 p2 hal, hp.evaluate (by decide) hs], fun v hv => ?_⟩
  obtain ⟨⟨v1, h1⟩, v2, h2⟩ := (stored_both hc hr hi' p1 p2 hal).1 ⟨v, hv⟩
  have s1 : (r.evaluate s).2 = s := evalPart_plain (d := some r) p1 s
  have s2 : (i.evaluate s).2 = s := evalPart_plain (d := some i) p2 s
  have f1 := evaluate_form r s hal h1
  have f2 := evaluate_form i s hal h2
  rw [s1] at f1
  rw [s2] at f2
  obtain ⟨w, c1, c2⟩ := combine_numbers (E := fun y => ⟨N (shown "wavelength" "um" y),
    K (shown "wavelength" "um" y)⟩) f1 f2 (vr h1) (vi h2)
  have t1 : r.evaluate s = (.ok v1, s) := Prod.ext h1 s1
  have t2 : i.evaluate s = (.ok v2, s) := Prod.ext h2 s2
  have : m.evalStored s = (.ok w, s) := by
    unfold Material.evalStored
    simp only [hc, hr, hi', evalPart, t1, t2, c1]
  rw [this] at hv
  cases hv
  exact c2

omit [NumText XR] in
/-- The part that completes a refractive index. -/
theorem zero_values {s : Spectrum XR} {ys : List ℝ} (hal : Aligned s) (hs : Asks "wavelength" s ys)
    {v : Vals XR} (hv : ((cdata (lit 0) : RealData XR).evaluate s).1 = .ok v) :
    v.toList = ys.map (fun _ => XR.fin 0) := by
  simp only [cdata, RealData.evaluate, bind, Except.bind] at hv
  have hcon : ∃ b, (defaultSpec : Spectrum XR).contains s = .ok b := by
    cases h : (defaultSpec : Spectrum XR).contains s with
    | ok b => exact ⟨b, rfl⟩
    | error e => rw [h] at hv; cases hv
  obtain ⟨b, hcon⟩ := hcon
  rw [hcon] at hv
  simp only at hv
  rcases hal with ⟨x, y, h1, h2⟩ | ⟨xs, zs, h1, h2, h3⟩
  · rcases hs.stands.2 with ⟨y', rfl, -⟩ | h
    · rw [h1] at hv
      cases hv
      simp [Vals.toList, XR.lit_eq]
    · rw [h2] at h; cases h
  · rcases hs.stands.2 with ⟨y', rfl, h⟩ | h
    · rw [h2] at h; cases h
    · rw [h2] at h
      have : zs = ys.map XR.fin := by injection h
      rw [this, List.length_map] at h3
      rw [h1] at hv
      cases hv
      simp [Vals.toList, h3, XR.lit_eq]

theorem load_nk_at {m : Material XR} {t u : String} (e1 : m.defType = t) (e2 : m.defUnit = u)
    {d : Dataset XR} {v : DVal XR} {rows : List (List XR)}
    (hd : dictGet d "DataType" = .ok (.str "tabulated nk")) (hv : dictGet d "Data" = .ok v)
    (hs : strTableToNumeric v.asTable = .ok (.d2 3 .float rows)) (hw : ∀ r ∈ rows, r.length = 3)
    (ht : dictGet d "SpectrumType" = .ok (.str "")) (hu : dictGet d "Unit" = .ok (.str ""))
    {a b : RealData XR} (ha : tableData .float (pairsOf rows 1) t u = .ok a)
    (hb : tableData .float (pairsOf rows 2) t u = .ok b) :
    processDataset m d = .ok { m with name := "nk", real := some a, imag := some b } := by
  subst e1 e2
  exact load_nk_as m hd hv hs hw ht hu ha hb

theorem load_k_at {m : Material XR} {t u : String} (e1 : m.defType = t) (e2 : m.defUnit = u)
    {d : Dataset XR} {v : DVal XR} {rows : List (List XR)}
    (hd : dictGet d "DataType" = .ok (.str "tabulated k")) (hv : dictGet d "Data" = .ok v)
    (hs : strTableToNumeric v.asTable = .ok (.d2 2 .float rows)) (hw : ∀ r ∈ rows, r.length = 2)
    (ht : dictGet d "SpectrumType" = .ok (.str "")) (hu : dictGet d "Unit" = .ok (.str ""))
    {a : RealData XR} (ha : tableData .float (pairsOf rows 1) t u = .ok a) :
    processDataset m d = .ok { m with name := "nk", imag := some a } := by
  subst e1 e2
  rw [load_k_as m hd hv hs hw ht hu, ha]
  rfl

variable [YamlIO XR]

/-- C108: a file of refractiveindex.info, loaded as the catalogue does with the spectrum type
`wavelength` and the unit micrometre, gives the published refractive index and extinction
coefficient of the file at every wavelength of its range and no value elsewhere. -/
theorem C108_file {o : KeyOrder} (ho : o.Valid) {text : List Char} {ds : List (Dataset XR)}
    (hf : YamlFile text ds) {lo hi : ℝ} {Q R : ℝ → ℝ → Prop} (hc : Content ds lo hi Q R)
    (path t u : String) (ht : lower t = "wavelength")
    (hu : u ∈ ["um", "micrometer", "micrometre"]) :
    ∃ fd r' m, ∃ N K : ℝ → ℝ, (Reader.fresh o : Reader XR).readFile o ".yml" text = (.ok fd, r') ∧
      Material.new (fun _ => .ok fd) (rowKw path (.str t) (.str u)) = .ok m ∧
      m.maxRange = .ok (.array .float [XR.fin lo, XR.fin hi]) ∧
      (∀ x, lo ≤ x → x ≤ hi → Q x (N x) ∧ R x (K x)) ∧
      ∀ raw t' u' s, FloatInput raw → Spectrum.new raw t' u' = .ok s → ∀ ys,
        Asks "wavelength" s ys →
        ((∃ v, (m.getNk s).1 = .ok v) ↔
          ∀ y ∈ ys, lo ≤ shown "wavelength" "um" y ∧ shown "wavelength" "um" y ≤ hi) ∧
        ∀ v, (m.getNk s).1 = .ok v → Numbers v s.values.isArray
          (ys.map fun y => ⟨N (shown "wavelength" "um" y), K (shown "wavelength" "um" y)⟩) := by
  obtain ⟨g1, g2, g3⟩ := rowKw_good (F := XR) path t u
  obtain ⟨hul, hn⟩ := micro_names u hu
  have finishIt : ∀ (ds' : List (Dataset XR)) (r i : RealData XR) (N K : ℝ → ℝ),
      ds.mapM (processMatData1 o) = .ok ds' →
      (∀ md, (ds'.foldlM processDataset { blankMaterial (parsedOf (rowKw path (.str t) (.str u)))
        with metaData := some md }).map finish = .ok { blankMaterial (parsedOf (rowKw path (.str t)
        (.str u))) with metaData := some md, name := "nk", real := some r, imag := some i }) →
      BandParts "wavelength" "um" r i lo hi →
      (∀ x, lo ≤ x → x ≤ hi → Q x (N x) ∧ R x (K x)) →
      (∀ {s ys}, Aligned s → Asks "wavelength" s ys → ∀ {v}, (r.evaluate s).1 = .ok v →
        v.toList = ys.map (fun y => XR.fin (N (shown "wavelength" "um" y)))) →
      (∀ {s ys}, Aligned s → Asks "wavelength" s ys → ∀ {v}, (i.evaluate s).1 = .ok v →
        v.toList = ys.map (fun y => XR.fin (K (shown "wavelength" "um" y)))) →
      ∃ fd r' m, ∃ N K : ℝ → ℝ, (Reader.fresh o : Reader XR).readFile o ".yml" text = (.ok fd, r') ∧
      Material.new (fun _ => .ok fd) (rowKw path (.str t) (.str u)) = .ok m ∧
      m.maxRange = .ok (.array .float [XR.fin lo, XR.fin hi]) ∧
      (∀ x, lo ≤ x → x ≤ hi → Q x (N x) ∧ R x (K x)) ∧
      ∀ raw t' u' s, FloatInput raw → Spectrum.new raw t' u' = .ok s → ∀ ys,
        Asks "wavelength" s ys →
        ((∃ v, (m.getNk s).1 = .ok v) ↔
          ∀ y ∈ ys, lo ≤ shown "wavelength" "um" y ∧ shown "wavelength" "um" y ≤ hi) ∧
        ∀ v, (m.getNk s).1 = .ok v → Numbers v s.values.isArray
          (ys.map fun y => ⟨N (shown "wavelength" "um" y), K (shown "wavelength" "um" y)⟩) := by
    intro ds' r i N K h1 h2 h3 h4 h5 h6
    obtain ⟨fd, r', e1, e2, e3⟩ := hf.read ho h1
    obtain ⟨md, -, e4⟩ := new_path g1 g2 g3 e2
    rw [e3, h2 md] at e4
    refine ⟨fd, r', _, N, K, e1, e4, ?_, h4, ?_⟩
    · have := BandParts.maxRange (c := "um") (r := r) (i := i) (lo := lo) (hi := hi)
        (m := { blankMaterial (parsedOf (rowKw path (.str t) (.str u))) with
          metaData := some md, name := "nk", real := some r, imag := some i })
        (by show BandParts (lower t) _ _ _ _ _; rw [ht]; exact h3) rfl (.inl rfl) rfl rfl
        (by show (lower t, u, "um") ∈ names; rw [ht]; exact hn)
        (by show lower t ≠ _; rw [ht]; decide)
      rw [this]
      refine congrArg (fun l => Except.ok (Vals.array DType.float l)) ?_
      exact if_pos ht
    · intro raw t' u' s hraw hnew ys hs
      exact parts_numbers rfl rfl rfl rfl h3 hraw hnew hs (h5 (aligned_new hraw hnew) hs)
        (h6 (aligned_new hraw hnew) hs)
  cases hc with
  | index h hb =>
    obtain ⟨out, r, N, p1, p2, p3, p4⟩ := h.process ho hb ht hu
    refine finishIt [out] r (cdata (lit 0)) N (fun _ => 0) ?_ ?_ (.first _ p2.part)
      (fun x a b => ⟨p3 x a b, rfl⟩) (fun _ hs _ hv => p2.val hs hv)
      (fun hal hs _ hv => zero_values hal hs hv)
    · simp only [List.mapM_cons, List.mapM_nil, p1]; rfl
    · intro md
      rw [List.foldlM_cons, p4 _ rfl rfl]
      rfl
  | @both d d' lo hi lo' hi' Q rowsK h hb h' hs' hb' =>
    obtain ⟨out, r, N, p1, p2, p3, p4⟩ := h.process ho hb ht hu
    obtain ⟨i, K, q1, q2, q3⟩ := table_gives (by norm_num : 1 < 2) h'.two h'.width h'.distinct hs' hb'
      ht hu
    obtain ⟨out', v, k1, k2, k3, k4, k5, k6⟩ := h'.process ho (by simp)
    refine finishIt [out, out'] r i N K ?_ ?_ (.both p2.part q2.part)
      (fun x a b => ⟨p3 x ((le_max_left _ _).trans a) (b.trans (min_le_left _ _)),
        q3 x ((le_max_right _ _).trans a) (b.trans (min_le_right _ _))⟩)
      (fun _ hs _ hv => p2.val hs hv) (fun _ hs _ hv => q2.val hs hv)
    · simp only [List.mapM_cons, List.mapM_nil, p1, k1]; rfl
    · intro md
      rw [List.foldlM_cons, p4 _ rfl rfl]
      simp only [bind, Except.bind, List.foldlM_cons]
      rw [load_k_at (t := t) (u := u) rfl rfl k2 k3 k4
        (good_rows (by norm_num) h'.two h'.width h'.distinct).width k5 k6 q1]
      rfl
  | @nk d lo hi rows h hs hb =>
    obtain ⟨r, N, p1, p2, p3⟩ := table_gives (by norm_num : 1 < 3) h.two h.width h.distinct hs hb ht hu
    obtain ⟨i, K, q1, q2, q3⟩ := table_gives (by norm_num : 2 < 3) h.two h.width h.distinct hs hb ht hu
    obtain ⟨out, v, k1, k2, k3, k4, k5, k6⟩ := h.process ho (by simp)
    have hp := BandParts.both p2.part q2.part
    rw [max_self, min_self] at hp
    refine finishIt [out] r i N K ?_ ?_ hp (fun x a b => ⟨p3 x a b, q3 x a b⟩)
      (fun _ hs _ hv => p2.val hs hv) (fun _ hs _ hv => q2.val hs hv)
    · simp only [List.mapM_cons, List.mapM_nil, k1]; rfl
    · intro md
      rw [List.foldlM_cons, load_nk_at (t := t) (u := u) rfl rfl k2 k3 k4
        (good_rows (by norm_num) h.two h.width h.distinct).width k5 k6 p1 q1]
      rfl

/-- C108, the other half: a file with a formula that is loaded without stating the unit (then
nanometre), or with any other type or unit, is refused. -/
theorem C108_unit {o : KeyOrder} (ho : o.Valid) {text : List Char} {d : Dataset XR}
    {ds' : List (Dataset XR)} {n : ℕ} {cs : List ℝ} {lo hi w v : ℝ} (hf : YamlFile text (d :: ds'))
    (h : FormulaEntry d n cs lo hi) (hw : 0 < w) (hp : Published n cs w v)
    (hds : ∃ out, ds'.mapM (processMatData1 o) = .ok out) (path : String) :
    ∃ fd r', (Reader.fresh o : Reader XR).readFile o ".yml" text = (.ok fd, r') ∧
      Material.new (fun _ => .ok fd) (fileKw XR path) = .error .value ∧
      ∀ t u, ¬ (lower t = "wavelength" ∧ lower u ∈ ["um", "micrometer", "micrometre"]) →
        Material.new (fun _ => .ok fd) (rowKw path (.str t) (.str u)) = .error .value := by
  obtain ⟨k, f, hk, -, -⟩ := published_at hp hw
  obtain ⟨-, -, -, -, h5, -, -, -⟩ := number_facts _ (number_cases hk)
  simp only at h5
  obtain ⟨out, q1, q2⟩ := h.process ho hk
  obtain ⟨outs, hds⟩ := hds
  obtain ⟨fd, r', e1, e2, e3⟩ := hf.read ho (ds' := out :: outs) (by
    simp only [List.mapM_cons, q1, hds]; rfl)
  have refused : ∀ {m : Material XR} {t u : String}, m.defType = t → m.defUnit = u →
      ¬ (lower t = "wavelength" ∧ lower u ∈ ["um", "micrometer", "micrometre"]) →
      processDataset m out = .error .value := by
    intro m t u e1 e2 htu
    rw [q2, e1, e2, (C19_index_models f h5 (cs.map XR.fin) (.list .float [XR.fin lo, XR.fin hi])
      rfl t u).2 htu]
    rfl
  refine ⟨fd, r', e1, ?_, fun t u htu => ?_⟩
  · obtain ⟨md, hmd⟩ := new_file (F := XR) path e2
    have := hmd fd.datasets
    rw [e3, List.foldlM_cons, refused (t := "wavelength") (u := "nanometer") rfl rfl
      (by decide +kernel)] at this
    rw [← e3] at this
    exact this
  · obtain ⟨g1, g2, g3⟩ := rowKw_good (F := XR) path t u
    obtain ⟨md, -, e4⟩ := new_path g1 g2 g3 e2
    rw [e4, e3, List.foldlM_cons, refused (t := t) (u := u) rfl rfl htu]
    rfl

end loading

/-- What a number of a formula and its coefficients publish at a wavelength is one value. -/
theorem pairs_flat_inj : ∀ {ps qs : List (ℝ × ℝ)},
    (ps.flatMap fun p => [p.1, p.2]) = (qs.flatMap fun p => [p.1, p.2]) → ps = qs
  | [], [], _ => rfl
  | [], _ :: _, h => by simp at h
  | _ :: _, [], h => by simp at h
  | (a, b) :: ps, (c, d) :: qs, h => by
    simp only [List.flatMap_cons, List.cons_append, List.nil_append, List.cons.injEq] at h
    rw [h.1, h.2.1, pairs_flat_inj h.2.2]

theorem Spec.Published.unique {n : ℕ} {cs : List ℝ} {w v v' : ℝ} (h : Published n cs w v)
    (h' : Published n cs w v') : v = v' := by
  generalize hcs : cs = cs' at h'
  cases h <;> cases h' <;>
    simp only [List.cons.injEq, List.cons_append, List.nil_append, List.nil_eq, reduceCtorEq,
      and_false] at hcs
  all_goals first
    | (obtain ⟨rfl, h2⟩ := hcs; rw [pairs_flat_inj h2])
    | (obtain ⟨rfl, rfl, rfl, rfl, rfl, rfl, rfl, rfl, rfl, h2⟩ := hcs; rw [pairs_flat_inj h2])
    | (obtain ⟨rfl, rfl, rfl, rfl, rfl, -⟩ := hcs; rfl)
    | (obtain ⟨rfl, rfl, rfl, rfl, rfl, rfl, -⟩ := hcs; rfl)

section example_file

/-- Reading of the numbers of the example. -/
noncomputable def glassNumbers : NumText XR := ⟨fun t =>
  if t = "1.5".toList then .ok (XR.fin 1.5)
  else if t = "0.004".toList then .ok (XR.fin 0.004)
  else if t = "-2".toList then .ok (XR.fin (-2))
  else if t = "0.5".toList then .ok (XR.fin 0.5)
  else if t = "2".toList then .ok (XR.fin 2)
  else .error .value⟩

/-- A glass: n = 1.5 + 0.004 / w² from 0.5 to 2 micrometres. -/
def glass : Dataset XR := [("type", .str "formula 5"), ("wavelength_range", .str "0.5 2"),
  ("coefficients", .str "1.5 0.004 -2")]

noncomputable def glassYaml : YamlIO XR :=
  ⟨fun _ => .ok [("REFERENCES", .entry (.str "a glass")), ("DATA", .data [glass])], fun _ => []⟩

theorem glass_entry : letI := glassNumbers; FormulaEntry glass 5 [1.5, 0.004, -2] 0.5 2 := by
  letI := glassNumbers
  have word : ∀ {s t rest : List Char} {ts : List (List Char)}, (∀ c ∈ s, pySpace c = true) →
      Word t → (∀ c ∈ rest.head?, pySpace c = true) → LineOf ts rest →
      LineOf (t :: ts) (s ++ t ++ rest) := fun h1 h2 h3 h4 => .word h1 h2 h3 h4
  have blank : LineOf [] [] := .blank (by simp)
  have hw : ∀ t ∈ ["1.5".toList, "0.004".toList, "-2".toList, "0.5".toList, "2".toList], Word t := by
    unfold Word; decide +kernel
  refine ⟨by unfold Keys; decide +kernel, by decide +kernel, rfl, ⟨_, rfl, ["1.5".toList,
    "0.004".toList, "-2".toList], ?_, ?_⟩, ⟨_, rfl, ["0.5".toList, "2".toList], ?_, ?_⟩⟩
  · have := word (s := []) (t := "1.5".toList) (by simp) (hw _ (by simp)) (by decide +kernel)
      (word (s := [' ']) (t := "0.004".toList) (by decide +kernel) (hw _ (by simp))
        (by decide +kernel) (word (s := [' ']) (t := "-2".toList) (by decide +kernel)
          (hw _ (by simp)) (by simp) blank))
    exact this
  · refine .cons ?_ (.cons ?_ (.cons ?_ .nil)) <;>
      (show glassNumbers.parseFloat _ = _; unfold glassNumbers; simp)
  · have := word (s := []) (t := "0.5".toList) (by simp) (hw _ (by simp)) (by decide +kernel)
      (word (s := [' ']) (t := "2".toList) (by decide +kernel) (hw _ (by simp)) (by simp) blank)
    exact this
  · refine .cons ?_ (.cons ?_ .nil) <;>
      (show glassNumbers.parseFloat _ = _; unfold glassNumbers; simp)

theorem glass_file (text : List Char) : letI := glassYaml; YamlFile text [glass] := by
  letI := glassYaml
  exact ⟨⟨_, rfl, by unfold Keys; decide +kernel, by unfold UpperKeys; decide +kernel, rfl, by
    intro p hp hne
    simp only [List.mem_cons, List.not_mem_nil, or_false] at hp
    rcases hp with rfl | rfl
    · exact ⟨_, rfl⟩
    · exact absurd rfl hne⟩⟩

theorem glass_published (w : ℝ) :
    Published 5 [1.5, 0.004, -2] w (1.5 + 0.004 * w ^ (-2 : ℝ)) := by
  have := Published.cauchy 1.5 [(0.004, -2)] w
  simpa using this

theorem glass_content : letI := glassNumbers;
    Content [glass] 0.5 2 (Published 5 [1.5, 0.004, -2]) (fun _ k => k = 0) := by
  letI := glassNumbers
  refine .index (.formula glass_entry fun w _ _ => ⟨_, glass_published w⟩) ⟨?_, ?_, ?_, ?_, ?_⟩
  · norm_num
  · norm_num
  · exact ⟨500000000, by norm_num⟩
  · exact ⟨2000000000, by norm_num⟩
  · exact fun h => absurd rfl h

/-- Concrete case for `C108_file`: the glass at every wavelength from 0.5 to 2 micrometres. -/
example [SciPy XR] (text : List Char) {o : KeyOrder} (ho : o.Valid) :
    letI := glassNumbers; letI := glassYaml
    ∃ fd r' m, (Reader.fresh o : Reader XR).readFile o ".yml" text = (.ok fd, r') ∧
      Material.new (fun _ => .ok fd) (rowKw "glass.yml" (.str "wavelength") (.str "um")) = .ok m ∧
      m.maxRange = .ok (.array .float [XR.fin 0.5, XR.fin 2]) ∧
      ∀ raw t u s, FloatInput raw → Spectrum.new raw t u = .ok s → ∀ ys, Asks "wavelength" s ys →
        ∀ v, (m.getNk s).1 = .ok v → Numbers v s.values.isArray (ys.map fun y =>
          ⟨1.5 + 0.004 * (shown "wavelength" "um" y) ^ (-2 : ℝ), 0⟩) := by
  letI := glassNumbers
  letI := glassYaml
  obtain ⟨fd, r', m, N, K, h1, h2, h3, h4, h5⟩ := C108_file ho (glass_file text) glass_content
    "glass.yml" "wavelength" "um" (by decide +kernel) (by simp)
  refine ⟨fd, r', m, h1, h2, h3, fun raw t u s hr hn ys hs v hv => ?_⟩
  obtain ⟨a1, a2⟩ := h5 raw t u s hr hn ys hs
  have := a2 v hv
  rwa [List.map_congr_left (g := fun y => (⟨1.5 + 0.004 * (shown "wavelength" "um" y) ^ (-2 : ℝ), 0⟩ :
    ℂ)) (fun y hy => by
      obtain ⟨b1, b2⟩ := a1.1 ⟨v, hv⟩ y hy
      obtain ⟨c1, c2⟩ := h4 _ b1 b2
      rw [c1.unique (glass_published _), c2])] at this

/-- Concrete case for `C108_unit`: the glass without its unit. -/
example [SciPy XR] (text : List Char) {o : KeyOrder} (ho : o.Valid) :
    letI := glassNumbers; letI := glassYaml
    ∃ fd r', (Reader.fresh o : Reader XR).readFile o ".yml" text = (.ok fd, r') ∧
      Material.new (fun _ => .ok fd) (fileKw XR "glass.yml") = .error .value := by
  letI := glassNumbers
  letI := glassYaml
  obtain ⟨fd, r', h1, h2, -⟩ := C108_unit ho (glass_file text) glass_entry one_pos
    (glass_published 1) ⟨[], rfl⟩ "glass.yml"
  exact ⟨fd, r', h1, h2⟩

end example_file

end Disp

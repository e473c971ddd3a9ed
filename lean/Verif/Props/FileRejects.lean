import Verif.Props.MaterialFiles
import Std.Data.String.ToInt
/-!
# C36: which datasets are rejected

A file that loads contains only datasets whose `DataType` consists of two words: `tabulated` with
any second word (see `C36_ignored`), `formula` with a number from 1 to 9, or `model` with the name
of a model that returns an index or a permittivity. One other dataset, anywhere in the file, and
the file does not load.
-/

namespace Disp

open Spec

/-- The models whose values are an index or a permittivity. -/
def Spec.fileModels : List String :=
  ["Sellmeier", "Sellmeier2", "Polynomial", "RefractiveIndexInfo", "Cauchy", "Gases", "Herzberger",
   "Retro", "Exotic", "Drude", "DrudeLorentz", "TaucLorentz"]

/-- The kinds of datasets: two words. -/
def Spec.FileKind (a b : String) : Prop :=
  a = "tabulated" ∨ (a = "formula" ∧ ∃ n : ℤ, b.toInt? = some n ∧ 1 ≤ n ∧ n ≤ 9) ∨
    (a = "model" ∧ b ∈ fileModels)

section
variable {F : Type} [PyFloat F] [SciPy F] [NumText F]

omit [NumText F] in
theorem modelDict_kind {m m' : Material F} {d : ModelKw F} {k : String} (hk : d.name = some k)
    (h : processModelDict m d = .ok m') : k ∈ fileModels := by
  unfold processModelDict at h
  rw [hk] at h
  simp only [bind, Except.bind] at h
  unfold classRef at h
  by_cases h1 : k ∈ fileModels
  · exact h1
  · exfalso
    simp only [fileModels, List.mem_cons, List.not_mem_nil, or_false, not_or] at h1
    obtain ⟨n1, n2, n3, n4, n5, n6, n7, n8, n9, n10, n11, n12⟩ := h1
    simp only [n1, n2, n3, n4, n5, n6, n7, n8, n9, n10, n11, n12, if_false] at h
    by_cases e1 : k = "Fano"
    · simp only [e1, if_true] at h
      repeat' split at h
      all_goals first
        | cases h
        | (simp only [Formula.output, storeReal] at h; cases h)
        | (rename_i hc; cases hc; simp only [Formula.output, storeReal] at h; repeat' split at h; all_goals cases h)
    · simp only [e1, if_false] at h
      by_cases e2 : k = "Model"
      · simp only [e2, if_true] at h
        repeat' split at h
        all_goals first
          | cases h
          | (rename_i hc; cases hc)
      · simp only [e2, if_false] at h
        by_cases e3 : ["SpectralData", "Constant", "Extrapolation", "Interpolation", "Spectrum",
            "interp1d"].contains k = true
        · rw [if_pos e3] at h
          cases hp : d.params with
          | none => rw [hp] at h; cases h
          | some p =>
            cases hv : d.validRange with
            | none => rw [hp, hv] at h; cases h
            | some v => rw [hp, hv] at h; cases h
        · rw [if_neg e3] at h
          by_cases e4 : ["re", "np", "splrep", "splev", "_numeric_to_string_table"].contains k = true
          · rw [if_pos e4] at h
            cases h
          · rw [if_neg e4] at h
            cases h

theorem dataset_kind {m m' : Material F} {d : Dataset F} (h : processDataset m d = .ok m') :
    ∃ s a b, dictGet d "DataType" = .ok (.str s) ∧ splitTwo s = .ok (a, b) ∧ FileKind a b := by
  unfold processDataset at h
  cases hs : d.getStr "DataType" with
  | error e => rw [hs] at h; cases h
  | ok s =>
    rw [hs] at h
    simp only [bind, Except.bind] at h
    cases hab : splitTwo s with
    | error e => rw [hab] at h; cases h
    | ok ab =>
      obtain ⟨a, b⟩ := ab
      rw [hab] at h
      simp only at h
      have hd : dictGet d "DataType" = .ok (.str s) := by
        unfold Dataset.getStr at hs
        split at hs
        · next h' => rw [h', Except.ok.inj hs]
        · cases hs
        · cases hs
      refine ⟨s, a, b, hd, hab, ?_⟩
      by_cases ha : a = "tabulated"
      · exact .inl ha
      · rw [if_neg ha] at h
        by_cases hfm : a = "formula" ∨ a = "model"
        · rw [if_pos hfm] at h
          unfold processFormulaData at h
          rw [hs] at h
          simp only [bind, Except.bind] at h
          rw [hab] at h
          simp only at h
          rw [if_neg (not_not.2 hfm)] at h
          obtain ⟨name, hname, d', hd', hp⟩ : ∃ name, formulaName a b = .ok name ∧
              ∃ d' : ModelKw F, d'.name = some name ∧ processModelDict m d' = .ok m' := by
            repeat' split at h
            all_goals first
              | cases h
              | exact ⟨_, by assumption, _, rfl, h⟩
          have hk := modelDict_kind hd' hp
          rcases hfm with rfl | rfl
          · refine .inr (.inl ⟨rfl, ?_⟩)
            unfold formulaName at hname
            rw [if_pos rfl] at hname
            cases hb : b.toInt? with
            | none => rw [hb] at hname; cases hname
            | some n =>
              rw [hb] at hname
              refine ⟨n, rfl, ?_⟩
              by_contra hc
              have : methodIds.lookup n = none := by
                rw [List.lookup_eq_none_iff]
                intro p hp
                simp only [methodIds, List.mem_cons, List.not_mem_nil, or_false] at hp
                simp only [bne_iff_ne, ne_eq]
                rintro rfl
                rcases hp with rfl | rfl | rfl | rfl | rfl | rfl | rfl | rfl | rfl <;>
                  exact hc ⟨by norm_num, by norm_num⟩
              simp only [this] at hname
              cases hname
          · refine .inr (.inr ⟨rfl, ?_⟩)
            unfold formulaName at hname
            rw [if_neg (by decide)] at hname
            rw [Except.ok.inj hname]
            exact hk
        · rw [if_neg hfm] at h
          cases h

theorem datasets_kind : ∀ {ds : List (Dataset F)} {m m' : Material F},
    ds.foldlM processDataset m = .ok m' → ∀ d ∈ ds,
    ∃ s a b, dictGet d "DataType" = .ok (.str s) ∧ splitTwo s = .ok (a, b) ∧ FileKind a b := by
  intro ds
  induction ds with
  | nil => intro m m' _ d hd; cases hd
  | cons x ds ih =>
    intro m m' h d hd
    rw [List.foldlM_cons] at h
    cases hx : processDataset m x with
    | error e => rw [hx] at h; cases h
    | ok m1 =>
      rw [hx] at h
      rcases List.mem_cons.1 hd with rfl | hd
      · exact dataset_kind hx
      · exact ih h d hd

/-- C36, the part of the rejections that holds: a file with a dataset of any other kind than the
three of `FileKind`, at any place, does not load. Missing for the full claim: tables of unknown
quantities, which are ignored (`C36_ignored`). -/
theorem C36_rejects_partial (md : List (String × MetaVal)) (hmd : HasMeta md)
    (ds : List (Dataset F)) (d : Dataset F) (hd : d ∈ ds)
    (hk : ∀ s a b, dictGet d "DataType" = .ok (.str s) → splitTwo s = .ok (a, b) → ¬ FileKind a b) :
    ∃ e, loadFile md ds = .error e := by
  obtain ⟨md', hl⟩ := new_file (F := F) "file" hmd
  cases h : loadFile md ds with
  | error e => exact ⟨e, rfl⟩
  | ok m =>
    exfalso
    unfold loadFile at h
    rw [hl] at h
    cases h1 : ds.foldlM processDataset (fileBlank F "file" md') with
    | error e => rw [h1] at h; cases h
    | ok m1 =>
      obtain ⟨s, a, b, e1, e2, e3⟩ := datasets_kind h1 d hd
      exact hk s a b e1 e2 e3

/-- Concrete case: a measured table of the real permittivity, written with a different word, makes
the file useless whatever else it contains. -/
example (ds : List (Dataset F)) : ∃ e,
    loadFile blankFileMeta (ds ++ [[("DataType", .str "measured n"), ("Data", .str "1 2")]]) =
      .error e := by
  refine C36_rejects_partial _ blankFileMeta_ok _ _ (List.mem_append_right _ (List.mem_singleton.2 rfl)) ?_
  intro s a b h1 h2
  cases h1
  rw [show splitTwo "measured n" = .ok ("measured", "n") from by decide +kernel] at h2
  cases h2
  rintro (h | ⟨h, -⟩ | ⟨h, -⟩) <;> exact absurd h (by decide)

/-- C36, the exception for an unknown formula number: a dataset whose other entries can be read and
whose formula number is not one of 1 to 9 raises `KeyError`. Missing for the full claim: see
`C36_rejects_partial`. -/
theorem C36_number_partial (md : List (String × MetaVal)) (hmd : HasMeta md)
    (ds : List (Dataset F)) (d : Dataset F) {s b x y : String} {n : ℤ} {ps rs : List F}
    {st un : DVal F}
    (hd : dictGet d "DataType" = .ok (.str s)) (hs : splitTwo s = .ok ("formula", b))
    (hb : b.toInt? = some n) (hn : n < 1 ∨ 9 < n)
    (hv : dictGet d "Data" = .ok (.str x)) (hr : dictGet d "ValidRange" = .ok (.str y))
    (hx : (splitSpaces x.toList).mapM NumText.parseFloat = .ok ps)
    (hy : (splitSpaces y.toList).mapM NumText.parseFloat = .ok rs) (hy0 : y ≠ "")
    (ht : dictGet d "SpectrumType" = .ok st) (hu : dictGet d "Unit" = .ok un) :
    loadFile md (d :: ds) = .error .key := by
  obtain ⟨md', hl⟩ := new_file (F := F) "file" hmd
  have hlook : methodIds.lookup n = Option.none := by
    have e : ∀ k : ℤ, 1 ≤ k → k ≤ 9 → (n == k) = false := by
      intro k h1 h2
      rw [beq_eq_false_iff_ne]; omega
    simp only [methodIds, List.lookup_cons, List.lookup_nil, e 1 (by norm_num) (by norm_num),
      e 2 (by norm_num) (by norm_num), e 3 (by norm_num) (by norm_num),
      e 4 (by norm_num) (by norm_num), e 5 (by norm_num) (by norm_num),
      e 6 (by norm_num) (by norm_num), e 7 (by norm_num) (by norm_num),
      e 8 (by norm_num) (by norm_num), e 9 (by norm_num) (by norm_num)]
  have hp : ∀ m : Material F, processDataset m d = .error .key := by
    intro m
    unfold processDataset
    simp only [Dataset.getStr, hd, bind, Except.bind, hs,
      show ¬ ("formula" = "tabulated") from by decide, if_false, true_or, if_true]
    unfold processFormulaData
    have e2 : ¬ (True ∧ b.toInt? = Option.none) := by rw [hb]; simp
    simp only [Dataset.getStr, hd, hv, bind, Except.bind, hs, true_or, not_true, if_false,
      if_neg e2, parseRange, hr, if_neg hy0, hy, hx, ht, hu, formulaName, if_true, hb, hlook]
    simp
  unfold loadFile
  rw [hl, List.foldlM_cons, hp]
  rfl

/-- Concrete case: formula 10. -/
example (ds : List (Dataset F)) (h : ∃ c : F, NumText.parseFloat ['1'] = .ok c) :
    loadFile blankFileMeta ([("DataType", .str "formula 10"), ("ValidRange", .str "1 1"),
      ("Data", .str "1"), ("SpectrumType", .str ""), ("Unit", .str "")] :: ds) =
      .error .key := by
  obtain ⟨c, hc⟩ := h
  refine C36_number_partial _ blankFileMeta_ok ds _ (s := "formula 10") (b := "10") (n := 10)
    (x := "1") (y := "1 1") (ps := [c]) (rs := [c, c]) (st := .str "") (un := .str "")
    rfl (by decide +kernel) (Nat.toInt?_repr 10) (Or.inr (by norm_num)) rfl rfl ?_ ?_ (by decide)
    rfl rfl
  · rw [show splitSpaces "1".toList = [['1']] from by decide +kernel]
    simp only [List.mapM_cons, List.mapM_nil, hc]; rfl
  · rw [show splitSpaces "1 1".toList = [['1'], ['1']] from by decide +kernel]
    simp only [List.mapM_cons, List.mapM_nil, hc]; rfl

end
end Disp

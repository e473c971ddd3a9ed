import Verif.Props.UnknownNames
/-!
# C154: kinds of data in YAML files that nothing knows

The kind of a dataset is a text like `tabulated nk`, `formula 1` or `model Drude`.
-/

namespace Disp

open Spec

/-! ## Specification -/

/-- The words with which a kind begins. -/
def Spec.kindWords : List String := ["formula", "model", "tabulated"]

/-- The kinds of tables. -/
def Spec.tableKinds : List String := ["n", "k", "nk", "n_alpha", "eps"]

/-- The models of the library by their names. -/
def Spec.modelKinds : List String := ["Sellmeier", "Sellmeier2", "Polynomial", "RefractiveIndexInfo",
  "Cauchy", "Gases", "Herzberger", "Retro", "Exotic", "Fano", "Drude", "DrudeLorentz", "TaucLorentz"]

/-- A kind that is documented: a table of one of the kinds above, a numbered formula, or a model
of one of the names above. -/
def Spec.KnownKind (kind : String) : Prop :=
  (∃ k ∈ modelKinds, NamesModel kind k) ∨
    ∃ id ∈ tableKinds, LineOf ["tabulated".toList, id.toList] kind.toList

/-- Two words that look like a formula or a model, but name none: a formula whose number is not one
of 1 to 9, or has a letter; a model with another name than those above. -/
inductive Spec.NamesNothing : String → String → Prop
  | number {n : ℕ} : n = 0 ∨ 9 < n → NamesNothing "formula" (toString n)
  | letter {id : String} {c : Char} : c ∈ id.toList → c.isAlpha → NamesNothing "formula" id
  | model {id : String} : id ∉ modelKinds → NamesNothing "model" id

/-- The names of the numbers of a dataset whose kind begins with the given word. -/
def Spec.numberNames (w : String) : String × String :=
  if w = "tabulated" then ("data", "Data") else ("coefficients", "Parameters")

/-- Two calls of the constructor with the same exception, or with materials that have the same data;
only the spectrum type and unit that they assume for later changes may differ. -/
inductive Spec.SameButDefaults {F : Type} [PyFloat F] [SciPy F] :
    Res (Material F) → Res (Material F) → Prop
  | ok {m m' : Material F} : m.name = m'.name → m.real = m'.real → m.imag = m'.imag →
      m.cplx = m'.cplx → SameButDefaults (.ok m) (.ok m')
  | error {e : PyErr} : SameButDefaults (.error e) (.error e)

/-! ## Words -/

theorem prefix_word {p w rest : List Char} (hp : ∀ c ∈ p, pySpace c = false)
    (hr : ∀ c ∈ rest.head?, pySpace c = true) (h : p <+: w ++ rest) : p <+: w := by
  rcases Nat.lt_or_ge w.length p.length with hl | hl
  · exfalso
    have hw : w <+: p := by
      obtain ⟨q, hq⟩ := h
      exact List.prefix_of_prefix_length_le (l₃ := w ++ rest) (List.prefix_append _ _) ⟨q, hq⟩ hl.le
    obtain ⟨r, rfl⟩ := hw
    cases r with
    | nil => simp at hl
    | cons c r =>
      obtain ⟨q, hq⟩ := h
      rw [List.append_assoc, List.append_cancel_left_eq] at hq
      cases rest with
      | nil => cases hq
      | cons c' rest =>
        have : c = c' := by simp only [List.cons_append, List.cons.injEq] at hq; exact hq.1
        subst this
        have h1 := hr c (by simp)
        rw [hp c (by simp)] at h1
        cases h1
  · exact List.prefix_of_prefix_length_le h (List.prefix_append _ _) hl

theorem not_prefix_line {ws : List (List Char)} {l p : List Char} (h : LineOf ws l)
    (hne : p ≠ []) (hp : ∀ c ∈ p, pySpace c = false) (hw : ∀ w ∈ ws.head?, ¬ p <+: w) :
    p.isPrefixOf (lstrip l) = false := by
  rw [Bool.eq_false_iff]
  intro hpre
  rw [List.isPrefixOf_iff_prefix] at hpre
  cases h with
  | blank h =>
    have : lstrip l = [] := by
      unfold lstrip
      rw [← List.append_nil l, List.dropWhile_append_of_pos h]
      rfl
    rw [this] at hpre
    exact hne (List.prefix_nil.1 hpre)
  | word hs ht hsep hrest =>
    rename_i s t rest ts
    have : lstrip (s ++ t ++ rest) = t ++ rest := by
      rw [lstrip, List.append_assoc, List.dropWhile_append_of_pos (by simpa using hs)]
      obtain ⟨hne, hall⟩ := ht
      cases t with
      | nil => exact absurd rfl hne
      | cons c t =>
        rw [List.cons_append, List.dropWhile_cons_of_neg (by rw [hall c (by simp)]; decide)]
    rw [this] at hpre
    exact hw t (by simp) (prefix_word hp hsep hpre)

variable {F : Type} [PyFloat F] [SciPy F] [NumText F] [YamlIO F]

omit [PyFloat F] [SciPy F] [NumText F] [YamlIO F] in
/-- A dataset whose kind begins with none of the words is not read. -/
theorem kind_unread {o : KeyOrder} {d : Dataset F} (hkeys : Keys d) {kind : String}
    (hu : Under d "type" "DataType" kind) {ws : List (List Char)} (hl : LineOf ws kind.toList)
    (hw : ∀ w ∈ ws.head?, ∀ p ∈ kindWords, ¬ p.toList <+: w) : processMatData1 o d = .error .key := by
  have h1 : entryType d = .ok (lstrip kind.toList) := by rw [entryType, hu.gets hkeys]
  have hno : ∀ p ∈ kindWords, p.toList.isPrefixOf (lstrip kind.toList) = false := fun p hp =>
    not_prefix_line hl (by revert p; decide) (by revert p; decide) (fun w hw' => hw w hw' p hp)
  rw [processMatData1, h1]
  simp only [bind, Except.bind]
  rw [entryData, if_neg (by rw [hno "formula" (by decide), hno "model" (by decide)]; decide),
    if_neg (by rw [hno "tabulated" (by decide)]; decide)]

/-- C154, the first word: a kind that does not begin with `formula`, `model` or `tabulated` (here of
the first dataset) raises KeyError. -/
theorem C154_first {o : KeyOrder} {text : List Char} {d : Dataset F} {ds : List (Dataset F)}
    (hf : YamlFile text (d :: ds)) (hkeys : Keys d) {kind : String}
    (hu : Under d "type" "DataType" kind) {ws : List (List Char)} (hl : LineOf ws kind.toList)
    (hw : ∀ w ∈ ws.head?, ∀ p ∈ kindWords, ¬ p.toList <+: w) {kw : Kwargs F}
    (hnd : (kw.map Prod.fst).Nodup) (hp : PlainOptions kw) {p : String}
    (hk : Only kw "file_path" .text (.str p)) : loadYaml o text kw = .error .key := by
  unfold loadYaml
  rw [hf.read_error (e := .key) (by rw [List.mapM_cons, kind_unread hkeys hu hl hw]; rfl),
    new_unread hnd hp hk]

omit [PyFloat F] [SciPy F] [NumText F] [YamlIO F] in
/-- The numbers of an entry whose kind begins with one of the words. -/
theorem entryData_word (d : Dataset F) {kind : String} {w : List Char} {ws : List (List Char)}
    (hl : LineOf (w :: ws) kind.toList) {p : String} (hp : p ∈ kindWords) (hw : p.toList <+: w) :
    entryData d (lstrip kind.toList) = getEither d (numberNames p).1 (numberNames p).2 := by
  obtain ⟨-, l2⟩ := lstrip_line hl
  have hpre : p.toList <+: lstrip kind.toList := hw.trans (List.isPrefixOf_iff_prefix.1 l2)
  have hb := List.isPrefixOf_iff_prefix.2 hpre
  simp only [kindWords, List.mem_cons, List.not_mem_nil, or_false] at hp
  rcases hp with rfl | rfl | rfl
  · rw [entryData, if_pos (by simp only [hb, Bool.true_or])]
    rfl
  · rw [entryData, if_pos (by simp only [hb, Bool.or_true])]
    rfl
  · obtain ⟨r, hr⟩ := hpre
    rw [entryData, if_neg (by rw [← hr]; simp), if_pos hb]
    rfl

omit [YamlIO F] in
/-- A kind that is not two words of which the first is known is refused. -/
theorem kind_words {o : KeyOrder} (ho : o.Valid) {d : Dataset F} {p kind x y t u : String}
    (hpw : p ∈ kindWords) (hd : HandEntry d (numberNames p).1 (numberNames p).2 kind x y t u)
    {w : List Char} {ws : List (List Char)} (hl : LineOf (w :: ws) kind.toList)
    (hw : p.toList <+: w) (hbad : ws.length ≠ 1 ∨ w ≠ p.toList) :
    ∃ out, processMatData1 o d = .ok out ∧ ∀ m : Material F, processDataset m out = .error .value := by
  obtain ⟨out, o1, o2, -⟩ := hd.process ho (entryData_word d hl hpw hw)
  obtain ⟨l1, -⟩ := lstrip_line hl
  have h1 : ∀ m : Material F, processDataset m out = .error .value := by
    intro m
    unfold processDataset
    simp only [Dataset.getStr, o2, bind, Except.bind, splitTwo, String.toList_ofList,
      splitSpaces_line l1]
    match ws, hbad with
    | [], _ => rfl
    | _ :: _ :: _, _ => rfl
    | [v], hbad =>
      have hne : ∀ q ∈ kindWords, String.ofList w ≠ q := by
        intro q hq e
        have hw' : w = q.toList := by rw [← e, String.toList_ofList]
        have hpq : p.toList <+: q.toList := by rw [← hw']; exact hw
        have : p = q := by
          have key : ∀ p ∈ kindWords, ∀ q ∈ kindWords, p.toList <+: q.toList → p = q := by
            decide +kernel
          exact key p hpw q hq hpq
        rcases hbad with h | h
        · exact h rfl
        · exact h (by rw [hw', this])
      simp only
      rw [if_neg (hne _ (by decide)), if_neg (by
        rintro (h | h)
        · exact hne _ (by decide) h
        · exact hne _ (by decide) h)]
  exact ⟨out, o1, h1⟩

/-- C154, the words: a kind that does not consist of two words, or whose first word is longer than
`formula`, `model` or `tabulated`, raises ValueError. -/
theorem C154_words {o : KeyOrder} (ho : o.Valid) {text : List Char} {d : Dataset F}
    (hf : YamlFile text [d]) {p kind x y t u : String} (hpw : p ∈ kindWords)
    (hd : HandEntry d (numberNames p).1 (numberNames p).2 kind x y t u) {w : List Char}
    {ws : List (List Char)} (hl : LineOf (w :: ws) kind.toList) (hw : p.toList <+: w)
    (hbad : ws.length ≠ 1 ∨ w ≠ p.toList) {kw : Kwargs F}
    (hnd : (kw.map Prod.fst).Nodup) (hp : PlainOptions kw) {path : String}
    (hk : Only kw "file_path" .text (.str path)) : loadYaml o text kw = .error .value := by
  obtain ⟨out, o1, h1⟩ := kind_words ho hpw hd hl hw hbad
  obtain ⟨fd, r', f1, f2, f3⟩ := hf.read ho (ds' := [out]) (by
    simp only [List.mapM_cons, List.mapM_nil, o1]; rfl)
  obtain ⟨md, -, e⟩ := new_path hnd hp hk f2
  unfold loadYaml
  rw [f1, e, f3, List.foldlM_cons, h1]
  rfl

theorem number_unknown {n : ℕ} (hn : n = 0 ∨ 9 < n) :
    formulaName "formula" (toString n) = .error .key := by
  have : methodIds.lookup (n : ℤ) = none := by
    have : ∀ q ∈ methodIds, q.1 ≠ (n : ℤ) := by
      intro q hq
      have : 1 ≤ q.1 ∧ q.1 ≤ 9 := by revert q; decide
      omega
    rw [List.lookup_eq_none_iff]
    intro q hq
    simp only [bne_iff_ne, ne_eq]
    exact fun h => this q hq h.symm
  simp only [formulaName, if_true, number_int, this]

omit [YamlIO F] in
/-- An unknown number of a formula is refused. -/
theorem kind_number {o : KeyOrder} (ho : o.Valid) {d : Dataset F} {kind x y t u : String}
    (hd : HandEntry d "coefficients" "Parameters" kind x y t u) {n : ℕ}
    (hl : LineOf ["formula".toList, (toString n).toList] kind.toList) (hn : n = 0 ∨ 9 < n)
    {ps rs : List F} (hx : Lists x ps) (hy : Lists y rs) (hne : rs ≠ []) :
    ∃ out, processMatData1 o d = .ok out ∧ ∀ m : Material F, processDataset m out = .error .key := by
  obtain ⟨out, o1, o2, o3, o4, o5, o6⟩ := hd.process ho
    (entryData_word d hl (p := "formula") (by decide) (List.prefix_refl _))
  obtain ⟨l1, -⟩ := lstrip_line hl
  have hs : splitTwo (String.ofList (lstrip kind.toList)) = .ok ("formula", toString n) := by
    rw [splitTwo, String.toList_ofList, splitSpaces_line l1]
    simp only [String.ofList_toList]
  have hname := number_unknown hn
  obtain ⟨ts, t1, t2⟩ := hx
  obtain ⟨ts', t3, t4⟩ := hy
  have hy0 : y ≠ "" := by
    rintro rfl
    cases t4 with
    | nil => exact hne rfl
    | cons _ _ =>
      have := splitSpaces_line t3
      cases this
  have h1 : ∀ m : Material F, processDataset m out = .error .key := by
    intro m
    unfold processDataset
    simp only [Dataset.getStr, o2, bind, Except.bind, hs]
    rw [if_neg (by decide), if_pos (by simp)]
    unfold processFormulaData
    simp only [Dataset.getStr, o2, o3, bind, Except.bind, hs, parseRange, o4, if_neg hy0,
      splitSpaces_line t1, splitSpaces_line t3, mapM_reads t2, mapM_reads t4, o5, o6, hname,
      number_int]
    simp
  exact ⟨out, o1, h1⟩

/-- C154, the formulas: a number other than 1 to 9 raises KeyError. -/
theorem C154_formula {o : KeyOrder} (ho : o.Valid) {text : List Char} {d : Dataset F}
    (hf : YamlFile text [d]) {kind x y t u : String}
    (hd : HandEntry d "coefficients" "Parameters" kind x y t u) {n : ℕ}
    (hl : LineOf ["formula".toList, (toString n).toList] kind.toList) (hn : n = 0 ∨ 9 < n)
    {ps rs : List F} (hx : Lists x ps) (hy : Lists y rs) (hne : rs ≠ []) {kw : Kwargs F}
    (hnd : (kw.map Prod.fst).Nodup) (hp : PlainOptions kw) {path : String}
    (hk : Only kw "file_path" .text (.str path)) : loadYaml o text kw = .error .key := by
  obtain ⟨out, o1, h1⟩ := kind_number ho hd hl hn hx hy hne
  obtain ⟨fd, r', f1, f2, f3⟩ := hf.read ho (ds' := [out]) (by
    simp only [List.mapM_cons, List.mapM_nil, o1]; rfl)
  obtain ⟨md, -, e⟩ := new_path hnd hp hk f2
  unfold loadYaml
  rw [f1, e, f3, List.foldlM_cons, h1]
  rfl

theorem letter_noInt {id : String} {c : Char} (h : c ∈ id.toList) (hc : c.isAlpha) :
    id.toInt? = none := by
  have ha : c.isDigit = false ∧ c ≠ '_' ∧ c ≠ '-' := by
    refine ⟨?_, ?_, ?_⟩
    · simp only [Char.isAlpha, Char.isUpper, Char.isLower, Char.isDigit, Bool.or_eq_true,
        Bool.and_eq_true, decide_eq_true_eq, ge_iff_le, UInt32.le_iff_toNat_le] at hc
      simp only [Char.isDigit, Bool.and_eq_false_iff, decide_eq_false_iff_not, ge_iff_le,
        UInt32.le_iff_toNat_le]
      simp at hc ⊢
      omega
    · rintro rfl; revert hc; decide
    · rintro rfl; revert hc; decide
  have hno : ∀ t : String, c ∈ t.toList → t.isNat = false := by
    intro t ht
    by_contra hn
    rw [Bool.not_eq_false, String.isNat_iff] at hn
    rcases hn.2.1 c ht with h | h
    · rw [ha.1] at h; cases h
    · exact ha.2.1 h
  rw [String.toInt?_eq_none_iff]
  by_contra hn
  rw [Bool.not_eq_false, String.isInt_iff] at hn
  rcases hn with hn | ⟨t, rfl, hn⟩
  · rw [hno _ h] at hn; cases hn
  · rw [String.toList_append, List.mem_append] at h
    rcases h with h | h
    · exact ha.2.2 (by simpa using h)
    · rw [hno _ h] at hn; cases hn

omit [NumText F] [YamlIO F] in
/-- A model of another name is not made. -/
theorem model_unknown (m : Material F) {d : ModelKw F} {name : String} (hd : d.name = some name)
    (hn : name ∉ modelKinds) : ∃ e, processModelDict m d = .error e := by
  simp only [modelKinds, List.mem_cons, List.not_mem_nil, or_false, not_or] at hn
  obtain ⟨h1, h2, h3, h4, h5, h6, h7, h8, h9, h10, h11, h12, h13⟩ := hn
  have hc : classRef name = .baseModel ∨ classRef name = .otherClass ∨ classRef name = .notClass ∨
      classRef name = .missing := by
    unfold classRef
    simp only [h1, h2, h3, h4, h5, h6, h7, h8, h9, h10, h11, h12, h13, if_false]
    split_ifs <;> simp
  unfold processModelDict
  simp only [hd, bind, Except.bind]
  rcases hc with hc | hc | hc | hc <;> rw [hc]
  · cases d.params with
    | none => exact ⟨_, rfl⟩
    | some ps =>
      cases d.validRange with
      | none => exact ⟨_, rfl⟩
      | some r =>
        simp only
        cases Spectrum.new r (d.stype.getD "wavelength") (d.unit.getD "m") with
        | error e => exact ⟨e, rfl⟩
        | ok _ => exact ⟨_, rfl⟩
  · cases d.params with
    | none => exact ⟨_, rfl⟩
    | some ps =>
      cases d.validRange with
      | none => exact ⟨_, rfl⟩
      | some r => exact ⟨_, rfl⟩
  · exact ⟨_, rfl⟩
  · exact ⟨_, rfl⟩

omit [YamlIO F] in
/-- Words that name no formula and no model are refused, whatever the numbers. -/
theorem kind_nothing {o : KeyOrder} (ho : o.Valid) {d : Dataset F} {kind x y t u p id : String}
    (hd : HandEntry d "coefficients" "Parameters" kind x y t u) (hn : NamesNothing p id)
    (hl : LineOf [p.toList, id.toList] kind.toList) :
    ∃ out, processMatData1 o d = .ok out ∧ ∀ m : Material F, ∃ e, processDataset m out = .error e := by
  have hp : p = "formula" ∨ p = "model" := by cases hn <;> simp
  obtain ⟨out, o1, o2, o3, o4, o5, o6⟩ := hd.process ho (by
    have := entryData_word d hl (p := p) (by rcases hp with rfl | rfl <;> decide) (List.prefix_refl _)
    rcases hp with rfl | rfl <;> exact this)
  obtain ⟨l1, -⟩ := lstrip_line hl
  have hs : splitTwo (String.ofList (lstrip kind.toList)) = .ok (p, id) := by
    rw [splitTwo, String.toList_ofList, splitSpaces_line l1]
    simp only [String.ofList_toList]
  refine ⟨out, o1, fun m => ?_⟩
  have hf : processDataset m out = processFormulaData m out := by
    unfold processDataset
    simp only [Dataset.getStr, o2, bind, Except.bind, hs]
    rw [if_neg (by rcases hp with rfl | rfl <;> decide), if_pos hp]
  rw [hf]
  cases hr : processFormulaData m out with
  | error e => exact ⟨e, rfl⟩
  | ok m' =>
    exfalso
    unfold processFormulaData at hr
    simp only [Dataset.getStr, o2, o3] at hr
    obtain ⟨_, e1, hr⟩ := except_bind_ok hr
    cases e1
    obtain ⟨_, e1, hr⟩ := except_bind_ok hr
    rw [hs] at e1
    cases e1
    simp only at hr
    rw [if_neg (not_not.2 hp)] at hr
    split_ifs at hr
    · cases hr
    obtain ⟨_, -, hr⟩ := except_bind_ok hr
    obtain ⟨_, -, hr⟩ := except_bind_ok hr
    obtain ⟨_, -, hr⟩ := except_bind_ok hr
    obtain ⟨_, -, hr⟩ := except_bind_ok hr
    obtain ⟨_, -, hr⟩ := except_bind_ok hr
    obtain ⟨_, -, hr⟩ := except_bind_ok hr
    obtain ⟨name, n1, hr⟩ := except_bind_ok hr
    cases hn with
    | number hn => rw [number_unknown hn] at n1; cases n1
    | letter h1 h2 =>
      rw [formulaName, if_pos rfl, letter_noInt h1 h2] at n1
      cases n1
    | model h =>
      rw [formulaName, if_neg (by decide)] at n1
      cases n1
      have key : ∀ d : ModelKw F, d.name = some id → processModelDict m d ≠ .ok m' := by
        intro d hd e
        obtain ⟨e', he⟩ := model_unknown m hd h
        rw [he] at e
        cases e
      refine key _ ?_ hr
      rfl

/-- The ways of being unknown: no known word at the beginning; not two words, or a longer first word;
a formula or model that does not exist. -/
inductive Spec.UnknownKind (d : Dataset F) : Prop
  | first {kind : String} {ws : List (List Char)} (keys : Keys d)
      (kind_is : Under d "type" "DataType" kind) (line : LineOf ws kind.toList)
      (none : ∀ w ∈ ws.head?, ∀ p ∈ kindWords, ¬ p.toList <+: w) : UnknownKind d
  | words {p kind x y t u : String} {w : List Char} {ws : List (List Char)} (hp : p ∈ kindWords)
      (entry : HandEntry d (numberNames p).1 (numberNames p).2 kind x y t u)
      (line : LineOf (w :: ws) kind.toList) (begins : p.toList <+: w)
      (bad : ws.length ≠ 1 ∨ w ≠ p.toList) : UnknownKind d
  | nothing {kind x y t u p id : String}
      (entry : HandEntry d "coefficients" "Parameters" kind x y t u) (names : NamesNothing p id)
      (line : LineOf [p.toList, id.toList] kind.toList) : UnknownKind d

omit [PyFloat F] [SciPy F] [NumText F] [YamlIO F] in
theorem mapM_each {α β : Type} {f : α → Res β} {l : List α} {ys : List β} (h : l.mapM f = .ok ys)
    {x : α} (hx : x ∈ l) : ∃ y, f x = .ok y := by
  induction l generalizing ys with
  | nil => cases hx
  | cons a l ih =>
    rw [List.mapM_cons] at h
    obtain ⟨z, h1, h⟩ := except_bind_ok h
    obtain ⟨zs, h2, h⟩ := except_bind_ok h
    rcases List.mem_cons.1 hx with rfl | hx
    · exact ⟨z, h1⟩
    · exact ih h2 hx

omit [PyFloat F] [SciPy F] [NumText F] [YamlIO F] in
theorem mapM_image {α β : Type} {f : α → Res β} {l : List α} {ys : List β} (h : l.mapM f = .ok ys)
    {x : α} (hx : x ∈ l) {y : β} (hy : f x = .ok y) : y ∈ ys := by
  induction l generalizing ys with
  | nil => cases hx
  | cons a l ih =>
    rw [List.mapM_cons] at h
    obtain ⟨z, h1, h⟩ := except_bind_ok h
    obtain ⟨zs, h2, h⟩ := except_bind_ok h
    cases h
    rcases List.mem_cons.1 hx with rfl | hx
    · rw [hy] at h1; cases h1; exact List.mem_cons_self ..
    · exact List.mem_cons_of_mem _ (ih h2 hx)

omit [PyFloat F] [SciPy F] [NumText F] [YamlIO F] in
theorem foldlM_fails {α β : Type} {f : β → α → Res β} {x : α} (h : ∀ b, ∃ e, f b x = .error e)
    {l : List α} (hx : x ∈ l) (b : β) : ∃ e', l.foldlM f b = .error e' := by
  induction l generalizing b with
  | nil => cases hx
  | cons a l ih =>
    rw [List.foldlM_cons]
    rcases List.mem_cons.1 hx with rfl | hx
    · obtain ⟨e, he⟩ := h b
      rw [he]; exact ⟨e, rfl⟩
    · cases f b a with
      | error e' => exact ⟨e', rfl⟩
      | ok b' => exact ih hx b'

/-- A dataset that is refused stops the loading, wherever it stands in the file. -/
theorem refused_anywhere {o : KeyOrder} (ho : o.Valid) {text : List Char} {ds : List (Dataset F)}
    (hf : YamlFile text ds) {d : Dataset F} (hd : d ∈ ds)
    (key : (∃ e, processMatData1 o d = .error e) ∨ ∃ out, processMatData1 o d = .ok out ∧
      ∀ m : Material F, ∃ e, processDataset m out = .error e) {kw : Kwargs F}
    (hnd : (kw.map Prod.fst).Nodup) (hp : PlainOptions kw) {path : String}
    (hk : Only kw "file_path" .text (.str path)) : ∃ e, loadYaml o text kw = .error e := by
  unfold loadYaml
  cases hm : ds.mapM (processMatData1 o) with
  | error e =>
    rw [hf.read_error hm, new_unread hnd hp hk]
    exact ⟨e, rfl⟩
  | ok outs =>
    rcases key with ⟨e, he⟩ | ⟨out, h1, h2⟩
    · exfalso
      obtain ⟨y, hy⟩ := mapM_each hm hd
      rw [he] at hy
      cases hy
    · obtain ⟨fd, r', f1, f2, f3⟩ := hf.read ho hm
      obtain ⟨md, -, e'⟩ := new_path hnd hp hk f2
      obtain ⟨e'', h⟩ := foldlM_fails h2 (mapM_image hm hd h1)
        { blankMaterial (parsedOf kw) with metaData := some md }
      refine ⟨e'', ?_⟩
      rw [f1, e', f3, h]
      rfl

/-- C154, anywhere: a file with a dataset of such a kind, wherever it stands in the file, raises an
exception. -/
theorem C154_anywhere {o : KeyOrder} (ho : o.Valid) {text : List Char} {ds : List (Dataset F)}
    (hf : YamlFile text ds) {d : Dataset F} (hd : d ∈ ds) (hu : UnknownKind d) {kw : Kwargs F}
    (hnd : (kw.map Prod.fst).Nodup) (hp : PlainOptions kw) {path : String}
    (hk : Only kw "file_path" .text (.str path)) : ∃ e, loadYaml o text kw = .error e := by
  refine refused_anywhere ho hf hd ?_ hnd hp hk
  cases hu with
  | first h1 h2 h3 h4 => exact .inl ⟨_, kind_unread h1 h2 h3 h4⟩
  | words h1 h2 h3 h4 h5 =>
    obtain ⟨out, a, b⟩ := kind_words ho h1 h2 h3 h4 h5
    exact .inr ⟨out, a, fun m => ⟨_, b m⟩⟩
  | nothing h1 h2 h3 => exact .inr (kind_nothing ho h1 h2 h3)

omit [YamlIO F] in
/-- Processing a table of unknown kind. -/
theorem table_dropped (m : Material F) (a : NDArr F) {id : String} (hid : id ∉ tableKinds)
    (d : Dataset F) : processTable m a id d = .ok { m with
      defType := ((d.get "SpectrumType").nonEmptyStr).getD m.defType,
      defUnit := ((d.get "Unit").nonEmptyStr).getD m.defUnit } := by
  simp only [tableKinds, List.mem_cons, List.not_mem_nil, or_false, not_or] at hid
  obtain ⟨h1, h2, h3, h4, h5⟩ := hid
  unfold processTable
  simp only [if_neg h1, if_neg h2, if_neg h3, if_neg h4, if_neg h5]

/-- C154 in truth for tables: a table of unknown kind, here in the last dataset of a file, is dropped
in silence. The file gives the same data as the file without it. -/
theorem C154_dropped {o : KeyOrder} (ho : o.Valid) {text text' : List Char} {d : Dataset F}
    {ds : List (Dataset F)} (hf : YamlFile text (ds ++ [d])) (hf' : YamlFile text' ds)
    {kind x y t u : String} (hd : HandEntry d "data" "Data" kind x y t u) {id : String}
    (hid : id ∉ tableKinds) (hl : LineOf ["tabulated".toList, id.toList] kind.toList)
    {toks : List (List (List Char))} {rows : List (List F)} {n : ℕ} (hx : TextOf toks x.toList)
    (hv : List.Forall₂ (List.Forall₂ Reads) toks rows) (hne : rows ≠ [])
    (hw : ∀ r ∈ rows, r.length = n) {kw : Kwargs F} (hnd : (kw.map Prod.fst).Nodup)
    (hp : PlainOptions kw) {path : String} (hk : Only kw "file_path" .text (.str path)) :
    SameButDefaults (loadYaml o text kw) (loadYaml o text' kw) := by
  obtain ⟨out, o1, o2, o3, -⟩ := hd.process ho
    (entryData_word d hl (p := "tabulated") (by decide) (List.prefix_refl _))
  obtain ⟨l1, -⟩ := lstrip_line hl
  have hs : splitTwo (String.ofList (lstrip kind.toList)) = .ok ("tabulated", id) := by
    rw [splitTwo, String.toList_ofList, splitSpaces_line l1]
    simp only [String.ofList_toList]
  have hload : ∀ m : Material F, ∃ t u, processDataset m out
      = .ok { m with defType := t, defUnit := u } := by
    intro m
    refine ⟨((out.get "SpectrumType").nonEmptyStr).getD m.defType,
      ((out.get "Unit").nonEmptyStr).getD m.defUnit, ?_⟩
    unfold processDataset
    simp only [Dataset.getStr, o2, bind, Except.bind, hs, if_true, o3, DVal.asTable,
      C43_parse hx hv hne hw]
    exact table_dropped m _ hid out
  unfold loadYaml
  cases hm : ds.mapM (processMatData1 o) with
  | error e =>
    have : (ds ++ [d]).mapM (processMatData1 o) = .error e := by
      rw [List.mapM_append, hm]
      rfl
    rw [hf.read_error this, hf'.read_error hm, new_unread hnd hp hk]
    exact .error
  | ok outs =>
    have : (ds ++ [d]).mapM (processMatData1 o) = .ok (outs ++ [out]) := by
      rw [List.mapM_append, hm, List.mapM_cons, o1]
      rfl
    obtain ⟨fd, r, a1, a2, a3⟩ := hf.read ho this
    obtain ⟨fd', r', b1, b2, b3⟩ := hf'.read ho hm
    rw [a1, b1]
    obtain ⟨md, -, e⟩ := new_path hnd hp hk a2
    obtain ⟨md', -, e'⟩ := new_path hnd hp hk b2
    have c1 := processDatasets_withMeta (some md) fd.datasets (blankMaterial (parsedOf kw))
    have c2 := processDatasets_withMeta (some md') fd'.datasets (blankMaterial (parsedOf kw))
    simp only [Material.withMeta] at c1 c2
    simp only
    rw [e, e', c1, c2, a3, b3, List.foldlM_append]
    cases outs.foldlM processDataset (blankMaterial (parsedOf kw)) with
    | error e => exact .error
    | ok m =>
      obtain ⟨t, u, h⟩ := hload m
      simp only [bind, Except.bind, List.foldlM_cons, List.foldlM_nil, h, pure, Except.pure,
        Except.map]
      exact .ok rfl rfl rfl rfl

/-- C154 in truth for tables, anywhere in the file: a table of unknown kind that does not state its
spectrum type and unit is dropped in silence. -/
theorem C154_dropped_plain {o : KeyOrder} (ho : o.Valid) {text text' : List Char} {d : Dataset F}
    {ds ds' : List (Dataset F)} (hf : YamlFile text (ds ++ d :: ds'))
    (hf' : YamlFile text' (ds ++ ds')) {kind x y : String}
    (hd : HandEntry d "data" "Data" kind x y "" "") {id : String}
    (hid : id ∉ tableKinds) (hl : LineOf ["tabulated".toList, id.toList] kind.toList)
    {toks : List (List (List Char))} {rows : List (List F)} {n : ℕ} (hx : TextOf toks x.toList)
    (hv : List.Forall₂ (List.Forall₂ Reads) toks rows) (hne : rows ≠ [])
    (hw : ∀ r ∈ rows, r.length = n) {kw : Kwargs F} (hnd : (kw.map Prod.fst).Nodup)
    (hp : PlainOptions kw) {path : String} (hk : Only kw "file_path" .text (.str path)) :
    SameButDefaults (loadYaml o text kw) (loadYaml o text' kw) := by
  obtain ⟨out, o1, o2, o3, -, o5, o6⟩ := hd.process ho
    (entryData_word d hl (p := "tabulated") (by decide) (List.prefix_refl _))
  obtain ⟨l1, -⟩ := lstrip_line hl
  have hs : splitTwo (String.ofList (lstrip kind.toList)) = .ok ("tabulated", id) := by
    rw [splitTwo, String.toList_ofList, splitSpaces_line l1]
    simp only [String.ofList_toList]
  have hload : ∀ m : Material F, processDataset m out = .ok m := by
    intro m
    unfold processDataset
    simp only [Dataset.getStr, o2, bind, Except.bind, hs, if_true, o3, DVal.asTable,
      C43_parse hx hv hne hw]
    rw [table_dropped m _ hid out]
    simp only [Dataset.get, o5, o6]
    rfl
  unfold loadYaml
  cases hm : ds.mapM (processMatData1 o) with
  | error e =>
    have h1 : (ds ++ d :: ds').mapM (processMatData1 o) = .error e := by
      rw [List.mapM_append, hm]
      rfl
    have h2 : (ds ++ ds').mapM (processMatData1 o) = .error e := by
      rw [List.mapM_append, hm]
      rfl
    rw [hf.read_error h1, hf'.read_error h2, new_unread hnd hp hk]
    exact .error
  | ok outs =>
    cases hm' : ds'.mapM (processMatData1 o) with
    | error e =>
      have h1 : (ds ++ d :: ds').mapM (processMatData1 o) = .error e := by
        rw [List.mapM_append, hm, List.mapM_cons, o1, hm']
        rfl
      have h2 : (ds ++ ds').mapM (processMatData1 o) = .error e := by
        rw [List.mapM_append, hm, hm']
        rfl
      rw [hf.read_error h1, hf'.read_error h2, new_unread hnd hp hk]
      exact .error
    | ok outs' =>
      have h1 : (ds ++ d :: ds').mapM (processMatData1 o) = .ok (outs ++ out :: outs') := by
        rw [List.mapM_append, hm, List.mapM_cons, o1, hm']
        rfl
      have h2 : (ds ++ ds').mapM (processMatData1 o) = .ok (outs ++ outs') := by
        rw [List.mapM_append, hm, hm']
        rfl
      obtain ⟨fd, r, a1, a2, a3⟩ := hf.read ho h1
      obtain ⟨fd', r', b1, b2, b3⟩ := hf'.read ho h2
      rw [a1, b1]
      obtain ⟨md, -, e⟩ := new_path hnd hp hk a2
      obtain ⟨md', -, e'⟩ := new_path hnd hp hk b2
      have c1 := processDatasets_withMeta (some md) fd.datasets (blankMaterial (parsedOf kw))
      have c2 := processDatasets_withMeta (some md') fd'.datasets (blankMaterial (parsedOf kw))
      simp only [Material.withMeta] at c1 c2
      simp only
      rw [e, e', c1, c2, a3, b3, List.foldlM_append, List.foldlM_append]
      cases outs.foldlM processDataset (blankMaterial (parsedOf kw)) with
      | error e => exact .error
      | ok m =>
        simp only [bind, Except.bind, List.foldlM_cons, hload]
        cases outs'.foldlM processDataset m with
        | error e => exact .error
        | ok m' => exact .ok rfl rfl rfl rfl

/-! ## The full claim is false -/

/-- C154 (full statement, refuted below): a file with a dataset whose kind is not known raises an
exception. -/
def C154_statement [SciPy XR] [NumText XR] : Prop :=
  ∀ (_ : YamlIO XR) (o : KeyOrder) (text : List Char) (ds : List (Dataset XR)) (kw : Kwargs XR)
    (p : String), o.Valid → YamlFile text ds →
    (∃ d ∈ ds, ∃ kind, Under d "type" "DataType" kind ∧ ¬ KnownKind kind) →
    (kw.map Prod.fst).Nodup → PlainOptions kw → Only kw "file_path" .text (.str p) →
    ∃ e, loadYaml o text kw = .error e

/-- A table of extinction coefficients whose kind has a capital letter. -/
def capitalTable : Dataset XR := [("type", .str "tabulated K"), ("data", .str "0.5 1.5\n2 2")]

noncomputable def glassCapital : YamlIO XR :=
  ⟨fun t => .ok [("DATA", .data (if t = [] then [glass] else [glass, capitalTable]))], fun _ => []⟩

theorem glass_capital (text : List Char) : letI := glassCapital
    YamlFile text (if universal text = [] then [glass] else [glass, capitalTable]) := by
  letI := glassCapital
  exact ⟨⟨_, rfl, by simp [Keys], by unfold UpperKeys; simp; decide +kernel, rfl, by
    intro p hp hne
    simp only [List.mem_cons, List.not_mem_nil, or_false] at hp
    exact absurd (by rw [hp]) hne⟩⟩

theorem capital_line : LineOf ["tabulated".toList, "K".toList] "tabulated K".toList := by
  have w : ∀ t ∈ ["tabulated".toList, "K".toList], Word t := by unfold Word; decide +kernel
  have := LineOf.word (s := []) (t := "tabulated".toList) (by simp) (w _ (by simp))
    (rest := " K".toList) (by decide) (LineOf.word (s := [' ']) (t := "K".toList)
      (by decide +kernel) (w _ (by simp)) (rest := []) (by simp) (.blank (by simp)))
  exact this

theorem capital_unknown : ¬ KnownKind "tabulated K" := by
  have hs := splitSpaces_line capital_line
  rintro (⟨k, -, h⟩ | ⟨id, h1, h2⟩)
  · cases h with
    | model h => rw [splitSpaces_line h] at hs; exact absurd (List.cons.inj hs).1 (by decide)
    | formula _ h => rw [splitSpaces_line h] at hs; exact absurd (List.cons.inj hs).1 (by decide)
  · rw [splitSpaces_line h2] at hs
    have : id = "K" := String.toList_injective (by simpa using hs)
    rw [this] at h1
    revert h1
    decide

/-- The entries of this table. -/
theorem capital_entry : letI := glassNumbers
    HandEntry capitalTable "data" "Data" "tabulated K" "0.5 1.5\n2 2" "" "" "" ∧
      TextOf [["0.5".toList, "1.5".toList], ["2".toList, "2".toList]] "0.5 1.5\n2 2".toList ∧
      List.Forall₂ (List.Forall₂ Reads) [["0.5".toList, "1.5".toList], ["2".toList, "2".toList]]
        [[XR.fin 0.5, XR.fin 1.5], [XR.fin 2, XR.fin 2]] := by
  letI := glassNumbers
  have hno : ∀ ns ∈ [rangeNames, ["SpectrumType"], ["Unit"], ["t", "y", "p", "e"]],
      ∀ p ∈ capitalTable, ¬ Spelled p.1 ns := by
    have : ∀ ns ∈ [rangeNames, ["SpectrumType"], ["Unit"], ["t", "y", "p", "e"]],
        ∀ k ∈ capitalTable.map Prod.fst, ¬ (∃ n ∈ ns,
        k.toList.map Char.toUpper = n.toList.map Char.toUpper) := by decide +kernel
    exact fun ns hns p hp => this ns hns p.1 (List.mem_map_of_mem hp)
  have hd : HandEntry capitalTable "data" "Data" "tabulated K" "0.5 1.5\n2 2" "" "" "" :=
    ⟨by unfold Keys; decide +kernel, .inl (by simp [capitalTable]), .inl (by simp [capitalTable]),
      .inr ⟨rfl, hno _ (by simp)⟩, .inr ⟨rfl, hno _ (by simp)⟩, .inr ⟨rfl, hno _ (by simp)⟩,
      hno _ (by simp)⟩
  have two : ∀ a ∈ ["0.5".toList, "1.5".toList, "2".toList],
      ∀ b ∈ ["0.5".toList, "1.5".toList, "2".toList], LineOf [a, b] (a ++ (' ' :: b)) := by
    intro a ha b hb
    have w : ∀ t ∈ ["0.5".toList, "1.5".toList, "2".toList], Word t := by unfold Word; decide +kernel
    have := LineOf.word (s := []) (t := a) (by simp) (w _ ha) (rest := [' '] ++ b ++ [])
      (by simp; decide) (.word (s := [' ']) (t := b) (by decide +kernel) (w _ hb) (by simp)
        (.blank (s := []) (by simp)))
    simpa using this
  have hx : TextOf [["0.5".toList, "1.5".toList], ["2".toList, "2".toList]]
      "0.5 1.5\n2 2".toList :=
    ⟨["0.5 1.5".toList, "2 2".toList], [], by decide +kernel, by simp,
      .cons (two _ (by simp) _ (by simp)) (.cons (two _ (by simp) _ (by simp)) .nil), by simp,
      by decide +kernel, by simp⟩
  have hv : List.Forall₂ (List.Forall₂ Reads)
      [["0.5".toList, "1.5".toList], ["2".toList, "2".toList]]
      [[XR.fin 0.5, XR.fin 1.5], [XR.fin 2, XR.fin 2]] := by
    refine .cons (.cons ?_ (.cons ?_ .nil)) (.cons (.cons ?_ (.cons ?_ .nil)) .nil) <;>
      (show glassNumbers.parseFloat _ = _; unfold glassNumbers; simp)
  exact ⟨hd, hx, hv⟩

/-- Concrete case for `C154_dropped_plain`: the table stands before the glass. -/
example [SciPy XR] {o : KeyOrder} (ho : o.Valid) : letI := glassNumbers
    letI : YamlIO XR := ⟨fun t => .ok [("DATA", .data (if t = [] then [glass] else
      [capitalTable, glass]))], fun _ => []⟩
    SameButDefaults (loadYaml o ['x'] (rowKw (F := XR) "a.yml" (.str "wavelength") (.str "um")))
      (loadYaml o [] (rowKw (F := XR) "a.yml" (.str "wavelength") (.str "um"))) := by
  letI := glassNumbers
  letI : YamlIO XR := ⟨fun t => .ok [("DATA", .data (if t = [] then [glass] else
      [capitalTable, glass]))], fun _ => []⟩
  obtain ⟨g1, g2, g3⟩ := rowKw_good (F := XR) "a.yml" "wavelength" "um"
  have hf : ∀ text, YamlFile text (if universal text = [] then [glass] else [capitalTable, glass]) :=
    fun text => ⟨⟨_, rfl, by simp [Keys], by unfold UpperKeys; simp; decide +kernel, rfl, by
      intro p hp hne
      simp only [List.mem_cons, List.not_mem_nil, or_false] at hp
      exact absurd (by rw [hp]) hne⟩⟩
  obtain ⟨hd, hx, hv⟩ := capital_entry
  exact C154_dropped_plain ho (ds := []) (ds' := [glass]) (hf ['x']) (hf []) hd (by decide)
    capital_line hx hv (by simp) (n := 2) (by simp) g1 g2 g3

/-- The table is dropped: the glass of `C108_file` stays without absorption. -/
theorem capital_dropped [SciPy XR] {o : KeyOrder} (ho : o.Valid) : letI := glassNumbers
    letI := glassCapital
    ∃ m m', loadYaml o ['x'] (rowKw (F := XR) "a.yml" (.str "wavelength") (.str "um")) = .ok m ∧
      loadYaml o [] (rowKw (F := XR) "a.yml" (.str "wavelength") (.str "um")) = .ok m' ∧
      m.real = m'.real ∧ m.imag = m'.imag := by
  letI := glassNumbers
  letI := glassCapital
  obtain ⟨g1, g2, g3⟩ := rowKw_good (F := XR) "a.yml" "wavelength" "um"
  have f0 : YamlFile [] [glass] := glass_capital []
  have f1 : YamlFile ['x'] ([glass] ++ [capitalTable]) := glass_capital ['x']
  obtain ⟨fd, r', m, -, -, h1, h2, -⟩ := C108_file ho f0 glass_content "a.yml" "wavelength" "um"
    (by decide +kernel) (by simp)
  have hl : loadYaml o [] (rowKw (F := XR) "a.yml" (.str "wavelength") (.str "um")) = .ok m := by
    unfold loadYaml
    rw [h1]
    exact h2
  obtain ⟨hd, hx, hv⟩ := capital_entry
  have := C154_dropped ho f1 f0 hd (by decide) capital_line hx hv (by simp) (n := 2) (by simp) g1 g2 g3
  rw [hl] at this
  generalize hr : loadYaml o ['x'] (rowKw (F := XR) "a.yml" (.str "wavelength") (.str "um")) = r
    at this
  cases this with
  | ok a1 a2 a3 a4 => exact ⟨_, m, rfl, hl, a2, a3⟩

/-- C154 is false. -/
theorem C154_refuted [SciPy XR] : letI := glassNumbers; ¬ C154_statement := by
  letI := glassNumbers
  letI := glassCapital
  intro h
  let o : KeyOrder := ⟨fileMetaKeys, datasetMetaKeys⟩
  have ho : o.Valid := ⟨.refl _, .refl _⟩
  obtain ⟨g1, g2, g3⟩ := rowKw_good (F := XR) "a.yml" "wavelength" "um"
  have f1 : YamlFile ['x'] [glass, capitalTable] := glass_capital ['x']
  obtain ⟨m, -, hm, -⟩ := capital_dropped ho
  obtain ⟨e, he⟩ := h glassCapital o ['x'] _ _ _ ho f1 ⟨capitalTable, by simp, "tabulated K",
    .inl (by simp [capitalTable]), capital_unknown⟩ g1 g2 g3
  rw [hm] at he
  cases he

/-- Concrete case for `C154_first`: a capital letter in the first word. -/
example [SciPy XR] [NumText XR] (o : KeyOrder) (text : List Char) :
    letI : YamlIO XR := ⟨fun _ => .ok [("DATA", .data [[("type", .str "Tabulated"),
      ("data", .str "1 2")]])], fun _ => []⟩
    loadYaml o text (rowKw (F := XR) "a.yml" (.str "wavelength") (.str "um")) = .error .key := by
  letI : YamlIO XR := ⟨fun _ => .ok [("DATA", .data [[("type", .str "Tabulated"),
      ("data", .str "1 2")]])], fun _ => []⟩
  obtain ⟨g1, g2, g3⟩ := rowKw_good (F := XR) "a.yml" "wavelength" "um"
  have hf : YamlFile text [([("type", .str "Tabulated"), ("data", .str "1 2")] : Dataset XR)] :=
    ⟨⟨_, rfl, by simp [Keys], by unfold UpperKeys; simp; decide +kernel, rfl, by
      intro p hp hne
      simp only [List.mem_cons, List.not_mem_nil, or_false] at hp
      exact absurd (by rw [hp]) hne⟩⟩
  have w : Word "Tabulated".toList := by unfold Word; decide +kernel
  have hl := LineOf.word (s := []) (t := "Tabulated".toList) (by simp) w (rest := []) (by simp)
    (.blank (by simp))
  refine C154_first hf (by unfold Keys; decide +kernel) (.inl (by simp)) (kind := "Tabulated")
    (ws := ["Tabulated".toList]) hl ?_ g1 g2 g3
  simp only [List.head?_cons, Option.mem_some_iff, forall_eq']
  decide +kernel

/-- Concrete case for `C154_anywhere`: a good table, and then one with a capital letter in the first
word. -/
example [SciPy XR] [NumText XR] {o : KeyOrder} (ho : o.Valid) (text : List Char) :
    letI : YamlIO XR := ⟨fun _ => .ok [("DATA", .data [[("type", .str "tabulated n"),
      ("data", .str "1 2\n2 3")], [("type", .str "Tabulated k"), ("data", .str "1 2\n2 3")]])],
      fun _ => []⟩
    ∃ e, loadYaml o text (rowKw (F := XR) "a.yml" (.str "wavelength") (.str "um")) = .error e := by
  letI : YamlIO XR := ⟨fun _ => .ok [("DATA", .data [[("type", .str "tabulated n"),
      ("data", .str "1 2\n2 3")], [("type", .str "Tabulated k"), ("data", .str "1 2\n2 3")]])],
      fun _ => []⟩
  obtain ⟨g1, g2, g3⟩ := rowKw_good (F := XR) "a.yml" "wavelength" "um"
  have hf : YamlFile text ([[("type", .str "tabulated n"), ("data", .str "1 2\n2 3")],
      [("type", .str "Tabulated k"), ("data", .str "1 2\n2 3")]] : List (Dataset XR)) :=
    ⟨⟨_, rfl, by simp [Keys], by unfold UpperKeys; simp; decide +kernel, rfl, by
      intro p hp hne
      simp only [List.mem_cons, List.not_mem_nil, or_false] at hp
      exact absurd (by rw [hp]) hne⟩⟩
  have w : ∀ t ∈ ["Tabulated".toList, "k".toList], Word t := by unfold Word; decide +kernel
  have hl : LineOf ["Tabulated".toList, "k".toList] "Tabulated k".toList :=
    LineOf.word (s := []) (t := "Tabulated".toList) (by simp) (w _ (by simp))
      (rest := " k".toList) (by decide) (LineOf.word (s := [' ']) (t := "k".toList)
        (by decide +kernel) (w _ (by simp)) (rest := []) (by simp) (.blank (by simp)))
  refine C154_anywhere ho hf (d := [("type", .str "Tabulated k"), ("data", .str "1 2\n2 3")])
    (by simp) (.first (kind := "Tabulated k") (by unfold Keys; decide +kernel) (.inl (by simp)) hl ?_)
    g1 g2 g3
  simp only [List.head?_cons, Option.mem_some_iff, forall_eq']
  decide +kernel

/-- A model of a name that the library has not. -/
def lorentz : Dataset XR := [("type", .str "model Lorentz"), ("coefficients", .str "1 2"),
  ("range", .str "1 2")]

/-- Concrete case for `C154_anywhere`: a good table, and then such a model. -/
example [SciPy XR] [NumText XR] {o : KeyOrder} (ho : o.Valid) (text : List Char) :
    letI : YamlIO XR := ⟨fun _ => .ok [("DATA", .data [[("type", .str "tabulated n"),
      ("data", .str "1 2\n2 3")], lorentz])], fun _ => []⟩
    ∃ e, loadYaml o text (rowKw (F := XR) "a.yml" (.str "wavelength") (.str "um")) = .error e := by
  letI : YamlIO XR := ⟨fun _ => .ok [("DATA", .data [[("type", .str "tabulated n"),
      ("data", .str "1 2\n2 3")], lorentz])], fun _ => []⟩
  obtain ⟨g1, g2, g3⟩ := rowKw_good (F := XR) "a.yml" "wavelength" "um"
  have hf : YamlFile text [[("type", .str "tabulated n"), ("data", .str "1 2\n2 3")], lorentz] :=
    ⟨⟨_, rfl, by simp [Keys], by unfold UpperKeys; simp; decide +kernel, rfl, by
      intro p hp hne
      simp only [List.mem_cons, List.not_mem_nil, or_false] at hp
      exact absurd (by rw [hp]) hne⟩⟩
  have w : ∀ t ∈ ["model".toList, "Lorentz".toList], Word t := by unfold Word; decide +kernel
  have hl : LineOf ["model".toList, "Lorentz".toList] "model Lorentz".toList :=
    LineOf.word (s := []) (t := "model".toList) (by simp) (w _ (by simp))
      (rest := " Lorentz".toList) (by decide) (LineOf.word (s := [' ']) (t := "Lorentz".toList)
        (by decide +kernel) (w _ (by simp)) (rest := []) (by simp) (.blank (by simp)))
  have hno : ∀ ns ∈ [["SpectrumType"], ["Unit"], ["t", "y", "p", "e"]],
      ∀ p ∈ lorentz, ¬ Spelled p.1 ns := by
    have : ∀ ns ∈ [["SpectrumType"], ["Unit"], ["t", "y", "p", "e"]],
        ∀ k ∈ lorentz.map Prod.fst, ¬ (∃ n ∈ ns,
        k.toList.map Char.toUpper = n.toList.map Char.toUpper) := by decide +kernel
    exact fun ns hns p hp => this ns hns p.1 (List.mem_map_of_mem hp)
  have hd : HandEntry lorentz "coefficients" "Parameters" "model Lorentz" "1 2" "1 2" "" "" :=
    ⟨by unfold Keys; decide +kernel, .inl (by simp [lorentz]), .inl (by simp [lorentz]),
      .inl ⟨"range", ⟨by simp [lorentz], by unfold Spelled; decide +kernel, by
        unfold lorentz Spelled; simp; decide +kernel⟩⟩,
      .inr ⟨rfl, hno _ (by simp)⟩, .inr ⟨rfl, hno _ (by simp)⟩, hno _ (by simp)⟩
  exact C154_anywhere ho hf (d := lorentz) (by simp) (.nothing hd (.model (by decide)) hl) g1 g2 g3

end Disp

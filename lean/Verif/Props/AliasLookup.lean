import Verif.Props.Aliases
import Verif.Props.CommentCycle
/-!
# C56: materials by alias
-/

namespace Disp

variable {F : Type} [PyFloat F] [SciPy F] [NumText F]

/-! ## Specification

The aliases of the rows of a catalogue, by position. -/

namespace Spec

/-- A request to give the row at position `c.1` the alias `c.2` is refused if another row has the
alias. -/
def assign (as : List String) (c : Nat × String) : List String :=
  if c.2 ∈ as.eraseIdx c.1 then as else as.set c.1 c.2

/-- The aliases after a sequence of requests. -/
def assignAll (as : List String) (cs : List (Nat × String)) : List String := cs.foldl assign as

end Spec

open Spec

/-- The rows with their aliases replaced. -/
def withAliases (rows : List (Row F)) (as : List String) : List (Row F) :=
  List.zipWith (fun r a => { r with al := .str a }) rows as

omit [SciPy F] [NumText F] in
theorem numbered_get (rows : List (Row F)) (i : Nat) :
    (numbered rows)[i]? = (rows[i]?).map (fun r => ((i : Int), r)) := by
  simp [numbered, List.getElem?_zipIdx]
  cases rows[i]? <;> rfl

omit [SciPy F] [NumText F] in
theorem numbered_mem {rows : List (Row F)} {p : Int × Row F} (h : p ∈ numbered rows) :
    ∃ i : Nat, rows[i]? = some p.2 ∧ p.1 = i := by
  obtain ⟨i, hi⟩ := List.getElem?_of_mem h
  rw [numbered_get] at hi
  cases hr : rows[i]? with
  | none => rw [hr] at hi; cases hi
  | some r =>
    rw [hr] at hi
    have : p = ((i : Int), r) := by cases hi; rfl
    subst this
    exact ⟨i, hr, rfl⟩

omit [SciPy F] [NumText F] in
theorem withAliases_get (rows : List (Row F)) {as : List String} (h : as.length = rows.length)
    (i : Nat) : (withAliases rows as)[i]? =
      (do let r ← rows[i]?; let a ← as[i]?; some { r with al := .str a }) := by
  rw [withAliases, List.getElem?_zipWith]
  cases rows[i]? <;> cases as[i]? <;> rfl

omit [SciPy F] [NumText F] in
theorem inUse_with (rows : List (Row F)) {as : List String} (h : as.length = rows.length)
    (a : String) : inUse (numbered (withAliases rows as)) a = true ↔ a ∈ as := by
  rw [inUse, List.any_eq_true]
  constructor
  · rintro ⟨p, hp, he⟩
    obtain ⟨i, hi, _⟩ := numbered_mem hp
    rw [withAliases_get rows h] at hi
    cases hr : rows[i]? with
    | none => rw [hr] at hi; cases hi
    | some r =>
      cases ha : as[i]? with
      | none => rw [hr, ha] at hi; cases hi
      | some b =>
        rw [hr, ha] at hi
        have e : p.2 = { r with al := .str b } := (Option.some.inj hi).symm
        rw [e] at he
        have : b = a := by simpa using he
        subst this
        exact List.mem_of_getElem? ha
  · intro ha
    obtain ⟨i, hi⟩ := List.getElem?_of_mem ha
    have hl : i < rows.length := by
      rw [← h]; exact (List.getElem?_eq_some_iff.1 hi).1
    have hg : (numbered (withAliases rows as))[i]? =
        some ((i : Int), { rows[i] with al := .str a }) := by
      rw [numbered_get, withAliases_get rows h, hi, List.getElem?_eq_getElem hl]; rfl
    exact ⟨_, List.mem_of_getElem? hg, by simp⟩

omit [SciPy F] [NumText F] in
theorem filter_label (rows : List (Row F)) {i : Nat} {r : Row F} (h : rows[i]? = some r) :
    (numbered rows).filter (fun p => p.1 = (i : Int)) = [((i : Int), r)] := by
  have key : ∀ (rows : List (Row F)) (k i : Nat) (r : Row F), rows[i]? = some r →
      ((rows.zipIdx k).map (fun p => ((p.2 : Int), p.1))).filter (fun p => p.1 = ((k + i : Nat) : Int)) =
        [(((k + i : Nat) : Int), r)] := by
    intro rows
    induction rows with
    | nil => intro k i r h; simp at h
    | cons x rows ih =>
      intro k i r h
      rw [List.zipIdx_cons, List.map_cons]
      cases i with
      | zero =>
        have : x = r := by simpa using h
        subst this
        rw [List.filter_cons_of_pos (by simp)]
        congr 1
        rw [List.filter_eq_nil_iff]
        intro p hp
        obtain ⟨q, hq, rfl⟩ := List.mem_map.1 hp
        have := List.le_snd_of_mem_zipIdx hq
        simp; omega
      | succ i =>
        rw [List.filter_cons_of_neg (by simp; omega)]
        have := ih (k + 1) i r (by simpa using h)
        rw [show k + (i + 1) = k + 1 + i by omega]
        exact this
  have := key rows 0 i r h
  simpa [numbered] using this

omit [SciPy F] [NumText F] in
theorem setAt_with (rows : List (Row F)) {as : List String} (h : as.length = rows.length)
    {i : Nat} (hi : i < rows.length) (a : String) :
    setAt (numbered (withAliases rows as)) i a = numbered (withAliases rows (as.set i a)) := by
  have hex : (numbered (withAliases rows as)).any (fun p => p.1 = (i : Int)) = true := by
    have hg : (numbered (withAliases rows as))[i]? =
        some ((i : Int), { rows[i] with al := .str (as[i]'(h ▸ hi)) }) := by
      rw [numbered_get, withAliases_get rows h, List.getElem?_eq_getElem hi,
        List.getElem?_eq_getElem (h ▸ hi)]
      rfl
    exact List.any_eq_true.2 ⟨_, List.mem_of_getElem? hg, by simp⟩
  rw [setAt, if_pos hex]
  apply List.ext_getElem?
  intro j
  have h' : (as.set i a).length = rows.length := by rw [List.length_set, h]
  rw [setAlias, List.getElem?_map, numbered_get, numbered_get, withAliases_get rows h,
    withAliases_get rows h', List.getElem?_set]
  cases hr : rows[j]? with
  | none => rfl
  | some r =>
    have hj : j < as.length := by
      rw [h]; exact (List.getElem?_eq_some_iff.1 hr).1
    rw [List.getElem?_eq_getElem hj]
    by_cases hij : i = j
    · subst hij
      rw [if_pos rfl, if_pos hj]
      simp [bind]
    · rw [if_neg hij]
      have : (j : Int) ≠ i := by omega
      simp [bind, this]

omit [SciPy F] [NumText F] in
/-- One call on a catalogue numbered by position is what the specification says. -/
theorem afterCall_assign (rows : List (Row F)) {as : List String} (h : as.length = rows.length)
    {i : Nat} (hi : i < rows.length) (a : String) :
    afterCall (numbered (withAliases rows as)) (.int i, a) =
      numbered (withAliases rows (assign as (i, a))) := by
  have hi' : i < as.length := h ▸ hi
  have hg : (withAliases rows as)[i]? = some { rows[i] with al := .str as[i] } := by
    rw [withAliases_get rows h, List.getElem?_eq_getElem hi, List.getElem?_eq_getElem hi']; rfl
  have hs : sameAlias (numbered (withAliases rows as)) i a = .ok (decide (as[i] = a)) := by
    rw [sameAlias, filter_label _ hg]
    simp
  unfold afterCall assign
  simp only [registerAlias]
  by_cases hu : a ∈ as
  · rw [if_pos ((inUse_with rows h a).2 hu), hs]
    simp only [bind, Except.bind]
    by_cases he : as[i] = a
    · rw [if_pos (by simp [he])]
      simp only []
      rw [setAt_with rows h hi]
      split
      · rename_i hj
        have : as.set i a = as := by rw [← he, List.set_getElem_self]
        rw [this]
      · rfl
    · rw [if_neg (by simp [he])]
      obtain ⟨j, hj⟩ := List.getElem?_of_mem hu
      rw [if_pos (List.mem_eraseIdx_iff_getElem?.2 ⟨j, ?_, hj⟩)]
      rintro rfl
      rw [List.getElem?_eq_getElem hi'] at hj
      exact he (by simpa using hj)
  · rw [if_neg (fun e => hu ((inUse_with rows h a).1 e))]
    simp only []
    rw [if_neg (fun hm => hu (List.mem_of_mem_eraseIdx hm)), setAt_with rows h hi]

theorem assign_length (as : List String) (c : Nat × String) : (assign as c).length = as.length := by
  unfold assign
  split
  · rfl
  · rw [List.length_set]

omit [SciPy F] [NumText F] in
/-- A sequence of calls on a catalogue numbered by position is what the specification says. -/
theorem afterCalls_assign (rows : List (Row F)) {as : List String} (h : as.length = rows.length)
    (cs : List (Nat × String)) (hc : ∀ c ∈ cs, c.1 < rows.length) :
    afterCalls (numbered (withAliases rows as)) (cs.map (fun c => (.int c.1, c.2))) =
      numbered (withAliases rows (assignAll as cs)) := by
  induction cs generalizing as with
  | nil => rfl
  | cons c cs ih =>
    have := ih (as := assign as c) (by rw [assign_length, h])
      (fun c' h' => hc c' (List.mem_cons_of_mem _ h'))
    rw [List.map_cons, afterCalls, List.foldl_cons,
      afterCall_assign rows h (hc c (List.mem_cons_self ..))]
    exact this

theorem assignAll_length (as : List String) (cs : List (Nat × String)) :
    (assignAll as cs).length = as.length := by
  induction cs generalizing as with
  | nil => rfl
  | cons c cs ih => rw [assignAll, List.foldl_cons]; exact (ih _).trans (assign_length _ _)

/-- Requests keep the aliases different. -/
theorem assignAll_unique {as : List String} (h : ∀ i j : Nat, ∀ a, a ≠ "" → as[i]? = some a →
    as[j]? = some a → i = j) (cs : List (Nat × String)) :
    ∀ i j : Nat, ∀ a, a ≠ "" → (assignAll as cs)[i]? = some a → (assignAll as cs)[j]? = some a →
      i = j := by
  induction cs generalizing as with
  | nil => exact h
  | cons c cs ih =>
    rw [assignAll, List.foldl_cons]
    refine ih ?_
    unfold assign
    split
    · exact h
    · rename_i hno
      intro i j a ha hi hj
      rw [List.getElem?_set] at hi hj
      by_cases h1 : c.1 = i <;> by_cases h2 : c.1 = j
      · exact h1.symm.trans h2
      · rw [if_pos h1] at hi; rw [if_neg h2] at hj
        split at hi
        · have : c.2 = a := by simpa using hi
          subst this
          exact absurd (List.mem_eraseIdx_iff_getElem?.2 ⟨j, fun e => h2 e.symm, hj⟩) hno
        · cases hi
      · rw [if_neg h1] at hi; rw [if_pos h2] at hj
        split at hj
        · have : c.2 = a := by simpa using hj
          subst this
          exact absurd (List.mem_eraseIdx_iff_getElem?.2 ⟨i, fun e => h1 e.symm, hi⟩) hno
        · cases hj
      · rw [if_neg h1] at hi; rw [if_neg h2] at hj
        exact h i j a ha hi hj

theorem loadRow_alias (rd : String → Res (FileDict F)) (base : String) (r : Row F) (c : Cell) :
    loadRow rd base { r with al := c } = loadRow rd base r := rfl

/-- C56 for catalogues as they are built or loaded, whose rows are labelled by position, and calls
with the number of a row: `get_material(a)` loads the row that has the alias after all requests,
and raises ValueError if there is none.
Missing: other labels (`C56_refuted`), numbers of no row (`C56_added`) and the empty alias
(`C56_empty`). -/
theorem C56_lookup_partial (rd : String → Res (FileDict F)) (base : String) (rows : List (Row F))
    {as : List String} (h : as.length = rows.length)
    (hu : ∀ i j : Nat, ∀ a, a ≠ "" → as[i]? = some a → as[j]? = some a → i = j)
    (cs : List (Nat × String)) (hc : ∀ c ∈ cs, c.1 < rows.length) (a : String) (ha : a ≠ "") :
    (∀ (i : Nat) (hi : i < rows.length), (assignAll as cs)[i]? = some a →
      getMaterial rd base (afterCalls (numbered (withAliases rows as))
        (cs.map (fun c => (.int c.1, c.2)))) (.str a) = loadRow rd base rows[i]) ∧
    (a ∉ assignAll as cs →
      getMaterial rd base (afterCalls (numbered (withAliases rows as))
        (cs.map (fun c => (.int c.1, c.2)))) (.str a) = .error .value) := by
  rw [afterCalls_assign rows h cs hc]
  have hu' := assignAll_unique hu cs
  have hl := (assignAll_length as cs).trans h
  generalize assignAll as cs = bs at hu' hl
  constructor
  · intro i hi hb
    have hg : (numbered (withAliases rows bs))[i]? =
        some ((i : Int), { rows[i] with al := .str a }) := by
      rw [numbered_get, withAliases_get rows hl, hb, List.getElem?_eq_getElem hi]; rfl
    have hf : (numbered (withAliases rows bs)).filter (fun p => p.2.al = .str a) =
        [((i : Int), { rows[i] with al := .str a })] := by
      have hlab : (numbered (withAliases rows bs)).filter (fun p => p.2.al = .str a) =
          (numbered (withAliases rows bs)).filter (fun p => p.1 = (i : Int)) := by
        apply List.filter_congr
        intro p hp
        obtain ⟨j, hj, hpj⟩ := numbered_mem hp
        rw [withAliases_get rows hl] at hj
        cases hr : rows[j]? with
        | none => rw [hr] at hj; cases hj
        | some r =>
          cases hbj : bs[j]? with
          | none => rw [hr, hbj] at hj; cases hj
          | some b =>
            rw [hr, hbj] at hj
            have e : p.2 = { r with al := .str b } := (Option.some.inj hj).symm
            rw [e, hpj]
            have : (b = a) ↔ ((j : Int) = i) := by
              constructor
              · rintro rfl
                rw [hu' j i b ha hbj hb]
              · intro e'
                have e' : j = i := by omega
                subst e'
                rw [hb] at hbj; simpa using hbj.symm
            simp [this]
      rw [hlab]
      exact filter_label _ (by rw [withAliases_get rows hl, hb, List.getElem?_eq_getElem hi]; rfl)
    unfold getMaterial findRow
    simp only []
    rw [hf, List.map_cons]
    simp only [iloc]
    rw [if_pos (by omega), Int.toNat_natCast, hg]
    exact loadRow_alias rd base _ _
  · intro hno
    have hf : (numbered (withAliases rows bs)).filter (fun p => p.2.al = .str a) = [] := by
      rw [List.filter_eq_nil_iff]
      intro p hp he
      exact hno ((inUse_with rows hl a).1 (List.any_eq_true.2 ⟨p, hp, he⟩))
    unfold getMaterial findRow
    simp only []
    rw [hf]
    rfl

/-- C56: the row numbers count from the end if negative; numbers outside the table raise
IndexError. -/
theorem C56_number (rd : String → Res (FileDict F)) (base : String) (rows : List (Row F)) (n : Int) :
    getMaterial rd base (numbered rows) (.int n) =
      if h : 0 ≤ n ∧ n < rows.length then loadRow rd base (rows[n.toNat]'(by omega))
      else if h : n < 0 ∧ -n ≤ rows.length then
        loadRow rd base (rows[rows.length - (-n).toNat]'(by omega))
      else .error .index := by
  have hlen : (numbered rows).length = rows.length := by simp [numbered]
  unfold getMaterial findRow iloc
  simp only []
  rw [hlen]
  by_cases h0 : 0 ≤ n
  · rw [if_pos h0, numbered_get]
    by_cases h1 : n < rows.length
    · rw [dif_pos ⟨h0, h1⟩, List.getElem?_eq_getElem (by omega)]; rfl
    · rw [dif_neg (fun h => h1 h.2), dif_neg (fun h => by omega), List.getElem?_eq_none (by omega)]
      rfl
  · rw [if_neg h0, dif_neg (fun h => h0 h.1)]
    by_cases h1 : 0 ≤ n + rows.length
    · rw [if_pos h1, numbered_get, dif_pos ⟨by omega, by omega⟩,
        List.getElem?_eq_getElem (by omega)]
      simp only [Option.map_some, bind, Except.bind]
      congr 2
      omega
    · rw [if_neg h1, dif_neg (fun h => h1 (by omega))]; rfl

/-- C56 for numbers of no row: the alias is accepted, but the material cannot be loaded by it. -/
theorem C56_added (rd : String → Res (FileDict F)) (base : String) (rows : List (Row F)) (n : Nat)
    (hn : rows.length ≤ n) {a : String} (ha : inUse (numbered rows) a = false) :
    ∃ g e, registerAlias (numbered rows) (.int n) a = .ok g ∧
      getMaterial rd base g (.str a) = .error e ∧ (e = .index ∨ e = .attribute) := by
  have hno : ∀ p ∈ numbered rows, p.1 ≠ (n : Int) := by
    intro p hp e
    obtain ⟨i, hi, hpi⟩ := numbered_mem hp
    have := (List.getElem?_eq_some_iff.1 hi).1
    omega
  refine ⟨_, if n = rows.length then .attribute else .index, C57_added hno ha, ?_, ?_⟩
  · have hf : (numbered rows ++ [((n : Int), Row.added a)]).filter (fun p : Int × Row F => p.2.al = Cell.str a) =
        [((n : Int), Row.added a)] := by
      rw [List.filter_append]
      have : (numbered rows).filter (fun p => p.2.al = .str a) = [] := by
        rw [List.filter_eq_nil_iff]
        intro p hp
        simpa using inUse_false ha p hp
      rw [this]
      simp [Row.added]
    have hlen : (numbered rows).length = rows.length := by simp [numbered]
    unfold getMaterial findRow
    simp only []
    rw [hf, List.map_cons]
    simp only [iloc]
    rw [if_pos (by omega), Int.toNat_natCast]
    by_cases hnr : n = rows.length
    · rw [if_pos hnr, List.getElem?_append_right (by omega), hlen, hnr, Nat.sub_self]
      rfl
    · rw [if_neg hnr, List.getElem?_eq_none (by simp [hlen]; omega)]
      rfl
  · split <;> simp

/-- C56 for negative numbers: an alias registered for row `-2` loads the last row of the table,
not the one before it. -/
theorem C56_negative (rd : String → Res (FileDict F)) (base : String) (rows : List (Row F)) (r : Row F)
    {a : String} (ha : inUse (numbered (rows ++ [r])) a = false) :
    ∃ g, registerAlias (numbered (rows ++ [r])) (.int (-2)) a = .ok g ∧
      getMaterial rd base g (.str a) = loadRow rd base r := by
  have hno : ∀ p ∈ numbered (rows ++ [r]), p.1 ≠ -2 := by
    intro p hp e
    obtain ⟨i, hi, hpi⟩ := numbered_mem hp
    omega
  refine ⟨_, C57_added hno ha, ?_⟩
  have hf : (numbered (rows ++ [r]) ++ [((-2 : Int), Row.added a)]).filter
      (fun p : Int × Row F => p.2.al = Cell.str a) = [((-2 : Int), Row.added a)] := by
    rw [List.filter_append]
    have : (numbered (rows ++ [r])).filter (fun p => p.2.al = .str a) = [] := by
      rw [List.filter_eq_nil_iff]
      intro p hp
      simpa using inUse_false ha p hp
    rw [this]
    simp [Row.added]
  have hlen : (numbered (rows ++ [r]) ++ [((-2 : Int), Row.added a)]).length = rows.length + 2 := by
    simp [numbered]
  unfold getMaterial findRow
  simp only []
  rw [hf, List.map_cons]
  simp only [iloc]
  rw [if_neg (by omega), hlen, if_pos (by omega),
    show (-2 + ((rows.length + 2 : Nat) : Int)).toNat = rows.length by omega,
    List.getElem?_append_left (by simp [numbered]), numbered_get,
    List.getElem?_append_right (by omega), Nat.sub_self]
  rfl

/-- C56 for the empty alias: instead of a ValueError, the first row without an alias is loaded. -/
theorem C56_empty (rd : String → Res (FileDict F)) (base : String) (r : Row F) (rows : List (Row F))
    (h : r.al = .str "") :
    getMaterial rd base (numbered (r :: rows)) (.str "") = loadRow rd base r := by
  have : numbered (r :: rows) = (0, r) :: (rows.zipIdx 1).map (fun p => ((p.2 : Int), p.1)) := by
    simp [numbered, List.zipIdx_cons]
  unfold getMaterial findRow
  simp only []
  rw [this, List.filter_cons_of_pos (by simp [h])]
  rfl

/-- C56 (full statement, refuted below). -/
def C56_statement (F : Type) [PyFloat F] [SciPy F] [NumText F] : Prop :=
  ∀ (rd : String → Res (FileDict F)) (base : String) (f : Frame F), UniqueLabels f →
    UniqueAliases f → ∀ (cs : List (RowId × String)), (∀ c ∈ cs, SingleRow c.1) →
    ∀ (a : String), a ≠ "" →
      (∀ p ∈ afterCalls f cs, p.2.al = .str a →
        getMaterial rd base (afterCalls f cs) (.str a) = loadRow rd base p.2) ∧
      ((∀ p ∈ afterCalls f cs, p.2.al ≠ .str a) →
        getMaterial rd base (afterCalls f cs) (.str a) = .error .value)

/-- The arguments of the call in `get_material`. -/
theorem rowKw_good (p t u : String) : ((rowKw (F := F) p (.str t) (.str u)).map Prod.fst).Nodup ∧
    PlainOptions (rowKw (F := F) p (.str t) (.str u)) ∧
    Only (rowKw (F := F) p (.str t) (.str u)) "file_path" .text (.str p) := by
  refine ⟨by simp [rowKw], ⟨?_, ?_⟩, by decide, by simp [rowKw], by simp, ?_⟩
  · intro m hm w hw
    simp only [rowKw, List.mem_cons, List.not_mem_nil, or_false, Prod.mk.injEq] at hw
    rcases hw with ⟨rfl, rfl⟩ | ⟨rfl, rfl⟩ | ⟨rfl, rfl⟩
    · exact absurd hm (by decide)
    · exact .inr ⟨_, rfl⟩
    · exact .inr ⟨_, rfl⟩
  · rintro ⟨w, hw, -⟩
    simp [rowKw] at hw
  · rintro m ty hm ⟨w, hw, -⟩
    simp only [rowKw, List.mem_cons, List.not_mem_nil, or_false, Prod.mk.injEq] at hw
    rcases hw with ⟨rfl, rfl⟩ | ⟨rfl, rfl⟩ | ⟨rfl, rfl⟩
    · rfl
    · exact absurd hm (by simp [sources])
    · exact absurd hm (by simp [sources])

/-- `Material(file_path=p, spectrum_type=t, unit=u)`. -/
theorem new_row (rd : String → Res (FileDict F)) (p t u : String) :
    Material.new rd (rowKw p (.str t) (.str u)) = (do
      let fd ← rd p
      let m ← processFileData (blankMaterial (parsedOf (rowKw (F := F) p (.str t) (.str u)))) fd
      .ok (finish m)) := by
  obtain ⟨h1, h2, h3⟩ := rowKw_good (F := F) p t u
  rw [new_eq_dispatch _ h1 h2 h3 ⟨_, rfl⟩ trivial (by decide), dispatch_eq _ _ h1 h3 ⟨_, rfl⟩]
  simp only [dispatchOn, bind, Except.bind]
  cases rd p with
  | error e => rfl
  | ok fd =>
    simp only []
    cases processFileData (blankMaterial (parsedOf (rowKw (F := F) p (.str t) (.str u)))) fd with
    | error e => rfl
    | ok m => exact complete_eq m

/-- C56 is false: in a catalogue of which rows were selected, as with
`set_database(df.iloc[::-1])`, another row is loaded. -/
theorem C56_refuted : ¬ C56_statement F := by
  intro h
  let f : Frame F := [(1, exampleRow "x" "a.txt"), (0, exampleRow "y" "b.txt")]
  let rd : String → Res (FileDict F) := fun p =>
    if p = "/cat/UserData/a.txt" then .error .os else .error .key
  obtain ⟨h1, _⟩ := h rd "/cat" f (show [(1 : Int), 0].Nodup by decide) (by
    intro a ha
    by_cases hx : a = "x"
    · subst hx; simp [f, exampleRow]
    · rw [show f = [(1, exampleRow "x" "a.txt"), (0, exampleRow "y" "b.txt")] from rfl,
        List.countP_cons_of_neg (by simpa [exampleRow] using Ne.symm hx)]
      exact le_trans (List.countP_le_length) (by simp)) [] (by simp) "x" (by decide)
  have := h1 (1, exampleRow "x" "a.txt") (by simp [afterCalls, f]) rfl
  have e1 : getMaterial rd "/cat" (afterCalls f []) (.str "x") =
      loadRow rd "/cat" (exampleRow "y" "b.txt") := by
    simp [getMaterial, findRow, afterCalls, f, exampleRow, iloc, bind, Except.bind]
  rw [e1] at this
  have e2 : ∀ a b : String, loadRow rd "/cat" (exampleRow a b) = Material.new rd
      (rowKw (normPath (joinPath (joinPath "/cat" "UserData") (unixSlashes b))) (.str "wavelength")
        (.str "nanometer")) := fun _ _ => rfl
  rw [e2, e2, new_row, new_row] at this
  have p1 : normPath (joinPath (joinPath "/cat" "UserData") (unixSlashes "a.txt")) =
      "/cat/UserData/a.txt" := by decide +kernel
  have p2 : normPath (joinPath (joinPath "/cat" "UserData") (unixSlashes "b.txt")) ≠
      "/cat/UserData/a.txt" := by decide +kernel
  simp only [p1, rd, if_pos, if_neg p2, bind, Except.bind] at this
  cases this

/-- Concrete case for `C56_lookup_partial`: two rows, the alias moves from the first to the
second. -/
example (rd : String → Res (FileDict F)) (base : String) : getMaterial rd base (afterCalls
    (numbered (withAliases [exampleRow "" "a.txt", exampleRow "" "b.txt"] ["", ""]))
    ([(0, "x"), (1, "x"), (0, "y"), (1, "x")].map (fun c : Nat × String => (.int c.1, c.2))))
    (.str "x") = loadRow rd base (exampleRow "" "b.txt") :=
  (C56_lookup_partial rd base [exampleRow "" "a.txt", exampleRow "" "b.txt"] (as := ["", ""]) rfl
    (by
      intro i j a ha hi _
      have := List.mem_of_getElem? hi
      simp only [List.mem_cons, List.not_mem_nil, or_false, or_self] at this
      exact absurd this ha) [(0, "x"), (1, "x"), (0, "y"), (1, "x")]
    (by simp) "x" (by decide)).1 1 (by simp) (by decide)

end Disp

import Mathlib.Data.List.Nodup
import Mathlib.Data.List.Perm.Subperm
import Mathlib.Data.List.Forall2
import Verif.Model.Catalogue
/-!
# C55, C57: aliases
-/

namespace Disp

variable {F : Type} [PyFloat F]

/-! ## Specification -/

namespace Spec

/-- No two rows have the same non-empty alias. -/
def UniqueAliases (f : Frame F) : Prop :=
  ∀ a : String, a ≠ "" → f.countP (fun p => p.2.al = .str a) ≤ 1

/-- No two rows have the same index label. -/
def UniqueLabels (f : Frame F) : Prop := (f.map Prod.fst).Nodup

/-- Two tables with the same labels and cells, but possibly different aliases. -/
def SameButAlias (f g : Frame F) : Prop :=
  List.Forall₂ (fun p q => p.1 = q.1 ∧ ∃ c, q.2 = { p.2 with al := c }) f g

/-- A call of `register_alias` for one row at most. -/
def SingleRow : RowId → Prop
  | .int _ => True
  | .selection labels => labels.length ≤ 1
  | .other => True

end Spec

open Spec

/-- The table after a call, successful or not. -/
def afterCall (f : Frame F) (c : RowId × String) : Frame F :=
  match registerAlias f c.1 c.2 with
  | .ok g => g
  | .error _ => f

/-- The table after a sequence of calls. -/
def afterCalls (f : Frame F) (cs : List (RowId × String)) : Frame F := cs.foldl afterCall f

/-! ## What a call does -/

theorem setAlias_same (f : Frame F) (ls : List Int) (a : String) :
    SameButAlias f (setAlias f ls a) := by
  rw [SameButAlias, setAlias]
  induction f with
  | nil => exact .nil
  | cons p f ih =>
    refine .cons ?_ ih
    by_cases h : p.1 ∈ ls
    · simp only [if_pos h]; exact ⟨trivial, _, rfl⟩
    · simp only [if_neg h]; exact ⟨trivial, p.2.al, rfl⟩

theorem sameAlias_ok {f : Frame F} {n : Int} {a : String} {b : Bool}
    (h : sameAlias f n a = .ok b) : ∃ p, f.filter (fun p => p.1 = n) = [p] ∧
      b = decide (p.2.al = .str a) := by
  unfold sameAlias at h
  split at h
  · cases h
  · rename_i p hp
    exact ⟨p, hp, by cases h; rfl⟩
  · cases h

/-- The successful calls with a number. -/
theorem registerAlias_int {f g : Frame F} {n : Int} {a : String}
    (h : registerAlias f (.int n) a = .ok g) : g = setAt f n a ∧
      (inUse f a = false ∨ ∃ p, f.filter (fun p => p.1 = n) = [p] ∧ p.2.al = .str a) := by
  simp only [registerAlias] at h
  by_cases hu : inUse f a = true
  · rw [if_pos hu] at h
    cases hs : sameAlias f n a with
    | error e => rw [hs] at h; cases h
    | ok b =>
      rw [hs] at h
      simp only [bind, Except.bind] at h
      obtain ⟨p, hp, hb⟩ := sameAlias_ok hs
      cases b with
      | false => simp at h
      | true =>
        rw [if_pos rfl] at h
        exact ⟨by cases h; rfl, .inr ⟨p, hp, by simpa using hb.symm⟩⟩
  · rw [if_neg hu] at h
    exact ⟨by cases h; rfl, .inl (by simpa using hu)⟩

/-- The successful calls with rows. -/
theorem registerAlias_selection {f g : Frame F} {ls : List Int} {a : String}
    (h : registerAlias f (.selection ls) a = .ok g) : g = setAlias f ls a ∧
      inUse f a = false ∧ UniqueLabels f ∧ ∀ l ∈ ls, ∃ p ∈ f, p.1 = l := by
  simp only [registerAlias] at h
  by_cases hu : inUse f a = true
  · rw [if_pos hu] at h; cases h
  rw [if_neg hu] at h
  by_cases hn : (f.map Prod.fst).Nodup
  · rw [if_neg (not_not.2 hn)] at h
    split at h
    · rename_i hl
      refine ⟨by cases h; rfl, by simpa using hu, hn, fun l hl' => ?_⟩
      have := List.all_eq_true.1 hl l hl'
      obtain ⟨p, hp, he⟩ := List.any_eq_true.1 this
      exact ⟨p, hp, by simpa using he⟩
    · cases h
  · rw [if_pos hn] at h; cases h

theorem inUse_false {f : Frame F} {a : String} (h : inUse f a = false) :
    ∀ p ∈ f, p.2.al ≠ .str a := by
  intro p hp he
  have : inUse f a = true := List.any_eq_true.2 ⟨p, hp, by simp [he]⟩
  rw [h] at this; cases this

theorem count_setAlias (f : Frame F) (ls : List Int) (a b : String) :
    (setAlias f ls a).countP (fun p => p.2.al = .str b) =
      f.countP (fun p => (p.1 ∈ ls ∧ a = b) ∨ (p.1 ∉ ls ∧ p.2.al = .str b)) := by
  rw [setAlias, List.countP_map]
  apply List.countP_congr
  intro p _
  by_cases h : p.1 ∈ ls <;> simp [h]

theorem labels_setAlias (f : Frame F) (ls : List Int) (a : String) :
    (setAlias f ls a).map Prod.fst = f.map Prod.fst := by
  rw [setAlias, List.map_map]
  apply List.map_congr_left
  intro p _
  by_cases h : p.1 ∈ ls <;> simp [h]

theorem count_label {f : Frame F} (h : UniqueLabels f) (n : Int) :
    f.countP (fun p => p.1 = n) ≤ 1 := by
  have := List.nodup_iff_count_le_one.1 h n
  rw [List.count, List.countP_map] at this
  refine le_trans (le_of_eq (List.countP_congr ?_)) this
  intro p _
  simp

/-- Setting the alias of one row. -/
theorem unique_set {f : Frame F} (hl : UniqueLabels f) (hu : UniqueAliases f) {n : Int} {a : String}
    (h : inUse f a = false ∨ ∃ p, f.filter (fun p => p.1 = n) = [p] ∧ p.2.al = .str a) :
    UniqueAliases (setAlias f [n] a) := by
  intro b hb
  rw [count_setAlias]
  by_cases hab : a = b
  · subst hab
    rcases h with h | ⟨p, hp, ha⟩
    · refine le_trans (List.countP_mono_left ?_) (count_label hl n)
      intro q hq
      have := inUse_false h q hq
      simp only [decide_eq_true_eq, List.mem_singleton]
      rintro (⟨h1, _⟩ | ⟨_, h2⟩)
      · exact h1
      · exact absurd h2 this
    · refine le_trans (List.countP_mono_left ?_) (hu a hb)
      intro q hq
      simp only [decide_eq_true_eq, List.mem_singleton]
      rintro (⟨h1, _⟩ | ⟨_, h2⟩)
      · have : q ∈ f.filter (fun p => p.1 = n) := List.mem_filter.2 ⟨hq, by simpa using h1⟩
        rw [hp, List.mem_singleton] at this
        rw [this]; exact ha
      · exact h2
  · refine le_trans (List.countP_mono_left ?_) (hu b hb)
    intro q _
    simp only [decide_eq_true_eq]
    rintro (⟨_, h1⟩ | ⟨_, h2⟩)
    · exact absurd h1 hab
    · exact h2

/-- One call keeps labels and aliases unique. -/
theorem unique_step {f : Frame F} (hl : UniqueLabels f) (hu : UniqueAliases f)
    {c : RowId × String} (hc : SingleRow c.1) :
    UniqueLabels (afterCall f c) ∧ UniqueAliases (afterCall f c) := by
  obtain ⟨id, a⟩ := c
  unfold afterCall
  cases hr : registerAlias f id a with
  | error e => exact ⟨hl, hu⟩
  | ok g =>
    show UniqueLabels g ∧ UniqueAliases g
    cases id with
    | other => cases hr
    | int n =>
      obtain ⟨rfl, h⟩ := registerAlias_int hr
      unfold setAt
      by_cases hp : f.any (fun p => p.1 = n) = true
      · rw [if_pos hp]
        exact ⟨by rw [UniqueLabels, labels_setAlias]; exact hl, unique_set hl hu h⟩
      · rw [if_neg hp]
        have hno : ∀ p ∈ f, p.1 ≠ n := by
          intro p hpf he
          exact hp (List.any_eq_true.2 ⟨p, hpf, by simp [he]⟩)
        have hin : inUse f a = false := by
          rcases h with h | ⟨p, hpf, _⟩
          · exact h
          · have : p ∈ f.filter (fun p => p.1 = n) := by rw [hpf]; simp
            obtain ⟨h1, h2⟩ := List.mem_filter.1 this
            exact absurd (by simpa using h2) (hno p h1)
        refine ⟨?_, ?_⟩
        · rw [UniqueLabels, List.map_append, List.nodup_append]
          refine ⟨hl, by simp, ?_⟩
          intro x hx y hy
          obtain ⟨p, hpf, rfl⟩ := List.mem_map.1 hx
          have : y = n := by simpa using hy
          rw [this]; exact hno p hpf
        · intro b hb
          rw [List.countP_append, List.countP_singleton]
          by_cases hab : a = b
          · subst hab
            have : f.countP (fun p => p.2.al = .str a) = 0 := by
              rw [List.countP_eq_zero]
              intro p hpf
              simpa using inUse_false hin p hpf
            rw [this]; split <;> omega
          · rw [if_neg (by simpa [Row.added] using hab)]
            exact hu b hb
    | selection ls =>
      obtain ⟨rfl, h1, _, _⟩ := registerAlias_selection hr
      refine ⟨by rw [UniqueLabels, labels_setAlias]; exact hl, ?_⟩
      match ls, hc with
      | [], _ =>
        have : setAlias f [] a = f := by simp [setAlias]
        rw [this]; exact hu
      | [l], _ => exact unique_set hl hu (.inl h1)
      | _ :: _ :: _, hc => simp [SingleRow] at hc

/-- C55 for calls with a row number or with at most one row: no sequence of calls, failing or
not, produces two rows with the same alias.
Missing: calls with several rows, see `C55_selection`. -/
theorem C55_unique_partial {f : Frame F} (hl : UniqueLabels f) (hu : UniqueAliases f)
    (cs : List (RowId × String)) (hc : ∀ c ∈ cs, SingleRow c.1) :
    UniqueAliases (afterCalls f cs) := by
  suffices h : UniqueLabels (afterCalls f cs) ∧ UniqueAliases (afterCalls f cs) from h.2
  induction cs generalizing f with
  | nil => exact ⟨hl, hu⟩
  | cons c cs ih =>
    obtain ⟨h1, h2⟩ := unique_step hl hu (hc c (List.mem_cons_self ..))
    exact ih h1 h2 (fun c' h' => hc c' (List.mem_cons_of_mem _ h'))

/-- C55 fails for every selection of several rows: a new alias is given to all of them. -/
theorem C55_selection {f : Frame F} (hl : UniqueLabels f) {p q : Int × Row F} (hp : p ∈ f)
    (hq : q ∈ f) (hne : p.1 ≠ q.1) {a : String} (ha : a ≠ "") (hn : inUse f a = false) :
    ∃ g, registerAlias f (.selection [p.1, q.1]) a = .ok g ∧ ¬ UniqueAliases g := by
  have h1 : ([p.1, q.1] : List Int).all (fun l => f.any (fun r => r.1 = l)) = true := by
    simp only [List.all_cons, List.all_nil, Bool.and_true, Bool.and_eq_true]
    exact ⟨List.any_eq_true.2 ⟨p, hp, by simp⟩, List.any_eq_true.2 ⟨q, hq, by simp⟩⟩
  refine ⟨setAlias f [p.1, q.1] a, ?_, ?_⟩
  · simp only [registerAlias]
    rw [if_neg (by simp [hn]), if_neg (not_not.2 (show (f.map Prod.fst).Nodup from hl)), if_pos h1]
  · intro hu
    have := hu a ha
    rw [count_setAlias] at this
    have h2 : [p, q].countP (fun r => (r.1 ∈ [p.1, q.1] ∧ a = a) ∨
        (r.1 ∉ [p.1, q.1] ∧ r.2.al = .str a)) = 2 := by simp
    have h3 : ([p, q] : List _).Nodup := by
      simp only [List.nodup_cons, List.mem_singleton, List.not_mem_nil, not_false_eq_true,
        List.nodup_nil, and_true]
      intro e; exact hne (by rw [e])
    have h4 : [p, q].Subperm f := by
      apply List.Nodup.subperm h3
      intro r hr
      simp only [List.mem_cons, List.not_mem_nil, or_false] at hr
      rcases hr with rfl | rfl <;> assumption
    have := (h4.countP_le _).trans this
    rw [h2] at this
    omega

/-- C55 (full statement, refuted below). -/
def C55_statement (F : Type) [PyFloat F] : Prop :=
  ∀ (f : Frame F), UniqueLabels f → UniqueAliases f → ∀ cs, UniqueAliases (afterCalls f cs)

/-- A row of user data, for examples. -/
def exampleRow (al file : String) : Row F :=
  { al := .str al, name := .str "glass", fullName := .str "", author := .str "", comment := .str "",
    reference := .str "", stype := .str "wavelength", unit := .str "nanometer",
    lower := lit 400, upper := lit 700, nRef := .scalar (lit 1), kRef := .scalar (lit 0),
    path := .str file, modl := .str "UserData" }

/-- A table of two rows, for examples. -/
def exampleFrame (a b : String) : Frame F := numbered [exampleRow a "a.txt", exampleRow b "b.txt"]

theorem exampleFrame_labels (a b : String) : UniqueLabels (exampleFrame (F := F) a b) := by
  show [(0 : Int), 1].Nodup
  decide

/-- C55 is false: `register_alias(database, "x")`. -/
theorem C55_refuted : ¬ C55_statement F := by
  intro h
  have hf := exampleFrame_labels (F := F) "" ""
  obtain ⟨g, hg, hn⟩ := C55_selection hf (p := (0, exampleRow "" "a.txt"))
    (q := (1, exampleRow "" "b.txt")) (by simp [exampleFrame, numbered])
    (by simp [exampleFrame, numbered]) (show (0 : Int) ≠ 1 by decide) (a := "x") (by decide)
    (by simp [inUse, exampleFrame, numbered, exampleRow])
  have := h _ hf (by intro a ha; simp [exampleFrame, numbered, exampleRow, Ne.symm ha])
    [(.selection [0, 1], "x")]
  rw [afterCalls, List.foldl_cons, List.foldl_nil, afterCall, hg] at this
  exact hn this

/-- Concrete case for `C55_unique_partial`: the second call is refused, the third renames. -/
example : afterCalls (exampleFrame (F := F) "" "") [(.int 0, "x"), (.int 1, "x"), (.int 0, "y"),
    (.int 1, "x")] = exampleFrame "y" "x" := by
  simp [afterCalls, afterCall, registerAlias, exampleFrame, numbered, exampleRow, inUse, sameAlias,
    setAt, setAlias, bind, Except.bind]

/-! ## Rows -/

/-- C57 for rows of the table: only aliases change.
Missing: numbers that label no row, see `C57_added`. -/
theorem C57_rows_partial {f g : Frame F} {id : RowId} {a : String}
    (h : registerAlias f id a = .ok g) (hid : ∀ n, id = .int n → ∃ p ∈ f, p.1 = n) :
    SameButAlias f g := by
  cases id with
  | other => cases h
  | int n =>
    obtain ⟨rfl, _⟩ := registerAlias_int h
    obtain ⟨p, hp, he⟩ := hid n rfl
    rw [setAt, if_pos (List.any_eq_true.2 ⟨p, hp, by simp [he]⟩)]
    exact setAlias_same _ _ _
  | selection ls =>
    obtain ⟨rfl, _⟩ := registerAlias_selection h
    exact setAlias_same _ _ _

/-- C57 fails for every other number: a row is added whose other cells are missing, and no
exception is raised, unless the alias is in use. -/
theorem C57_added {f : Frame F} {n : Int} (hn : ∀ p ∈ f, p.1 ≠ n) {a : String}
    (ha : inUse f a = false) :
    registerAlias f (.int n) a = .ok (f ++ [(n, Row.added a)]) := by
  simp only [registerAlias]
  rw [if_neg (by simp [ha]), setAt, if_neg]
  intro h
  obtain ⟨p, hp, he⟩ := List.any_eq_true.1 h
  exact hn p hp (by simpa using he)

/-- C57 (full statement, refuted below). -/
def C57_statement (F : Type) [PyFloat F] : Prop :=
  ∀ (f g : Frame F) (id : RowId) (a : String), registerAlias f id a = .ok g → SameButAlias f g

/-- C57 is false: a negative number does not count from the end but adds a row. -/
theorem C57_refuted : ¬ C57_statement F := by
  intro h
  have := h _ _ _ _ (C57_added (F := F) (f := exampleFrame "" "") (n := -1) (a := "x")
    (by simp [exampleFrame, numbered]) (by simp [inUse, exampleFrame, numbered, exampleRow]))
  have := this.length_eq
  simp at this

/-- The rows that a call leaves unchanged, in every case: calls never remove a row, nor change
anything but the alias of a row that was there. -/
theorem C57_kept {f g : Frame F} {id : RowId} {a : String} (h : registerAlias f id a = .ok g) :
    ∃ f' new, g = f' ++ new ∧ SameButAlias f f' ∧ new.length ≤ 1 := by
  by_cases hid : ∀ n, id = .int n → ∃ p ∈ f, p.1 = n
  · exact ⟨g, [], by simp, C57_rows_partial h hid, by simp⟩
  · push Not at hid
    obtain ⟨n, rfl, hn⟩ := hid
    obtain ⟨rfl, _⟩ := registerAlias_int h
    refine ⟨f, [(n, Row.added a)], ?_, ?_, by simp⟩
    · rw [setAt, if_neg]
      intro h'
      obtain ⟨p, hp, he⟩ := List.any_eq_true.1 h'
      exact hn p hp (by simpa using he)
    · rw [SameButAlias]
      refine List.forall₂_same.2 (fun p _ => ⟨rfl, p.2.al, rfl⟩)

end Disp

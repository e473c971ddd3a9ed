import Verif.Props.CsvLosses
/-!
# Materials of a catalogue that was saved and loaded (C72)
-/

namespace Disp

open Spec

variable {F : Type} [PyFloat F] [SciPy F] [NumText F] [CsvIO F]

namespace Spec

/-- Rows are labelled by their positions, as after building or loading. -/
def ByPosition (f : Frame F) : Prop :=
  f.map Prod.fst = (List.range f.length).map (fun i : Nat => (i : Int))

/-- The same labels and the same rows. -/
def SameTable (f g : Frame F) : Prop :=
  List.Forall₂ (fun p q => q.1 = p.1 ∧ SameRow p.2 q.2) f g

end Spec

omit [SciPy F] [NumText F] in
theorem sameTable_of {f g : Frame F} (h1 : g.map Prod.fst = f.map Prod.fst)
    (h2 : List.Forall₂ SameRow (f.map Prod.snd) (g.map Prod.snd)) : SameTable f g := by
  induction f generalizing g with
  | nil =>
    cases g with
    | nil => exact .nil
    | cons q g => simp at h1
  | cons p f ih =>
    cases g with
    | nil => simp at h1
    | cons q g =>
      simp only [List.map_cons, List.cons.injEq] at h1
      simp only [List.map_cons, List.forall₂_cons] at h2
      exact .cons ⟨h1.1, h2.1⟩ (ih h1.2 h2.2)

omit [SciPy F] [NumText F] in
theorem Spec.SameTable.get {f g : Frame F} (h : SameTable f g) (i : Nat) :
    (f[i]? = none ∧ g[i]? = none) ∨
      ∃ p q, f[i]? = some p ∧ g[i]? = some q ∧ SameRow p.2 q.2 := by
  induction h generalizing i with
  | nil => exact .inl ⟨rfl, rfl⟩
  | cons hpq _ ih =>
    cases i with
    | zero => exact .inr ⟨_, _, rfl, rfl, hpq.2⟩
    | succ i => simpa using ih i

/-- Two answers: the same exception or the same row. -/
def SameAnswer : Res (Row F) → Res (Row F) → Prop
  | .ok r, .ok r' => SameRow r r'
  | .error e, .error e' => e = e'
  | _, _ => False

omit [SciPy F] [NumText F] in
theorem Spec.SameTable.iloc {f g : Frame F} (h : SameTable f g) (i : Int) :
    SameAnswer (iloc f i) (iloc g i) := by
  have hl : g.length = f.length := h.length_eq.symm
  unfold Disp.iloc
  rw [hl]
  split
  · rcases h.get i.toNat with ⟨h1, h2⟩ | ⟨p, q, h1, h2, hs⟩
    · rw [h1, h2]; rfl
    · rw [h1, h2]; exact hs
  · split
    · rcases h.get (i + f.length).toNat with ⟨h1, h2⟩ | ⟨p, q, h1, h2, hs⟩
      · rw [h1, h2]; rfl
      · rw [h1, h2]; exact hs
    · rfl

omit [SciPy F] [NumText F] in
theorem Spec.SameTable.labels {f g : Frame F} (h : SameTable f g) (a : String) :
    (g.filter (fun p => p.2.al = .str a)).map Prod.fst =
      (f.filter (fun p => p.2.al = .str a)).map Prod.fst := by
  induction h with
  | nil => rfl
  | @cons p q f g hpq _ ih =>
    by_cases hp : p.2.al = .str a
    · have hq : q.2.al = .str a := hpq.2.al.trans hp
      simp [hp, hq, ih, hpq.1]
    · have hq : ¬ q.2.al = .str a := fun e => hp (hpq.2.al.symm.trans e)
      simp [hp, hq, ih]

omit [SciPy F] [NumText F] in
theorem Spec.SameTable.find {f g : Frame F} (h : SameTable f g) (id : Identifier) :
    SameAnswer (findRow f id) (findRow g id) := by
  cases id with
  | str a =>
    unfold findRow
    simp only [h.labels a]
    split
    · rfl
    · exact h.iloc _
  | int n => exact h.iloc n
  | other => rfl

/-- The material of a row depends on its path, its module, its spectrum type and its unit only. -/
theorem Spec.SameRow.load {r r' : Row F} (h : SameRow r r') (rd : String → Res (FileDict F))
    (base : String) : loadRow rd base r' = loadRow rd base r := by
  simp only [loadRow, h.path, h.modl, h.stype, h.unit]

theorem Spec.SameTable.material {f g : Frame F} (h : SameTable f g)
    (rd : String → Res (FileDict F)) (base : String) (id : Identifier) :
    getMaterial rd base g id = getMaterial rd base f id := by
  have hf := h.find id
  unfold getMaterial
  revert hf
  generalize findRow f id = x
  generalize findRow g id = y
  intro hf
  cases x <;> cases y
  · have e := hf
    simp only [SameAnswer] at e
    rw [e]
  · exact hf.elim
  · exact hf.elim
  · exact SameRow.load hf rd base

/-- **C72**: after saving and loading a catalogue, `get_material` gives for every alias and every
number exactly what it gave before: the same material or the same exception. -/
theorem C72_reload [CsvLaws F] (f : Frame F) (hpos : ByPosition f)
    (h : ∀ p ∈ f, Storable p.2) (rd : String → Res (FileDict F)) (base : String) :
    ∃ g : Frame F, loadCsv (csvText f) = some (.ok g) ∧
      ∀ id, getMaterial rd base g id = getMaterial rd base f id := by
  obtain ⟨g, hg, h1, h2⟩ := C62_roundtrip_partial f h
  exact ⟨g, hg, fun id => (sameTable_of (h1.trans hpos.symm) h2).material rd base id⟩

omit [SciPy F] [NumText F] [CsvIO F] in
/-- Built tables are labelled by position, so the hypothesis of C72 holds for them. -/
theorem numbered_byPosition (rows : List (Row F)) : ByPosition (numbered rows) := by
  have := numbered_fst rows
  rw [ByPosition, this]
  simp [numbered]

/-- A catalogue of two rows that was loaded again. -/
example (cr : Bool) [SciPy XR] [NumText XR] (rd : String → Res (FileDict XR)) :
    ∃ g, @loadCsv XR _ (demoCsv cr) (@csvText XR _ (demoCsv cr)
        (numbered [demoCsvRow, { demoCsvRow with al := .str "other" }])) = some (.ok g) ∧
      ∀ id, getMaterial rd "/data" g id =
        getMaterial rd "/data" (numbered [demoCsvRow, { demoCsvRow with al := .str "other" }]) id := by
  letI := demoCsv cr
  haveI := demoCsvLaws cr
  refine C72_reload _ (numbered_byPosition _) ?_ rd "/data"
  intro p hp
  have : p = (0, demoCsvRow) ∨ p = (1, { demoCsvRow with al := .str "other" }) := by
    simpa [numbered, List.zipIdx] using hp
  rcases this with rfl | rfl
  · exact demoCsvRow_storable _
  · exact { demoCsvRow_storable (demoCsv cr) with
      al := ⟨"other", rfl, by decide, fun h => absurd h (by decide)⟩ }

end Disp

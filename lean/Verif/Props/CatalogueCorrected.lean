import Verif.Props.AliasLookup
import Verif.Props.Building

/-!
# C77, C78: what does hold of aliases and of rebuilding

C55, C56 and C58 are false of the code in general. These are the corrected statements.
-/

namespace Disp

open Spec

variable {F : Type} [PyFloat F] [SciPy F] [NumText F]

/-- C77. In a catalogue labelled by position, after any sequence of `register_alias` calls with
the numbers of existing rows: only aliases have changed, as if each request for an alias that
another row has had been ignored; no two rows share an alias; and `get_material` with an alias
loads the row that has it, or raises `ValueError` if there is none. -/
theorem C77_aliases (rd : String → Res (FileDict F)) (base : String) (rows : List (Row F))
    {as : List String} (h : as.length = rows.length)
    (hu : ∀ i j : Nat, ∀ a, a ≠ "" → as[i]? = some a → as[j]? = some a → i = j)
    (cs : List (Nat × String)) (hc : ∀ c ∈ cs, c.1 < rows.length) :
    ∃ bs : List String, bs.length = rows.length ∧ bs = assignAll as cs ∧
      afterCalls (numbered (withAliases rows as)) (cs.map (fun c => (.int c.1, c.2))) =
        numbered (withAliases rows bs) ∧
      (∀ i j : Nat, ∀ a, a ≠ "" → bs[i]? = some a → bs[j]? = some a → i = j) ∧
      (∀ a, a ≠ "" → ∀ (i : Nat) (hi : i < rows.length), bs[i]? = some a →
        getMaterial rd base (numbered (withAliases rows bs)) (.str a) = loadRow rd base rows[i]) ∧
      (∀ a, a ≠ "" → a ∉ bs →
        getMaterial rd base (numbered (withAliases rows bs)) (.str a) = .error .value) := by
  refine ⟨assignAll as cs, (assignAll_length as cs).trans h, rfl, afterCalls_assign rows h cs hc,
    assignAll_unique hu cs, ?_, ?_⟩
  · intro a ha i hi hb
    rw [← afterCalls_assign rows h cs hc]
    exact (C56_lookup_partial rd base rows h hu cs hc a ha).1 i hi hb
  · intro a ha hb
    rw [← afterCalls_assign rows h cs hc]
    exact (C56_lookup_partial rd base rows h hu cs hc a ha).2 hb

/-- A sequence with a refused request: the second row cannot have the alias of the first until
the first gets another. -/
example : assignAll ["", ""] [(0, "x"), (1, "x"), (0, "y"), (1, "x")] = ["y", "x"] := by decide

example : assignAll ["", ""] [(0, "x"), (1, "x")] = ["x", ""] := by decide

/-- C78. After building with a request by name, by `'All'` or by a list: a requested enabled
module has the rows read from its files, an enabled module that was not requested keeps its old
rows in their order, no other rows exist, and rows are numbered by position. And building
succeeds if the requested enabled modules can be read and no disabled module is requested by
name alone. -/
theorem C78_rebuild (fs : FileSys F) (ref : Spectrum F) (base : String)
    {ms : List (String × Bool)} (hm : GoodModules ms) (old : Frame F) {rb : Rebuild}
    (hr : Proper rb) :
    (∀ g, buildCatalogue fs ref base ms old rb = .ok g →
      (∀ m, (m, true) ∈ ms → Wanted rb m → readModule fs ref base m = .ok (rowsOfModule g m)) ∧
      (∀ m, (m, true) ∈ ms → ¬ Wanted rb m → rowsOfModule g m = rowsOfModule old m) ∧
      (∀ m, (m, true) ∉ ms → rowsOfModule g m = []) ∧
      g.map Prod.fst = (List.range g.length).map (fun i : Nat => (i : Int))) ∧
    ((∀ m, rb = .text m → (m, false) ∉ ms) →
      (∀ m, (m, true) ∈ ms → Wanted rb m → ∃ rows, readModule fs ref base m = .ok rows) →
      ∃ g, buildCatalogue fs ref base ms old rb = .ok g) :=
  ⟨fun _ h => C58_rows_partial hm hr h, fun hd h => C58_succeeds hm hr hd h⟩

example : GoodModules [("UserData", true), ("RefractiveIndexInfo", true), ("Filmetrics", false)] :=
  ⟨by decide, by decide⟩

example : Proper (.text "UserData") ∧ Wanted (.text "UserData") "UserData" ∧
    ¬ Wanted (.text "UserData") "RefractiveIndexInfo" := by
  refine ⟨Or.inr (by decide), Or.inr rfl, ?_⟩
  rintro (h | h) <;> exact absurd h (by decide)

end Disp

import Verif.Model.Csv

/-!
# A Catalogue object in use (catalogue.py 166-266)

The methods of a `Catalogue` that read or change its table, as calls that change the object and
the catalogue file.
-/

namespace Disp

variable {F : Type} [PyFloat F] [SciPy F] [NumText F] [CsvIO F]

/-- The qgrid widget. `show_grid` copies the frame; sorting and editing act on the copy, a filter
hides rows. Not modelled: adding rows with the toolbar. -/
structure Grid (F : Type) where
  rows : Frame F
  keep : Int × Row F → Bool
  editable : Bool

/-- What the user does with the widget. The order of sorting is arbitrary. -/
inductive GridAction (F : Type)
  | sort (le : Int × Row F → Int × Row F → Bool)
  | filter (keep : Int × Row F → Bool)
  | edit (label : Int) (change : Row F → Row F)

/-- The widget after an action; without `editable` cells cannot be changed. -/
def Grid.act (g : Grid F) : GridAction F → Grid F
  | .sort le => { g with rows := g.rows.mergeSort le }
  | .filter keep => { g with keep := keep }
  | .edit label change =>
    if g.editable then
      { g with rows := g.rows.map (fun p => if p.1 = label then (p.1, change p.2) else p) }
    else g

/-- qgrid's `get_changed_df`: the rows that are shown, in the order shown, with their labels. -/
def Grid.changedDf (g : Grid F) : Frame F := g.rows.filter g.keep

/-- A `Catalogue` and its file. `interactive` is `config['Interactive']`, `grid` is
`qgrid_widget` (catalogue.py 117-118). -/
structure CatState (F : Type) where
  interactive : Bool
  db : Frame F
  grid : Option (Grid F)
  file : Option (List Char)

/-- The calls. Changing the frame that `get_database` returns in place is `setDatabase`. -/
inductive CatCall (F : Type)
  | registerAlias (id : RowId) (al : String)
  | getMaterial (id : Identifier)
  | getDatabase
  | setDatabase (f : Frame F)
  | viewInteractive
  | editInteractive
  | act (a : GridAction F)
  | saveInteractive
  | saveToFile

/-- catalogue.py 166-193 `view_interactive` and `edit_interactive`. -/
def CatState.show (s : CatState F) (editable : Bool) : Res Unit × CatState F :=
  if s.interactive then
    (.ok (), { s with grid := some { rows := s.db, keep := fun _ => true, editable := editable } })
  else (.error .value, s)

/-- One call (catalogue.py 166-266): does it return, and the state afterwards. `rd` reads material
files, `base` is `config['Path']`. -/
def CatState.step (rd : String → Res (FileDict F)) (base : String) (s : CatState F) :
    CatCall F → Res Unit × CatState F
  | .registerAlias id al =>
    match Disp.registerAlias s.db id al with
    | .ok f => (.ok (), { s with db := f })
    | .error e => (.error e, s)
  | .getMaterial id =>
    match Disp.getMaterial rd base s.db id with
    | .ok _ => (.ok (), s)
    | .error e => (.error e, s)
  | .getDatabase => (.ok (), s)
  | .setDatabase f => (.ok (), { s with db := f })
  | .viewInteractive => s.show false
  | .editInteractive => s.show true
  | .act a =>
    match s.grid with
    | Option.none => (.ok (), s)
    | some g => (.ok (), { s with grid := some (g.act a) })
  | .saveInteractive =>
    if s.interactive then
      match s.grid with
      | Option.none => (.error .attribute, s)
      | some g => (.ok (), { s with db := g.changedDf })
    else (.error .value, s)
  | .saveToFile => (.ok (), { s with file := some (csvText s.db) })

/-- The state after a history of calls, whether they raise or not. -/
def CatState.after (rd : String → Res (FileDict F)) (base : String) (s : CatState F)
    (cs : List (CatCall F)) : CatState F :=
  cs.foldl (fun s c => (s.step rd base c).2) s

end Disp

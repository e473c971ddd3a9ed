import Verif.Model.Session
import Verif.Model.Config
import Mathlib.Logic.Function.Basic
/-!
# Several Catalogue objects that share a catalogue file

Objects in one or several Python processes with the same configuration. Each keeps its own table in
memory (catalogue.py 116) and shares only the file, which the constructor reads (108-112) and
`save_to_file` writes (211-215). Simplified: calls do not overlap in time.
-/

namespace Disp

variable {F : Type} [PyFloat F] [SciPy F] [NumText F] [CsvIO F] {ι : Type} [DecidableEq ι]

/-- What all objects have in common: the computer, the configuration and the path of the catalogue
file; `base` is `config['Path']`, `interactive` is `config['Interactive']`. -/
structure Place (F : Type) where
  sys : CfgSys F
  files : FileSys F
  config : YamlVal F
  path : String
  base : String
  interactive : Bool
  read : String → Res (FileDict F)

/-- The content of the catalogue file, and the objects that exist. -/
structure World (ι F : Type) where
  file : Option (List Char)
  objs : ι → Option (CatState F)

/-- The next thing that happens: an object is constructed with `rebuild='None'` (replacing an older
one of the same name), or a method is called. -/
inductive Event (ι F : Type)
  | opens (i : ι)
  | call (i : ι) (c : CatCall F)

/-- The files that can be read. -/
def World.csv (P : Place F) (w : World ι F) (p : String) : Option (List Char) :=
  if p = P.path then w.file else Option.none

/-- catalogue.py 98-118: what a new object shows. -/
def World.fresh (P : Place F) (w : World ι F) : Option (Res (Frame F)) :=
  newCatalogue P.sys P.files (w.csv P) P.config (.text "None")

/-- One event. A constructor that raises leaves everything as it is. -/
def World.step (P : Place F) (w : World ι F) : Event ι F → World ι F
  | .opens i =>
    match w.fresh P with
    | some (.ok f) =>
      let s : CatState F :=
        { interactive := P.interactive, db := f, grid := Option.none, file := w.file }
      { w with objs := Function.update w.objs i (some s) }
    | _ => w
  | .call i c =>
    match w.objs i with
    | Option.none => w
    | some s =>
      let s' := (({ s with file := w.file } : CatState F).step P.read P.base c).2
      { file := s'.file, objs := Function.update w.objs i (some s') }

/-- The world after a sequence of events. -/
def World.after (P : Place F) (w : World ι F) (es : List (Event ι F)) : World ι F :=
  es.foldl (fun w e => w.step P e) w

end Disp

import Verif.Model.Csv
import Verif.Model.Interrupted
/-!
# Interrupted saving of the catalogue (catalogue.py 211-215)

`DataFrame.to_csv` opens the file for writing, which empties it, and then writes the new text. If
the process ends early, some beginning of the text has reached the disk. Characters are taken to
be written whole.
-/

namespace Disp

variable {F : Type} [PyFloat F] [CsvIO F]

/-- catalogue.py 211-215 `save_to_file`: what the file can hold if the process is interrupted after
the file was opened. -/
def csvStates (f : Frame F) : List (List Char) := beginnings (csvText f)

end Disp

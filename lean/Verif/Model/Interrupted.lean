import Verif.Model.Files
/-!
# Interrupted writing (`Writer.write_file`, io.py 597-662)

Files are replaced by opening them for writing, which empties them (`np.savetxt`, io.py 659-662;
`write_yaml_file`, io.py 187; `prepend_text_to_file`, io.py 224), and then writing the new text.
If the process ends early, some beginning of the text has reached the disk. Characters are taken
to be written whole.
-/

namespace Disp

variable {F : Type} [PyFloat F] [SciPy F] [NumText F] [Printing F]

/-- The texts that a file can hold while `text` is written to it. -/
def beginnings (text : List Char) : List (List Char) :=
  (List.range (text.length + 1)).map (fun i => text.take i)

/-- io.py 607-615: what the file can hold from the moment it is opened for `text`, and while the
comment is put in front. -/
def textStates (comment : MetaVal) (extra : Bool) (text : List Char) : List (List Char) :=
  beginnings text ++ match comment with
    | .str s => if s = "" then [] else beginnings (prependText s.toList extra text)
    | .dict _ => []

/-- io.py 597-619 `write_file` for a file that held `old`: what it can hold if the process is
interrupted at any moment. Errors before the file is opened leave it alone. -/
def Writer.writeStates [YamlIO F] (w : Writer F) (ignoreConstant rii : Bool) (old : List Char) :
    List (List Char) :=
  match dictPop w.metaData "MetaComment" with
  | .error _ => [old]
  | .ok (comment, md) =>
    let w := { w with metaData := md }
    match textFormat w.ext with
    | some _ =>
      match w.writeText with
      | .error _ => [old]
      | .ok text => old :: textStates comment false text
    | Option.none =>
      if w.ext = ".yml" then
        match w.writeYaml ignoreConstant rii with
        | (.error _, _) => [old]
        | (.ok text, _) => old :: textStates comment true text
      else [old]

end Disp

import Verif.Model.Arrays

/-!
# Programs in which nothing is shared

The reference for `Model/Arrays.lean`: every variable, Spectrum object and material owns its
numbers. Passing an array to a constructor passes a copy of its contents, and a method returns a
copy. A write therefore changes the one variable that it names and nothing else.
-/

namespace Disp.Spec

variable {F : Type} [PyFloat F] [SciPy F]

/-- What a variable holds. -/
inductive Held (F : Type)
  | num (x : F)
  | cell (c : Box F)

/-- A number, or a new array. -/
def Held.ofVals : Vals F → Held F
  | .scalar x => .num x
  | .array dt xs => .cell (.arr (.d1 dt xs))

/-- The state of a program without sharing. -/
structure Copies (F : Type) [SciPy F] where
  vars : List (Option (Held F))
  specs : List (Option (Spectrum F))
  mats : List (Option (Material F))

/-- The contents of the variable that is given as an argument. -/
def Copies.held (c : Copies F) : Given F → Option (Held F)
  | .var i => (c.vars[i]?).join
  | _ => none

/-- An argument as `values` or `valid_range`. -/
def Copies.raw (c : Copies F) (g : Given F) : Raw F :=
  match g, c.held g with
  | .num x, _ => .float x
  | .lit dt xs, _ => .list dt xs
  | _, some (.num x) => .float x
  | _, some (.cell (.arr (.d1 dt xs))) => .ndarray dt xs
  | _, some (.cell (.list dt xs)) => .list dt xs
  | _, _ => .other

/-- An argument as `parameters`. -/
def Copies.params (c : Copies F) (g : Given F) : Option (List F) :=
  match g, c.held g with
  | .lit _ xs, _ => some xs
  | _, some (.cell (.arr (.d1 _ xs))) => some xs
  | _, some (.cell (.list _ xs)) => some xs
  | _, _ => none

variable [NumText F]

/-- One statement, without sharing. -/
def Copies.step (c : Copies F) : Act F → Seen F × Copies F
  | .make x => (.quiet, { c with vars := c.vars ++ [some (.cell x)] })
  | .write i x => match c.held (.var i) with
    | some (.cell old) =>
      if old.accepts x then (.quiet, { c with vars := c.vars.set i (some (.cell x)) })
      else (.raised .value, c)
    | _ => (.missing, c)
  | .look i => match c.held (.var i) with
    | some (.num x) => (.num x, c)
    | some (.cell x) => (.cell x, c)
    | none => (.missing, c)
  | .spectrum x t u => match Spectrum.new (c.raw x) t u with
    | .ok s => (.quiet, { c with specs := c.specs ++ [some s] })
    | .error e => (.raised e, { c with specs := c.specs ++ [none] })
  | .convert s t u => match (c.specs[s]?).join with
    | none => (.missing, { c with vars := c.vars ++ [none] })
    | some o => match o.convertTo t u with
      | .error e => (.raised e, { c with vars := c.vars ++ [none] })
      | .ok v => (.quiet, { c with vars := c.vars ++ [some (.ofVals v)] })
  | .convertIn s t u => match (c.specs[s]?).join with
    | none => (.missing, c)
    | some o => match o.convertInPlace t u with
      | (.error e, _) => (.raised e, c)
      | (.ok _, o') => (.quiet, { c with specs := c.specs.set s (some o') })
  | .values s => match (c.specs[s]?).join with
    | none => (.missing, { c with vars := c.vars ++ [none] })
    | some o => (.quiet, { c with vars := c.vars ++ [some (.ofVals o.values)] })
  | .contains s s' => match (c.specs[s]?).join, (c.specs[s']?).join with
    | some o, some o' => (Seen.ofRes .yes (o.contains o'), c)
    | _, _ => (.missing, c)
  | .model name t u ps rg => match c.params ps with
    | none => (.raised .type, { c with mats := c.mats ++ [none] })
    | some xs => match Material.new noFiles (modelArgs name t u xs (c.raw rg)) with
      | .error e => (.raised e, { c with mats := c.mats ++ [none] })
      | .ok m => (.quiet, { c with mats := c.mats ++ [some m] })
  | .table arg i t u => match c.held (.var i) with
    | some (.cell x) => match Material.new noFiles (tableArgs arg t u x.table) with
      | .error e => (.raised e, { c with mats := c.mats ++ [none] })
      | .ok m => (.quiet, { c with mats := c.mats ++ [some m] })
    | _ => (.missing, { c with mats := c.mats ++ [none] })
  | .nk m s => match (c.mats[m]?).join, (c.specs[s]?).join with
    | some o, some o' => (Seen.ofRes .answer (o.getNk o').1, c)
    | _, _ => (.missing, c)
  | .eps m s => match (c.mats[m]?).join, (c.specs[s]?).join with
    | some o, some o' => (Seen.ofRes .answer (o.getPermittivity o').1, c)
    | _, _ => (.missing, c)
  | .save m => match (c.mats[m]?).join with
    | some o => (.numbers o.written, c)
    | none => (.missing, c)

/-- A program, statement by statement. -/
def Copies.run (c : Copies F) : List (Act F) → List (Seen F)
  | [] => []
  | a :: as => (c.step a).1 :: (c.step a).2.run as

def Copies.start : Copies F := { vars := [], specs := [], mats := [] }

/-! ## A rule for the caller -/

/-- Whether a variable is the caller's own (with the note whether it is a list), or may be shared
with an object. -/
inductive Hold
  | own (list : Bool)
  | shared
  deriving DecidableEq

/-- Wavelengths in metres. -/
def inMetres (t u : String) : Bool :=
  lower t = "wavelength" && ["m", "meter", "metre"].contains u

/-- A variable is given away. -/
def give (o : List Hold) : Given F → List Hold
  | .var i => o.set i .shared
  | _ => o

/-- A variable is given away unless it is a list, which is copied. -/
def giveArray (o : List Hold) : Given F → List Hold
  | .var i => if o[i]? = some (.own true) then o else o.set i .shared
  | _ => o

/-- How each statement changes what is the caller's own. A new array or list is; so is the
result of a conversion, except to wavelengths in metres. The `values` of a Spectrum are not.
Handing an array to `Spectrum`, as a `valid_range`, as `parameters` or as `tabulated_n` gives it
away; a list is given away only as `parameters`. -/
def holds (o : List Hold) : Act F → List Hold
  | .make (.list _ _) => o ++ [.own true]
  | .make (.arr _) => o ++ [.own false]
  | .convert _ t u => o ++ [if inMetres t u then .shared else .own false]
  | .values _ => o ++ [.shared]
  | .spectrum x _ _ => giveArray o x
  | .model _ _ _ ps rg => giveArray (give o ps) rg
  | .table arg i _ _ => if arg = "tabulated_n" then give o (.var i : Given F) else o
  | _ => o

/-- Only own variables are written to. -/
def Allowed (o : List Hold) : Act F → Prop
  | .write i _ => o[i]? ≠ some .shared
  | _ => True

/-- A program that writes only to its own variables. -/
def Careful : List Hold → List (Act F) → Prop
  | _, [] => True
  | o, a :: as => Allowed o a ∧ Careful (holds o a) as

end Disp.Spec

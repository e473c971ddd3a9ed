import Verif.Model.Material

/-!
# Arrays that the caller and the objects share

The rest of the model treats numbers in objects as values. In Python they are arrays and lists,
and some are kept by reference: the caller can change them later. Here the memory is explicit.
Objects hold addresses where the code keeps the caller's object (or hands its own out) and fresh
arrays where it copies. What an operation computes is taken from the value model, applied to the
present contents of the memory. No statement of spectrum.py, spectral_data.py or material.py
writes into an array that it did not create itself in the same call, so the operations only
allocate; only the caller writes.

Not modelled: views and strides (a slice of an array is a different array here), arrays with
three or more axes, a `Spectrum` of a two-dimensional array, model parameters that are neither a
list nor a one-dimensional array, dictionaries as shared objects, files and extrapolation.
-/

namespace Disp

variable {F : Type} [PyFloat F]

/-- A Python object that can be changed in place: a NumPy array or a list of numbers. -/
inductive Box (F : Type)
  | arr (a : NDArr F)
  | list (dt : DType) (xs : List F)

/-- `a[...] = b` keeps the shape and the type of an array; `l[:] = b` puts any numbers into a
list. -/
def Box.accepts : Box F → Box F → Bool
  | .arr (.d1 dt xs), .arr (.d1 dt' ys) => dt = dt' && xs.length = ys.length
  | .arr (.d2 n dt xs), .arr (.d2 n' dt' ys) => n = n' && dt = dt' && xs.length = ys.length
  | .list _ _, .list _ _ => true
  | _, _ => false

/-- The object as the `values` or `valid_range` argument of a constructor. -/
def Box.raw : Box F → Raw F
  | .arr (.d1 dt xs) => .ndarray dt xs
  | .list dt xs => .list dt xs
  | _ => .other

/-- The object as the `parameters` of a model. -/
def Box.params : Box F → Option (List F)
  | .arr (.d1 _ xs) => some xs
  | .list _ xs => some xs
  | _ => none

/-- The object as a table. -/
def Box.table : Box F → PyVal F
  | .arr a => .arr a
  | .list _ _ => .other

/-- A number, or the address of an object. -/
inductive Ref (F : Type)
  | num (x : F)
  | addr (a : Nat)

/-- The memory: the contents of all arrays and lists. -/
abbrev Heap (F : Type) := List (Box F)

/-- The numbers of a cell as the values of a Spectrum. -/
def Box.vals : Box F → Vals F
  | .arr (.d1 dt xs) => .array dt xs
  | .list dt xs => .array dt xs
  | _ => .array .float []

/-- The numbers behind a reference. -/
def Heap.vals (h : Heap F) : Ref F → Vals F
  | .num x => .scalar x
  | .addr a => match h[a]? with
    | some c => c.vals
    | none => .array .float []

/-- A new object with the given numbers; a single number is not an object. -/
def Heap.put (h : Heap F) : Vals F → Ref F × Heap F
  | .scalar x => (.num x, h)
  | .array dt xs => (.addr h.length, h ++ [.arr (.d1 dt xs)])

/-- A `Spectrum` object: `values` and `standard_rep` are references. -/
structure HSpectrum (F : Type) where
  values : Ref F
  stype : String
  unit : String
  std : Ref F

/-- The numbers in a Spectrum object at present. -/
def HSpectrum.get (h : Heap F) (s : HSpectrum F) : Spectrum F :=
  { values := h.vals s.values, stype := s.stype, unit := s.unit, std := h.vals s.std }

/-- spectrum.py 297-315: `convert_to('wavelength', 'm')` is the one conversion that hands out
`standard_rep` itself (line 103-104 of `to_wavelength`). -/
def handsOut (stype unit : String) : Bool :=
  lower stype = "wavelength" && standardiseUnit (lower stype) unit = .ok "m"

/-- spectrum.py 187-193: `values` is the caller's array if there is one (`keep`), and new
otherwise. -/
def Heap.keepOrPut (h : Heap F) (keep : Option Nat) (v : Vals F) : Ref F × Heap F :=
  match keep with
  | some a => (.addr a, h)
  | none => h.put v

/-- spectrum.py 179-195 and 270-278: `standard_rep` is the same object as `values` for
wavelengths in metres and new otherwise. -/
def HSpectrum.build (h : Heap F) (keep : Option Nat) (s : Spectrum F) : HSpectrum F × Heap F :=
  let v := h.keepOrPut keep s.values
  let w := if s.stype = "wavelength" ∧ s.unit = "m" then v else v.2.put s.std
  ({ values := v.1, stype := s.stype, unit := s.unit, std := w.1 }, w.2)

section
variable [SciPy F]

/-- A `Material` object: the data as they were built, and the addresses of the caller's objects
that it still uses: the `parameters` (spectral_data.py 242) and the `valid_range` (65-67 with
spectrum.py 187-193) of a model, the table of an `Interpolation` (spectral_data.py 204). -/
structure HMaterial (F : Type) [SciPy F] where
  base : Material F
  params : Option Nat
  range : Option Nat
  table : Option Nat

/-- `model_parameters` replaced. -/
def RealData.withParams (ps : List F) : RealData F → RealData F
  | .model k _ r t u => .model k ps r t u
  | d => d

/-- The array of a range replaced. -/
def Spectrum.withArray (v : Vals F) (s : Spectrum F) : Spectrum F :=
  { s with values := v, std := if s.stype = "wavelength" ∧ s.unit = "m" then v else s.std }

/-- The array of the `valid_range` of a model replaced. -/
def RealData.withRange (v : Vals F) : RealData F → RealData F
  | .model k p r t u => .model k p (r.withArray v) t u
  | d => d

/-- `Interpolation.data` replaced. -/
def RealData.withTable (a : NDArr F) : RealData F → RealData F
  | .interp o rows r t u => .interp o (match a.cols2 0 1 with
    | .ok rows' => rows'
    | .error _ => rows) r t u
  | d => d

def Material.withParams (ps : List F) (m : Material F) : Material F :=
  { m with real := m.real.map (·.withParams ps), imag := m.imag.map (·.withParams ps),
           cplx := m.cplx.map (fun d => { d with params := ps }) }

def Material.withRange (v : Vals F) (m : Material F) : Material F :=
  { m with real := m.real.map (·.withRange v), imag := m.imag.map (·.withRange v),
           cplx := m.cplx.map (fun d => { d with range := d.range.withArray v }) }

def Material.withTable (a : NDArr F) (m : Material F) : Material F :=
  { m with real := m.real.map (·.withTable a) }

/-- The parameters at an address. -/
def Heap.params (h : Heap F) (a : Nat) : List F :=
  match h[a]? with
  | some c => c.params.getD []
  | none => []

/-- The table at an address. -/
def Heap.table (h : Heap F) (a : Nat) : NDArr F :=
  match h[a]? with
  | some (.arr t) => t
  | _ => .other

/-- The material as the evaluation sees it: models read their parameters and range at each call
(spectral_data.py 288-302, 320-331); an `Interpolation` evaluates `interp1d`, which has copied
the table (204-216). -/
def HMaterial.asked (h : Heap F) (m : HMaterial F) : Material F :=
  let m1 := match m.params with
    | some a => m.base.withParams (h.params a)
    | none => m.base
  match m.range with
  | some a => m1.withRange (h.vals (.addr a))
  | none => m1

/-- The material as `dict_repr` sees it (spectral_data.py 104-113, 225-236, 265-276): an
`Interpolation` writes the table. -/
def HMaterial.stored (h : Heap F) (m : HMaterial F) : Material F :=
  match m.table with
  | some a => (m.asked h).withTable (h.table a)
  | none => m.asked h

/-- The numbers that `dict_repr` writes for one part: the value, the table or the parameters,
and the range. -/
def RealData.written : RealData F → List F
  | .constant c r _ _ => c :: r.values.toList
  | .interp _ rows r _ _ => rows.flatMap (fun p => [p.1, p.2]) ++ r.values.toList
  | .model _ ps r _ _ => ps ++ r.values.toList
  | .extrap _ _ _ r _ _ => r.values.toList

/-- The numbers that are written when a material is saved. -/
def Material.written (m : Material F) : List F :=
  match m.cplx with
  | some d => d.params ++ d.range.values.toList
  | none => (m.real.map RealData.written).getD [] ++ (m.imag.map RealData.written).getD []

/-! ## Programs of a caller -/

/-- An argument: a number, a list written in place, or a variable. -/
inductive Given (F : Type)
  | num (x : F)
  | lit (dt : DType) (xs : List F)
  | var (i : Nat)

/-- One statement of a caller. Variables, Spectrum objects and materials are numbered in the
order in which the program mentions them first. -/
inductive Act (F : Type)
  /-- `v = np.array(...)` or `v = [...]` -/
  | make (c : Box F)
  /-- `v[...] = ...` -/
  | write (i : Nat) (c : Box F)
  /-- looking at a variable -/
  | look (i : Nat)
  /-- `s = Spectrum(x, t, u)` -/
  | spectrum (x : Given F) (t u : String)
  /-- `v = s.convert_to(t, u)` -/
  | convert (s : Nat) (t u : String)
  /-- `s.convert_to(t, u, in_place=True)` -/
  | convertIn (s : Nat) (t u : String)
  /-- `v = s.values` -/
  | values (s : Nat)
  /-- `s.contains(s')` -/
  | contains (s s' : Nat)
  /-- `m = Material(model_kw={'name': ..., 'spectrum_type': t, 'unit': u, 'parameters': ps,
  'valid_range': rg})` -/
  | model (name t u : String) (ps rg : Given F)
  /-- `m = Material(tabulated_n=v, spectrum_type=t, unit=u)`, likewise `tabulated_nk`,
  `tabulated_eps` -/
  | table (arg : String) (i : Nat) (t u : String)
  /-- `m.get_nk_data(s)` -/
  | nk (m s : Nat)
  /-- `m.get_permittivity(s)` -/
  | eps (m s : Nat)
  /-- the numbers written by saving `m` -/
  | save (m : Nat)

/-- What the caller sees. -/
inductive Seen (F : Type)
  | quiet
  | missing
  | raised (e : PyErr)
  | num (x : F)
  | cell (c : Box F)
  | yes (b : Bool)
  | answer (v : CVals F)
  | numbers (xs : List F)

/-- The state of a program. A statement that raised leaves its variable unset. -/
structure Proc (F : Type) [SciPy F] where
  heap : Heap F
  vars : List (Option (Ref F))
  specs : List (Option (HSpectrum F))
  mats : List (Option (HMaterial F))

/-- An entry that exists and is set. -/
def entry {α : Type} (l : List (Option α)) (i : Nat) : Option α := (l[i]?).join

/-- The object behind an argument. -/
def Proc.cellOf (p : Proc F) : Given F → Option (Nat × Box F)
  | .var i => match entry p.vars i with
    | some (.addr a) => (p.heap[a]?).map (fun c => (a, c))
    | _ => none
  | _ => none

/-- An argument as `values` or `valid_range`. -/
def Proc.raw (p : Proc F) (g : Given F) : Raw F :=
  match g, p.cellOf g with
  | .num x, _ => .float x
  | .lit dt xs, _ => .list dt xs
  | .var _, some (_, c) => c.raw
  | .var i, none => match entry p.vars i with
    | some (.num x) => .float x
    | _ => .other

/-- spectrum.py 188-193: a list becomes a new array, an array is kept. -/
def Proc.kept (p : Proc F) (g : Given F) : Option Nat :=
  match p.cellOf g with
  | some (a, .arr (.d1 _ _)) => some a
  | _ => none

/-- An argument as `parameters`, with the address that is kept. -/
def Proc.paramsOf (p : Proc F) (g : Given F) : Option (List F × Option Nat) :=
  match g, p.cellOf g with
  | .lit _ xs, _ => some (xs, none)
  | _, some (a, c) => c.params.map (fun xs => (xs, some a))
  | _, none => none

/-- No file is read here. -/
def noFiles : String → Res (FileDict F) := fun _ => .error .fileNotFound

/-- The arguments of `Material(model_kw=...)`. -/
def modelArgs (name t u : String) (ps : List F) (rg : Raw F) : Kwargs F :=
  let d : ModelKw F :=
    { name := some name, stype := some t, unit := some u, params := some ps,
      validRange := some rg }
  [("model_kw", .dict d)]

/-- The arguments of `Material(tabulated_..=...)`. -/
def tableArgs (arg t u : String) (v : PyVal F) : Kwargs F :=
  [(arg, v), ("spectrum_type", .str t), ("unit", .str u)]

/-- material.py 471-491: `tabulated_n` hands the table itself to the `Interpolation`, the other
tables are taken apart with index lists, which copy. -/
def keepsTable (arg : String) : Bool := arg = "tabulated_n"

/-- The outcome of an evaluation or conversion. -/
def Seen.ofRes {α : Type} (f : α → Seen F) : Res α → Seen F
  | .ok v => f v
  | .error e => .raised e

variable [NumText F]

/-- One statement, with shared objects. -/
def Proc.step (p : Proc F) : Act F → Seen F × Proc F
  | .make c => (.quiet, { p with heap := p.heap ++ [c],
                                 vars := p.vars ++ [some (.addr p.heap.length)] })
  | .write i c => match p.cellOf (.var i) with
    | some (a, old) => if old.accepts c then (.quiet, { p with heap := p.heap.set a c })
      else (.raised .value, p)
    | none => (.missing, p)
  | .look i => match entry p.vars i with
    | some (.num x) => (.num x, p)
    | some (.addr a) => match p.heap[a]? with
      | some c => (.cell c, p)
      | none => (.missing, p)
    | none => (.missing, p)
  | .spectrum x t u => match Spectrum.new (p.raw x) t u with
    | .ok s =>
      let b := HSpectrum.build p.heap (p.kept x) s
      (.quiet, { p with heap := b.2, specs := p.specs ++ [some b.1] })
    | .error e => (.raised e, { p with specs := p.specs ++ [none] })
  | .convert s t u => match entry p.specs s with
    | none => (.missing, { p with vars := p.vars ++ [none] })
    | some o => match (o.get p.heap).convertTo t u with
      | .error e => (.raised e, { p with vars := p.vars ++ [none] })
      | .ok v =>
        if handsOut t u then (.quiet, { p with vars := p.vars ++ [some o.std] })
        else (.quiet, { p with heap := (p.heap.put v).2,
                               vars := p.vars ++ [some (p.heap.put v).1] })
  | .convertIn s t u => match entry p.specs s with
    | none => (.missing, p)
    | some o => match (o.get p.heap).convertCore t u with
      | .error e => (.raised e, p)
      | .ok (t', u', v) =>
        if handsOut t u then
          let o' : HSpectrum F := { o with values := o.std, stype := t', unit := u' }
          (.quiet, { p with specs := p.specs.set s (some o') })
        else
          let o' : HSpectrum F := { o with values := (p.heap.put v).1, stype := t', unit := u' }
          (.quiet, { p with heap := (p.heap.put v).2, specs := p.specs.set s (some o') })
  | .values s => match entry p.specs s with
    | none => (.missing, { p with vars := p.vars ++ [none] })
    | some o => (.quiet, { p with vars := p.vars ++ [some o.values] })
  | .contains s s' => match entry p.specs s, entry p.specs s' with
    | some o, some o' => (Seen.ofRes .yes ((o.get p.heap).contains (o'.get p.heap)), p)
    | _, _ => (.missing, p)
  | .model name t u ps rg => match p.paramsOf ps with
    | none => (.raised .type, { p with mats := p.mats ++ [none] })
    | some (xs, a) => match Material.new noFiles (modelArgs name t u xs (p.raw rg)) with
      | .error e => (.raised e, { p with mats := p.mats ++ [none] })
      | .ok m =>
        let o : HMaterial F := { base := m, params := a, range := p.kept rg, table := none }
        (.quiet, { p with mats := p.mats ++ [some o] })
  | .table arg i t u => match p.cellOf (.var i) with
    | none => (.missing, { p with mats := p.mats ++ [none] })
    | some (a, c) => match Material.new noFiles (tableArgs arg t u c.table) with
      | .error e => (.raised e, { p with mats := p.mats ++ [none] })
      | .ok m =>
        let o : HMaterial F :=
          { base := m, params := none, range := none,
            table := if keepsTable arg then some a else none }
        (.quiet, { p with mats := p.mats ++ [some o] })
  | .nk m s => match entry p.mats m, entry p.specs s with
    | some o, some o' => (Seen.ofRes .answer ((o.asked p.heap).getNk (o'.get p.heap)).1, p)
    | _, _ => (.missing, p)
  | .eps m s => match entry p.mats m, entry p.specs s with
    | some o, some o' =>
      (Seen.ofRes .answer ((o.asked p.heap).getPermittivity (o'.get p.heap)).1, p)
    | _, _ => (.missing, p)
  | .save m => match entry p.mats m with
    | some o => (.numbers (o.stored p.heap).written, p)
    | none => (.missing, p)

/-- A program, statement by statement: all that the caller sees. -/
def Proc.run (p : Proc F) : List (Act F) → List (Seen F)
  | [] => []
  | a :: as => (p.step a).1 :: (p.step a).2.run as

/-- The start of a program. -/
def Proc.start : Proc F := { heap := [], vars := [], specs := [], mats := [] }

end

end Disp

import Verif.Py.Float
/-!
# Model of `src/dispersion/spectrum.py`
-/

namespace Disp

variable {F : Type} [PyFloat F]

/-- Element type of a NumPy array. -/
inductive DType
  | int | float
  deriving DecidableEq, Repr

/-- What `Spectrum.values` and `Spectrum.standard_rep` hold: a float or a one-dimensional
array. Elements of an integer array are represented by the floats of the same value. -/
inductive Vals (F : Type)
  | scalar (x : F)
  | array (dt : DType) (xs : List F)
  deriving DecidableEq, Repr

/-- What a caller may pass as `values`: a float, a list or tuple, an array, or something else
(an `int`, a string, `None`, ...). -/
inductive Raw (F : Type)
  | float (x : F)
  | list (dt : DType) (xs : List F)
  | ndarray (dt : DType) (xs : List F)
  | other

namespace Vals

/-- Elementwise float operation with a float: the result of an array is a float array. -/
def map {F : Type} (f : F → F) : Vals F → Vals F
  | scalar x => scalar (f x)
  | array _ xs => array .float (xs.map f)

/-- The values as a list. -/
def toList {F : Type} : Vals F → List F
  | scalar x => [x]
  | array _ xs => xs

/-- `isinstance(values, np.ndarray)`. -/
def isArray {F : Type} : Vals F → Bool
  | scalar _ => false
  | array _ _ => true

end Vals

/-- spectrum.py 35-45 `safe_inverse_scalar`. -/
def safeInverseScalar (x : F) : F :=
  if PyFloat.eq x (lit 0) then PyFloat.inf
  else if PyFloat.eq x PyFloat.inf then lit 0
  else lit 1 / x

/-- `np.isclose(x, 0.0)` with NumPy's default tolerances: `|x - 0| <= 1e-8 + 1e-5*|0|`. -/
def isCloseZero (x : F) : Bool := PyFloat.le (PyFloat.abs x) (lit 1e-8)

/-- One element of spectrum.py 21-33 `safe_inverse_array`. `np.isclose(x, np.inf)` is
`x == inf`. -/
def safeInverseElem (x : F) : F :=
  if isCloseZero x then PyFloat.inf
  else if PyFloat.eq x PyFloat.inf then lit 0
  else lit 1 / x

/-- spectrum.py 10-20 `safe_inverse`. The copy `np.array(values)` of an integer array is an
integer array, into which `inverse[zero_ind] = np.inf` (line 30) cannot be stored:
`OverflowError`, whatever the mask. -/
def safeInverse : Vals F → Res (Vals F)
  | .scalar x => .ok (.scalar (safeInverseScalar x))
  | .array .float xs => .ok (.array .float (xs.map safeInverseElem))
  | .array .int _ => .error .overflow

/-- `scipy.constants.c`, `.h`, `.e` (CODATA 2018, exact). -/
def cLight : F := lit 299792458
def hPlanck : F := lit 6.62607015e-34
def eCharge : F := lit 1.602176634e-19

/-- The factor `constants.h*constants.c/(constants.e)`, spectrum.py 63 and 130. -/
def hce : F := hPlanck * cLight / eCharge

/-- spectrum.py 47-54 `frequency_to_standard`. -/
def frequencyToStandard (unit : String) (v : Vals F) : Res (Vals F) :=
  if unit = "hz" then do
    let inv ← safeInverse v
    .ok (inv.map (fun x => cLight * x))
  else .error .notImplemented

/-- spectrum.py 57-64 `energy_to_standard`. -/
def energyToStandard (unit : String) (v : Vals F) : Res (Vals F) :=
  if unit = "ev" then do
    let inv ← safeInverse v
    .ok (inv.map (fun x => hce * x))
  else .error .notImplemented

/-- spectrum.py 67-75 `ang_freq_to_standard`. -/
def angFreqToStandard (unit : String) (v : Vals F) : Res (Vals F) :=
  if unit = "1/s" then do
    let inv ← safeInverse v
    .ok (inv.map (fun x => lit 2 * PyFloat.pi * cLight * x))
  else .error .notImplemented

/-- spectrum.py 78-85 `wavenumber_to_standard`. -/
def wavenumberToStandard (unit : String) (v : Vals F) : Res (Vals F) :=
  if unit = "1/cm" then do
    let inv ← safeInverse v
    .ok (inv.map (fun x => lit 2 * PyFloat.pi * x * lit 1e-2))
  else .error .notImplemented

/-- spectrum.py 88-100 `wavelength_to_standard`. -/
def wavelengthToStandard (unit : String) (v : Vals F) : Res (Vals F) :=
  if unit = "nm" then .ok (v.map (fun x => x * lit 1e-9))
  else if unit = "cm" then .ok (v.map (fun x => x * lit 1e-2))
  else if unit = "um" then .ok (v.map (fun x => x * lit 1e-6))
  else if unit = "a" then .ok (v.map (fun x => x * lit 1e-10))
  else .ok v

/-- spectrum.py 102-114 `to_wavelength`. An unknown unit leaves `converted_values` unbound. -/
def toWavelength (unit : String) (v : Vals F) : Res (Vals F) :=
  if unit = "m" then .ok v
  else if unit = "cm" then .ok (v.map (fun x => PyFloat.round 5 (x * lit 1e2)))
  else if unit = "nm" then .ok (v.map (fun x => PyFloat.round 12 (x * lit 1e9)))
  else if unit = "um" then .ok (v.map (fun x => PyFloat.round 9 (x * lit 1e6)))
  else if unit = "a" then .ok (v.map (fun x => PyFloat.round 13 (x * lit 1e10)))
  else .error .unboundLocal

/-- spectrum.py 116-122 `to_frequency`. -/
def toFrequency (unit : String) (v : Vals F) : Res (Vals F) :=
  if unit = "hz" then do
    let inv ← safeInverse v
    .ok (inv.map (fun x => cLight * x))
  else .error .notImplemented

/-- spectrum.py 124-130 `to_energy`. -/
def toEnergy (unit : String) (v : Vals F) : Res (Vals F) :=
  if unit = "ev" then do
    let inv ← safeInverse v
    .ok (inv.map (fun x => PyFloat.round 9 (hce * x)))
  else .error .notImplemented

/-- spectrum.py 132-138 `to_ang_freq`. -/
def toAngFreq (unit : String) (v : Vals F) : Res (Vals F) :=
  if unit = "1/s" then do
    let inv ← safeInverse v
    .ok (inv.map (fun x => lit 2 * PyFloat.pi * cLight * x))
  else .error .notImplemented

/-- spectrum.py 140-146 `to_wavenumber`. -/
def toWavenumber (unit : String) (v : Vals F) : Res (Vals F) :=
  if unit = "1/cm" then do
    let inv ← safeInverse (v.map (fun x => x * lit 1e-2))
    .ok (inv.map (fun x => lit 2 * PyFloat.pi * x))
  else .error .notImplemented

/-- spectrum.py 154-158 `Spectrum.SPECTRUM_TYPES`. -/
def spectrumTypes : List (String × List String) :=
  [("wavelength", ["m", "cm", "um", "nm", "a"]),
   ("frequency", ["hz"]),
   ("energy", ["ev"]),
   ("angularfrequency", ["1/s"]),
   ("wavenumber", ["1/cm"])]

/-- spectrum.py 160-168 `Spectrum.UNIT_TYPES`. -/
def unitTypes : List (String × List String) :=
  [("m", ["meter", "metre", "m"]),
   ("cm", ["centimeter", "centimetre", "cm"]),
   ("um", ["micrometer", "micrometre", "um"]),
   ("nm", ["nanometer", "nanometre", "nm"]),
   ("hz", ["hertz", "hz"]),
   ("ev", ["electronvolt", "ev"]),
   ("1/s", ["1/s", "rad/s"]),
   ("1/cm", ["1/cm"]),
   ("a", ["a", "angstrom"])]

/-- spectrum.py 170-177 `Spectrum.DISPLAY_NAMES`: there is no entry for `cm`. -/
def displayNames : List (String × String) :=
  [("m", "m"), ("um", "μm"), ("nm", "nm"), ("hz", "Hz"), ("ev", "eV"), ("1/s", "1/s"),
   ("1/cm", "1/cm"), ("a", "Å")]

/-- The loop of spectrum.py 201-208, over the unit table in the given order. The membership
test in `SPECTRUM_TYPES[spectrum_type]` is only evaluated if the alias matched. -/
def findUnit (table : List (String × List String)) (stype unit : String) :
    Res (Option String) :=
  match table with
  | [] => .ok none
  | (u, aliases) :: rest =>
    if aliases.contains unit then do
      let units ← dictGet spectrumTypes stype
      if units.contains u then .ok (some u) else findUnit rest stype unit
    else findUnit rest stype unit

/-- spectrum.py 197-213 `Spectrum.standardise_unit`, for a unit table in any order. The error
message of the failing case looks `spectrum_type` up again. -/
def standardiseUnitIn (table : List (String × List String)) (stype unit : String) :
    Res String := do
  match ← findUnit table stype unit with
  | some u => .ok u
  | none =>
    let _ ← dictGet spectrumTypes stype
    .error .value

/-- `Spectrum.standardise_unit` with the table in source order. -/
def standardiseUnit (stype unit : String) : Res String := standardiseUnitIn unitTypes stype unit

/-- A `Spectrum` object: `values` in the current type and unit, `standard_rep` in metres. -/
structure Spectrum (F : Type) where
  values : Vals F
  stype : String
  unit : String
  std : Vals F
  deriving DecidableEq, Repr

/-- spectrum.py 281-295 `Spectrum.convert_from`. -/
def convertFrom (stype unit : String) (v : Vals F) : Res (Vals F) :=
  if dictHas spectrumTypes stype then
    if stype = "frequency" then frequencyToStandard unit v
    else if stype = "energy" then energyToStandard unit v
    else if stype = "angularfrequency" then angFreqToStandard unit v
    else if stype = "wavenumber" then wavenumberToStandard unit v
    else if stype = "wavelength" then wavelengthToStandard unit v
    else .error .key
  else .error .value

/-- spectrum.py 270-278 `Spectrum.standardise_values`. -/
def standardiseValues (stype unit : String) (v : Vals F) : Res (Vals F) :=
  if ¬ (stype = "wavelength" ∧ unit = "m") then convertFrom stype unit v else .ok v

/-- spectrum.py 188-192: lists and tuples become arrays, anything that is neither an array
nor a float is rejected. -/
def Raw.check {F : Type} : Raw F → Res (Vals F)
  | .float x => .ok (.scalar x)
  | .list dt xs => .ok (.array dt xs)
  | .ndarray dt xs => .ok (.array dt xs)
  | .other => .error .value

/-- spectrum.py 179-195 `Spectrum.__init__`. -/
def Spectrum.new (values : Raw F) (stype unit : String) : Res (Spectrum F) :=
  let stype' := lower stype
  if dictHas spectrumTypes stype' then do
    let unit' ← standardiseUnit stype' (lower unit)
    let v ← values.check
    let std ← standardiseValues stype' unit' v
    .ok { values := v, stype := stype', unit := unit', std := std }
  else .error .value

/-- The dispatch of spectrum.py 308-315 in `Spectrum.convert_to`. -/
def convertVals (stype unit : String) (v : Vals F) : Res (Vals F) :=
  if stype = "frequency" then toFrequency unit v
  else if stype = "energy" then toEnergy unit v
  else if stype = "angularfrequency" then toAngFreq unit v
  else if stype = "wavenumber" then toWavenumber unit v
  else if stype = "wavelength" then toWavelength unit v
  else .error .key

/-- spectrum.py 297-315: the type is lowered, the unit is not; returns the standardised type
and unit together with the converted values. -/
def Spectrum.convertCore (s : Spectrum F) (stype unit : String) :
    Res (String × String × Vals F) :=
  let stype' := lower stype
  if dictHas spectrumTypes stype' then do
    let unit' ← standardiseUnit stype' unit
    let v ← convertVals stype' unit' s.std
    .ok (stype', unit', v)
  else .error .value

/-- spectrum.py 297-321 `Spectrum.convert_to(spectrum_type, unit)` (not in place). -/
def Spectrum.convertTo (s : Spectrum F) (stype unit : String) : Res (Vals F) := do
  let (_, _, v) ← s.convertCore stype unit
  .ok v

/-- spectrum.py 297-321 `Spectrum.convert_to(spectrum_type, unit, in_place=True)`: the outcome
and the object afterwards. -/
def Spectrum.convertInPlace (s : Spectrum F) (stype unit : String) :
    Res Unit × Spectrum F :=
  match s.convertCore stype unit with
  | .ok (t, u, v) => (.ok (), { s with values := v, stype := t, unit := u })
  | .error e => (.error e, s)

/-- `np.min` of a non-empty sequence: a NaN makes the result NaN. -/
def npMinList (x : F) (xs : List F) : F :=
  xs.foldl (fun m y => if PyFloat.isNaN m then m else if PyFloat.isNaN y then y
    else if PyFloat.lt y m then y else m) x

/-- `np.max` of a non-empty sequence: a NaN makes the result NaN. -/
def npMaxList (x : F) (xs : List F) : F :=
  xs.foldl (fun m y => if PyFloat.isNaN m then m else if PyFloat.isNaN y then y
    else if PyFloat.lt m y then y else m) x

/-- `np.min`: `ValueError` on an empty array. -/
def npMin (v : Vals F) : Res F :=
  match v.toList with
  | [] => .error .value
  | x :: xs => .ok (npMinList x xs)

/-- `np.max`: `ValueError` on an empty array. -/
def npMax (v : Vals F) : Res F :=
  match v.toList with
  | [] => .error .value
  | x :: xs => .ok (npMaxList x xs)

/-- spectrum.py 221-245 `Spectrum.contains`. The error message of the out-of-range case
looks the unit up in `DISPLAY_NAMES` (line 236), which may itself raise. -/
def Spectrum.contains (self other : Spectrum F) : Res Bool := do
  let ov ← other.convertTo self.stype self.unit
  let omin ← npMin ov
  let omax ← npMax ov
  let smin ← npMin self.values
  let smax ← npMax self.values
  if PyFloat.lt omin smin || PyFloat.lt smax omax then do
    let _ ← dictGet displayNames self.unit
    .error .value
  else .ok true

end Disp

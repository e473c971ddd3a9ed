import Verif.Model.Spectrum
/-!
# Model of `src/dispersion/spectral_data.py`

Parameters and table entries are floats (integer parameters are not modelled, except that an
integer table has an integer valid range). Results on arrays are computed element by element,
as NumPy's broadcasting does.
-/

namespace Disp

/-- The SciPy / NumPy functions that the package uses as black boxes: `np.geomspace(a, b, n)`,
`splrep(x, y, k)`, `splev` at one point, and `interp1d(x, y, kind)` for `kind ≠ 1` on a sorted
table, evaluated at one point. -/
class SciPy (F : Type) where
  Spl : Type
  geomspace : F → F → Nat → Res (List F)
  splrep : List F → List F → Nat → Res Spl
  splev : Spl → F → F
  interpK : Nat → List (F × F) → F → Res F

variable {F : Type} [PyFloat F]

/-! ## Interpolation of a table -/

/-- Insertion into a list of rows sorted by the first column (behind equal entries). -/
def insertRow (r : F × F) : List (F × F) → List (F × F)
  | [] => [r]
  | q :: qs => if PyFloat.lt r.1 q.1 then r :: q :: qs else q :: insertRow r qs

/-- The sort by abscissa that `interp1d` performs (`np.argsort(x, kind='mergesort')`). The order
of equal abscissae is immaterial: they are rejected (`noDuplicates`). -/
def sortRows (rows : List (F × F)) : List (F × F) := rows.foldr insertRow []

/-- Neighbouring abscissae differ (`make_interp_spline`: "Expect x to not have duplicates"). An
abscissa NaN, which SciPy accepts here, is rejected: the table that SciPy makes has the valid
range NaN and raises the same error at every evaluation. -/
def noDuplicates : List (F × F) → Bool
  | [] => true
  | [_] => true
  | a :: b :: rest => PyFloat.lt a.1 b.1 && noDuplicates (b :: rest)

/-- The linear B-spline on the segment from `a` to `b`. -/
def segment (a b : F × F) (v : F) : F :=
  let w := lit 1 / (b.1 - a.1)
  a.2 * (w * (b.1 - v)) + b.2 * (w * (v - a.1))

/-- The value on the segment that contains `v`; the last segment is closed. -/
def evalSegments (a : F × F) : List (F × F) → F → F
  | [], _ => a.2
  | [b], v => segment a b v
  | b :: c :: rest, v =>
    if PyFloat.lt v b.1 then segment a b v else evalSegments b (c :: rest) v

/-- `interp1d(x, y, kind=order)` (spectral_data.py 213-216), the checks of the constructor:
at least `order + 1` points and, for a spline of order one, no duplicates. -/
def interpInit (order : Nat) (rows : List (F × F)) : Res Unit :=
  if rows.length < order + 1 then .error .value
  else if noDuplicates (sortRows rows) then .ok () else .error .value

/-- `interp1d(x, y, kind=1)(v)`: outside the table `ValueError`. -/
def interpLinear (rows : List (F × F)) (v : F) : Res F :=
  match sortRows rows with
  | [] => .error .value
  | a :: rest =>
    let last := (rest.getLast?).getD a
    if PyFloat.lt v a.1 || PyFloat.lt last.1 v then .error .value
    else .ok (evalSegments a rest v)

/-- The interpolation function of an `Interpolation` object at one point. `interp1d` sorts the
table for every order. -/
def interpAt [SciPy F] (order : Nat) (rows : List (F × F)) (v : F) : Res F :=
  if order = 1 then interpLinear rows v else SciPy.interpK order (sortRows rows) v

/-! ## Dispersion formulas -/

/-- The model classes that return real values. -/
inductive Formula
  | sellmeier | sellmeier2 | polynomial | refractiveIndexInfo | cauchy | gases | herzberger
  | retro | exotic | fano
  deriving DecidableEq, Repr

/-- Length of the Python slice `p[start:stop:step]` of a list of length `n`. -/
def sliceLen (n start stop step : Nat) : Nat := (min stop n - start + (step - 1)) / step

/-- `np.power(x, 2)` and `x**2`. -/
def sqF (x : F) : F := PyFloat.pow x (lit 2)

/-- spectral_data.py 320-330 `Sellmeier.evaluate` at one wavelength. -/
def sellmeierAt (p : List F) (w : F) : Res F := do
  let c0 ← pyIdx p 0
  let wvlsq := sqF w
  let rhs ← (List.range (sliceLen p.length 1 p.length 2)).foldlM (fun rhs i => do
    let cupper ← pyIdx p (i * 2 + 1)
    let clower ← pyIdx p (i * 2 + 2)
    .ok (rhs + cupper * wvlsq / (wvlsq - sqF clower))) (c0 * lit 1)
  .ok (PyFloat.sqrt (rhs + lit 1))

/-- spectral_data.py 348-358 `Sellmeier2.evaluate` at one wavelength. -/
def sellmeier2At (p : List F) (w : F) : Res F := do
  let c0 ← pyIdx p 0
  let wvlsq := sqF w
  let rhs ← (List.range (sliceLen p.length 1 p.length 2)).foldlM (fun rhs i => do
    let cupper ← pyIdx p (i * 2 + 1)
    let clower ← pyIdx p (i * 2 + 2)
    .ok (rhs + cupper * wvlsq / (wvlsq - clower))) (c0 * lit 1)
  .ok (PyFloat.sqrt (rhs + lit 1))

/-- The loop shared by spectral_data.py 379-384 and 444-448. -/
def powerLoop (p : List F) (w : F) : Res F := do
  let c0 ← pyIdx p 0
  (List.range (sliceLen p.length 1 p.length 2)).foldlM (fun rhs i => do
    let c_multi ← pyIdx p (i * 2 + 1)
    let c_power ← pyIdx p (i * 2 + 2)
    .ok (rhs + c_multi * PyFloat.pow w c_power)) (c0 * lit 1)

/-- spectral_data.py 376-386 `Polynomial.evaluate` at one wavelength. -/
def polynomialAt (p : List F) (w : F) : Res F := do
  let rhs ← powerLoop p w
  .ok (PyFloat.sqrt rhs)

/-- spectral_data.py 404-421 `RefractiveIndexInfo.evaluate` at one wavelength. -/
def refractiveIndexInfoAt (p : List F) (w : F) : Res F := do
  let c0 ← pyIdx p 0
  let wvlsq := sqF w
  let rhs ← (List.range (sliceLen p.length 1 8 4)).foldlM (fun rhs i => do
    let c_multi_upper ← pyIdx p (i * 4 + 1)
    let c_power_upper ← pyIdx p (i * 4 + 2)
    let c_multi_lower ← pyIdx p (i * 4 + 3)
    let c_power_lower ← pyIdx p (i * 4 + 4)
    .ok (rhs + c_multi_upper * PyFloat.pow w c_power_upper /
      (wvlsq - PyFloat.pow c_multi_lower c_power_lower))) (c0 * lit 1)
  let rhs ← (List.range (sliceLen p.length 9 p.length 2)).foldlM (fun rhs i => do
    let c_multi ← pyIdx p (i * 2 + 9)
    let c_power ← pyIdx p (i * 2 + 10)
    .ok (rhs + c_multi * PyFloat.pow w c_power)) rhs
  .ok (PyFloat.sqrt rhs)

/-- spectral_data.py 441-450 `Cauchy.evaluate` at one wavelength. -/
def cauchyAt (p : List F) (w : F) : Res F := powerLoop p w

/-- spectral_data.py 468-478 `Gases.evaluate` at one wavelength. -/
def gasesAt (p : List F) (w : F) : Res F := do
  let c0 ← pyIdx p 0
  let wvlinvsq := PyFloat.pow w (lit (-2))
  let rhs ← (List.range (sliceLen p.length 1 p.length 2)).foldlM (fun rhs i => do
    let cupper ← pyIdx p (i * 2 + 1)
    let clower ← pyIdx p (i * 2 + 2)
    .ok (rhs + cupper / (clower - wvlinvsq))) (c0 * lit 1)
  .ok (rhs + lit 1)

/-- spectral_data.py 496-508 `Herzberger.evaluate` at one wavelength. -/
def herzbergerAt (p : List F) (w : F) : Res F := do
  let c0 ← pyIdx p 0
  let wvlsq := sqF w
  let c1 ← pyIdx p 1
  let c2 ← pyIdx p 2
  let c3 ← pyIdx p 3
  let c4 ← pyIdx p 4
  let c5 ← pyIdx p 5
  .ok (c0 * lit 1 + c1 * PyFloat.pow (wvlsq - lit 0.028) (lit (-1))
    + c2 * PyFloat.pow (wvlsq - lit 0.028) (lit (-2))
    + c3 * wvlsq + c4 * PyFloat.pow w (lit 4) + c5 * PyFloat.pow w (lit 6))

/-- spectral_data.py 526-538 `Retro.evaluate` at one wavelength. -/
def retroAt (p : List F) (w : F) : Res F := do
  let c0 ← pyIdx p 0
  let wvlsq := sqF w
  let c1 ← pyIdx p 1
  let c2 ← pyIdx p 2
  let c3 ← pyIdx p 3
  let rhs := c0 * lit 1 + c1 * wvlsq / (wvlsq - c2) + c3 * wvlsq
  let tmp_p := lit (-2) * rhs / (lit 1 - rhs)
  let tmp_q := lit (-1) / (lit 1 - rhs)
  .ok (lit (-0.5) * tmp_p + PyFloat.sqrt (PyFloat.pow (lit 0.5 * tmp_p) (lit 2) - tmp_q))

/-- spectral_data.py 556-567 `Exotic.evaluate` at one wavelength. -/
def exoticAt (p : List F) (w : F) : Res F := do
  let c0 ← pyIdx p 0
  let wvlsq := sqF w
  let c1 ← pyIdx p 1
  let c2 ← pyIdx p 2
  let c3 ← pyIdx p 3
  let c4 ← pyIdx p 4
  let c5 ← pyIdx p 5
  .ok (PyFloat.sqrt (c0 * lit 1 + c1 * wvlsq / (wvlsq - c2)
    + c3 * (w - c4) / (PyFloat.pow (w - c4) (lit 2) + c5)))

/-- spectral_data.py 707-717 `Fano.evaluate` at one energy. -/
def fanoAt (p : List F) (e : F) : Res F := do
  let q ← pyIdx p 0
  let e_r ← pyIdx p 1
  let gamma ← pyIdx p 2
  let epsilon := lit 2 * (e - e_r) / gamma
  let norm := lit 1 + sqF q
  .ok (lit 1 / norm * sqF (epsilon + q) / (sqF epsilon + lit 1))

/-- The value of a model at one point of its spectrum. -/
def Formula.at (k : Formula) (p : List F) (w : F) : Res F :=
  match k with
  | .sellmeier => sellmeierAt p w
  | .sellmeier2 => sellmeier2At p w
  | .polynomial => polynomialAt p w
  | .refractiveIndexInfo => refractiveIndexInfoAt p w
  | .cauchy => cauchyAt p w
  | .gases => gasesAt p w
  | .herzberger => herzbergerAt p w
  | .retro => retroAt p w
  | .exotic => exoticAt p w
  | .fano => fanoAt p w

/-- The required spectrum type and unit set in the constructors (e.g. spectral_data.py
315-316). `Fano` never sets or checks them: its `input_output` is not called (701-705). -/
def Formula.required : Formula → Option (String × String)
  | .fano => none
  | _ => some ("wavelength", "um")

/-- `self.output` (e.g. spectral_data.py 317); `None` for `Fano`. -/
def Formula.output : Formula → Option String
  | .fano => none
  | _ => some "n"

/-! ## Complex models -/

/-- The model classes that return a complex permittivity. -/
inductive EpsFormula
  | drude | drudeLorentz | taucLorentz
  deriving DecidableEq, Repr

/-- Results of complex evaluations. -/
inductive CVals (F : Type)
  | scalar (z : Cx F)
  | array (zs : List (Cx F))
  deriving DecidableEq, Repr

/-- spectral_data.py 585-590 `Drude.evaluate` at one energy. -/
def drudeAt (p : List F) (e : F) : Res (Cx F) := do
  let omega_p ← pyIdx p 0
  let loss ← pyIdx p 1
  .ok (Cx.ofReal (lit 1) - Cx.ofReal (sqF omega_p) /
    (Cx.ofReal (sqF e) + Cx.I * Cx.ofReal loss * Cx.ofReal e))

/-- spectral_data.py 608-615 `DrudeLorentz.evaluate` at one energy. -/
def drudeLorentzAt (p : List F) (e : F) : Res (Cx F) := do
  let omega_p ← pyIdx p 0
  let pol_str ← pyIdx p 1
  let w_res ← pyIdx p 2
  let loss ← pyIdx p 3
  .ok (Cx.ofReal (lit 1) + Cx.conj (Cx.ofReal (pol_str * sqF omega_p) /
    (Cx.ofReal (sqF w_res - sqF e) + Cx.I * Cx.ofReal loss * Cx.ofReal e)))

/-- spectral_data.py 645-651 `_calc_eps_imag` at one energy; the array initially holds ones,
which stay where neither comparison holds (NaN). -/
def tlImag (e a e0 c eg : F) : F :=
  if PyFloat.le eg e then
    lit 1 / e * a * e0 * c * sqF (e - eg) / (sqF (sqF e - sqF e0) + sqF c * sqF e)
  else if PyFloat.lt e eg then lit 0 else lit 1

/-- spectral_data.py 653-690 `_calc_eps_real` at one energy. -/
def tlReal (e a e0 c eg eps_inf : F) : F :=
  let alpha_ln := (sqF eg - sqF e0) * sqF e + sqF eg * sqF c - sqF e0 * (sqF e0 + lit 3 * sqF eg)
  let alpha_atan := (sqF e - sqF e0) * (sqF e0 + sqF eg) + sqF eg * sqF c
  let alpha := PyFloat.sqrt (lit 4 * sqF e0 - sqF c)
  let gamma := PyFloat.sqrt (sqF e0 - lit 0.5 * sqF c)
  let zeta4 := sqF (sqF e - sqF gamma) + lit 0.25 * sqF alpha * sqF c
  let part1 := lit 0.5 * (a * c * alpha_ln / (PyFloat.pi * zeta4 * alpha * e0)) *
    PyFloat.log ((sqF e0 + sqF eg + alpha * eg) / (sqF e0 + sqF eg - alpha * eg))
  let part2 := lit (-1) * a * alpha_atan / (PyFloat.pi * zeta4 * e0) *
    (PyFloat.pi - PyFloat.atan ((lit 2 * eg + alpha) / c)
      + PyFloat.atan ((lit (-2) * eg + alpha) / c))
  let part3_1 := lit 4 * a * e0 / (PyFloat.pi * zeta4 * alpha)
  let part3_2 := eg * (sqF e - sqF gamma)
  let part3_3 := PyFloat.atan2 (alpha + lit 2 * eg) c + PyFloat.atan2 (alpha - lit 2 * eg) c
  let part3 := part3_1 * part3_2 * part3_3
  let part4 := -a * e0 * c / (PyFloat.pi * zeta4) * ((sqF e + sqF eg) / e) *
    PyFloat.log (PyFloat.abs (e - eg) / (e + eg))
  let part5 := lit 2 * a * e0 * c * eg / (PyFloat.pi * zeta4) *
    PyFloat.log (PyFloat.abs (e - eg) * (e + eg) /
      PyFloat.sqrt (sqF (sqF e0 - sqF eg) + sqF eg * sqF c))
  eps_inf + part1 + part2 + part3 + part4 + part5

/-- spectral_data.py 632-643 `TaucLorentz.evaluate` at one energy of an array. -/
def taucLorentzAt (p : List F) (e : F) : Res (Cx F) := do
  let a ← pyIdx p 0
  let e0 ← pyIdx p 1
  let c ← pyIdx p 2
  let eg ← pyIdx p 3
  let eps_inf ← pyIdx p 4
  .ok (Cx.ofReal (tlReal e a e0 c eg eps_inf) + Cx.I * Cx.ofReal (tlImag e a e0 c eg))

/-! ## Data objects -/

/-- Objects with real values. The attributes `spectrum_type` and `unit` are kept as given to
the constructor (spectral_data.py 64-65), `valid_range` is the Spectrum built from them. -/
inductive RealData (F : Type) [SciPy F]
  | constant (c : F) (range : Spectrum F) (stype unit : String)
  | interp (order : Nat) (rows : List (F × F)) (range : Spectrum F) (stype unit : String)
  | model (k : Formula) (params : List F) (range : Spectrum F) (stype unit : String)
  | extrap (base : RealData F) (order : Nat) (spline : SciPy.Spl F) (range : Spectrum F)
      (stype unit : String)

/-- Models with complex values. -/
structure CplxData (F : Type) where
  kind : EpsFormula
  params : List F
  range : Spectrum F
  stype : String
  unit : String

section real
variable [SciPy F]

/-- `self.valid_range`. -/
def RealData.range : RealData F → Spectrum F
  | .constant _ r _ _ => r
  | .interp _ _ r _ _ => r
  | .model _ _ r _ _ => r
  | .extrap _ _ _ r _ _ => r

/-- `self.spectrum_type`. -/
def RealData.stype : RealData F → String
  | .constant _ _ t _ => t
  | .interp _ _ _ t _ => t
  | .model _ _ _ t _ => t
  | .extrap _ _ _ _ t _ => t

/-- `self.unit`. -/
def RealData.unit : RealData F → String
  | .constant _ _ _ u => u
  | .interp _ _ _ _ u => u
  | .model _ _ _ _ u => u
  | .extrap _ _ _ _ _ u => u

/-- spectral_data.py 88-94 `Constant.__init__` (with 61-68). -/
def RealData.newConstant (c : F) (validRange : Raw F) (stype unit : String) :
    Res (RealData F) := do
  let r ← Spectrum.new validRange stype unit
  .ok (.constant c r stype unit)

/-- The default `valid_range=(0, np.inf)` of spectral_data.py 88. -/
def defaultRange : Raw F := .list .float [lit 0, PyFloat.inf]

/-- spectral_data.py 202-216 `Interpolation.__init__` on a two-column table. -/
def RealData.newInterp (dt : DType) (rows : List (F × F)) (stype unit : String) (order : Nat) :
    Res (RealData F) := do
  let lo ← npMin (.array dt (rows.map (·.1)))
  let hi ← npMax (.array dt (rows.map (·.1)))
  let r ← Spectrum.new (.list dt [lo, hi]) stype unit
  interpInit order rows
  .ok (.interp order rows r stype unit)

/-- spectral_data.py 250-263 `Model.validate_spectrum_type`. -/
def validateSpectrumType (required : Option (String × String)) (stype unit : String) :
    Res Unit :=
  match required with
  | none => .ok ()
  | some (rt, ru) => do
    let tmp ← Spectrum.new (F := F) (.float (lit 1)) stype unit
    if tmp.stype ≠ rt then .error .value
    else if tmp.unit ≠ ru then .error .value
    else .ok ()

/-- spectral_data.py 240-247 and the constructors of the subclasses (e.g. 310-318). -/
def RealData.newModel (k : Formula) (params : List F) (validRange : Raw F)
    (stype unit : String) : Res (RealData F) := do
  let r ← Spectrum.new validRange stype unit
  validateSpectrumType (F := F) k.required stype unit
  .ok (.model k params r stype unit)

/-- Elementwise evaluation of scalar or array values. -/
def Vals.mapRes (f : F → Res F) : Vals F → Res (Vals F)
  | .scalar x => do .ok (.scalar (← f x))
  | .array _ xs => do .ok (.array .float (← xs.mapM f))

/-- `evaluate` of spectral_data.py 96-101 (Constant), 218-223 (Interpolation), 288-302 with the
formulas (Model), 188-196 (Extrapolation): the result, and the caller's Spectrum object
afterwards. Only the extrapolation branch changes it. -/
def RealData.evaluate : RealData F → Spectrum F → Res (Vals F) × Spectrum F
  | .constant c range _ _, s =>
    (do
      let _ ← range.contains s
      match s.values with
      | .array _ xs => .ok (.array .float (xs.map (fun _ => c * lit 1)))
      | .scalar _ => .ok (.scalar c), s)
  | .interp order rows range stype unit, s =>
    (do
      let _ ← range.contains s
      let values ← s.convertTo stype unit
      values.mapRes (interpAt order rows), s)
  | .model k params range stype unit, s =>
    (do
      let _ ← range.contains s
      let values ← s.convertTo stype unit
      values.mapRes (k.at params), s)
  | .extrap base _ spline range stype unit, s =>
    let attempt : Res (Vals F) × Spectrum F :=
      match base.range.contains s with
      | .ok _ => base.evaluate s
      | .error e => (.error e, s)
    match attempt with
    | (.ok v, s') => (.ok v, s')
    | (.error e, s') =>
      if e.isA .value then
        match s'.convertInPlace stype unit with
        | (.error e', s'') => (.error e', s'')
        | (.ok _, s'') =>
          (do
            let _ ← range.contains s''
            .ok (s''.values.map (SciPy.splev spline)), s'')
      else (.error e, s')

/-- spectral_data.py 70-78 `suggest_spectrum`. -/
def RealData.suggestSpectrum (d : RealData F) : Res (Spectrum F) := do
  let lo ← npMin d.range.values
  let hi ← npMax d.range.values
  let g ← SciPy.geomspace lo hi 1000
  Spectrum.new (.ndarray .float g) d.stype d.unit

/-- Assignment of a float to an entry of an array: an integer array truncates and cannot hold
infinities or values beyond 64 bits (`OverflowError`). -/
def storeEntry (dt : DType) (x : F) : Res F :=
  match dt with
  | .float => .ok x
  | .int => if PyFloat.lt (PyFloat.abs x) (lit (2 ^ 63)) then .ok (PyFloat.trunc x)
            else .error .overflow

/-- spectral_data.py 163-178 `validate_extrap_val`. -/
def validateExtrapVal (dt : DType) (v : F) (range : List F) : Res (List F) := do
  let b0 ← pyIdx range 0
  if PyFloat.lt v b0 then do
    let x ← storeEntry dt v
    .ok (range.set 0 x)
  else do
    let b1 ← pyIdx range 1
    if PyFloat.lt b1 v then do
      let x ← storeEntry dt v
      .ok (range.set 1 x)
    else .error .value

/-- spectral_data.py 134-161 `get_extrap_spectrum`: the new range as raw values, and the
caller's Spectrum object, which is converted in place. A scalar valid range becomes a
zero-dimensional array, which cannot be indexed. -/
def getExtrapSpectrum (base : Spectrum F) (ext : Spectrum F) :
    Res (Spectrum F) × Spectrum F :=
  match ext.convertInPlace base.stype base.unit with
  | (.error e, ext') => (.error e, ext')
  | (.ok _, ext') =>
    (do
      match ext'.values, base.values with
      | .array _ vs, .array dt r =>
        if vs.length > 2 then .error .value
        else do
          let r' ← vs.foldlM (fun r v => validateExtrapVal dt v r) r
          Spectrum.new (.ndarray dt r') base.stype base.unit
      | .scalar v, .array dt r => do
        let r' ← validateExtrapVal dt v r
        Spectrum.new (.ndarray dt r') base.stype base.unit
      | .array _ vs, .scalar _ => if vs.length > 2 then .error .value else .error .index
      | .scalar _, .scalar _ => .error .index, ext')

/-- spectral_data.py 181-186 `extrapolate_data`. -/
def extrapolateData (base : RealData F) (order : Nat) : Res (SciPy.Spl F) := do
  let s ← base.suggestSpectrum
  match base.evaluate s with
  | (.error e, _) => .error e
  | (.ok v, s') => SciPy.splrep s'.values.toList v.toList order

/-- The range arithmetic of spectral_data.py 125-131 in `Extrapolation.__init__`. The tuple
`(min_range, max_range)` of an integer range is an integer array again. -/
def extrapRange (base : RealData F) (es : Spectrum F) : Res (Spectrum F) := do
  let lo ← npMin es.values
  let hi ← npMax es.values
  let dt := match es.values with
    | .array dt _ => dt
    | .scalar _ => .float
  Spectrum.new (.list dt [lo, hi]) base.stype base.unit

/-- spectral_data.py 120-132 `Extrapolation.__init__`: the new object, and the caller's
extended Spectrum afterwards. -/
def RealData.newExtrap (base : RealData F) (ext : Spectrum F) (order : Nat) :
    Res (RealData F) × Spectrum F :=
  match getExtrapSpectrum base.range ext with
  | (.error e, ext') => (.error e, ext')
  | (.ok es, ext') =>
    (do
      let r ← extrapRange base es
      let spl ← extrapolateData base order
      .ok (.extrap base order spl r base.stype base.unit), ext')

end real

/-- spectral_data.py 575-583 (Drude), 598-606, 622-630: the constructors of the complex
models. -/
def CplxData.new (k : EpsFormula) (params : List F) (validRange : Raw F)
    (stype unit : String) : Res (CplxData F) := do
  let r ← Spectrum.new validRange stype unit
  validateSpectrumType (F := F) (some ("energy", "ev")) stype unit
  .ok { kind := k, params := params, range := r, stype := stype, unit := unit }

/-- The value of a complex model at one energy. -/
def EpsFormula.at (k : EpsFormula) (p : List F) (e : F) : Res (Cx F) :=
  match k with
  | .drude => drudeAt p e
  | .drudeLorentz => drudeLorentzAt p e
  | .taucLorentz => taucLorentzAt p e

/-- `evaluate` of the complex models. `TaucLorentz` assigns into `ones`, which is a float for a
scalar spectrum: `TypeError` (648, after the parameters have been read in 635-639). -/
def CplxData.evaluate (d : CplxData F) (s : Spectrum F) : Res (CVals F) := do
  let _ ← d.range.contains s
  let values ← s.convertTo d.stype d.unit
  match values with
  | .array _ es => do .ok (.array (← es.mapM (d.kind.at d.params)))
  | .scalar e => do
    let z ← d.kind.at d.params e
    if d.kind = .taucLorentz then .error .type else .ok (.scalar z)

end Disp

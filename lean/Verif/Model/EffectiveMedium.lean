import Verif.Model.Material
/-!
# Model of `src/dispersion/material.py` 909-994: effective media

`spectrum`, `material1` and `material2` are objects of the caller. Computing a permittivity and
the conversion to metres change the Spectrum object, so the constructor returns the outcome
together with the Spectrum object afterwards.
-/

namespace Disp

variable {F : Type} [PyFloat F] [SciPy F]

/-- The subclasses of `EffectiveMedium`. -/
inductive Mixing
  | simple | maxwellGarnett | bruggeman
  deriving DecidableEq

/-- A binary operation on complex values with NumPy's broadcasting. -/
def CVals.zip (f : Cx F → Cx F → Cx F) : CVals F → CVals F → Res (CVals F)
  | .scalar z, .scalar w => .ok (.scalar (f z w))
  | .array zs, .array ws =>
    if zs.length = ws.length then .ok (.array (List.zipWith f zs ws)) else .error .value
  | .scalar z, .array ws => .ok (.array (ws.map (fun w => f z w)))
  | .array zs, .scalar w => .ok (.array (zs.map (fun z => f z w)))

/-- The elements of a result. -/
def CVals.elems : CVals F → List (Cx F)
  | .scalar z => [z]
  | .array zs => zs

/-- A real number times a complex number. -/
def rmul (x : F) (z : Cx F) : Cx F := Cx.ofReal x * z

/-- Negation of a complex number. -/
def Cx.neg (z : Cx F) : Cx F := ⟨-z.re, -z.im⟩

/-- material.py 941: `eps_base*(1-f) + eps_incl*f`. -/
def simpleMix (f : F) (base incl : Cx F) : Cx F :=
  base * Cx.ofReal (lit 1 - f) + incl * Cx.ofReal f

/-- material.py 955: the numerator of the Maxwell-Garnett formula. -/
def mgUp (f : F) (base incl : Cx F) : Cx F :=
  rmul (lit 2 * (lit 1 - f)) base + rmul (lit 1 + lit 2 * f) incl

/-- material.py 956: the denominator of the Maxwell-Garnett formula. -/
def mgDown (f : F) (base incl : Cx F) : Cx F :=
  rmul (lit 2 + f) base + rmul (lit 1 - f) incl

/-- material.py 959: `eps_base*factor_up/factor_down`. -/
def mgMix (f : F) (base incl : Cx F) : Cx F := base * mgUp f base incl / mgDown f base incl

/-- material.py 987 and 992: the coefficient `q`. -/
def brugQ (b a : Cx F) : Cx F := rmul (lit (-0.5)) a * b

/-- material.py 988 and 993: the coefficient `p`. -/
def brugP (f : F) (b a : Cx F) : Cx F :=
  rmul (lit 0.5) (rmul f (b - rmul (lit 2) a) + rmul (lit 1 - f) (a - rmul (lit 2) b))

/-- The root in material.py 989 and 994. -/
def brugRoot (f : F) (b a : Cx F) : Cx F :=
  PyFloat.csqrt (Cx.sq (rmul (lit 0.5) (brugP f b a)) - brugQ b a)

/-- material.py 986-989 `_get_bruggeman_solution1`. -/
def brug1 (f : F) (b a : Cx F) : Cx F :=
  Cx.neg (brugP f b a) * Cx.ofReal (lit 0.5) + brugRoot f b a

/-- material.py 991-994 `_get_bruggeman_solution2`. -/
def brug2 (f : F) (b a : Cx F) : Cx F :=
  Cx.neg (brugP f b a) * Cx.ofReal (lit 0.5) - brugRoot f b a

/-- material.py 975-979 at one point: the first solution if its imaginary part is not negative,
else the second under the same condition, else 0. -/
def brugMix (f : F) (b a : Cx F) : Cx F :=
  if PyFloat.le (lit 0) (brug1 f b a).im then brug1 f b a
  else if PyFloat.le (lit 0) (brug2 f b a).im then brug2 f b a
  else Cx.ofReal (lit 0)

/-- `bool(abs(z))`: everything but zero is true. -/
def absTrue (z : Cx F) : Bool :=
  !(PyFloat.eq z.re (lit 0) && PyFloat.eq z.im (lit 0))

/-- The mixed permittivity (material.py 939-941, 953-959, 969-979). The guard of the
Maxwell-Garnett medium compares the boolean `np.any(abs(factor_down))` with 1e-6, so it raises
exactly if every denominator is zero. The Bruggeman medium indexes its arrays by masks, which
raises for the number that a scalar spectrum gives (`AttributeError` or `IndexError`, according
to the type of the number; modelled as `IndexError`). -/
def mixVals (k : Mixing) (f : F) (e1 e2 : CVals F) : Res (CVals F) :=
  match k with
  | .simple => CVals.zip (simpleMix f) e1 e2
  | .maxwellGarnett => do
    let down ← CVals.zip (mgDown f) e1 e2
    if down.elems.any absTrue then CVals.zip (mgMix f) e1 e2 else .error .value
  | .bruggeman => do
    match ← CVals.zip (brugMix f) e1 e2 with
    | .scalar _ => .error .index
    | .array zs => .ok (.array zs)

/-- material.py 943-945, 961-963 and 981-983: the table of a medium, `np.vstack(...).T`. -/
def mediumTable (x : Vals F) (eps : CVals F) : Res (NDArr F) :=
  if x.toList.length = eps.elems.length then
    .ok (.d2 3 .float (List.zipWith (fun x z => [x, z.re, z.im]) x.toList eps.elems))
  else .error .value

/-- material.py 912-918: the object before its data are created. -/
def blankMedium : Material F :=
  { metaData := none, name := "", real := none, imag := none, cplx := none,
    interpOrder := .int 1, defType := "wavelength", defUnit := "m" }

/-- material.py 911-927 `EffectiveMedium.__init__` with `create_effective_data` of a subclass
(938-946, 950-964, 968-984). -/
def effectiveMedium (k : Mixing) (s : Spectrum F) (m1 m2 : Material F) (frac : F) :
    Res (Material F) × Spectrum F :=
  if PyFloat.lt frac (lit 0) || PyFloat.lt (lit 1) frac then (.error .value, s)
  else
    match m1.getPermittivity s with
    | (.error e, s1) => (.error e, s1)
    | (.ok e1, s1) =>
      match m2.getPermittivity s1 with
      | (.error e, s2) => (.error e, s2)
      | (.ok e2, s2) =>
        match mixVals k frac e1 e2 with
        | .error e => (.error e, s2)
        | .ok eps =>
          match s2.convertInPlace "wavelength" "m" with
          | (.error e, s3) => (.error e, s3)
          | (.ok _, s3) =>
            ((do
              let t ← mediumTable s3.values eps
              processTable blankMedium t "eps" []), s3)

end Disp

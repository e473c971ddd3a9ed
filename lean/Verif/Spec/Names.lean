/-!
# Specification: names of spectrum types and units

The documented spectrum types and unit names (docs/source, `Spectrum` reference), as one flat
table of triples: type, accepted unit name, canonical unit name.
-/

namespace Disp.Spec

/-- (spectrum type, unit name, canonical unit). -/
def names : List (String × String × String) :=
  [("wavelength", "m", "m"), ("wavelength", "meter", "m"), ("wavelength", "metre", "m"),
   ("wavelength", "cm", "cm"), ("wavelength", "centimeter", "cm"),
   ("wavelength", "centimetre", "cm"),
   ("wavelength", "um", "um"), ("wavelength", "micrometer", "um"),
   ("wavelength", "micrometre", "um"),
   ("wavelength", "nm", "nm"), ("wavelength", "nanometer", "nm"),
   ("wavelength", "nanometre", "nm"),
   ("wavelength", "a", "a"), ("wavelength", "angstrom", "a"),
   ("frequency", "hz", "hz"), ("frequency", "hertz", "hz"),
   ("energy", "ev", "ev"), ("energy", "electronvolt", "ev"),
   ("angularfrequency", "1/s", "1/s"), ("angularfrequency", "rad/s", "1/s"),
   ("wavenumber", "1/cm", "1/cm")]

/-- The nine pairs of a type and a canonical unit. -/
def pairs : List (String × String) :=
  [("wavelength", "m"), ("wavelength", "cm"), ("wavelength", "um"), ("wavelength", "nm"),
   ("wavelength", "a"), ("frequency", "hz"), ("energy", "ev"), ("angularfrequency", "1/s"),
   ("wavenumber", "1/cm")]

end Disp.Spec

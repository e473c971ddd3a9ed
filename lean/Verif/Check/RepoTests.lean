import Verif.Check.Doubles
/-!
# The tests of the package, run on the model

Every assertion of `tests/` that does not need the refractiveindex.info data base, the example file
of `docs/source/file_format.rst` and outputs recorded in `notebooks/developement.ipynb`, evaluated
on the model with IEEE doubles. These are tests of the model, not proofs.
-/

namespace Disp.Check

abbrev Fl := Float

/-- `Spectrum(values, spectrum_type, unit)`. -/
def spec (xs : List Fl) (t u : String) : Res (Spectrum Fl) := Spectrum.new (.list .float xs) t u

/-- `Spectrum(value, spectrum_type, unit)`. -/
def point (x : Fl) (t u : String) : Res (Spectrum Fl) := Spectrum.new (.float x) t u

/-! ## tests/test_spectrum.py -/

-- test_scalar_init, test_list_init
#guard (point 1.3 "wavelength" "m").isOk
#guard (spec [0.5, 1.0] "wavelength" "m").isOk
-- test_safe_inverse
#guard match safeInverse (.array .float [(0.0 : Fl), 2.0, 1.0 / 0.0]) with
  | .ok (.array _ [a, b, c]) => a == 1.0 / 0.0 && b == 0.5 && c == 0.0
  | _ => false
-- test_standardise
#guard match spec [0.5, 1.0] "wavelength" "m" with
  | .ok s => s.std.toList == [0.5, 1.0]
  | _ => false
-- test_from_wavelength, test_from_energy, test_from_frequency, test_from_ang_frequency,
-- test_from_wavenumber
#guard closeVals ((Spectrum.new (.list .int [(500 : Fl), 800]) "wavelength" "nanometer").map (·.std))
  [5e-7, 8e-7]
#guard closeVals ((spec [0.5, 0.8] "wavelength" "micrometre").map (·.std)) [5e-7, 8e-7]
#guard closeVals ((spec [5, 8] "wavelength" "centimetre").map (·.std)) [5e-2, 8e-2]
#guard closeVals ((spec [1, 2] "energy" "ev").map (·.std)) [1.23984198e-06, 6.19920992e-07]
#guard closeVals ((spec [1e15, 1e16] "frequency" "hz").map (·.std)) [2.99792458e-07, 2.99792458e-08]
#guard closeVals ((spec [2e15, 3e16] "angularfrequency" "1/s").map (·.std))
  [9.41825784e-07, 6.27883856e-08]
#guard closeVals ((spec [12500, 25000] "wavenumber" "1/cm").map (·.std))
  [5.02654825e-06, 2.51327412e-06]
-- test_to_energy, test_to_frequency, test_to_angfrequency, test_to_wavenumber
#guard [("energy", "ev"), ("frequency", "hz"), ("angularfrequency", "1/s"),
    ("wavenumber", "1/cm")].all (fun p =>
  match Spectrum.new (.list .int [(500 : Fl), 800]) "wavelength" "nanometer" with
  | .ok s => (s.convertTo p.1 p.2).isOk
  | _ => false)
-- test_contains
#guard match spec [400, 800] "wavelength" "nanometer", spec [500, 700] "wavelength" "nanometer" with
  | .ok a, .ok b => match a.contains b with
    | .ok t => t
    | _ => false
  | _, _ => false

/-! ## tests/test_spectral_data.py -/

/-- `data.evaluate(spectrum)`. -/
def run (d : Res (RealData Fl)) (s : Res (Spectrum Fl)) : Res (Vals Fl) := do
  ((← d).evaluate (← s)).1

-- test_constant_init
#guard closeVals (run (RealData.newConstant 1.2 defaultRange "wavelength" "m")
  (spec [500e-9] "wavelength" "m")) [1.2]
-- test_interpolation
def twoRows : Res (RealData Fl) :=
  RealData.newInterp .float [(500, 1.2), (800, 1.4)] "wavelength" "nanometer" 1
#guard closeVals (run twoRows (point 500e-9 "wavelength" "m")) [1.2]
#guard closeVals (run twoRows (point 800e-9 "wavelength" "m")) [1.4]
-- test_sellmeier
def silica : Res (RealData Fl) :=
  RealData.newModel .sellmeier
    [0, 0.6961663, 0.0684043, 0.4079426, 0.1162414, 0.8974794, 9.896161]
    (.list .float [0.21, 6.7]) "wavelength" "um"
#guard match run silica (point 0.5876e-6 "wavelength" "m") with
  | .ok (.scalar x) => (x - 1.4585).abs ≤ 1e-3 + 1e-5 * 1.4585
  | _ => false
-- test_drude
#guard match CplxData.new .drude [(8.55 : Fl), 18.4e-3] (.list .float [0.0, 1.0 / 0.0]) "energy" "ev",
    point 0.5876e-6 "wavelength" "m" with
  | .ok d, .ok s => (d.evaluate s).isOk
  | _, _ => false

/-! ## tests/test_material.py -/

def noFile : String → Res (FileDict Fl) := fun _ => .error .fileNotFound

/-- `Material(**kw).get_nk_data(s)`. -/
def nk (m : Res (Material Fl)) (s : Res (Spectrum Fl)) : Res (CVals Fl) := do
  ((← m).getNk (← s)).1

/-- The fixture `spectrum`. -/
def half : Res (Spectrum Fl) := point 0.5 "wavelength" "um"

-- test_mat_init
#guard closeCx (nk (Material.new noFile [("fixed_n", .float 1.0)]) half) 1.0 0.0
-- test_from_model
#guard closeCx (nk (Material.new noFile [("model_kw", .dict
    { name := some "Drude", stype := some "energy", unit := some "ev",
      params := some [8.55, 18.4e-3], validRange := some (.list .float [0.0, 1.0 / 0.0]) })]) half)
  0.013366748652710245 3.2997524521729824

/-! ## The example files of scripts/setup_dispersion.py, docs and tests/test_catalogue.py -/

/-- setup_dispersion.py 123-128. -/
def exampleTable : Res (Material Fl) :=
  Material.new noFile [("tabulated_nk", .arr (.d2 3 .float
    [[400, 1.7, 0.1], [500, 1.6, 0.05], [600, 1.5, 0.0], [700, 1.4, 0.0]])),
    ("spectrum_type", .str "wavelength"), ("unit", .str "nanometer")]

/-- setup_dispersion.py 129-136. -/
def exampleMeta (md : List (String × MetaVal)) : List (String × MetaVal) :=
  [("Reference", "Literature reference to the data"),
   ("Comment", "Any additional information goes here"),
   ("Name", "Short name of the material"),
   ("FullName", "Full name of the material"),
   ("Author", "The author of this data file"),
   ("MetaComment", " This is a multiline meta-comment\n which provides information not\n in metadata")
  ].foldl (fun d p => dictSet d p.1 (.str p.2)) md

instance : YamlIO Fl where
  load _ := .error .notImplemented
  dump _ := []

/-- setup_dispersion.py 137-139: the text of `example_file.txt`. -/
def exampleText : Res (List Char) := do
  let m ← exampleTable
  let w ← Writer.new ".txt" { m with metaData := m.metaData.map exampleMeta }
  (w.writeFile true false).1

-- docs/source/file_format.rst 13-30 (blanks at the ends of lines removed)
#guard match exampleText with
  | .ok t => (splitLines (universal t)).map rstrip == (([
      "# This is a multiline meta-comment",
      "# which provides information not",
      "# in metadata",
      "# REFERENCES: Literature reference to the data",
      "# AUTHOR: The author of this data file",
      "# FULLNAME: Full name of the material",
      "# NAME: Short name of the material",
      "# COMMENTS: Any additional information goes here",
      "# SPECTRUMTYPE: wavelength",
      "# UNIT: nanometer",
      "# DATATYPE: tabulated nk",
      "#",
      "400.00000000\t1.70000000\t0.10000000",
      "500.00000000\t1.60000000\t0.05000000",
      "600.00000000\t1.50000000\t0.00000000",
      "700.00000000\t1.40000000\t0.00000000"] : List String).map String.toList)
  | _ => false

def keyOrder : KeyOrder := { file := fileMetaKeys, dataset := datasetMetaKeys }

/-- The folder of the tests with the example file. -/
def testFiles : FileSys Fl :=
  { listdir := fun d => if d = "/t/UserData" then .ok ["example_file.txt"] else .error .os
    isfile := fun p => p == "/t/UserData/example_file.txt"
    isdir := fun p => p == "/t/UserData"
    read := fun p => if p = "/t/UserData/example_file.txt" then do
        ((Reader.fresh keyOrder).readFile keyOrder ".txt" (← exampleText)).1
      else .error .fileNotFound
    library := fun _ => .error .fileNotFound }

/-- tests/test_catalogue.py 24-39: the catalogue, with the alias. -/
def testCatalogue : Res (Frame Fl) := do
  let ref ← point 632.8 "wavelength" "nanometer"
  let f ← startCatalogue testFiles ref "/t" [("UserData", true)] (.ok []) (.text "All")
  let rows := f.filter (fun p => p.2.name = .str "example_file")
  registerAlias f (.selection (rows.map Prod.fst)) "TestMat"

-- test_get_mat
#guard closeCx (nk (do getMaterial testFiles.read "/t" (← testCatalogue) (.str "TestMat")) half)
  1.6 0.05
-- test_edit_cat: all other rows get an alias
#guard match testCatalogue with
  | .ok f => f.length == 1 && f.all (fun p => p.2.al = .str "TestMat")
  | _ => false
-- notebooks/developement.ipynb: the range of a table from 400 to 600 read from a text file
#guard closeVals (do
    let m ← Material.new (fun _ => do
        let m ← Material.new noFile [("tabulated_nk", .arr (.d2 3 .float
          [[400, 1.7, 0.1], [500, 1.6, 0.05], [600, 1.5, 0.0]])),
          ("spectrum_type", .str "wavelength"), ("unit", .str "nanometer")]
        let w ← Writer.new ".txt" m
        ((Reader.fresh keyOrder).readFile keyOrder ".txt" (← (w.writeFile true false).1)).1)
      [("file_path", .str "testfile.txt")]
    m.maxRange) [400, 600]

/-! ## The layout of printed arrays, as recorded in notebooks/developement.ipynb -/

/-- The texts of the numbers as NumPy chose them there. -/
def recorded : Printing Nat where
  cell _ x := (([(350, "0.35"), (2000, "2.  "), (400000, "400."), (600000, "600."),
    (1, "4.e+02"), (2, "1.e-01"), (3, "5.e+02"), (4, "5.e-02"), (5, "6.e+02"), (6, "0.e+00")]
      : List (Nat × String)).lookup x).getD "?" |>.toList
  shown _ x := x
  fmt8 _ := []
  shown8 x := x

#guard @numericToString Nat recorded (.d2 2 .float [[1, 2], [3, 4], [5, 6]])
  == "4.e+02 1.e-01\n5.e+02 5.e-02\n6.e+02 0.e+00".toList
#guard @numericToString Nat recorded (.d1 .float [400000, 600000]) == "400. 600.".toList

end Disp.Check

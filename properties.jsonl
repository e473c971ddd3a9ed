{"id": "C01", "title": "Spectrum names: exactly the documented types and unit aliases are accepted", "statement": "Spectrum(values, spectrum_type, unit) accepts a pair of names exactly when, ignoring case, the type is one of the five documented types and the unit is an alias of a unit of that type; otherwise it raises ValueError. The stored unit is the canonical spelling, it does not depend on the iteration order of the alias tables, and standardising it again changes nothing.", "quantifier": "every pair of strings (type name, unit name), every float values input, every ordering of the unit table", "why_tests_cant": "the names range over all strings and dict/set order is a run-time accident; a test samples a few names under one order", "anchors": ["src/dispersion/spectrum.py:Spectrum.__init__", "src/dispersion/spectrum.py:Spectrum.standardise_unit", "src/dispersion/spectrum.py:Spectrum.SPECTRUM_TYPES", "src/dispersion/spectrum.py:Spectrum.UNIT_TYPES"]}
{"id": "C02", "title": "convert_to fails only on bad names", "statement": "For every Spectrum that was constructed from floats, convert_to(type, unit) succeeds for every valid (type, canonical unit alias) and raises ValueError for every other pair; the 'not implemented' branches and unassigned-variable paths of the converters are never reached. Integer arrays are the only values that can make a valid conversion fail.", "quantifier": "every constructed Spectrum, every target type and unit string, every arithmetic", "why_tests_cant": "the claim is about all source/target combinations and all values, including the error paths that are believed to be dead", "anchors": ["src/dispersion/spectrum.py:Spectrum.convert_to", "src/dispersion/spectrum.py:to_wavelength", "src/dispersion/spectrum.py:to_frequency", "src/dispersion/spectrum.py:to_energy", "src/dispersion/spectrum.py:to_ang_freq", "src/dispersion/spectrum.py:to_wavenumber"]}
{"id": "C03", "title": "Unit spelling accepted by the constructor is accepted by conversion and evaluation", "statement": "Any unit spelling with which a Spectrum (or a tabulated Material) can be constructed can also be passed to convert_to and used when the data are evaluated.", "quantifier": "every unit string, every table, every evaluation point", "why_tests_cant": "only spellings that differ in letter case reveal the difference; the space of spellings is unbounded", "anchors": ["src/dispersion/spectrum.py:Spectrum.__init__", "src/dispersion/spectrum.py:Spectrum.convert_to", "src/dispersion/spectral_data.py:Interpolation.evaluate", "src/dispersion/spectral_data.py:Model.preprocess"]}
{"id": "C04", "title": "Conversions obey the physical relations", "statement": "Converting a spectrum of vacuum wavelength L (metres) gives L in the requested length unit, frequency c/L, angular frequency 2*pi*c/L, photon energy h*c/(e*L) and wavenumber 2*pi/L per centimetre, each rounded only as documented; and constructing a spectrum from such a value recovers L.", "quantifier": "every finite positive value, every type and unit", "why_tests_cant": "an identity over the reals: tests check single values and the wavenumber test only checks one direction", "anchors": ["src/dispersion/spectrum.py:wavelength_to_standard", "src/dispersion/spectrum.py:frequency_to_standard", "src/dispersion/spectrum.py:energy_to_standard", "src/dispersion/spectrum.py:ang_freq_to_standard", "src/dispersion/spectrum.py:wavenumber_to_standard", "src/dispersion/spectrum.py:to_wavelength", "src/dispersion/spectrum.py:to_frequency", "src/dispersion/spectrum.py:to_energy", "src/dispersion/spectrum.py:to_ang_freq", "src/dispersion/spectrum.py:to_wavenumber"]}
{"id": "C05", "title": "Round trip: a spectrum converted to its own type and unit reproduces its values", "statement": "For every spectrum, convert_to(own type, own unit) returns the values it was built from, up to half a unit in the last decimal place the conversion rounds to (exactly when no rounding applies).", "quantifier": "every finite positive value, every one of the nine type/unit pairs, scalars and arrays", "why_tests_cant": "round trips must hold for all reals; a test only samples", "anchors": ["src/dispersion/spectrum.py:Spectrum.convert_to", "src/dispersion/spectrum.py:Spectrum.convert_from", "src/dispersion/spectrum.py:Spectrum.standardise_values"]}
{"id": "C06", "title": "Scalar and array conversion agree element by element", "statement": "Converting an array of values yields exactly the list of the conversions of its elements taken as scalars.", "quantifier": "every list of values, every source and target type/unit", "why_tests_cant": "the two code paths differ only on a region of the value space (near zero) which sample values do not enter", "anchors": ["src/dispersion/spectrum.py:safe_inverse", "src/dispersion/spectrum.py:safe_inverse_array", "src/dispersion/spectrum.py:safe_inverse_scalar"]}
{"id": "C07", "title": "Zero and infinity are exchanged by reciprocal conversions, and no NaN is produced", "statement": "Zero wavelength corresponds to infinite frequency/energy and vice versa, for scalars and arrays; converting values that are not NaN and not negative never yields NaN.", "quantifier": "every list of values in [0, inf], every source and target type/unit", "why_tests_cant": "quantifies over all values and combinations, including the infinite limits used by unbounded valid ranges", "anchors": ["src/dispersion/spectrum.py:safe_inverse_array", "src/dispersion/spectrum.py:safe_inverse_scalar", "src/dispersion/spectrum.py:Spectrum.convert_to"]}
{"id": "C08", "title": "Conversions preserve or reverse order", "statement": "Conversion between wavelength units is monotone; conversion from wavelength to frequency, angular frequency, energy or wavenumber is antitone on positive values, so an interval maps to the interval between the images of its end points.", "quantifier": "every pair of positive values, every target unit", "why_tests_cant": "an order property over all pairs of reals, with rounding in between", "anchors": ["src/dispersion/spectrum.py:to_wavelength", "src/dispersion/spectrum.py:to_frequency", "src/dispersion/spectrum.py:to_energy", "src/dispersion/spectrum.py:to_ang_freq", "src/dispersion/spectrum.py:to_wavenumber"]}
{"id": "C09", "title": "In-place conversions never drift", "statement": "After any sequence of in-place conversions (successful or failing) of a Spectrum, converting to any type and unit gives exactly the result the original object would have given; the wavelength reference is never altered. A failing conversion leaves the object unchanged.", "quantifier": "every history of convert_to calls, every final target, every arithmetic (including IEEE doubles)", "why_tests_cant": "quantifies over unbounded call histories", "anchors": ["src/dispersion/spectrum.py:Spectrum.convert_to"]}
{"id": "C10", "title": "contains decides interval membership", "statement": "a.contains(b) returns True exactly when every value of b, expressed in a's type and unit, lies between the smallest and the largest value of a; otherwise it raises ValueError naming the offending value. It never silently accepts an out-of-range value.", "quantifier": "every pair of spectra, scalar or array of any length, every arithmetic with IEEE comparisons", "why_tests_cant": "quantifies over all arrays; the failing cases (NaN entries, centimetre ranges) are corners of the input space", "anchors": ["src/dispersion/spectrum.py:Spectrum.contains", "src/dispersion/spectrum.py:Spectrum.display_string", "src/dispersion/spectrum.py:Spectrum.DISPLAY_NAMES"]}
{"id": "C11", "title": "A spectrum contains itself", "statement": "s.contains(s) is True for every spectrum; consequently data can be evaluated at the end points of its own valid range.", "quantifier": "every spectrum of finite positive values, every type and unit", "why_tests_cant": "rounding makes the property fail only on values with many decimals; tests use round numbers", "anchors": ["src/dispersion/spectrum.py:Spectrum.contains", "src/dispersion/spectrum.py:to_wavelength", "src/dispersion/spectrum.py:to_energy"]}
{"id": "C12", "title": "Constant data evaluates to the constant everywhere in range", "statement": "Constant(c).evaluate(s) returns c for a scalar spectrum and an array of len(s) copies of c for an array, provided s is in the valid range, and raises otherwise; the spectrum object is not modified.", "quantifier": "every constant, every spectrum", "why_tests_cant": "all lengths and values", "anchors": ["src/dispersion/spectral_data.py:Constant.evaluate"]}
{"id": "C13", "title": "No data object evaluates outside its valid range", "statement": "Whenever evaluate(s) of any SpectralData object (constant, interpolation, model, extrapolation of any of these, nested to any depth) returns a result for a spectrum without NaN, every value of s converted to the object's type and unit lies within the object's valid range.", "quantifier": "every data object built from the constructors, to any nesting depth of extrapolation, every spectrum", "why_tests_cant": "induction over the unbounded nesting of extrapolations and all spectra", "anchors": ["src/dispersion/spectral_data.py:Constant.evaluate", "src/dispersion/spectral_data.py:Interpolation.evaluate", "src/dispersion/spectral_data.py:Model.preprocess", "src/dispersion/spectral_data.py:Extrapolation.evaluate"]}
{"id": "C14", "title": "Interpolation reproduces the table and stays between neighbouring entries", "statement": "Evaluating tabulated data at a tabulated abscissa returns the tabulated ordinate; between two neighbouring abscissae it returns the straight-line value, hence a value between the two neighbouring ordinates (and between the smallest and largest ordinate of the whole table).", "quantifier": "every table with at least two rows and distinct abscissae, every point of its range", "why_tests_cant": "all tables of all lengths and all points", "anchors": ["src/dispersion/spectral_data.py:Interpolation.interpolate_data", "src/dispersion/spectral_data.py:Interpolation.evaluate"]}
{"id": "C15", "title": "Interpolation does not depend on row order", "statement": "Permuting the rows of a table with distinct abscissae changes neither the valid range nor any evaluated value.", "quantifier": "every table, every permutation, every spectrum", "why_tests_cant": "n! permutations of tables of any length", "anchors": ["src/dispersion/spectral_data.py:Interpolation.__init__", "src/dispersion/spectral_data.py:Interpolation.interpolate_data"]}
{"id": "C16", "title": "A value does not depend on the other points requested with it", "statement": "The value returned for a spectral point does not depend on which other points are evaluated in the same call.", "quantifier": "every data object, every array spectrum, every position in it", "why_tests_cant": "a relational property between infinitely many pairs of calls", "anchors": ["src/dispersion/spectral_data.py:Interpolation.evaluate", "src/dispersion/spectral_data.py:Extrapolation.evaluate", "src/dispersion/spectral_data.py:Model.preprocess"]}
{"id": "C17", "title": "Dispersion formulas equal their published closed forms for any number of terms", "statement": "For every coefficient list of well-formed length the formula models (Sellmeier, Sellmeier-2, polynomial, refractiveindex.info, Cauchy, gases, Herzberger, exotic) return exactly the closed-form sum over all coefficient groups; a coefficient list with a dangling coefficient raises IndexError instead of ignoring it.", "quantifier": "every coefficient list of any length, every wavelength at which no denominator vanishes", "why_tests_cant": "the loop is unbounded in the number of coefficients; tests use one list", "anchors": ["src/dispersion/spectral_data.py:Sellmeier.evaluate", "src/dispersion/spectral_data.py:Sellmeier2.evaluate", "src/dispersion/spectral_data.py:Polynomial.evaluate", "src/dispersion/spectral_data.py:RefractiveIndexInfo.evaluate", "src/dispersion/spectral_data.py:Cauchy.evaluate", "src/dispersion/spectral_data.py:Gases.evaluate", "src/dispersion/spectral_data.py:Herzberger.evaluate", "src/dispersion/spectral_data.py:Exotic.evaluate"]}
{"id": "C18", "title": "The retro formula solves (n^2-1)/(n^2+2) = right-hand side", "statement": "The index n returned by the Retro model (formula 8) satisfies (n^2-1)/(n^2+2) = C1 + C2 L^2/(L^2-C3) + C4 L^2.", "quantifier": "every coefficient list of length at least four, every wavelength", "why_tests_cant": "an algebraic identity over the reals; the repository has no test of this model", "anchors": ["src/dispersion/spectral_data.py:Retro.evaluate"]}
{"id": "C19", "title": "A constructed model has the spectrum type and unit its formula needs", "statement": "Every model object that can be constructed uses the spectrum type and unit its formula requires (wavelength in micrometres for the index formulas, energy in eV for the permittivity models); every other type/unit is rejected with ValueError at construction.", "quantifier": "every model class, every parameter list, every type and unit string", "why_tests_cant": "all strings and all classes", "anchors": ["src/dispersion/spectral_data.py:Model.validate_spectrum_type", "src/dispersion/spectral_data.py:Sellmeier.__init__", "src/dispersion/spectral_data.py:Drude.__init__", "src/dispersion/spectral_data.py:TaucLorentz.__init__"]}
{"id": "C20", "title": "Permittivity models are passive", "statement": "Drude, Drude-Lorentz and Tauc-Lorentz models with non-negative loss and strength parameters return a permittivity whose imaginary part is non-negative at every positive energy that is not an undamped resonance (there the value is not a number); Drude equals Drude-Lorentz with unit pole strength and zero resonance; the Tauc-Lorentz imaginary part vanishes below the gap.", "quantifier": "every parameter set satisfying the sign conditions, every positive energy", "why_tests_cant": "inequalities over all reals", "anchors": ["src/dispersion/spectral_data.py:Drude.evaluate", "src/dispersion/spectral_data.py:DrudeLorentz.evaluate", "src/dispersion/spectral_data.py:TaucLorentz._calc_eps_imag"]}
{"id": "C21", "title": "Extrapolation leaves in-range values untouched and extends the range to the requested value", "statement": "After a successful extrapolation, evaluating at points inside the original valid range returns what the original data returned, and the new valid range is the smallest interval containing the old one and the requested values. Requesting a value inside the original range raises ValueError.", "quantifier": "every data object, every extended spectrum of one or two values, every spline library", "why_tests_cant": "all data objects, all requests, independent of the spline implementation", "anchors": ["src/dispersion/spectral_data.py:Extrapolation.__init__", "src/dispersion/spectral_data.py:Extrapolation.get_extrap_spectrum", "src/dispersion/spectral_data.py:Extrapolation.validate_extrap_val", "src/dispersion/spectral_data.py:Extrapolation.evaluate"]}
{"id": "C22", "title": "Material.extrapolate is all-or-nothing", "statement": "If Material.extrapolate raises, the material is unchanged.", "quantifier": "every material, every requested spectrum", "why_tests_cant": "a failure-point property over all materials and requests", "anchors": ["src/dispersion/material.py:Material.extrapolate"]}
{"id": "C23", "title": "Exactly one data source", "statement": "Material(**kwargs) raises ValueError unless exactly one of the ten mutually exclusive data arguments is given and not None.", "quantifier": "every keyword dictionary", "why_tests_cant": "all subsets of keyword arguments and all values", "anchors": ["src/dispersion/material.py:Material._parse_args", "src/dispersion/material.py:Material.__init__"]}
{"id": "C24", "title": "Every documented data source can be used", "statement": "Each of the documented data arguments, given with a value of its documented type and shape, constructs a Material; a value of another type raises TypeError and a table with the wrong number of columns raises ValueError.", "quantifier": "every documented argument, every value", "why_tests_cant": "all values and tables", "anchors": ["src/dispersion/material.py:Material._parse_args", "src/dispersion/material.py:Material._check_type", "src/dispersion/material.py:_check_table_shape"]}
{"id": "C25", "title": "interp_order controls the interpolation", "statement": "The interp_order argument selects the order of the interpolation used for tabulated data.", "quantifier": "every table, every order, every spectrum", "why_tests_cant": "a relational claim over all orders and tables", "anchors": ["src/dispersion/material.py:Material.__init__", "src/dispersion/material.py:Material._spec_data_from_table"]}
{"id": "C26", "title": "A constructed material is completely defined", "statement": "Every successfully constructed Material has a real and an imaginary part (missing parts are the constant 0), and data given through any of the documented arguments determine whether it describes refractive index or permittivity.", "quantifier": "every successful construction from arguments", "why_tests_cant": "all constructor inputs", "anchors": ["src/dispersion/material.py:Material._complete_partial_data", "src/dispersion/material.py:Material._process_fixed_value", "src/dispersion/material.py:Material._process_model_dict", "src/dispersion/material.py:Material._process_table"]}
{"id": "C27", "title": "Permittivity is the square of the refractive index", "statement": "For every material and spectrum, get_permittivity(s) = get_nk_data(s)**2 element by element, whichever of the two the material stores; the two calls fail on the same spectra.", "quantifier": "every material, every spectrum", "why_tests_cant": "an algebraic relation between two API calls over all complex values, and over all spectra with any history", "anchors": ["src/dispersion/material.py:Material.get_nk_data", "src/dispersion/material.py:Material.get_permittivity"]}
{"id": "C28", "title": "The refractive index is on the physical branch", "statement": "For a material defined by permittivity, the returned index has non-negative real part, and its imaginary part has the sign of the imaginary part of the permittivity, so a passive medium is reported with k >= 0.", "quantifier": "every complex permittivity", "why_tests_cant": "all complex numbers, including the branch cut", "anchors": ["src/dispersion/material.py:Material.get_nk_data"]}
{"id": "C29", "title": "Fixed-value materials are constant", "statement": "Material(fixed_n=n) reports index n+0j, Material(fixed_nk=z) reports z, Material(fixed_eps_r=e) and Material(fixed_eps=e) report permittivity e, at every non-negative wavelength and for every spectrum type, with one result per requested point.", "quantifier": "every constant, every spectrum of non-negative wavelengths", "why_tests_cant": "all constants and spectra", "anchors": ["src/dispersion/material.py:Material._process_fixed_value", "src/dispersion/material.py:Material.get_nk_data", "src/dispersion/material.py:Material.get_permittivity"]}
{"id": "C30", "title": "remove_absorption removes exactly the absorption", "statement": "After remove_absorption() a material with separate real and imaginary parts reports zero imaginary part (k or eps_i) and an unchanged real part wherever it could be evaluated before; the call is idempotent; a material stored as complex data is not changed.", "quantifier": "every material, every spectrum", "why_tests_cant": "relational over all materials and spectra", "anchors": ["src/dispersion/material.py:Material.remove_absorption"]}
{"id": "C31", "title": "Evaluating a material does not modify the caller's spectrum", "statement": "get_nk_data(s) and get_permittivity(s) leave s unchanged; if s is re-expressed in another unit, at least the wavelengths it stands for are the same.", "quantifier": "every material, every spectrum, successful and failing calls", "why_tests_cant": "frame property over all materials and call outcomes", "anchors": ["src/dispersion/material.py:Material.get_nk_data", "src/dispersion/material.py:Material.get_permittivity", "src/dispersion/spectral_data.py:Extrapolation.evaluate"]}
{"id": "C32", "title": "The maximum valid range is exactly where the material can be evaluated", "statement": "get_maximum_valid_range() returns [lower, upper], in the material's default type and unit, such that the material can be evaluated at a point exactly when the point lies in [lower, upper].", "quantifier": "every material, every spectral point", "why_tests_cant": "all materials, including complex-valued models and non-wavelength defaults", "anchors": ["src/dispersion/material.py:Material.get_maximum_valid_range"]}
{"id": "C33", "title": "The sample spectrum can be evaluated", "statement": "get_sample_spectrum() of every material returns a spectrum at which the material can be evaluated (so plotting never fails with an out-of-range error).", "quantifier": "every material", "why_tests_cant": "all materials and valid ranges", "anchors": ["src/dispersion/material.py:Material.get_sample_spectrum", "src/dispersion/material.py:Material._prepare_plot_data"]}
{"id": "C34", "title": "Material equality is an equivalence relation", "statement": "== on materials is reflexive, symmetric and transitive and never raises.", "quantifier": "every pair and triple of materials, built from arguments or from files", "why_tests_cant": "all pairs/triples", "anchors": ["src/dispersion/material.py:Material.__eq__"]}
{"id": "C35", "title": "Absorption coefficient tables give k = alpha*L/(4*pi)", "statement": "A table of n and absorption coefficient alpha (1/cm) yields k = alpha*L/(4*pi) at every tabulated wavelength L.", "quantifier": "every table, every default unit", "why_tests_cant": "an identity over all wavelengths; rounding destroys it on wavelengths no test uses", "anchors": ["src/dispersion/material.py:Material._process_table"]}
{"id": "C36", "title": "Datasets of a file combine independently", "statement": "Loading a file with one dataset for n and one for k gives the material whose real part is the first and whose imaginary part is the second, in either order of the datasets; other datasets are rejected rather than ignored.", "quantifier": "every list of datasets", "why_tests_cant": "all dataset lists and identifiers", "anchors": ["src/dispersion/material.py:Material._process_file_data", "src/dispersion/material.py:Material._process_formula_data"]}
{"id": "C37", "title": "Simple effective medium is the linear mixture", "statement": "Simple mixes permittivities linearly: fraction 0 gives the host, 1 the inclusion, exchanging the materials and replacing f by 1-f gives the same medium, real and imaginary parts lie between those of the constituents; a fraction outside [0,1] is rejected with ValueError.", "quantifier": "every pair of materials, every spectrum, every filling fraction", "why_tests_cant": "all reals f and all materials", "anchors": ["src/dispersion/material.py:EffectiveMedium.__init__", "src/dispersion/material.py:Simple.create_effective_data"]}
{"id": "C38", "title": "Maxwell-Garnett medium has the right limits and refuses singular mixtures", "statement": "MaxwellGarnett returns the host permittivity for f=0, the inclusion's for f=1, satisfies the Maxwell-Garnett mixing relation wherever the denominator does not vanish, and raises ValueError when the mixture is (nearly) singular at some point.", "quantifier": "every pair of materials, every fraction, every spectrum", "why_tests_cant": "all complex permittivities", "anchors": ["src/dispersion/material.py:MaxwellGarnett.create_effective_data"]}
{"id": "C39", "title": "Bruggeman medium solves the mixing equation on the physical branch", "statement": "Bruggeman returns at every point a solution of the Bruggeman self-consistency equation with non-negative imaginary part whenever the constituents are passive; f=0 and f=1 give the constituents.", "quantifier": "every pair of permittivities with non-negative imaginary part, every fraction", "why_tests_cant": "all complex permittivities: existence of a physical root is a theorem, not a sample", "anchors": ["src/dispersion/material.py:Bruggeman.create_effective_data", "src/dispersion/material.py:Bruggeman._get_bruggeman_solution1", "src/dispersion/material.py:Bruggeman._get_bruggeman_solution2"]}
{"id": "C40", "title": "Effective media are tabulated at the given spectrum", "statement": "An effective medium evaluated at one of the points of the spectrum it was built on returns the mixed permittivity of that point; its valid range is the range of that spectrum; building it re-expresses the caller's spectrum in metres without changing the wavelengths.", "quantifier": "every pair of materials and every spectrum with distinct points", "why_tests_cant": "all spectra", "anchors": ["src/dispersion/material.py:Simple.create_effective_data", "src/dispersion/material.py:EffectiveMedium.__init__"]}
{"id": "C41", "title": "Table repair keeps the strictly increasing records", "statement": "fix_table returns a table whose first column is strictly increasing, that is a subsequence of the input containing the first row, and contains every row whose abscissa exceeds all earlier ones; it leaves valid tables unchanged and is idempotent.", "quantifier": "every table", "why_tests_cant": "tables of any length", "anchors": ["src/dispersion/io.py:fix_table", "src/dispersion/io.py:validate_table"]}
{"id": "C42", "title": "Tables read from files have a strictly increasing first column", "statement": "Every table obtained from a material file has a strictly increasing first column (rows that break monotonicity are removed).", "quantifier": "every file content", "why_tests_cant": "all tables; the check that should trigger the repair compares a NumPy bool by identity", "anchors": ["src/dispersion/io.py:_str_table_to_numeric", "src/dispersion/io.py:validate_table", "src/dispersion/io.py:fix_table"]}
{"id": "C43", "title": "Parsing a textual table inverts printing it", "statement": "Parsing the textual form of a table gives back its rows in order, for any number of rows and columns and any spacing; parsing stops at the first blank line; a malformed number is reported, never skipped.", "quantifier": "every table and every layout", "why_tests_cant": "all lengths, contents and whitespace layouts", "anchors": ["src/dispersion/io.py:_str_table_to_numeric", "src/dispersion/io.py:_numeric_to_string_table"]}
{"id": "C44", "title": "Metadata parsing does not depend on set iteration order", "statement": "Which metadata field a header line fills does not depend on the iteration order of the key sets (which Python randomises per process).", "quantifier": "every header line, every permutation of the key sets", "why_tests_cant": "the order changes with every interpreter start; one run exercises one order", "anchors": ["src/dispersion/io.py:Reader._read_text_file", "src/dispersion/io.py:Reader._process_mat_dict", "src/dispersion/io.py:Reader._process_mat_data_dict", "src/dispersion/io.py:multi_key"]}
{"id": "C45", "title": "Text file metadata round trip", "statement": "Writing a material to a .txt or .csv file and reading it back restores Reference, Author, FullName, Name, Comment, spectrum type, unit and data type.", "quantifier": "every metadata value that is a single line without leading blanks", "why_tests_cant": "all strings; fails exactly on strings no test uses", "anchors": ["src/dispersion/io.py:Writer._write_text_file", "src/dispersion/io.py:Reader._read_text_file", "src/dispersion/io.py:Reader._read_text_comment"]}
{"id": "C46", "title": "Text file data round trip to eight decimals", "statement": "Writing tabulated data to a .txt or .csv file and reading it back gives the same table with every number rounded to eight decimals.", "quantifier": "every table of at least two rows and two columns", "why_tests_cant": "all numbers and table sizes", "anchors": ["src/dispersion/io.py:Writer._write_text_file", "src/dispersion/io.py:Reader._read_text_data"]}
{"id": "C47", "title": "The meta comment survives write/read cycles", "statement": "Writing and reading a material any number of times preserves its meta comment.", "quantifier": "every meta comment, every number of cycles, text and YAML files", "why_tests_cant": "unbounded histories: each cycle changes the comment a little", "anchors": ["src/dispersion/io.py:prepend_text_to_file", "src/dispersion/io.py:Reader._read_yaml_mat_file", "src/dispersion/io.py:Reader._read_text_file", "src/dispersion/io.py:Writer.write_file"]}
{"id": "C48", "title": "Prepending a comment keeps the file content, also when interrupted", "statement": "prepend_text_to_file puts a block of '#' lines in front and leaves the previous content as it was; if the process is interrupted at any moment, the previous content is still in the file.", "quantifier": "every file content, every text, every interruption point", "why_tests_cant": "quantifies over crash points", "anchors": ["src/dispersion/io.py:prepend_text_to_file", "src/dispersion/io.py:Writer.write_file"]}
{"id": "C49", "title": "Every material can be written to YAML", "statement": "Writer.write_file succeeds for every constructed material (whatever mix of constant, tabulated, model and complex data it has) and the written datasets are its non-constant parts.", "quantifier": "every material, both settings of ignore_constant", "why_tests_cant": "all combinations of data kinds", "anchors": ["src/dispersion/io.py:Writer._write_yaml_file", "src/dispersion/material.py:Material.dataset_to_dict", "src/dispersion/material.py:Material.prepare_file_dict"]}
{"id": "C50", "title": "YAML round trip preserves the data", "statement": "Reading back a YAML file written from a material gives a material with the same real and imaginary data, types and units (numbers as printed).", "quantifier": "every material that can be written", "why_tests_cant": "all materials", "anchors": ["src/dispersion/io.py:Writer._write_yaml_file", "src/dispersion/io.py:Reader._process_mat_dict", "src/dispersion/io.py:Reader._process_mat_data_dict", "src/dispersion/material.py:Material.collapse_datasets", "src/dispersion/material.py:Material.add_dtype_suffix"]}
{"id": "C51", "title": "Every supported extension can be written, any number of times", "statement": "write_file succeeds for .txt, .csv, .nk and .yml and may be called repeatedly on one Writer with the same result.", "quantifier": "every writer, every number of calls", "why_tests_cant": "call histories", "anchors": ["src/dispersion/io.py:Writer.write_file", "src/dispersion/io.py:Writer._write_text_file"]}
{"id": "C52", "title": "Specification entries are kept in canonical order", "statement": "The SPECS section written to YAML contains the material's specification entries, in the documented order, with their values.", "quantifier": "every specification dictionary", "why_tests_cant": "all dictionaries", "anchors": ["src/dispersion/io.py:Writer._write_yaml_file"]}
{"id": "C53", "title": "Top-level YAML keys are recognised irrespective of case", "statement": "Reading a YAML material file recognises the documented keys and never fails because of an unknown or differently-cased key.", "quantifier": "every YAML mapping", "why_tests_cant": "all mappings", "anchors": ["src/dispersion/io.py:Reader._process_mat_dict"]}
{"id": "C54", "title": "A Reader can be reused", "statement": "Calling read_file repeatedly on one Reader returns each time what a fresh Reader would return for the current file content.", "quantifier": "every sequence of file contents", "why_tests_cant": "unbounded history of file changes and calls", "anchors": ["src/dispersion/io.py:Reader.read_file", "src/dispersion/io.py:Reader._read_text_file", "src/dispersion/io.py:Reader._create_default_file_dict"]}
{"id": "C55", "title": "Aliases stay unique", "statement": "Starting from a catalogue with unique aliases, no sequence of register_alias calls (failing or not) produces two rows with the same non-empty alias.", "quantifier": "every catalogue, every sequence of register_alias calls with row numbers or row selections", "why_tests_cant": "unbounded histories of operations", "anchors": ["src/dispersion/catalogue.py:Catalogue.register_alias"]}
{"id": "C56", "title": "get_material returns the row that owns the alias", "statement": "After any sequence of register_alias calls, get_material(a) loads the row to which a was last successfully assigned (and not since renamed), and raises ValueError if there is none.", "quantifier": "every catalogue and every history", "why_tests_cant": "refinement to an abstract map over unbounded histories", "anchors": ["src/dispersion/catalogue.py:Catalogue.get_material", "src/dispersion/catalogue.py:Catalogue.register_alias"]}
{"id": "C57", "title": "register_alias never adds rows", "statement": "register_alias changes at most the alias column of existing rows.", "quantifier": "every catalogue, every row id", "why_tests_cant": "all integers, including those outside the catalogue", "anchors": ["src/dispersion/catalogue.py:Catalogue.register_alias"]}
{"id": "C58", "title": "Selective rebuild", "statement": "Rebuilding some modules replaces exactly their rows by freshly read ones, keeps the rows of the other enabled modules unchanged and in order, and drops rows of disabled modules; requesting a disabled module raises ValueError.", "quantifier": "every catalogue, configuration and rebuild request", "why_tests_cant": "all catalogues and configurations", "anchors": ["src/dispersion/catalogue.py:Catalogue.build_catalogue", "src/dispersion/catalogue.py:Catalogue.__init__"]}
{"id": "C59", "title": "Rebuilding keeps aliases", "statement": "Rebuilding the catalogue keeps the aliases the user has registered for files that are still there.", "quantifier": "every catalogue and rebuild request", "why_tests_cant": "all catalogues", "anchors": ["src/dispersion/catalogue.py:Catalogue.build_catalogue", "src/dispersion/catalogue.py:Catalogue._read_text_db", "src/dispersion/catalogue.py:Catalogue._iterate_pages"]}
{"id": "C60", "title": "One catalogue row per readable data file", "statement": "Building a user-data module yields exactly one row, in listing order, for every file with extension .txt, .csv or .yml, and for a refractiveindex.info library one row per page whose file can be opened, labelled with its book; the reference index is NaN exactly when the reference point is outside the material's range.", "quantifier": "every directory listing and library tree", "why_tests_cant": "all directory contents and tree shapes", "anchors": ["src/dispersion/catalogue.py:Catalogue._read_text_db", "src/dispersion/catalogue.py:Catalogue._iterate_shelves", "src/dispersion/catalogue.py:Catalogue._iterate_books", "src/dispersion/catalogue.py:Catalogue._iterate_pages"]}
{"id": "C61", "title": "Catalogue bounds are in the row's unit", "statement": "SpectrumLowerBound and SpectrumUpperBound of a catalogue row are the material's valid range in the row's SpectrumType and Unit, lower bound first.", "quantifier": "every material file", "why_tests_cant": "all files", "anchors": ["src/dispersion/catalogue.py:Catalogue._read_text_db", "src/dispersion/material.py:Material.get_maximum_valid_range"]}
{"id": "C62", "title": "Catalogue file round trip", "statement": "Loading a saved catalogue gives the same rows (all text columns verbatim).", "quantifier": "every catalogue, all strings including separators, quotes and line breaks", "why_tests_cant": "all strings in all columns", "anchors": ["src/dispersion/catalogue.py:Catalogue.save_to_file", "src/dispersion/catalogue.py:Catalogue.__init__"]}
{"id": "C63", "title": "Configuration lookup order and fallback", "statement": "The user's configuration file takes precedence over the one in the package; if neither exists the default configuration is used.", "quantifier": "every state of the two locations", "why_tests_cant": "all file-system states", "anchors": ["src/dispersion/config.py:_get_config_dir", "src/dispersion/config.py:read_config", "src/dispersion/config.py:get_config", "src/dispersion/config.py:_get_user_config_dir"]}
{"id": "C64", "title": "Configuration validation accepts exactly well-typed configurations", "statement": "validate_config returns normally exactly when all entries are present with the right types, Path is a directory and File a usable name; every other configuration is rejected with an exception.", "quantifier": "every configuration dictionary and file-system", "why_tests_cant": "all dictionaries", "anchors": ["src/dispersion/config.py:validate_config", "src/dispersion/config.py:check_type", "src/dispersion/io.py:valid_file_name"]}
{"id": "C65", "title": "Setup prompts return only validated and confirmed answers", "statement": "The prompt loops return only answers accepted by the validator (the default when the answer is empty), a confirmation is true exactly when the first recognised answer is yes, and unrecognised answers are skipped.", "quantifier": "every stream of user inputs", "why_tests_cant": "unbounded input streams", "anchors": ["src/dispersion/scripts/setup_dispersion.py:ask", "src/dispersion/scripts/setup_dispersion.py:get_confirmation", "src/dispersion/scripts/setup_dispersion.py:ask_and_confirm", "src/dispersion/catalogue.py:rebuild_catalogue"]}
{"id": "C66", "title": "Printing drops exactly the non-ASCII characters", "statement": "print_reference and print_comment print the ASCII characters of the text, in order, and nothing else.", "quantifier": "every string", "why_tests_cant": "all Unicode strings", "anchors": ["src/dispersion/material.py:Material.utf8_to_ascii"]}
{"id": "C67", "title": "Integer arrays behave like float arrays", "statement": "A Spectrum built from integers behaves like the Spectrum built from the same numbers as floats.", "quantifier": "every list of integers, every type and unit", "why_tests_cant": "depends on array dtype, not on values; tests use integer arrays only for wavelengths", "anchors": ["src/dispersion/spectrum.py:Spectrum.__init__", "src/dispersion/spectrum.py:safe_inverse_array"]}
{"id": "C68", "title": "An index table survives a YAML file", "statement": "A material built from a table of the refractive index with at least two and at most 500 rows, written to a YAML file with the default settings and loaded from it, is a refractive-index material again: its real part is the table of the printed numbers with the same spectrum type and unit, its imaginary part is zero.", "quantifier": "every table whose printed wavelengths are distinct, every type and unit, every order of the file's keys", "why_tests_cant": "all tables; the project has no write-then-read test for YAML", "anchors": ["src/dispersion/io.py:Writer.write_file", "src/dispersion/io.py:Reader.read_file", "src/dispersion/material.py:Material.__init__"]}
{"id": "C69", "title": "An index model survives a YAML file", "statement": "A material built from a model of the refractive index with at most 1000 parameters, written to a YAML file with the default settings and loaded from it, has the same formula again with the parameters and the valid range as printed, and zero imaginary part.", "quantifier": "every model of the refractive index, every list of parameters and range in micrometres", "why_tests_cant": "all formulas and parameters", "anchors": ["src/dispersion/io.py:Writer.write_file", "src/dispersion/io.py:Reader.read_file", "src/dispersion/material.py:Material.__init__"]}
{"id": "C70", "title": "Metadata survive a YAML file", "statement": "If a material with a refractive index is written to a YAML file and loaded, every text field of its metadata but the comment is as before and its documented specifications are as before, for all materials whose data can be loaded again.", "quantifier": "every metadata dictionary of printable text, every key order, every material of loadable parts", "why_tests_cant": "all texts, all materials", "anchors": ["src/dispersion/io.py:Writer.write_file", "src/dispersion/io.py:Reader.read_file"]}
{"id": "C71", "title": "Every row of a catalogue leads to its file", "statement": "In a catalogue that was built, get_material with the number of a row loads the file the row was made from, and the bounds and the reference index in the row are those of the loaded material.", "quantifier": "every directory listing and library tree with plain names, every configuration of modules, every rebuild request", "why_tests_cant": "paths are joined and normalised differently when building and when loading; tests load single files", "anchors": ["src/dispersion/catalogue.py:Catalogue.get_material", "src/dispersion/catalogue.py:Catalogue._read_text_db", "src/dispersion/catalogue.py:Catalogue._iterate_pages"]}
{"id": "C72", "title": "Saving and loading a catalogue changes no material", "statement": "After save_to_file and opening the catalogue again, get_material gives for every alias and every row number exactly what it gave before: the same material or the same exception.", "quantifier": "every catalogue labelled by position whose cells are texts without NUL (and without carriage returns where csv.writer does not quote them) and whose bounds are numbers, all identifiers", "why_tests_cant": "all texts with separators, quotes and line breaks in all columns; all identifiers", "anchors": ["src/dispersion/catalogue.py:Catalogue.save_to_file", "src/dispersion/catalogue.py:Catalogue.__init__", "src/dispersion/catalogue.py:Catalogue.get_material"]}
{"id": "C73", "title": "Configuration used on import", "statement": "If the user's configuration directory exists or can be made, importing the package uses the user's configuration file, otherwise the one in the package, otherwise the default configuration, and makes no directory but the user's.", "quantifier": "every state of the two locations, every content of the files", "why_tests_cant": "all file-system states; tests run in one home directory", "anchors": ["src/dispersion/config.py:get_config", "src/dispersion/config.py:default_config", "src/dispersion/__init__.py:config"]}
{"id": "C74", "title": "A written configuration is the one that is read", "statement": "What write_config wrote to the user's directory is what get_config returns; without a directory the file in use is overwritten, and get_config returns what was written; if there is no file yet, ValueError is raised.", "quantifier": "every configuration, every state of the two locations", "why_tests_cant": "all file-system states", "anchors": ["src/dispersion/config.py:write_config", "src/dispersion/config.py:read_config", "src/dispersion/config.py:get_config"]}
{"id": "C75", "title": "The default configuration is valid and names the user's directory", "statement": "default_config passes validate_config and its Path is the user's configuration directory.", "quantifier": "every home directory", "why_tests_cant": "all names of home directories, which are put into YAML text without quotes", "anchors": ["src/dispersion/config.py:default_config", "src/dispersion/config.py:validate_config"]}
{"id": "C76", "title": "The setup script leaves a valid configuration", "statement": "If the setup script gets to its end, the configuration it wrote to the user's directory is valid, root directory and file name were confirmed by the user, UserData is enabled, and the folder of every enabled module exists.", "quantifier": "every stream of user inputs, every file system", "why_tests_cant": "unbounded input streams, all file-system states", "anchors": ["src/dispersion/scripts/setup_dispersion.py:main", "src/dispersion/scripts/setup_dispersion.py:install_modules", "src/dispersion/scripts/setup_dispersion.py:ask_and_confirm"]}
{"id": "C77", "title": "Aliases given to existing rows one at a time", "statement": "In a catalogue labelled by position in which no two rows share an alias, after any sequence of register_alias calls with numbers of existing rows (failing or not), no two rows share an alias, and get_material with a nonempty alias loads the row that has it, or raises ValueError if no row has it.", "quantifier": "every catalogue, every sequence of calls, every alias", "why_tests_cant": "unbounded call sequences, all texts", "anchors": ["src/dispersion/catalogue.py:Catalogue.register_alias", "src/dispersion/catalogue.py:Catalogue.get_material"]}
{"id": "C78", "title": "Selective rebuilding by name", "statement": "After building with a request by name, by 'All' or by a list, the rows of a module are those read from its files if it was requested, the old rows in their order if it is enabled but was not requested, and none if it is disabled; rows are numbered by position.", "quantifier": "every catalogue, every set of modules, every such request, every file system", "why_tests_cant": "all combinations of modules, requests and old rows", "anchors": ["src/dispersion/catalogue.py:Catalogue.build_catalogue"]}
{"id": "C79", "title": "Files with the names of refractiveindex.info keep the spectrum type and unit", "statement": "If a material is saved with use_rii_aliases=True and the file is loaded with Material(file_path=...), the tables and models of the new material have the spectrum type and the unit that they had.", "quantifier": "every material with a table or model, every path", "why_tests_cant": "all tables, units and paths; the file parses without an error, so tests that only load it pass", "anchors": ["src/dispersion/io.py:Writer._write_yaml_file", "src/dispersion/io.py:Reader._process_mat_data_dict", "src/dispersion/material.py:Material._process_file_data"]}
{"id": "C80", "title": "Files with the names of refractiveindex.info are restored by giving spectrum type and unit", "statement": "If a material is saved with use_rii_aliases=True and the file is loaded with the spectrum type and unit of the material as arguments, tables and models are restored with their numbers as printed, and the metadata as from a file with the package's own names.", "quantifier": "every table of 2 to 500 rows in every supported type and unit, every index model, every set of metadata", "why_tests_cant": "all tables, models, texts and units", "anchors": ["src/dispersion/io.py:Writer._write_yaml_file", "src/dispersion/io.py:Reader._process_mat_data_dict", "src/dispersion/material.py:Material._process_file_data"]}
{"id": "C81", "title": "The range of a table or index model is returned in its own unit", "statement": "For a material built from a table or a refractive index model whose smallest and largest value are lo and hi (positive, with no more decimals than conversions keep), get_maximum_valid_range returns lo and hi in the type and unit of the material, in increasing order for wavelengths and in decreasing order for frequencies, angular frequencies and energies, and a value in that unit (again of that many decimals) can be evaluated exactly when it lies between lo and hi.", "quantifier": "every table of n, nk or eps and every index model, every unit but wavenumber, every requested value", "why_tests_cant": "all tables, all units and all requested values, including those at the ends after rounding", "anchors": ["src/dispersion/material.py:Material.get_maximum_valid_range", "src/dispersion/material.py:Material.get_nk_data", "src/dispersion/material.py:Material.get_permittivity"]}
{"id": "C82", "title": "The sample spectrum of a table or index model can be evaluated", "statement": "For a material as in C81, get_sample_spectrum returns 1000 geometrically spaced values from one end of the range to the other in the type and unit of the material, and the material can be evaluated at all of them.", "quantifier": "every table of n, nk or eps and every index model, every unit but wavenumber", "why_tests_cant": "all tables and all units; depends on rounding at the ends", "anchors": ["src/dispersion/material.py:Material.get_sample_spectrum", "src/dispersion/material.py:Material.get_nk_data", "src/dispersion/material.py:Material.get_permittivity"]}
{"id": "C83", "title": "Decimal values convert exactly in double precision", "statement": "Converting a number written with few decimals (for example 0.6328 um) to a unit in which its exact counterpart has at most the decimals that conversions keep (632.8 nm) gives exactly the double that this decimal denotes, so that comparisons of the converted number with literals succeed. For lengths this holds up to 900 nm, 9e5 um, 90 angstrom and 9e9 cm, for other types up to a third of that.", "quantifier": "every decimal, every pair of types and units with a decimal rounding, numbers and (for lengths) arrays, IEEE 754 binary64 with rounding to nearest even", "why_tests_cant": "all doubles that denote decimals; the bounds on accumulated rounding errors cannot be tested exhaustively", "anchors": ["src/dispersion/spectrum.py:Spectrum.convert_to", "src/dispersion/spectrum.py:Spectrum.convert_from", "src/dispersion/spectrum.py:to_wavelength", "src/dispersion/spectrum.py:wavelength_to_standard"]}
{"id": "C84", "title": "Ranges of decimal wavelengths are decided exactly in double precision", "statement": "Whether wavelengths written as decimals in any length unit lie in the range of a table over decimal wavelengths in another length unit is decided in double precision as on paper: the table can be evaluated at the wavelengths exactly if each lies between the table's ends, and the interpolation receives the doubles that the decimals in the table's unit denote. In particular the table can be evaluated at every wavelength it lists (up to 900 nm, 9e5 um, 90 angstrom, 9e9 cm).", "quantifier": "every table, every list of requested decimals, all pairs of length units", "why_tests_cant": "all tables and requests; depends on roundings at the ends of the range", "anchors": ["src/dispersion/spectral_data.py:Interpolation.evaluate", "src/dispersion/spectrum.py:Spectrum.contains", "src/dispersion/spectrum.py:Spectrum.convert_to"]}
{"id": "C85", "title": "Accuracy of conversions in double precision", "statement": "Converting a positive double between 1e-100 and 1e100 between any two supported types and units gives the physically corresponding value up to a relative error of 2^-49 and, where the unit has one, the decimal rounding (half a unit of the last decimal); for conversions to wavenumbers the value is 10^4 times the physical one. For arrays the same holds of every element, if the numbers inverted on the way are above 1e-8.", "quantifier": "every double in that range, every pair of types and units", "why_tests_cant": "all doubles; error bounds need a proof about rounding", "anchors": ["src/dispersion/spectrum.py:Spectrum.convert_to", "src/dispersion/spectrum.py:Spectrum.convert_from", "src/dispersion/spectrum.py:to_wavelength", "src/dispersion/spectrum.py:wavelength_to_standard", "src/dispersion/spectrum.py:safe_inverse"]}
{"id": "C86", "title": "A table can be evaluated at the values it lists, in double precision", "statement": "An interpolated table with values of no more decimals than conversions keep can be evaluated at each of the values it lists, given in the table's own type and unit.", "quantifier": "every table, every unit but wavenumber, IEEE 754 binary64", "why_tests_cant": "all tables; whether the end of the range survives the conversion to metres and back depends on the last bit", "anchors": ["src/dispersion/spectral_data.py:Interpolation.evaluate", "src/dispersion/spectrum.py:Spectrum.contains"]}
{"id": "C87", "title": "Catalogues of tables without units", "statement": "If every data file of the enabled modules holds tables of refractive index or extinction on distinct positive wavelengths (of no more decimals than conversions keep) and names no unit, rebuild='All' builds a catalogue: one row for every data file or page in order, whose lower and upper bound are the ends of the common range of its tables in the unit that the row names (nanometres for folders, micrometres for the refractiveindex.info library), and whose reference index is that of the material, or NaN exactly if the reference point lies outside the range.", "quantifier": "every file system, every such set of files, every reference point of any type and unit", "why_tests_cant": "all file systems, all tables, all reference points", "anchors": ["src/dispersion/catalogue.py:Catalogue.build_catalogue", "src/dispersion/catalogue.py:Catalogue.read_ri_info_db", "src/dispersion/catalogue.py:Catalogue._read_text_db"]}
{"id": "C88", "title": "Permittivity models are causal", "statement": "The real and imaginary parts that a Drude, DrudeLorentz or TaucLorentz model returns satisfy the relation of Kramers and Kronig: at every positive energy (for TaucLorentz other than the gap) the real part equals its limit at high energies (1, or the eps_inf of TaucLorentz) plus 2/pi times the principal value of the integral of x*imag(x)/(x^2-E^2) over all positive x, and the permittivity tends to that limit at high energies. Damping or width are positive, the width of TaucLorentz is at most sqrt(2) times the peak energy, the gap is not negative.", "quantifier": "all real parameters with these signs, all positive energies, every spectrum", "why_tests_cant": "a relation between the values at all energies at once: an integral over the half line with a singularity; tests compare single values with values the code itself returned", "anchors": ["src/dispersion/spectral_data.py:TaucLorentz._calc_eps_real", "src/dispersion/spectral_data.py:TaucLorentz._calc_eps_imag", "src/dispersion/spectral_data.py:TaucLorentz.evaluate", "src/dispersion/spectral_data.py:Drude.evaluate", "src/dispersion/spectral_data.py:DrudeLorentz.evaluate"]}
{"id": "C89", "title": "Permittivity models return finite values", "statement": "A Drude, DrudeLorentz or TaucLorentz model whose strengths, energies and widths are positive (the gap may be zero) returns finite numbers at every positive energy.", "quantifier": "all positive real parameters, all positive energies", "why_tests_cant": "all parameters and energies; a sampled test does not hit the exceptional energy", "anchors": ["src/dispersion/spectral_data.py:TaucLorentz.evaluate", "src/dispersion/spectral_data.py:Drude.evaluate", "src/dispersion/spectral_data.py:DrudeLorentz.evaluate"]}
{"id": "C90", "title": "Accuracy of linear tables in double precision", "statement": "Every value that a table of interpolation order one returns in double precision is the straight-line value between the two neighbouring entries up to an error of 9*2^-53 times the straight-line value of the absolute values; in particular up to that relative error if no tabulated value is negative, and at the table's own abscissae the tabulated value up to that relative error, however the wavelengths of the request are written (any length unit, decimals as in C84).", "quantifier": "every table with abscissae between 1e-60 and 1e60 and values zero or of a size in that range, every request, IEEE 754 binary64", "why_tests_cant": "all doubles; error bounds need a proof about rounding", "anchors": ["src/dispersion/spectral_data.py:Interpolation.evaluate", "src/dispersion/spectral_data.py:Interpolation.__init__"]}
{"id": "C91", "title": "A linear table returns the tabulated values, in double precision", "statement": "A table of interpolation order one returns, at each of its own abscissae, exactly the tabulated value.", "quantifier": "every table of doubles of ordinary size, every request, IEEE 754 binary64", "why_tests_cant": "all tables; whether the product of a spacing and its rounded reciprocal is one depends on the spacing", "anchors": ["src/dispersion/spectral_data.py:Interpolation.evaluate", "src/dispersion/spectral_data.py:Interpolation.__init__"]}
{"id": "C92", "title": "Text files give back the material that was saved", "statement": "A material with a table of the refractive index (2 to 500 rows), or of refractive index and extinction coefficient (2 to 333 rows), whose metadata texts are single lines without leading blanks, can be saved to a .txt or .csv file with any settings of the writer and loaded again. The new material has the tables with the numbers as NumPy prints them in an array and then with eight decimals, the same spectrum type and unit, the same reference, author, names and comment; if these formats show the numbers exactly, its data are the same. Its meta comment consists of the lines of the old one that fill no field and one more blank line, and its specification is empty.", "quantifier": "every such table whose printed abscissae remain distinct, every unit, all metadata, both extensions, all settings of ignore_constant and use_rii_aliases", "why_tests_cant": "all tables, texts and settings; the tests compare one file", "anchors": ["src/dispersion/io.py:Writer.write_file", "src/dispersion/io.py:Writer._write_text_file", "src/dispersion/io.py:Reader.read_file", "src/dispersion/material.py:Material._process_file_data"]}
{"id": "C93", "title": "The example files of the setup script can be loaded", "statement": "The setup script writes its two example files without an error, and a material can be made from each. The one of example_file.txt has n = 1.7, 1.6, 1.5, 1.4 and k = 0.1, 0.05, 0, 0 at 400, 500, 600, 700 nm; the one of example_file2.yml has the Sellmeier model with parameters 0, 1, 0.05, 2, 0.1, 10, 25 from 0.35 to 2 um and the table of k over 400 to 700 nm. Both have the reference, comment, names and author that the script sets; the meta comment gains a blank line in the text file and loses its last letter in the YAML file.", "quantifier": "every order of the reader's keys, every arithmetic in which these numbers are distinct and printed exactly", "why_tests_cant": "the setup script is not tested; for all orders in which the reader looks for keys", "anchors": ["src/dispersion/scripts/setup_dispersion.py:make_example_txt", "src/dispersion/scripts/setup_dispersion.py:make_example_yaml", "src/dispersion/io.py:Writer.write_file", "src/dispersion/io.py:Reader.read_file"]}
{"id": "C94", "title": "Plots of given values show what a direct call returns", "statement": "plot_nk_data with given values (a list, tuple or array of floats) shows, over these values as given, the real and imaginary parts that get_nk_data returns for them with the same type and unit; plot_permittivity does so for materials that were not extrapolated. Two curves are drawn, two horizontal lines for a single value; legend and ordinate name the quantity, the abscissa names type and unit. If the direct call raises, the plot raises the same exception. Plots in centimetres raise a KeyError.", "quantifier": "every material, all values, every type and unit, every arithmetic", "why_tests_cant": "plots are not tested; for all materials and values", "anchors": ["src/dispersion/material.py:Material.plot_nk_data", "src/dispersion/material.py:Material.plot_permittivity", "src/dispersion/spectrum.py:Spectrum.get_type_unit_string"]}
{"id": "C95", "title": "A plot without values shows the whole range", "statement": "Without values, plot_nk_data and plot_permittivity of a table or a refractive index model show the material at the 1000 points of its sample spectrum, in its own unit, or in any other type and unit in which the ends of the range have no more decimals than conversions keep. The ordinates are those of a direct call.", "quantifier": "every table and refractive index model with a range on the decimal grid of its unit, every such unit of the plot", "why_tests_cant": "all tables, models and units; plots are not tested", "anchors": ["src/dispersion/material.py:Material.plot_nk_data", "src/dispersion/material.py:Material.plot_permittivity", "src/dispersion/material.py:Material.get_sample_spectrum"]}
{"id": "C96", "title": "A table can be plotted in any unit", "statement": "A table over wavelengths between 10 nm and 1 m can be plotted over every spectrum type and unit that has a symbol (but wavenumbers in 1/cm).", "quantifier": "every table of the refractive index with ends on the decimal grid of its unit, every type and unit", "why_tests_cant": "whether the ends of the range survive the conversion to the unit of the plot and back depends on all decimals of the table", "anchors": ["src/dispersion/material.py:Material.plot_nk_data", "src/dispersion/material.py:Material.get_sample_spectrum", "src/dispersion/spectrum.py:Spectrum.convert_to"]}
{"id": "C97", "title": "Only save_to_file changes the catalogue file", "statement": "After any history of calls the catalogue file holds the table as it was at the last save_to_file; without such a call it is as it was. Opening the catalogue then shows those rows in their order (numbers and texts as csv keeps them); every alias that only one row had loads the material of that row, every row number the row at that position, and if the rows were labelled by position every identifier loads what it loaded when the table was saved.", "quantifier": "every history of calls of a Catalogue's methods, every table whose texts csv files can hold, every valid configuration", "why_tests_cant": "all histories; the tests make single calls", "anchors": ["src/dispersion/catalogue.py:Catalogue.save_to_file", "src/dispersion/catalogue.py:Catalogue.__init__", "src/dispersion/catalogue.py:Catalogue.get_material", "src/dispersion/catalogue.py:Catalogue.save_interactive"]}
{"id": "C98", "title": "Which calls change a catalogue", "statement": "In every history of calls, the table changes through register_alias, set_database and save_interactive only; a call that raises changes neither table nor grid nor file. Without interactive mode the interactive methods raise ValueError after every history; with it view_interactive and edit_interactive show all rows in order, and save_interactive before either raises AttributeError.", "quantifier": "every history of calls, every state", "why_tests_cant": "all histories; the interactive methods are not tested", "anchors": ["src/dispersion/catalogue.py:Catalogue.view_interactive", "src/dispersion/catalogue.py:Catalogue.edit_interactive", "src/dispersion/catalogue.py:Catalogue.save_interactive", "src/dispersion/catalogue.py:Catalogue.register_alias", "src/dispersion/catalogue.py:Catalogue.get_material"]}
{"id": "C99", "title": "Viewing does not edit", "statement": "After view_interactive, whatever the user does in the grid and whatever other methods are called (but those that open another grid), the rows that save_interactive takes over are rows of the table as it was shown, each at most as often.", "quantifier": "every history of calls and actions", "why_tests_cant": "all histories of user actions", "anchors": ["src/dispersion/catalogue.py:Catalogue.view_interactive", "src/dispersion/catalogue.py:Catalogue.save_interactive"]}
{"id": "C100", "title": "Sorting and filtering in the grid keep the aliases", "statement": "After edit_interactive, sorting, filtering or editing rows in the grid and save_interactive, every alias that one row has loads the material of that row.", "quantifier": "every table, every sequence of user actions", "why_tests_cant": "all tables and sequences of actions", "anchors": ["src/dispersion/catalogue.py:Catalogue.edit_interactive", "src/dispersion/catalogue.py:Catalogue.save_interactive", "src/dispersion/catalogue.py:Catalogue.get_material"]}
{"id": "C101", "title": "Aliases registered while a grid is open", "statement": "An alias that register_alias accepted is in the table after save_interactive, also if the grid had been opened before.", "quantifier": "every table, every alias", "why_tests_cant": "all orders of calls", "anchors": ["src/dispersion/catalogue.py:Catalogue.register_alias", "src/dispersion/catalogue.py:Catalogue.edit_interactive", "src/dispersion/catalogue.py:Catalogue.save_interactive"]}
{"id": "C102", "title": "From the setup script to a material", "statement": "After a run of the setup script get_config returns the configuration that the script wrote. If the data files below its root hold tables without units, Catalogue(rebuild='All') builds a catalogue whose rows tell of the files; after any calls of register_alias for its rows, save_to_file and opening the catalogue again, every row number loads a material with the bounds and reference index that the row tells, and every alias loads the material of the row that it was given to.", "quantifier": "all answers of the user with which the script ends, every such set of files, every sequence of aliases, texts that csv files can hold", "why_tests_cant": "a chain of five programs over all inputs", "anchors": ["src/dispersion/scripts/setup_dispersion.py:main", "src/dispersion/config.py:get_config", "src/dispersion/catalogue.py:Catalogue.__init__", "src/dispersion/catalogue.py:Catalogue.build_catalogue", "src/dispersion/catalogue.py:Catalogue.register_alias", "src/dispersion/catalogue.py:Catalogue.save_to_file", "src/dispersion/catalogue.py:Catalogue.get_material"]}
{"id": "C103", "title": "The answer does not depend on the unit of the question", "statement": "get_nk_data and get_permittivity depend only on the wavelengths that the argument stands for: numbers or lists of any types and units that denote the same wavelengths give the same result or the same exception, and get_permittivity treats a Spectrum object that was converted in place or passed to any materials before as a new one.", "quantifier": "every material; all numbers and lists of positive values in every type and unit (elements of lists of frequencies, energies and wavenumbers above 1e-8); every history of uses of a Spectrum object", "why_tests_cant": "all values, units and histories", "anchors": ["src/dispersion/material.py:Material.get_nk_data", "src/dispersion/material.py:Material.get_permittivity", "src/dispersion/spectrum.py:Spectrum.convert_to", "src/dispersion/spectrum.py:Spectrum.standardise_values"]}
{"id": "C104", "title": "Normal dispersion of transparent models", "statement": "For the formulas Sellmeier, Sellmeier2, Polynomial, Cauchy and Gases with strengths that are not negative, the index returned for the longer of two wavelengths between which and at which there is no resonance is never the larger one, and if it is a real number so is the other. Beyond all resonances the Sellmeier index is real, at least 1, and falls to sqrt(1 + C1 + sum B).", "quantifier": "any number of terms, all coefficients and wavelengths, all spectra in any unit", "why_tests_cant": "all coefficients and wavelengths, a limit", "anchors": ["src/dispersion/spectral_data.py:Sellmeier.evaluate", "src/dispersion/spectral_data.py:Sellmeier2.evaluate", "src/dispersion/spectral_data.py:Polynomial.evaluate", "src/dispersion/spectral_data.py:Cauchy.evaluate", "src/dispersion/spectral_data.py:Gases.evaluate"]}
{"id": "C105", "title": "Sum rules of the metals", "statement": "The permittivities returned by Drude and DrudeLorentz models with positive width obey the f-sum rule: the integral over all energies of the energy times the imaginary part is pi/2 times the squared plasma energy (times the polarisation strength), whatever the width and the resonance. With a resonance the real part averages to one and has the static limit 1 + S wp^2/w0^2.", "quantifier": "all parameters with positive width", "why_tests_cant": "an integral over all energies and a limit", "anchors": ["src/dispersion/spectral_data.py:Drude.evaluate", "src/dispersion/spectral_data.py:DrudeLorentz.evaluate"]}
{"id": "C106", "title": "Index and permittivity in double precision", "statement": "Computed in double precision, get_permittivity of a material defined by n and k is n^2-k^2 up to 3 units of 2^-53 of n^2+k^2 and 2nk up to a relative error of 3*2^-53 (so it is not negative for passive materials); get_nk_data of a material defined by a passive permittivity is its root with n, k >= 0, each part up to a relative error of 8*2^-53, however small the absorption.", "quantifier": "every material and spectrum; all parts that are zero or between 1e-60 and 1e60 in size", "why_tests_cant": "all doubles; cancellation and overflow in square roots", "anchors": ["src/dispersion/material.py:Material.get_nk_data", "src/dispersion/material.py:Material.get_permittivity"]}
{"id": "C107", "title": "What extrapolation adds", "statement": "Extrapolation with a spline of order k continues data over wavelength in metres that lie on a polynomial of degree at most k by this polynomial, at every requested point. A table extended with order one is continued, above and below, by the straight line through the two outer rows at that end, whatever else is requested, provided the outer segment holds two of the 1000 sample points: exactly in metres, hertz and 1/s, and in the other units (but wavenumbers) up to the slope times half a unit of the last decimal that conversions keep, times the distance from the table in units of the distance of the two outer sample points.", "quantifier": "all data, tables, spline orders 1 to 5, extensions and requests in any unit", "why_tests_cant": "all tables and requests", "anchors": ["src/dispersion/spectral_data.py:Extrapolation.evaluate", "src/dispersion/spectral_data.py:Extrapolation.extrapolate_data", "src/dispersion/material.py:Material.extrapolate"]}
{"id": "C108", "title": "Published formulas and tables of refractiveindex.info files", "statement": "Reading a YAML file of refractiveindex.info (one dataset of the refractive index, as a numbered formula other than 8 or a table; optionally a table of the extinction coefficient; or one table of both) and making a material of it with spectrum type 'wavelength' and the unit micrometre gives a material whose range is the common range stated in the file, which answers exactly within this range, for spectra in any unit, and there returns the published formula of that number with the coefficients in the file, or the straight line between the rows of the table. A file with a formula that is loaded without the unit, or with another type or unit, is refused with ValueError.", "quantifier": "every such file, every number of terms, all coefficients with which the formula has a value in the range, every order of keys and layout of numbers, all spectra", "why_tests_cant": "all files, coefficients and wavelengths; a chain of reader, constructor and evaluation", "anchors": ["src/dispersion/io.py:Reader.read_file", "src/dispersion/io.py:Reader._process_mat_dict", "src/dispersion/material.py:Material._process_file_data", "src/dispersion/material.py:Material.get_nk_data", "src/dispersion/material.py:Material.get_maximum_valid_range", "src/dispersion/spectral_data.py:Sellmeier.evaluate"]}
{"id": "C109", "title": "Accuracy of dispersion formulas", "statement": "In double precision the index returned by Sellmeier, Sellmeier2, Polynomial, Cauchy and Gases with N coefficient pairs differs from the published formula, evaluated with the same coefficients at the same wavelength in micrometres, by at most (N + K + 13) b / 2^53. Here 1/K is the smallest relative distance of the wavelength from a resonance (K = 0 for power laws) and b the sum of the absolute values of the terms, for the formulas of the squared index divided by the index. So a result is accurate to a few units of the last digit unless terms cancel or the wavelength is next to a resonance.", "quantifier": "fewer than 2^20 pairs, coefficients zero or between 1e-30 and 1e30 in size, all wavelengths of this size, K up to 2^20, a squared index not below 2^-20 of the sum of absolute values", "why_tests_cant": "all coefficients, numbers of terms and wavelengths; the error of a sum of any length", "anchors": ["src/dispersion/spectral_data.py:Sellmeier.evaluate", "src/dispersion/spectral_data.py:Sellmeier2.evaluate", "src/dispersion/spectral_data.py:Polynomial.evaluate", "src/dispersion/spectral_data.py:Cauchy.evaluate", "src/dispersion/spectral_data.py:Gases.evaluate"]}
{"id": "C110", "title": "Mixtures are passive and obey the bounds of effective medium theory", "statement": "An effective medium of two materials whose permittivities have no negative imaginary part has none either, for all three kinds of media and every fraction (in a Maxwell-Garnett medium wherever the formula has a value). For transparent constituents (positive real permittivities) each medium has a positive real permittivity between the harmonic and the arithmetic mean of the constituents (Wiener bounds); the one of Bruggeman lies between those of Maxwell-Garnett with either constituent as host (Hashin-Shtrikman bounds); and more of the constituent with the larger permittivity gives no smaller permittivity.", "quantifier": "all materials, fractions in [0,1] and array spectra of distinct wavelengths", "why_tests_cant": "all pairs of materials and all fractions; inequalities between different media", "anchors": ["src/dispersion/material.py:EffectiveMedium.__init__", "src/dispersion/material.py:Simple.create_effective_data", "src/dispersion/material.py:MaxwellGarnett.create_effective_data", "src/dispersion/material.py:Bruggeman.create_effective_data"]}
{"id": "C111", "title": "Histories of changes of a material", "statement": "After any sequence of calls of extrapolate and remove_absorption, in any order and number, including calls that raise, a material still has its name, metadata, defaults and kind of data. Wherever the constructed material answered, it gives the same index and permittivity, or, if remove_absorption was called anywhere in the sequence, what the constructed material gives after this call alone. A material with complex data gives the same answers everywhere. So extrapolations never change existing data and their order does not matter there.", "quantifier": "all materials whose parts are constants, or tables or models with ranges in increasing order; all histories of any length; all spectra; every arithmetic with IEEE comparisons and every spline library", "why_tests_cant": "unbounded histories of mutations and failures", "anchors": ["src/dispersion/material.py:Material.extrapolate", "src/dispersion/material.py:Material.remove_absorption", "src/dispersion/spectral_data.py:Extrapolation.__init__", "src/dispersion/spectral_data.py:Extrapolation.evaluate", "src/dispersion/material.py:Material.get_nk_data"]}
{"id": "C112", "title": "Accuracy of tables asked in any unit", "statement": "In double precision, get_nk_data of a material whose parts are tables of interpolation order one (with distinct abscissae) or constants, asked for a number or a list in any type and unit, returns the values of the broken line through the rows at the exact counterparts of the questions (the physical relations in real numbers), up to M d + 9 B / 2^53. Here M is the largest slope and B the largest ordinate of the table, and d is 2^-49 of the counterpart plus half a unit of the last decimal that conversions keep. So asking about the same light in two units gives the same answer up to twice this error. The table answers every question whose counterparts lie inside its ends by more than d, and refuses it, with the error for the range, if one lies outside by more.", "quantifier": "all tables with abscissae and ordinates between 1e-60 and 1e60 in size over any type but wavenumbers, all questions of this size in any type and unit", "why_tests_cant": "all tables, units and values; the sum of the errors of conversion, interpolation and range check", "anchors": ["src/dispersion/material.py:Material.get_nk_data", "src/dispersion/spectral_data.py:Interpolation.evaluate", "src/dispersion/spectrum.py:Spectrum.convert_to", "src/dispersion/spectrum.py:Spectrum.contains"]}
{"id": "C113", "title": "Formula numbers in files for refractiveindex.info", "statement": "Saving a material as a YAML file with use_rii_aliases=True writes a dispersion formula that refractiveindex.info knows under a number as 'formula n' with this number, as the other data types are written with the names used there.", "quantifier": "all materials with a model that has a number, all parameters", "why_tests_cant": "all materials and parameters; whether the translation of names is ever reached", "anchors": ["src/dispersion/io.py:Writer._write_yaml_file"]}
{"id": "C114", "title": "Accuracy of dispersion formulas asked in any unit", "statement": "In double precision, get_nk_data of a material whose parts are the formulas Sellmeier, Sellmeier2, Polynomial, Cauchy or Gases, tables or constants, asked for a number or a list in any type and unit, returns for a formula with N pairs of coefficients the published formula at the exact wavelength of the question (the physical relations in real numbers), up to 3 K d b / X + 2 (N + 2K + 13) b / 2^53. Here X is this wavelength in micrometres, d is X / 2^49 plus half of 1e-9 micrometres, 1/K is the smallest relative distance from a resonance (K the largest exponent for power laws) and b the sum of the absolute values of the terms, for the formulas of the squared index divided by the index. A formula with a range answers every question whose wavelengths lie inside the range by more than d, and refuses it with ValueError if one lies outside by more.", "quantifier": "fewer than 2^20 pairs, coefficients zero or between 1e-30 and 1e30 in size, wavelengths between 1e-29 and 1e29 micrometres with d and 3 K d at most 2^-22 X, K up to 2^19, a squared index not below 2^-19 of the sum of absolute values", "why_tests_cant": "all formulas, coefficients, units and values; how an error of the conversion grows in the formula", "anchors": ["src/dispersion/material.py:Material.get_nk_data", "src/dispersion/spectral_data.py:Model.evaluate", "src/dispersion/spectral_data.py:Sellmeier.evaluate", "src/dispersion/spectral_data.py:Gases.evaluate", "src/dispersion/spectrum.py:Spectrum.convert_to", "src/dispersion/spectrum.py:Spectrum.contains"]}
{"id": "C115", "title": "Saved aliases are not lost to other sessions", "statement": "If a session names a material and saves the catalogue, a Catalogue constructed later finds the material under this alias, as long as nobody gives the alias or the material's row another meaning, whatever other sessions with their own Catalogue objects of the same configuration do and save.", "quantifier": "all interleavings of any number of sessions, all tables and aliases", "why_tests_cant": "all interleavings of several objects and one file", "anchors": ["src/dispersion/catalogue.py:Catalogue.__init__", "src/dispersion/catalogue.py:Catalogue.save_to_file", "src/dispersion/catalogue.py:Catalogue.register_alias", "src/dispersion/catalogue.py:Catalogue.get_material"]}
{"id": "C116", "title": "Sessions that share a catalogue", "statement": "Several Catalogue objects of one configuration do not influence each other: each shows, after any interleaving of calls, what it would show if it had been alone since its construction. The file holds the table of the object that saved last. Each object, and each object constructed later, finds materials exactly by the aliases it knew at its construction and was given since, and loads the same files as before. Sessions that take place one after the other (construct, register aliases, save) lose nothing: an object constructed afterwards knows the aliases of all of them.", "quantifier": "all interleavings of any number of objects, all tables whose values can be stored in the file", "why_tests_cant": "all interleavings; several objects, one file, repeated saving and reloading", "anchors": ["src/dispersion/catalogue.py:Catalogue.__init__", "src/dispersion/catalogue.py:Catalogue.save_to_file", "src/dispersion/catalogue.py:Catalogue.register_alias", "src/dispersion/catalogue.py:Catalogue.get_material"]}
{"id": "C117", "title": "Repeated saving to text files does not change the data", "statement": "A material that was loaded from a text file (.txt or .csv) keeps its tables, number for number, when it is saved to a text file and loaded once more: the rounding of the first save is the only one.", "quantifier": "all materials with tables of the index, or of index and extinction coefficient, all doubles including infinities and NaN, any sequence of the two formats", "why_tests_cant": "all doubles, all tables and any number of save and load cycles; whether rounding twice equals rounding once", "anchors": ["src/dispersion/io.py:Writer._write_text_file", "src/dispersion/io.py:Reader._read_text_file", "src/dispersion/material.py:Material.prepare_file_dict", "src/dispersion/spectral_data.py:Interpolation.dict_repr"]}
{"id": "C118", "title": "Accuracy of tables saved as text", "statement": "A material whose index is a table, saved to a text file and loaded again, has a table of the same length, type and unit, and each number x of it is within 6e-9 (1 + |x|) of the saved one; with a table of the extinction coefficient as a third column within 12e-9 (1 + |x|). After any number of save and load cycles in any of the text formats each number of a table of the index is within 13e-9 (1 + |x|) of the original. The file can be loaded whenever no two abscissae are so close that these errors could make them equal.", "quantifier": "all doubles up to 1e99 in size, all tables up to 500 rows (333 with three columns), any number of cycles", "why_tests_cant": "all doubles and any number of cycles; three roundings to a varying number of digits", "anchors": ["src/dispersion/io.py:Writer._write_text_file", "src/dispersion/io.py:Reader._read_text_file", "src/dispersion/material.py:Material.prepare_file_dict", "src/dispersion/spectral_data.py:Interpolation.dict_repr"]}
{"id": "C119", "title": "Text files keep the extinction coefficient", "statement": "A material constructed from a table of index and extinction coefficient (tabulated_nk, 2 to 333 rows) still has a table of the extinction coefficient after it was saved to a .txt or .csv file and loaded again.", "quantifier": "all tables of doubles with distinct abscissae, all metadata that fit in a header, both formats", "why_tests_cant": "all doubles; depends on the notation that NumPy chooses for each of the two tables", "anchors": ["src/dispersion/io.py:Writer._write_text_file", "src/dispersion/material.py:Material.prepare_file_dict", "src/dispersion/spectral_data.py:Interpolation.dict_repr"]}
{"id": "C120", "title": "Text files of tables can be loaded", "statement": "A table of the index with distinct abscissae in any unit (2 to 500 rows) that was saved to a .txt or .csv file can be loaded from it.", "quantifier": "all tables of doubles, all units", "why_tests_cant": "all doubles and units; rounding to eight decimals makes abscissae in metres coincide", "anchors": ["src/dispersion/io.py:Writer._write_text_file", "src/dispersion/io.py:Reader._read_text_file", "src/dispersion/spectral_data.py:Interpolation.__init__"]}
{"id": "C121", "title": "Accuracy of materials saved as YAML", "statement": "A material constructed from a table of the index (2 to 500 rows), saved to a YAML file with default settings and loaded again, has a table of the same length, type and unit, and each number x of it is within 6e-9 (1 + |x|) of the original; if an abscissa is below 0.0001 in size (wavelengths in metres), each number is within 6e-9 |x|. The file can be loaded if no two abscissae are so close that these errors could make them equal. A material constructed from a model of the index (up to 1000 parameters) keeps formula, type and unit, and each parameter and bound of the range is within 6e-9 (1 + |x|) of the original.", "quantifier": "all doubles up to 1e100 in size (and for relative errors zero or at least 1e-100), all tables, models and units", "why_tests_cant": "all doubles; rounding to a number of digits that depends on all other numbers", "anchors": ["src/dispersion/io.py:Writer._write_yaml_file", "src/dispersion/io.py:Reader._process_mat_data_dict", "src/dispersion/material.py:Material.prepare_file_dict", "src/dispersion/spectral_data.py:Interpolation.dict_repr", "src/dispersion/spectral_data.py:Model.dict_repr"]}
{"id": "C122", "title": "Coefficients of nine significant digits survive YAML files", "statement": "A material constructed from a formula for the index whose coefficients have at most nine significant digits has exactly the same coefficients after it was saved to a YAML file and loaded again.", "quantifier": "all formulas of the index, all lists of up to 1000 coefficients", "why_tests_cant": "all doubles; depends on the notation that NumPy chooses for all coefficients together", "anchors": ["src/dispersion/io.py:Writer._write_yaml_file", "src/dispersion/spectral_data.py:Model.dict_repr", "src/dispersion/material.py:Material.prepare_file_dict"]}
{"id": "C123", "title": "Passive models stay passive in double precision", "statement": "A Drude model whose loss is not negative, a Drude-Lorentz model whose strength and loss are not negative and a Tauc-Lorentz model whose amplitude, energy and broadening are not negative never return a permittivity with an imaginary part below zero, and get_nk_data never returns an index or extinction coefficient below zero, at any value that is not negative in any type and unit: rounding, underflow and overflow never turn absorption into gain. If such a model is valid from zero to infinity, every array of such values is answered.", "quantifier": "all doubles including infinities and NaN, as parameters (given as an array or in a file) and as requested values, all types and units", "why_tests_cant": "all doubles; rounding, underflow and overflow in each of a dozen operations, and complex division with two branches", "anchors": ["src/dispersion/spectral_data.py:Drude.evaluate", "src/dispersion/spectral_data.py:DrudeLorentz.evaluate", "src/dispersion/spectral_data.py:TaucLorentz.evaluate", "src/dispersion/material.py:Material.get_nk_data", "src/dispersion/material.py:Material.get_permittivity"]}
{"id": "C124", "title": "Accuracy of the Drude and Drude-Lorentz models", "statement": "Each permittivity that a material with a Drude or Drude-Lorentz model reports, for values of any type and unit, belongs to an energy E that differs from the exact energy by no more than X/2^49 + 0.5e-9 eV. With a Drude model its imaginary part has a relative error of at most 14/2^53 against 1 - wp^2/(E^2 + i g E), and its real part is wrong by at most 16/2^53 (1 + |Re eps - 1|). With a Drude-Lorentz model both parts are within (1 + |eps - 1| (16 + 5 K))/2^53 of 1 + S wp^2/(w0^2 - E^2 - i g E), where K = (w0^2 + E^2)/|w0^2 - E^2 - i g E| measures the cancellation near an undamped resonance.", "quantifier": "all parameters that are zero or between 1e-10 and 1e10 in size, all energies between 1e-6 and 1e9 eV, all types and units, K up to 2^40", "why_tests_cant": "all doubles; the rounding errors of a dozen operations including complex division with two branches and a cancelling difference", "anchors": ["src/dispersion/spectral_data.py:Drude.evaluate", "src/dispersion/spectral_data.py:DrudeLorentz.evaluate", "src/dispersion/material.py:Material.get_permittivity", "src/dispersion/spectrum.py:Spectrum.convert_to"]}
{"id": "C125", "title": "Interrupted saves", "statement": "If the process ends while a material is saved to a text file, the file on disk afterwards is the previous one, or holds the same data as the complete new one, or cannot be loaded; a part of the table is never loaded as if it were all of it.", "quantifier": "all materials with tables, all previous contents of the file and every moment of the interruption, including the insertion of the comment", "why_tests_cant": "Tests do not stop the process between two characters; whether a beginning of a file can pass as a file depends on every number in it.", "anchors": ["src/dispersion/io.py:Writer.write_file", "src/dispersion/io.py:Writer._write_text_file", "src/dispersion/io.py:prepend_text_to_file", "src/dispersion/io.py:Reader._read_text_file"]}
{"id": "C126", "title": "Conversions and ranges respect order in double precision", "statement": "In double precision, on [0, inf], every conversion between types and units preserves the order of values if both types are wavelengths or both are reciprocal (energy, frequency, angular frequency, wavenumber), reverses it otherwise, and never gives NaN or a negative value; sorted arrays become sorted arrays. Hence what a range accepts is an interval in every type and unit: if a range contains some values, it contains all values between them, and a linearly interpolated table that answers for some values answers for all values between them.", "quantifier": "all doubles of [0, inf] including subnormal numbers and those whose conversion overflows, all types, units and aliases of units, scalars and arrays of any length", "why_tests_cant": "all pairs of doubles; each product, quotient and decimal rounding could exchange neighbouring values", "anchors": ["src/dispersion/spectrum.py:Spectrum.convert_to", "src/dispersion/spectrum.py:Spectrum.contains", "src/dispersion/spectrum.py:Spectrum.convert_from", "src/dispersion/spectral_data.py:Interpolation.evaluate"]}
{"id": "C127", "title": "Later changes of arrays do not reach the objects", "statement": "Changing, after the fact, an array or list that was passed to Spectrum or Material, or an array that convert_to or values returned, does not change what any Spectrum or Material returns or saves.", "quantifier": "all sequences of statements: making and writing arrays and lists, building spectra and materials from them, converting (also in place), asking, saving", "why_tests_cant": "any interleaving of writes with uses; whether an array is shared depends on type, unit, kind of argument and number of rows", "anchors": ["src/dispersion/spectrum.py:Spectrum.__init__", "src/dispersion/spectrum.py:Spectrum.standardise_values", "src/dispersion/spectrum.py:Spectrum.convert_to", "src/dispersion/spectral_data.py:Model.__init__", "src/dispersion/spectral_data.py:Interpolation.__init__", "src/dispersion/material.py:Material._process_table", "src/dispersion/material.py:Material._process_model_dict"]}
{"id": "C128", "title": "Numbers of a catalogue that is saved and opened again", "statement": "The bounds and the reference values of n and k that a catalogue lists are the same after it has been saved and opened again, however often.", "quantifier": "all tables with texts that survive, all doubles as bounds and reference values (reference values may be missing), any number of sessions", "why_tests_cant": "every double; the reader of pandas scales the digits by powers of ten with rounding at each step, so whether a number survives depends on its digits and on the number of its decimals", "anchors": ["src/dispersion/catalogue.py:Catalogue.save_to_file", "src/dispersion/catalogue.py:Catalogue.__init__", "src/dispersion/catalogue.py:Catalogue.get_database"]}
{"id": "C129", "title": "Materials that are saved to YAML files again and again", "statement": "A material that was loaded from a YAML file keeps its data, number for number, when it is saved to a YAML file and loaded once more.", "quantifier": "all materials with a table or a model of the refractive index, all doubles, any number of saves, all orders in which the reader visits its keys", "why_tests_cant": "NumPy chooses the notation of an array from all its numbers; rounding can change the choice for the next file, so every combination of numbers matters", "anchors": ["src/dispersion/io.py:Writer._write_yaml_file", "src/dispersion/io.py:_numeric_to_string_table", "src/dispersion/io.py:Reader._read_yaml_mat_file", "src/dispersion/material.py:Material._process_file_data"]}
{"id": "C130", "title": "Tables without gain in double precision", "statement": "A material given by a table (or constants) whose extinction coefficients and refractive indices, or whose imaginary parts of the permittivity, are not negative reports, at every spectrum and in every unit, permittivities whose imaginary part is not negative and complex refractive indices in the first quadrant, whatever rounding errors occur.", "quantifier": "all tables and constants of doubles, all spectra, units and orders of the rows, infinities and NaN included", "why_tests_cant": "the sign of a rounded weighted sum between any two of infinitely many doubles cannot be sampled, and neither can the branch of the complex square root", "anchors": ["src/dispersion/material.py:Material.get_nk_data", "src/dispersion/material.py:Material.get_permittivity", "src/dispersion/spectral_data.py:Interpolation.evaluate", "src/dispersion/material.py:Material._spec_data_from_table"]}
{"id": "C131", "title": "Effective media without gain in double precision", "statement": "An effective medium of two materials that report no gain at the wavelengths of the mixture reports no gain either: the imaginary part of its permittivity is never negative and its refractive index is in the first quadrant, for every mixing rule, filling fraction and spectrum.", "quantifier": "all mixing rules, all pairs of materials, all filling fractions and wavelengths, all doubles", "why_tests_cant": "the formulas guarantee it in exact arithmetic; whether one of the infinitely many combinations of doubles rounds to a negative loss cannot be found by examples that succeed", "anchors": ["src/dispersion/material.py:MaxwellGarnett.create_effective_data", "src/dispersion/material.py:EffectiveMedium", "src/dispersion/material.py:Bruggeman.create_effective_data", "src/dispersion/material.py:EffectiveMedium.create_effective_data"]}
{"id": "C132", "title": "A catalogue whose saving was interrupted", "statement": "If saving the catalogue is interrupted at any moment, the file can be opened afterwards only if its rows are rows of the catalogue that was being saved, from the first on and without any change.", "quantifier": "all catalogues, all texts that survive in a file, all moments of the interruption", "why_tests_cant": "there are as many moments as characters in the file, and what the reader makes of the beginning depends on quotes, line breaks and the field in which it ends", "anchors": ["src/dispersion/catalogue.py:Catalogue.save_to_file", "src/dispersion/catalogue.py:Catalogue.__init__", "src/dispersion/catalogue.py:Catalogue.get_material"]}
{"id": "C133", "title": "Accuracy of linear mixtures in double precision", "statement": "A linear mixture of two materials can be built at any distinct wavelengths, and at these wavelengths, given in whatever unit, it reports the mean of the permittivities that the two materials report there, weighted with the filling fraction. The real and the imaginary part are off by at most 15 units of 2^-53 of the weighted mean of the absolute values, even if the two contributions cancel.", "quantifier": "all pairs of materials, all spectra of one or more distinct wavelengths, all filling fractions that are zero or at least 1e-16, all permittivities whose parts are zero or between 1e-20 and 1e20", "why_tests_cant": "every product, sum and interpolation is rounded; a bound for all doubles does not follow from any number of examples, and cancelling contributions are hit only by chance", "anchors": ["src/dispersion/material.py:Simple.create_effective_data", "src/dispersion/material.py:EffectiveMedium", "src/dispersion/material.py:Material.get_permittivity", "src/dispersion/spectral_data.py:Interpolation.evaluate"]}
{"id": "C134", "title": "Accuracy of Maxwell-Garnett media in double precision", "statement": "A Maxwell-Garnett medium of two materials can be built whenever the denominator of the formula does not vanish, and reports the value of the formula, apart from rounding errors, at the wavelengths it was built with.", "quantifier": "all pairs of materials with finite permittivities, all filling fractions, all spectra", "why_tests_cant": "the rounded denominator can vanish or lose all its digits where the exact one does not; the critical permittivities lie between any two that are tested", "anchors": ["src/dispersion/material.py:MaxwellGarnett.create_effective_data", "src/dispersion/material.py:EffectiveMedium", "src/dispersion/material.py:Material.get_permittivity"]}
{"id": "C135", "title": "Accuracy of Bruggeman media in double precision", "statement": "A Bruggeman medium of two transparent materials can be built at any list of distinct wavelengths and reports, there, the positive solution of Bruggeman's equation, within ten per cent, and no loss.", "quantifier": "all pairs of materials with positive permittivities between 1e-20 and 1e20, all filling fractions, all spectra", "why_tests_cant": "the code subtracts two nearly equal numbers if the permittivities differ much; how much is lost for which of the infinitely many pairs is not shown by examples", "anchors": ["src/dispersion/material.py:Bruggeman.create_effective_data", "src/dispersion/material.py:EffectiveMedium", "src/dispersion/material.py:Bruggeman._get_bruggeman_solution1", "src/dispersion/material.py:Material.get_permittivity"]}
{"id": "C136", "title": "Checking a file name leaves nothing behind", "statement": "Whether a name can be the name of a file is decided without any lasting change of the disk: after the check every directory and file is as before.", "quantifier": "all names, all contents of the disk, all working directories and permissions outside of the temporary directory", "why_tests_cant": "the check really opens a file for writing; which of the names with slashes and dots lead out of the temporary directory, and what is overwritten there, depends on the name and the disk", "anchors": ["src/dispersion/io.py:valid_file_name", "src/dispersion/config.py:validate_config", "src/dispersion/scripts/setup_dispersion.py:get_catalogue_name"]}
{"id": "C137", "title": "What the setup script changes on the disk", "statement": "However the dialogue of the setup script goes and however it ends - normally, with an exception, or because the input ends - it changes nothing but the user's directory and the configuration in it, the folder UserData with the two examples, what is in the folder RefractiveIndexInfo, and the catalogue file, plus empty files for typed names with a slash. No directory or file is removed.", "quantifier": "all sequences of typed lines, all contents of the disk, all permissions, all outcomes of git and of the building of the catalogue", "why_tests_cant": "there are infinitely many dialogues, and a run can break off at every step", "anchors": ["src/dispersion/scripts/setup_dispersion.py:main", "src/dispersion/scripts/setup_dispersion.py:install_modules", "src/dispersion/scripts/setup_dispersion.py:ask_and_confirm", "src/dispersion/scripts/setup_dispersion.py:maybe_rebuild_catalogue", "src/dispersion/config.py:write_config", "src/dispersion/io.py:valid_file_name"]}
{"id": "C138", "title": "An unfinished setup", "statement": "If the names typed do not stand for the configuration file itself, a run of the setup script that breaks off leaves the old configuration or the complete new one, never another; a run that ends normally leaves the configuration with the answers that were confirmed. An existing catalogue is replaced only by a run that ends normally, and then by a complete one.", "quantifier": "all sequences of typed lines, all contents of the disk, all points at which an exception occurs or the input ends", "why_tests_cant": "the order of the effects matters for every possible breaking point, not only for those that a test provokes", "anchors": ["src/dispersion/scripts/setup_dispersion.py:main", "src/dispersion/scripts/setup_dispersion.py:maybe_rebuild_catalogue", "src/dispersion/config.py:write_config", "src/dispersion/catalogue.py:Catalogue.save_to_file"]}
{"id": "C139", "title": "Running the setup script again", "statement": "On a disk where the places it writes to are free or its own, a dialogue that confirms root directory and file name at once and does without the download ends normally and leaves exactly the user's directory, the two examples, the configuration and, if wanted, the catalogue. Run again with the same answers it ends the same way and changes nothing. If the answer is to download into a folder that has been downloaded to, the run fails and the answers are not saved.", "quantifier": "all disks and permissions of this kind, all absolute root directories, all file names, all answers about the catalogue", "why_tests_cant": "the second run meets the files of the first; that none of them is in the way holds for all root directories and names only if it is proved", "anchors": ["src/dispersion/scripts/setup_dispersion.py:main", "src/dispersion/scripts/setup_dispersion.py:install_modules", "src/dispersion/scripts/setup_dispersion.py:install_userdata", "src/dispersion/scripts/setup_dispersion.py:install_rii", "src/dispersion/scripts/setup_dispersion.py:maybe_rebuild_catalogue", "src/dispersion/config.py:write_config"]}
{"id": "C140", "title": "Values of the Fano model", "statement": "A Fano model with parameter q, resonance energy er and width g reports numbers from 0 to 1, namely the profile (q+x)^2/((1+q^2)(1+x^2)) at x = 2(E-er)/g: 0 at the one energy er - q g/2, and, for q other than 0, 1 at the one energy er + g/(2q).", "quantifier": "all real parameters with a width other than 0, all spectra", "why_tests_cant": "a wrong normalisation shows in all values and at every q; tests compare single values that were computed with the same code", "anchors": ["src/dispersion/spectral_data.py:Fano", "src/dispersion/spectral_data.py:Fano.evaluate"]}
{"id": "C141", "title": "Accuracy of the Fano model in double precision", "statement": "In double precision every value of a Fano model differs from the profile by at most 15/2^53 and is not negative, at the zero of the profile as well, where the sum of q and the reduced energy cancels.", "quantifier": "all double parameters and energies that are 0 or of magnitude 1e-20 to 1e20, the width not 0", "why_tests_cant": "cancellation happens only near one energy, which depends on the parameters", "anchors": ["src/dispersion/spectral_data.py:Fano.evaluate"]}
{"id": "C142", "title": "Bruggeman media with loss in double precision", "statement": "A Bruggeman medium of two materials without gain, whose permittivities have an ordinary size, can be built at any list of distinct wavelengths and reports, there, a solution of Bruggeman's equation without gain, within ten per cent. With filling fraction 0 it reports the host.", "quantifier": "all pairs of materials without gain with moduli of the permittivity between 1/1000 and 1000, all filling fractions, all spectra", "why_tests_cant": "the solution is chosen by the sign of a rounded imaginary part; for which of the infinitely many pairs the sign is wrong does not show in examples where it is right", "anchors": ["src/dispersion/material.py:Bruggeman.create_effective_data", "src/dispersion/material.py:EffectiveMedium", "src/dispersion/material.py:Bruggeman._get_bruggeman_solution1", "src/dispersion/material.py:Bruggeman._get_bruggeman_solution2", "src/dispersion/material.py:Material.get_permittivity"]}
{"id": "C143", "title": "Mixtures of absorbing materials absorb", "statement": "A medium of two materials that both absorb at every wavelength of an array can be built, whichever of the three kinds and filling fractions is chosen, and at each wavelength the imaginary part of its permittivity is at least the smaller one of the constituents. A Bruggeman medium reports the only solution of its equation without gain.", "quantifier": "all pairs of materials with positive imaginary parts, all filling fractions from 0 to 1, all three kinds, all array spectra", "why_tests_cant": "the bound has to hold for all pairs of complex permittivities, resonances of metal inclusions included; tests compare few values", "anchors": ["src/dispersion/material.py:EffectiveMedium", "src/dispersion/material.py:MaxwellGarnett.create_effective_data", "src/dispersion/material.py:Bruggeman.create_effective_data", "src/dispersion/material.py:Material.get_permittivity"]}
{"id": "C144", "title": "The absorption of Tauc-Lorentz models is accurate in double precision", "statement": "For Tauc-Lorentz parameters and energies of magnitude between 1e-10 and 1e10 (strength, resonance and gap may be zero; width and energy positive), the imaginary part of every permittivity that a material reports is, in IEEE doubles, the one of the model at an energy within the rounding error of the unit conversion, up to the relative error (14 + 3K)/2^53 where K = (E^2 + E0^2)/(C E) measures the sharpness of the resonance (K up to 2^40). Below the gap it is exactly zero.", "quantifier": "all parameters and energies in the stated range, all spectral types, units and arrays of values", "why_tests_cant": "close to a narrow resonance the difference of squares cancels; which of the infinitely many parameters lose how many digits cannot be seen in a few reference values", "anchors": ["src/dispersion/spectral_data.py:TaucLorentz.evaluate", "src/dispersion/spectral_data.py:TaucLorentz._calc_eps_imag", "src/dispersion/material.py:Material.get_permittivity"]}
{"id": "C145", "title": "Mixtures of mixtures", "statement": "Media can be mixed from media, to any depth, with one Spectrum object, which keeps its wavelengths. If all materials absorb, the whole can be built and absorbs at each wavelength at least as strongly as one of the materials; if all are transparent with positive permittivity, the permittivity of the whole lies between those of two of them. In double precision, hierarchies of linear mixtures and Bruggeman media of materials without gain report no gain.", "quantifier": "all finite hierarchies of the three kinds of media, all materials, filling fractions and array spectra", "why_tests_cant": "the hierarchies are infinitely many, and errors of one level (a converted spectrum, a wrong unit, a lost sign) enter the next", "anchors": ["src/dispersion/material.py:EffectiveMedium", "src/dispersion/material.py:Simple.create_effective_data", "src/dispersion/material.py:MaxwellGarnett.create_effective_data", "src/dispersion/material.py:Bruggeman.create_effective_data", "src/dispersion/material.py:Material.get_permittivity"]}
{"id": "C146", "title": "Accuracy of hierarchies of linear mixtures", "statement": "A hierarchy of linear mixtures, at most 2^20 deep, of materials whose real and imaginary parts are all positive and of ordinary size (or all zero), is built in double precision and reports, at the wavelengths it was built with and in whatever unit these are given, the weighted means of the permittivities of its materials up to the relative error (1 + 15/2^53)^depth - 1.", "quantifier": "all hierarchies of linear mixtures, all doubles between 1e-10 and 1e10, all filling fractions that are 0 or at least 1e-16, all spectra with distinct wavelengths", "why_tests_cant": "the error grows with the depth; tests mix two materials once", "anchors": ["src/dispersion/material.py:EffectiveMedium", "src/dispersion/material.py:Simple.create_effective_data", "src/dispersion/material.py:Material.get_permittivity"]}
{"id": "C147", "title": "Text files written by hand", "statement": "A text file (.txt, .csv or .nk) of two or more rows with two columns, or three, gives the same material as the argument tabulated_n, or tabulated_nk, with these rows; spectrum type and unit are those that the header states and, where it states none, those of the call; the metadata are those of the header. It does not matter whether lines end as on Unix or on Windows, nor how the columns are spaced, nor whether there is a header. With four or more columns and no data type in the header the constructor raises ValueError, with a single row IndexError.", "quantifier": "all numbers and ways to write them, all header lines, both line ends, all spacings, all three formats", "why_tests_cant": "the type of the data is guessed from the shape of the table; tests use a few files with full headers, as the library itself writes them", "anchors": ["src/dispersion/io.py:Reader._read_text_file", "src/dispersion/io.py:Reader._read_text_data", "src/dispersion/io.py:Reader._read_text_comment", "src/dispersion/material.py:Material._process_file_data", "src/dispersion/material.py:Material._process_table"]}
{"id": "C148", "title": "Catalogue files edited with other programs", "statement": "A catalogue file may be written by another program: fields in quotes or not, line ends of Unix or Windows, blank lines, no end of the last line, missing fields at the end of a line. The catalogue then has exactly the rows of the lines, numbered from zero, texts as they are, missing fields empty, missing reference values as missing numbers. A file with a missing bound, too many fields in a later line, a bound that is no number, an unclosed quote, or nothing at all raises ValueError.", "quantifier": "all files with the fourteen columns in their order, all texts without NUL, all ways to write them", "why_tests_cant": "the ways to write one and the same table are infinitely many; tests read files that the library wrote", "anchors": ["src/dispersion/catalogue.py:Catalogue.__init__", "src/dispersion/catalogue.py:Catalogue"]}
{"id": "C149", "title": "What stops the building of a catalogue", "statement": "The first module with a problem stops the building with the exception of the problem: KeyError for an enabled module of unknown name, the error of the operating system for a folder that cannot be listed or a library file that cannot be read, ValueError for a library with pages but without data folder, ValueError for a request for a module that is switched off. A data file that cannot be loaded, for whatever reason, stops the building as well; so does a page of the library whose file can be opened but not loaded. No incomplete catalogue comes about.", "quantifier": "all contents of the disk, all lists of modules, all requests, all positions of the broken file among others", "why_tests_cant": "one broken file among arbitrarily many others; tests build catalogues from folders without broken files", "anchors": ["src/dispersion/catalogue.py:Catalogue.build_catalogue", "src/dispersion/catalogue.py:Catalogue._iterate_pages", "src/dispersion/catalogue.py:Catalogue.read_ri_info_db", "src/dispersion/catalogue.py:Catalogue._read_text_db"]}
{"id": "C150", "title": "YAML files written by hand", "statement": "A YAML file with one dataset gives the same result as the equivalent argument of the constructor, be it a material or an exception: a dataset that names a model, by its name or by the number of its formula, is equivalent to model_kw with these parameters and this range; a dataset of kind tabulated n, nk or eps to tabulated_n, tabulated_nk, tabulated_eps with these rows. Spectrum type and unit are those of the dataset and, where it states none, those of the call. It does not matter whether the names are those of this library or of refractiveindex.info, in which order they stand, which of the optional ones have capital letters, nor how the numbers are spaced.", "quantifier": "all datasets, all orders and spellings of names, all further entries, all numbers and ways to write them, all orders of the keys in Python's sets", "why_tests_cant": "the spellings, orders and further entries are infinitely many and the keys are compared in an order that Python does not fix; tests read a few files of the database", "anchors": ["src/dispersion/io.py:Reader._process_mat_data_dict", "src/dispersion/io.py:Reader._read_yaml_mat_file", "src/dispersion/material.py:Material._process_file_data", "src/dispersion/material.py:Material._process_table"]}
{"id": "C151", "title": "Misspelt names in YAML files", "statement": "An entry of a dataset whose name the library does not know is reported with KeyError, as are missing kinds and missing numbers.", "quantifier": "all YAML files, all unknown names, all further entries", "why_tests_cant": "the names that nothing knows are infinitely many; tests have no files with unknown names", "anchors": ["src/dispersion/io.py:Reader._process_mat_data_dict"]}
{"id": "C152", "title": "A single number, or a list of one", "statement": "A material asked for the index or the permittivity at a single number gives the number that it gives, as a list of one, for the list of this one number; where the one raises an exception, so does the other, the same.", "quantifier": "all materials, all spectrum types and units, all numbers", "why_tests_cant": "numbers and arrays take different branches in every conversion and every model; tests compare a few materials at a few values", "anchors": ["src/dispersion/spectral_data.py:TaucLorentz.evaluate", "src/dispersion/material.py:Material.get_nk_data", "src/dispersion/material.py:Material.get_permittivity", "src/dispersion/spectrum.py:safe_inverse"]}
{"id": "C153", "title": "A database of refractiveindex.info that is there already", "statement": "If the user of the setup script wants the module of refractiveindex.info and declines the download, the module is switched on exactly if the catalogue can read the database that is in its folder.", "quantifier": "all contents of the disk, all root directories", "why_tests_cant": "what the script looks for and what the catalogue reads are in different files; tests run neither on a disk with a database", "anchors": ["src/dispersion/scripts/setup_dispersion.py:install_rii", "src/dispersion/catalogue.py:Catalogue.read_ri_info_db", "src/dispersion/catalogue.py:Catalogue._iterate_pages"]}
{"id": "C154", "title": "Unknown kinds of data in YAML files", "statement": "A dataset of a kind that the library does not know stops the loading with an exception.", "quantifier": "all YAML files, all kinds, all further entries", "why_tests_cant": "the kinds that nothing knows are infinitely many and the checks are spread over four functions; tests have no files with unknown kinds", "anchors": ["src/dispersion/io.py:Reader._process_mat_data_dict", "src/dispersion/material.py:Material._process_file_data", "src/dispersion/material.py:Material._process_table", "src/dispersion/material.py:Material._process_formula_data"]}
{"id": "C155", "title": "Numbers of parameters that do not fit the model", "statement": "A model given with a number of parameters that does not fit its formula is refused when the material is made, or the material raises an exception whenever it is asked for a value.", "quantifier": "all models, all lists of parameters, all ranges, all questions", "why_tests_cant": "lists of parameters have any length and nothing checks it; tests give every model the right number", "anchors": ["src/dispersion/material.py:Material._process_model_dict", "src/dispersion/spectral_data.py:Drude.evaluate", "src/dispersion/spectral_data.py:DrudeLorentz.evaluate", "src/dispersion/spectral_data.py:TaucLorentz.evaluate", "src/dispersion/spectral_data.py:Herzberger.evaluate", "src/dispersion/spectral_data.py:Sellmeier.evaluate"]}
{"id": "C156", "title": "Files that can be loaded but stop the building of a catalogue", "statement": "If every data file of a folder can be loaded as a material that reports its range, the catalogue of the folder can be built, whatever the materials do at the reference point.", "quantifier": "all folders, all contents of the files, all reference points", "why_tests_cant": "one file among thousands decides, with an exception of a class that only some models raise at some points; tests build catalogues of well-behaved files", "anchors": ["src/dispersion/catalogue.py:Catalogue._read_text_db", "src/dispersion/catalogue.py:Catalogue._iterate_pages", "src/dispersion/spectral_data.py:TaucLorentz.evaluate", "src/dispersion/spectral_data.py:Sellmeier.evaluate"]}
{"id": "C157", "title": "Tables of YAML files whose columns do not fit their kind", "statement": "A table of a YAML file whose rows do not have the number of columns that its kind has (two for n and k, three for nk, n_alpha and eps) stops the loading with an exception.", "quantifier": "all YAML files, all places of the table in the file, all layouts, all numbers of rows and columns", "why_tests_cant": "the files are infinitely many, and the check exists only for the arguments of the constructor; the tests have no files with other numbers of columns", "anchors": ["src/dispersion/material.py:Material._process_file_data", "src/dispersion/material.py:Material._process_table", "src/dispersion/material.py:Material._spec_data_from_table", "src/dispersion/io.py:_str_table_to_numeric"]}
{"id": "C158", "title": "Remarks in the headers of text files", "statement": "A header line of a text file that is not entitled with the name of a field (the name, blanks, and a colon) does not change what the material loaded from the file answers.", "quantifier": "all text formats, all headers, all places of the line, all tables of two columns or more and two rows or more", "why_tests_cant": "remarks are free text and the fields are recognised by the beginning of a line; tests have headers made of proper fields", "anchors": ["src/dispersion/io.py:Reader._read_text_file", "src/dispersion/io.py:Reader._read_text_comment", "src/dispersion/material.py:Material._process_table"]}

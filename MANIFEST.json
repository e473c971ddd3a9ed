{
 "claims": [
  {
   "property": "C01",
   "status": "proved",
   "theorems": [
    "Disp.C01_accepts_iff",
    "Disp.C01_rejects_value",
    "Disp.C01_other_rejected",
    "Disp.C01_stored",
    "Disp.C01_order_independent",
    "Disp.C01_idempotent",
    "Disp.C01_case_insensitive"
   ],
   "note": "every arithmetic"
  },
  {
   "property": "C02",
   "status": "proved",
   "theorems": [
    "Disp.C02_convert_iff",
    "Disp.C02_shape"
   ],
   "note": "every arithmetic"
  },
  {
   "property": "C03",
   "status": "partial",
   "theorems": [
    "Disp.C03_refuted",
    "Disp.C03_spelling_partial",
    "Disp.C03_evaluation_fails",
    "Disp.C03_evaluation_refuted"
   ],
   "note": "The full claim is false (refuted): convert_to does not lower-case the unit. Proved for lower-case spellings."
  },
  {
   "property": "C04",
   "status": "partial",
   "theorems": [
    "Disp.C04_from",
    "Disp.C04_convert_partial",
    "Disp.C04_wavenumber_factor",
    "Disp.C04_refuted",
    "Disp.C04_array_partial"
   ],
   "note": "The full claim is false (refuted): conversion to wavenumbers is off by 10^4. Proved for all other targets; arrays need inverted values above 1e-8. Ideal (real) arithmetic."
  },
  {
   "property": "C05",
   "status": "partial",
   "theorems": [
    "Disp.C05_round_trip_partial",
    "Disp.C05_array_partial",
    "Disp.C05_wavenumber",
    "Disp.C05_refuted"
   ],
   "note": "The full claim is false (refuted) for wavenumbers. Ideal arithmetic."
  },
  {
   "property": "C06",
   "status": "partial",
   "theorems": [
    "Disp.C06_agree_partial",
    "Disp.C06_wavelength_iff",
    "Disp.C06_refuted"
   ],
   "note": "The full claim is false (refuted): arrays treat |x|<=1e-8 as zero. Exact extent given for wavelengths."
  },
  {
   "property": "C07",
   "status": "proved",
   "theorems": [
    "Disp.C07_no_nan",
    "Disp.C07_zero_inf"
   ],
   "note": "ideal arithmetic"
  },
  {
   "property": "C08",
   "status": "proved",
   "theorems": [
    "Disp.C08_order",
    "Disp.C08_sorted"
   ],
   "note": "ideal arithmetic"
  },
  {
   "property": "C09",
   "status": "proved",
   "theorems": [
    "Disp.C09_reference_fixed",
    "Disp.C09_no_drift",
    "Disp.C09_in_place",
    "Disp.C09_failure_unchanged",
    "Disp.C09_failure_frame"
   ],
   "note": "every arithmetic, every history of conversions"
  },
  {
   "property": "C10",
   "status": "partial",
   "theorems": [
    "Disp.C10_contains_partial",
    "Disp.C10_cm_key_error",
    "Disp.C10_sound",
    "Disp.C10_refuted"
   ],
   "note": "The full claim is false (refuted): NaN is accepted, ranges in cm raise KeyError. Proved for NaN-free values otherwise, every arithmetic with IEEE comparisons."
  },
  {
   "property": "C100",
   "status": "partial",
   "theorems": [
    "Disp.C100_edited_partial",
    "Disp.C100_refuted"
   ],
   "note": "False of the code: get_material looks up the label of the row but uses it as a position, so after sorting in the grid an alias loads another row's file (C100_refuted). True for editing without sorting or filtering (C100_edited_partial) and after saving and opening again (C97_reopened)."
  },
  {
   "property": "C101",
   "status": "partial",
   "theorems": [
    "Disp.C101_lost",
    "Disp.C101_before_partial",
    "Disp.C101_refuted"
   ],
   "note": "False of the code: save_interactive restores the table as it was when the grid was opened (C101_lost)."
  },
  {
   "property": "C102",
   "status": "proved",
   "theorems": [
    "Disp.C102_use"
   ],
   "note": "Exact arithmetic; with the laws assumed of pandas' csv. Data files are what Reader.read_file returns."
  },
  {
   "property": "C103",
   "status": "proved",
   "theorems": [
    "Disp.C103_used",
    "Disp.C103_scalar",
    "Disp.C103_list"
   ],
   "note": "C103_used for every arithmetic; the comparison of units for exact arithmetic."
  },
  {
   "property": "C104",
   "status": "proved",
   "theorems": [
    "Disp.C104_formula",
    "Disp.C104_evaluate",
    "Disp.C104_beyond",
    "Disp.C104_limit"
   ],
   "note": "Exact arithmetic."
  },
  {
   "property": "C105",
   "status": "proved",
   "theorems": [
    "Disp.C105_absorption",
    "Disp.C105_dispersion",
    "Disp.C105_evaluate"
   ],
   "note": "Exact arithmetic."
  },
  {
   "property": "C106",
   "status": "proved",
   "theorems": [
    "Disp.C106_permittivity",
    "Disp.C106_index"
   ],
   "note": "Binary64 with correctly rounded sqrt and hypot; the complex root is numpy's for finite arguments without its rescaling of huge and tiny ones, hence the range of sizes."
  },
  {
   "property": "C107",
   "status": "proved",
   "theorems": [
    "Disp.C107_polynomial",
    "Disp.C107_upper",
    "Disp.C107_lower",
    "Disp.C107_upper_units",
    "Disp.C107_lower_units"
   ],
   "note": "Exact arithmetic; of FITPACK only SplineLaws is assumed (a first-order spline is the broken line with its end pieces prolonged, and splines of order k reproduce polynomials of degree at most k)."
  },
  {
   "property": "C108",
   "status": "proved",
   "theorems": [
    "Disp.C108_file",
    "Disp.C108_unit"
   ],
   "note": "Exact arithmetic. The YAML text is any text that the loader turns into the mapping; Spec.Published is written from the formulas published by refractiveindex.info (formula 8 is excluded: the code evaluates another expression, C18). The bounds are on the grid of 1e-9 micrometres. Spec.Published.unique shows that number, coefficients and wavelength determine the value."
  },
  {
   "property": "C109",
   "status": "proved",
   "theorems": [
    "Disp.C109_at",
    "Disp.C109_published",
    "Disp.C109_evaluate"
   ],
   "note": "Arithmetic of doubles with correct rounding of the basic operations, powers and roots (np.power is trusted to round correctly). The exact value is shown to be the published one. A conversion of the wavelength to micrometres before the formula adds the errors of C83 and C85."
  },
  {
   "property": "C11",
   "status": "partial",
   "theorems": [
    "Disp.C11_scalar_partial",
    "Disp.C11_array_partial",
    "Disp.C11_wavenumber_never",
    "Disp.C11_refuted",
    "Disp.C11_energy_refuted"
   ],
   "note": "The full claim is false (refuted) for wavenumbers and for values with more decimals than conversions keep. Exact arithmetic; in double precision C83 and C85."
  },
  {
   "property": "C110",
   "status": "proved",
   "theorems": [
    "Disp.C110_passive",
    "Disp.C110_transparent",
    "Disp.C110_bounds"
   ],
   "note": "Exact arithmetic. Spec.Mixed states the three mixing rules for positive permittivities as they stand in textbooks; the two bounds are derived from it."
  },
  {
   "property": "C111",
   "status": "proved",
   "theorems": [
    "Disp.C111_history",
    "Disp.C111_complex",
    "Disp.C111_part"
   ],
   "note": "Any arithmetic with IEEE comparisons and an integer truncation that is monotone and idempotent; no assumption on SciPy. Ranges given in decreasing order are excluded because extrapolation shrinks them (C13, C21)."
  },
  {
   "property": "C112",
   "status": "proved",
   "theorems": [
    "Disp.C112_data",
    "Disp.C112_material",
    "Disp.C112_units",
    "Disp.C112_answered"
   ],
   "note": "Arithmetic of doubles with correct rounding. Tables over wavenumbers are excluded because conversions to wavenumbers have the wrong factor (C03). Lists of values that are inverted must not lie within NumPy's tolerance of zero (C06)."
  },
  {
   "property": "C113",
   "status": "partial",
   "theorems": [
    "Disp.C113_refuted",
    "Disp.C113_name_partial"
   ],
   "note": "False of the code: the table of names has keys such as 'Model:Sellmeier', but the name that is looked up is 'model Sellmeier', so a file for refractiveindex.info contains the line 'type: model Sellmeier', which that database does not know. C113_name_partial states what is written for every model."
  },
  {
   "property": "C114",
   "status": "proved",
   "theorems": [
    "Disp.C114_data",
    "Disp.C114_answered",
    "Disp.C114_material",
    "Disp.C114_published"
   ],
   "note": "Arithmetic of doubles with correct rounding, powers and roots included. The error of the conversion is carried through the formula by Spec.Steady.moved. C114_published: the exact value is that of the formula as published by refractiveindex.info."
  },
  {
   "property": "C115",
   "status": "partial",
   "theorems": [
    "Disp.C115_refuted",
    "Disp.C115_fresh_partial"
   ],
   "note": "False of the code: save_to_file overwrites the file with the table in memory, so a session that has read the file before another one saved removes the aliases of the other. True if everyone who saves later has constructed their object after the alias was saved."
  },
  {
   "property": "C116",
   "status": "proved",
   "theorems": [
    "Disp.C116_isolated",
    "Disp.C116_last_save",
    "Disp.C116_sessions",
    "Disp.C116_turns"
   ],
   "note": "C116_isolated and C116_last_save hold for all calls, including rebuilding and the grid editor. C116_sessions and C116_turns assume the laws of CSV files (CsvLaws) and that a number is not read back as NaN, and consider registering, asking and saving."
  },
  {
   "property": "C117",
   "status": "partial",
   "theorems": [
    "Disp.C117_refuted",
    "Disp.C117_settles_partial"
   ],
   "note": "False of the code: NumPy prints a table in scientific notation with nine digits if the largest number is 1000 times the smallest or larger, and otherwise with eight decimals. A first save can change the notation of the second, so a number such as 1000.0000019 changes again (1000.00000191, then 1000.0). C117_settles_partial: from the second cycle on nothing changes any more, for all doubles. The texts of numbers are modelled concretely (Model/NumpyText)."
  },
  {
   "property": "C118",
   "status": "proved",
   "theorems": [
    "Disp.C118_index",
    "Disp.C118_index_loads",
    "Disp.C118_both",
    "Disp.C118_both_loads",
    "Disp.C118_many"
   ],
   "note": "Doubles and the concrete model of the number formats of NumPy and Python. With three columns the abscissae of both tables must be printed alike (C46 says what happens otherwise). The material must have a reference and comment that can be stored in a header (CleanTexts, C46)."
  },
  {
   "property": "C119",
   "status": "partial",
   "theorems": [
    "Disp.C119_refuted",
    "Disp.C119_criterion_partial",
    "Disp.C119_short_partial"
   ],
   "note": "False of the code: the two tables are printed separately and compared as printed. If NumPy chooses scientific notation (nine digits) for one and positional notation (eight decimals) for the other, an abscissa such as 1000.0000019 is printed as two different numbers, and the extinction coefficient is left out without an error. C119_criterion_partial is the exact condition; C119_short_partial: abscissae with at most nine digits and eight decimals are safe."
  },
  {
   "property": "C12",
   "status": "proved",
   "theorems": [
    "Disp.C12_constant",
    "Disp.C12_default_range"
   ],
   "note": "every arithmetic with x*1.0 = x; default range on the ideal arithmetic"
  },
  {
   "property": "C120",
   "status": "partial",
   "theorems": [
    "Disp.C120_refuted",
    "Disp.C120_dense_partial",
    "Disp.C118_index_loads"
   ],
   "note": "False of the code: numbers are written with eight decimals, so wavelengths in metres that differ by less than 10 nm can coincide, and the file cannot be loaded (the visible spectrum in steps of 5 nm). C120_dense_partial: at most 1e8 (hi - lo) + 4 rows between lo and hi can be loaded. C118_index_loads is a sufficient condition."
  },
  {
   "property": "C121",
   "status": "proved",
   "theorems": [
    "Disp.C121_table",
    "Disp.C121_small",
    "Disp.C121_model"
   ],
   "note": "Doubles and the concrete model of the number format of NumPy; the YAML library through its contract YamlLaws. C121_small: with a number below 0.0001 all numbers are printed in scientific notation."
  },
  {
   "property": "C122",
   "status": "partial",
   "theorems": [
    "Disp.C122_refuted",
    "Disp.C122_varied_partial",
    "Disp.C122_short_partial"
   ],
   "note": "False of the code: parameters are printed as a NumPy array, with eight decimals unless their sizes vary by more than a factor of 1000. 0.0009765625 beside 0.5 becomes 0.00097656. Kept if scientific notation is chosen (C122_varied_partial) or the parameters have at most eight decimals (C122_short_partial)."
  },
  {
   "property": "C123",
   "status": "proved",
   "theorems": [
    "Disp.C123_model",
    "Disp.C123_material",
    "Disp.C123_answers"
   ],
   "note": "Doubles; the signs of all intermediate results are followed, NaN counts as not negative. Complex division is the algorithm of Smith as in NumPy, the complex square root follows npy_csqrt. The model has a single zero. Parameters follow NumPy arithmetic, as those of an array or a file do; squaring a Python float beyond 1.34e154 from a list raises OverflowError instead."
  },
  {
   "property": "C124",
   "status": "proved",
   "theorems": [
    "Disp.C124_drude",
    "Disp.C124_lorentz",
    "Disp.C124_drude_material",
    "Disp.C124_lorentz_material"
   ],
   "note": "Doubles; a calculus of signed relative errors through Smith's complex division. The difference of the squares in the Drude-Lorentz model is treated with a perturbation bound, and is shown to be zero or not too small because rounded squares lie on a common grid. Comparing eps at the used energy with eps at the exact one is left to the reader: the energies differ by the stated bound."
  },
  {
   "property": "C125",
   "status": "partial",
   "theorems": [
    "Disp.C125_refuted",
    "Disp.C125_left_partial",
    "Disp.C125_numbers_partial",
    "Disp.C125_lost_partial"
   ],
   "note": "False of the code: files are emptied and written in place, and the end of a text table is not marked. C125_lost_partial: for every number of rows from two some interruption leaves a file that loads as a material with that many rows. What does hold: the previous file, or a table of first rows whose last number lies between zero and the true one, with the right spectrum type, unit and kind (C125_left_partial, C125_numbers_partial). YAML files are not covered: the contract on the YAML library says nothing about beginnings of documents."
  },
  {
   "property": "C126",
   "status": "proved",
   "theorems": [
    "Disp.C126_order",
    "Disp.C126_sorted",
    "Disp.C126_interval",
    "Disp.C126_interval_scalar",
    "Disp.C126_table"
   ],
   "note": "Doubles with overflow and gradual underflow; rests on the proved monotonicity of rounding to nearest. The values of the range itself need only be free of NaN."
  },
  {
   "property": "C127",
   "status": "partial",
   "theorems": [
    "Disp.C127_refuted",
    "Disp.C127_array",
    "Disp.C127_returned",
    "Disp.C127_nanometres",
    "Disp.C127_careful_partial",
    "Disp.C127_parameters",
    "Disp.C127_tables",
    "Disp.C127_parameters_concrete",
    "Disp.C127_tables_concrete"
   ],
   "note": "False of the code: a Spectrum keeps the array that it is given and hands out its own for wavelengths in metres; a model keeps its parameters (array or list) and the array of its range; a material of tabulated_n saves the caller's array. C127_careful_partial (refinement by simulation): a program that writes only to arrays it has not given away sees the same as if everything were copied, which also justifies treating numbers as values in the rest of the model. C127_parameters: a model always answers with the parameters that the caller's object holds at that moment. C127_tables: answers of tables are fixed. Views of arrays are not modelled."
  },
  {
   "property": "C128",
   "status": "partial",
   "theorems": [
    "Disp.C128_refuted",
    "Disp.C128_reopened_partial",
    "Disp.C128_wide_partial",
    "Disp.C128_sessions_partial",
    "Disp.C128_short",
    "Disp.C128_short_always"
   ],
   "note": "False of the code: read_csv is called with the default number parser, which divides the digits of 0.123 by ten and by a hundred and gets another double. C128_reopened_partial: numbers between 1e-14 and 1e31 change by at most 11/2^53 of their size (C128_wide_partial: 41/2^53 between 1e-250 and 1e250); C128_sessions_partial: over n sessions by at most (10n+1)/2^53, n up to 100000. C128_short: nothing ever changes if all numbers are integers or have at most fifteen digits and 1, 2, 4, 8 or 16 decimals. Doubles, repr by its defining property (fewest digits that read back, then closest), the reader as in pandas 0.22 (the version of requirements.txt). Missing: numbers beyond 1e250, the largest of which are written but read as an error by this parser (seen by calculation, not proved)."
  },
  {
   "property": "C129",
   "status": "partial",
   "theorems": [
    "Disp.C129_refuted",
    "Disp.C129_table_partial",
    "Disp.C129_model_partial"
   ],
   "note": "False of the code: the indices 1000+2^-19 and 1+2^-28 are written as 1000.00000191 and 1.0 by the first save and as 1000.0 and 1.0 by the second, because rounding changed the notation that NumPy chooses. C129_table_partial and C129_model_partial (doubles): the material can be saved and loaded any number of times, every number stays within 13e-9 (1+|x|) of the original however often, and from the second save on nothing changes any more (printing an array three times is the same as printing it twice). Missing: tables with an extinction coefficient, numbers other than zero below 1e-290, tables whose abscissae are closer than that."
  },
  {
   "property": "C13",
   "status": "partial",
   "theorems": [
    "Disp.C13_range_partial",
    "Disp.C13_refuted"
   ],
   "note": "The full claim is false (refuted): extrapolating an object whose range was given in decreasing order. Proved for all other objects, by induction over the nesting, every arithmetic with IEEE comparisons."
  },
  {
   "property": "C130",
   "status": "proved",
   "theorems": [
    "Disp.C130_tables",
    "Disp.C130_constants"
   ],
   "note": "Doubles with all special values. The sign survives every step: differences of ordered doubles, the reciprocal of the spacing, products and sums, real + 1j*imag, the square and the complex square root. Interpolation of order 1, which is the order that the tables of a material get."
  },
  {
   "property": "C131",
   "status": "partial",
   "theorems": [
    "Disp.C131_refuted",
    "Disp.C131_simple_partial",
    "Disp.C131_bruggeman_partial",
    "Disp.C131_lossless_partial"
   ],
   "note": "False of the code: inclusions of permittivity 3 filling the whole of a host of permittivity 12+7j give the Maxwell-Garnett medium an imaginary part of -1.5e-16, since the complex division cancels with rounding errors. True for the linear mixture (C131_simple_partial), for the Bruggeman medium of whatever constituents (C131_bruggeman_partial) and for the Maxwell-Garnett medium of lossless constituents (C131_lossless_partial)."
  },
  {
   "property": "C132",
   "status": "partial",
   "theorems": [
    "Disp.C132_refuted",
    "Disp.C132_left_partial",
    "Disp.C132_aliases_partial",
    "Disp.C132_broken_partial",
    "Disp.C132_rows_lost_partial",
    "Disp.C132_emptied_partial",
    "Disp.C132_path_partial"
   ],
   "note": "False of the code: the file is emptied and rewritten in place, and a last row that is cut inside of its path opens with a wrong path and no module (C132_path_partial: possible for every row). C132_left_partial: for every moment, a file that opens has the first rows unchanged and at most the last of them cut, behind its lower bound; aliases keep their rows (C132_aliases_partial). C132_broken_partial: cut anywhere between the first comma of a row and the end of its lower bound the file does not open at all. Not covered: files that end inside of the header line (pandas then has other columns), characters written in part."
  },
  {
   "property": "C133",
   "status": "proved",
   "theorems": [
    "Disp.C133_linear"
   ],
   "note": "Doubles with correct rounding. e1 and e2 are what the constituents report at the spectrum; the mean and its error are stated with real numbers. The wavelengths in metres must be distinct and between 1e-60 and 1e60."
  },
  {
   "property": "C134",
   "status": "partial",
   "theorems": [
    "Disp.C134_refuted",
    "Disp.C134_transparent_partial",
    "Disp.C134_conditioned_partial",
    "Disp.C134_lossy_partial"
   ],
   "note": "False of the code: for equal parts of permittivities 4503599627370497 and -22517998136852484 the denominator is 1/2, but zero in double precision, and the constructor raises ValueError. C134_conditioned_partial: for any complex permittivities with moduli from 1e-20 to 1e20 and denominators that cancel by at most a factor K up to 2^40, the medium is built and its error is at most (36 + 8 K)/2^53 of the size of the terms of the formula. C134_lossy_partial: for dielectrics with loss at most 72/2^53 of the modulus. C134_transparent_partial: without loss the real part is that of the formula up to 21/2^53 and no loss is reported. Missing: cancellation by more than a factor 2^40."
  },
  {
   "property": "C135",
   "status": "partial",
   "theorems": [
    "Disp.C135_refuted",
    "Disp.C135_transparent_partial",
    "Disp.C142_conditioned_partial"
   ],
   "note": "False of the code: with filling fraction 0 of a material of permittivity 2^60 in a host of permittivity 3 the medium reports 0, since -p/2 + sqrt(p^2/4 - q) cancels. C135_transparent_partial: for all transparent constituents and filling fractions the medium is built, has no loss, and its real part is within 31/2^53 of the larger permittivity from the solution, which lies between the permittivities; so the relative error is at most 31/2^53 times the contrast. Constituents with loss: C142."
  },
  {
   "property": "C136",
   "status": "partial",
   "theorems": [
    "Disp.C136_refuted",
    "Disp.C136_plain_partial",
    "Disp.C136_nul_partial",
    "Disp.C136_only_partial",
    "Disp.C136_absolute",
    "Disp.C136_config_partial",
    "Disp.validFileName_sys",
    "Disp.validate_sys"
   ],
   "note": "False of the code: the name is joined with the path of a temporary directory, so an absolute name (or one with ..) is opened for writing where it says and an empty file stays there (C136_absolute). C136_plain_partial: for names without slash the disk is as before, and the answer is yes exactly for names of at most 255 bytes other than the empty one, . and ..; a NUL character raises ValueError (C136_nul_partial). C136_only_partial: whatever the name, at most an empty file appears at the place it names, and a readable file there is not touched. C136_config_partial: the same for validate_config. validFileName_sys and validate_sys: this model of the disk refines the one of Model/Config. No symbolic links, no limits on the length of paths."
  },
  {
   "property": "C137",
   "status": "proved",
   "theorems": [
    "Disp.C137_only"
   ],
   "note": "An invariant of all steps of the script, by rules for its sequential composition and loops. Assumed: mkdtemp gives a new directory in which everything is allowed; git changes nothing outside of the directory it clones into and nothing that was there. Files are replaced as a whole (interruptions in the middle of a file: C125, C132)."
  },
  {
   "property": "C138",
   "status": "proved",
   "theorems": [
    "Disp.C138_config",
    "Disp.C138_catalogue",
    "Disp.C138_overwritten"
   ],
   "note": "C138_overwritten: the restriction is needed. With the default root directory, the name config.yaml for the catalogue is accepted, and the run replaces the configuration it has just written by the catalogue. Assumptions as for C137."
  },
  {
   "property": "C139",
   "status": "proved",
   "theorems": [
    "Disp.C139_run",
    "Disp.C139_built",
    "Disp.C139_again",
    "Disp.C139_again_built",
    "Disp.C139_download"
   ],
   "note": "The final disk is described place by place. C139_again_built assumes that what is built does not depend on the catalogue file, which is not read with rebuild='All'. C139_download assumes that git refuses to clone into a directory that is not empty."
  },
  {
   "property": "C14",
   "status": "proved",
   "theorems": [
    "Disp.C14_interpolation",
    "Disp.C14_knots",
    "Disp.C14_bounds",
    "Disp.C14_total"
   ],
   "note": "ideal arithmetic, interp1d as piecewise linear interpolation"
  },
  {
   "property": "C140",
   "status": "proved",
   "theorems": [
    "Disp.C140_values",
    "Disp.fano_at"
   ],
   "note": "In exact arithmetic, at the energies that the spectrum converts to. Written after a changed normalisation (lit 2 / norm) had survived all theorems."
  },
  {
   "property": "C141",
   "status": "proved",
   "theorems": [
    "Disp.C141_values",
    "Disp.C141_at"
   ],
   "note": "Doubles with correct rounding, squares included. The energies are the ones that the spectrum converts to (their error: C83-C86)."
  },
  {
   "property": "C142",
   "status": "partial",
   "theorems": [
    "Disp.C142_refuted",
    "Disp.C142_absorbing_partial",
    "Disp.C142_conditioned_partial"
   ],
   "note": "False of the code: a host of permittivity 2 without any inclusions of permittivity -5.15 + 0.25j has the solution 2, but both computed solutions have a negative imaginary part and the medium reports 0. C142_absorbing_partial: the claim holds, without a condition on the solutions, if both constituents have a loss of at least 2^-21 of the larger modulus. C142_conditioned_partial: for any complex permittivities, if the imaginary parts of the two solutions have different signs and are at least 160/2^53 M^2/d (M the larger modulus of the constituents, d the distance of the solutions), the medium is built and reports the solution without gain up to this bound. Missing: solutions that are real or whose imaginary part is lost in rounding errors."
  },
  {
   "property": "C143",
   "status": "proved",
   "theorems": [
    "Disp.C143_absorbs",
    "Disp.bruggeman_loss",
    "Disp.bruggeman_unique",
    "Disp.garnett_loss"
   ],
   "note": "In exact arithmetic, by the balance of energy. What rounding does to it: C142_absorbing_partial for Bruggeman, C134_conditioned for Maxwell Garnett."
  },
  {
   "property": "C144",
   "status": "proved",
   "theorems": [
    "Disp.C144_at",
    "Disp.C144_material",
    "Disp.glassy_case"
   ],
   "note": "Doubles, with the real part left open (it may even be NaN). C144_at: one energy. C144_material: what get_permittivity reports for a request in any type and unit between 1e-6 and 1e9 eV. glassy_case: a concrete semiconductor asked for 620 nm."
  },
  {
   "property": "C145",
   "status": "proved",
   "theorems": [
    "Disp.C145_same_wavelengths",
    "Disp.C145_absorbs",
    "Disp.C145_transparent",
    "Disp.C145_doubles"
   ],
   "note": "By induction on the hierarchy; every medium is made with the Spectrum object that the previous constructor left. C145_absorbs and C145_transparent: exact arithmetic. C145_doubles: doubles; Maxwell Garnett media are excluded, as they can report gain (C134)."
  },
  {
   "property": "C146",
   "status": "proved",
   "theorems": [
    "Disp.C146_linear"
   ],
   "note": "Doubles. The parts of all materials at one wavelength have to be zero, or positive and between 1e-10 and 1e10: with parts of different signs a mean can cancel."
  },
  {
   "property": "C147",
   "status": "proved",
   "theorems": [
    "Disp.C147_table",
    "Disp.C147_columns",
    "Disp.C147_one_row"
   ],
   "note": "The reading of a number from its text is a parameter (NumText); in doubles it is correct rounding."
  },
  {
   "property": "C148",
   "status": "proved",
   "theorems": [
    "Disp.C148_edited",
    "Disp.C148_empty",
    "Disp.C148_quote",
    "Disp.C148_errors"
   ],
   "note": "The first line of data must not have more fields than the header (pandas takes the first column for labels then, which is outside of the model). C148_errors assumes that converting a text to a number raises nothing but ValueError, as the model of pandas with doubles does."
  },
  {
   "property": "C149",
   "status": "proved",
   "theorems": [
    "Disp.C149_problem",
    "Disp.C149_disabled",
    "Disp.C149_file",
    "Disp.C149_page"
   ],
   "note": "For a broken file it is proved that some exception is raised, not which one: an earlier file may be broken in another way."
  },
  {
   "property": "C15",
   "status": "proved",
   "theorems": [
    "Disp.C15_permutation"
   ],
   "note": "every arithmetic with IEEE comparisons, NaN-free abscissae"
  },
  {
   "property": "C150",
   "status": "proved",
   "theorems": [
    "Disp.C150_model",
    "Disp.C150_table"
   ],
   "note": "One dataset; the names kind, coefficients and data have to be spelled exactly, as in the code, and no two entries may be spellings of the same field. The reading of a number from its text and PyYAML are parameters."
  },
  {
   "property": "C151",
   "status": "partial",
   "theorems": [
    "Disp.C151_ignored",
    "Disp.C151_required_partial",
    "Disp.C151_range",
    "Disp.C151_refuted"
   ],
   "note": "Refuted: unknown names are passed over in silence (C151_ignored), since the code makes the exception and does not raise it; a table with `Units: um` instead of `Unit: um` is read in the unit of the call (C151_refuted). What holds: missing or misspelt kinds and numbers raise KeyError (C151_required_partial, for the first dataset); a missing or misspelt range of a model raises UnboundLocalError (C151_range)."
  },
  {
   "property": "C152",
   "status": "partial",
   "theorems": [
    "Disp.C152_index_partial",
    "Disp.C152_permittivity_partial",
    "Disp.C152_wavelengths",
    "Disp.C152_tauc",
    "Disp.C152_refuted"
   ],
   "note": "Refuted: a Tauc-Lorentz model answers no single number, since it loops over the values; TypeError is raised where the list of one is answered (C152_tauc, C152_refuted, in doubles). What holds: all other materials answer alike, provided that no value on the way from one spectrum type to another is so small that it counts as zero in lists (C06); for data over wavelengths asked for wavelengths this proviso is empty (C152_wavelengths)."
  },
  {
   "property": "C153",
   "status": "partial",
   "theorems": [
    "Disp.C153_looked",
    "Disp.C153_older_partial",
    "Disp.C153_newer",
    "Disp.C153_data",
    "Disp.C153_refuted"
   ],
   "note": "Refuted: the script looks for database/library.yml only (C153_looked), the catalogue reads database/catalog-nk.yml first. A database of the newer layout is switched off although it can be read (C153_newer, C153_refuted); a library without its data folder is switched on and the building of the catalogue raises ValueError (C153_data). What holds: without catalog-nk.yml both look for the same file (C153_older_partial). The content of a library file is a parameter."
  },
  {
   "property": "C154",
   "status": "partial",
   "theorems": [
    "Disp.C154_first",
    "Disp.C154_words",
    "Disp.C154_formula",
    "Disp.C154_anywhere",
    "Disp.C154_dropped",
    "Disp.C154_dropped_plain",
    "Disp.C154_refuted"
   ],
   "note": "Refuted: a table whose kind is none of n, k, nk, n_alpha, eps, for example `tabulated K`, is dropped in silence, so that a material with absorption becomes transparent (C154_dropped for the last dataset of a file; C154_dropped_plain for a dataset at any place that states no spectrum type and no unit; C154_refuted). What holds, wherever the dataset stands in the file, is an exception (C154_anywhere) for a kind that begins with none of formula, model, tabulated, for a kind that is not two words or whose first word is longer, for a formula whose number is not one of 1 to 9 or has a letter, and for a model of another name than the thirteen of the library. The exception is KeyError for the first of these at the beginning of the file (C154_first), ValueError for the second in a file of one dataset (C154_words), KeyError for the third (C154_formula)."
  },
  {
   "property": "C155",
   "status": "partial",
   "theorems": [
    "Disp.C155_made",
    "Disp.C155_few",
    "Disp.C155_further",
    "Disp.C155_refuted"
   ],
   "note": "Refuted: the models of a fixed number of parameters pass over further ones, so that a Drude metal with a third parameter, or a Drude-Lorentz model with a second resonance, answers as if they were not there (C155_further, every arithmetic; C155_refuted in doubles). The number is not looked at when the material is made (C155_made). What holds: with too few parameters or an incomplete pair every question raises an exception (C155_few, every arithmetic)."
  },
  {
   "property": "C156",
   "status": "partial",
   "theorems": [
    "Disp.C156_iff_partial",
    "Disp.C156_file",
    "Disp.C156_page",
    "Disp.C156_tauc",
    "Disp.C156_few",
    "Disp.C156_refuted"
   ],
   "note": "Refuted: at the reference point only ValueErrors are caught. A file whose material raises anything else there stops the building (C156_file, C156_page): that of a Tauc-Lorentz model, which raises TypeError for every single number in its range (C156_tauc, case glassy_stops), and that of a formula with too few parameters or an incomplete pair (C156_few; C156_refuted in doubles). What holds: the catalogue of a folder of files is built exactly if the folder can be listed and every data file is loaded as a material that has a range with two ends and, at the reference point, an index or a ValueError (C156_iff_partial)."
  },
  {
   "property": "C157",
   "status": "partial",
   "theorems": [
    "Disp.C157_few",
    "Disp.C157_ragged",
    "Disp.C157_further",
    "Disp.C157_refuted"
   ],
   "note": "Refuted: a table with further columns is loaded as if they were not there, so that an index table `tabulated n` with a third column of extinction coefficients gives a material without absorption (C157_further, for every kind and every place in the file; C157_refuted). What holds: too few columns (C157_few) and rows of different lengths (C157_ragged, with NumPy 1.24 or later) raise an exception wherever the table stands. The equality in C157_further is about the answers: the real object keeps the further columns and writes them again when it is saved, which the model of interpolations leaves out."
  },
  {
   "property": "C158",
   "status": "partial",
   "theorems": [
    "Disp.C158_harmless_partial",
    "Disp.C158_taken",
    "Disp.C158_unknown_unit",
    "Disp.C158_refuted"
   ],
   "note": "Refuted: a line counts if what is in front of its colon begins with the name of a field, so the remark `Unit cell: cubic` is taken for the unit and a file in micrometres is no longer loaded (C158_refuted, for double precision). What holds: a line that does not begin so for the kind of data, the spectrum type or the unit makes no difference to the answers, wherever it stands (C158_harmless_partial); lines that fill one of these fields with the same value are interchangeable whatever follows the name (C158_taken); an unknown unit given in any such line stops the loading, for every kind of table (C158_unknown_unit)."
  },
  {
   "property": "C16",
   "status": "partial",
   "theorems": [
    "Disp.C16_pointwise_partial",
    "Disp.C16_complex",
    "Disp.C16_extrapolation",
    "Disp.C16_refuted",
    "Disp.C16_bend_refuted"
   ],
   "note": "The full claim is false (refuted) for extrapolated data; C16_bend_refuted: for every spline library with SciPyLaws and SplineLaws. Proved for all other data objects, every arithmetic."
  },
  {
   "property": "C17",
   "status": "proved",
   "theorems": [
    "Disp.C17_sellmeier",
    "Disp.C17_sellmeier2",
    "Disp.C17_polynomial",
    "Disp.C17_cauchy",
    "Disp.C17_gases",
    "Disp.C17_herzberger",
    "Disp.C17_exotic",
    "Disp.C17_refractiveIndexInfo",
    "Disp.C17_refractiveIndexInfo_short",
    "Disp.C17_dangling",
    "Disp.C17_refractiveIndexInfo_dangling",
    "Disp.C17_too_short",
    "Disp.C17_evaluate"
   ],
   "note": "closed forms on the ideal arithmetic for any number of terms; dangling coefficients for every arithmetic"
  },
  {
   "property": "C18",
   "status": "partial",
   "theorems": [
    "Disp.C18_refuted",
    "Disp.C18_retro_partial"
   ],
   "note": "The full claim is false (refuted). Proved: the equation that is solved instead."
  },
  {
   "property": "C19",
   "status": "partial",
   "theorems": [
    "Disp.C19_index_models",
    "Disp.C19_permittivity_models",
    "Disp.C19_fano_refuted"
   ],
   "note": "Proved for all models but Fano, for which it is false (refuted)."
  },
  {
   "property": "C20",
   "status": "proved",
   "theorems": [
    "Disp.C20_drude",
    "Disp.C20_drudeLorentz",
    "Disp.C20_taucLorentz",
    "Disp.C20_passive",
    "Disp.C20_drude_is_drudeLorentz",
    "Disp.C20_drudeLorentz_pole"
   ],
   "note": "ideal arithmetic, all real parameters; at an undamped resonance of positive strength the real part is infinite and the imaginary part NaN, as NumPy divides by 0+0j; the Drude model is the Drude-Lorentz model at resonance 0 for every energy but 0"
  },
  {
   "property": "C21",
   "status": "partial",
   "theorems": [
    "Disp.C21_in_range",
    "Disp.C21_range_partial",
    "Disp.C21_rejects_inside",
    "Disp.C21_integer_partial",
    "Disp.C21_refuted"
   ],
   "note": "The range claim is false for ranges given in decreasing order (refuted) and for integer ranges. Proved for increasing float ranges, every arithmetic, every spline library."
  },
  {
   "property": "C22",
   "status": "partial",
   "theorems": [
    "Disp.C22_only_real_partial",
    "Disp.C22_partial",
    "Disp.C22_refuted"
   ],
   "note": "The full claim is false (refuted): if only the imaginary part cannot be extrapolated, the real part is already replaced. Nothing else changes (proved), and nothing at all if one part is constant."
  },
  {
   "property": "C23",
   "status": "proved",
   "theorems": [
    "Disp.C23_exactly_one"
   ],
   "note": "every arithmetic, all keyword lists"
  },
  {
   "property": "C24",
   "status": "partial",
   "theorems": [
    "Disp.C24_type_partial",
    "Disp.C24_shape_partial",
    "Disp.C24_n_alpha_never",
    "Disp.C24_fixed_partial",
    "Disp.C24_table_partial",
    "Disp.C24_model_partial",
    "Disp.C24_refuted"
   ],
   "note": "The full claim is false (refuted): tabulated_n_alpha never constructs a material. Proved for the other arguments."
  },
  {
   "property": "C25",
   "status": "partial",
   "theorems": [
    "Disp.C25_ignored",
    "Disp.C25_order_one_partial",
    "Disp.C25_refuted"
   ],
   "note": "The full claim is false (refuted): interp_order is ignored (proved for every input). Order one is right."
  },
  {
   "property": "C26",
   "status": "partial",
   "theorems": [
    "Disp.C26_parts",
    "Disp.C26_quantity_partial",
    "Disp.C26_refuted"
   ],
   "note": "Both parts exist for every source. The quantity is determined for every argument but a file, for which it is false (refuted)."
  },
  {
   "property": "C27",
   "status": "partial",
   "theorems": [
    "Disp.C27_fail_partial",
    "Disp.C27_index_partial",
    "Disp.C27_square_partial",
    "Disp.C27_refuted"
   ],
   "note": "Proved for every material and every spectrum as constructed. False (refuted) for spectra converted in place, because get_nk_data rebuilds the spectrum from rounded values."
  },
  {
   "property": "C28",
   "status": "proved",
   "theorems": [
    "Disp.C28_branch",
    "Disp.C28_passive"
   ],
   "note": "ideal arithmetic, which has no signed zeros"
  },
  {
   "property": "C29",
   "status": "proved",
   "theorems": [
    "Disp.C29_fixed"
   ],
   "note": "ideal arithmetic, finite constants"
  },
  {
   "property": "C30",
   "status": "partial",
   "theorems": [
    "Disp.C30_idempotent",
    "Disp.C30_real_part_partial",
    "Disp.C30_refuted"
   ],
   "note": "Proved for spectra of non-negative values. False (refuted) for negative wavelengths, which a table accepts and the new constant does not."
  },
  {
   "property": "C31",
   "status": "partial",
   "theorems": [
    "Disp.C31_same_wavelengths_partial",
    "Disp.C31_unchanged_partial",
    "Disp.C31_refuted"
   ],
   "note": "get_nk_data never touches the spectrum; get_permittivity at most re-expresses it in place (proved for every material). That it is left as it is, is false (refuted) for extrapolated materials."
  },
  {
   "property": "C32",
   "status": "partial",
   "theorems": [
    "Disp.C32_metres_partial",
    "Disp.C32_units_partial",
    "Disp.C32_value_partial",
    "Disp.C32_refuted",
    "Disp.C33_permittivity_models"
   ],
   "note": "Proved for constants, tables and total formulas in every type and unit but wavenumber, up to the order of the two numbers: reversed for frequencies, angular frequencies and energies. False (refuted) for a constant with energies as default, which reports [inf, 0], and for every permittivity model, whose electronvolts are taken for metres."
  },
  {
   "property": "C33",
   "status": "partial",
   "theorems": [
    "Disp.C33_metres_partial",
    "Disp.C33_units_partial",
    "Disp.C33_ends_partial",
    "Disp.C33_permittivity_models",
    "Disp.C33_refuted"
   ],
   "note": "Proved for constants, tables and total formulas in every type and unit but wavenumber whose parts have a positive common range; C33_ends_partial: in every arithmetic the ends of the sample are in the range. False (refuted) for a constant with the default range in electronvolts, and for every permittivity model between 2 meV and 100 eV: evaluation at the sample spectrum raises ValueError."
  },
  {
   "property": "C34",
   "status": "partial",
   "theorems": [
    "Disp.C34_equivalence_partial",
    "Disp.C34_compare",
    "Disp.C34_arguments",
    "Disp.C34_refuted"
   ],
   "note": "Proved among materials built from arguments and among materials read from files. False (refuted) across the two sorts: KeyError, since files carry no Alias."
  },
  {
   "property": "C35",
   "status": "partial",
   "theorems": [
    "Disp.C35_rounded_partial",
    "Disp.C35_error",
    "Disp.C35_refuted"
   ],
   "note": "Proved with the wavelength rounded to five decimals of a centimetre, and the resulting error bound. The exact formula is false (refuted)."
  },
  {
   "property": "C36",
   "status": "partial",
   "theorems": [
    "Disp.C36_combine_partial",
    "Disp.C36_rejects_partial",
    "Disp.C36_number_partial",
    "Disp.C36_ignored",
    "Disp.C36_refuted",
    "Disp.C36_order_refuted"
   ],
   "note": "The full claim is false (refuted): tables of an unknown quantity are skipped, and a table without its own unit is read in the unit of the dataset before it. Proved for one index and one extinction dataset that name their units; every dataset that is neither a table nor a known formula or model makes the file fail; a readable formula dataset with a number outside 1 to 9 raises KeyError."
  },
  {
   "property": "C37",
   "status": "proved",
   "theorems": [
    "Disp.C37_rejects",
    "Disp.C37_mixture",
    "Disp.C37_exchange"
   ],
   "note": "Rejection of fractions outside [0,1] in every arithmetic (a NaN fraction is neither below 0 nor above 1 and is not rejected). Linear mixture, limits and bounds on the ideal arithmetic for constituents with finite permittivities at the distinct points of the spectrum, for requests in every type, unit and order. Exchange symmetry for all materials and spectra."
  },
  {
   "property": "C38",
   "status": "partial",
   "theorems": [
    "Disp.C38_relation_partial",
    "Disp.C38_all_singular_partial",
    "Disp.C38_refuted",
    "Disp.mgMix_singular"
   ],
   "note": "False as stated: np.any(...) < 1e-6 compares a truth value, so the guard only refuses mixtures whose denominator is exactly zero at every point (C38_refuted: denominator 1e-9 accepted). Proved: limits and mixing relation (which determines the value) wherever no denominator vanishes; refusal when all vanish; where the denominator vanishes neither part of the value is finite (mgMix_singular)."
  },
  {
   "property": "C39",
   "status": "partial",
   "theorems": [
    "Disp.C39_physical_partial",
    "Disp.C39_scalar_partial",
    "Disp.C39_refuted",
    "Disp.brugMix_spec"
   ],
   "note": "False as stated in the limits: for f=0 a host -10+i with lossless inclusions 2 is reported as -1, and scalar spectra raise. Proved for every pair of passive permittivities and every fraction in [0,1]: a solution with non-negative imaginary part exists among the two and is returned; limits under an explicit condition."
  },
  {
   "property": "C40",
   "status": "proved",
   "theorems": [
    "Disp.C40_medium",
    "Disp.medium_outcome",
    "Disp.table_part"
   ],
   "note": "Ideal arithmetic, every kind of medium, every spectrum of distinct finite points, finite mixed permittivities. medium_outcome holds in every arithmetic."
  },
  {
   "property": "C41",
   "status": "proved",
   "theorems": [
    "Disp.C41_repair",
    "Disp.C41_exact",
    "Disp.C41_valid_unchanged",
    "Disp.C41_idempotent"
   ],
   "note": "C41_repair covers first columns with NaN as well; C41_exact identifies the result with the list of records when no abscissa is NaN."
  },
  {
   "property": "C42",
   "status": "partial",
   "theorems": [
    "Disp.C42_refuted",
    "Disp.C42_unchanged_partial",
    "Disp.C42_text_partial",
    "Disp.C42_increasing_partial"
   ],
   "note": "The full statement C42_statement is false: validate_table returns a NumPy bool which is never the object False, so fix_table is not called. The partial theorems say what is returned instead: the table as it stands in the file."
  },
  {
   "property": "C43",
   "status": "partial",
   "theorems": [
    "Disp.C43_parse",
    "Disp.C43_ragged",
    "Disp.C43_malformed",
    "Disp.C43_round_trip_partial",
    "Disp.C43_abbreviated",
    "Disp.C43_refuted"
   ],
   "note": "Parsing is proved for every layout, number of rows and columns. The round trip through printing (C43_statement) is false for tables with more than 1000 entries, which NumPy abbreviates with dots (C43_abbreviated: reading them back raises ValueError); it is proved for up to 1000 entries and three columns."
  },
  {
   "property": "C44",
   "status": "proved",
   "theorems": [
    "Disp.C44_line",
    "Disp.C44_file_field",
    "Disp.C44_dataset_field",
    "Disp.C44_unique",
    "Disp.C44_text",
    "Disp.C44_yaml_field",
    "Disp.C44_yaml",
    "Disp.C44_read"
   ],
   "note": "For every pair of orders of the two key sets, every file content and every state of the reader."
  },
  {
   "property": "C45",
   "status": "proved",
   "theorems": [
    "Disp.C45_metadata"
   ],
   "note": "For every material, every order of the key sets, .txt and .csv, for every arithmetic and number format that meets PrintingLaws."
  },
  {
   "property": "C46",
   "status": "partial",
   "theorems": [
    "Disp.C46_index_partial",
    "Disp.C46_index_extinction_partial",
    "Disp.C46_extinction_dropped",
    "Disp.C46_long",
    "Disp.C46_material_partial",
    "Disp.C46_shown_partial",
    "Disp.C46_reload_partial",
    "Disp.C46_refuted"
   ],
   "note": "The claim is false of the code: C46_refuted gives a material with a table of 501 rows which the text writer refuses with ValueError (numpy abbreviates arrays of more than 1000 entries when they are printed). Proved: tables up to that length come back with the same rows, each number first shown as numpy shows it in the array and then rounded to 8 decimals (C46_index_partial, C46_index_extinction_partial, C46_material_partial, C46_shown_partial), and the file can be loaded as a material with that table, type and unit (C46_reload_partial); C46_extinction_dropped: the k column is silently left out when the two tables do not share their printed abscissae. Missing: the claim itself for longer tables and for numbers numpy shows with fewer digits."
  },
  {
   "property": "C47",
   "status": "partial",
   "theorems": [
    "Disp.C47_text",
    "Disp.C47_yaml_partial",
    "Disp.C47_refuted"
   ],
   "note": "False of the code: an empty comment becomes a line with a blank (C47_refuted), through YAML files every nonempty comment loses at least its last character (C47_yaml_partial). C47_text gives, for every number of cycles through text files, exactly what becomes of the comment. Missing: the claim itself."
  },
  {
   "property": "C48",
   "status": "partial",
   "theorems": [
    "Disp.C48_prepended_partial",
    "Disp.C48_carriage_return",
    "Disp.C48_interrupted",
    "Disp.C48_lost",
    "Disp.C48_refuted"
   ],
   "note": "First half proved for files without carriage returns, and false with them (C48_carriage_return). Second half false: at every call there is a moment at which the file is empty (C48_lost); C48_interrupted gives exactly the contents an interruption can leave."
  },
  {
   "property": "C49",
   "status": "partial",
   "theorems": [
    "Disp.C49_written_partial",
    "Disp.C49_tabulated_partial",
    "Disp.C49_fixed",
    "Disp.C49_constants",
    "Disp.C49_complex",
    "Disp.C49_extrapolated",
    "Disp.C49_long",
    "Disp.C49_lengths",
    "Disp.C49_refuted"
   ],
   "note": "False of the code: a material of a constant raises IndexError with the default ignore_constant (C49_refuted, C49_fixed, C49_constants); complex models (C49_complex), extrapolated data (C49_extrapolated), tables of n or k with more than 500 rows (C49_long) and n and k tables of different lengths (C49_lengths) cannot be written. Proved for every other mix of constants, tables and models and both settings: the file is written, with exactly the non-constant parts or one table of both (C49_written_partial, C49_tabulated_partial)."
  },
  {
   "property": "C50",
   "status": "partial",
   "theorems": [
    "Disp.C50_reload_partial",
    "Disp.C50_refuted",
    "Disp.C50_permittivity",
    "Disp.C50_eps_table",
    "Disp.C50_long",
    "Disp.C50_constants_unreadable",
    "Disp.C68_yaml_table",
    "Disp.C69_yaml_model"
   ],
   "note": "False of the code: a permittivity is lost, the loaded material has no data (C50_refuted, C50_eps_table, C50_permittivity); joined tables of 334 to 500 rows make loading fail (C50_long); written constants make loading fail (C50_constants_unreadable). Proved for every mix of tables (500 rows, 333 if joined) and index models of a refractive index: data as printed, types, units and metadata (C50_reload_partial)."
  },
  {
   "property": "C51",
   "status": "partial",
   "theorems": [
    "Disp.C51_second",
    "Disp.C51_nk",
    "Disp.C51_first_partial",
    "Disp.C51_refuted"
   ],
   "note": "False of the code: every second call on one Writer raises KeyError (C51_second) and no .nk file is ever written (C51_nk). Proved: first calls for .txt and .csv for materials with a table of n up to 500 rows. Missing: the claim itself; for YAML see C49."
  },
  {
   "property": "C52",
   "status": "partial",
   "theorems": [
    "Disp.C52_documented",
    "Disp.C52_written_partial",
    "Disp.C52_refuted"
   ],
   "note": "Order and values proved for every dictionary; entries with undocumented keys are dropped (C52_refuted)."
  },
  {
   "property": "C53",
   "status": "partial",
   "theorems": [
    "Disp.C53_upper_partial",
    "Disp.C53_lower",
    "Disp.C53_refuted"
   ],
   "note": "Proved for keys in upper case; false for every other key (C53_lower): a key not present in upper case makes reading fail."
  },
  {
   "property": "C54",
   "status": "partial",
   "theorems": [
    "Disp.C54_text_partial",
    "Disp.C54_yaml_partial",
    "Disp.C54_yaml_datasets",
    "Disp.C54_refuted"
   ],
   "note": "False of the code: metadata of a file read before appear in the result of the next (C54_refuted). Proved for every history: everything that the current file states is as a fresh reader would return it, the remaining metadata are those of the files before (C54_text_partial, C54_yaml_partial); a YAML file without datasets gets those of the text file before (C54_yaml_datasets)."
  },
  {
   "property": "C55",
   "status": "partial",
   "theorems": [
    "Disp.C55_unique_partial",
    "Disp.C55_selection",
    "Disp.C55_refuted"
   ],
   "note": "False of the code: register_alias with a selection of several rows (a boolean mask, for example) gives all of them the same alias (C55_refuted). For any sequence of registrations with one row each, aliases stay unique (C55_unique_partial); C55_selection gives the exact outcome for selections."
  },
  {
   "property": "C56",
   "status": "partial",
   "theorems": [
    "Disp.C56_lookup_partial",
    "Disp.C56_number",
    "Disp.C56_added",
    "Disp.C56_negative",
    "Disp.C56_empty",
    "Disp.C56_refuted"
   ],
   "note": "False of the code: labels are used as positions, so an alias registered for row -2 loads the last row (C56_negative), one registered for a number beyond the table cannot be loaded (C56_added), tables in another order load other rows (C56_refuted), and the text '' finds the first row without alias (C56_empty). For aliases given to existing rows get_material loads that row's file (C56_lookup_partial), for numbers the row with that position (C56_number)."
  },
  {
   "property": "C57",
   "status": "partial",
   "theorems": [
    "Disp.C57_rows_partial",
    "Disp.C57_kept",
    "Disp.C57_added",
    "Disp.C57_refuted"
   ],
   "note": "False of the code: an unknown row number adds a row (C57_refuted, C57_added). Proved for every other row identifier, and that nothing but the alias column ever changes in existing rows (C57_kept)."
  },
  {
   "property": "C58",
   "status": "partial",
   "theorems": [
    "Disp.C58_rows_partial",
    "Disp.C58_succeeds",
    "Disp.C58_disabled",
    "Disp.C58_unknown",
    "Disp.C58_none",
    "Disp.C58_substring",
    "Disp.C58_no_request",
    "Disp.C58_all",
    "Disp.C58_refuted"
   ],
   "note": "False of the code: a list that names a disabled module is accepted instead of raising ValueError, and the rows of that module are dropped (C58_refuted); a text as request is searched for module names as substrings (C58_substring). Proved for lists of module names, single names, 'All' and None."
  },
  {
   "property": "C59",
   "status": "partial",
   "theorems": [
    "Disp.C59_kept_partial",
    "Disp.C59_lost",
    "Disp.C59_all",
    "Disp.C59_refuted"
   ],
   "note": "False of the code: rows of a rebuilt module get empty aliases (C59_refuted, C59_lost, C59_all). Proved for the rows of the modules that are not rebuilt (C59_kept_partial)."
  },
  {
   "property": "C60",
   "status": "partial",
   "theorems": [
    "Disp.C60_files_partial",
    "Disp.C60_pages",
    "Disp.C60_built_files_partial",
    "Disp.C60_built_pages",
    "Disp.C60_reference_partial",
    "Disp.C60_aborts",
    "Disp.C60_refuted"
   ],
   "note": "False of the code for folders: a single file that cannot be loaded prevents all rows (C60_refuted, C60_aborts). If the folder can be catalogued the rows are as claimed (C60_files_partial, in the built catalogue C60_built_files_partial), libraries as claimed (C60_pages, C60_built_pages); the reference is NaN exactly outside the range for Constants and tables in metres (C60_reference_partial). What holds without exception: C87."
  },
  {
   "property": "C61",
   "status": "partial",
   "theorems": [
    "Disp.C61_bounds_partial",
    "Disp.C61_built_partial",
    "Disp.C61_refuted"
   ],
   "note": "False of the code: the numbers are in the default unit of the material, which a file can change, while the row says nanometer or micrometer (C61_refuted). Proved for files that state no other unit, for every row of a built catalogue (C61_bounds_partial, C61_built_partial)."
  },
  {
   "property": "C62",
   "status": "partial",
   "theorems": [
    "Disp.C62_roundtrip_partial",
    "Disp.C62_exact_partial",
    "Disp.C62_added",
    "Disp.C62_cr",
    "Disp.C62_nul",
    "Disp.C62_refuted"
   ],
   "note": "False of the code: after an alias was registered for a number that no row has, the saved file cannot be loaded (C62_added); a carriage return breaks a line unless csv.writer quotes it (C62_cr); texts end at a NUL (C62_nul, C62_refuted). Proved for all other texts, including separators, quotes and line breaks; numbers come back as the number that pandas reads from the written text."
  },
  {
   "property": "C63",
   "status": "partial",
   "theorems": [
    "Disp.C63_found_partial",
    "Disp.C63_missing",
    "Disp.C63_unreadable",
    "Disp.C63_no_parent",
    "Disp.C63_refuted"
   ],
   "note": "False of the code: without any configuration file, get_config raises ValueError instead of returning the default (C63_refuted, C63_missing), and without the directory ~/.config nothing can be read at all, not even on import (C63_no_parent). The precedence is proved (C63_found_partial); an existing file that cannot be opened gives the default (C63_unreadable)."
  },
  {
   "property": "C64",
   "status": "proved",
   "theorems": [
    "Disp.C64_exactly",
    "Disp.C64_rejects",
    "Disp.C64_catalogue",
    "Disp.C64_entries"
   ],
   "note": "For every configuration and every file system. The right type of the reference value is float: an integer is rejected."
  },
  {
   "property": "C65",
   "status": "proved",
   "theorems": [
    "Disp.C65_ask",
    "Disp.C65_confirmation",
    "Disp.C65_undecided",
    "Disp.C65_confirmed",
    "Disp.C65_really",
    "Disp.C65_overwritten"
   ],
   "note": "For every list of lines typed by the user; a run that returns has read finitely many lines."
  },
  {
   "property": "C66",
   "status": "partial",
   "theorems": [
    "Disp.utf8Char_char",
    "Disp.utf8Encode_string",
    "Disp.C66_ascii_partial",
    "Disp.C66_print_partial",
    "Disp.C66_surrogate",
    "Disp.C66_refuted"
   ],
   "note": "Proved for every text without surrogates; with a surrogate, which is a code point but no character, UnicodeEncodeError is raised (C66_surrogate, C66_refuted)."
  },
  {
   "property": "C67",
   "status": "partial",
   "theorems": [
    "Disp.C67_wavelength_partial",
    "Disp.C67_nonwavelength_overflow",
    "Disp.C67_refuted",
    "Disp.C67_metre_overflow"
   ],
   "note": "The full claim is false (refuted)."
  },
  {
   "property": "C68",
   "status": "proved",
   "theorems": [
    "Disp.C68_yaml_table",
    "Disp.C50_demo"
   ],
   "note": ""
  },
  {
   "property": "C69",
   "status": "proved",
   "theorems": [
    "Disp.C69_yaml_model"
   ],
   "note": ""
  },
  {
   "property": "C70",
   "status": "proved",
   "theorems": [
    "Disp.C70_yaml_metadata"
   ],
   "note": "Under the hypotheses of C50_reload_partial, which describe what can be loaded."
  },
  {
   "property": "C71",
   "status": "proved",
   "theorems": [
    "Disp.C71_loads",
    "Disp.C71_file",
    "Disp.C71_page"
   ],
   "note": "Paths are resolved without symbolic links: reading a normalised path gives what reading the path gives."
  },
  {
   "property": "C72",
   "status": "proved",
   "theorems": [
    "Disp.C72_reload"
   ],
   "note": "For every reader of data files and every number format that meets CsvLaws."
  },
  {
   "property": "C73",
   "status": "proved",
   "theorems": [
    "Disp.C73_import"
   ],
   "note": ""
  },
  {
   "property": "C74",
   "status": "proved",
   "theorems": [
    "Disp.C74_user",
    "Disp.C74_in_use",
    "Disp.C74_nothing"
   ],
   "note": "The YAML library is assumed to read back what it wrote for configurations."
  },
  {
   "property": "C75",
   "status": "partial",
   "theorems": [
    "Disp.C75_default_partial",
    "Disp.C75_comment",
    "Disp.C75_refuted"
   ],
   "note": "False of the code for home directories with a blank before a # (C75_comment, C75_refuted), which begins a comment in YAML. Proved for all other absolute paths without the other characters that are special in YAML."
  },
  {
   "property": "C76",
   "status": "proved",
   "theorems": [
    "Disp.C76_setup",
    "Disp.C76_no_root"
   ],
   "note": "For every stream of answers and every file system in which a folder can only be made in a directory. The script does not make the root directory (C76_no_root)."
  },
  {
   "property": "C77",
   "status": "proved",
   "theorems": [
    "Disp.C77_aliases"
   ],
   "note": "What holds of C55 and C56."
  },
  {
   "property": "C78",
   "status": "proved",
   "theorems": [
    "Disp.C78_rebuild"
   ],
   "note": "What holds of C58."
  },
  {
   "property": "C79",
   "status": "partial",
   "theorems": [
    "Disp.C79_table_partial",
    "Disp.C79_refuted"
   ],
   "note": "False of the code: the names of refractiveindex.info have none for spectrum type and unit, so every table is loaded in nanometres (C79_table_partial, C79_refuted with micrometres). Holds for tables in nanometres."
  },
  {
   "property": "C80",
   "status": "proved",
   "theorems": [
    "Disp.C80_rii_table",
    "Disp.C80_rii_model",
    "Disp.C80_rii_parts"
   ],
   "note": "What holds of C79; relies on the contracts of number printing and of the YAML library. Limits of the printing as in C50: 500 rows, or 333 if both parts share a table."
  },
  {
   "property": "C81",
   "status": "proved",
   "theorems": [
    "Disp.C81_table_range",
    "Disp.C81_model_range"
   ],
   "note": "What holds of C32 for materials built by the constructor. Exact arithmetic."
  },
  {
   "property": "C82",
   "status": "proved",
   "theorems": [
    "Disp.C82_table_sample",
    "Disp.C82_model_sample"
   ],
   "note": "What holds of C33 for materials built by the constructor. Exact arithmetic; geomspace by its documented formula."
  },
  {
   "property": "C83",
   "status": "proved",
   "theorems": [
    "Disp.C83_lengths",
    "Disp.C83_length_arrays",
    "Disp.C83_all_types"
   ],
   "note": "About IEEE 754 doubles (Py/Double.lean): every operation rounds to nearest even."
  },
  {
   "property": "C84",
   "status": "proved",
   "theorems": [
    "Disp.C84_range",
    "Disp.C84_table",
    "Disp.C84_linear",
    "Disp.C84_scalar"
   ],
   "note": "About IEEE 754 doubles. The bound (10 times the number of last decimals, plus 5, below 2^53) keeps the accumulated error below half a unit of the last decimal; beyond it the claim fails (C86_nanometres at 4100 nm)."
  },
  {
   "property": "C85",
   "status": "proved",
   "theorems": [
    "Disp.C85_scalar",
    "Disp.C85_array"
   ],
   "note": "About IEEE 754 doubles. The factor 10^4 for wavenumbers is C04, the tolerance of arrays C06."
  },
  {
   "property": "C86",
   "status": "partial",
   "theorems": [
    "Disp.C84_linear",
    "Disp.C84_scalar",
    "Disp.C86_nanometres",
    "Disp.C86_frequencies",
    "Disp.C86_refuted"
   ],
   "note": "False of the code: a table that ends at 4100 nm cannot be evaluated at 4100 nm, since the conversion to metres and back gives 4100.000000000001 (C86_nanometres), and a table that begins at 1e12 Hz not at 1e12 Hz (C86_frequencies). Holds for the decimal wavelengths of C84."
  },
  {
   "property": "C87",
   "status": "proved",
   "theorems": [
    "Disp.C87_folder",
    "Disp.C87_library",
    "Disp.C87_catalogue"
   ],
   "note": "What holds of C60 and C61. Exact arithmetic. Data files are what Reader.read_file returns, under the conditions of TableFile."
  },
  {
   "property": "C88",
   "status": "proved",
   "theorems": [
    "Disp.C88_formula",
    "Disp.C88_evaluate",
    "Disp.C88_limit"
   ],
   "note": "Exact arithmetic. The principal value is a limit of Lebesgue integrals outside a shrinking window (Spec/KramersKronig.lean)."
  },
  {
   "property": "C89",
   "status": "partial",
   "theorems": [
    "Disp.C89_metals_partial",
    "Disp.C89_taucLorentz_partial",
    "Disp.C89_refuted"
   ],
   "note": "False of the code: TaucLorentz returns NaN in the real part exactly at the gap energy, and at every energy if the width exceeds sqrt(2) times the peak energy (C89_refuted, C89_taucLorentz_partial). True in all other cases and for the other models."
  },
  {
   "property": "C90",
   "status": "proved",
   "theorems": [
    "Disp.C90_accuracy",
    "Disp.C90_relative",
    "Disp.C90_entries",
    "Disp.C90_wavelengths"
   ],
   "note": "About IEEE 754 doubles and the arithmetic of SciPy's linear B-spline (reciprocal of the spacing, times the distances, times the values), which interp1d uses for kind=1."
  },
  {
   "property": "C91",
   "status": "partial",
   "theorems": [
    "Disp.C91_partial",
    "Disp.C91_value",
    "Disp.C91_refuted"
   ],
   "note": "False of the code: interp1d with kind=1 is a B-spline, whose weight at an entry is the spacing times its rounded reciprocal. A table that is 1 at 400 nm and at 449 nm gives 0.9999999999999999 at 400 nm (C91_value). Exact for spacings with at most two binary digits (1, 2, 3, 5, 6, 10, 12, 20, 40, ... and binary multiples), by Kahan's argument (C91_partial). C90 bounds the error in general."
  },
  {
   "property": "C92",
   "status": "proved",
   "theorems": [
    "Disp.C92_index",
    "Disp.C92_index_extinction",
    "Disp.C92_built_index",
    "Disp.C92_built_index_extinction"
   ],
   "note": "With the laws of text formats assumed of NumPy's printing (PrintingLaws). text_meta gives the metadata."
  },
  {
   "property": "C93",
   "status": "proved",
   "theorems": [
    "Disp.C93_text",
    "Disp.C93_yaml",
    "Disp.example_table_double",
    "Disp.example_shown"
   ],
   "note": "With the laws assumed of NumPy's printing and of the YAML library, and with the numbers of the examples shown exactly. The hypotheses hold of the ideal arithmetic with the demonstration formats (example_shown); in double precision the abscissae are distinct (example_table_double)."
  },
  {
   "property": "C94",
   "status": "proved",
   "theorems": [
    "Disp.C94_values",
    "Disp.C94_error",
    "Disp.C94_centimetres"
   ],
   "note": "matplotlib is modelled as two curves or two levels with labels; a NumPy scalar as `values` is not modelled."
  },
  {
   "property": "C95",
   "status": "proved",
   "theorems": [
    "Disp.C95_table",
    "Disp.C95_model"
   ],
   "note": "Exact arithmetic, SciPyLaws for geomspace and linspace."
  },
  {
   "property": "C96",
   "status": "partial",
   "theorems": [
    "Disp.C96_unrounded_partial",
    "Disp.C96_refuted",
    "Disp.nano_volts"
   ],
   "note": "False of the code: a table that starts at 400 nm cannot be plotted over energies in eV, because 3.0996049608 eV is rounded up to nine decimals, which is outside the range of the table (nano_volts). True for the units to which conversions do not round (m, Hz, 1/s); C95 covers own units and grids that fit."
  },
  {
   "property": "C97",
   "status": "proved",
   "theorems": [
    "Disp.C97_unsaved",
    "Disp.C97_saved",
    "Disp.C97_reopened"
   ],
   "note": "With the laws assumed of pandas' csv (CsvLaws). Loading is stated with the row of the table (loadRow)."
  },
  {
   "property": "C98",
   "status": "proved",
   "theorems": [
    "Disp.C98_raises",
    "Disp.C98_reads",
    "Disp.C98_disabled",
    "Disp.C98_enabled"
   ],
   "note": "The qgrid widget is modelled as a copy of the frame."
  },
  {
   "property": "C99",
   "status": "proved",
   "theorems": [
    "Disp.C99_view"
   ],
   "note": "The qgrid widget is modelled as a copy of the frame with sorting, filtering and, if editable, editing; the toolbar is not modelled."
  }
 ]
}
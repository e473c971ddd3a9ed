# Formal model of jcmwave/dispersion: design

The package is read as text (`/repo`); it is neither built nor run. The model is written by hand
in Lean 4, one definition per Python function, each carrying the file and lines it mirrors.

## Layout

- `lean/Verif/Py/`: Python and NumPy: exceptions, dictionaries, floats (`Float`), the ideal
  arithmetic (`Ideal`), text (`Text`), paths (`Paths`).
- `lean/Verif/Model/`: the package.
- `lean/Verif/Spec/`: specifications that do not use the model's helpers. Smaller ones stand at
  the top of the file in `Props/` that uses them, in the namespace `Disp.Spec`.
- `lean/Verif/Lemmas/`: auxiliary lemmas, and the witnesses of the library contracts.
- `lean/Verif/Props/`: the property theorems, one file per group, each beside a concrete case
  that meets the hypotheses.
- `lean/Verif/Check/`: the model executed on IEEE doubles against the package's own tests, the
  example file of its documentation and outputs recorded in its notebook (`#guard`; tests, not
  proofs; no theorem uses it).
- `seeded/LOG.jsonl`: mutation tests of the theorems.

Naming: `C10_…` belongs to property C10 of `properties.jsonl`. `…_partial` proves a part of a
property whose full statement is written down as the proposition `CNN_statement`. `CNN_refuted`
is a proof that the full statement is false of the code; the other theorems of such a property say
exactly what happens instead. Where a corrected statement is true, it was added to the list as a
property of its own.

## What is modelled

| Python source | Lean | what |
|---|---|---|
| `spectrum.py` | `Model/Spectrum` | all functions and the class `Spectrum`, but `__repr__`-like text |
| `spectral_data.py` | `Model/SpectralData`, `Model/Files` | all classes, `evaluate`, `suggest_spectrum`, extrapolation, `dict_repr` |
| `material.py` 1-906 | `Model/Material`, `Model/Files`, `Model/Ascii`, `Model/Plot` | constructor with all argument checks, files, evaluation, ranges, sample spectrum, `remove_absorption`, `extrapolate`, `==`, `print_reference`, `print_comment`, `prepare_file_dict`, plots |
| `material.py` 909-994 | `Model/EffectiveMedium` | the three effective media |
| `spectrum.py`, `spectral_data.py`, `material.py` (references) | `Model/Arrays` | which arrays and lists of the caller are kept by reference, which arrays are handed out, and what a caller sees after writing to them; the reference semantics without sharing is `Spec/Copies` |
| `io.py` | `Model/Tables`, `Model/Printing`, `Model/NumpyText`, `Model/Files`, `Model/Interrupted` | table parsing and printing, `validate_table`, `fix_table`, `Reader`, `Writer`, `prepend_text_to_file`, `valid_file_name`, what an interrupted `write_file` leaves |
| `catalogue.py` | `Model/Catalogue`, `Model/Csv`, `Model/CsvInterrupted`, `Model/PandasNumbers`, `Model/Config`, `Model/Setup`, `Model/Session`, `Model/Shared` | everything; the qgrid widget as a copy of the frame that can be sorted, filtered and edited |
| `config.py`, `__init__.py` | `Model/Config`, `Model/Disk`, `Model/DiskCatalogue` | everything; `Model/Disk` has directories and files, path resolution and permissions, but no links |
| `scripts/setup_dispersion.py` | `Model/Setup`, `Model/SetupDisk`, `Model/Examples` | prompts, installation of modules, example files, `main`, the effects on the disk of complete and broken off runs; git is a parameter |
| `scripts/catalogue_rebuild.py` | `Model/Setup` | a call of `rebuild_catalogue` |

Not modelled: matplotlib (a plot is two curves or levels with labels), the toolbar of the qgrid
widget, cloning the refractiveindex.info data base (a parameter), warnings and printed messages, performance, Windows.

## Modelling decisions

**Exceptions.** A Python call that may raise is a function into `Except PyErr α`; the class of the
exception is kept, the message is not. `PyErr.isA` is the subclass relation that `except` uses.
Where the code changes an object before it can raise, the model returns the outcome and the new
state together.

**Numbers.** The model is written against a class `PyFloat F` of operations on floats (literals,
arithmetic, comparisons, `np.round`, `sqrt`, `power`, `log`, `arctan`, complex division and root).
Theorems that do not depend on numerical values are proved for *every* instance, so they hold for
IEEE doubles. Theorems about comparisons use the class `LawfulCmp` of IEEE comparison laws (NaN is
unordered, other values are weakly ordered), a few use `LawfulOne` (`x * 1.0 = x`) or
`LawfulTrunc`. Numerical theorems use the *ideal* instance `XR`: the reals extended by +inf, -inf
and NaN, with exact arithmetic and half-even decimal rounding. The instance `Dbl`
(`Py/Double.lean`) is IEEE 754 binary64: results are rounded to nearest, ties to even, with gradual
underflow and overflow, and `np.round` multiplies, rounds and divides as NumPy does; it satisfies the
three law classes. Theorems that mention doubles or double precision use `Dbl`; for all other
numerical theorems the step from exact arithmetic to binary64 is **not** proved. Simplified in
`Dbl`: a single zero and a single NaN, correctly rounded elementary functions.

**Values.** `Spectrum` values are a scalar float or a one-dimensional array with an element type
(int or float). Python `int` scalars and other objects are one constructor `other` (rejected by
`Spectrum`). Arrays of more dimensions and zero-dimensional arrays are not modelled there. Model
parameters and table entries are floats. An interpolation keeps the two columns that it evaluates;
further columns of a table of n or k in a file, which the real object carries along and writes again,
are left out.

**Objects and mutation.** In-place changes are modelled by state passing. Aliasing is modelled
where the code depends on it (the caller's `Spectrum`, the `Reader`'s shared dictionary, the
`Writer`'s dictionary).

**Text.** Python strings are `String`, or `List Char` at the level of files; a file is its list of
characters (the encoding is not modelled, except for `utf8_to_ascii`, where a text is a list of
code points including surrogates). `str.lower` and `str.upper` act on ASCII letters. `str.split`,
`strip`, `splitlines`, universal newlines, `np.loadtxt`, `np.savetxt`, the layout of
`np.array2string` (line width, abbreviation above 1000 entries), `csv.writer` and the state machine
of pandas' C parser are modelled at the level of characters.

**Set iteration order** (randomised by Python) is an arbitrary permutation (`KeyOrder`).

**Files.** What is on the disk is a parameter (`FileSys`, `CfgSys`), so theorems quantify over all
file systems. A crash while a file is written leaves any prefix of the new text.

**The catalogue** is a list of labelled rows; what pandas does with `.at`, `.loc`, `.iloc`, boolean
masks and `append` follows pandas 1.x.

**Users** are streams of input lines; when it ends, `input` raises `EOFError`.

## Trusted base

1. Lean 4.33.0's kernel. Every theorem depends at most on the axioms `propext`, `Quot.sound` and
   `Classical.choice` (`vcheck` reports this for each theorem). No own axioms, `sorry`,
   `native_decide` or `bv_decide`.
2. The correspondence between model and code, by reading. Simplifications are stated in the
   comment of the definition. Two concern all of `spectral_data.py`: model parameters follow the
   arithmetic of NumPy, as they do when they are given as an array or read from a file (the square
   of a Python float beyond 1.34e154 in a list raises `OverflowError`, that of a NumPy float is
   infinite); a table with the abscissa NaN is rejected when it is made, not when it is evaluated.
3. Contracts of libraries, from their documentation and source:
   - NumPy: `isclose(v, 0.0)` is `|v| <= 1e-8`; assigning `np.inf` through a mask into an integer
     array raises `OverflowError`; `np.min`/`np.max` propagate NaN and raise `ValueError` on empty
     arrays; comparison results are `np.bool_`, never the object `False`; `np.sqrt` of a complex
     number is the principal root.
   - SciPy: `interp1d(x, y, kind=1)` sorts by `x`, is piecewise linear (a B-spline of degree one,
     evaluated as the reciprocal of the spacing times the distances times the values), raises `ValueError` outside the
     data range. `geomspace`, `splrep`, `splev` and other orders of `interp1d` are parameters
     (class `SciPy`); theorems that need more than that assume `SciPyLaws`: `geomspace` gives the
     geometric sequence between positive ends and raises `ValueError` if an end is zero, a spline
     passes through its points. Witness: `demoSciPy`. C107 and C16_bend_refuted also assume
     `SplineLaws`: the spline of order one is the broken line through its points, with prolonged
     end pieces, and points on a polynomial of degree at most the order give this polynomial.
     Witness of both together: `splineDemo`.
   - Number formats: how one number is written is a parameter (`Printing`, `NumText`) with the
     contract `PrintingLaws`: the text is one word of at most 20 printable ASCII characters, none of
     them a capital letter or a bracket (blanks around it), it is read as the number that is `shown`, `%.8f` gives a word
     without separators, `float()` raises only `ValueError` and rejects `...`. For doubles
     this is not assumed: `Model/NumpyText` defines `float(text)`, `"%.8f"` and the formats of NumPy
     arrays, and `Props/NumpyText` proves the contract. What is trusted is that these definitions
     describe Python and NumPy (default print options).
   - YAML (`YamlIO`) with the contract `YamlLaws`: what was dumped is loaded as the same mapping
     (up to order), also behind a block of comment lines; the dumped text has no carriage return
     and does not begin with a comment character. Witness: `demoYaml` in `Lemmas/YamlIdeal`.
   - pandas and `csv` (`CsvIO`) with the contract `CsvLaws`: the text of a number is not empty, has
     no separators and can be read as a number. Whether carriage returns are quoted depends on the
     Python version and is a parameter. Witness: `demoCsv`. For doubles, `Model/PandasNumbers`
     defines how pandas 0.22 writes and reads numbers (`repr` by its defining property, the function
     `xstrtod` of the parser); C128 uses these definitions and needs no contract on numbers. By
     calculation, the largest doubles (about 1.797693134862315e308 and above) are written as texts
     that this parser rejects, so the last clause of `CsvLaws` fails for them in pandas 0.22;
     the theorems that use `CsvLaws` describe catalogues in which no such number occurs.
   - `os.path.join`, `normpath` and `splitext` of `posixpath` are modelled, `open`, `mkdir`,
     `listdir`, `isdir` are parameters; C71 assumes that no symbolic links make a path and its
     normal form different.
   - The disk of `Model/Disk`: directories and files without links, errors as Linux reports them. For
     C137-C139 `tempfile.mkdtemp` gives an unused name and a directory in which everything is allowed
     (`TempLaw`, witness `demo_tempLaw`), and git changes nothing outside of the directory it clones
     into (`GitLaw`, witness `demo_gitLaw`). Building the catalogue reads the disk and writes nothing.

   Each contract is a class of propositions that is an explicit argument of the theorems that use
   it, and has a witness in the development, so no theorem is vacuous for want of an instance.

## Properties

Full statements are in `properties.jsonl`; theorem names in `MANIFEST.json`.

| id | property | status | outcome |
|---|---|---|---|
| C01 | Spectrum names: exactly the documented types and unit aliases are accepted | proved | every arithmetic |
| C02 | convert_to fails only on bad names | proved | every arithmetic |
| C03 | Unit spelling accepted by the constructor is accepted by conversion and evaluation | partial | The full claim is false (refuted): convert_to does not lower-case the unit. Proved for lower-case spellings. |
| C04 | Conversions obey the physical relations | partial | The full claim is false (refuted): conversion to wavenumbers is off by 10^4. Proved for all other targets; arrays need inverted values above 1e-8. Ideal (real) arithmetic. |
| C05 | Round trip: a spectrum converted to its own type and unit reproduces its values | partial | The full claim is false (refuted) for wavenumbers. Ideal arithmetic. |
| C06 | Scalar and array conversion agree element by element | partial | The full claim is false (refuted): arrays treat |x|<=1e-8 as zero. Exact extent given for wavelengths. |
| C07 | Zero and infinity are exchanged by reciprocal conversions, and no NaN is produced | proved | ideal arithmetic |
| C08 | Conversions preserve or reverse order | proved | ideal arithmetic |
| C09 | In-place conversions never drift | proved | every arithmetic, every history of conversions |
| C10 | contains decides interval membership | partial | The full claim is false (refuted): NaN is accepted, ranges in cm raise KeyError. Proved for NaN-free values otherwise, every arithmetic with IEEE comparisons. |
| C11 | A spectrum contains itself | partial | The full claim is false (refuted) for wavenumbers and for values with more decimals than conversions keep. Exact arithmetic; in double precision C83 and C85. |
| C12 | Constant data evaluates to the constant everywhere in range | proved | every arithmetic with x*1.0 = x; default range on the ideal arithmetic |
| C13 | No data object evaluates outside its valid range | partial | The full claim is false (refuted): extrapolating an object whose range was given in decreasing order. Proved for all other objects, by induction over the nesting, every arithmetic with IEEE comparisons. |
| C14 | Interpolation reproduces the table and stays between neighbouring entries | proved | ideal arithmetic, interp1d as piecewise linear interpolation |
| C15 | Interpolation does not depend on row order | proved | every arithmetic with IEEE comparisons, NaN-free abscissae |
| C16 | A value does not depend on the other points requested with it | partial | The full claim is false (refuted) for extrapolated data; C16_bend_refuted: for every spline library with SciPyLaws and SplineLaws. Proved for all other data objects, every arithmetic. |
| C17 | Dispersion formulas equal their published closed forms for any number of terms | proved | closed forms on the ideal arithmetic for any number of terms; dangling coefficients for every arithmetic |
| C18 | The retro formula solves (n^2-1)/(n^2+2) = right-hand side | partial | The full claim is false (refuted). Proved: the equation that is solved instead. |
| C19 | A constructed model has the spectrum type and unit its formula needs | partial | Proved for all models but Fano, for which it is false (refuted). |
| C20 | Permittivity models are passive | proved | ideal arithmetic, all real parameters; at an undamped resonance of positive strength the real part is infinite and the imaginary part NaN, as NumPy divides by 0+0j; the Drude model is the Drude-Lorentz model at resonance 0 for every energy but 0 |
| C21 | Extrapolation leaves in-range values untouched and extends the range to the requested value | partial | The range claim is false for ranges given in decreasing order (refuted) and for integer ranges. Proved for increasing float ranges, every arithmetic, every spline library. |
| C22 | Material.extrapolate is all-or-nothing | partial | The full claim is false (refuted): if only the imaginary part cannot be extrapolated, the real part is already replaced. Nothing else changes (proved), and nothing at all if one part is constant. |
| C23 | Exactly one data source | proved | every arithmetic, all keyword lists |
| C24 | Every documented data source can be used | partial | The full claim is false (refuted): tabulated_n_alpha never constructs a material. Proved for the other arguments. |
| C25 | interp_order controls the interpolation | partial | The full claim is false (refuted): interp_order is ignored (proved for every input). Order one is right. |
| C26 | A constructed material is completely defined | partial | Both parts exist for every source. The quantity is determined for every argument but a file, for which it is false (refuted). |
| C27 | Permittivity is the square of the refractive index | partial | Proved for every material and every spectrum as constructed. False (refuted) for spectra converted in place, because get_nk_data rebuilds the spectrum from rounded values. |
| C28 | The refractive index is on the physical branch | proved | ideal arithmetic, which has no signed zeros |
| C29 | Fixed-value materials are constant | proved | ideal arithmetic, finite constants |
| C30 | remove_absorption removes exactly the absorption | partial | Proved for spectra of non-negative values. False (refuted) for negative wavelengths, which a table accepts and the new constant does not. |
| C31 | Evaluating a material does not modify the caller's spectrum | partial | get_nk_data never touches the spectrum; get_permittivity at most re-expresses it in place (proved for every material). That it is left as it is, is false (refuted) for extrapolated materials. |
| C32 | The maximum valid range is exactly where the material can be evaluated | partial | Proved for constants, tables and total formulas in every type and unit but wavenumber, up to the order of the two numbers: reversed for frequencies, angular frequencies and energies. False (refuted) for a constant with energies as default, which reports [inf, 0], and for every permittivity model, whose electronvolts are taken for metres. |
| C33 | The sample spectrum can be evaluated | partial | Proved for constants, tables and total formulas in every type and unit but wavenumber whose parts have a positive common range; C33_ends_partial: in every arithmetic the ends of the sample are in the range. False (refuted) for a constant with the default range in electronvolts, and for every permittivity model between 2 meV and 100 eV: evaluation at the sample spectrum raises ValueError. |
| C34 | Material equality is an equivalence relation | partial | Proved among materials built from arguments and among materials read from files. False (refuted) across the two sorts: KeyError, since files carry no Alias. |
| C35 | Absorption coefficient tables give k = alpha*L/(4*pi) | partial | Proved with the wavelength rounded to five decimals of a centimetre, and the resulting error bound. The exact formula is false (refuted). |
| C36 | Datasets of a file combine independently | partial | The full claim is false (refuted): tables of an unknown quantity are skipped, and a table without its own unit is read in the unit of the dataset before it. Proved for one index and one extinction dataset that name their units; every dataset that is neither a table nor a known formula or model makes the file fail; a readable formula dataset with a number outside 1 to 9 raises KeyError. |
| C37 | Simple effective medium is the linear mixture | proved | Rejection of fractions outside [0,1] in every arithmetic (a NaN fraction is neither below 0 nor above 1 and is not rejected). Linear mixture, limits and bounds on the ideal arithmetic for constituents with finite permittivities at the distinct points of the spectrum, for requests in every type, unit and order. Exchange symmetry for all materials and spectra. |
| C38 | Maxwell-Garnett medium has the right limits and refuses singular mixtures | partial | False as stated: np.any(...) < 1e-6 compares a truth value, so the guard only refuses mixtures whose denominator is exactly zero at every point (C38_refuted: denominator 1e-9 accepted). Proved: limits and mixing relation (which determines the value) wherever no denominator vanishes; refusal when all vanish; where the denominator vanishes neither part of the value is finite (mgMix_singular). |
| C39 | Bruggeman medium solves the mixing equation on the physical branch | partial | False as stated in the limits: for f=0 a host -10+i with lossless inclusions 2 is reported as -1, and scalar spectra raise. Proved for every pair of passive permittivities and every fraction in [0,1]: a solution with non-negative imaginary part exists among the two and is returned; limits under an explicit condition. |
| C40 | Effective media are tabulated at the given spectrum | proved | Ideal arithmetic, every kind of medium, every spectrum of distinct finite points, finite mixed permittivities. medium_outcome holds in every arithmetic. |
| C41 | Table repair keeps the strictly increasing records | proved | C41_repair covers first columns with NaN as well; C41_exact identifies the result with the list of records when no abscissa is NaN. |
| C42 | Tables read from files have a strictly increasing first column | partial | The full statement C42_statement is false: validate_table returns a NumPy bool which is never the object False, so fix_table is not called. The partial theorems say what is returned instead: the table as it stands in the file. |
| C43 | Parsing a textual table inverts printing it | partial | Parsing is proved for every layout, number of rows and columns. The round trip through printing (C43_statement) is false for tables with more than 1000 entries, which NumPy abbreviates with dots (C43_abbreviated: reading them back raises ValueError); it is proved for up to 1000 entries and three columns. |
| C44 | Metadata parsing does not depend on set iteration order | proved | For every pair of orders of the two key sets, every file content and every state of the reader. |
| C45 | Text file metadata round trip | proved | For every material, every order of the key sets, .txt and .csv, for every arithmetic and number format that meets PrintingLaws. |
| C46 | Text file data round trip to eight decimals | partial | The claim is false of the code: C46_refuted gives a material with a table of 501 rows which the text writer refuses with ValueError (numpy abbreviates arrays of more than 1000 entries when they are printed). Proved: tables up to that length come back with the same rows, each number first shown as numpy shows it in the array and then rounded to 8 decimals (C46_index_partial, C46_index_extinction_partial, C46_material_partial, C46_shown_partial), and the file can be loaded as a material with that table, type and unit (C46_reload_partial); C46_extinction_dropped: the k column is silently left out when the two tables do not share their printed abscissae. Missing: the claim itself for longer tables and for numbers numpy shows with fewer digits. |
| C47 | The meta comment survives write/read cycles | partial | False of the code: an empty comment becomes a line with a blank (C47_refuted), through YAML files every nonempty comment loses at least its last character (C47_yaml_partial). C47_text gives, for every number of cycles through text files, exactly what becomes of the comment. Missing: the claim itself. |
| C48 | Prepending a comment keeps the file content, also when interrupted | partial | First half proved for files without carriage returns, and false with them (C48_carriage_return). Second half false: at every call there is a moment at which the file is empty (C48_lost); C48_interrupted gives exactly the contents an interruption can leave. |
| C49 | Every material can be written to YAML | partial | False of the code: a material of a constant raises IndexError with the default ignore_constant (C49_refuted, C49_fixed, C49_constants); complex models (C49_complex), extrapolated data (C49_extrapolated), tables of n or k with more than 500 rows (C49_long) and n and k tables of different lengths (C49_lengths) cannot be written. Proved for every other mix of constants, tables and models and both settings: the file is written, with exactly the non-constant parts or one table of both (C49_written_partial, C49_tabulated_partial). |
| C50 | YAML round trip preserves the data | partial | False of the code: a permittivity is lost, the loaded material has no data (C50_refuted, C50_eps_table, C50_permittivity); joined tables of 334 to 500 rows make loading fail (C50_long); written constants make loading fail (C50_constants_unreadable). Proved for every mix of tables (500 rows, 333 if joined) and index models of a refractive index: data as printed, types, units and metadata (C50_reload_partial). |
| C51 | Every supported extension can be written, any number of times | partial | False of the code: every second call on one Writer raises KeyError (C51_second) and no .nk file is ever written (C51_nk). Proved: first calls for .txt and .csv for materials with a table of n up to 500 rows. Missing: the claim itself; for YAML see C49. |
| C52 | Specification entries are kept in canonical order | partial | Order and values proved for every dictionary; entries with undocumented keys are dropped (C52_refuted). |
| C53 | Top-level YAML keys are recognised irrespective of case | partial | Proved for keys in upper case; false for every other key (C53_lower): a key not present in upper case makes reading fail. |
| C54 | A Reader can be reused | partial | False of the code: metadata of a file read before appear in the result of the next (C54_refuted). Proved for every history: everything that the current file states is as a fresh reader would return it, the remaining metadata are those of the files before (C54_text_partial, C54_yaml_partial); a YAML file without datasets gets those of the text file before (C54_yaml_datasets). |
| C55 | Aliases stay unique | partial | False of the code: register_alias with a selection of several rows (a boolean mask, for example) gives all of them the same alias (C55_refuted). For any sequence of registrations with one row each, aliases stay unique (C55_unique_partial); C55_selection gives the exact outcome for selections. |
| C56 | get_material returns the row that owns the alias | partial | False of the code: labels are used as positions, so an alias registered for row -2 loads the last row (C56_negative), one registered for a number beyond the table cannot be loaded (C56_added), tables in another order load other rows (C56_refuted), and the text '' finds the first row without alias (C56_empty). For aliases given to existing rows get_material loads that row's file (C56_lookup_partial), for numbers the row with that position (C56_number). |
| C57 | register_alias never adds rows | partial | False of the code: an unknown row number adds a row (C57_refuted, C57_added). Proved for every other row identifier, and that nothing but the alias column ever changes in existing rows (C57_kept). |
| C58 | Selective rebuild | partial | False of the code: a list that names a disabled module is accepted instead of raising ValueError, and the rows of that module are dropped (C58_refuted); a text as request is searched for module names as substrings (C58_substring). Proved for lists of module names, single names, 'All' and None. |
| C59 | Rebuilding keeps aliases | partial | False of the code: rows of a rebuilt module get empty aliases (C59_refuted, C59_lost, C59_all). Proved for the rows of the modules that are not rebuilt (C59_kept_partial). |
| C60 | One catalogue row per readable data file | partial | False of the code for folders: a single file that cannot be loaded prevents all rows (C60_refuted, C60_aborts). If the folder can be catalogued the rows are as claimed (C60_files_partial, in the built catalogue C60_built_files_partial), libraries as claimed (C60_pages, C60_built_pages); the reference is NaN exactly outside the range for Constants and tables in metres (C60_reference_partial). What holds without exception: C87. |
| C61 | Catalogue bounds are in the row's unit | partial | False of the code: the numbers are in the default unit of the material, which a file can change, while the row says nanometer or micrometer (C61_refuted). Proved for files that state no other unit, for every row of a built catalogue (C61_bounds_partial, C61_built_partial). |
| C62 | Catalogue file round trip | partial | False of the code: after an alias was registered for a number that no row has, the saved file cannot be loaded (C62_added); a carriage return breaks a line unless csv.writer quotes it (C62_cr); texts end at a NUL (C62_nul, C62_refuted). Proved for all other texts, including separators, quotes and line breaks; numbers come back as the number that pandas reads from the written text. |
| C63 | Configuration lookup order and fallback | partial | False of the code: without any configuration file, get_config raises ValueError instead of returning the default (C63_refuted, C63_missing), and without the directory ~/.config nothing can be read at all, not even on import (C63_no_parent). The precedence is proved (C63_found_partial); an existing file that cannot be opened gives the default (C63_unreadable). |
| C64 | Configuration validation accepts exactly well-typed configurations | proved | For every configuration and every file system. The right type of the reference value is float: an integer is rejected. |
| C65 | Setup prompts return only validated and confirmed answers | proved | For every list of lines typed by the user; a run that returns has read finitely many lines. |
| C66 | Printing drops exactly the non-ASCII characters | partial | Proved for every text without surrogates; with a surrogate, which is a code point but no character, UnicodeEncodeError is raised (C66_surrogate, C66_refuted). |
| C67 | Integer arrays behave like float arrays | partial | The full claim is false (refuted). |
| C68 | An index table survives a YAML file | proved |  |
| C69 | An index model survives a YAML file | proved |  |
| C70 | Metadata survive a YAML file | proved | Under the hypotheses of C50_reload_partial, which describe what can be loaded. |
| C71 | Every row of a catalogue leads to its file | proved | Paths are resolved without symbolic links: reading a normalised path gives what reading the path gives. |
| C72 | Saving and loading a catalogue changes no material | proved | For every reader of data files and every number format that meets CsvLaws. |
| C73 | Configuration used on import | proved |  |
| C74 | A written configuration is the one that is read | proved | The YAML library is assumed to read back what it wrote for configurations. |
| C75 | The default configuration is valid and names the user's directory | partial | False of the code for home directories with a blank before a # (C75_comment, C75_refuted), which begins a comment in YAML. Proved for all other absolute paths without the other characters that are special in YAML. |
| C76 | The setup script leaves a valid configuration | proved | For every stream of answers and every file system in which a folder can only be made in a directory. The script does not make the root directory (C76_no_root). |
| C77 | Aliases given to existing rows one at a time | proved | What holds of C55 and C56. |
| C78 | Selective rebuilding by name | proved | What holds of C58. |
| C79 | Files with the names of refractiveindex.info keep the spectrum type and unit | partial | False of the code: the names of refractiveindex.info have none for spectrum type and unit, so every table is loaded in nanometres (C79_table_partial, C79_refuted with micrometres). Holds for tables in nanometres. |
| C80 | Files with the names of refractiveindex.info are restored by giving spectrum type and unit | proved | What holds of C79; relies on the contracts of number printing and of the YAML library. Limits of the printing as in C50: 500 rows, or 333 if both parts share a table. |
| C81 | The range of a table or index model is returned in its own unit | proved | What holds of C32 for materials built by the constructor. Exact arithmetic. |
| C82 | The sample spectrum of a table or index model can be evaluated | proved | What holds of C33 for materials built by the constructor. Exact arithmetic; geomspace by its documented formula. |
| C83 | Decimal values convert exactly in double precision | proved | About IEEE 754 doubles (Py/Double.lean): every operation rounds to nearest even. |
| C84 | Ranges of decimal wavelengths are decided exactly in double precision | proved | About IEEE 754 doubles. The bound (10 times the number of last decimals, plus 5, below 2^53) keeps the accumulated error below half a unit of the last decimal; beyond it the claim fails (C86_nanometres at 4100 nm). |
| C85 | Accuracy of conversions in double precision | proved | About IEEE 754 doubles. The factor 10^4 for wavenumbers is C04, the tolerance of arrays C06. |
| C86 | A table can be evaluated at the values it lists, in double precision | partial | False of the code: a table that ends at 4100 nm cannot be evaluated at 4100 nm, since the conversion to metres and back gives 4100.000000000001 (C86_nanometres), and a table that begins at 1e12 Hz not at 1e12 Hz (C86_frequencies). Holds for the decimal wavelengths of C84. |
| C87 | Catalogues of tables without units | proved | What holds of C60 and C61. Exact arithmetic. Data files are what Reader.read_file returns, under the conditions of TableFile. |
| C88 | Permittivity models are causal | proved | Exact arithmetic. The principal value is a limit of Lebesgue integrals outside a shrinking window (Spec/KramersKronig.lean). |
| C89 | Permittivity models return finite values | partial | False of the code: TaucLorentz returns NaN in the real part exactly at the gap energy, and at every energy if the width exceeds sqrt(2) times the peak energy (C89_refuted, C89_taucLorentz_partial). True in all other cases and for the other models. |
| C90 | Accuracy of linear tables in double precision | proved | About IEEE 754 doubles and the arithmetic of SciPy's linear B-spline (reciprocal of the spacing, times the distances, times the values), which interp1d uses for kind=1. |
| C91 | A linear table returns the tabulated values, in double precision | partial | False of the code: interp1d with kind=1 is a B-spline, whose weight at an entry is the spacing times its rounded reciprocal. A table that is 1 at 400 nm and at 449 nm gives 0.9999999999999999 at 400 nm (C91_value). Exact for spacings with at most two binary digits (1, 2, 3, 5, 6, 10, 12, 20, 40, ... and binary multiples), by Kahan's argument (C91_partial). C90 bounds the error in general. |
| C92 | Text files give back the material that was saved | proved | With the laws of text formats assumed of NumPy's printing (PrintingLaws). text_meta gives the metadata. |
| C93 | The example files of the setup script can be loaded | proved | With the laws assumed of NumPy's printing and of the YAML library, and with the numbers of the examples shown exactly. The hypotheses hold of the ideal arithmetic with the demonstration formats (example_shown); in double precision the abscissae are distinct (example_table_double). |
| C94 | Plots of given values show what a direct call returns | proved | matplotlib is modelled as two curves or two levels with labels; a NumPy scalar as `values` is not modelled. |
| C95 | A plot without values shows the whole range | proved | Exact arithmetic, SciPyLaws for geomspace and linspace. |
| C96 | A table can be plotted in any unit | partial | False of the code: a table that starts at 400 nm cannot be plotted over energies in eV, because 3.0996049608 eV is rounded up to nine decimals, which is outside the range of the table (nano_volts). True for the units to which conversions do not round (m, Hz, 1/s); C95 covers own units and grids that fit. |
| C97 | Only save_to_file changes the catalogue file | proved | With the laws assumed of pandas' csv (CsvLaws). Loading is stated with the row of the table (loadRow). |
| C98 | Which calls change a catalogue | proved | The qgrid widget is modelled as a copy of the frame. |
| C99 | Viewing does not edit | proved | The qgrid widget is modelled as a copy of the frame with sorting, filtering and, if editable, editing; the toolbar is not modelled. |
| C100 | Sorting and filtering in the grid keep the aliases | partial | False of the code: get_material looks up the label of the row but uses it as a position, so after sorting in the grid an alias loads another row's file (C100_refuted). True for editing without sorting or filtering (C100_edited_partial) and after saving and opening again (C97_reopened). |
| C101 | Aliases registered while a grid is open | partial | False of the code: save_interactive restores the table as it was when the grid was opened (C101_lost). |
| C102 | From the setup script to a material | proved | Exact arithmetic; with the laws assumed of pandas' csv. Data files are what Reader.read_file returns. |
| C103 | The answer does not depend on the unit of the question | proved | C103_used for every arithmetic; the comparison of units for exact arithmetic. |
| C104 | Normal dispersion of transparent models | proved | Exact arithmetic. |
| C105 | Sum rules of the metals | proved | Exact arithmetic. |
| C106 | Index and permittivity in double precision | proved | Binary64 with correctly rounded sqrt and hypot; the complex root is numpy's for finite arguments without its rescaling of huge and tiny ones, hence the range of sizes. |
| C107 | What extrapolation adds | proved | Exact arithmetic; of FITPACK only SplineLaws is assumed (a first-order spline is the broken line with its end pieces prolonged, and splines of order k reproduce polynomials of degree at most k). |
| C108 | Published formulas and tables of refractiveindex.info files | proved | Exact arithmetic. The YAML text is any text that the loader turns into the mapping; Spec.Published is written from the formulas published by refractiveindex.info (formula 8 is excluded: the code evaluates another expression, C18). The bounds are on the grid of 1e-9 micrometres. Spec.Published.unique shows that number, coefficients and wavelength determine the value. |
| C109 | Accuracy of dispersion formulas | proved | Arithmetic of doubles with correct rounding of the basic operations, powers and roots (np.power is trusted to round correctly). The exact value is shown to be the published one. A conversion of the wavelength to micrometres before the formula adds the errors of C83 and C85. |
| C110 | Mixtures are passive and obey the bounds of effective medium theory | proved | Exact arithmetic. Spec.Mixed states the three mixing rules for positive permittivities as they stand in textbooks; the two bounds are derived from it. |
| C111 | Histories of changes of a material | proved | Any arithmetic with IEEE comparisons and an integer truncation that is monotone and idempotent; no assumption on SciPy. Ranges given in decreasing order are excluded because extrapolation shrinks them (C13, C21). |
| C112 | Accuracy of tables asked in any unit | proved | Arithmetic of doubles with correct rounding. Tables over wavenumbers are excluded because conversions to wavenumbers have the wrong factor (C03). Lists of values that are inverted must not lie within NumPy's tolerance of zero (C06). |
| C113 | Formula numbers in files for refractiveindex.info | partial | False of the code: the table of names has keys such as 'Model:Sellmeier', but the name that is looked up is 'model Sellmeier', so a file for refractiveindex.info contains the line 'type: model Sellmeier', which that database does not know. C113_name_partial states what is written for every model. |
| C114 | Accuracy of dispersion formulas asked in any unit | proved | Arithmetic of doubles with correct rounding, powers and roots included. The error of the conversion is carried through the formula by Spec.Steady.moved. C114_published: the exact value is that of the formula as published by refractiveindex.info. |
| C115 | Saved aliases are not lost to other sessions | partial | False of the code: save_to_file overwrites the file with the table in memory, so a session that has read the file before another one saved removes the aliases of the other. True if everyone who saves later has constructed their object after the alias was saved. |
| C116 | Sessions that share a catalogue | proved | C116_isolated and C116_last_save hold for all calls, including rebuilding and the grid editor. C116_sessions and C116_turns assume the laws of CSV files (CsvLaws) and that a number is not read back as NaN, and consider registering, asking and saving. |
| C117 | Repeated saving to text files does not change the data | partial | False of the code: NumPy prints a table in scientific notation with nine digits if the largest number is 1000 times the smallest or larger, and otherwise with eight decimals. A first save can change the notation of the second, so a number such as 1000.0000019 changes again (1000.00000191, then 1000.0). C117_settles_partial: from the second cycle on nothing changes any more, for all doubles. The texts of numbers are modelled concretely (Model/NumpyText). |
| C118 | Accuracy of tables saved as text | proved | Doubles and the concrete model of the number formats of NumPy and Python. With three columns the abscissae of both tables must be printed alike (C46 says what happens otherwise). The material must have a reference and comment that can be stored in a header (CleanTexts, C46). |
| C119 | Text files keep the extinction coefficient | partial | False of the code: the two tables are printed separately and compared as printed. If NumPy chooses scientific notation (nine digits) for one and positional notation (eight decimals) for the other, an abscissa such as 1000.0000019 is printed as two different numbers, and the extinction coefficient is left out without an error. C119_criterion_partial is the exact condition; C119_short_partial: abscissae with at most nine digits and eight decimals are safe. |
| C120 | Text files of tables can be loaded | partial | False of the code: numbers are written with eight decimals, so wavelengths in metres that differ by less than 10 nm can coincide, and the file cannot be loaded (the visible spectrum in steps of 5 nm). C120_dense_partial: at most 1e8 (hi - lo) + 4 rows between lo and hi can be loaded. C118_index_loads is a sufficient condition. |
| C121 | Accuracy of materials saved as YAML | proved | Doubles and the concrete model of the number format of NumPy; the YAML library through its contract YamlLaws. C121_small: with a number below 0.0001 all numbers are printed in scientific notation. |
| C122 | Coefficients of nine significant digits survive YAML files | partial | False of the code: parameters are printed as a NumPy array, with eight decimals unless their sizes vary by more than a factor of 1000. 0.0009765625 beside 0.5 becomes 0.00097656. Kept if scientific notation is chosen (C122_varied_partial) or the parameters have at most eight decimals (C122_short_partial). |
| C123 | Passive models stay passive in double precision | proved | Doubles; the signs of all intermediate results are followed, NaN counts as not negative. Complex division is the algorithm of Smith as in NumPy, the complex square root follows npy_csqrt. The model has a single zero. Parameters follow NumPy arithmetic, as those of an array or a file do; squaring a Python float beyond 1.34e154 from a list raises OverflowError instead. |
| C124 | Accuracy of the Drude and Drude-Lorentz models | proved | Doubles; a calculus of signed relative errors through Smith's complex division. The difference of the squares in the Drude-Lorentz model is treated with a perturbation bound, and is shown to be zero or not too small because rounded squares lie on a common grid. Comparing eps at the used energy with eps at the exact one is left to the reader: the energies differ by the stated bound. |
| C125 | Interrupted saves | partial | False of the code: files are emptied and written in place, and the end of a text table is not marked. C125_lost_partial: for every number of rows from two some interruption leaves a file that loads as a material with that many rows. What does hold: the previous file, or a table of first rows whose last number lies between zero and the true one, with the right spectrum type, unit and kind (C125_left_partial, C125_numbers_partial). YAML files are not covered: the contract on the YAML library says nothing about beginnings of documents. |
| C126 | Conversions and ranges respect order in double precision | proved | Doubles with overflow and gradual underflow; rests on the proved monotonicity of rounding to nearest. The values of the range itself need only be free of NaN. |
| C127 | Later changes of arrays do not reach the objects | partial | False of the code: a Spectrum keeps the array that it is given and hands out its own for wavelengths in metres; a model keeps its parameters (array or list) and the array of its range; a material of tabulated_n saves the caller's array. C127_careful_partial (refinement by simulation): a program that writes only to arrays it has not given away sees the same as if everything were copied, which also justifies treating numbers as values in the rest of the model. C127_parameters: a model always answers with the parameters that the caller's object holds at that moment. C127_tables: answers of tables are fixed. Views of arrays are not modelled. |
| C128 | Numbers of a catalogue that is saved and opened again | partial | False of the code: read_csv is called with the default number parser, which divides the digits of 0.123 by ten and by a hundred and gets another double. C128_reopened_partial: numbers between 1e-14 and 1e31 change by at most 11/2^53 of their size (C128_wide_partial: 41/2^53 between 1e-250 and 1e250); C128_sessions_partial: over n sessions by at most (10n+1)/2^53, n up to 100000. C128_short: nothing ever changes if all numbers are integers or have at most fifteen digits and 1, 2, 4, 8 or 16 decimals. Doubles, repr by its defining property (fewest digits that read back, then closest), the reader as in pandas 0.22 (the version of requirements.txt). Missing: numbers beyond 1e250, the largest of which are written but read as an error by this parser (seen by calculation, not proved). |
| C129 | Materials that are saved to YAML files again and again | partial | False of the code: the indices 1000+2^-19 and 1+2^-28 are written as 1000.00000191 and 1.0 by the first save and as 1000.0 and 1.0 by the second, because rounding changed the notation that NumPy chooses. C129_table_partial and C129_model_partial (doubles): the material can be saved and loaded any number of times, every number stays within 13e-9 (1+|x|) of the original however often, and from the second save on nothing changes any more (printing an array three times is the same as printing it twice). Missing: tables with an extinction coefficient, numbers other than zero below 1e-290, tables whose abscissae are closer than that. |
| C130 | Tables without gain in double precision | proved | Doubles with all special values. The sign survives every step: differences of ordered doubles, the reciprocal of the spacing, products and sums, real + 1j*imag, the square and the complex square root. Interpolation of order 1, which is the order that the tables of a material get. |
| C131 | Effective media without gain in double precision | partial | False of the code: inclusions of permittivity 3 filling the whole of a host of permittivity 12+7j give the Maxwell-Garnett medium an imaginary part of -1.5e-16, since the complex division cancels with rounding errors. True for the linear mixture (C131_simple_partial), for the Bruggeman medium of whatever constituents (C131_bruggeman_partial) and for the Maxwell-Garnett medium of lossless constituents (C131_lossless_partial). |
| C132 | A catalogue whose saving was interrupted | partial | False of the code: the file is emptied and rewritten in place, and a last row that is cut inside of its path opens with a wrong path and no module (C132_path_partial: possible for every row). C132_left_partial: for every moment, a file that opens has the first rows unchanged and at most the last of them cut, behind its lower bound; aliases keep their rows (C132_aliases_partial). C132_broken_partial: cut anywhere between the first comma of a row and the end of its lower bound the file does not open at all. Not covered: files that end inside of the header line (pandas then has other columns), characters written in part. |
| C133 | Accuracy of linear mixtures in double precision | proved | Doubles with correct rounding. e1 and e2 are what the constituents report at the spectrum; the mean and its error are stated with real numbers. The wavelengths in metres must be distinct and between 1e-60 and 1e60. |
| C134 | Accuracy of Maxwell-Garnett media in double precision | partial | False of the code: for equal parts of permittivities 4503599627370497 and -22517998136852484 the denominator is 1/2, but zero in double precision, and the constructor raises ValueError. C134_conditioned_partial: for any complex permittivities with moduli from 1e-20 to 1e20 and denominators that cancel by at most a factor K up to 2^40, the medium is built and its error is at most (36 + 8 K)/2^53 of the size of the terms of the formula. C134_lossy_partial: for dielectrics with loss at most 72/2^53 of the modulus. C134_transparent_partial: without loss the real part is that of the formula up to 21/2^53 and no loss is reported. Missing: cancellation by more than a factor 2^40. |
| C135 | Accuracy of Bruggeman media in double precision | partial | False of the code: with filling fraction 0 of a material of permittivity 2^60 in a host of permittivity 3 the medium reports 0, since -p/2 + sqrt(p^2/4 - q) cancels. C135_transparent_partial: for all transparent constituents and filling fractions the medium is built, has no loss, and its real part is within 31/2^53 of the larger permittivity from the solution, which lies between the permittivities; so the relative error is at most 31/2^53 times the contrast. Constituents with loss: C142. |
| C136 | Checking a file name leaves nothing behind | partial | False of the code: the name is joined with the path of a temporary directory, so an absolute name (or one with ..) is opened for writing where it says and an empty file stays there (C136_absolute). C136_plain_partial: for names without slash the disk is as before, and the answer is yes exactly for names of at most 255 bytes other than the empty one, . and ..; a NUL character raises ValueError (C136_nul_partial). C136_only_partial: whatever the name, at most an empty file appears at the place it names, and a readable file there is not touched. C136_config_partial: the same for validate_config. validFileName_sys and validate_sys: this model of the disk refines the one of Model/Config. No symbolic links, no limits on the length of paths. |
| C137 | What the setup script changes on the disk | proved | An invariant of all steps of the script, by rules for its sequential composition and loops. Assumed: mkdtemp gives a new directory in which everything is allowed; git changes nothing outside of the directory it clones into and nothing that was there. Files are replaced as a whole (interruptions in the middle of a file: C125, C132). |
| C138 | An unfinished setup | proved | C138_overwritten: the restriction is needed. With the default root directory, the name config.yaml for the catalogue is accepted, and the run replaces the configuration it has just written by the catalogue. Assumptions as for C137. |
| C139 | Running the setup script again | proved | The final disk is described place by place. C139_again_built assumes that what is built does not depend on the catalogue file, which is not read with rebuild='All'. C139_download assumes that git refuses to clone into a directory that is not empty. |
| C140 | Values of the Fano model | proved | In exact arithmetic, at the energies that the spectrum converts to. Written after a changed normalisation (lit 2 / norm) had survived all theorems. |
| C141 | Accuracy of the Fano model in double precision | proved | Doubles with correct rounding, squares included. The energies are the ones that the spectrum converts to (their error: C83-C86). |
| C142 | Bruggeman media with loss in double precision | partial | False of the code: a host of permittivity 2 without any inclusions of permittivity -5.15 + 0.25j has the solution 2, but both computed solutions have a negative imaginary part and the medium reports 0. C142_absorbing_partial: the claim holds, without a condition on the solutions, if both constituents have a loss of at least 2^-21 of the larger modulus. C142_conditioned_partial: for any complex permittivities, if the imaginary parts of the two solutions have different signs and are at least 160/2^53 M^2/d (M the larger modulus of the constituents, d the distance of the solutions), the medium is built and reports the solution without gain up to this bound. Missing: solutions that are real or whose imaginary part is lost in rounding errors. |
| C143 | Mixtures of absorbing materials absorb | proved | In exact arithmetic, by the balance of energy. What rounding does to it: C142_absorbing_partial for Bruggeman, C134_conditioned for Maxwell Garnett. |
| C144 | The absorption of Tauc-Lorentz models is accurate in double precision | proved | Doubles, with the real part left open (it may even be NaN). C144_at: one energy. C144_material: what get_permittivity reports for a request in any type and unit between 1e-6 and 1e9 eV. glassy_case: a concrete semiconductor asked for 620 nm. |
| C145 | Mixtures of mixtures | proved | By induction on the hierarchy; every medium is made with the Spectrum object that the previous constructor left. C145_absorbs and C145_transparent: exact arithmetic. C145_doubles: doubles; Maxwell Garnett media are excluded, as they can report gain (C134). |
| C146 | Accuracy of hierarchies of linear mixtures | proved | Doubles. The parts of all materials at one wavelength have to be zero, or positive and between 1e-10 and 1e10: with parts of different signs a mean can cancel. |
| C147 | Text files written by hand | proved | The reading of a number from its text is a parameter (NumText); in doubles it is correct rounding. |
| C148 | Catalogue files edited with other programs | proved | The first line of data must not have more fields than the header (pandas takes the first column for labels then, which is outside of the model). C148_errors assumes that converting a text to a number raises nothing but ValueError, as the model of pandas with doubles does. |
| C149 | What stops the building of a catalogue | proved | For a broken file it is proved that some exception is raised, not which one: an earlier file may be broken in another way. |
| C150 | YAML files written by hand | proved | One dataset; the names kind, coefficients and data have to be spelled exactly, as in the code, and no two entries may be spellings of the same field. The reading of a number from its text and PyYAML are parameters. |
| C151 | Misspelt names in YAML files | partial | Refuted: unknown names are passed over in silence (C151_ignored), since the code makes the exception and does not raise it; a table with `Units: um` instead of `Unit: um` is read in the unit of the call (C151_refuted). What holds: missing or misspelt kinds and numbers raise KeyError (C151_required_partial, for the first dataset); a missing or misspelt range of a model raises UnboundLocalError (C151_range). |
| C152 | A single number, or a list of one | partial | Refuted: a Tauc-Lorentz model answers no single number, since it loops over the values; TypeError is raised where the list of one is answered (C152_tauc, C152_refuted, in doubles). What holds: all other materials answer alike, provided that no value on the way from one spectrum type to another is so small that it counts as zero in lists (C06); for data over wavelengths asked for wavelengths this proviso is empty (C152_wavelengths). |
| C153 | A database of refractiveindex.info that is there already | partial | Refuted: the script looks for database/library.yml only (C153_looked), the catalogue reads database/catalog-nk.yml first. A database of the newer layout is switched off although it can be read (C153_newer, C153_refuted); a library without its data folder is switched on and the building of the catalogue raises ValueError (C153_data). What holds: without catalog-nk.yml both look for the same file (C153_older_partial). The content of a library file is a parameter. |
| C154 | Unknown kinds of data in YAML files | partial | Refuted: a table whose kind is none of n, k, nk, n_alpha, eps, for example `tabulated K`, is dropped in silence, so that a material with absorption becomes transparent (C154_dropped for the last dataset of a file; C154_dropped_plain for a dataset at any place that states no spectrum type and no unit; C154_refuted). What holds, wherever the dataset stands in the file, is an exception (C154_anywhere) for a kind that begins with none of formula, model, tabulated, for a kind that is not two words or whose first word is longer, for a formula whose number is not one of 1 to 9 or has a letter, and for a model of another name than the thirteen of the library. The exception is KeyError for the first of these at the beginning of the file (C154_first), ValueError for the second in a file of one dataset (C154_words), KeyError for the third (C154_formula). |
| C155 | Numbers of parameters that do not fit the model | partial | Refuted: the models of a fixed number of parameters pass over further ones, so that a Drude metal with a third parameter, or a Drude-Lorentz model with a second resonance, answers as if they were not there (C155_further, every arithmetic; C155_refuted in doubles). The number is not looked at when the material is made (C155_made). What holds: with too few parameters or an incomplete pair every question raises an exception (C155_few, every arithmetic). |
| C156 | Files that can be loaded but stop the building of a catalogue | partial | Refuted: at the reference point only ValueErrors are caught. A file whose material raises anything else there stops the building (C156_file, C156_page): that of a Tauc-Lorentz model, which raises TypeError for every single number in its range (C156_tauc, case glassy_stops), and that of a formula with too few parameters or an incomplete pair (C156_few; C156_refuted in doubles). What holds: the catalogue of a folder of files is built exactly if the folder can be listed and every data file is loaded as a material that has a range with two ends and, at the reference point, an index or a ValueError (C156_iff_partial). |
| C157 | Tables of YAML files whose columns do not fit their kind | partial | Refuted: a table with further columns is loaded as if they were not there, so that an index table `tabulated n` with a third column of extinction coefficients gives a material without absorption (C157_further, for every kind and every place in the file; C157_refuted). What holds: too few columns (C157_few) and rows of different lengths (C157_ragged, with NumPy 1.24 or later) raise an exception wherever the table stands. The equality in C157_further is about the answers: the real object keeps the further columns and writes them again when it is saved, which the model of interpolations leaves out. |
| C158 | Remarks in the headers of text files | partial | Refuted: a line counts if what is in front of its colon begins with the name of a field, so the remark `Unit cell: cubic` is taken for the unit and a file in micrometres is no longer loaded (C158_refuted, for double precision). What holds: a line that does not begin so for the kind of data, the spectrum type or the unit makes no difference to the answers, wherever it stands (C158_harmless_partial); lines that fill one of these fields with the same value are interchangeable whatever follows the name (C158_taken); an unknown unit given in any such line stops the loading, for every kind of table (C158_unknown_unit). |

import Verif.Py.Basic
import Verif.Py.Float
import Verif.Py.Ideal
import Verif.Model.Spectrum
import Verif.Spec.Names
import Verif.Spec.Physics
import Verif.Check.Doubles
import Verif.Check.RepoTests
import Verif.Lemmas.Ideal
import Verif.Lemmas.Spectrum
import Verif.Lemmas.MinMax
import Verif.Props.SpectrumNames
import Verif.Props.SpectrumPhysics
import Verif.Props.SpectrumContains
import Verif.Model.SpectralData
import Verif.Lemmas.Laws
import Verif.Py.Double
import Verif.Lemmas.Rounding
import Verif.Lemmas.RelativeError
import Verif.Lemmas.DecimalRounding
import Verif.Props.DoubleConversions
import Verif.Props.DoubleRange
import Verif.Lemmas.SciPyIdeal
import Verif.Props.DataBasics
import Verif.Props.DataEval
import Verif.Props.Interpolation
import Verif.Props.Formulas
import Verif.Lemmas.Complex
import Verif.Props.Permittivity
import Verif.Props.Extrapolation
import Verif.Py.Text
import Verif.Model.Tables
import Verif.Model.Material
import Verif.Lemmas.Metres
import Verif.Spec.Material
import Verif.Props.MaterialArgs
import Verif.Props.MaterialBuild
import Verif.Props.MaterialParts
import Verif.Props.MaterialFiles
import Verif.Props.MaterialEval
import Verif.Props.MaterialConstant
import Verif.Props.MaterialRange
import Verif.Props.ModelRange
import Verif.Props.UnitRange
import Verif.Props.MaterialEquality
import Verif.Props.MaterialAlpha
import Verif.Model.EffectiveMedium
import Verif.Props.MixingFormulas
import Verif.Props.MediumBuild
import Verif.Props.EffectiveMedium
import Verif.Model.Printing
import Verif.Spec.Lines
import Verif.Lemmas.Text
import Verif.Lemmas.PrintingIdeal
import Verif.Props.TableText
import Verif.Props.TablePrint
import Verif.Props.TableRepair
import Verif.Model.Files
import Verif.Spec.Header
import Verif.Lemmas.Files
import Verif.Props.HeaderLines
import Verif.Props.ReaderOrder
import Verif.Props.TextFiles
import Verif.Props.TextCycle
import Verif.Props.TextRoundTrip
import Verif.Props.WriterData
import Verif.Props.TextTables
import Verif.Props.WriterCalls
import Verif.Props.ReaderReuse
import Verif.Props.CommentCycle
import Verif.Props.Reload
import Verif.Props.YamlWrite
import Verif.Spec.Yaml
import Verif.Lemmas.YamlIdeal
import Verif.Props.YamlRead
import Verif.Props.VectorText
import Verif.Props.YamlCycle
import Verif.Props.YamlReload
import Verif.Props.YamlMaterials
import Verif.Py.Paths
import Verif.Model.Catalogue
import Verif.Props.Aliases
import Verif.Props.AliasLookup
import Verif.Props.Building
import Verif.Lemmas.Paths
import Verif.Props.CatalogueRows
import Verif.Props.CatalogueBuilt
import Verif.Props.CatalogueBounds
import Verif.Props.CatalogueWhole
import Verif.Props.CatalogueTables
import Verif.Model.Csv
import Verif.Lemmas.Csv
import Verif.Props.CsvRoundTrip
import Verif.Props.CsvLosses
import Verif.Props.CsvReload
import Verif.Lemmas.CsvCut
import Verif.Model.CsvInterrupted
import Verif.Props.CatalogueInterrupted
import Verif.Model.Ascii
import Verif.Props.AsciiPrint
import Verif.Model.Config
import Verif.Props.ConfigLookup
import Verif.Props.ConfigValid
import Verif.Model.Setup
import Verif.Props.Prompts
import Verif.Props.SetupScript
import Verif.Props.CatalogueCorrected
import Verif.Props.RiiNames
import Verif.Props.Causality
import Verif.Props.CausalityLimit
import Verif.Lemmas.InterpRounding
import Verif.Props.DoubleInterpolation
import Verif.Model.Examples
import Verif.Model.Plot
import Verif.Props.TextMaterials
import Verif.Props.ExampleFiles
import Verif.Props.Plots
import Verif.Model.Session
import Verif.Props.Sessions
import Verif.Model.Shared
import Verif.Props.SharedCatalogue
import Verif.Props.EndToEnd
import Verif.Props.UnitFree
import Verif.Props.NormalDispersion
import Verif.Props.SumRule
import Verif.Props.SampleEnds
import Verif.Lemmas.RootRounding
import Verif.Props.DoublePermittivity
import Verif.Props.FileRejects
import Verif.Lemmas.Splines
import Verif.Props.Continuation
import Verif.Props.ContinuationUnits
import Verif.Props.FormulaFiles
import Verif.Lemmas.SumRounding
import Verif.Props.FormulaAccuracy
import Verif.Props.MediumBounds
import Verif.Props.MaterialHistory
import Verif.Props.TableAccuracy
import Verif.Props.RiiFormula
import Verif.Props.FormulaUnits
import Verif.Model.NumpyText
import Verif.Props.NumpyText
import Verif.Lemmas.PrintRounding
import Verif.Props.TextDrift
import Verif.Props.TextDriftCase
import Verif.Props.TextAccuracy
import Verif.Props.TextExtinction
import Verif.Props.TextMetres
import Verif.Props.YamlAccuracy
import Verif.Props.DoublePassive
import Verif.Lemmas.SignedError
import Verif.Props.DoubleModels
import Verif.Model.Interrupted
import Verif.Lemmas.RoundingMono
import Verif.Props.InterruptedSave
import Verif.Props.CutNumbers
import Verif.Props.InterruptedLoss
import Verif.Props.DoubleOrder
import Verif.Model.Arrays
import Verif.Spec.Copies
import Verif.Props.ArraySharing
import Verif.Model.PandasNumbers
import Verif.Lemmas.ShortestDecimal
import Verif.Lemmas.Xstrtod
import Verif.Lemmas.XstrtodRange
import Verif.Props.CatalogueNumbers
import Verif.Props.YamlDrift
import Verif.Props.DoubleMixtures
import Verif.Props.MediumEntries
import Verif.Props.MixtureAccuracy
import Verif.Props.BruggemanAccuracy
import Verif.Model.Disk
import Verif.Lemmas.Disk
import Verif.Props.FileNames
import Verif.Model.SetupDisk
import Verif.Props.SetupDisk
import Verif.Props.SetupOutcome
import Verif.Props.SetupAgain
import Verif.Props.FanoProfile
import Verif.Props.FanoAccuracy
import Verif.Props.TaucAccuracy
import Verif.Props.BoundedEntries
import Verif.Lemmas.ComplexRounding
import Verif.Props.MixtureConditioned
import Verif.Lemmas.ComplexRoot
import Verif.Props.BruggemanNothing
import Verif.Props.BruggemanLossy
import Verif.Props.AbsorbingMixtures
import Verif.Props.BruggemanAbsorbing
import Verif.Props.NestedMixtures
import Verif.Props.NestedAccuracy
import Verif.Props.PlainTables
import Verif.Props.EditedCatalogue
import Verif.Props.BuildFailures
import Verif.Props.HandYaml
import Verif.Props.UnknownNames
import Verif.Props.OneValue
import Verif.Model.DiskCatalogue
import Verif.Props.DatabaseThere
import Verif.Props.UnknownKinds
import Verif.Props.ParameterCounts
import Verif.Props.LoadableFiles
import Verif.Props.TableColumns
import Verif.Props.Remarks

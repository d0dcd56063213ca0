import Verif.Lemmas.Afteran
import Verif.Lemmas.AfteranKept
import Verif.Lemmas.CastCatalog
import Verif.Lemmas.CatalogueUtilities
import Verif.Lemmas.Cells
import Verif.Lemmas.Completeness
import Verif.Lemmas.Concrete
import Verif.Lemmas.Configuration
import Verif.Lemmas.ConfigurationKeys
import Verif.Lemmas.Csv
import Verif.Lemmas.Double
import Verif.Lemmas.DoubleArange
import Verif.Lemmas.DoubleSum
import Verif.Lemmas.EqCatalog
import Verif.Lemmas.EqCatalogRow
import Verif.Lemmas.FileUse
import Verif.Lemmas.Format
import Verif.Lemmas.FormatOrder
import Verif.Lemmas.GardnerKnopoff
import Verif.Lemmas.Hastings
import Verif.Lemmas.Header
import Verif.Lemmas.Invariance
import Verif.Lemmas.Kijko
import Verif.Lemmas.Nrml
import Verif.Lemmas.NrmlRead
import Verif.Lemmas.Numpy
import Verif.Lemmas.OrdinaryCatalog
import Verif.Lemmas.Processing
import Verif.Lemmas.Recurrence
import Verif.Lemmas.Rpow
import Verif.Lemmas.Weichert
import Verif.Lemmas.WeichertNewton
import Verif.Lemmas.XmlText
import Verif.Model.CatalogueUtilities
import Verif.Model.Completeness
import Verif.Model.Configuration
import Verif.Model.Console
import Verif.Model.Csv
import Verif.Model.Declustering
import Verif.Model.Distances
import Verif.Model.EqCatalog
import Verif.Model.Fault
import Verif.Model.Format
import Verif.Model.MaxObserved
import Verif.Model.MaximumMagnitude
import Verif.Model.Nrml
import Verif.Model.Numpy
import Verif.Model.Recurrence
import Verif.Model.Repr
import Verif.Model.Sampler
import Verif.Model.SourceModel
import Verif.Model.SpecialFloat
import Verif.Model.Table
import Verif.Model.TextProgram
import Verif.Model.Workflow
import Verif.Model.XmlText
import Verif.Model.YamlConfig
import Verif.Model.YamlScalar
import Verif.Props.Afteran
import Verif.Props.AfteranExamples
import Verif.Props.Boundaries
import Verif.Props.CatalogueUtilities
import Verif.Props.Chaining
import Verif.Props.Checks
import Verif.Props.Columns
import Verif.Props.CommandLine
import Verif.Props.Completeness
import Verif.Props.CompletenessExamples
import Verif.Props.ConfigDecimals
import Verif.Props.ConfigDigits
import Verif.Props.ConfigExtra
import Verif.Props.ConfigNumbers
import Verif.Props.ConfigPointed
import Verif.Props.ConfigRead
import Verif.Props.ConfigSpelled
import Verif.Props.ConfigText
import Verif.Props.Configuration
import Verif.Props.Console
import Verif.Props.Csv
import Verif.Props.CumulativeBounds
import Verif.Props.CumulativeMoment
import Verif.Props.CumulativeValues
import Verif.Props.DeclusteringValues
import Verif.Props.Distances
import Verif.Props.Documented
import Verif.Props.DoubleAfteran
import Verif.Props.DoubleBValue
import Verif.Props.DoubleBins
import Verif.Props.DoubleDates
import Verif.Props.DoubleDecluster
import Verif.Props.DoubleFault
import Verif.Props.DoubleFile
import Verif.Props.DoubleFileRun
import Verif.Props.DoubleGk
import Verif.Props.DoubleJulian
import Verif.Props.DoubleMfd
import Verif.Props.DoubleMle
import Verif.Props.DoubleMleTable
import Verif.Props.DoubleMoment
import Verif.Props.DoublePeriods
import Verif.Props.DoubleRates
import Verif.Props.DoubleReader
import Verif.Props.DoubleRowOrder
import Verif.Props.DoubleRuns
import Verif.Props.DoubleStepp
import Verif.Props.DoubleSteppYears
import Verif.Props.DoubleStored
import Verif.Props.DoubleTable
import Verif.Props.DoubleText
import Verif.Props.DoubleWeichert
import Verif.Props.DoubleWeights
import Verif.Props.EachYear
import Verif.Props.EqCatalog
import Verif.Props.Equivalence
import Verif.Props.EquivalenceExamples
import Verif.Props.EquivalenceRun
import Verif.Props.Fault
import Verif.Props.FaultValues
import Verif.Props.Files
import Verif.Props.FlagLength
import Verif.Props.GardnerKnopoff
import Verif.Props.GardnerKnopoffExamples
import Verif.Props.GardnerKnopoffReal
import Verif.Props.Geometry
import Verif.Props.Hastings
import Verif.Props.HastingsError
import Verif.Props.Independence
import Verif.Props.IndependenceExamples
import Verif.Props.Irrelevant
import Verif.Props.KeptPairs
import Verif.Props.KeptValues
import Verif.Props.Kijko
import Verif.Props.KijkoExamples
import Verif.Props.KijkoOrder
import Verif.Props.KijkoOutcome
import Verif.Props.KijkoValues
import Verif.Props.LargerWindows
import Verif.Props.MagnitudeRange
import Verif.Props.MagnitudeShift
import Verif.Props.MagnitudeShiftMax
import Verif.Props.MaxObserved
import Verif.Props.MaximumRun
import Verif.Props.Mfd
import Verif.Props.ModelTyped
import Verif.Props.ModelValid
import Verif.Props.MomentBalance
import Verif.Props.NotANumber
import Verif.Props.Nrml
import Verif.Props.NrmlExamples
import Verif.Props.NrmlSchema
import Verif.Props.NrmlValid
import Verif.Props.NumberText
import Verif.Props.NumbersTyped
import Verif.Props.OnlyBoundary
import Verif.Props.Outcomes
import Verif.Props.OutcomesMle
import Verif.Props.OutsideEvents
import Verif.Props.PlainText
import Verif.Props.PositiveRates
import Verif.Props.Preprocessing
import Verif.Props.Processing
import Verif.Props.PublishedWindows
import Verif.Props.Reading
import Verif.Props.Recurrence
import Verif.Props.RecurrenceWeichert
import Verif.Props.ReferenceMagnitude
import Verif.Props.Refinement
import Verif.Props.Regions
import Verif.Props.Repetition
import Verif.Props.Reproducible
import Verif.Props.Retyped
import Verif.Props.RowOrder
import Verif.Props.RowOrderRun
import Verif.Props.RunExamples
import Verif.Props.RunNumbers
import Verif.Props.RunResults
import Verif.Props.Seed
import Verif.Props.Sensitivity
import Verif.Props.SourceIndependence
import Verif.Props.SourceOrder
import Verif.Props.SpecialValues
import Verif.Props.SteppTable
import Verif.Props.SteppValues
import Verif.Props.Table
import Verif.Props.TableFiles
import Verif.Props.TableOrder
import Verif.Props.TextRun
import Verif.Props.TimeShift
import Verif.Props.Uncertainty
import Verif.Props.UnknownAlgorithm
import Verif.Props.UsedEvents
import Verif.Props.ValidRun
import Verif.Props.WeichertBalance
import Verif.Props.WeichertReturns
import Verif.Props.WeichertValues
import Verif.Props.WholeRun
import Verif.Props.Windows
import Verif.Props.Workflow
import Verif.Props.XmlComments
import Verif.Props.XmlLayout
import Verif.Props.XmlReferences
import Verif.Props.XmlText
import Verif.Props.ZeroWindows
import Verif.Py.Double
import Verif.Py.Err
import Verif.Py.Num
import Verif.Py.Text
import Verif.Py.XNum
import Verif.Sanity.Fault
import Verif.Sanity.MaximumMagnitude
import Verif.Sanity.Program
import Verif.Sanity.Recurrence
import Verif.Spec.CatalogueUtilities
import Verif.Spec.Completeness
import Verif.Spec.Configuration
import Verif.Spec.Declustering
import Verif.Spec.EqCatalog
import Verif.Spec.Nrml
import Verif.Spec.NrmlSchema
import Verif.Spec.NumberText
import Verif.Spec.Recurrence
import Verif.Spec.Workflow

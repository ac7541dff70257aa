import Verif.Props.AgreeCruise
import Verif.Props.ClockImputator
import Verif.Props.CloudHistory
import Verif.Props.CloudText
import Verif.Props.Consistency
import Verif.Props.Continuity
import Verif.Props.Convex
import Verif.Props.CostIntegral
import Verif.Props.Course
import Verif.Props.CourseNear
import Verif.Props.CruiseSym
import Verif.Props.Cruising
import Verif.Props.Curve
import Verif.Props.CurveExtension
import Verif.Props.CurveSymmetry
import Verif.Props.Data
import Verif.Props.DataHandler
import Verif.Props.DataHeap
import Verif.Props.DataHistory
import Verif.Props.DataRows
import Verif.Props.DataStrip
import Verif.Props.DataText
import Verif.Props.DataTypes
import Verif.Props.DefaultTable
import Verif.Props.Detours
import Verif.Props.Diagram
import Verif.Props.DiagramHeap
import Verif.Props.Directory
import Verif.Props.ExactCourse
import Verif.Props.ExactCruise
import Verif.Props.ExactData
import Verif.Props.ExactFiles
import Verif.Props.ExactFuzzy
import Verif.Props.ExactMirror
import Verif.Props.ExactModels
import Verif.Props.ExactObjects
import Verif.Props.ExactOrder
import Verif.Props.ExactPlots
import Verif.Props.ExactRounding
import Verif.Props.ExactRows
import Verif.Props.ExactRuns
import Verif.Props.ExactShepard
import Verif.Props.ExactTables
import Verif.Props.ExactUse
import Verif.Props.ExactWeather
import Verif.Props.ExactWinds
import Verif.Props.Expander
import Verif.Props.Extension
import Verif.Props.Filter
import Verif.Props.FilterOrder
import Verif.Props.Float64
import Verif.Props.FloatBilinear
import Verif.Props.FloatCloud
import Verif.Props.FloatCloudCall
import Verif.Props.FloatCloudHistory
import Verif.Props.FloatCloudSlices
import Verif.Props.FloatCost
import Verif.Props.FloatCourse
import Verif.Props.FloatCruise
import Verif.Props.FloatDefault
import Verif.Props.FloatFilter
import Verif.Props.FloatFluctuation
import Verif.Props.FloatGlobe
import Verif.Props.FloatIdw
import Verif.Props.FloatImproved
import Verif.Props.FloatInfluence
import Verif.Props.FloatIsochrone
import Verif.Props.FloatMean
import Verif.Props.FloatMember
import Verif.Props.FloatNeighbourhood
import Verif.Props.FloatNmea
import Verif.Props.FloatRescale
import Verif.Props.FloatSampler
import Verif.Props.FloatSlices
import Verif.Props.FloatSmoother
import Verif.Props.FloatSymmetry
import Verif.Props.FloatTable
import Verif.Props.FloatTableCall
import Verif.Props.FloatTableEntries
import Verif.Props.FloatTableSession
import Verif.Props.FloatTableSlices
import Verif.Props.FloatText
import Verif.Props.FloatWeather
import Verif.Props.FloatWeigher
import Verif.Props.FloatWind
import Verif.Props.Fuzzy
import Verif.Props.FuzzyArray
import Verif.Props.FuzzyCrisp
import Verif.Props.FuzzyRepr
import Verif.Props.GivenFunctions
import Verif.Props.Globe
import Verif.Props.GlobeNan
import Verif.Props.GlobePath
import Verif.Props.Hours
import Verif.Props.Idempotent
import Verif.Props.Imputator
import Verif.Props.InPlace
import Verif.Props.Influence
import Verif.Props.InfluenceData
import Verif.Props.Injector
import Verif.Props.InterpSym
import Verif.Props.Interpolator
import Verif.Props.IsochroneLimit
import Verif.Props.Locality
import Verif.Props.MadeTable
import Verif.Props.MapDistance
import Verif.Props.MapGlobe
import Verif.Props.MeasurementErrors
import Verif.Props.Models2d
import Verif.Props.MultiCsv
import Verif.Props.MultiSails
import Verif.Props.Nan
import Verif.Props.Neighbourhood
import Verif.Props.NetDims
import Verif.Props.Nmea
import Verif.Props.Norms
import Verif.Props.Pipeline
import Verif.Props.PipelineAccuracy
import Verif.Props.PipelineFlow
import Verif.Props.PipelineNames
import Verif.Props.Plot
import Verif.Props.PlotCalls
import Verif.Props.PlotColors
import Verif.Props.PlotHull
import Verif.Props.PlotKeywords
import Verif.Props.Pointcloud
import Verif.Props.PointsHistory
import Verif.Props.Quality
import Verif.Props.Regressor
import Verif.Props.Repr
import Verif.Props.Sampler
import Verif.Props.Session
import Verif.Props.Sharp
import Verif.Props.Sharp2
import Verif.Props.SharpCruise
import Verif.Props.SharpGlobe
import Verif.Props.Shepard
import Verif.Props.Slices
import Verif.Props.SmallestCircle
import Verif.Props.Smoother
import Verif.Props.Spiral
import Verif.Props.SpiralEven
import Verif.Props.SpiralReturns
import Verif.Props.SpiralSquare
import Verif.Props.Stability
import Verif.Props.Stamps
import Verif.Props.StatsObjects
import Verif.Props.StdFormat
import Verif.Props.SymmetrizeAll
import Verif.Props.Table
import Verif.Props.TableCall
import Verif.Props.TableChars
import Verif.Props.TableError
import Verif.Props.TableHistory
import Verif.Props.TableSlices
import Verif.Props.TableText
import Verif.Props.UniformSample
import Verif.Props.Weather
import Verif.Props.WeatherError
import Verif.Props.WeatherMulti
import Verif.Props.WeatherSources
import Verif.Props.Weigher
import Verif.Props.WeigherData
import Verif.Props.WeigherStats
import Verif.Props.WeigherSym
import Verif.Props.WeightedPoints
import Verif.Props.Wind
import Verif.Props.WindTriangle

import Verif.Props.FftSize
import Verif.Props.Variogram
import Verif.Props.Factory
import Verif.Props.Padding
import Verif.Props.Grid
import Verif.Props.CovGrid
import Verif.Props.Fft
import Verif.Props.Field
import Verif.Props.FieldCov
import Verif.Props.FieldConst
import Verif.Props.FieldUnclipped
import Verif.Props.FieldWrap
import Verif.Props.FieldExample
import Verif.Props.Dsfmt
import Verif.Props.Random
import Verif.Props.ApiSeed
import Verif.Props.FieldEq
import Verif.Props.Api
import Verif.Props.ApiField
import Verif.Props.ApiSafe
import Verif.Props.ApiPad
import Verif.Props.ApiGrid
import Verif.Props.ApiRun
import Verif.Props.FileIO
import Verif.Props.Ibm
import Verif.Props.Strings
import Verif.Props.CovLookup
import Verif.Props.Threads
import Verif.Props.Empirical
import Verif.Props.EmpiricalLag
import Verif.Props.NormalLaw
import Verif.Props.FieldGauss
import Verif.Props.SeedArray
import Verif.Props.Distr
import Verif.Props.DistrInt
import Verif.Props.VariogramFl
import Verif.Props.VariogramFlWitness
import Verif.Props.Empirical2
import Verif.Spec.ThreadsSim
import Verif.Lemmas.ThreadsSim
import Verif.Props.ThreadsSim
import Verif.Model.DistrFl
import Verif.Lemmas.DistrFl
import Verif.Lemmas.DistrFlWit
import Verif.Props.DistrFl
import Verif.Model.PadAnalyzer
import Verif.Lemmas.PadAnalyzer
import Verif.Props.PadAnalyzer
import Verif.Props.PadAnalyzerLine
import Verif.Props.PadAnalyzerRun
import Verif.Spec.FftwNear
import Verif.Spec.FieldNear
import Verif.Model.FieldFl
import Verif.Lemmas.L2
import Verif.Lemmas.FieldErr
import Verif.Lemmas.FieldErr2
import Verif.Lemmas.FieldErrMean
import Verif.Lemmas.FftNear
import Verif.Lemmas.FftwRefNear
import Verif.Lemmas.FieldFl
import Verif.Lemmas.FieldFl1
import Verif.Lemmas.FieldFl2
import Verif.Lemmas.FieldFl3
import Verif.Lemmas.FieldFlRun
import Verif.Props.FieldFl
import Verif.Model.Surface
import Verif.Spec.Surface
import Verif.Lemmas.Surface
import Verif.Lemmas.SurfaceOps
import Verif.Props.Surface
import Verif.Props.SurfaceInside
import Verif.Props.SurfaceEdge
import Verif.Props.SurfaceIndex
import Verif.Props.SurfaceOps
import Verif.Props.SurfaceNeighbours
import Verif.Props.SurfaceNonConform
import Verif.Props.SurfaceRot
import Verif.Props.SurfaceResample
import Verif.Props.SurfaceIO
import Verif.Props.SurfaceIOCheck
import Verif.Props.TextIO
import Verif.Props.Statistics
import Verif.Props.Kriging
import Verif.Props.Krig2DData
import Verif.Props.Krig2D
import Verif.Props.Krig2DBlocks
import Verif.Props.Krig2DCont
import Verif.Props.Krig2DContBlocks
import Verif.Props.Krig2DIndex
import Verif.Props.InterpLinear
import Verif.Props.InterpSpline
import Verif.Props.NormalDistr
import Verif.Props.PhiInverse
import Verif.Props.TruncatedNormal
import Verif.Props.LogNormalDistr
import Verif.Props.Beta
import Verif.Props.BetaEnd
import Verif.Props.Extrapolator
import Verif.Props.Line
import Verif.Props.LineLine
import Verif.Props.IntersectXY
import Verif.Props.Plane
import Verif.Props.Triangle
import Verif.Props.Box
import Verif.Props.Transformation
import Verif.Props.Polygon
import Verif.Props.PolygonMore
import Verif.Props.PolygonLength
import Verif.Props.Tangent
import Verif.Props.Bilinear
import Verif.Props.BilinearAbove
import Verif.Props.Volume
import Verif.Props.VolumeHeight
import Verif.Props.VolumeSet
import Verif.Props.PostNormal
import Verif.Props.PostSecondary
import Verif.Props.MultiNormal
import Verif.Props.LinAlg
import Verif.Props.GridMore
import Verif.Props.StormGrid
import Verif.Props.StormValue
import Verif.Props.Well
import Verif.Props.BlockWell
import Verif.Props.Gamma
import Verif.Props.ChiSquared
import Verif.Props.Wavelet
import Verif.Props.FaceIndexer
import Verif.Props.EclipseFault
import Verif.Props.StormEnds
import Verif.Props.SegyGeometry
import Verif.Props.SegyLines
import Verif.Props.SegyPart
import Verif.Props.SegyArea
import Verif.Props.SegySetup
import Verif.Props.SegyTraces
import Verif.Props.EclipseNumbers
import Verif.Props.EclipsePoints
import Verif.Props.EclipseActive
import Verif.Props.EclipseFind
import Verif.Props.EclipseIndex
import Verif.Props.TrendSearch
import Verif.Props.TrendInterpolation
import Verif.Props.TrendBins
import Verif.Props.TrendRegression
import Verif.Props.TrendValues
import Verif.Props.TrendStatistics
import Verif.Props.SegySamples
import Verif.Props.SegyCube
import Verif.Props.SegyTable
import Verif.Props.SegyPadding
import Verif.Props.TraceHeader
import Verif.Props.CommonHeaders
import Verif.Props.LogKit
import Verif.Props.SegyCheck
import Verif.Props.SegyCompare

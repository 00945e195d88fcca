import Verif.Np.Basic
import Verif.Np.Interp
import Verif.Lemmas.Interp
import Verif.Model.Err
import Verif.Model.EvalCase
import Verif.Lemmas.EvalCase
import Verif.Props.Evaluation
import Verif.Model.Bins
import Verif.Lemmas.Bins
import Verif.Props.Bins
import Verif.Model.Scipy
import Verif.Model.Hist
import Verif.Spec.Step
import Verif.Lemmas.Hist
import Verif.Props.Hist
import Verif.Model.InterpPdf
import Verif.Spec.Linear
import Verif.Lemmas.InterpPdf
import Verif.Props.InterpPdf
import Verif.Props.Paths
import Verif.Props.PathsExact
import Verif.Model.Quant
import Verif.Props.Quant
import Verif.Model.Mixmod
import Verif.Props.Mixmod
import Verif.Props.MixmodGauss
import Verif.Np.Round
import Verif.Model.Packing
import Verif.Props.Packing
import Verif.Model.Sparse
import Verif.Props.Sparse
import Verif.Props.SparseSearch
import Verif.Np.Arr
import Verif.Model.SelfTest
import Verif.Model.Shapes
import Verif.Spec.Index
import Verif.Props.Shapes
import Verif.Model.Dict
import Verif.Model.Ensemble
import Verif.Model.Classes
import Verif.Lemmas.Dict
import Verif.Lemmas.RowCls
import Verif.Lemmas.Classes
import Verif.Spec.Ens
import Verif.Lemmas.Kinds
import Verif.Lemmas.Select
import Verif.Lemmas.Reach
import Verif.Lemmas.Ancil
import Verif.Props.ExEns
import Verif.Props.Select
import Verif.Lemmas.Stack
import Verif.Props.Stack
import Verif.Model.State
import Verif.Props.State
import Verif.Props.Frame
import Verif.Model.EnsEval
import Verif.Props.SliceEval
import Verif.Model.Tables
import Verif.Spec.Tables
import Verif.Lemmas.Tables
import Verif.Props.Tables
import Verif.Props.Chunks
import Verif.Lemmas.H5
import Verif.Props.Writing
import Verif.Props.Alloc
import Verif.Model.Registry
import Verif.Props.Registry
import Verif.Model.Convert
import Verif.Props.Convert
import Verif.Props.ConvertGrid
import Verif.Props.ConvertSamples
import Verif.Np.Linspace
import Verif.Model.Metrics
import Verif.Model.PointStats
import Verif.Props.MetricGrid
import Verif.Props.Brier
import Verif.Props.BrierChunks
import Verif.Model.Moments
import Verif.Model.MetricsReal
import Verif.Lemmas.Sorted
import Verif.Props.CdeLoss
import Verif.Props.GoodnessOfFit
import Verif.Props.PointStats
import Verif.Props.Moments
import Verif.Props.Divergence
import Verif.Props.NearUniform
import Verif.Props.NearUniformMass
import Verif.Props.Profile
import Verif.Model.Pit
import Verif.Model.Gof
import Verif.Model.MetricRegistry
import Verif.Props.Pit
import Verif.Props.Gof
import Verif.Props.MetricRegistry
import Verif.Props.AndersonDarling
import Verif.Model.PackedPdf
import Verif.Props.PackedPdf
import Verif.Props.Integrals
import Verif.Model.Front
import Verif.Props.Front
import Verif.Model.Spline
import Verif.Model.SplineReal
import Verif.Lemmas.Spline
import Verif.Props.Spline
import Verif.Model.SparsePdf
import Verif.Props.SparsePdf
import Verif.Ex.Rows
import Verif.Ex.Packs
import Verif.Ex.Ens
import Verif.Ex.Metrics
import Verif.Model.QuantEval
import Verif.Props.ConvertQuant
import Verif.Props.ConvertError
import Verif.Model.PitMeta
import Verif.Props.PitMeta
import Verif.Model.SparseGrid
import Verif.Props.SparseGrid
import Verif.Model.Rbpe
import Verif.Props.Rbpe
import Verif.Lemmas.Integral
import Verif.Model.Stats
import Verif.Props.RealIntegral
import Verif.Props.Variance
import Verif.Model.MixReal
import Verif.Lemmas.Gauss
import Verif.Props.MixReal
import Verif.Model.Kde
import Verif.Props.Kde
import Verif.Model.Digest
import Verif.Props.Digest
import Verif.Props.DigestPit
import Verif.Props.Inspect
import Verif.Props.SparseEns
import Verif.Model.Freeze
import Verif.Props.Freeze
import Verif.Props.WritingAnalytic
import Verif.Model.Sampling
import Verif.Props.Sampling
import Verif.Model.SampleConvert
import Verif.Props.SampleConvert
import Verif.Model.MetricObjects
import Verif.Props.MetricObjects
import Verif.Props.QuantMass
import Verif.Model.Logs
import Verif.Props.Logs
import Verif.Model.QuantSpline
import Verif.Props.QuantSpline
import Verif.Model.Analytic
import Verif.Spec.Analytic
import Verif.Props.Analytic
import Verif.Spec.Curves
import Verif.Model.EnsCurves
import Verif.Props.EndToEnd
import Verif.Props.EndToEndSparse
import Verif.Model.EnsCurvesReal
import Verif.Props.EndToEndReal
import Verif.Model.StatsReal
import Verif.Props.ShapeStats
import Verif.Model.Entropy
import Verif.Props.Entropy
import Verif.Model.Cholesky
import Verif.Props.Cholesky
import Verif.Props.PackedCurves
import Verif.Model.Plot
import Verif.Props.Plot
import Verif.Props.ConvertInterpError
import Verif.Props.Proper
import Verif.Props.PitLaw
import Verif.Props.ConvertExpect
import Verif.Props.ConvertSelect
import Verif.Props.ConvertParts
import Verif.Props.Units
import Verif.Props.UnitsMetrics
import Verif.Props.Stream
import Verif.Props.StreamMetrics
import Verif.Lemmas.Rounding
import Verif.Lemmas.RoundDigits
import Verif.Props.Rounding
import Verif.Props.RoundingInterp
import Verif.Props.RoundingEval
import Verif.Model.DTypes
import Verif.Lemmas.FloatRound
import Verif.Props.DTypes
import Verif.Props.SinglePrecision
import Verif.Model.Sharing
import Verif.Spec.Sharing
import Verif.Lemmas.Sharing
import Verif.Lemmas.SharingStep
import Verif.Props.Sharing
import Verif.Props.Accept
import Verif.Props.AcceptMore
import Verif.Props.Lazy
import Verif.Props.Order
import Verif.Props.Refine
import Verif.Props.Mirror
import Verif.Props.MirrorInner
import Verif.Props.Robust
import Verif.Props.Stability
import Verif.Props.Dominance
import Verif.Props.PlotMore
import Verif.Props.Rebin
import Verif.Props.LargeSamples
import Verif.Props.OrderMore
import Verif.Props.RoundingIrregular
import Verif.Props.RoundingPpf
import Verif.Props.QuadSpline
import Verif.Props.QuadSplineMono
import Verif.Props.CubicSplineReal
import Verif.Props.Splrep
import Verif.Props.SplineConvert
import Verif.Props.AndersonKs
import Verif.Props.QuantStable
import Verif.Props.QuantStableSpline
import Verif.Props.EdgesStable
import Verif.Props.SparseTable
import Verif.Props.Mismatch
import Verif.Props.TrueCounts
import Verif.Props.SamplingMore
import Verif.Props.PlotPacked
import Verif.Props.FineGrid
import Verif.Props.FineConvert
import Verif.Props.FineInterpCdf
import Verif.Props.Contraction
import Verif.Props.QuantFine
import Verif.Lemmas.AndersonKs
import Verif.Lemmas.CubicSpline
import Verif.Lemmas.CubicStable
import Verif.Lemmas.CubicUnits
import Verif.Lemmas.LargeNumbers
import Verif.Lemmas.QuadSpline
import Verif.Lemmas.QuantStable
import Verif.Lemmas.Riemann
import Verif.Lemmas.Splrep
import Verif.Model.Alloc
import Verif.Model.AndersonKs
import Verif.Model.CubicSpline
import Verif.Model.H5
import Verif.Model.Lazy
import Verif.Model.Mismatch
import Verif.Model.QuadSpline
import Verif.Model.QuantPdfEval
import Verif.Model.Rounding
import Verif.Model.SparseEns
import Verif.Model.SparseTable
import Verif.Model.Splrep
import Verif.Model.SplrepReal
import Verif.Props.CubicSpline
import Verif.Props.QuadNear
import Verif.Spec.CubicSpline
import Verif.Spec.QuadSpline
import Verif.Spec.Rounding
import Verif.Spec.SparseTable
import Verif.Props.MetricClose
import Verif.Props.PitFine
import Verif.Props.Chain
import Verif.Props.PitDetects
import Verif.Model.QuantTypes
import Verif.Props.QuantTypes
import Verif.Props.GofConvert
import Verif.Props.StreamReal
import Verif.Props.NestedMetrics
import Verif.Model.NestedPit
import Verif.Props.SelfTest
import Verif.Model.Random
import Verif.Props.Random
import Verif.Props.Padding
import Verif.Model.Declared
import Verif.Props.Declared
import Verif.Props.PaddingInterp
import Verif.Props.PaddingPacked
import Verif.Props.PaddingMoments
import Verif.Props.PaddingHistMoments
import Verif.Props.RefineBound
import Verif.Props.RefineCell

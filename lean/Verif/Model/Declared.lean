import Verif.Model.MetricsReal
import Verif.Model.Moments
import Verif.Model.PointStats
import Verif.Model.Pit
import Verif.Model.Rbpe
import Verif.Model.Gof

/-!
# What metrics declare

Sources: `/repo/src/qp/metrics/base_metric_classes.py` (`MetricInputType`, `MetricOutputType`, the base classes),
`/repo/src/qp/metrics/concrete_metric_classes.py` and `/repo/src/qp/metrics/point_estimate_metric_classes.py` (the attributes `metric_name`,
`metric_input_type`, `metric_output_type` and the methods `evaluate` of the classes).
-/

set_option linter.unusedSectionVars false
set_option autoImplicit false

namespace Verif.Model

open Verif Verif.Np

/-- `MetricInputType`, `base_metric_classes.py` 6-28 -/
inductive InType
  | unknown | singleEnsemble | distToPoint | distToDist | pointToPoint | pointToDist
  deriving DecidableEq

/-- `MetricOutputType`, `base_metric_classes.py` 56-68 -/
inductive OutType
  | unknown | singleValue | singleDistribution | oneValuePerDistribution
  deriving DecidableEq

/-- `uses_distribution_for_estimate`, `base_metric_classes.py` 30-35 -/
def InType.distEstimate (t : InType) : Bool := [InType.singleEnsemble, .distToPoint, .distToDist].contains t

/-- `uses_distribution_for_reference`, `base_metric_classes.py` 37-41 -/
def InType.distReference (t : InType) : Bool := [InType.distToDist, .pointToDist].contains t

/-- `uses_point_for_estimate`, `base_metric_classes.py` 43-47 -/
def InType.pointEstimate (t : InType) : Bool := [InType.pointToDist, .pointToPoint].contains t

/-- `uses_point_for_reference`, `base_metric_classes.py` 49-53 -/
def InType.pointReference (t : InType) : Bool := [InType.distToPoint, .pointToPoint].contains t

/-- the metric classes of `concrete_metric_classes.py` and `point_estimate_metric_classes.py` that have a name -/
inductive MetricCls
  | moment | kld | rmse | rbpe | brier | outlier | ad | cvm | ks | pit | cdeloss | ez | iqr | bias | pointOutlier | mad
  deriving DecidableEq

/-- `metric_input_type`, inherited from the base class: `base_metric_classes.py` 111-187 -/
def MetricCls.input : MetricCls → InType
  | .moment | .rbpe | .outlier => .singleEnsemble
  | .kld | .rmse | .ad | .cvm | .ks => .distToDist
  | .brier | .pit | .cdeloss => .distToPoint
  | .ez | .iqr | .bias | .pointOutlier | .mad => .pointToPoint

/-- `metric_output_type`, `concrete_metric_classes.py` 72, 92, 105, 118, 133, 158, 174, 205, 236, 267, 307 and
`point_estimate_metric_classes.py` 76, 105, 145, 179, 236 -/
def MetricCls.output : MetricCls → OutType
  | .moment | .kld | .rmse | .rbpe | .outlier | .ad | .cvm | .ks | .ez => .oneValuePerDistribution
  | .brier | .cdeloss | .iqr | .bias | .pointOutlier | .mad => .singleValue
  | .pit => .singleDistribution

/-- the arguments of the constructors: order of the moment, `limits` and `dx`, limits of the risk based estimates and the minimiser (C88), `cdf_limits`,
`num_samples`, `eval_grid` -/
structure MetricSettings where
  order : ℕ
  l0 : ℝ
  l1 : ℝ
  dx : ℝ
  rbpeLimits : Option (ℝ × ℝ)
  minimise : (ℝ → ℝ) → Option (ℝ × ℝ) → ℝ
  lower : ℝ
  upper : ℝ
  numSamples : ℕ
  grid : List ℝ

/-- what the metrics use of an ensemble: densities, CDFs, quantile functions, logarithms of the CDFs and the samples that `rvs` gives -/
structure MEns where
  dens : FnEns ℝ
  pdfs : List (RefPdf ℝ)
  ppfs : List (ℝ → ℝ)
  sample : ℕ → List (List ℝ)

/-- an argument of `evaluate`: an ensemble or an array of numbers -/
inductive MArg
  | ens (e : MEns)
  | points (v : List ℝ)

/-- a result of `evaluate`: one number (`nan` is `none`), an array of numbers, or the ensemble of one PDF made from quantiles and locations -/
inductive MRes
  | value (v : Option ℝ)
  | values (l : List ℝ)
  | dist (q : List ℝ × List ℝ)

/-- `evaluate(estimate)`, `evaluate(estimate, reference)` of the metric classes, `concrete_metric_classes.py` 84, 97, 110, 123, 139, 164, 191, 222, 253,
274, 314, `point_estimate_metric_classes.py` 81, 110, 150, 184, 244. The wrong number of arguments is a `TypeError`; arguments of the wrong kind are not
followed. The CDFs of an ensemble are numbers here (`PIT` allows `nan`). -/
noncomputable def evaluateCls (c : MetricCls) (s : MetricSettings) (args : List MArg) : Except Err MRes :=
  match c, args with
  | .moment, [.ens e] => (calculateMoment e.dens s.order s.l0 s.l1 s.dx).map .values
  | .rbpe, [.ens e] => .ok (.values (calcRbpe s.minimise s.rbpeLimits (e.dens.fns.zip e.ppfs)))
  | .outlier, [.ens e] => .ok (.values (e.pdfs.map fun R => outlierRate R.cdf s.lower s.upper))
  | .kld, [.ens p, .ens q] => (calculateKld p.dens q.dens s.l0 s.l1 s.dx).map .values
  | .rmse, [.ens p, .ens q] => (calculateRmse p.dens q.dens s.l0 s.l1 s.dx).map .values
  | .ad, [.ens p, .ens q] => (goodnessOfFit (p.sample s.numSamples) s.numSamples q.pdfs "ad").map .values
  | .cvm, [.ens p, .ens q] => (goodnessOfFit (p.sample s.numSamples) s.numSamples q.pdfs "cvm").map .values
  | .ks, [.ens p, .ens q] => (goodnessOfFit (p.sample s.numSamples) s.numSamples q.pdfs "ks").map .values
  | .brier, [.ens p, .points z] => (calculateBrier p.dens z s.l0 s.l1 s.dx).map .value
  | .cdeloss, [.ens p, .points z] => (cdeEvaluate s.grid p.dens z).map .value
  | .pit, [.ens p, .points z] => (pitInit (p.pdfs.map fun R x => some (R.cdf x)) z s.grid).map fun r => .dist r.2
  | .ez, [.points a, .points b] => (ezList a b).map .values
  | .iqr, [.points a, .points b] => (sigmaIqr a b).map fun v => .value (some v)
  | .bias, [.points a, .points b] => (pointBias a b).map .value
  | .pointOutlier, [.points a, .points b] => (pointOutlier a b).map fun v => .value (some v)
  | .mad, [.points a, .points b] => (sigmaMad a b).map .value
  | c, args => if args.length = (if c.input = .singleEnsemble then 1 else 2) then .error .Unmodelled else .error .TypeError

end Verif.Model

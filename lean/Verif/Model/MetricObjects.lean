import Verif.Model.MetricsReal
import Verif.Model.Moments

/-!
# Metric objects: their constructors and `evaluate`

Source: `/repo/src/qp/metrics/base_metric_classes.py` 84-86, `/repo/src/qp/metrics/concrete_metric_classes.py` 28-32, 67-330,
`/repo/src/qp/metrics/point_estimate_metric_classes.py` 12-14, 78-79, 107-108, 147-148, 181-182, 238-242. A constructor gets its arguments as
keywords (as from `MetricFactory.create_metric`), each at most once, and gives the attributes of the object. A keyword that no parameter takes is
collected by `**kwargs` where the constructor has it, and is a `TypeError` where it does not.
-/

set_option linter.unusedSectionVars false
set_option autoImplicit false

namespace Verif.Model

open Verif Verif.Np

/-- values of the settings -/
inductive MVal (K : Type)
  | num (a : K)
  | pair (a b : K)
  | nat (n : ℕ)
  | grid (l : List K)
  | infPair
  | none_
  deriving DecidableEq

/-- keyword arguments, or the attributes of an object -/
abbrev Kw (K : Type) := List (String × MVal K)

/-- the metric classes with a `metric_name` -/
inductive Metric
  | moment | kld | rmse | rbpe | brier | outlier | ad | cvm | ks | pit | cdeloss | ez | iqr | bias | pointOutlier | mad
  deriving DecidableEq

section
variable {K : Type} [Field K] [LinearOrder K]

/-- the value of a parameter with a default -/
def argOr (kw : Kw K) (k : String) (d : MVal K) : MVal K := (kw.lookup k).getD d

/-- what `**kwargs` collects when these parameters are named -/
def otherArgs (kw : Kw K) (ks : List String) : Kw K := kw.filter fun p => !ks.contains p.1

/-- default of `limits`, `dx`, `tdigest_compression` -/
def defLimits : MVal K := .pair 0 3
def defDx : MVal K := .num (1 / 100)
def defCompression : MVal K := .nat 1000

/-- `BaseMetric.__init__(limits, dx)`, `base_metric_classes.py` 84-86; it has no `**kwargs` -/
def baseInit (kw : Kw K) : Except Err (Kw K) :=
  if otherArgs kw ["limits", "dx"] ≠ [] then .error .TypeError
  else .ok [("_limits", argOr kw "limits" defLimits), ("_dx", argOr kw "dx" defDx)]

/-- `DistToPointMetricDigester.__init__`, `concrete_metric_classes.py` 30-32: passes the other keywords on -/
def distDigesterInit (kw : Kw K) : Except Err (Kw K) := do
  let s ← baseInit (otherArgs kw ["tdigest_compression"])
  .ok (s ++ [("_tdigest_compression", argOr kw "tdigest_compression" defCompression)])

/-- `PointToPointMetricDigester.__init__`, `point_estimate_metric_classes.py` 12-14: drops the other keywords -/
def pointDigesterInit (kw : Kw K) : Except Err (Kw K) := do
  let s ← baseInit []
  .ok (s ++ [("_tdigest_compression", argOr kw "tdigest_compression" defCompression)])

/-- the constructors of the classes; lines of `concrete_metric_classes.py` unless said otherwise -/
def metricInit : Metric → Kw K → Except Err (Kw K)
  -- 74-82
  | .moment, kw => do
    let s ← baseInit [("limits", argOr kw "limits" defLimits), ("dx", argOr kw "dx" defDx)]
    .ok (s ++ [("_moment_order", argOr kw "moment_order" (.nat 1))])
  -- 94-95
  | .kld, kw => baseInit [("limits", argOr kw "limits" defLimits), ("dx", argOr kw "dx" defDx)]
  -- 107-108
  | .rmse, kw => baseInit [("limits", argOr kw "limits" defLimits), ("dx", argOr kw "dx" defDx)]
  -- 120-121
  | .rbpe, kw => baseInit [("limits", argOr kw "limits" .infPair)]
  -- 135-137: the limits and the resolution are put back among the keywords
  | .brier, kw =>
    distDigesterInit (otherArgs kw ["limits", "dx"] ++ [("limits", argOr kw "limits" defLimits), ("dx", argOr kw "dx" defDx)])
  -- 160-162
  | .outlier, kw => do
    let s ← baseInit []
    .ok (s ++ [("_cdf_limits", argOr kw "cdf_limits" (.pair (1 / 10000) (9999 / 10000)))])
  -- 176-181, 207-212, 238-243
  | .ad, kw | .cvm, kw | .ks, kw => do
    let s ← baseInit []
    .ok (s ++ [("_num_samples", argOr kw "num_samples" (.nat 100)), ("_random_state", argOr kw "_random_state" .none_)])
  -- 268-272
  | .pit, kw => do
    let s ← distDigesterInit (otherArgs kw ["eval_grid"])
    .ok (s ++ [("_eval_grid", argOr kw "eval_grid" (.grid (linspace 0 1 100)))])
  -- 308-312: nothing is passed on
  | .cdeloss, kw => do
    let s ← distDigesterInit []
    .ok (s ++ [("_xvals", argOr kw "eval_grid" (.grid (linspace 0 (5 / 2) 301)))])
  -- point_estimate_metric_classes.py 78-79: no keywords at all
  | .ez, kw => if kw ≠ [] then .error .TypeError else baseInit []
  -- point_estimate_metric_classes.py 107-108, 147-148, 181-182
  | .iqr, kw | .bias, kw | .pointOutlier, kw => pointDigesterInit kw
  -- point_estimate_metric_classes.py 238-242
  | .mad, kw => do
    let s ← pointDigesterInit kw
    .ok (s ++ [("_num_bins", argOr kw "num_bins" (.nat 1000000))])

end

/-- the pair stored under an attribute; other values would fail when they are used and are not followed -/
def getPair {K : Type} (s : Kw K) (a : String) : Except Err (K × K) :=
  match s.lookup a with
  | some (.pair x y) => .ok (x, y)
  | _ => .error .Unmodelled

/-- the number stored under an attribute -/
def getNum {K : Type} (s : Kw K) (a : String) : Except Err K :=
  match s.lookup a with
  | some (.num x) => .ok x
  | _ => .error .Unmodelled

/-- the natural number stored under an attribute -/
def getNat {K : Type} (s : Kw K) (a : String) : Except Err ℕ :=
  match s.lookup a with
  | some (.nat x) => .ok x
  | _ => .error .Unmodelled

/-- `KLDMetric.evaluate(estimate, reference)`, `concrete_metric_classes.py` 97-98 -/
noncomputable def kldEvaluate (s : Kw ℝ) (estimate reference : FnEns ℝ) : Except Err (List ℝ) := do
  let l ← getPair s "_limits"
  let dx ← getNum s "_dx"
  calculateKld estimate reference l.1 l.2 dx

/-- `RMSEMetric.evaluate(estimate, reference)`, `concrete_metric_classes.py` 110-111 -/
noncomputable def rmseEvaluate (s : Kw ℝ) (estimate reference : FnEns ℝ) : Except Err (List ℝ) := do
  let l ← getPair s "_limits"
  let dx ← getNum s "_dx"
  calculateRmse estimate reference l.1 l.2 dx

section
variable {K : Type} [Field K] [LinearOrder K] [FloorRing K]

/-- `MomentMetric.evaluate(estimate)`, `concrete_metric_classes.py` 84-85 -/
def momentEvaluate (s : Kw K) (estimate : FnEns K) : Except Err (List K) := do
  let n ← getNat s "_moment_order"
  let l ← getPair s "_limits"
  let dx ← getNum s "_dx"
  calculateMoment estimate n l.1 l.2 dx

/-- `BrierMetric.evaluate(estimate, reference)`, `concrete_metric_classes.py` 139-140 -/
def brierMetricEvaluate (s : Kw K) (estimate : FnEns K) (reference : List K) : Except Err (Option K) := do
  let l ← getPair s "_limits"
  let dx ← getNum s "_dx"
  calculateBrier estimate reference l.1 l.2 dx

/-- `OutlierMetric.evaluate(estimate)`, `concrete_metric_classes.py` 164-167; the functions of the ensemble are the CDFs -/
def outlierEvaluate (s : Kw K) (estimate : FnEns K) : Except Err (List K) := do
  let l ← getPair s "_cdf_limits"
  .ok (estimate.fns.map fun F => outlierRate F l.1 l.2)

end

end Verif.Model

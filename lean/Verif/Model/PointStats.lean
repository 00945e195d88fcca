import Verif.Model.Metrics

/-!
# Statistics of point estimates

Source: `/repo/src/qp/metrics/point_estimate_metric_classes.py`. The variants that work on a t-digest (`accumulate`, `compute_from_digest`)
use the library `pytdigest` and are not modelled, except for the way `eval_from_iterator` combines chunks (`Metrics.lean`).
-/

set_option linter.unusedSectionVars false
set_option autoImplicit false

namespace Verif.Model

open Verif Verif.Np

variable {K : Type} [Field K] [LinearOrder K]

/-- `(estimate - reference) / (1.0 + reference)`, `point_estimate_metric_classes.py` 36, 98, 126, 165, 200, 262. A single estimate or a single
reference goes with all values of the other array (numpy broadcasting), otherwise arrays of different lengths raise `ValueError`. The division
by zero for a reference of -1 (`inf`, `nan`) is not followed. -/
def ezList (est ref : List K) : Except Err (List K) :=
  if est.length = ref.length then
    if ref.any (fun r => 1 + r = 0) then .error .Unmodelled
    else .ok (List.zipWith (fun e r => (e - r) / (1 + r)) est ref)
  else match est, ref with
    | [e], ref => if ref.any (fun r => 1 + r = 0) then .error .Unmodelled else .ok (ref.map fun r => (e - r) / (1 + r))
    | est, [r] => if 1 + r = 0 then .error .Unmodelled else .ok (est.map fun e => (e - r) / (1 + r))
    | _, _ => .error .ValueError

/-- `np.median` of a 1-D array; `nan` for an empty one -/
def npMedian (l : List K) : Option K :=
  let s := Np.sort l
  if l.length % 2 = 1 then s[l.length / 2]?
  else if l.length = 0 then none
  else (s[l.length / 2 - 1]?).bind fun a => (s[l.length / 2]?).map fun b => (a + b) / 2

/-- `np.quantile(l, p)` and `np.percentile(l, 100 p)` of a 1-D array for `0 ≤ p ≤ 1` (linear interpolation between order statistics; the
upper one is clipped to the last). Other `p` raise `ValueError`; the quantiles of an empty array are not followed. -/
def npQuantile [FloorRing K] (p : K) (l : List K) : Except Err K :=
  if p < 0 ∨ 1 < p then .error .ValueError
  else
    let s := Np.sort l
    let h := p * ((l.length : K) - 1)
    let i := ⌊h⌋.toNat
    match s[i]?, s[min (i + 1) (l.length - 1)]? with
    | some a, some b => .ok (a + (b - a) * (h - (i : K)))
    | _, _ => .error .Unmodelled

/-- `PointBias.evaluate`, `point_estimate_metric_classes.py` 150-165 -/
def pointBias (est ref : List K) : Except Err (Option K) := (ezList est ref).map npMedian

/-- the part of `PointSigmaIQR.evaluate` after the residuals, `point_estimate_metric_classes.py` 127-130 -/
def sigmaIqrOf [FloorRing K] (ez : List K) : Except Err K := do
  let x75 ← npQuantile (3 / 4) ez
  let x25 ← npQuantile (1 / 4) ez
  .ok ((x75 - x25) / (1349 / 1000))

/-- `PointSigmaIQR.evaluate`, `point_estimate_metric_classes.py` 110-130 -/
def sigmaIqr [FloorRing K] (est ref : List K) : Except Err K := ezList est ref >>= sigmaIqrOf

/-- the part of `PointSigmaMAD.evaluate` after the residuals, `point_estimate_metric_classes.py` 263-264 -/
def sigmaMadOf (ez : List K) : Option K :=
  (npMedian ez).bind fun m => (npMedian (ez.map fun e => |e - m|)).map fun d => d * (14826 / 10000)

/-- `PointSigmaMAD.evaluate`, `point_estimate_metric_classes.py` 244-264 -/
def sigmaMad (est ref : List K) : Except Err (Option K) := (ezList est ref).map sigmaMadOf

/-- the part of `PointOutlierRate.evaluate` after the residuals, `point_estimate_metric_classes.py` 201-207 -/
def pointOutlierOf [FloorRing K] (ez : List K) : Except Err K := do
  let s ← sigmaIqrOf ez
  let cut := max (6 / 100) (3 * s)
  .ok ((ez.countP fun e => cut < |e| : ℕ) / (ez.length : K))

/-- `PointOutlierRate.evaluate`, `point_estimate_metric_classes.py` 184-207 -/
def pointOutlier [FloorRing K] (est ref : List K) : Except Err K := ezList est ref >>= pointOutlierOf

end Verif.Model

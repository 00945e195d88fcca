import Verif.Model.Metrics

/-!
# Goodness of fit of ensembles

Source: `/repo/src/qp/metrics/metrics.py` (`calculate_goodness_of_fit`, `_check_ensembles_contain_correct_number_of_distributions`) and
`/repo/src/qp/metrics/goodness_of_fit.py`. The random samples drawn from the estimate are an argument of the model: one row of `m` values for
every PDF of the estimate. A reference PDF is given by its distribution function and the logarithms of it and of its complement. Nested
ensembles (`_check_ensemble_is_not_nested` only logs) are not followed.
-/

set_option linter.unusedSectionVars false
set_option autoImplicit false

namespace Verif.Model

open Verif Verif.Np

variable {K : Type} [Field K] [LinearOrder K]

/-- what the statistics use of a reference PDF: `cdf`, `logcdf`, `logsf` -/
structure RefPdf (K : Type) where
  cdf : K → K
  logcdf : K → K
  logsf : K → K

/-- `_anderson_darling(dist, data)` for one PDF, `goodness_of_fit.py` 14-20. Without data the sum is 0. -/
def adStat (logcdf logsf : K → K) (data : List K) : K :=
  let x := Np.sort data
  let n := data.length
  let s (i : ℕ) (v : K × K) : K := (2 * ((i : K) + 1) - 1) / (n : K) * (logcdf v.1 + logsf v.2);
  -(n : K) - Np.sum ((List.range n).zipWith s (x.zip x.reverse))

/-- `goodness_of_fit_metrics`, `goodness_of_fit.py` 54-58: the statistic of a name -/
def gofStat (name : String) : Option (RefPdf K → List K → Except Err K) :=
  if name = "ad" then some fun R data => .ok (adStat R.logcdf R.logsf data)
  else if name = "cvm" then some fun R data => cvmStat R.cdf data
  else if name = "ks" then some fun R data => ksStat R.cdf data
  else none

/-- `_check_ensembles_contain_correct_number_of_distributions(estimate, reference)`, `metrics.py` 495-530 -/
def checkNumbers (nEst nRef : ℕ) : Except Err Unit :=
  if nRef ≠ 1 ∧ nEst ≠ nRef then .error .ValueError else .ok ()

/-- the samples after `np.squeeze`, `metrics.py` 461 -/
inductive GofData (K : Type)
  /-- one PDF and one sample: a 0-d array -/
  | scalar
  /-- one PDF, or one sample for every PDF: a 1-d array -/
  | flat (xs : List K)
  | rows (xs : List (List K))

/-- `np.squeeze` of the array of `m` samples for every PDF -/
def squeezeSamples (m : ℕ) (samples : List (List K)) : GofData K :=
  if samples.length = 1 ∧ m = 1 then .scalar
  else if samples.length = 1 ∨ m = 1 then .flat samples.flatten
  else .rows samples

/-- A statistic of `goodness_of_fit.py` with all reference PDFs and the squeezed samples. Sorting a 0-d array along the last axis raises
`AxisError`, a `ValueError`. A 1-d array is the same points for every reference PDF; a 2-d array has one row for every reference PDF, or its
rows are all evaluated by a single reference PDF; everything else does not broadcast (the cases of C02). -/
def gofEval (stat : RefPdf K → List K → Except Err K) (refs : List (RefPdf K)) : GofData K → Except Err (List K)
  | .scalar => .error .ValueError
  | .flat xs => refs.mapM fun R => stat R xs
  | .rows rs =>
    if refs.length = rs.length then (refs.zip rs).mapM fun p => stat p.1 p.2
    else match refs with
      | [R] => rs.mapM (stat R)
      | _ => .error .ValueError

/-- `calculate_goodness_of_fit(estimate, reference, fit_metric, num_samples)`, `metrics.py` 382-463, given the samples. The `ValueError` of the
check of the sizes is caught and only logged. -/
def goodnessOfFit (samples : List (List K)) (m : ℕ) (refs : List (RefPdf K)) (name : String) : Except Err (List K) :=
  match checkNumbers samples.length refs.length with
  | .ok _ | .error _ =>
    match gofStat name with
    | none => .error .KeyError
    | some stat => gofEval stat refs (squeezeSamples m samples)

end Verif.Model

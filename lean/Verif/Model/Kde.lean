import Verif.Model.MixReal
import Verif.Model.SplineReal
import Mathlib.Analysis.SpecialFunctions.Pow.Real

/-!
# Kernel density estimates and spline PDFs from samples

Source: `/repo/src/qp/utils.py` 125-161 and `/repo/src/qp/spline_pdf.py` 209-229. `sps.gaussian_kde(row)` is modelled from its source for one dimension, no
weights and Scott's rule, the default: the number of samples must be more than one (`ValueError`), the variance (with `n - 1`) must be positive (the Cholesky
decomposition fails with `LinAlgError`, a subclass of `ValueError`), the kernel is the normal density of width `n^(-1/5) · sqrt(variance)`.
-/

set_option autoImplicit false

namespace Verif.Model

open Verif Verif.Np

/-- mean of the samples -/
noncomputable def sampleMean (s : List ℝ) : ℝ := Np.sum s / s.length

/-- `np.cov` of one row with equal weights: the sum of squared deviations divided by `n - 1` -/
noncomputable def sampleVar (s : List ℝ) : ℝ := Np.sum (s.map fun v => (v - sampleMean s) ^ 2) / ((s.length : ℝ) - 1)

/-- width of the kernel: `scotts_factor` is `neff ** (-1 / (d + 4))` with `d = 1` -/
noncomputable def kdeWidth (s : List ℝ) : ℝ := (s.length : ℝ) ^ (-(1 / 5 : ℝ)) * Real.sqrt (sampleVar s)

/-- `kde(x)` -/
noncomputable def kdeEval (s : List ℝ) (x : ℝ) : ℝ := Np.sum (s.map fun v => 1 / (s.length : ℝ) * normPdf v (kdeWidth s) x)

open Classical in
/-- `sps.gaussian_kde(row)`, as used in `build_kdes`, `utils.py` 125-141 -/
noncomputable def buildKde (s : List ℝ) : Except Err (ℝ → ℝ) :=
  if s.length ≤ 1 then .error .ValueError else if sampleVar s = 0 then .error .ValueError else .ok (kdeEval s)

/-- `create_from_samples`, `spline_pdf.py` 209-229: KDEs of the rows of samples, evaluated at the common abscissae (`np.vstack` of no rows raises), splines through
these points (`splrep`, any function of abscissae and ordinates), divided by their integrals between the smallest and the largest abscissa
(`create_from_xy_vals`, 188-207). The abscissae are not empty (`np.min` raises). -/
noncomputable def splFromSamples (splrep : List ℝ → List ℝ → SplRow ℝ) (xs : List ℝ) (samples : List (List ℝ)) : Except Err (List (SplRow ℝ)) := do
  let kdes ← samples.mapM buildKde
  if kdes = [] then .error .ValueError
  else
    match xs.min?, xs.max? with
    | some lo, some hi => .ok (splBuild (kdes.map fun f => splrep xs (xs.map f)) lo hi)
    | _, _ => .error .ValueError

end Verif.Model

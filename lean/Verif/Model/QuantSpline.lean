import Verif.Model.Quant
import Mathlib.Analysis.Calculus.Deriv.Basic

/-!
# The reconstruction of a quantile density as derivative of a spline

Source: `/repo/src/qp/quantile_pdf_constructors/cdf_spline_derivative.py` 33-93.
-/

set_option linter.unusedSectionVars false
set_option autoImplicit false

namespace Verif.Model

open Verif Verif.Np

/-- `InterpolatedUnivariateSpline(locations, quantiles, k=3, ext=1).derivative()` of one row, evaluated at `x` (`cdf_spline_derivative.py` 52-57). `S` is the
spline that scipy puts through the points, continued beyond the last points by its end polynomials; the derivative keeps `ext=1`, which answers zero
outside the locations. scipy needs at least four points. `none` stands for no locations at all. -/
noncomputable def splineDerivPdf (S : List (ℝ × ℝ) → ℝ → ℝ) (quants locs : List ℝ) (x : ℝ) : Option ℝ :=
  match locs with
  | [] => none
  | l0 :: t =>
    if x < l0 then some 0
    else if (l0 :: t).getLast (by simp) < x then some 0
    else some (deriv (S ((l0 :: t).zip quants)) x)

end Verif.Model

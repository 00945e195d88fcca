import Verif.Model.Spline
import Mathlib.MeasureTheory.Integral.IntervalIntegral.Basic

/-!
# Construction of spline PDFs from points

Source: `/repo/src/qp/spline_pdf.py` 18-80 and 157-186. `scipy.integrate.quad` is taken to be the exact integral.
-/

set_option autoImplicit false

namespace Verif.Model

open MeasureTheory

/-- `build_normed_splines` on the splines through the given points: each row is divided by the integral of its own (continued) spline over the
limits, which are the smallest and the largest abscissa of *all* rows (lines 182-185; the first and last interval of `splrep`'s knots end at the
first and last abscissa of the row). -/
noncomputable def splBuild (rows : List (SplRow ℝ)) (xmin xmax : ℝ) : List (SplRow ℝ) :=
  rows.map fun r => splNorm r (∫ x in xmin..xmax, splev r x)

end Verif.Model

import Verif.Model.Mixmod
import Verif.Model.Metrics
import Mathlib.Probability.Distributions.Gaussian.Real

/-!
# Gaussian mixtures over the reals

Source: `/repo/src/qp/mixmod_pdf.py` 95-135. `sps.norm` is modelled by the formula in its source (`exp(-z²/2) / sqrt(2π) / scale` with
`z = (x - loc) / scale`); `norm.cdf` (the special function `ndtr`) is the standard normal probability of `(-∞, z]`.
-/

set_option autoImplicit false

namespace Verif.Model

open Verif Verif.Np MeasureTheory ProbabilityTheory

/-- `sps.norm(loc=μ, scale=σ).pdf(x)` -/
noncomputable def normPdf (μ σ x : ℝ) : ℝ := Real.exp (-((x - μ) / σ) ^ 2 / 2) / Real.sqrt (2 * Real.pi) / σ

/-- `sps.norm(loc=μ, scale=σ).cdf(x)` -/
noncomputable def normCdf (μ σ x : ℝ) : ℝ := (gaussianReal 0 1).real (Set.Iic ((x - μ) / σ))

/-- `_pdf` of one mixture, `mixmod_pdf.py` 95-105 -/
noncomputable def gmixPdf (w μs σs : List ℝ) (x : ℝ) : ℝ := mixEval w (List.zipWith normPdf μs σs) x

/-- `_cdf` of one mixture, `mixmod_pdf.py` 107-117 -/
noncomputable def gmixCdf (w μs σs : List ℝ) (x : ℝ) : ℝ := mixEval w (List.zipWith normCdf μs σs) x

/-- the grid of `_ppf`, `mixmod_pdf.py` 121-123: 201 points between the smallest `mean - 6 std` and the largest `mean + 6 std` of all PDFs -/
noncomputable def gmixGrid (lo hi : ℝ) : List ℝ := linspace lo hi 201

/-- `_ppf` of one mixture at one probability, `mixmod_pdf.py` 119-135, on the path with one probability per PDF (and for the right row, see C24):
interpolation of the inverse of the tabulated CDF -/
noncomputable def gmixPpf (w μs σs : List ℝ) (lo hi : ℝ) (q : ℝ) : Option ℝ :=
  interp lo hi (((gmixGrid lo hi).map (gmixCdf w μs σs)).zip (gmixGrid lo hi)) q

/-- weights, means and widths of one mixture -/
structure GMix where
  w : List ℝ
  μs : List ℝ
  σs : List ℝ

/-- `min_val` of `_ppf`, `mixmod_pdf.py` 121: over the components of all the PDFs (`np.min` of no components raises, here it is 0) -/
noncomputable def gmixLo (rows : List GMix) : ℝ := ((rows.flatMap fun r => List.zipWith (fun m s => m - 6 * s) r.μs r.σs).min?).getD 0

/-- `max_val` of `_ppf`, `mixmod_pdf.py` 122 -/
noncomputable def gmixHi (rows : List GMix) : ℝ := ((rows.flatMap fun r => List.zipWith (fun m s => m + 6 * s) r.μs r.σs).max?).getD 0

/-- `_ppf` of one of the PDFs of an ensemble, `mixmod_pdf.py` 119-135 -/
noncomputable def gmixPpfIn (rows : List GMix) (r : GMix) (q : ℝ) : Option ℝ := gmixPpf r.w r.μs r.σs (gmixLo rows) (gmixHi rows) q

end Verif.Model

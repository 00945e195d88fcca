import Mathlib.Analysis.SpecialFunctions.Log.NegMulLog
import Mathlib.MeasureTheory.Integral.Bochner.Basic
import Mathlib.MeasureTheory.Measure.Lebesgue.Basic

/-!
# `entropy`

Source: `/repo/src/qp/ensemble.py` 525-527. `self._frozen.entropy()` is scipy's `rv_generic.entropy` for location 0 and scale 1
(`scipy/stats/_distn_infrastructure.py`): no class written in qp defines `_entropy` (the analytic classes inherit scipy's closed forms, not modelled), so `vectorize(_entropy)` integrates `entr(_pdf(x, row))` with `quad` over the
support `-inf..inf`, one call per PDF. Each call has one point and one row and is
evaluated flat (`utils.py` 205-206), an array of one element. `quad` is taken to be exact.
-/

set_option autoImplicit false

namespace Verif.Model

open MeasureTheory

/-- `scipy.special.entr` for a number that is not negative -/
noncomputable def entr (v : ℝ) : ℝ := if 0 < v then -(v * Real.log v) else 0

open Classical in
/-- `entropy()` of a PDF with density `f`; `none` if the density is negative somewhere, where `entr` is `-inf` -/
noncomputable def statsEntropy (f : ℝ → ℝ) : Option ℝ := if ∃ x, f x < 0 then none else some (∫ x, entr (f x))

end Verif.Model

import Mathlib.MeasureTheory.Integral.IntervalIntegral.Basic

/-!
# Risk based point estimates

Sources: `/repo/src/qp/metrics/array_metrics.py` 106-143 (`quick_rbpe`), `/repo/src/qp/metrics/metrics.py` 178-217 (`calculate_rbpe`).
`scipy.integrate.quad` is taken to be the exact integral. `scipy.optimize.minimize_scalar` is an argument of the model: the theorems say
what they need of it (a local minimum of the function it is given, or a point within the bounds it is given).
-/

set_option autoImplicit false

namespace Verif.Model

/-- `calculate_loss`, `array_metrics.py` 127-128 -/
noncomputable def rbpeLoss (x : ℝ) : ℝ := 1 - 1 / (1 + (x / 0.15) ^ 2)

/-- `find_z_risk`, `array_metrics.py` 133-137: the expected loss of the estimate `zp`. At `z = -1` Python divides by zero; a single point
does not change the integral. -/
noncomputable def rbpeRisk (pdf : ℝ → ℝ) (lower upper zp : ℝ) : ℝ := ∫ z in lower..upper, pdf z * rbpeLoss ((zp - z) / (1 + z))

/-- `quick_rbpe`, `array_metrics.py` 106-143. `limits = none` stands for an infinite first limit (line 139); the second argument of
`minimise` holds the bounds of the bounded method. -/
noncomputable def quickRbpe (minimise : (ℝ → ℝ) → Option (ℝ × ℝ) → ℝ) (pdf : ℝ → ℝ) (bounds : ℝ × ℝ) (limits : Option (ℝ × ℝ)) : ℝ :=
  match limits with
  | none => minimise (rbpeRisk pdf bounds.1 bounds.2) none
  | some l => minimise (rbpeRisk pdf bounds.1 bounds.2) (some (l.1, l.2))

/-- `calculate_rbpe`, `metrics.py` 178-217, for an ensemble given as the densities and quantile functions of its PDFs; the check that
`p[n]` has one PDF never fails. -/
noncomputable def calcRbpe (minimise : (ℝ → ℝ) → Option (ℝ × ℝ) → ℝ) (limits : Option (ℝ × ℝ)) (ps : List ((ℝ → ℝ) × (ℝ → ℝ))) : List ℝ :=
  (List.range ps.length).filterMap fun (n : ℕ) => (ps[n]?).map fun p => quickRbpe minimise p.1 (p.2 0.01, p.2 0.99) limits

end Verif.Model

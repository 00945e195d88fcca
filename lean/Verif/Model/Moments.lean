import Verif.Model.Metrics

/-!
# Moments over limits

Sources: `/repo/src/qp/metrics/metrics.py` 50-80, `/repo/src/qp/metrics/array_metrics.py` 57-78, `/repo/src/qp/ensemble.py` 602-610.
-/

set_option linter.unusedSectionVars false
set_option autoImplicit false

namespace Verif.Model

open Verif Verif.Np

variable {K : Type} [Field K] [LinearOrder K]

/-- `quick_moment(p_eval, grid_to_N, dx)` for one PDF, `array_metrics.py` 57-78: `np.dot(p_eval, grid_to_N) * dx` -/
def quickMoment (p gN : List K) (dx : K) : K := Np.sum (Np.mul p gN) * dx

variable [FloorRing K]

/-- `calculate_moment(p, N, limits, dx)`, `metrics.py` 50-80, for a natural number `N`: the values for the PDFs in row-major order -/
def calculateMoment (e : FnEns K) (N : ℕ) (l0 l1 dx : K) : Except Err (List K) := do
  let g ← gridParams l0 l1 dx
  .ok (e.fns.map fun f => quickMoment (g.values.map f) (g.values.map (· ^ N)) g.resolution)

/-- `Ensemble.moment_partial(n, limits, dx)`, `ensemble.py` 602-610, for limits that are Python numbers. A negative number of points raises
`ValueError` in `np.linspace`. -/
def momentPartial (e : FnEns K) (N : ℕ) (l0 l1 dx : K) : Except Err (List K) :=
  if dx = 0 then .error .ZeroDivisionError
  else if pyInt ((l1 - l0) / dx) < 0 then .error .ValueError
  else
    let grid := linspace l0 l1 (pyInt ((l1 - l0) / dx)).toNat
    .ok (e.fns.map fun f => quickMoment (grid.map f) (grid.map (· ^ N)) dx)

end Verif.Model

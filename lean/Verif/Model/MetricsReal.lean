import Mathlib.Analysis.SpecialFunctions.Log.Basic
import Mathlib.Analysis.SpecialFunctions.Sqrt
import Verif.Model.Bins
import Verif.Model.Metrics

/-!
# Metrics that need logarithms and roots

Sources: `/repo/src/qp/metrics/metrics.py` 83-175, `/repo/src/qp/metrics/array_metrics.py` 30-103, `/repo/src/qp/utils.py` 19-36 and
835-872. Over the real numbers; an ensemble is given by its shape and its densities, as in `Metrics.lean`.
-/

set_option linter.unusedSectionVars false
set_option autoImplicit false

namespace Verif.Model

open Verif Verif.Np

/-- `epsilon = sys.float_info.epsilon`, `utils.py` 9 -/
noncomputable def machEps : ℝ := 1 / 2 ^ 52

/-- `safelog(arr)`, `utils.py` 19-36: the logarithm of the values clipped from below -/
noncomputable def safelog (x : ℝ) : ℝ := Real.log (max x machEps)

/-- `quick_kld(p_eval, q_eval, dx)` for one PDF, `array_metrics.py` 30-54 -/
noncomputable def quickKld (p q : List ℝ) (dx : ℝ) : ℝ := dx * Np.sum (List.zipWith (fun a b => a * (safelog a - safelog b)) p q)

/-- `calculate_kld(p, q, limits, dx)`, `metrics.py` 83-129: the values for the PDFs in row-major order. When any of them is negative all
are replaced. -/
noncomputable def calculateKld (p q : FnEns ℝ) (l0 l1 dx : ℝ) : Except Err (List ℝ) :=
  if p.shape ≠ q.shape then .error .ValueError
  else do
    let g ← gridParams l0 l1 dx
    let d := List.zipWith (fun f h => quickKld (g.values.map f) (g.values.map h) g.resolution) p.fns q.fns
    .ok (if d.any (fun v => decide (v < 0)) then d.map fun _ => machEps else d)

/-- `quick_rmse(p_eval, q_eval, N)` for one PDF, `array_metrics.py` 81-103 -/
noncomputable def quickRmse (p q : List ℝ) (n : ℕ) : ℝ := Real.sqrt (Np.sum (List.zipWith (fun a b => (a - b) ^ 2) p q) / (n : ℝ))

/-- `calculate_rmse(p, q, limits, dx)`, `metrics.py` 132-175 -/
noncomputable def calculateRmse (p q : FnEns ℝ) (l0 l1 dx : ℝ) : Except Err (List ℝ) :=
  if p.shape ≠ q.shape then .error .ValueError
  else do
    let g ← gridParams l0 l1 dx
    .ok (List.zipWith (fun f h => quickRmse (g.values.map f) (g.values.map h) g.card) p.fns q.fns)

/-- `masked_vals.mean()` -/
noncomputable def meanOf (l : List ℝ) : ℝ := Np.sum l / (l.length : ℝ)

/-- `masked_vals.std()` -/
noncomputable def stdOf (l : List ℝ) : ℝ := Real.sqrt (meanOf (l.map fun v => (v - meanOf l) ^ 2))

/-- `y_data[mask * (idx == i)]`, `utils.py` 861 and 867: the values of the points that were put into bin `i` -/
noncomputable def binValues (lookup : List (ℕ × Bool)) (ys : List ℝ) (i : ℕ) : List ℝ :=
  ((lookup.zip ys).filter fun c => c.1.2 && decide (c.1.1 = i)).map (·.2)

/-- one pass of the loop of `profile` (`utils.py` 860-869) and the division by the root of the count (870-871): `nan` for an empty bin -/
noncomputable def profileBin (std : Bool) (v : List ℝ) : Option (ℝ × ℝ) :=
  if v = [] then none
  else some (meanOf v, if std then stdOf v else stdOf v / Real.sqrt (v.length : ℝ))

/-- `profile(x_data, y_data, x_bins, std)`, `utils.py` 835-872. With different numbers of abscissas and ordinates `y_data[mask_col]` raises
`IndexError` at the first bin that has points. -/
noncomputable def profile (xs ys bins : List ℝ) (std : Bool) : Except Err (List (Option (ℝ × ℝ))) := do
  let lookup ← xs.mapM (getBinIndex bins)
  if xs.length ≠ ys.length ∧ lookup.any (·.2) = true then .error .IndexError
  else .ok ((List.range (bins.length - 1)).map fun i => profileBin std (binValues lookup ys i))

end Verif.Model

import Verif.Model.PointStats

/-!
# PIT

Source: `/repo/src/qp/metrics/pit.py`. The ensemble is given by its distribution functions; a value that is not finite is `none`. The
statistics computed with scipy from the samples (`kstest`, `cramervonmises`, `anderson_ksamp`) are in `PitMeta.lean` and `AndersonKs.lean`.
-/

set_option linter.unusedSectionVars false
set_option autoImplicit false

namespace Verif.Model

open Verif Verif.Np

variable {K : Type} [Field K] [LinearOrder K]

/-- `PIT._gather_pit_samples(qp_ens, true_vals)`, `pit.py` 176-189, for an ensemble with one index. `np.vstack` of no values raises
`ValueError`; with as many values as PDFs every PDF is evaluated at its own value (C02), the result has shape `(n, 1)`, is squeezed, and the
entries that are not finite are set to 0. A single value is used for every PDF and a single PDF for every value (numpy broadcasting of the
points of shape `(k, 1)` with the row numbers of shape `(n, 1)`); other numbers of values are a `ValueError` of scipy. -/
def pitSamples (cdfs : List (K → Option K)) (zs : List K) : Except Err (Arr K) :=
  if zs = [] then .error .ValueError
  else if cdfs.length ≠ zs.length then
    match cdfs, zs with
    | [F], zs => .ok (Arr.squeeze ⟨[zs.length, 1], zs.map fun z => (F z).getD 0⟩)
    | cdfs, [z] => .ok (Arr.squeeze ⟨[cdfs.length, 1], cdfs.map fun F => (F z).getD 0⟩)
    | _, _ => .error .ValueError
  else .ok (Arr.squeeze ⟨[zs.length, 1], List.zipWith (fun F z => (F z).getD 0) cdfs zs⟩)

/-- `len(a)` of an array: `TypeError` for a 0-d one -/
def arrLen (a : Arr K) : Except Err ℕ :=
  match a.shape with
  | [] => .error .TypeError
  | n :: _ => .ok n

/-- `np.unique(l, return_index=True)`: the distinct values in order, each with its first position -/
def uniqueIndex (l : List K) : List (K × ℕ) := (Np.unique l).map fun v => (v, l.idxOf v)

/-- `PIT._produce_output_ensemble(data_quants, eval_grid)`, `pit.py` 192-205, with `_create_quant_mask` (208-224): the quantiles and the
locations given to the quantile ensemble -/
def pitEnsemble (quants grid : List K) : List K × List K :=
  let kept := (uniqueIndex quants).filter fun u => decide (0 < u.1) && decide (u.1 < 1)
  (kept.filterMap fun u => grid[u.2]?, kept.map (·.1))

variable [FloorRing K]

/-- the grid used by `PIT.__init__`, `pit.py` 48-54: the given one, unless there are fewer samples than grid points -/
def pitGrid (n : ℕ) (grid : List K) : List K := if min n grid.length < grid.length then linspace 0 1 (min n grid.length) else grid

/-- `PIT(qp_ens, true_vals, eval_grid)`, `pit.py` 32-58, for a grid given as an array: the samples, and the quantiles and locations of the
PIT distribution -/
def pitInit (cdfs : List (K → Option K)) (zs grid : List K) : Except Err (List K × (List K × List K)) := do
  let samps ← pitSamples cdfs zs
  let n ← arrLen samps
  let g := pitGrid n grid
  let q ← g.mapM fun p => npQuantile p samps.data
  .ok (samps.data, pitEnsemble q g)

end Verif.Model

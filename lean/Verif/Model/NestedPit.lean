import Verif.Model.Pit

/-!
# PIT of ensembles with several indices

Source: `/repo/src/qp/metrics/pit.py`. The true values are one list, as the documentation asks for.
-/

set_option linter.unusedSectionVars false
set_option autoImplicit false

namespace Verif.Model

open Verif Verif.Np

variable {K : Type} [Field K] [LinearOrder K]

/-- `PIT._gather_pit_samples(qp_ens, true_vals)`, `pit.py` 176-189, for an ensemble of shape `pre ++ [b]`. The `k` true values become an array
of shape `(k, 1)`, which numpy broadcasts against the row numbers, of shape `pre ++ [b, 1]` (`pdf_gen.py` 220-236): the true values run along
the last index of the ensemble. They fit when `k = b`, when there is one value, and when `b = 1`; then every PDF is evaluated at every value (in the order
that the evaluation on shared points has, C01). Other numbers are a `ValueError`. The result is squeezed and entries that are not finite are
set to 0. -/
def pitSamplesNd (pre : List ℕ) (b : ℕ) (cdfs : List (K → Option K)) (zs : List K) : Except Err (Arr K) :=
  let order (l : List K) : List K := if 2 ≤ pre.prod ∧ l.Nodup then Np.sort l else l
  if zs = [] then .error .ValueError
  else if zs.length = b then
    .ok (Arr.squeeze ⟨pre ++ [b, 1], cdfs.zipIdx.map fun c => ((zs[c.2 % b]?).bind c.1).getD 0⟩)
  else if b = 1 then
    .ok (Arr.squeeze ⟨pre ++ [zs.length, 1], cdfs.flatMap fun F => (order zs).map fun z => (F z).getD 0⟩)
  else match zs with
    | [z] => .ok (Arr.squeeze ⟨pre ++ [b, 1], cdfs.map fun F => (F z).getD 0⟩)
    | _ => .error .ValueError

variable [FloorRing K]

/-- `PIT(qp_ens, true_vals, eval_grid)`, `pit.py` 32-58, for an ensemble of shape `pre ++ [b]` and a grid given as an array. `np.quantile` takes
the numbers of all axes together. -/
def pitInitNd (pre : List ℕ) (b : ℕ) (cdfs : List (K → Option K)) (zs grid : List K) : Except Err (Arr K × (List K × List K)) := do
  let samps ← pitSamplesNd pre b cdfs zs
  let n ← arrLen samps
  let g := pitGrid n grid
  let q ← g.mapM fun p => npQuantile p samps.data
  .ok (samps, pitEnsemble q g)

end Verif.Model

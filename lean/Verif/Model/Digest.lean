import Verif.Model.PitMeta
import Verif.Np.Linspace

/-!
# Point metrics evaluated chunk by chunk through digests

Source: `/repo/src/qp/metrics/point_estimate_metric_classes.py` 10-66, 132-136, 167-168, 209-226, 266-284. The library `pytdigest` is a parameter
(`DigestLib`); the theorems say what they assume of it.
-/

set_option linter.unusedSectionVars false
set_option autoImplicit false

namespace Verif.Model

open Verif Verif.Np

/-- the operations of `pytdigest.TDigest` that are used: `compute(values).get_centroids()`, `of_centroids`, `+`, `get_centroids` (pairs of mean and weight),
`weight`, `cdf` and `inverse_cdf` -/
structure DigestLib (K D : Type) where
  compute : List K → List (K × K)
  ofCentroids : List (K × K) → D
  add : D → D → D
  cents : D → List (K × K)
  weight : D → K
  cdf : D → K → K
  inv : D → K → K

variable {K D : Type} [Field K] [LinearOrder K]

/-- `PointToPointMetricDigester.accumulate`, lines 19-39 -/
def digestAccumulate (lib : DigestLib K D) (est ref : List K) : Except Err (List (K × K)) := (ezList est ref).map lib.compute

/-- the combination in `finalize`, lines 41-61: `reduce(add, digests)`, a `TypeError` without chunks -/
def digestCombine (lib : DigestLib K D) : List (List (K × K)) → Except Err D
  | [] => .error .TypeError
  | c :: t => .ok (t.foldl (fun d c => lib.add d (lib.ofCentroids c)) (lib.ofCentroids c))

/-- accumulation of all chunks followed by `finalize`: how the digester is meant to be used -/
def digestEvaluate {R : Type} (lib : DigestLib K D) (compute : D → Except Err R) (chunks : List (List K × List K)) : Except Err R := do
  let cs ← chunks.mapM fun p => digestAccumulate lib p.1 p.2
  let d ← digestCombine lib cs
  compute d

/-- `PointBias.compute_from_digest`, lines 167-168 -/
def biasDigest (lib : DigestLib K D) (d : D) : Except Err K := .ok (lib.inv d (1 / 2))

/-- `PointSigmaIQR.compute_from_digest`, lines 132-136 -/
def iqrDigest (lib : DigestLib K D) (d : D) : Except Err K := .ok ((lib.inv d (3 / 4) - lib.inv d (1 / 4)) / (1349 / 1000))

/-- `PointOutlierRate.compute_from_digest`, lines 209-226 -/
def outlierDigest (lib : DigestLib K D) (d : D) : Except Err K :=
  let s := (lib.inv d (3 / 4) - lib.inv d (1 / 4)) / (1349 / 1000)
  let cut := max (6 / 100) (3 * s)
  .ok (Np.sum (((lib.cents d).filter fun c => cut < |c.1|).map (·.2)) / lib.weight d)

/-- distances of the bin centres from the median and probabilities of the bins, lines 273-276 -/
def madCells (F : K → K) (med : K) : List K → List (K × K)
  | a :: b :: t => (|(a + b) / 2 - med|, F b - F a) :: madCells F med (b :: t)
  | _ => []

/-- `sorted_bins_dist[np.searchsorted(cumulative_sorted, 0.5)]`, lines 279-282; the cumulative sums increase, so the search finds the first that is at least
one half, and the length of the list (an `IndexError` afterwards) if there is none -/
def madPick : K → List (K × K) → Except Err K
  | _, [] => .error .IndexError
  | acc, (d, m) :: t => if 1 / 2 ≤ acc + m then .ok d else madPick (acc + m) t

/-- the bins sorted by their distance (`np.argsort`; the order of equal distances is not determined by numpy, `C92_mad_order` shows that it does not
matter) -/
def madSort (l : List (K × K)) : List (K × K) := l.insertionSort fun p q => p.1 ≤ q.1

/-- `PointSigmaMAD.compute_from_digest`, lines 266-284, with `n` for `num_bins` -/
def madDigest (lib : DigestLib K D) (n : ℕ) (d : D) : Except Err K :=
  (madPick 0 (madSort (madCells (lib.cdf d) (lib.inv d (1 / 2)) (linspace (lib.inv d 0) (lib.inv d 1) n)))).map (· * (14826 / 10000))

section
variable [FloorRing K]

/-- `PITMetric.accumulate`, `concrete_metric_classes.py` 278-282: the whole PIT object of the chunk is constructed first, then its samples are gathered again -/
def pitAccumulate (lib : DigestLib K D) (grid : List K) (cdfs : List (K → Option K)) (zs : List K) : Except Err (List (K × K)) := do
  let (samps, _, _) ← pitFull cdfs zs grid
  .ok (lib.compute samps)

/-- `PITMetric.compute_from_digest`, `concrete_metric_classes.py` 284-300: the stored quantiles and locations of the PIT distribution. `int(digest.weight)`
is the floor of a positive weight. -/
def pitDigest (lib : DigestLib K D) (grid : List K) (d : D) : Except Err (List K × List K) :=
  let g := pitGrid ⌊lib.weight d⌋.toNat grid
  let (qs, ls) := pitEnsemble (g.map (lib.inv d)) g
  if ls = [] then .error .ValueError
  else do
    let (q, l) ← quantInit qs [ls] true
    .ok (q, l.headD [])

/-- accumulation of all chunks followed by `finalize`, `concrete_metric_classes.py` 38-66 and 278-300 -/
def pitDigestEvaluate (lib : DigestLib K D) (grid : List K) (chunks : List (List (K → Option K) × List K)) : Except Err (List K × List K) := do
  let cs ← chunks.mapM fun p => pitAccumulate lib grid p.1 p.2
  let d ← digestCombine lib cs
  pitDigest lib grid d

end

end Verif.Model

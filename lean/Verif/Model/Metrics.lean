import Mathlib.Algebra.Order.Floor.Ring
import Verif.Np.Arr
import Verif.Np.Linspace
import Verif.Np.Round
import Verif.Model.Convert

/-!
# Metrics

Sources: `/repo/src/qp/metrics/metrics.py`, `brier.py`, `concrete_metric_classes.py`, `base_metric_classes.py`,
`goodness_of_fit.py`, `point_estimate_metric_classes.py`, `pit.py`.

An ensemble is given here by its shape and the list of its densities (or distribution functions) as functions: how `pdf` and `cdf` of an
ensemble come about is modelled elsewhere (`EnsEval.lean`, `State.lean`). Results that numpy reports as `nan` are `none`.
-/

set_option linter.unusedSectionVars false
set_option autoImplicit false

namespace Verif.Model

open Verif Verif.Np

section Grid
variable {K : Type} [Field K] [LinearOrder K] [FloorRing K]

/-- `int(v)` of a float: towards zero -/
def pyInt (v : K) : ℤ := if 0 ≤ v then ⌊v⌋ else ⌈v⌉

/-- `Grid`, `metrics.py` 14-16 -/
structure MGrid (K : Type) where
  values : List K
  card : ℕ
  resolution : K
  edges : List K
  limits : K × K
deriving DecidableEq, Repr

/-- `np.histogram_bin_edges((a, b), n)`: the range is that of the two numbers (widened by 1/2 on both sides when they are equal); the
number of bins must be positive (`ValueError`). -/
def histogramBinEdges (a b : K) (n : ℕ) : Except Err (List K) :=
  if n = 0 then .error .ValueError
  else if a = b then .ok (linspace (a - 1 / 2) (b + 1 / 2) (n + 1))
  else .ok (linspace (min a b) (max a b) (n + 1))

/-- `_calculate_grid_parameters((l0, l1), dx)`, `metrics.py` 19-47, for limits that are Python numbers (dividing by zero raises). A
negative number of points raises `ValueError` in `np.linspace`. -/
def gridParams (l0 l1 dx : K) : Except Err (MGrid K) :=
  if dx = 0 then .error .ZeroDivisionError
  else if pyInt ((l1 - l0) / dx) < 0 then .error .ValueError
  else if pyInt ((l1 - l0) / dx) = 1 then .error .ZeroDivisionError
  else do
    let c := (pyInt ((l1 - l0) / dx)).toNat
    let r := (l1 - l0) / ((c : K) - 1)
    let e ← histogramBinEdges (l0 - r / 2) (l1 + r / 2) c
    .ok ⟨linspace l0 l1 c, c, r, e, (l0, l1)⟩

end Grid

section Brier
variable {K : Type} [Field K] [LinearOrder K]

/-- `np.mean` of a 1-D array; `nan` for an empty one -/
def npMean (l : List K) : Option K := if l = [] then none else some (Np.sum l / (l.length : K))

/-- `np.sum((prediction - truth) ** 2)` of one row -/
def sqDist (p t : List K) : K := Np.sum (List.zipWith (fun a b => (a - b) ^ 2) p t)

/-- `Brier._validate_data` and `np.sum((self._prediction - self._truth) ** 2, axis=...)`, `brier.py` 52-105: the list of sums (a 0-d result
is a list of one). Numbers only (the `TypeError` for other arrays is left out). A 0-d array has no axis 1 (`AxisError`, a `ValueError`); rank
above 2 is not followed. -/
def brierSums (p t : Arr K) : Except Err (List K) :=
  if p.shape ≠ t.shape then .error .ValueError
  else match p.shape with
    | [] => .error .ValueError
    | [_] => .ok [sqDist p.data t.data]
    | [_, _] => .ok (List.zipWith sqDist p.rows t.rows)
    | _ => .error .Unmodelled

/-- `Brier(prediction, truth).evaluate()`, `brier.py` 27-38 and 97-103 -/
def brierEvaluate (p t : Arr K) : Except Err (Option K) := (brierSums p t).map npMean

/-- `Brier(prediction, truth).accumulate()`, `brier.py` 40-43 and 105-108 -/
def brierAccumulate (p t : Arr K) : Except Err K := (brierSums p t).map Np.sum

/-- an ensemble as far as the metrics are concerned: its shape and the functions of its PDFs in row-major order -/
structure FnEns (K : Type) where
  shape : List ℕ
  fns : List (K → K)

/-- `ens.npdf` -/
def FnEns.npdf (e : FnEns K) : ℕ := e.shape.prod

/-- the functions are as many as the shape says -/
def FnEns.Wf (e : FnEns K) : Prop := e.fns.length = e.shape.prod

/-- `ens.pdf(x)`, `ens.gridded(x)[1]`, `ens.cdf(x)` for a 1-D array of points -/
def FnEns.at (e : FnEns K) (x : List K) : Arr K := ⟨e.shape ++ [x.length], (e.fns.map fun f => x.map f).flatten⟩

/-- `np.squeeze([np.histogram(t, edges)[0] for t in truth])`, `metrics.py` 245. The list of no rows is an array of shape `(0,)`. -/
def truthArray (edges truth : List K) : Except Err (Arr K) := do
  let rows ← truth.mapM fun t => npHistogram edges [t]
  if rows = [] then .ok ⟨[0], []⟩
  else .ok (Arr.ofRows [edges.length - 1] (rows.map fun r => r.map fun (c : ℕ) => (c : K))).squeeze

variable [FloorRing K]

/-- `_prepare_for_brier(p, truth, limits, dx)`, `metrics.py` 220-248: the prediction and the truth array -/
def prepareBrier (e : FnEns K) (truth : List K) (l0 l1 dx : K) : Except Err (Arr K × Arr K) :=
  if e.npdf ≠ truth.length then .error .ValueError
  else if truth.any (· < l0) || truth.any (l1 < ·) then .error .ValueError
  else do
    let g ← gridParams l0 l1 dx
    let t ← truthArray g.edges truth
    .ok (e.at g.values, t)

/-- `calculate_brier`, `metrics.py` 250-279; `BrierMetric.evaluate` -/
def calculateBrier (e : FnEns K) (truth : List K) (l0 l1 dx : K) : Except Err (Option K) := do
  let (p, t) ← prepareBrier e truth l0 l1 dx
  brierEvaluate p t

/-- `calculate_brier_for_accumulation`, `metrics.py` 281-286; `BrierMetric.accumulate` -/
def accumulateBrier (e : FnEns K) (truth : List K) (l0 l1 dx : K) : Except Err (K × ℕ) := do
  let (p, t) ← prepareBrier e truth l0 l1 dx
  let s ← brierAccumulate p t
  .ok (s, e.npdf)

omit [FloorRing K] in
/-- quotient of two numpy numbers; a zero denominator gives `nan` or `inf`, both `none` here -/
def npDiv (a b : K) : Option K := if b = 0 then none else some (a / b)

omit [FloorRing K] in
/-- `BrierMetric.finalize(tuples)`, `concrete_metric_classes.py` 146-152. Without tuples there is no column 0 (`IndexError`). -/
def finalizeBrier (ts : List (K × ℕ)) : Except Err (Option K) :=
  if ts = [] then .error .IndexError
  else .ok (npDiv (Np.sum (ts.map (·.1))) (Np.sum (ts.map fun t => (t.2 : K))))

end Brier

section CDE
variable {K : Type} [Field K] [LinearOrder K]

/-- `np.argmin` of a 1-D array: index of the first minimal entry; `ValueError` for an empty one -/
def argmin (l : List K) : Except Err ℕ :=
  match Np.argmax (l.map fun v => -v) with
  | none => .error .ValueError
  | some i => .ok i

/-- `np.argmin(np.abs(xvals - z))`, `concrete_metric_classes.py` 325, 336 -/
def nearest (xs : List K) (z : K) : Except Err ℕ := argmin (xs.map fun x => |x - z|)

/-- `np.trapz(y, x=x)` of one row -/
def trapz (xs ys : List K) : K := Np.sum (trapezoids xs ys)

/-- `pdfs[range(npdf), nns]`, `concrete_metric_classes.py` 327, 337: the two index lists must have the same length or one of them length
one (`IndexError` otherwise). -/
def fancyPairs (rows : List (List K)) (nns : List ℕ) : Except Err (List K) :=
  let pairs : Option (List (ℕ × ℕ)) :=
    if rows.length = nns.length then some ((List.range rows.length).zip nns)
    else if rows.length = 1 then some (nns.map fun j => (0, j))
    else match nns with
      | [j] => some ((List.range rows.length).map fun i => (i, j))
      | _ => none
  match pairs with
  | none => .error .IndexError
  | some ps => match ps.mapM (fun (p : ℕ × ℕ) => (rows[p.1]?).bind fun r => r[p.2]?) with
    | none => .error .IndexError
    | some v => .ok v

/-- `pdfs[range(npdf), nns]` for an array of rank three or more: the two lists are indices into the first two axes, of lengths `a` and `b`, and
every pair of indices stands for the block of all numbers below it. `n` is `npdf`. -/
def fancyBlocks (a b : ℕ) (block : ℕ → ℕ → List K) (n : ℕ) (nns : List ℕ) : Except Err (List K) :=
  let pairs : Option (List (ℕ × ℕ)) :=
    if n = nns.length then some ((List.range n).zip nns)
    else if n = 1 then some (nns.map fun j => (0, j))
    else match nns with
      | [j] => some ((List.range n).map fun i => (i, j))
      | _ => none
  match pairs with
  | none => .error .IndexError
  | some ps => if ps.all (fun p => decide (p.1 < a) && decide (p.2 < b)) then .ok (ps.flatMap fun p => block p.1 p.2) else .error .IndexError

/-- the two lists that `evaluate` averages and `accumulate` sums, `concrete_metric_classes.py` 319-337: the integrals of the squared PDFs,
and the PDFs at the grid points nearest to the true values. With several indices the fancy index does not pick grid points (`fancyBlocks`).
Ensembles without an index are not followed. -/
def cdeTerms (xs : List K) (e : FnEns K) (zs : List K) : Except Err (List K × List K) :=
  match e.shape with
  | [_] => do
    let rows := e.fns.map fun f => xs.map f
    let nns ← zs.mapM (nearest xs)
    let v ← fancyPairs rows nns
    .ok (rows.map fun r => trapz xs (r.map (· ^ 2)), v)
  | a :: b :: rest => do
    let rows := e.fns.map fun f => xs.map f
    let nns ← zs.mapM (nearest xs)
    let v ← fancyBlocks a b (fun i j => ((rows.drop ((i * b + j) * rest.prod)).take rest.prod).flatten) e.npdf nns
    .ok (rows.map fun r => trapz xs (r.map (· ^ 2)), v)
  | [] => .error .Unmodelled

/-- `CDELossMetric.evaluate`, `concrete_metric_classes.py` 314-329 -/
def cdeEvaluate (xs : List K) (e : FnEns K) (zs : List K) : Except Err (Option K) := do
  let (a, b) ← cdeTerms xs e zs
  .ok ((npMean a).bind fun t1 => (npMean b).map fun t2 => t1 - 2 * t2)

/-- `CDELossMetric.accumulate`, `concrete_metric_classes.py` 331-339 -/
def cdeAccumulate (xs : List K) (e : FnEns K) (zs : List K) : Except Err (K × K × ℕ) := do
  let (a, b) ← cdeTerms xs e zs
  .ok (Np.sum a, Np.sum b, e.npdf)

/-- `CDELossMetric.finalize`, `concrete_metric_classes.py` 341-345 -/
def cdeFinalize (ts : List (K × K × ℕ)) : Except Err (Option K) :=
  if ts = [] then .error .IndexError
  else
    let n := Np.sum (ts.map fun t => (t.2.2 : K))
    .ok ((npDiv (Np.sum (ts.map (·.1))) n).bind fun t1 => (npDiv (Np.sum (ts.map (·.2.1))) n).map fun t2 => t1 - 2 * t2)

end CDE

section Iterator

/-- the loop of `PointToPointMetric.eval_from_iterator`, `base_metric_classes.py` 160-161: the variable `centroids` after it (`none`: never
assigned) -/
def iterAccumulate {α γ : Type} (acc : α → Except Err γ) : Option γ → List α → Except Err (Option γ)
  | c, [] => .ok c
  | _, x :: t => do
    let c ← acc x
    iterAccumulate acc (some c) t

/-- `PointToPointMetric.eval_from_iterator(estimate, reference)`, `base_metric_classes.py` 158-162, for the pairs given by `zip`. Without
pairs `centroids` is not assigned: `UnboundLocalError`. -/
def evalFromIterator {α γ δ : Type} (acc : α → Except Err γ) (fin : List γ → Except Err δ) (items : List α) : Except Err δ := do
  let c ← iterAccumulate acc none items
  match c with
  | none => .error .UnboundLocalError
  | some c => fin [c]

end Iterator

section GoodnessOfFit
variable {K : Type} [Field K] [LinearOrder K]

/-- `_compute_dplus(cdfvals)`, `goodness_of_fit.py` 31-33 -/
def dPlus (c : List K) : Except Err K :=
  rowMax ((List.range c.length).zipWith (fun (i : ℕ) v => ((i : K) + 1) / (c.length : K) - v) c)

/-- `_compute_dminus(cdfvals)`, `goodness_of_fit.py` 36-38 -/
def dMinus (c : List K) : Except Err K :=
  rowMax ((List.range c.length).zipWith (fun (i : ℕ) v => v - (i : K) / (c.length : K)) c)

/-- `_kolmogorov_smirnov(dist, data)` for one PDF with distribution function `F`, `goodness_of_fit.py` 23-28. Without data the maximum of
an empty array raises `ValueError`. -/
def ksStat (F : K → K) (data : List K) : Except Err K := do
  let c := (Np.sort data).map F
  let dp ← dPlus c
  let dm ← dMinus c
  .ok (max dp dm)

/-- `_cramer_von_mises(dist, data)` for one PDF, `goodness_of_fit.py` 41-47. `1 / (12 * n)` with `n = 0` raises. -/
def cvmStat (F : K → K) (data : List K) : Except Err K :=
  let n := data.length
  if n = 0 then .error .ZeroDivisionError
  else
    let c := (Np.sort data).map F
    let u (i : ℕ) : K := (2 * ((i : K) + 1) - 1) / (2 * (n : K))
    .ok (1 / (12 * (n : K)) + Np.sum ((List.range n).zipWith (fun (i : ℕ) v => (u i - v) ^ 2) c))

/-- `calculate_outlier_rate` for one PDF with distribution function `F`, `metrics.py` 354-379 -/
def outlierRate (F : K → K) (lower upper : K) : K := F lower + (1 - F upper)

end GoodnessOfFit

end Verif.Model

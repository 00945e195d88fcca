import Verif.Np.Basic
import Verif.Model.Err
import Mathlib.Algebra.Order.Floor.Ring

/-!
# Bin lookup and histogram evaluation

Source: `/repo/src/qp/utils.py` lines 70-95 (`edge_to_center`, `bin_widths`, `get_bin_indices`) and the per-element
part of `evaluate_hist_x_multi_y_*` / `evaluate_hist_multi_x_multi_y_*` (218-493).
-/

namespace Verif.Model

open Verif Verif.Np

variable {K : Type*} [Field K] [LinearOrder K]

/-- `edge_to_center(edges)`: `0.5 * (edges[1:] + edges[:-1])`, `utils.py` 70-72. -/
def edgeToCenter : List K → List K
  | [] => []
  | [_] => []
  | a :: b :: t => (1 / 2 * (b + a)) :: edgeToCenter (b :: t)

/-- `bin_widths(edges)`: `edges[1:] - edges[:-1]`, `utils.py` 75-77. -/
def binWidths (edges : List K) : List K := Np.diff edges

/-- `get_bin_indices(bins, x)` for one point, `utils.py` 80-95.
Fewer than two edges: `widths[0]` raises `IndexError`. The numpy code treats an array of points elementwise. -/
def getBinIndex [FloorRing K] (bins : List K) (x : K) : Except Err (ℕ × Bool) :=
  match bins, binWidths bins with
  | b0 :: _, w0 :: _ =>
    let idx : ℤ :=
      if allcloseScalar (binWidths bins) w0 then ⌊(x - b0) / w0⌋
      else (searchsortedLeft bins x : ℤ) - 1
    let nBins : ℤ := (bins.length : ℤ) - 1
    let mask : Bool := decide (0 ≤ idx) && decide (idx < (bins.length : ℤ) - 1)
    let idx' : ℤ := if mask then idx else 0
    .ok ((max 0 (min idx' (nBins - 1))).toNat, mask)
  | _, _ => .error .IndexError

/-- `np.where(mask, vals[row, idx], 0)`: the value of one histogram row at one point
(`utils.py` 247, 280, 318, 386, 421, 459, with `derivs is None`). -/
def evalHist [FloorRing K] (bins vals : List K) (x : K) : Except Err K :=
  match getBinIndex bins x with
  | .error e => .error e
  | .ok (idx, mask) =>
    match vals[idx]? with
    | none => .error .IndexError
    | some v => .ok (if mask then v else 0)

/-- the same with `derivs`: `np.where(mask, vals[row, idx] + (x - bins[idx]) * derivs[row, idx], 0)`, `utils.py` 248, 282-286, 319, 387, 422-424, 460-462. -/
def evalHistDeriv [FloorRing K] (bins vals derivs : List K) (x : K) : Except Err K :=
  match getBinIndex bins x with
  | .error e => .error e
  | .ok (idx, mask) =>
    match bins[idx]?, vals[idx]?, derivs[idx]? with
    | some b, some v, some d => .ok (if mask then v + (x - b) * d else 0)
    | _, _, _ => .error .IndexError

end Verif.Model

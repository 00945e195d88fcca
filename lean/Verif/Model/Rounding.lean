import Verif.Model.Hist
import Verif.Model.InterpPdf
import Verif.Model.Mixmod

/-!
# The same computations in floating-point numbers

Source: as in `Verif/Model/Hist.lean`, `InterpPdf.lean`, `Mixmod.lean`. Every operation of numpy is followed by the rounding `fl`, a
parameter; the order of the operations is that of the source. `np.sum` adds pairwise with several accumulators, in an order that depends on
the length and the memory layout: the model allows every order and bracketing (`FlSum`). `np.cumsum` adds from left to right. Overflow, underflow and `nan` are not modelled.
-/

set_option linter.unusedSectionVars false
set_option autoImplicit false

namespace Verif.Model

open Verif Verif.Np

variable {K : Type} [Field K] [LinearOrder K]

/-- `s` is a possible result of `np.sum(l)`: the entries are added in some order, with some bracketing, and each addition is rounded -/
inductive FlSum (fl : K → K) : List K → K → Prop
  | one (x : K) : FlSum fl [x] x
  | add {a b : List K} {s t : K} : FlSum fl a s → FlSum fl b t → FlSum fl (a ++ b) (fl (s + t))
  | perm {a b : List K} {s : K} : FlSum fl a s → a.Perm b → FlSum fl b s

/-- `np.cumsum` after the first entry -/
def flCumsumFrom (fl : K → K) (c : K) : List K → List K
  | [] => []
  | x :: t => fl (c + x) :: flCumsumFrom fl (fl (c + x)) t

/-- `np.cumsum(l)`: the first entry is copied -/
def flCumsum (fl : K → K) : List K → List K
  | [] => []
  | x :: t => x :: flCumsumFrom fl x t

/-- `self._hbins[1:] - self._hbins[:-1]`, `hist_pdf.py` 66 -/
def flWidths (fl : K → K) (bins : List K) : List K := (binWidths bins).map fl

/-- `pdfs_2d * self._hbin_widths` for one row, `hist_pdf.py` 79 -/
def flMasses (fl : K → K) (bins row : List K) : List K := List.zipWith (fun v w => fl (v * w)) row (flWidths fl bins)

/-- `(pdfs_2d.T / sums).T` for one row, `hist_pdf.py` 80 -/
def flScale (fl : K → K) (s : K) (row : List K) : List K := row.map fun v => fl (v / s)

/-- `_compute_cdfs` for one row, `hist_pdf.py` 90-95 -/
def flHistCumul (fl : K → K) (bins row : List K) : List K := 0 :: flCumsum fl (flMasses fl bins row)

/-- `slope * (x - x0) + y0` with `slope = (y1 - y0) / (x1 - x0)`, as numpy and scipy compute it -/
def flLine (fl : K → K) (x0 y0 x1 y1 x : K) : K := fl (fl (fl (fl (y1 - y0) / fl (x1 - x0)) * fl (x - x0)) + y0)

/-- `npInterpGo` with rounding: comparisons are exact -/
def flInterpGo (fl : K → K) (x0 y0 : K) : List (K × K) → K → K
  | [], _ => y0
  | (x1, y1) :: t, x =>
    if x1 ≤ x then flInterpGo fl x1 y1 t x
    else if x0 = x then y0 else flLine fl x0 y0 x1 y1 x

/-- `interp` with rounding -/
def flInterp (fl : K → K) (lo hi : K) (knots : List (K × K)) (x : K) : Option K :=
  match knots with
  | [] => none
  | (x0, y0) :: t =>
    if x < x0 then some lo
    else if (((x0, y0) :: t).getLast (by simp)).1 < x then some hi
    else some (flInterpGo fl x0 y0 t x)

/-- `_cdf` of a histogram, `hist_pdf.py` 111-117, for the stored heights `row` -/
def flHistCdf (fl : K → K) (bins row : List K) (x : K) : Option K := flInterp fl 0 1 (bins.zip (flHistCumul fl bins row)) x

/-- `(xvals[1:] - xvals[:-1]) * 0.5 * np.add(yvals[1:], yvals[:-1])` for one row, `interp_pdf.py` 101-104 -/
def flTrapezoids (fl : K → K) : List K → List K → List K
  | a :: b :: xs, u :: v :: ys => fl (fl (fl (b - a) * (1 / 2)) * fl (v + u)) :: flTrapezoids fl (b :: xs) (v :: ys)
  | _, _ => []

/-- `_compute_ycumul` for one row, `interp_pdf.py` 97-106 -/
def flInterpCumul (fl : K → K) (xs ys : List K) : List K :=
  match xs, ys with
  | a :: b :: _, u :: _ => fl (fl (1 / 2 * u) * fl (b - a)) :: flCumsum fl (flTrapezoids fl xs ys)
  | _, _ => []

/-- `_pdf` of an interpolated PDF, `interp_pdf.py` 118-122, for the stored ordinates `ys` -/
def flInterpPdf (fl : K → K) (xs ys : List K) (x : K) : Option K := flInterp fl 0 0 (xs.zip ys) x

/-- `_cdf` of an interpolated PDF, `interp_pdf.py` 124-130, for the stored cumulated values `c` -/
def flInterpCdf (fl : K → K) (xs c : List K) (x : K) : Option K := flInterp fl 0 1 (xs.zip c) x

/-- `_ppf` of a histogram, `hist_pdf.py` 119-130, and of an interpolated PDF, `interp_pdf.py` 132-144, for the stored cumulated values `c`;
the fill values are the first and the last entry of the grid -/
def flGridPpf (fl : K → K) (xs c : List K) (q : K) : Option K :=
  match xs with
  | [] => none
  | a :: t => flInterp fl a ((a :: t).getLast (by simp)) (c.zip xs) q

/-- `xvals[1:] * yvals[1:] - xvals[:-1] * yvals[1:]` for one row, `interp_pdf.py` 293-297 and `utils.py` 119-121 -/
def flRightRects (fl : K → K) : List K → List K → List K
  | a :: b :: xs, _ :: v :: ys => fl (fl (b * v) - fl (a * v)) :: flRightRects fl (b :: xs) (v :: ys)
  | _, _ => []

/-- `_compute_ycumul` of `interp_irregular_gen` for one row, `interp_pdf.py` 289-297 -/
def flIrrCumul (fl : K → K) (xs ys : List K) : List K := 0 :: flCumsum fl (flRightRects fl xs ys)

/-- `_ppf` of `interp_irregular_gen` for one row, `interp_pdf.py` 323-334; `xmin`, `xmax` are the extrema over *all* rows -/
def flIrrPpf (fl : K → K) (xmin xmax : K) (xs c : List K) (q : K) : Option K := flInterp fl xmin xmax (c.zip xs) q

/-- `weights * norm.cdf(x)` (or `.pdf(x)`) for one mixture and one point, `mixmod_pdf.py` 95-117; `vals` are the values that scipy returned.
The value of the mixture is a sum (`FlSum`) of these. -/
def flMixTerms (fl : K → K) (w vals : List K) : List K := List.zipWith (fun a c => fl (a * c)) w vals

/-- the test of `np.allclose` with the default tolerances, as numpy computes it: `abs(a - b) <= atol + rtol * abs(b)` -/
def flIsclose (fl : K → K) (a b : K) : Bool := decide (|fl (a - b)| ≤ fl (fl (1 / 100000000) + fl (fl (1 / 100000) * |b|)))

/-- `get_bin_indices(bins, x)` for one point, `utils.py` 80-95, with rounding: `floor` and the comparisons are exact -/
def flGetBinIndex [FloorRing K] (fl : K → K) (bins : List K) (x : K) : Except Err (ℕ × Bool) :=
  match bins, flWidths fl bins with
  | b0 :: _, w0 :: _ =>
    let idx : ℤ :=
      if (flWidths fl bins).all fun w => flIsclose fl w w0 then ⌊fl (fl (x - b0) / w0)⌋
      else (searchsortedLeft bins x : ℤ) - 1
    let nBins : ℤ := (bins.length : ℤ) - 1
    let mask : Bool := decide (0 ≤ idx) && decide (idx < (bins.length : ℤ) - 1)
    let idx' : ℤ := if mask then idx else 0
    .ok ((max 0 (min idx' (nBins - 1))).toNat, mask)
  | _, _ => .error .IndexError

/-- `_pdf` of a histogram for the stored heights `vals`, `hist_pdf.py` 107-109 and `utils.py` 247 -/
def flEvalHist [FloorRing K] (fl : K → K) (bins vals : List K) (x : K) : Except Err K :=
  match flGetBinIndex fl bins x with
  | .error e => .error e
  | .ok (idx, mask) =>
    match vals[idx]? with
    | none => .error .IndexError
    | some v => .ok (if mask then v else 0)

end Verif.Model

import Verif.Np.Interp
import Verif.Model.EvalCase
import Verif.Model.Bins

/-!
# Interpolated distributions

Source: `/repo/src/qp/interp_pdf.py` (`interp_gen` 16-219, `interp_irregular_gen` 225-399) and
`/repo/src/qp/utils.py` 98-122 (`normalize_interp1d`).
A row whose normalisation divides by zero is `none`.
-/

namespace Verif.Model

open Verif Verif.Np

variable {K : Type*} [Field K] [LinearOrder K]

/-- `(xvals[1:] - xvals[:-1]) * 0.5 * np.add(yvals[1:], yvals[:-1])` for one row, `interp_pdf.py` 101-104. -/
def trapezoids : List K → List K → List K
  | a :: b :: xs, u :: v :: ys => ((b - a) * (1 / 2) * (v + u)) :: trapezoids (b :: xs) (v :: ys)
  | _, _ => []

/-- `_compute_ycumul` for one row, `interp_pdf.py` 97-106. Fewer than two grid points: `xvals[1]` raises
`IndexError`. -/
def interpCumul (xs ys : List K) : Except Err (List K) :=
  match xs, ys with
  | a :: b :: _, u :: _ => .ok ((1 / 2 * u * (b - a)) :: cumsum (trapezoids xs ys))
  | _, _ => .error .IndexError

/-- normalisation of one row in the constructor, `interp_pdf.py` 84-88: `(yvals / ycumul[-1], ycumul / ycumul[-1])`. -/
def interpNormRow (xs ys : List K) : Except Err (Option (List K × List K)) :=
  match interpCumul xs ys with
  | .error e => .error e
  | .ok c =>
    match c.getLast? with
    | none => .error .IndexError
    | some s => .ok (if s = 0 then none else some (ys.map (· / s), c.map (· / s)))

/-- `_pdf` of one row, `interp_pdf.py` 118-122: `fill_value = 0` -/
def interpPdf (xs ys : List K) (x : K) : Option K := interp 0 0 (xs.zip ys) x

/-- `_pdf` of one row on the product/2-D paths (`interp1d` with two-dimensional `y`) -/
def interpPdfLin (xs ys : List K) (x : K) : Option K := interpLin 0 0 (xs.zip ys) x

/-- `_cdf` of one row, `interp_pdf.py` 124-130, for the cumulated values `c` -/
def interpCdf (xs c : List K) (x : K) : Option K := interp 0 1 (xs.zip c) x

/-- `_ppf` of one row, `interp_pdf.py` 132-144 -/
def interpPpf (xs c : List K) (q : K) : Option K :=
  match xs with
  | [] => none
  | a :: t => interp a ((a :: t).getLast (by simp)) (c.zip xs) q

/-- `custom_generic_moment` of one row, `interp_pdf.py` 154-158 -/
def interpMoment (xs ys : List K) (m : ℕ) : Except Err K :=
  match xs with
  | a :: b :: _ => .ok (Np.sum (Np.mul (xs.map (· ^ m)) ys) * (b - a))
  | _ => .error .IndexError

/-! ### `interp_irregular_gen` -/

/-- `xvals[1:] * yvals[1:] - xvals[:-1] * yvals[1:]` for one row, `interp_pdf.py` 293-297 and `utils.py` 119-121. -/
def rightRects : List K → List K → List K
  | a :: b :: xs, _ :: v :: ys => (b * v - a * v) :: rightRects (b :: xs) (v :: ys)
  | _, _ => []

/-- `normalize_interp1d` for one row, `utils.py` 98-122. -/
def irrNormRow (xs ys : List K) : Option (List K) :=
  let s := Np.sum (rightRects xs ys)
  if s = 0 then none else some (ys.map (· / s))

/-- `_compute_ycumul` for one row, `interp_pdf.py` 289-297. -/
def irrCumul (xs ys : List K) : List K := 0 :: cumsum (rightRects xs ys)

/-- `_cdf` of one row, `interp_pdf.py` 315-321 -/
def irrCdf (xs ys : List K) (x : K) : Option K := interp 0 1 (xs.zip (irrCumul xs ys)) x

/-- `_ppf` of one row, `interp_pdf.py` 323-334; `xmin`, `xmax` are the extrema over *all* rows -/
def irrPpf (xmin xmax : K) (xs ys : List K) (q : K) : Option K := interp xmin xmax ((irrCumul xs ys).zip xs) q

end Verif.Model

import Verif.Model.Splrep
import Verif.Model.SplineReal

/-!
# Spline PDFs from points

Source: `/repo/src/qp/spline_pdf.py` 18-80, 158-207.
-/

set_option autoImplicit false

namespace Verif.Model

open MeasureTheory Verif

/-- `row_integral` of `normalize_spline`, lines 41-45; `quad` is modelled as the integral -/
noncomputable def splIntegral (lo hi : ℝ) (xs ys : List ℝ) : ℝ := ∫ x in lo..hi, splev (splrep xs ys) x

open Classical in
/-- `create_from_xy_vals`, lines 158-207: shapes are compared first; the limits are the smallest and the largest abscissa of all rows (`np.min` raises for none); the ordinates of each
row are divided by the integral of the row's spline over the limits (`normalize_spline`, 18-50) and splines are put through the new points (`build_splines`, 53-80). `splrep` raises
`TypeError` for fewer than four points; abscissae that do not increase are not modelled. -/
noncomputable def splFromXY (xss yss : List (List ℝ)) : Except Err (List (SplRow ℝ)) :=
  if xss.map List.length ≠ yss.map List.length then .error .ValueError
  else
    match xss.flatten.min?, xss.flatten.max? with
    | some lo, some hi =>
      if ∃ xs ∈ xss, xs.length < 4 then .error .TypeError
      else if ∃ xs ∈ xss, ¬ xs.Pairwise (· < ·) then .error .Unmodelled
      else .ok (List.zipWith (fun xs ys => splrep xs (ys.map (· / splIntegral lo hi xs ys))) xss yss)
    | _, _ => .error .ValueError

/-- `ens.convert_to(qp.spline, method="xy", xvals=xs)` for `n` PDFs with the densities `g`: `extract_xy_vals` (`conversion_funcs.py` 42-65) repeats the abscissae for every PDF and
evaluates the densities there, and `create_from_xy_vals` makes the splines. (The arrays of `extract_xy_vals` are in `Convert.lean`, `extractXyVals`.) -/
noncomputable def splConvertXY (n : ℕ) (g : ℕ → ℝ → ℝ) (xs : List ℝ) : Except Err (List (SplRow ℝ)) :=
  splFromXY (List.replicate n xs) ((List.range n).map fun (i : ℕ) => xs.map (g i))

end Verif.Model

import Verif.Model.InterpPdf
import Verif.Model.Err
import Verif.Np.Round
import Verif.Np.Linspace

/-!
# The grid of a conversion to the sparse class

Source: `/repo/src/qp/conversion_funcs.py` 317-363 (`extract_sparse_from_xy`), the same lines in `extract_voigt_xy_sparse` (302-311) and
`extract_xy_sparse` (394-403). The search for basis functions that follows is in `Sparse.lean`.
-/

set_option linter.unusedSectionVars false
set_option autoImplicit false

namespace Verif.Model

open Verif Verif.Np

variable {K : Type} [Field K] [LinearOrder K]

/-- `np.min` of one axis; `ValueError` for an empty one -/
def rowMin (l : List K) : Except Err K :=
  match l with
  | [] => .error .ValueError
  | a :: t => .ok (t.foldl min a)

/-- the second result of `np.where(yvals > 0)`: the columns of the positive entries, row by row, `conversion_funcs.py` 353 -/
def positiveColumns (ys : List (List K)) : List ℕ :=
  ys.flatMap fun r => (List.range r.length).filter fun (j : ℕ) => decide (0 < r.getD j 0)

/-- `xvals[j]` for one position -/
def pickAt (xs : List K) (j : ℕ) : Except Err K :=
  match xs[j]? with
  | none => .error .IndexError
  | some v => .ok v

/-- the call of the `interp1d` object for one row and one point within its bounds -/
def lineAt (xs r : List K) (v : K) : Except Err K :=
  match interpLin 0 0 (xs.zip r) v with
  | none => .error .ValueError
  | some d => .ok d

/-- `conversion_funcs.py` 346-357: the new grid and the densities on it. `xs` is `metadata()["xvals"][0]` or the argument `xvals`, `ys` is
`objdata()["yvals"]` or the argument `yvals`. `interp1d` refuses rows of another length (`ValueError`) and, with its default
`bounds_error`, points outside the first and last abscissa (`ValueError`). Its behaviour for a single abscissa is not followed (the
theorems ask for two). -/
def rebin (xs : List K) (ys : List (List K)) (nvals : ℕ) : Except Err (List K × List (List K)) := do
  let xmin ← rowMin xs
  let picked ← (positiveColumns ys).mapM (pickAt xs)
  let xmax ← rowMax picked
  let newx := Np.linspace xmin xmax nvals
  if ys.any (fun r => decide (r.length ≠ xs.length)) then .error .ValueError
  else if newx.any (fun v => decide (v < xs.headD 0) || decide (xs.getLastD 0 < v)) then .error .ValueError
  else do
    let rows ← ys.mapM fun r => newx.mapM (lineAt xs r)
    .ok (newx, rows)

end Verif.Model

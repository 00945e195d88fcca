import Verif.Model.Sparse
import Verif.Model.Metrics

/-!
# Sparse PDFs: from encoded rows to densities

Source: `/repo/src/qp/sparse_pdf.py` 34-62 and `/repo/src/qp/sparse_rep.py` 17-29, 167-216, 298-306. The dictionary is a list of columns. A row of the
encoding is decoded, the addressed columns are weighted and added, and the sum is divided by its trapezoid integral; a zero integral gives `nan`
(`none`).
-/

set_option linter.unusedSectionVars false
set_option autoImplicit false

namespace Verif.Model

open Verif Verif.Np

variable {K : Type} [Field K] [LinearOrder K] [IsStrictOrderedRing K]

/-- column `i` of the dictionary (decoded indices are never negative) -/
def getColumn (A : List (List K)) (i : ℤ) : Except Err (List K) :=
  match A[i.toNat]? with
  | some c => .ok c
  | none => .error .IndexError

/-- `A[:, basis_indices]` for one row, `sparse_pdf.py` 47 and `sparse_rep.py` 301 -/
def pickColumns (A : List (List K)) (idx : List ℤ) : Except Err (List (List K)) := idx.mapM (getColumn A)

/-- the weighted sum of columns, starting from zeros: `sparse_pdf.py` 47-50, `sparse_rep.py` 22-27, 302 -/
def weightedSum (n : ℕ) (cols : List (List K)) (w : List K) : List K :=
  (cols.zip w).foldl (fun acc p => List.zipWith (fun a b => a + p.2 * b) acc p.1) (List.replicate n 0)

/-- `y / trapezoid(y, x)` -/
def trapzNorm (x y : List K) : Option (List K) := if trapz x y = 0 then none else some (y.map (· / trapz x y))

/-- `np.where(y >= cut, y, 0.)` -/
def cutBelow (cut : K) (y : List K) : List K := y.map fun v => if cut ≤ v then v else 0

/-- the ordinates of one PDF of the class, `sparse_pdf.py` 44-53 -/
def sparseOrdinates (A : List (List K)) (x : List K) (row : List ℤ) : Except Err (Option (List K)) := do
  let (idx, w) := decodeRow (K := K) row
  let cols ← pickColumns A idx
  .ok (trapzNorm x (weightedSum x.length cols w))

/-- one row of `pdf_from_sparse`, `sparse_rep.py` 298-306 -/
def pdfFromSparse (cut : K) (A : List (List K)) (x : List K) (row : List ℤ) : Except Err (Option (List K)) := do
  let (idx, w) := decodeRow (K := K) row
  let cols ← pickColumns A idx
  .ok (trapzNorm x (cutBelow cut (weightedSum x.length cols w)))

/-- one row of `indices2shapes`, `sparse_rep.py` 178-216; `ncoef` is `dims[3]` -/
def rowShapes (means sigs gammas : List K) (ncoef : ℕ) (row : List ℤ) : Except Err (List (K × K × K) × List K) := do
  let spi := row.map getN
  let vals := (spi.map fun p => (p.1 : K) * (1 / ((ncoef : K) - 1))).set 0 1
  let shapes ← (spi.map Prod.snd).mapM fun b => indexShape means sigs gammas b.toNat
  .ok (shapes, vals)

/-- `shapes2pdf`, `sparse_rep.py` 17-29; `col m s g` is the thresholded Voigt profile divided by its norm, as in `create_voigt_basis` -/
def shapes2pdf (cut : K) (col : K → K → K → List K) (x : List K) (shapes : List (K × K × K)) (w : List K) : Option (List K) :=
  trapzNorm x (cutBelow cut (weightedSum x.length (shapes.map fun s => col s.1 s.2.1 s.2.2) w))

end Verif.Model

import Verif.Model.Sparse
import Mathlib.Analysis.Real.Sqrt

/-!
# The linear algebra of the greedy search

Source: `/repo/src/qp/sparse_rep.py` 99-131: the Cholesky factor `L` of the inner products of the chosen columns, built row by row, and the coefficients. A row of
`L` is written once, from the columns chosen before, so the factor is a function of the list of chosen columns. `solve_triangular(..., overwrite_b=True)` (109-114)
is taken to write its solution into the row of `L` it was given, as the code expects; its return value is not used.
-/

set_option autoImplicit false

namespace Verif.Model

open Verif Verif.Np

/-- solution `x` of `L x = b` for a lower triangular `L`, row by row: `sla.solve_triangular(L, b, lower=True)`, `sparse_rep.py` 109-114, and the first half of
`cho_solve`, 127-131. Row `i` holds the entries up to the diagonal. -/
noncomputable def forwardSub (L : List (List ℝ)) (b : List ℝ) : List ℝ :=
  (L.zip b).foldl (fun x p => x ++ [(p.2 - dot p.1 x) / p.1.getD x.length 0]) []

/-- solution `x` of `Lᵀ x = y`, from the last row (first in the argument) to the first; the second half of `cho_solve`, `sparse_rep.py` 127-131 -/
noncomputable def backGo : List (List ℝ) → List ℝ → List ℝ
  | [], _ => []
  | r :: L, y =>
    let x := y.getLastD 0 / r.getD L.length 0
    backGo L (List.zipWith (fun a b => a - x * b) y.dropLast r) ++ [x]

noncomputable def backSub (L : List (List ℝ)) (y : List ℝ) : List ℝ := backGo L.reverse y

/-- the part of a new row of `L` left of the diagonal, `sparse_rep.py` 106-114 -/
noncomputable def cholPart (L sel : List (List ℝ)) (c : List ℝ) : List ℝ := forwardSub L (sel.map fun d => dot d c)

/-- `L` after the columns `cols` were chosen in this order, `sparse_rep.py` 99-100 and 104-119 -/
noncomputable def cholOf (cols : List (List ℝ)) : List (List ℝ) :=
  (cols.foldl (fun (st : List (List ℝ) × List (List ℝ)) c =>
    (st.1 ++ [cholPart st.1 st.2 c ++ [Real.sqrt (1 - dot (cholPart st.1 st.2 c) (cholPart st.1 st.2 c))]], st.2 ++ [c])) ([], [])).1

/-- the numerical parts of `sparse_basis`: the coefficients (`cho_solve`, `sparse_rep.py` 127-131) and the test for dependent functions (115-118) -/
noncomputable def cholOps (eps : ℝ) : SearchOps ℝ where
  solve := fun cols alpha => backSub (cholOf cols) (forwardSub (cholOf cols) alpha)
  dependent := fun cols c => decide (1 - dot (cholPart (cholOf cols) cols c) (cholPart (cholOf cols) cols c) ≤ eps)
  eps := eps

end Verif.Model

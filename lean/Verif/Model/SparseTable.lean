import Verif.Model.SparsePdf

/-!
# Sparse PDFs: the constructor applied to a table of codes

Source: `/repo/src/qp/sparse_pdf.py` 34-62 and `/repo/src/qp/sparse_rep.py` 167-175. `sparse_indices` is an array; it is read by mapping over its
first axis, so that what happens depends on the number of its axes. Arrays of three and more axes are not modelled.
-/

set_option linter.unusedSectionVars false
set_option autoImplicit false

namespace Verif.Model

open Verif Verif.Np

variable {K : Type} [Field K] [LinearOrder K] [IsStrictOrderedRing K]

/-- the array given as `sparse_indices`: one number, a list of numbers, or a table (of rows of one length) -/
inductive Codes where
  | single (c : ℤ)
  | flat (cs : List ℤ)
  | table (rows : List (List ℤ))

/-- `sparse_gen.__init__`, `sparse_pdf.py` 45-53 with `decode_sparse_indices`, `sparse_rep.py` 167-175: the ordinates of all rows. A single number
cannot be mapped over (`TypeError`); a list of numbers decodes to an array of two axes and no rows to one of one axis, for which `sp_ind[:, 0, :]`
fails; rows without columns fail at `vals[:, 0] = 1.0`; the columns of all rows are fetched at once, so that one index outside the dictionary is an
`IndexError` of the call. -/
def sparseTable (A : List (List K)) (x : List K) : Codes → Except Err (List (Option (List K)))
  | .single _ => .error .TypeError
  | .flat _ => .error .IndexError
  | .table [] => .error .IndexError
  | .table (r :: rows) => if r = [] then .error .IndexError else (r :: rows).mapM (sparseOrdinates A x)

end Verif.Model

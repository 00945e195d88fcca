import Verif.Model.EnsEval

/-!
# More evaluations of whole ensembles

Sources: `/repo/src/qp/interp_pdf.py` 118-130 (common grid) and 309-321 (one grid per PDF).
-/

set_option linter.unusedSectionVars false
set_option autoImplicit false

namespace Verif.Model

open Verif Verif.Np

variable {K : Type} [Field K] [LinearOrder K]

/-- the density interpolated on the PDF's own grid, `interp_pdf.py` 309-313 -/
def irrEval (_md : Dict K) (row : String → List (Elem K)) (x : K) : Option K :=
  match finites (row "xvals"), finites (row "yvals") with
  | some xs, some ys => interpPdf xs ys x
  | _, _ => none

/-- the CDF interpolated on the PDF's own grid, `interp_pdf.py` 315-321 -/
def irrCdfEval (_md : Dict K) (row : String → List (Elem K)) (x : K) : Option K :=
  match finites (row "xvals"), finites (row "yvals") with
  | some xs, some ys => irrCdf xs ys x
  | _, _ => none

/-- the CDF interpolated on the common grid, `interp_pdf.py` 124-130; the cumulated values are those computed when the object was built -/
def interpCdfEval (md : Dict K) (row : String → List (Elem K)) (x : K) : Option K :=
  (finites (row "yvals")).bind fun r => match interpNormRow (metaGrid md "xvals") r with
    | .ok (some (_, c)) => interpCdf (metaGrid md "xvals") c x
    | _ => none

end Verif.Model

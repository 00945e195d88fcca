import Verif.Model.Classes
import Verif.Model.EvalCase

/-!
# Evaluating an ensemble of a row class

Source: the `_pdf`/`_cdf` methods, e.g. `/repo/src/qp/hist_pdf.py` 107-117, `interp_pdf.py` 118-130, `mixmod_pdf.py` 95-117,
`spline_pdf.py` 156-170: row number `i` is evaluated with the metadata and line `i` of each table of the object.
-/

set_option linter.unusedSectionVars false
set_option autoImplicit false

namespace Verif.Model

open Verif Verif.Np

variable {K : Type} [Field K] [LinearOrder K] {β : Type}

/-- line `i` of table `key`, as `self._hpdfs[row]` -/
def tableRow (fr : Frozen K) (i : ℕ) (key : String) : List (Elem K) :=
  match Dict.get? fr.objdata key with
  | some (.arr a) => a.row i
  | _ => []

/-- `ens.pdf(x)` for a list of points, when `f metadata tableLine` is what the class computes for one PDF at one point. -/
def ensEval (f : Dict K → (String → List (Elem K)) → K → β) (fr : Frozen K) (x : List K) : Except Err (List (List β)) :=
  evalShared (dispatch (fun i => f fr.metadata (tableRow fr i)) (fun i => f fr.metadata (tableRow fr i))
    (fun i => f fr.metadata (tableRow fr i))) fr.npdf x

/-- the grid recorded in the metadata -/
def metaGrid (md : Dict K) (key : String) : List K :=
  match Dict.get? md key with
  | some v => (finites v.toArr.data).getD []
  | none => []

/-- the histogram PDF in this form, `hist_pdf.py` 107-109 (`none`: a row of `nan`) -/
def histEval [FloorRing K] (md : Dict K) (row : String → List (Elem K)) (x : K) : Option (Except Err K) :=
  (finites (row "pdfs")).map fun r => histPdf (metaGrid md "bins") r x

/-- the PDF interpolated on a common grid, `interp_pdf.py` 118-122 -/
def interpEval (md : Dict K) (row : String → List (Elem K)) (x : K) : Option K :=
  (finites (row "yvals")).bind fun r => interpPdf (metaGrid md "xvals") r x

/-- the mixture PDF, `mixmod_pdf.py` 95-108, with component density `phi mean std x` -/
def mixRowEval (phi : K → K → K → K) (_md : Dict K) (row : String → List (Elem K)) (x : K) : Option K :=
  match finites (row "means"), finites (row "stds"), finites (row "weights") with
  | some mu, some sd, some w => some (mixEval w (List.zipWith phi mu sd) x)
  | _, _, _ => none

end Verif.Model

import Verif.Model.QuantEval

/-!
# Densities of quantile ensembles with the default reconstruction
-/

set_option linter.unusedSectionVars false
set_option autoImplicit false

namespace Verif.Model

open Verif.Np

variable {K : Type} [Field K] [LinearOrder K]

/-- `_pdf` of one stored row of a quantile ensemble with the default reconstruction (`quant_pdf.py` 76, 209-216; `piecewise_linear.py` 45-75) -/
def quantPdfElem (md : Dict K) (row : String → List (Elem K)) (x : K) : Elem K :=
  .num ((finites (row "locs")).bind fun r => linearPdf (metaGrid md "quants") r x)

end Verif.Model

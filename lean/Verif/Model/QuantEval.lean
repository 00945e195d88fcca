import Verif.Model.Convert
import Verif.Model.Front

/-!
# Evaluation of quantile ensembles (`quant_pdf.py` 218-240)

The quadratic interpolant that scipy builds is an argument (`spl`).
-/

set_option linter.unusedSectionVars false
set_option autoImplicit false

namespace Verif.Model

open Verif.Np

variable {K : Type} [Field K] [LinearOrder K]

/-- `_ppf` of one row, `quant_pdf.py` 230-240: the locations are interpolated as a function of the quantiles; outside the quantiles the
fill values are the smallest and the largest location given to the constructor (`lo`, `hi`; lines 116-117). -/
def quantPpf (spl : List (K × K) → K → K) (lo hi : K) (quants locs : List K) (p : K) : Option K :=
  match quants with
  | [] => none
  | q0 :: t =>
    if p < q0 then some lo
    else if (q0 :: t).getLast (by simp) < p then some hi
    else some (spl ((q0 :: t).zip locs) p)

/-- `_cdf` of one stored row, for whole ensembles -/
def quantCdfElem (spl : List (K × K) → K → K) (md : Dict K) (row : String → List (Elem K)) (x : K) : Elem K :=
  .num ((finites (row "locs")).bind fun r => quantCdf spl (metaGrid md "quants") r x)

/-- `_ppf` of one stored row -/
def quantPpfRow (spl : List (K × K) → K → K) (lo hi : K) (md : Dict K) (row : String → List (Elem K)) (p : K) : Option K :=
  (finites (row "locs")).bind fun r => quantPpf spl lo hi (metaGrid md "quants") r p

/-- the same as an array element -/
def quantPpfElem (spl : List (K × K) → K → K) (lo hi : K) (md : Dict K) (row : String → List (Elem K)) (p : K) : Elem K :=
  .num (quantPpfRow spl lo hi md row p)

/-- `ens.cdf(x)` for one point per PDF, as `ensEval` for a shared list -/
def ensEvalPer {β : Type} (f : Dict K → (String → List (Elem K)) → K → β) (fr : Frozen K) (x : List K) : Except Err (List (List β)) :=
  evalPerPdf (dispatch (fun i => f fr.metadata (tableRow fr i)) (fun i => f fr.metadata (tableRow fr i))
    (fun i => f fr.metadata (tableRow fr i))) x

end Verif.Model

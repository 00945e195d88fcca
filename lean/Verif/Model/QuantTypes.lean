import Verif.Model.Quant

/-!
# Element types when quantiles are padded

Source: `/repo/src/qp/quant_pdf.py` 26-73.
-/

set_option linter.unusedSectionVars false
set_option autoImplicit false

namespace Verif.Model

open Verif Verif.Np

variable {K : Type} [Field K] [LinearOrder K]

/-- `pad_quantiles(quants, locs)`, `quant_pdf.py` 26-73, with element types: `store` is what assigning a number to an array of the element type of the
*probabilities* keeps of it. Both new arrays have that type (58-59), so every location is converted when it is copied (61) or computed (63-65, 69-71); without
padding the arrays are returned as they are (55-56). Simplified: the new end locations are computed exactly before they are converted. -/
def padQuantilesAs (store : K → K) (quants : List K) (locs : List (List K)) : Except Err (List K × List (List K)) :=
  match padQuantiles quants locs with
  | .error e => .error e
  | .ok (q, l) => if q.length = quants.length then .ok (q, l) else .ok (q.map store, l.map fun r => r.map store)

/-- what `quant_gen.__init__` stores, `quant_pdf.py` 115-130, with element types -/
def quantInitAs (store : K → K) (quants : List K) (locs : List (List K)) (checkInput : Bool) : Except Err (List K × List (List K)) :=
  match (if checkInput then padQuantilesAs store quants locs else .ok (quants, locs)) with
  | .error e => .error e
  | .ok (q, l) => if l.any (fun r => r.length ≠ q.length) then .error .ValueError else .ok (q, l)

end Verif.Model

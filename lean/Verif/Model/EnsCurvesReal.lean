import Verif.Model.EnsEval
import Verif.Model.PackedPdf
import Verif.Model.Spline

/-!
# Evaluations of whole ensembles: packed grids and splines

Sources: `/repo/src/qp/packed_interp_pdf.py` 109-143, 175-181 and `/repo/src/qp/spline_pdf.py` 246-268.
-/

set_option linter.unusedSectionVars false
set_option autoImplicit false

namespace Verif.Model

open Verif Verif.Np

/-- the density of a packed row, `packed_interp_pdf.py` 175-181: the values kept by the object are those unpacked and normalised in the constructor
(109-118). The packing type was checked there to be 0 (linear) or 1 (logarithmic); the codes are whole numbers. -/
noncomputable def packedEval (md : Dict ℝ) (row : String → List (Elem ℝ)) (x : ℝ) : Option ℝ :=
  match finites (row "ypacked"), finites (row "ymax") with
  | some codes, some [rm] =>
    let codes := codes.map fun c => ⌊c⌋₊
    let y := if metaGrid md "packing_type" = [0] then linearUnpackRow codes rm else logUnpackRow ((metaGrid md "log_floor").headD 0) codes rm
    match interpNormRow (metaGrid md "xvals") y with
    | .ok (some (ys, _)) => interpPdf (metaGrid md "xvals") ys x
    | _ => none
  | _, _ => none

variable {K : Type} [Field K] [LinearOrder K] [IsStrictOrderedRing K] [FloorRing K]

/-- line `i` of the three tables as a spline -/
def splRowOf (row : String → List (Elem K)) : Option (SplRow K) :=
  match finites (row "splx"), finites (row "sply"), finites (row "spln") with
  | some t, some c, some [k] => some ⟨t, c, ⌊k⌋.toNat⟩
  | _, _, _ => none

/-- the spline density, `spline_pdf.py` 246-255 -/
def splEval (_md : Dict K) (row : String → List (Elem K)) (x : K) : Option K := (splRowOf row).map fun r => splev r x

/-- the spline CDF, `spline_pdf.py` 257-268; `a` is the smallest knot of the object (143) -/
def splCdfEval (a : K) (_md : Dict K) (row : String → List (Elem K)) (x : K) : Option K := (splRowOf row).map fun r => splint r a x

end Verif.Model

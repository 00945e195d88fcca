import Verif.Model.InterpPdf
import Verif.Model.Packing

/-!
# Packed interpolated distributions

Source: `/repo/src/qp/packed_interp_pdf.py` 66-143 (`packed_interp_gen`) and 16-47 (`extract_and_pack_vals_at_x`), for one PDF.
`_pdf`, `_cdf`, `_ppf` and the moments (175-219).
-/

set_option linter.unusedSectionVars false
set_option autoImplicit false

namespace Verif.Model

open Verif Verif.Np

variable {K : Type*} [Field K] [LinearOrder K] [IsStrictOrderedRing K] [FloorRing K]

/-- the constructor with linear packing, `packed_interp_pdf.py` 109-113: the ordinates and cumulated values it keeps. `_compute_ycumul`
(125-135) is that of `interp_gen` on the unpacked row. -/
def packedNormRow (xs : List K) (codes : List ℕ) (rm : K) : Except Err (Option (List K × List K)) :=
  interpNormRow xs (linearUnpackRow codes rm)

/-- conversion to the packed class with linear packing: pack the values of the PDF on the grid (36-44), then construct -/
def packedFromVals (xs row : List K) : Except Err (Option (List K × List K)) := do
  let p ← linearPackRow row
  packedNormRow xs p.1 p.2

/-- conversion to the packed class with logarithmic packing -/
noncomputable def logPackedFromVals (lf : ℝ) (xs row : List ℝ) : Except Err (Option (List ℝ × List ℝ)) := do
  let p ← logPackRow lf row
  interpNormRow xs (logUnpackRow lf p.1 p.2)

/-! ### evaluation of one PDF -/

/-- `_unpack` for one PDF, `packed_interp_pdf.py` 137-143 -/
noncomputable def unpackRow (t : PackingType) (lf : ℝ) (codes : List ℕ) (rm : ℝ) : List ℝ :=
  match t with
  | .linear_from_rowmax => linearUnpackRow codes rm
  | .log_from_rowmax => logUnpackRow lf codes rm

/-- the row-wise state of the object after the constructor, `packed_interp_pdf.py` 107-113: `_yvals` and `_ycumul` -/
noncomputable def packedState (t : PackingType) (lf : ℝ) (xs : List ℝ) (codes : List ℕ) (rm : ℝ) : Except Err (Option (List ℝ × List ℝ)) :=
  interpNormRow xs (unpackRow t lf codes rm)

/-- `_pdf` of one row, `packed_interp_pdf.py` 175-181 -/
noncomputable def packedPdf (xs : List ℝ) (st : List ℝ × List ℝ) (x : ℝ) : Option ℝ := interp 0 0 (xs.zip st.1) x

/-- `_cdf` of one row, `packed_interp_pdf.py` 183-189 -/
noncomputable def packedCdf (xs : List ℝ) (st : List ℝ × List ℝ) (x : ℝ) : Option ℝ := interp 0 1 (xs.zip st.2) x

/-- `_ppf` of one row, `packed_interp_pdf.py` 191-203; `_xmin`, `_xmax` are the ends of the grid (96-97) -/
noncomputable def packedPpf (xs : List ℝ) (st : List ℝ × List ℝ) (q : ℝ) : Option ℝ :=
  match xs with
  | [] => none
  | a :: t => interp a ((a :: t).getLast (by simp)) (st.2.zip xs) q

/-- `custom_generic_moment` of one row, `packed_interp_pdf.py` 213-219, called by `_munp` (205-211) -/
noncomputable def packedMoment (xs : List ℝ) (st : List ℝ × List ℝ) (m : ℕ) : Except Err ℝ :=
  match xs with
  | a :: b :: _ => .ok (Np.sum (Np.mul (xs.map (· ^ m)) st.1) * (b - a))
  | _ => .error .IndexError

end Verif.Model

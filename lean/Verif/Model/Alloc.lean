import Verif.Model.Classes
import Verif.Model.H5
import Mathlib.Algebra.Order.Floor.Defs

/-!
# `get_allocation_kwds` of the classes

Without the element types. `shape[-1]` of a scalar raises `IndexError`.
-/

set_option linter.unusedSectionVars false
set_option autoImplicit false

namespace Verif.Model

open Verif Verif.Np

section
variable {K : Type}

/-- `np.shape(v)[-1]` -/
def lastAxis (v : Val K) : Except Err ℕ :=
  match v.shape.getLast? with
  | some n => .ok n
  | none => .error .IndexError

/-- `kwargs[key]` after the test `if key not in kwargs: raise ValueError` -/
def allocArg (d : Dict K) (key : String) : Except Err (Val K) :=
  match Dict.get? d key with
  | some v => .ok v
  | none => .error .ValueError

/-- `hist_gen.get_allocation_kwds`, `hist_pdf.py` 156-161. Lists and scalars have no `flatten`. No bins at all is not modelled (a length
of -1). -/
def histAlloc (n : ℕ) (d : Dict K) : Except Err (List (String × List ℕ)) := do
  let v ← allocArg d "bins"
  match v with
  | .arr a => if a.data = [] then .error .Unmodelled else .ok [("pdfs", [n, a.data.length - 1])]
  | _ => .error .AttributeError

/-- `interp_gen.get_allocation_kwds`, `interp_pdf.py` 169-185 -/
def interpAlloc (n : ℕ) (d : Dict K) : Except Err (List (String × List ℕ)) := do
  let v ← allocArg d "xvals"
  let w ← lastAxis v
  .ok [("yvals", [n, w])]

/-- `interp_irregular_gen.get_allocation_kwds`, `interp_pdf.py` 345-361 -/
def irrAlloc (n : ℕ) (d : Dict K) : Except Err (List (String × List ℕ)) := do
  let v ← allocArg d "xvals"
  let w ← lastAxis v
  .ok [("xvals", [n, w]), ("yvals", [n, w])]

/-- `mixmod_gen.get_allocation_kwds`, `mixmod_pdf.py` 148-169 -/
def mixAlloc (n : ℕ) (d : Dict K) : Except Err (List (String × List ℕ)) := do
  let v ← allocArg d "means"
  let w ← lastAxis v
  .ok [("means", [n, w]), ("stds", [n, w]), ("weights", [n, w])]

/-- `packed_interp_gen.get_allocation_kwds`, `packed_interp_pdf.py` 233-252 -/
def packedAlloc (n : ℕ) (d : Dict K) : Except Err (List (String × List ℕ)) := do
  let v ← allocArg d "xvals"
  let w ← lastAxis v
  .ok [("ypacked", [n, w]), ("ymax", [n, 1])]

/-- `quant_gen.get_allocation_kwds`, `quant_pdf.py` 253-264. A missing `quants` is a `KeyError` (the code expects `ValueError`). -/
def quantAlloc (n : ℕ) (d : Dict K) : Except Err (List (String × List ℕ)) :=
  match Dict.get? d "quants" with
  | none => .error .KeyError
  | some v => do
    let w ← lastAxis v
    .ok [("locs", [n, w])]

/-- `spline_gen.get_allocation_kwds`, `spline_pdf.py` 280-298: the number of PDFs asked for is not used. `shape[0]` of a scalar raises
`IndexError`. -/
def splineAlloc (_n : ℕ) (d : Dict K) : Except Err (List (String × List ℕ)) := do
  let v ← allocArg d "splx"
  match v.shape with
  | [] => .error .IndexError
  | m :: s => .ok [("splx", m :: s), ("sply", m :: s), ("spln", [m, 1])]

/-- `sparse_gen.get_allocation_kwds`, `sparse_pdf.py` 77-81: the width is the fifth dimension recorded with the dictionary. Only whole
non-negative numbers are modelled. -/
def sparseAlloc [Ring K] [LinearOrder K] [FloorRing K] (n : ℕ) (d : Dict K) : Except Err (List (String × List ℕ)) := do
  let v ← allocArg d "dims"
  match (v.toArr.data[4]? : Option (Elem K)) with
  | none => .error .IndexError
  | some (Elem.num (some x)) => if x = (⌊x⌋.toNat : K) then .ok [("sparse_indices", [n, ⌊x⌋.toNat])] else .error .Unmodelled
  | some _ => .error .Unmodelled

/-- `Pdf_gen_wrap.get_allocation_kwds`, `pdf_gen.py` 414-416; only arrays have a `dtype` -/
def analyticAlloc (n : ℕ) (d : Dict K) : Except Err (List (String × List ℕ)) :=
  d.mapM fun p => match p.2 with
    | .arr _ => .ok (p.1, [n, 1])
    | _ => .error .AttributeError

end

end Verif.Model

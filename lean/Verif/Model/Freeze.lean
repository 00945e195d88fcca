import Verif.Model.Classes

/-!
# Making a frozen distribution builds the object twice

`Pdf_gen.create` (`pdf_gen.py` 130-140) calls the constructor and then `freeze` (`pdf_gen.py` 333-347), and the constructor of scipy's
frozen distribution keeps `dist.__class__(**dist._updated_ctor_param())`: a second object, built from the arguments that the class reports
(`hist_pdf.py` 147-154, `interp_pdf.py` 160-167 and 336-343, `packed_interp_pdf.py` 221-231, `mixmod_pdf.py` 138-146, `quant_pdf.py`
242-251, `spline_pdf.py` 270-278, `sparse_pdf.py` 64-74). An ensemble uses this second object for evaluation, metadata and tables
(`ensemble.py` 36-38). Only `quant` reports `check_input`; for the others the second pass runs with the default, which is `True`.

The classes below are the constructors with their flag; `Classes.lean` has the outcome of the two passes. That they agree is proved in
`Props/Freeze.lean`.
-/

set_option linter.unusedSectionVars false
set_option autoImplicit false

namespace Verif.Model

open Verif Verif.Np

variable {K : Type} [Field K] [LinearOrder K]

/-- `hist_gen.__init__`, `hist_pdf.py` 53-88: unchecked heights are kept as they are -/
def histCtor : RowCls K :=
  { histCls with
    norm := fun m rows => if truthy m "check_input" then histCls.norm m rows else .ok rows }

/-- `interp_gen.__init__`, `interp_pdf.py` 60-95: unchecked values are kept as they are, and only `xvals[0]`, `xvals[-1]` are looked up -/
def interpCtor : RowCls K :=
  { interpCls with
    metaOut := fun m => do
      let x ← grid1 m "xvals"
      if x = [] ∨ (x.length < 2 ∧ truthy m "check_input") then .error .IndexError else .ok [("xvals", vec x)]
    norm := fun m rows => if truthy m "check_input" then interpCls.norm m rows else .ok rows }

/-- `interp_irregular_gen.__init__`, `interp_pdf.py` 258-287 -/
def irrCtor : RowCls K :=
  { irrCls with
    norm := fun m rows => if truthy m "check_input" then irrCls.norm m rows else .ok rows }

/-- `packed_interp_gen.__init__`, `packed_interp_pdf.py` 66-123: unchecked values are not unpacked -/
def packedCtor : RowCls K :=
  { packedCls with
    metaOut := fun m => do
      let x ← grid1 m "xvals"
      let p ← numArg m "packing_type"
      let f ← numArg m "log_floor"
      if x = [] ∨ (x.length < 2 ∧ truthy m "check_input") then .error .IndexError
      else if truthy m "check_input" ∧ p ≠ 0 ∧ p ≠ 1 then .error .ValueError
      else .ok [("xvals", vec x), ("packing_type", ⟨[], [.num (some p)]⟩), ("log_floor", ⟨[], [.num (some f)]⟩)]
    norm := fun m rows => if truthy m "check_input" then packedCls.norm m rows else .ok rows }

/-- `sparse_gen.__init__`, `sparse_pdf.py` 34-62, which hands `check_input` on to `interp_gen` -/
def sparseCtor : RowCls K :=
  { sparseCls with
    metaOut := fun m => do
      let x ← grid1 m "xvals"
      let mu ← grid1 m "mu"
      let sig ← grid1 m "sig"
      let dims ← grid1 m "dims"
      if x = [] ∨ (x.length < 2 ∧ truthy m "check_input") ∨ mu.length < 2 ∨ sig.length < 2 ∨ dims.length < 3 then .error .IndexError
      else .ok [("xvals", vec x), ("mu", vec mu), ("sig", vec sig), ("dims", vec dims)] }

/-- `_updated_ctor_param` of an object: the metadata (which are kept with a leading axis of length 1) and the tables. For `sparse` the
decoded `yvals` are also among the arguments; they are not part of what is stored. -/
def ctorParams (f : Frozen K) : Dict K :=
  (f.metadata.filter fun p => p.1 ≠ "pdf_name" ∧ p.1 ≠ "pdf_version").map
    (fun p => (p.1, .arr ⟨p.2.toArr.shape.tail, p.2.toArr.data⟩)) ++ f.objdata

/-- `cls.create(**data)`: the constructor, then the constructor on its own parameters; the shape is that of the first object
(`rv_frozen_rows.__init__`, `pdf_gen.py` 227-236) -/
def createFrozen (ctor : RowCls K) : GenFunc K := fun data => do
  let f ← rowCreate ctor data
  let g ← rowCreate ctor (ctorParams f)
  .ok { g with npdf := f.npdf, shape := f.shape }

end Verif.Model

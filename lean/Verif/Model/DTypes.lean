import Verif.Model.H5
import Verif.Spec.Ens
import Verif.Spec.Rounding

/-!
# Element types of the data sets of a file

Sources: `/repo/src/qp/ensemble.py` 632-661 (`array.dtype` of the ensemble that allocates), and the element types in `get_allocation_kwds`
of the classes: `hist_pdf.py` 161, `interp_pdf.py` 185 and 361, `mixmod_pdf.py` 165-169, `packed_interp_pdf.py` 249-252,
`quant_pdf.py` 264, `sparse_pdf.py` 81, `spline_pdf.py` 298. A data set keeps the type it was allocated with; HDF5 converts what is assigned to it without an error: floats are rounded, floats assigned to integers are cut off towards zero and
clipped to the range, byte strings are cut off. Numbers of a `float32` array take part in calculations as exact numbers here. Conversions between other kinds of
elements, and arrays of Unicode strings (which h5py does not store), are not modelled.
-/

set_option linter.unusedSectionVars false
set_option autoImplicit false

namespace Verif.Model

open Verif Verif.Np Verif.Spec

/-- an element type of numpy: binary floating-point numbers with `p + 1` digits, smallest spacing `2 ^ emin` and magnitude below
`2 ^ emax`; integers from `lo` to `hi`; byte strings of at most `n` bytes -/
inductive DType
  | flt (p : ℕ) (emin emax : ℤ)
  | int (lo hi : ℤ)
  | bytes (n : ℕ)
deriving DecidableEq, Repr

namespace DType

/-- `"f4"`: IEEE single precision -/
def f4 : DType := .flt 23 (-149) 128

/-- `"f8"`: IEEE double precision -/
def f8 : DType := .flt 52 (-1074) 1024

/-- `"i4"` -/
def i4 : DType := .int (-2147483648) 2147483647

/-- `"i8"` -/
def i8 : DType := .int (-9223372036854775808) 9223372036854775807

/-- `"u1"` -/
def u1 : DType := .int 0 255

end DType

section
variable {K : Type} [Field K] [LinearOrder K] [FloorRing K]

/-- the spacing of floating-point numbers around `x` is two to this power; below the smallest normal number it is constant -/
def spacing (p : ℕ) (emin : ℤ) (x : K) : ℤ := max (Int.log 2 |x| - p) emin

/-- the nearest floating-point number, ties to even, with gradual underflow -/
def floatRound (p : ℕ) (emin : ℤ) (x : K) : K := (roundEven (x / 2 ^ spacing p emin x) : K) * 2 ^ spacing p emin x

/-- the integer part, towards zero -/
def truncate (x : K) : ℤ := if 0 ≤ x then ⌊x⌋ else -⌊-x⌋

/-- the element that is stored when `e` is assigned to a data set (or array) of the type -/
def castElem : DType → Elem K → Except Err (Elem K)
  | .flt p emin emax, .num (some x) => .ok (.num (if |floatRound p emin x| < 2 ^ emax then some (floatRound p emin x) else none))
  | .flt _ _ _, .num none => .ok (.num none)
  | .int lo hi, .num (some x) => .ok (.num (some ((max lo (min hi (truncate x)) : ℤ) : K)))
  | .bytes n, .bytes s => .ok (.bytes (String.ofList (s.toList.take n)))
  | _, _ => .error .Unmodelled

/-- an array assigned to a data set of the type -/
def castVal (t : DType) : Val K → Except Err (Val K)
  | .arr a => (a.data.mapM (castElem t)).map fun d => .arr ⟨a.shape, d⟩
  | _ => .error .Unmodelled

/-- the element types of the data sets of a file, by group and column -/
abbrev Types := String → String → DType

/-- one assignment of `writeDictToHdf5Chunk` to a file whose data sets have the given types -/
def writeOpT (ty : Types) (f : Tabs K) (o : Put K) : Except Err (Tabs K) :=
  match castVal (ty o.group o.col) o.val with
  | .error err => .error err
  | .ok v => writeOp f { o with val := v }

/-- the assignments one after the other -/
def runOpsT (ty : Types) : Tabs K → List (Put K) → Except Err (Tabs K)
  | f, [] => .ok f
  | f, o :: os => match writeOpT ty f o with
    | .error err => .error err
    | .ok f' => runOpsT ty f' os

end

/-- the element types in `get_allocation_kwds` of the classes, by column: `hist_pdf.py` 161, `interp_pdf.py` 185 and 361, `mixmod_pdf.py` 165-169,
`quant_pdf.py` 264, `packed_interp_pdf.py` 249-252, `spline_pdf.py` 298, `sparse_pdf.py` 81 -/
def classTypes : RowKind → List (String × DType)
  | .hist => [("pdfs", .f4)]
  | .interp => [("yvals", .f4)]
  | .irr => [("xvals", .f4), ("yvals", .f4)]
  | .mix => [("means", .f4), ("stds", .f4), ("weights", .f4)]
  | .quant => [("locs", .f4)]
  | .packed => [("ypacked", .u1), ("ymax", .f4)]
  | .spline => [("splx", .f4), ("sply", .f4), ("spln", .i4)]
  | .sparse => [("sparse_indices", .i8)]

end Verif.Model

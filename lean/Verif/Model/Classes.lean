import Verif.Model.Ensemble
import Verif.Model.Hist
import Verif.Model.InterpPdf
import Verif.Model.Mixmod
import Verif.Model.Quant

/-!
# The row classes of qp as `RowCls`

Sources: the constructors in `/repo/src/qp/hist_pdf.py` 53-88, `interp_pdf.py` 60-95 and 258-287, `mixmod_pdf.py` 42-68,
`quant_pdf.py` 103-144, `packed_interp_pdf.py` 66-123, `sparse_pdf.py` 34-62, `spline_pdf.py` 115-154. What they store; the evaluation is modelled in
the files imported here. Common simplification: grids given as metadata are 1-D and finite (`Unmodelled` otherwise).
-/

set_option linter.unusedSectionVars false
set_option autoImplicit false

namespace Verif.Model

open Verif Verif.Np

variable {K : Type} [Field K] [LinearOrder K]

/-- the finite number in an element -/
def Elem.finite? : Elem K → Option K
  | .num v => v
  | _ => none

/-- the elements as finite numbers, if they all are -/
def finites (l : List (Elem K)) : Option (List K) := l.mapM Elem.finite?

/-- numbers as elements -/
def nums (l : List K) : List (Elem K) := l.map fun v => .num (some v)

/-- all elements are numbers (possibly `nan`) -/
def allNum (l : List (Elem K)) : Bool := l.all fun e => match e with
  | .num _ => true
  | _ => false

/-- text: arithmetic with it raises `TypeError` -/
def Elem.isText : Elem K → Bool
  | .str _ => true
  | .bytes _ => true
  | _ => false

/-- a row of `nan` -/
def nanRow (l : List (Elem K)) : List (Elem K) := l.map fun _ => .num none

/-- apply a normalisation of one row; a non-finite entry or a division by zero makes the whole row `nan` (with numpy, dividing
a non-zero entry by zero gives `inf` instead: both count as "not finite" here). Arithmetic on strings raises `TypeError`. -/
def liftRow (f : List K → Option (List K)) (row : List (Elem K)) : Except Err (List (Elem K)) :=
  if allNum row then
    match finites row with
    | none => .ok (nanRow row)
    | some r => match f r with
      | none => .ok (nanRow row)
      | some r' => .ok (nums r')
  else .error .TypeError

/-- a 1-D array of finite numbers among the arguments -/
def grid1 (m : Dict K) (key : String) : Except Err (List K) :=
  match m.get? key with
  | none => .error .TypeError
  | some v => match v.toArr.shape, finites v.toArr.data with
    | [_], some l => .ok l
    | _, _ => .error .Unmodelled

/-- the elements of an argument -/
def argData (m : Dict K) (key : String) : Option (List (Elem K)) := (Dict.get? m key).map fun v => v.toArr.data

/-- truth value of a keyword argument (`if check_input:`) -/
def truthy (m : Dict K) (key : String) : Bool :=
  match argData m key with
  | some [.bool b] => b
  | some [.num (some x)] => decide (x ≠ 0)
  | _ => true

/-- `check_input` as an optional argument with default `True` -/
def checkInputArg : String × Option (Val K) := ("check_input", some (.py (.bool true)))

/-- a 1-D array of numbers -/
def vec (l : List K) : Arr (Elem K) := ⟨[l.length], nums l⟩

/-- `hist_gen`, `hist_pdf.py` 53-88. What a frozen distribution holds: freezing builds the object a second time, with input checking on
whatever `check_input` was (`Freeze.lean` models the two passes), so the rows are always normalised. -/
def histCls : RowCls K where
  name := "hist"
  version := 0
  metaArgs := [("bins", none), checkInputArg]
  rowArgs := ["pdfs"]
  needsRows := false
  leadErr := .ValueError
  metaOut := fun m => do
    let b ← grid1 m "bins"
    if b = [] then .error .IndexError else .ok [("bins", vec b)]
  widths := fun m ws => do
    let b ← grid1 m "bins"
    if ws = [b.length - 1] then .ok ws else .error .ValueError
  norm := fun m rows => do
    let b ← grid1 m "bins"
    rows.mapM (liftRow (histNormRow b))

/-- the normalised values of one row of `interp_gen`, `interp_pdf.py` 84-88 -/
def interpNorm (xs ys : List K) : Option (List K) :=
  match interpNormRow xs ys with
  | .ok (some (y, _)) => some y
  | _ => none

/-- `interp_gen`, `interp_pdf.py` 60-95. `xvals[0]` and `xvals[1]` raise `IndexError` on short grids. As
for histograms the object that is kept was built with input checking on. Which exception comes first if several things are wrong is not
followed (the code compares the sizes before it looks up grid points). -/
def interpCls : RowCls K where
  name := "interp"
  version := 0
  metaArgs := [("xvals", none), checkInputArg]
  rowArgs := ["yvals"]
  needsRows := false
  leadErr := .ValueError
  metaOut := fun m => do
    let x ← grid1 m "xvals"
    if x.length < 2 then .error .IndexError else .ok [("xvals", vec x)]
  widths := fun m ws => do
    let x ← grid1 m "xvals"
    if ws = [x.length] then .ok ws else .error .ValueError
  norm := fun m rows => do
    let x ← grid1 m "xvals"
    rows.mapM (liftRow (interpNorm x))

/-- one PDF of `interp_irregular_gen`: the x-values are kept, the y-values normalised with them (`utils.py` 98-122) -/
def irrNorm (xs ys : List (Elem K)) : Except Err (List (Elem K)) :=
  match finites xs with
  | some x => liftRow (irrNormRow x) ys
  | none => if allNum xs ∧ allNum ys then .ok (nanRow ys) else .error .TypeError

/-- `interp_irregular_gen`, `interp_pdf.py` 258-287. As for histograms the object that is kept was built with input checking on. -/
def irrCls : RowCls K where
  name := "interp_irregular"
  version := 0
  metaArgs := [checkInputArg]
  rowArgs := ["xvals", "yvals"]
  needsRows := true
  leadErr := .ValueError
  metaOut := fun _ => .ok []
  widths := fun _ ws => match ws with
    | [a, b] => if a = b then .ok [a, b] else .error .ValueError
    | _ => .error .Unmodelled
  norm := fun _ rows => match rows with
    | [xs, ys] => do
        let y ← irrNorm xs ys
        .ok [xs, y]
    | _ => .error .Unmodelled

/-- an element is a negative number (`nan < 0` is `False`) -/
def Elem.neg : Elem K → Bool
  | .num (some x) => decide (x < 0)
  | _ => false

/-- `mixmod_gen`, `mixmod_pdf.py` 42-68. Arguments with different numbers of components broadcast: `Mismatch.lean`, not here. -/
def mixCls : RowCls K where
  name := "mixmod"
  version := 0
  metaArgs := []
  rowArgs := ["means", "stds", "weights"]
  needsRows := false
  leadErr := .Unmodelled
  metaOut := fun _ => .ok []
  widths := fun _ ws => match ws with
    | [a, b, c] => if a = b ∧ a = c then .ok [a, b, c] else .error .Unmodelled
    | _ => .error .Unmodelled
  norm := fun _ rows => match rows with
    | [mu, sd, w] =>
      if w.any Elem.neg then .error .ValueError
      else do
        let w' ← liftRow mixNormRow w
        .ok [mu, sd, w']
    | _ => .error .Unmodelled

/-- the string in a keyword argument, `str(value)` (of strings only) -/
def strArg (m : Dict K) (key : String) : Except Err String :=
  match argData m key with
  | some [.str s] => .ok s
  | some _ => .error .Unmodelled
  | none => .error .TypeError

/-- the quantiles stored, and the lines of locations stored for one line of locations -/
def quantRow (m : Dict K) (row : List K) : Except Err (List K × List K) := do
  let q ← grid1 m "quants"
  let (q', l) ← quantInit q [row] (truthy m "check_input")
  match l with
  | [r] => .ok (q', r)
  | _ => .error .Unmodelled

/-- the quantiles stored (they do not depend on the locations), `quant_pdf.py` 118-123 -/
def quantMeta (m : Dict K) : Except Err (List K) := do
  let q ← grid1 m "quants"
  let (q', _) ← quantInit q [] (truthy m "check_input")
  .ok q'

/-- `quant_gen`, `quant_pdf.py` 103-144. Locations are finite here (`Unmodelled` otherwise). An unknown reconstruction is a
`KeyError` (`PDF_CONSTRUCTORS[...]`). A wrong number of locations is a `ValueError`; a single one is broadcast when quantiles are added and then the second one is missing
(`IndexError`). Which exception comes first if several things are wrong is not followed, nor quantiles given as a Python list (`AttributeError` in `pad_quantiles`). -/
def quantCls : RowCls K where
  name := "quant"
  version := 0
  metaArgs := [("quants", none), ("pdf_constructor_name", some (.py (.str "piecewise_linear"))), checkInputArg]
  rowArgs := ["locs"]
  needsRows := true
  leadErr := .ValueError
  metaOut := fun m => do
    let q ← quantMeta m
    let s ← strArg m "pdf_constructor_name"
    if (pdfConstructors.lookup s).isSome then
      .ok [("quants", vec q), ("pdf_constructor_name", ⟨[], [.str s]⟩), ("check_input", ⟨[], [.bool (truthy m "check_input")]⟩)]
    else .error .KeyError
  widths := fun m ws => do
    let q ← grid1 m "quants"
    let q' ← quantMeta m
    if ws = [q.length] then .ok [q'.length]
    else if ws = [1] ∧ q'.length ≠ q.length then .error .IndexError
    else .error .ValueError
  norm := fun m rows => match rows with
    | [r] => match finites r with
      | none => .error .Unmodelled
      | some l => do
        let (_, l') ← quantRow m l
        .ok [nums l']
    | _ => .error .Unmodelled

/-- a number among the arguments -/
def numArg (m : Dict K) (key : String) : Except Err K :=
  match argData m key with
  | some [.num (some x)] => .ok x
  | some _ => .error .Unmodelled
  | none => .error .TypeError

/-- `packed_interp_gen`, `packed_interp_pdf.py` 66-123: the packed tables are stored as given (the unpacked, normalised values
are derived from them when the object is built, see `Packing.lean`). Packing codes: 0 linear, 1 log; others raise `ValueError`
when the values are unpacked in the constructor, which happens when the object is frozen whatever `check_input` says. There the maxima are multiplied with the packed values:
one for each PDF or one for each value, otherwise `ValueError`. Text in the tables raises `TypeError` there. Which exception comes first if several things are wrong is not followed. -/
def packedCls : RowCls K where
  name := "packed_interp"
  version := 0
  metaArgs := [("xvals", none), ("packing_type", some (.py (.num (some 0)))), ("log_floor", some (.py (.num (some (-3))))), checkInputArg]
  rowArgs := ["ypacked", "ymax"]
  needsRows := false
  leadErr := .Unmodelled
  metaOut := fun m => do
    let x ← grid1 m "xvals"
    let p ← numArg m "packing_type"
    let f ← numArg m "log_floor"
    if x.length < 2 then .error .IndexError
    else if p ≠ 0 ∧ p ≠ 1 then .error .ValueError
    else .ok [("xvals", vec x), ("packing_type", ⟨[], [.num (some p)]⟩), ("log_floor", ⟨[], [.num (some f)]⟩)]
  widths := fun m ws => do
    let x ← grid1 m "xvals"
    match ws with
    | [a, b] => if a = x.length ∧ (b = 1 ∨ b = a) then .ok [a, b] else .error .ValueError
    | _ => .error .Unmodelled
  norm := fun _ rows => if rows.any (·.any Elem.isText) then .error .TypeError else .ok rows

/-- `sparse_gen`, `sparse_pdf.py` 34-62: the codes of the basis functions are stored as given, the grid and the parameters of the
dictionary as metadata. `cut` only enters the densities derived from them (`SparsePdf.lean`) and is not recorded. The limits of the two
ranges and the first three dimensions are looked up (`IndexError`). Codes that point outside the dictionary (`IndexError`) are modelled
in `SparseTable.lean`, not here; the keyword `yvals`, which would replace the densities, is not modelled. -/
def sparseCls : RowCls K where
  name := "sparse"
  version := 0
  metaArgs := [("xvals", none), ("mu", none), ("sig", none), ("dims", none), ("cut", some (.py (.num (some (1 / 100000))))), checkInputArg]
  rowArgs := ["sparse_indices"]
  needsRows := false
  rank2 := true
  leadErr := .ValueError
  metaOut := fun m => do
    let x ← grid1 m "xvals"
    let mu ← grid1 m "mu"
    let sig ← grid1 m "sig"
    let dims ← grid1 m "dims"
    if x.length < 2 ∨ mu.length < 2 ∨ sig.length < 2 ∨ dims.length < 3 then .error .IndexError
    else .ok [("xvals", vec x), ("mu", vec mu), ("sig", vec sig), ("dims", vec dims)]
  widths := fun _ ws =>
    match ws with
    | [a] => .ok [a]
    | _ => .error .Unmodelled
  norm := fun _ rows => .ok rows

/-- `spline_gen`, `spline_pdf.py` 115-154. Orders with another leading shape than the knots are accepted by the code and make the first evaluation fail (`Mismatch.lean`); here they are a `ValueError`.
`np.min(splx)` raises `TypeError` if there is text among the knots (all arguments are arrays of one type); coefficients and orders are not looked at. -/
def splineCls : RowCls K where
  name := "spline"
  version := 0
  metaArgs := []
  rowArgs := ["splx", "sply", "spln"]
  needsRows := true
  leadErr := .ValueError
  metaOut := fun _ => .ok []
  widths := fun _ ws => match ws with
    | [a, b, n] => if a = b then .ok [a, b, n] else .error .ValueError
    | _ => .error .Unmodelled
  norm := fun _ rows => if (rows.headD []).any Elem.isText then .error .TypeError else .ok rows

end Verif.Model

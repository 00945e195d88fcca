import Verif.Np.Interp
import Verif.Model.EvalCase
import Verif.Model.Bins

/-!
# Quantile distributions

Source: `/repo/src/qp/quant_pdf.py` and `/repo/src/qp/quantile_pdf_constructors/*.py`.
-/

namespace Verif.Model

open Verif Verif.Np

variable {K : Type*} [Field K] [LinearOrder K]

/-- `sys.float_info.epsilon` = 2^-52 -/
def floatEps : K := 1 / 4503599627370496

/-- the location put in front, `quant_pdf.py` 63-65 -/
def padLo : List K → List K → Option K
  | q0 :: q1 :: _, l0 :: l1 :: _ => some (l0 - q0 * (l1 - l0) / (q1 - q0))
  | _, _ => none

/-- the location put at the end, `quant_pdf.py` 69-71; the arguments are the reversed lists -/
def padHi : List K → List K → Option K
  | qn :: qm :: _, ln :: lm :: _ => some (ln - (1 - qn) * (lm - ln) / (qn - qm))
  | _, _ => none

/-- one row of `locs_out`, `quant_pdf.py` 59-71; `none` is `IndexError` (fewer than two columns) -/
def padRow (lo hi : Bool) (q l : List K) : Option (List K) := do
  let pre ← if lo then (padLo q l).map (fun a => [a]) else some []
  let post ← if hi then (padHi q.reverse l.reverse).map (fun a => [a]) else some []
  some (pre ++ l ++ post)

/-- `pad_quantiles(quants, locs)`, `quant_pdf.py` 26-73. -/
def padQuantiles (quants : List K) (locs : List (List K)) : Except Err (List K × List (List K)) :=
  match quants.head?, quants.getLast? with
  | some q0, some qn =>
    let lo := decide (floatEps < q0)
    let hi := decide (qn < 1)
    if !lo && !hi then .ok (quants, locs)
    else if locs.any (fun r => r.length ≠ quants.length ∧ r.length ≠ 1) then .error .ValueError
    else if quants.length < 2 then .error .IndexError
    else
      match locs.mapM (padRow lo hi quants) with
      | none => .error .IndexError
      | some ls => .ok ((if lo then [0] else []) ++ quants ++ (if hi then [1] else []), ls)
  | _, _ => .error .IndexError

/-- what `quant_gen.__init__` stores, `quant_pdf.py` 115-130: `(quants, locs)`. -/
def quantInit (quants : List K) (locs : List (List K)) (checkInput : Bool) :
    Except Err (List K × List (List K)) :=
  match (if checkInput then padQuantiles quants locs else .ok (quants, locs)) with
  | .error e => .error e
  | .ok (q, l) => if l.any (fun r => r.length ≠ q.length) then .error .ValueError else .ok (q, l)

/-! ### CDF: `interp1d(kind="quadratic")` -/

/-- `_cdf` of one row, `quant_pdf.py` 218-228: `spl` is the quadratic interpolant that scipy builds from the knots; outside
the locations the fill values 0 and 1 are used. -/
def quantCdf (spl : List (K × K) → K → K) (quants locs : List K) (x : K) : Option K :=
  match locs with
  | [] => none
  | l0 :: t =>
    if x < l0 then some 0
    else if (l0 :: t).getLast (by simp) < x then some 1
    else some (spl ((l0 :: t).zip quants) x)

/-- The parabola through three points (Newton form). scipy's `kind="quadratic"` interpolant of three knots has no interior
break point (`make_interp_spline`, k=2), so it is this parabola. -/
def parabola (p0 p1 p2 : K × K) (x : K) : K :=
  let s1 := (p1.2 - p0.2) / (p1.1 - p0.1)
  let s2 := (p2.2 - p1.2) / (p2.1 - p1.1)
  p0.2 + s1 * (x - p0.1) + (s2 - s1) / (p2.1 - p0.1) * (x - p0.1) * (x - p1.1)

/-- `interp1d(kind="quadratic")` on exactly three knots (on other numbers of knots not defined here: 0) -/
def quadSpline3 : List (K × K) → K → K
  | [p0, p1, p2], x => parabola p0 p1 p2 x
  | _, _ => 0

/-! ### PDF reconstructions -/

/-- `_locations[:,1:] - np.diff(_locations)/2` of one row, `piecewise_linear.py` 43, `piecewise_constant.py` 51 -/
def adjustedLocs : List K → List K
  | a :: b :: t => (b - (b - a) / 2) :: adjustedLocs (b :: t)
  | _ => []

/-- `(_quantiles[1:] - _quantiles[0:-1]) / (_locations[:,1:] - _locations[:,0:-1])` of one row,
`piecewise_linear.py` 37-38 -/
def cdfDerivs (quants locs : List K) : List K := List.zipWith (· / ·) (diff quants) (diff locs)

/-- piecewise linear reconstruction of one row, `piecewise_linear.py` 45-75 (at least two adjusted locations) -/
def linearPdf (quants locs : List K) (x : K) : Option K :=
  interp 0 0 ((adjustedLocs locs).zip (cdfDerivs quants locs)) x

/-- piecewise constant reconstruction of one row, `piecewise_constant.py` 34-85: contents are the derivatives padded with a
zero, the "second derivatives" are differences of contents (not divided by the cell width) padded with a zero. -/
def constantPdf [FloorRing K] (quants locs : List K) (x : K) : Except Err K :=
  let d := cdfDerivs quants locs ++ [0]
  evalHistDeriv (adjustedLocs locs) d (diff d ++ [0]) x

/-- the loop of `dual_spline_average.py` 70-72 -/
def dualGo (p : K) : List K → List K
  | [] => []
  | f :: t => max 0 (f - p) :: dualGo (max 0 (f - p)) t

/-- `_p_of_zs` of one row, `dual_spline_average.py` 60-75 -/
def dualNodes (quants locs : List K) : List K :=
  0 :: dualGo 0 (List.zipWith (fun a b => 2 * a / b) (diff quants) (diff locs))

/-- `a[0::2]` -/
def evens {α : Type*} : List α → List α
  | [] => []
  | [a] => [a]
  | a :: _ :: t => a :: evens t

/-- `a[1::2]` -/
def odds {α : Type*} : List α → List α
  | [] => []
  | [_] => []
  | _ :: b :: t => b :: odds t

/-- `interp1d(..., bounds_error=False, fill_value=0.0, kind='cubic')` around the interpolant `spl` -/
def fillZero (spl : List (K × K) → K → K) (knots : List (K × K)) (x : K) : Option K :=
  match knots with
  | [] => none
  | p :: t => some (if x < p.1 then 0 else if ((p :: t).getLast (by simp)).1 < x then 0 else spl (p :: t) x)

/-- dual spline reconstruction of one row, `dual_spline_average.py` 77-135 -/
def dualPdf (spl : List (K × K) → K → K) (quants locs : List K) (x : K) : Option K := do
  let kn := locs.zip (dualNodes quants locs)
  let y1 ← fillZero spl (evens kn) x
  let y2 ← fillZero spl (odds kn) x
  some ((y1 + y2) / 2)

/-- the cubic through four points (Lagrange form), which is what scipy's `kind="cubic"` gives for four knots; 0 for other
numbers of knots (not defined here) -/
def cubicSpline4 : List (K × K) → K → K
  | [p0, p1, p2, p3], x =>
    p0.2 * ((x - p1.1) / (p0.1 - p1.1)) * ((x - p2.1) / (p0.1 - p2.1)) * ((x - p3.1) / (p0.1 - p3.1)) +
    p1.2 * ((x - p0.1) / (p1.1 - p0.1)) * ((x - p2.1) / (p1.1 - p2.1)) * ((x - p3.1) / (p1.1 - p3.1)) +
    p2.2 * ((x - p0.1) / (p2.1 - p0.1)) * ((x - p1.1) / (p2.1 - p1.1)) * ((x - p3.1) / (p2.1 - p3.1)) +
    p3.2 * ((x - p0.1) / (p3.1 - p0.1)) * ((x - p1.1) / (p3.1 - p1.1)) * ((x - p2.1) / (p3.1 - p2.1))
  | _, _ => 0

/-- `construct_pdf(grid, row)` of the two spline reconstructions (`cdf_spline_derivative.py` 58-89,
`dual_spline_average.py` 77-135), `fs` being the reconstructed density of each row: an array with one line per *distinct* row
number, each evaluated on the whole of `grid`, here ravelled. -/
def splineConstruct {β : Type*} (fs : List (K → β)) (grid : Pts K) (row : Pts ℕ) : Except Err (List β) :=
  match (unique row.ravel).mapM (fun r => fs[r]?) with
  | none => .error .IndexError
  | some sel => .ok (sel.flatMap fun f => grid.ravel.map f)

/-! ### choice of the reconstruction -/

/-- keys of `PDF_CONSTRUCTORS`, `quant_pdf.py` 77-82 -/
inductive Recon
  | cdfSplineDerivative | dualSplineAverage | piecewiseLinear | piecewiseConstant
  deriving DecidableEq, Repr

/-- `PDF_CONSTRUCTORS`, `quant_pdf.py` 77-82 -/
def pdfConstructors : List (String × Recon) :=
  [("cdf_spline_derivative", .cdfSplineDerivative), ("dual_spline_average", .dualSplineAverage),
   ("piecewise_linear", .piecewiseLinear), ("piecewise_constant", .piecewiseConstant)]

/-- the attributes of a `quant_gen` object that the choice concerns -/
structure QuantState where
  /-- `_pdf_constructor_name` -/
  name : String
  /-- class of `_pdf_constructor` -/
  inUse : Recon
  /-- `metadata["pdf_constructor_name"]` -/
  metaName : String
  deriving DecidableEq, Repr

/-- `quant_gen.__init__`, `quant_pdf.py` 132-136 and 142; an unknown name raises `KeyError` in `_instantiate_pdf_constructor` (204-207). -/
def quantStateInit (name : String) : Except Err QuantState :=
  match pdfConstructors.lookup name with
  | none => .error .KeyError
  | some r => .ok ⟨name, r, name⟩

/-- the setter, `quant_pdf.py` 162-190. `sameObject`: whether the string passed is the very object stored
(`value is self._pdf_constructor_name`), which can only be when the strings are equal. Returns the state left behind and
the exception raised, if any. -/
def setRecon (s : QuantState) (value : String) (sameObject : Bool) : QuantState × Option Err :=
  match pdfConstructors.lookup value with
  | none => (s, some .ValueError)
  | some r =>
    if sameObject ∧ value = s.name then (s, none)
    else (⟨value, r, value⟩, none)

end Verif.Model

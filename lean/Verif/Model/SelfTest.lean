import Verif.Model.Err
import Verif.Np.Basic
import Verif.Np.Linspace

/-!
# The generic tests of distribution classes, `test_funcs.py`

`docs/contributing.rst` 213-228 describes them as the checks a new distribution class has to pass. The functions take a distribution and call its methods, so
a distribution is a record of these methods here. An evaluation on `m` points gives an array with a row for every PDF; it is a function of the
row and the column. `none` stands for `nan`; infinite values are not modelled. The files and the plots of `persist_func_test` and `plotting_func_tests` are not
modelled.
-/

set_option linter.unusedSectionVars false
set_option autoImplicit false

namespace Verif.Model

open Verif

variable {K : Type} [Field K] [LinearOrder K] [IsStrictOrderedRing K]

/-- the array that an evaluation returns: row, column -/
abbrev Vals (K : Type) := ℕ → ℕ → Option K

/-- `NPDF`, `test_data.py` 9 -/
def selfNpdf : ℕ := 11

/-- `np.linspace(0.01, 0.99, 50)`, `test_funcs.py` 82 -/
def selfQuants : List K := Np.linspace (1 / 100) (99 / 100) 50

/-- The frozen distribution that is tested. `shape` is its `shape` when that is a tuple; `npdf` and `ndim` are `np.prod(shape)` and `np.size(shape)`, `pdf_gen.py` 182-183,
230-231. `pdf`, `cdf`, `ppf`, `sf`, `isf` take one list of points for all PDFs, `pdfAt` one point, `pdfEach`, `ppfEach` an array with one point for
every PDF (shape `(npdf, 1)`), `cdfOf`, `cdfEach` arrays as returned by `ppf`, `ppfEach`. -/
structure Tested (K : Type) where
  shape : List ℕ
  /-- `dist.npdf` if the distribution has this attribute -/
  distNpdf : Option ℕ
  /-- the keys of `kwds` whose value is not `None` -/
  kwds : List String
  /-- the attributes of the distribution -/
  attrs : List String
  pdf : List K → Except Err (Vals K)
  pdfAt : K → Except Err (ℕ → Option K)
  pdfEach : List K → Except Err (ℕ → Option K)
  cdf : List K → Except Err (Vals K)
  cdfOf : Vals K → Except Err (Vals K)
  cdfEach : (ℕ → Option K) → Except Err (ℕ → Option K)
  ppf : List K → Except Err (Vals K)
  ppfEach : List K → Except Err (ℕ → Option K)
  sf : List K → Except Err (Vals K)
  isf : List K → Except Err (Vals K)

/-- difference of two numbers that can be `nan` -/
def nanSub : Option K → Option K → Option K
  | some a, some b => some (a - b)
  | _, _ => none

/-- sum of two numbers that can be `nan` -/
def nanAdd : Option K → Option K → Option K
  | some a, some b => some (a + b)
  | _, _ => none

/-- `np.isclose(v, 0, atol=tol)`: the relative tolerance is multiplied by zero, `nan` is not close -/
def isSmall (tol : K) : Option K → Bool
  | some a => decide (|a| ≤ tol)
  | none => false

/-- `assert_all_small(arr, atol=tol)` for an array of `n` rows and `m` columns, `test_funcs.py` 24-28 -/
def assertAllSmall (tol : K) (n m : ℕ) (arr : Vals K) : Except Err Unit :=
  if (List.range n).all (fun i => (List.range m).all fun j => isSmall tol (arr i j)) then .ok () else .error .ValueError

/-- one entry of `(pdfs[:, 0:-1] + pdfs[:, 1:]) * binw / 2`, `test_funcs.py` 86 -/
def trapTerm (xs : List K) (f : ℕ → Option K) (k : ℕ) : Option K :=
  (nanAdd (f k) (f (k + 1))).map fun s => s * (xs.getD (k + 1) 0 - xs.getD k 0) / 2

/-- `.cumsum(axis=-1)` of these entries, `test_funcs.py` 86 -/
def cumTrap (xs : List K) (f : ℕ → Option K) : ℕ → Option K
  | 0 => trapTerm xs f 0
  | j + 1 => nanAdd (cumTrap xs f j) (trapTerm xs f (j + 1))

/-- The attributes of the class, `test_funcs.py` 51-62: the arguments of the constructor are kept, the number of PDFs is the one of the class, there are
eleven PDFs along the last axis. -/
def propsStage (t : Tested K) (keys : List String) (checkProps : Bool) : Except Err Unit :=
  if checkProps && !(keys.all fun k => t.kwds.contains k || t.attrs.contains k) then .error .ValueError
  else if t.distNpdf.any (· != t.shape.prod) then .error .AssertionError
  else match t.shape.getLast? with
    | none => .error .IndexError
    | some l => if l = selfNpdf then .ok () else .error .AssertionError

/-- Single points and one point per PDF, `test_funcs.py` 65-75. -/
def sliceStage (t : Tested K) (xpts : List K) (pdfs : Vals K) : Except Err Unit :=
  match xpts[5]? with
  | none => .error .IndexError
  | some x5 => do
    let one ← t.pdfAt x5
    assertAllSmall (1 / 50) t.shape.prod 1 fun i _ => nanSub (pdfs i 5) (one i)
    if xpts.length < t.shape.prod then .error .IndexError
    else do
      let each ← t.pdfEach (xpts.take t.shape.prod)
      assertAllSmall (1 / 50) t.shape.prod 1 fun i _ => nanSub (pdfs i i) (each i)

/-- CDF against the trapezoid rule, `test_funcs.py` 81-94 -/
def cdfStage (t : Tested K) (xpts : List K) (pdfs cdfs : Vals K) : Except Err Unit :=
  assertAllSmall (1 / 5) t.shape.prod (xpts.length - 1) fun i j => nanSub (cumTrap xpts (pdfs i) j) (cdfs i (j + 1))

/-- Quantiles, `test_funcs.py` 96-106. The second half only for `ndim == 1`. -/
def ppfStage (t : Tested K) (back : Vals K) : Except Err Unit := do
  assertAllSmall (1 / 50) t.shape.prod 50 fun i k => nanSub (back i k) (selfQuants[k]?)
  if t.shape.length = 1 then
    if 50 < t.shape.prod then .error .IndexError
    else do
      let p ← t.ppfEach (selfQuants.take t.shape.prod)
      let c ← t.cdfEach p
      assertAllSmall (1 / 50) t.shape.prod 1 fun i _ => nanSub (c i) (selfQuants[i]?)
  else .ok ()

/-- Survival function and its inverse, `test_funcs.py` 108-114. The result of `isf` is thrown away: line 113 uses the quantiles of line 96. -/
def sfStage (t : Tested K) (xpts : List K) (cdfs back : Vals K) : Except Err Unit := do
  let sfs ← t.sf xpts
  assertAllSmall (1 / 100000) t.shape.prod xpts.length fun i j => nanSub (nanAdd (sfs i j) (cdfs i j)) (some 1)
  let _ ← t.isf selfQuants
  assertAllSmall (1 / 20) t.shape.prod 50 fun i k => nanSub (nanAdd (back i k) (selfQuants.reverse[k]?)) (some 1)

/-- The part that `short` skips, `test_funcs.py` 80-114. `cdf(ppfs)` is called twice with the same argument in the code (97, 113), once here. -/
def longStage (t : Tested K) (xpts : List K) (pdfs : Vals K) : Except Err Unit := do
  let cdfs ← t.cdf xpts
  cdfStage t xpts pdfs cdfs
  let ppfs ← t.ppf selfQuants
  let back ← t.cdfOf ppfs
  ppfStage t back
  sfStage t xpts cdfs back

/-- `pdf_func_tests(pdf, test_data, short, check_props)`, `test_funcs.py` 46-115, for the points `test_data["test_xvals"]` and the keys of `test_data["ctor_data"]`. More than
two axes are not modelled (line 89 slices the wrong axis). -/
def pdfFuncTests (t : Tested K) (xpts : List K) (keys : List String) (short checkProps : Bool) : Except Err Unit :=
  propsStage t keys checkProps >>= fun _ =>
  if 2 < t.shape.length then .error .Unmodelled
  else t.pdf xpts >>= fun pdfs =>
    (if t.shape.length = 1 then sliceStage t xpts pdfs else .ok ()) >>= fun _ =>
    if short then .ok () else longStage t xpts pdfs

/-- `run_pdf_func_tests(test_class, test_data, short, check_props)`, `test_funcs.py` 118-138: `ctor` is the result of the constructor (`none`: there is no
creation method of the name), `alloc` the shapes in `get_allocation_kwds`, `size` the number of entries of the arguments of the constructor. -/
def runPdfFuncTests (ctor : Option (Except Err (Tested K))) (alloc : List (String × List ℕ)) (size : String → Option ℕ) (xpts : List K) (keys : List String)
    (short checkProps : Bool) : Except Err Unit :=
  match ctor with
  | none => .error .KeyError
  | some (.error _) => .error .ValueError
  | some (.ok t) => do
    alloc.forM fun a =>
      match size a.1 with
      | none => .error .KeyError
      | some s => if a.2.prod = s then .ok () else .error .AssertionError
    pdfFuncTests t xpts keys short checkProps

/-- `np.mean(xpts[1:] - xpts[0:-1])`, `test_funcs.py` 196; `nan` for fewer than two points -/
def meanStep (xpts : List K) : Option K :=
  if xpts.length < 2 then none else some (Np.sum (Np.diff xpts) / (xpts.length - 1 : ℕ))

/-- one of the two comparisons in `run_convert_tests`, `test_funcs.py` 197-206, of `n` PDFs with `n'` converted ones, with `atol = tol / binw`. The arrays
are broadcast: a single PDF is compared with all. A mean step of zero (an infinite tolerance) is not modelled. -/
def convertDiffs (tol : K) (xpts : List K) (n n' : ℕ) (orig conv : Vals K) : Except Err Unit :=
  if n ≠ n' ∧ n ≠ 1 ∧ n' ≠ 1 then .error .ValueError
  else
    let rows := if n = 1 then n' else n
    let diffs : Vals K := fun i j => nanSub (orig (if n = 1 then 0 else i) j) (conv (if n' = 1 then 0 else i) j)
    match meanStep xpts with
    | none => if rows * xpts.length = 0 then .ok () else .error .ValueError
    | some w => if w = 0 then .error .Unmodelled else assertAllSmall (tol / w) rows xpts.length diffs

/-- `run_convert_tests(ens_orig, gen_class, test_data, atol_diff, atol_diff2)`, `test_funcs.py` 191-213, for ensembles with one index: `n` PDFs, the two
conversions have `n1` and `n2`. With one index the comparisons of `shape[:-1]` in 208-211 are those of empty tuples; the one of `dist.shape[:-1]` in 212-213 is that
`distShape`, if present, has one entry. -/
def runConvertTests (tol1 tol2 : K) (xpts : List K) (n : ℕ) (orig : List K → Except Err (Vals K)) (conv1 conv2 : Except Err (ℕ × (List K → Except Err (Vals K))))
    (distShape : Option (List ℕ)) : Except Err Unit := do
  let c1 ← conv1
  let o ← orig xpts
  let v1 ← c1.2 xpts
  convertDiffs tol1 xpts n c1.1 o v1
  let c2 ← conv2
  let o2 ← orig xpts
  let v2 ← c2.2 xpts
  convertDiffs tol2 xpts n c2.1 o2 v2
  if distShape.any (fun s => s.dropLast != []) then .error .AssertionError else .ok ()

end Verif.Model

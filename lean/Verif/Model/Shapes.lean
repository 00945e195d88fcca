import Verif.Np.Arr
import Verif.Np.Basic

/-!
# Shapes of ensembles: flattening, restoring, `histogramize`, `integrate`, `mode`

Sources: `/repo/src/qp/utils.py` 875-915, `/repo/src/qp/pdf_gen.py` 200-217 and 227-270, `/repo/src/qp/ensemble.py`
302-321 and 541-576.
-/

set_option linter.unusedSectionVars false
set_option autoImplicit false

namespace Verif.Model

open Verif Verif.Np

variable {α : Type} {K : Type} [Field K] [LinearOrder K]

/-- `reshape_to_pdf_size(vals, -1)`, `utils.py` 875-894; every caller passes `split_dim = -1`. For a 0-d array `per_pdf` is
`()`, `np.hstack` of an integer and an empty tuple is a float array, and `reshape` raises `TypeError`. -/
def reshapeToPdfSize (a : Arr α) : Except Err (Arr α) :=
  match a.shape.getLast? with
  | none => .error .TypeError
  | some m => a.reshape [a.shape.dropLast.prod, m]

/-- `reshape_to_pdf_shape(vals, pdf_shape, per_pdf)`, `utils.py` 897-915, with an integer `per_pdf` as in both callers. For
`pdf_shape = ()` the `np.hstack` is a float array and `reshape` raises `TypeError`. -/
def reshapeToPdfShape (a : Arr α) (pdfShape : List ℕ) (perPdf : ℕ) : Except Err (Arr α) :=
  if pdfShape = [] then .error .TypeError else a.reshape (pdfShape ++ [perPdf])

/-- the `row` argument of a frozen row distribution, `np.expand_dims(np.arange(npdf).reshape(shape), -1)`,
`pdf_gen.py` 230-235 -/
def rowArray (shape : List ℕ) : Except Err (Arr ℕ) := do
  let r ← (⟨[shape.prod], List.range shape.prod⟩ : Arr ℕ).reshape shape
  .ok r.expandLast

/-- `ens.integrate((a, b))` of one PDF, `ensemble.py` 576 -/
def integrate (cdf : K → K) (a b : K) : K := cdf b - cdf a

/-- `histogramize(bins)`, `pdf_gen.py` 200-217 and 253-270. `cdfArr` is the array `self.cdf(bins)` (shape of the ensemble
followed by the number of edges). The bin values returned next to `bins`. With no edges at all numpy would be asked for a
negative axis length; not followed. -/
def histogramize (cdfArr : Arr K) (pdfShape : List ℕ) (bins : List K) : Except Err (Arr K) := do
  let c ← reshapeToPdfSize cdfArr
  if bins = [] then .error .Unmodelled
  else reshapeToPdfShape (.ofRows [bins.length - 1] (c.rows.map diff)) pdfShape (bins.length - 1)

/-- column `k` of a block of `n` lines of length `w` -/
def blockColumn (d : List α) (w n k : ℕ) : List α := (List.range n).filterMap fun j => d[j * w + k]?

/-- `np.argmax(a, axis=1)` as an array of indices: for `a` of shape `(n, m) + t` the shape is `(n,) + t`. Rank below two:
`AxisError`, a `ValueError`. -/
def argmaxAxis1 (a : Arr K) : Except Err (Arr ℕ) :=
  match a.shape with
  | n :: m :: t =>
    if m = 0 then .error .ValueError
    else .ok ⟨n :: t, a.rows.flatMap fun r =>
      (List.range t.prod).map fun k => (argmax (blockColumn r t.prod m k)).getD 0⟩
  | _ => .error .ValueError

/-- `mode(grid)`, `ensemble.py` 302-321; `griddata` is the array `pdf(grid)`. `new_grid[idx]` raises `IndexError` for an
index beyond the grid. -/
def mode (grid : List K) (griddata : Arr K) : Except Err (Arr K) := do
  let idx ← argmaxAxis1 griddata
  match idx.data.mapM (fun (i : ℕ) => grid[i]?) with
  | none => .error .IndexError
  | some v => .ok (⟨idx.shape, v⟩ : Arr K).expandLast

end Verif.Model
